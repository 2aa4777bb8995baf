import Verif.Model.Ad2cpRead
import Verif.Props.Ad2cp
import Verif.Props.Ad2cpIndex
import Mathlib.Tactic.Linarith
import Mathlib.Data.List.Chain

/-!
Properties of the reading loop of AD2CP files: C47, C88.
-/

namespace Dolfyn

/-! ### Ensemble counting -/

/-- Strictly increasing positions inside the file. -/
def Spec.Positions (E : List ℕ) (eof : ℕ) : Prop :=
  (∀ (i j x y : ℕ), i < j → E[i]? = some x → E[j]? = some y → x < y) ∧ ∀ x ∈ E, x ≤ eof

theorem adPosnow_some (E : List ℕ) (eof e x : ℕ) (h : E[e + 1]? = some x) :
    adPosnow E eof e = x := by simp [adPosnow, h]

theorem adPosnow_none (E : List ℕ) (eof e : ℕ) (h : E.length ≤ e + 1) :
    adPosnow E eof e = eof + 1 := by simp [adPosnow, List.getElem?_eq_none h]

/-- The counter never decreases. -/
theorem adAdvance_ge (E : List ℕ) (eof nt p e : ℕ) : e ≤ adAdvance E eof nt p e := by
  fun_induction adAdvance E eof nt p e with
  | case1 => omega
  | case2 e h1 h2 ih => omega
  | case3 => omega

/-- At the position of ensemble `a` the counter is `a`. -/
theorem adAdvance_at (E : List ℕ) (eof nt a x : ℕ) (hE : Spec.Positions E eof) (hx : E[a]? = some x)
    (hnt : a < nt) (e : ℕ) (he : e ≤ a) : adAdvance E eof nt x e = a := by
  have hlen : a < E.length := by
    by_contra h
    rw [List.getElem?_eq_none (by omega)] at hx; cases hx
  obtain ⟨d, hd⟩ : ∃ d, a = e + d := ⟨a - e, by omega⟩
  induction d generalizing e with
  | zero =>
    have he' : e = a := by omega
    subst he'
    rw [adAdvance, if_neg]
    by_cases h : e + 1 < E.length
    · rw [adPosnow_some E eof e _ (List.getElem?_eq_getElem h)]
      have := hE.1 e (e + 1) x _ (by omega) hx (List.getElem?_eq_getElem h)
      omega
    · rw [adPosnow_none E eof e (by omega)]
      have := hE.2 x (List.mem_of_getElem? hx)
      omega
  | succ d ih =>
    have h1 : e + 1 < E.length := by omega
    have hle : adPosnow E eof e ≤ x := by
      rw [adPosnow_some E eof e _ (List.getElem?_eq_getElem h1)]
      by_cases h : e + 1 = a
      · have : E[e + 1]? = some x := by rw [h]; exact hx
        rw [List.getElem?_eq_getElem h1] at this
        rw [Option.some.inj this]
      · have := hE.1 (e + 1) a _ x (by omega) (List.getElem?_eq_getElem h1) hx
        omega
    rw [adAdvance, if_pos hle]
    split
    · omega
    · exact ih (e + 1) (by omega) (by omega)

/-- Before the position of ensemble `a` the counter stays below `a`. -/
theorem adAdvance_lt (E : List ℕ) (eof nt a x p : ℕ) (hx : E[a]? = some x)
    (hp : p < x) (e : ℕ) (he : e < a) : adAdvance E eof nt p e < a := by
  have hlen : a < E.length := by
    by_contra h
    rw [List.getElem?_eq_none (by omega)] at hx; cases hx
  fun_induction adAdvance E eof nt p e with
  | case1 e h1 h2 =>
    rw [adPosnow_some E eof e _ (List.getElem?_eq_getElem (by omega))] at h1
    by_contra h
    have : e + 1 = a := by omega
    have h' : E[e + 1]? = some x := by rw [this]; exact hx
    rw [List.getElem?_eq_getElem (by omega)] at h'
    have := Option.some.inj h'
    omega
  | case2 e h1 h2 ih =>
    apply ih
    rw [adPosnow_some E eof e _ (List.getElem?_eq_getElem (by omega))] at h1
    by_contra h
    have : e + 1 = a := by omega
    have h' : E[e + 1]? = some x := by rw [this]; exact hx
    rw [List.getElem?_eq_getElem (by omega)] at h'
    have := Option.some.inj h'
    omega
  | case3 => exact he

/-! ### The loop -/

/-- The records from position `p` on lead to position `q`, staying below it before. -/
inductive Spec.Reaches (recAt : ℕ → Except AdStop AdRecInfo) : ℕ → ℕ → Prop
  | refl (p : ℕ) : Spec.Reaches recAt p p
  | step {p q : ℕ} {r : AdRecInfo} (h : recAt p = .ok r) (hlt : p < r.next)
      (hr : Spec.Reaches recAt r.next q) : Spec.Reaches recAt p q

theorem reaches_le {recAt : ℕ → Except AdStop AdRecInfo} {p q : ℕ} (h : Spec.Reaches recAt p q) :
    p ≤ q := by
  induction h with
  | refl => exact le_refl _
  | step h hlt hr ih => omega

/-- Column of a stored item. -/
def AdWrite.col : AdWrite → ℕ
  | .ping _ c _ => c | .alt _ _ c _ => c | .str c _ _ => c

/-- A stored item with its column moved down by `a`. -/
def AdWrite.shift (a : ℕ) : AdWrite → AdWrite
  | .ping id c l => .ping id (c - a) l
  | .alt id k c l => .alt id k (c - a) l
  | .str c sid s => .str (c - a) sid s

/-- The part of a full read that belongs to the ensembles `a, …, b - 1`, renumbered from zero. -/
def Spec.slice (a b : ℕ) (l : List AdWrite) : List AdWrite :=
  (l.filter (fun w => a ≤ w.col ∧ w.col < b)).map (AdWrite.shift a)

theorem slice_append (a b : ℕ) (l m : List AdWrite) :
    Spec.slice a b (l ++ m) = Spec.slice a b l ++ Spec.slice a b m := by
  simp [Spec.slice]

theorem slice_below (a b : ℕ) (l : List AdWrite) (h : ∀ w ∈ l, w.col < a) : Spec.slice a b l = [] := by
  unfold Spec.slice
  rw [List.filter_eq_nil_iff.mpr, List.map_nil]
  intro w hw
  have := h w hw
  simp; omega

theorem slice_above (a b : ℕ) (l : List AdWrite) (h : ∀ w ∈ l, b ≤ w.col) : Spec.slice a b l = [] := by
  unfold Spec.slice
  rw [List.filter_eq_nil_iff.mpr, List.map_nil]
  intro w hw
  have := h w hw
  simp; omega

/-- No raw altimeter records. -/
def Spec.NoAlt (recAt : ℕ → Except AdStop AdRecInfo) : Prop :=
  ∀ p r, recAt p = .ok r → r.id ≠ 26 ∧ r.id ≠ 31

theorem adStore_col (ctx : AdCtx) (r : AdRecInfo) (c : ℕ) (k k' : ℕ → ℕ) (w : List AdWrite)
    (h : adStore ctx r c k = .ok (w, k')) : ∀ x ∈ w, x.col = c := by
  unfold adStore at h
  split at h
  · split at h
    · split at h
      · cases h
      · split at h
        · cases h
        · cases h; simp [AdWrite.col]
    · split at h
      · cases h
      · cases h; simp [AdWrite.col]
  · cases h; simp [AdWrite.col]
  · cases h; simp

/-- Everything stored from a state on has at least the column of the state. -/
theorem adReadLoop_col (recAt : ℕ → Except AdStop AdRecInfo) (ctx : AdCtx) (fuel p c : ℕ)
    (k : ℕ → ℕ) (l : List AdWrite) (h : adReadLoop recAt ctx fuel p c k = some (.ok l)) :
    ∀ w ∈ l, c ≤ w.col := by
  induction fuel generalizing p c k l with
  | zero => cases h
  | succ fuel ih =>
    rw [adReadLoop] at h
    split at h
    · cases h; simp
    · cases h
    · rename_i r hr
      split at h
      · cases h
      · rename_i w k' hw
        simp only at h
        have hc := adStore_col _ _ _ _ _ _ hw
        split at h
        · cases h
          intro x hx; rw [hc x hx]
        · split at h
          · cases h
          · cases h
          · rename_i l' hl'
            cases h
            intro x hx
            rcases List.mem_append.mp hx with hx | hx
            · rw [hc x hx]
            · have := ih _ _ _ _ hl' x hx
              have := adAdvance_ge ctx.E ctx.eof ctx.nt r.next (c + ctx.start)
              omega

theorem adReadLoop_mono (recAt : ℕ → Except AdStop AdRecInfo) (ctx : AdCtx) (fuel p c : ℕ)
    (k : ℕ → ℕ) (r : Except Err (List AdWrite)) (h : adReadLoop recAt ctx fuel p c k = some r) :
    adReadLoop recAt ctx (fuel + 1) p c k = some r := by
  induction fuel generalizing p c k r with
  | zero => cases h
  | succ fuel ih =>
    rw [adReadLoop] at h ⊢
    split at h
    · exact h
    · exact h
    · rename_i rr hr
      split at h
      · exact h
      · rename_i w k' hw
        simp only at h ⊢
        split at h
        · rename_i hc
          rw [if_pos hc]; exact h
        · rename_i hc
          rw [if_neg hc]
          split at h
          · cases h
          · rename_i e he
            rw [ih _ _ _ _ he]; exact h
          · rename_i l' hl'
            rw [ih _ _ _ _ hl']; exact h

/-- Storing without raw altimeter records depends on the column only through the bound. -/
theorem adStore_shift (ctx ctx' : AdCtx) (r : AdRecInfo) (c a : ℕ) (k k' : ℕ → ℕ) (w : List AdWrite)
    (hid : r.id ≠ 26 ∧ r.id ≠ 31) (ha : a ≤ c) (hb : c - a < ctx'.nens)
    (h : adStore ctx r c k = .ok (w, k')) (j : ℕ → ℕ) :
    adStore ctx' r (c - a) j = .ok (w.map (AdWrite.shift a), j) := by
  unfold adStore at h ⊢
  split at h
  · rename_i l hl
    rw [if_neg (by omega)] at h
    split at h
    · cases h
    · cases h
      rw [if_neg (by omega), if_neg (by omega)]
      rfl
  · rename_i sid s hl
    cases h
    rfl
  · rename_i hl
    cases h
    rfl

/-- From a common state inside the range on, the range read stores the slice of what the full read
stores. -/
theorem adReadLoop_bisim (recAt : ℕ → Except AdStop AdRecInfo) (ctx ctx' : AdCtx) (a b : ℕ)
    (hE : ctx'.E = ctx.E) (heof : ctx'.eof = ctx.eof) (hnt : ctx'.nt = ctx.nt) (h0 : ctx.start = 0)
    (ha : ctx'.start = a) (hb : ctx'.nens = b - a) (hab : a < b) (hbn : b ≤ ctx.nens)
    (hna : Spec.NoAlt recAt) (fuel p e : ℕ) (k j : ℕ → ℕ) (l : List AdWrite) (hae : a ≤ e)
    (heb : e < b) (h : adReadLoop recAt ctx fuel p e k = some (.ok l)) :
    adReadLoop recAt ctx' fuel p (e - a) j = some (.ok (Spec.slice a b l)) := by
  induction fuel generalizing p e k j l with
  | zero => cases h
  | succ fuel ih =>
    rw [adReadLoop] at h ⊢
    split at h
    · rename_i hr
      cases h
      rfl
    · cases h
    · rename_i r hr
      split at h
      · cases h
      · rename_i w k' hw
        have hs := adStore_shift ctx ctx' r e a k k' w (hna p r hr) hae (by omega) hw j
        rw [hs]
        simp only at h ⊢
        have hwc := adStore_col _ _ _ _ _ _ hw
        have hsw : Spec.slice a b w = w.map (AdWrite.shift a) := by
          unfold Spec.slice
          rw [List.filter_eq_self.mpr]
          intro x hx
          rw [hwc x hx]; simp; omega
        have hadv := adAdvance_ge ctx.E ctx.eof ctx.nt r.next e
        rw [hE, heof, hnt, ha, hb, show e - a + a = e by omega]
        rw [h0, Nat.add_zero, Nat.sub_zero] at h
        generalize adAdvance ctx.E ctx.eof ctx.nt r.next e = e' at h hadv
        split at h
        · cases h
          rw [if_pos (by omega), hsw]
        · rename_i hcont
          split at h
          · cases h
          · cases h
          · rename_i l' hl'
            cases h
            by_cases hstop : b ≤ e'
            · rw [if_pos (by omega), slice_append, hsw,
                slice_above a b l' (fun x hx => by
                  have := adReadLoop_col _ _ _ _ _ _ _ hl' x hx; omega), List.append_nil]
            · rw [if_neg (by omega), ih r.next e' k' j l' (by omega) (by omega) hl']
              simp only
              rw [slice_append, hsw]

/-- The full read passes the position of ensemble `a` with the counter at `a`; what it stores before has
smaller columns. -/
theorem adReadLoop_prefix (recAt : ℕ → Except AdStop AdRecInfo) (ctx : AdCtx) (a x : ℕ)
    (hE : Spec.Positions ctx.E ctx.eof) (hx : ctx.E[a]? = some x) (hnt : a < ctx.nt)
    (h0 : ctx.start = 0) (hn : ctx.nens = ctx.nt) {p : ℕ} (hr : Spec.Reaches recAt p x) (fuel e : ℕ)
    (k : ℕ → ℕ) (l : List AdWrite) (he : p = x → e = a) (he' : p < x → e < a)
    (h : adReadLoop recAt ctx fuel p e k = some (.ok l)) :
    ∃ fuel' k' l1 l2, l = l1 ++ l2 ∧ (∀ w ∈ l1, w.col < a) ∧
      adReadLoop recAt ctx fuel' x a k' = some (.ok l2) := by
  induction hr generalizing fuel e k l with
  | refl p =>
    rw [he rfl] at h
    exact ⟨fuel, k, [], l, rfl, by simp, h⟩
  | @step p q r hrec hlt hreach ih =>
    have hle := reaches_le hreach
    have hpq : p < q := by omega
    have hea := he' hpq
    rcases fuel with _ | fuel
    · cases h
    rw [adReadLoop, hrec] at h
    simp only at h
    split at h
    · cases h
    · rename_i w k' hw
      rw [h0, Nat.add_zero, Nat.sub_zero] at h
      have hwc := adStore_col _ _ _ _ _ _ hw
      have hcase : (r.next = q → adAdvance ctx.E ctx.eof ctx.nt r.next e = a) ∧
          (r.next < q → adAdvance ctx.E ctx.eof ctx.nt r.next e < a) := by
        constructor
        · intro heq; rw [heq]; exact adAdvance_at _ _ _ _ _ hE hx hnt e hea.le
        · intro hlt'; exact adAdvance_lt _ _ _ _ _ _ hx hlt' e hea
      have hcont : ¬ ctx.nens ≤ adAdvance ctx.E ctx.eof ctx.nt r.next e := by
        rcases Nat.lt_or_eq_of_le hle with h' | h'
        · have := hcase.2 h'; omega
        · have := hcase.1 h'; omega
      rw [if_neg hcont] at h
      split at h
      · cases h
      · cases h
      · rename_i l' hl'
        cases h
        obtain ⟨fuel', k'', l1, l2, h1, h2, h3⟩ := ih hx fuel _ _ _ hcase.1 hcase.2 hl'
        refine ⟨fuel', k'', w ++ l1, l2, by rw [h1, List.append_assoc], ?_, h3⟩
        intro y hy
        rcases List.mem_append.mp hy with hy | hy
        · rw [hwc y hy]; exact hea
        · exact h2 y hy

/-- **C47** (without raw altimeter records). If a file is read completely without error, and the reader
comes to the position of ensemble `a`, then reading the ensembles `[a, b)` stores exactly what the full
read stores in the columns `a, …, b - 1`, renumbered from zero. Missing: files with raw altimeter
records, see `altraw_range_false`. -/
theorem range_eq_slice_partial (recAt : ℕ → Except AdStop AdRecInfo) (idx : List AdEntry) (eof : ℕ)
    (whole : Bool) (fuel a b : ℕ) (full : List AdWrite) (x0 xa : ℕ)
    (hE : Spec.Positions (adEnsPos idx) eof) (hna : Spec.NoAlt recAt)
    (hab : a < b) (hb : b ≤ (adEnsPos idx).length - (if whole then 0 else 1))
    (hx0 : (adEnsPos idx)[0]? = some x0) (hxa : (adEnsPos idx)[a]? = some xa)
    (hreach : Spec.Reaches recAt x0 xa)
    (hfull : adReadfile recAt idx eof whole fuel 0 none = some (.ok full)) :
    ∃ fuel', adReadfile recAt idx eof whole fuel' a (some b) = some (.ok (Spec.slice a b full)) := by
  unfold adReadfile at hfull ⊢
  simp only [hx0, adStopOf] at hfull
  rw [if_neg (by omega)] at hfull
  set nt := (adEnsPos idx).length - (if whole = true then 0 else 1) with hnt
  have hle := reaches_le hreach
  obtain ⟨fuel', k', l1, l2, h1, h2, h3⟩ := adReadLoop_prefix recAt
    ⟨adEnsPos idx, eof, nt, 0, nt - 0, adNId idx 0 nt⟩ a xa hE hxa (by simp only; omega) rfl
    (by simp) hreach fuel 0 _ full
    (by
      intro h
      by_contra hne
      have := hE.1 0 a x0 xa (by omega) hx0 hxa
      omega)
    (by
      intro h
      by_contra hne
      have ha0 : a = 0 := by omega
      rw [ha0, hx0] at hxa
      have := Option.some.inj hxa
      omega) hfull
  refine ⟨fuel', ?_⟩
  simp only [hxa, adStopOf]
  rw [if_neg (by omega : ¬ nt < b), if_neg (by omega : ¬ b < a)]
  have := adReadLoop_bisim recAt ⟨adEnsPos idx, eof, nt, 0, nt - 0, adNId idx 0 nt⟩
    ⟨adEnsPos idx, eof, nt, a, b - a, adNId idx a b⟩ a b rfl rfl rfl rfl rfl rfl hab
    (by simpa using hb) hna fuel' xa a k' (fun _ => 0) l2 (le_refl a) hab h3
  rw [Nat.sub_self] at this
  rw [this, h1, slice_append, slice_below a b l1 h2, List.nil_append]

/-- **C47**. More fuel does not change a result, so that the result above is the result of the loop. -/
theorem adReadfile_mono (recAt : ℕ → Except AdStop AdRecInfo) (idx : List AdEntry) (eof : ℕ)
    (whole : Bool) (fuel fuel' a : ℕ) (b : Option ℕ) (r : Except Err (List AdWrite))
    (hf : fuel ≤ fuel') (h : adReadfile recAt idx eof whole fuel a b = some r) :
    adReadfile recAt idx eof whole fuel' a b = some r := by
  obtain ⟨d, rfl⟩ : ∃ d, fuel' = fuel + d := ⟨fuel' - fuel, by omega⟩
  clear hf
  induction d with
  | zero => exact h
  | succ d ih =>
    unfold adReadfile at ih ⊢
    simp only at ih ⊢
    generalize (adEnsPos idx).length - (if whole = true then 0 else 1) = nt at ih ⊢
    generalize adStopOf nt b = stop at ih ⊢
    split at ih
    · rename_i h'; rw [if_pos h']; exact ih
    · rename_i h'
      rw [if_neg h']
      split at ih
      · exact ih
      · exact adReadLoop_mono _ _ _ _ _ _ _ ih

/-! ### Raw altimeter records -/

/-- A file of three ensembles with a velocity ping each and a raw altimeter ping behind the last one. -/
def exAltRec (p : ℕ) : Except AdStop AdRecInfo :=
  if p = 0 then .ok ⟨21, 100, .items [.num 10]⟩
  else if p = 100 then .ok ⟨21, 200, .items [.num 11]⟩
  else if p = 200 then .ok ⟨26, 300, .items [.num 7]⟩
  else if p = 300 then .ok ⟨21, 400, .items [.num 12]⟩
  else .error .eof

/-- An index entry of the example. -/
def exEntry (ens pos id : ℕ) : AdEntry := ⟨ens, ens + 1, pos, id, 0, 0, [], 0⟩

/-- Its index as `_create_index` counts: every type has its own ensemble counter. -/
def exAltIdx : List AdEntry :=
  [exEntry 0 0 21, exEntry 1 100 21, exEntry 0 200 26, exEntry 2 300 21]

/-- **C88** (false). With a raw altimeter ping in the third of three ensembles, whose counter in the
index is its own, the file seems to have four ensembles: the velocity of the last ping ends up in
column 3, and nothing is stored in column 2. -/
theorem altraw_splits_ensemble_false :
    (adEnsPos exAltIdx).length = 4 ∧
    adReadfile exAltRec exAltIdx 400 true 10 0 none =
      some (.ok [.ping 21 0 [.num 10], .ping 21 1 [.num 11], .alt 26 0 2 [.num 7],
        .ping 21 3 [.num 12]]) := by
  decide +kernel

/-- **C47** (false with raw altimeter records). The same file is read completely without error, but
reading the ensembles from the third one on raises `KeyError`: the number of raw altimeter pings in the
range is determined from their own counter. -/
theorem altraw_range_false :
    (∃ l, adReadfile exAltRec exAltIdx 400 true 10 0 none = some (.ok l)) ∧
    adReadfile exAltRec exAltIdx 400 true 10 2 (some 4) = some (.error .keyError) := by
  refine ⟨⟨_, altraw_splits_ensemble_false.2⟩, ?_⟩
  decide +kernel

/-- A file with a single ensemble cannot be read: the size of the last block is compared with the most
frequent distance between ensembles, of which there is none. -/
theorem single_ensemble_false (x eof : ℕ) : adLastWhole [x] eof = .error .valueError := by
  simp [adLastWhole, npDiff, npUnique, firstArgmax]

/-! ### Well-formed files -/

/-- All the types count in step: the ensemble numbers of the index never decrease and grow by at most
one. -/
def Spec.InStep (idx : List AdEntry) : Prop :=
  List.IsChain (fun a b : AdEntry => b.ens = a.ens ∨ b.ens = a.ens + 1) idx

theorem adEnsPosAux_length (idx : List AdEntry) (n : ℕ) (e : AdEntry)
    (h : List.IsChain (fun a b : AdEntry => b.ens = a.ens ∨ b.ens = a.ens + 1) (e :: idx))
    (hl : ((e :: idx).getLast (by simp)).ens = e.ens + n) :
    (adEnsPosAux (some e.ens) idx).length = n ∧
      ∀ x ∈ idx, e.ens < x.ens → ∃ y ∈ idx, y.ens = x.ens ∧ y.pos ∈ adEnsPosAux (some e.ens) idx ∧
        (adEnsPosAux (some e.ens) idx)[x.ens - e.ens - 1]? = some y.pos := by
  induction idx generalizing e n with
  | nil => simp at hl; simp [adEnsPosAux, hl]
  | cons a idx ih =>
    rw [List.isChain_cons_cons] at h
    rw [List.getLast_cons (by simp)] at hl
    rw [adEnsPosAux]
    rcases h.1 with h1 | h1
    · obtain ⟨i1, i2⟩ := ih n a h.2 (by rw [hl, h1])
      rw [if_pos (by rw [h1]), List.nil_append]
      rw [h1] at i1 i2 ⊢
      refine ⟨i1, ?_⟩
      intro x hx hlt
      rcases List.mem_cons.mp hx with rfl | hx
      · omega
      · obtain ⟨y, hy, r⟩ := i2 x hx hlt
        exact ⟨y, by simp [hy], r⟩
    · have hmono : a.ens ≤ ((a :: idx).getLast (by simp)).ens := by
        have : ∀ (l : List AdEntry) (b : AdEntry),
            List.IsChain (fun a b : AdEntry => b.ens = a.ens ∨ b.ens = a.ens + 1) (b :: l) →
            b.ens ≤ ((b :: l).getLast (by simp)).ens := by
          intro l
          induction l with
          | nil => intro b _; simp
          | cons c l ih' =>
            intro b hb
            rw [List.isChain_cons_cons] at hb
            rw [List.getLast_cons (by simp)]
            have := ih' c hb.2
            rcases hb.1 with h | h <;> omega
        exact this idx a h.2
      obtain ⟨i1, i2⟩ := ih (n - 1) a h.2 (by omega)
      have hne : ¬ (some e.ens = some a.ens) := by
        intro h'; have := Option.some.inj h'; omega
      rw [if_neg hne]
      refine ⟨by simp [i1]; omega, ?_⟩
      intro x hx hlt
      by_cases hxa : x.ens = a.ens
      · refine ⟨a, by simp, hxa.symm, by simp, ?_⟩
        rw [hxa, h1]
        simp
      · rcases List.mem_cons.mp hx with rfl | hx
        · exact absurd rfl hxa
        · obtain ⟨y, hy, r1, r2, r3⟩ := i2 x hx (by omega)
          refine ⟨y, by simp [hy], r1, by simp [r2], ?_⟩
          rw [show x.ens - e.ens - 1 = (x.ens - a.ens - 1) + 1 by omega]
          simpa using r3

/-- **C88**. When all the record types count in step, the number of ensembles of the file is the number
of different ensemble numbers, and ensemble `n` starts at the first record with number `n`. -/
theorem ensPos_in_step (e : AdEntry) (idx : List AdEntry) (n : ℕ) (h : Spec.InStep (e :: idx))
    (h0 : e.ens = 0) (hl : ((e :: idx).getLast (by simp)).ens = n) :
    (adEnsPos (e :: idx)).length = n + 1 ∧
      ∀ x ∈ e :: idx, ∃ y ∈ e :: idx, y.ens = x.ens ∧
        (adEnsPos (e :: idx))[x.ens]? = some y.pos := by
  obtain ⟨h1, h2⟩ := adEnsPosAux_length idx n e h (by rw [hl, h0]; simp)
  unfold adEnsPos
  rw [adEnsPosAux, if_neg (by simp)]
  refine ⟨by simp [h1], ?_⟩
  intro x hx
  rcases Nat.eq_zero_or_pos x.ens with h' | h'
  · exact ⟨e, by simp, by omega, by simp [h']⟩
  · rcases List.mem_cons.mp hx with rfl | hx
    · omega
    · obtain ⟨y, hy, r1, -, r3⟩ := h2 x hx (by omega)
      refine ⟨y, by simp [hy], r1, ?_⟩
      rw [show x.ens = (x.ens - e.ens - 1) + 1 by omega]
      simpa using r3

/-- Non-vacuity of `range_eq_slice_partial`: two record types, three ensembles, range [1, 3). -/
def exRec (p : ℕ) : Except AdStop AdRecInfo :=
  if p = 0 then .ok ⟨21, 100, .items [.num 10]⟩
  else if p = 100 then .ok ⟨23, 150, .items [.num 20]⟩
  else if p = 150 then .ok ⟨21, 250, .items [.num 11]⟩
  else if p = 250 then .ok ⟨160, 260, .str 1 [65]⟩
  else if p = 260 then .ok ⟨23, 310, .items [.num 21]⟩
  else if p = 310 then .ok ⟨21, 410, .items [.num 12]⟩
  else .error .eof

def exIdx : List AdEntry :=
  [exEntry 0 0 21, exEntry 0 100 23, exEntry 1 150 21, exEntry 1 260 23, exEntry 2 310 21]

example : Spec.InStep exIdx := by
  unfold Spec.InStep exIdx exEntry; simp

example : adReadfile exRec exIdx 410 true 10 1 (some 3) =
      some (.ok [.ping 21 0 [.num 11], .str 0 1 [65], .ping 23 0 [.num 21], .ping 21 1 [.num 12]]) ∧
    adReadfile exRec exIdx 410 true 10 0 none =
      some (.ok [.ping 21 0 [.num 10], .ping 23 0 [.num 20], .ping 21 1 [.num 11], .str 1 1 [65],
        .ping 23 1 [.num 21], .ping 21 2 [.num 12]]) := by
  decide +kernel

example : Spec.Positions (adEnsPos exIdx) 410 ∧ Spec.NoAlt exRec ∧ Spec.Reaches exRec 0 150 := by
  refine ⟨⟨?_, ?_⟩, ?_, ?_⟩
  · have e : adEnsPos exIdx = [0, 150, 310] := by decide
    rw [e]
    intro i j x y hij hx hy
    rcases i with _ | _ | _ | i <;> rcases j with _ | _ | _ | j <;> simp at hx hy hij <;> omega
  · decide
  · intro p r h
    unfold exRec at h
    repeat' split at h
    all_goals cases h
    all_goals simp
  · exact .step (r := ⟨21, 100, .items [.num 10]⟩) rfl (by simp)
      (.step (r := ⟨23, 150, .items [.num 20]⟩) rfl (by simp) (.refl _))

/-! ### Files made of records -/

/-- A record the reader can read: synchronisation byte, size below 65536, and for data records a field
list of exactly this size. -/
def Spec.AdRec.readable (readers : ℕ → Option (List AdField)) (r : Spec.AdRec) : Prop :=
  r.sync = 165 ∧ r.cs.length = 4 ∧ r.body.length < 65536 ∧
    (r.id ∈ [21, 22, 23, 24, 28, 26, 31] →
      ∃ fs, readers r.id = some fs ∧ adNbyte fs = r.body.length ∧ ∀ fd ∈ fs, 1 ≤ fd.n) ∧
    (r.id = 160 → r.body ≠ [])

theorem adReadHdr_rec (pre rest : List ℕ) (r : Spec.AdRec) (hs : r.sync = 165)
    (hc : r.cs.length = 4) : adReadHdr (pre ++ r.bytes ++ rest) pre.length =
      .ok (r.id, r.body.length) := by
  obtain ⟨c0, c1, c2, c3, hcs⟩ : ∃ a b c d, r.cs = [a, b, c, d] := by
    rcases h : r.cs with _ | ⟨a, _ | ⟨b, _ | ⟨c, _ | ⟨d, _ | ⟨e, l⟩⟩⟩⟩⟩ <;> rw [h] at hc <;>
      simp at hc
    exact ⟨a, b, c, d, rfl⟩
  have hd : (pre ++ r.bytes ++ rest).drop pre.length = r.bytes ++ rest := by
    rw [List.append_assoc, List.drop_left]
  have hb : r.bytes ++ rest = 165 :: r.hsz :: r.id :: r.fam :: (r.body.length % 256) ::
      (r.body.length / 256) :: c0 :: c1 :: c2 :: c3 :: (r.body ++ rest) := by
    simp [Spec.AdRec.bytes, hcs, hs]
  unfold adReadHdr
  rw [hd, hb]
  have hn : adNbyte adHeader = 10 := by decide
  have hread : adRead adHeader .off (165 :: r.hsz :: r.id :: r.fam :: (r.body.length % 256) ::
      (r.body.length / 256) :: c0 :: c1 :: c2 :: c3 :: (r.body ++ rest)) =
      .ok ([.num 165, .num r.hsz, .num r.id, .num r.fam, .num r.body.length,
        .num ((c0 : ℤ) + 256 * c1), .num ((c2 : ℤ) + 256 * c3)], r.body ++ rest) := by
    unfold adRead
    rw [hn]
    have e : ((r.body.length % 256 : ℕ) : ℤ) + 256 * ((r.body.length / 256 : ℕ) : ℤ) =
        r.body.length := by omega
    simp [adHeader, adUnpack, adElems, AdField.count, AdField.bytes, AdFmt.size, adVal, AdFmt.signed,
      leNat, adCsCheck, adGroup, adFirst, bind, Except.bind, pure, Except.pure]
    omega
  rw [hread]
  simp

/-- A readable record is read to its end. -/
theorem adRecAt_rec (readers : ℕ → Option (List AdField)) (pre rest : List ℕ) (r : Spec.AdRec)
    (h : r.readable readers) :
    ∃ pl, adRecAt readers (pre ++ r.bytes ++ rest) pre.length =
      .ok ⟨r.id, pre.length + r.bytes.length, pl⟩ := by
  obtain ⟨hs, hc, hsz, hid, h160⟩ := h
  have hl := bytes_length r hc
  have hd : (pre ++ r.bytes ++ rest).drop (pre.length + 10) = r.body ++ rest := by
    rw [List.append_assoc, List.drop_append]
    simp only [Nat.sub_add_cancel, Nat.add_sub_cancel_left]
    rw [List.drop_eq_nil_of_le (by omega), List.nil_append]
    have : (r.bytes ++ rest) = ([r.sync, r.hsz, r.id, r.fam, r.body.length % 256,
        r.body.length / 256] ++ r.cs) ++ (r.body ++ rest) := by
      simp [Spec.AdRec.bytes]
    rw [this, List.drop_left' (by simp [hc])]
  unfold adRecAt
  rw [adReadHdr_rec pre rest r hs hc]
  simp only [bind, Except.bind]
  unfold adReadBody
  rw [hd]
  by_cases h1 : r.id ∈ [21, 22, 23, 24, 28, 26, 31]
  · rw [if_pos h1]
    obtain ⟨fs, hf, hn, hpos⟩ := hid h1
    rw [hf]
    obtain ⟨items, hi, -⟩ := adRead_field fs (r.body ++ rest) hpos (by simp; omega)
    simp only [hi, hn]
    exact ⟨.items items, by rw [hl]; congr 2; omega⟩
  · rw [if_neg h1]
    by_cases h2 : r.id = 160
    · rw [if_pos h2, List.take_left]
      obtain ⟨x, xs, hx⟩ := List.exists_cons_of_ne_nil (h160 h2)
      rw [hl, hx]
      exact ⟨.str x xs.dropLast, by simp; omega⟩
    · rw [if_neg h2]
      exact ⟨.skip, by rw [hl]; congr 2; omega⟩

/-- In a file made of readable records the reader comes from the start of any record to the start of
any later one: the hypothesis of `range_eq_slice_partial`. -/
theorem reaches_records (readers : ℕ → Option (List AdField)) (rs : List Spec.AdRec)
    (pre rest : List ℕ) (h : ∀ r ∈ rs, r.readable readers) :
    Spec.Reaches (adRecAt readers (pre ++ rs.flatMap Spec.AdRec.bytes ++ rest)) pre.length
      (pre.length + (rs.flatMap Spec.AdRec.bytes).length) := by
  induction rs generalizing pre with
  | nil => exact .refl _
  | cons r rs ih =>
    have hfile : pre ++ (r :: rs).flatMap Spec.AdRec.bytes ++ rest =
        pre ++ r.bytes ++ (rs.flatMap Spec.AdRec.bytes ++ rest) := by simp [List.flatMap_cons]
    have hfile2 : pre ++ r.bytes ++ rs.flatMap Spec.AdRec.bytes ++ rest =
        pre ++ r.bytes ++ (rs.flatMap Spec.AdRec.bytes ++ rest) := by simp
    obtain ⟨pl, hpl⟩ := adRecAt_rec readers pre (rs.flatMap Spec.AdRec.bytes ++ rest) r
      (h r (by simp))
    have := ih (pre ++ r.bytes) (fun x hx => h x (by simp [hx]))
    rw [hfile2, List.length_append] at this
    rw [hfile]
    refine .step hpl ?_ ?_
    · simp only
      rw [bytes_length r (h r (by simp)).2.1]; omega
    · simp only
      rw [List.flatMap_cons, List.length_append, ← Nat.add_assoc]
      exact this

example : (⟨165, 10, 28, 16, [0, 0, 0, 0], List.replicate 76 1⟩ : Spec.AdRec).readable
    (fun _ => some adBurstHdr) := by
  refine ⟨rfl, rfl, by simp, fun _ => ⟨adBurstHdr, rfl, by decide, by decide⟩, by simp⟩

end Dolfyn
