import Verif.Model.Ad2cp
import Mathlib.Tactic.Linarith
import Mathlib.Tactic.Ring
import Mathlib.Data.List.Chain
import Mathlib.Data.List.GetD

/-!
Properties of the index of an AD2CP file: C46.
-/

namespace Dolfyn

/-- A record of an AD2CP file: header bytes and body. -/
structure Spec.AdRec where
  sync : ℕ
  hsz : ℕ
  id : ℕ
  fam : ℕ
  cs : List ℕ
  body : List ℕ

/-- Its bytes; the size of the body is in the header, low byte first. -/
def Spec.AdRec.bytes (r : Spec.AdRec) : List ℕ :=
  [r.sync, r.hsz, r.id, r.fam, r.body.length % 256, r.body.length / 256] ++ r.cs ++ r.body

/-- The hardware ensemble counter of a data record. -/
def Spec.AdRec.hw (r : Spec.AdRec) : ℕ := u32 r.body (32 + adSeek r.id)

/-- A complete record with a size below 32768; data records have at least their fixed part, with a
month that fits. -/
def Spec.AdRec.ok (r : Spec.AdRec) : Prop :=
  r.cs.length = 4 ∧ r.body.length < 32768 ∧
    (r.id ∈ adIds → 36 + adSeek r.id ≤ r.body.length ∧ r.body.getD 9 0 < 255)

/-- The indexed records of a file with their byte positions. -/
def Spec.indexed : ℕ → List Spec.AdRec → List (ℕ × Spec.AdRec)
  | _, [] => []
  | p, r :: rs =>
    (if r.id ∈ adIds then [(p, r)] else []) ++ Spec.indexed (p + 10 + r.body.length) rs

/-- What an index entry says about a record. -/
def Spec.describes (e : AdEntry) (x : ℕ × Spec.AdRec) : Prop :=
  e.pos = x.1 ∧ e.id = x.2.id ∧ e.config = u16 x.2.body 2 ∧ e.beamsCy = u16 x.2.body 30 ∧
    e.dVer = x.2.body.getD 0 0 ∧
    e.date = [x.2.body.getD 8 0, x.2.body.getD 9 0 + 1, x.2.body.getD 10 0, x.2.body.getD 11 0,
      x.2.body.getD 12 0, x.2.body.getD 13 0, u16 x.2.body 14]

/-- Ensemble numbers of the entries of one type. -/
def Spec.ensOf (id : ℕ) (es : List AdEntry) : List ℕ := (es.filter (fun e => e.id = id)).map (·.ens)

theorem bytes_length (r : Spec.AdRec) (h : r.cs.length = 4) :
    r.bytes.length = 10 + r.body.length := by
  simp [Spec.AdRec.bytes, h]; omega

theorem adFixEns_le (last : ℤ) (ens : ℕ) (B : ℤ) (h1 : last ≤ B) (h2 : (ens : ℤ) ≤ B) :
    0 ≤ adFixEns last ens ∧ adFixEns last ens ≤ B + 1 := by
  unfold adFixEns; split <;> constructor <;> omega

theorem adFixEns_ge (last : ℤ) (ens : ℕ) (h : 0 < last) :
    last ≤ adFixEns last ens := by
  unfold adFixEns; split
  · omega
  · rename_i h'; push Not at h'; exact (h' h).2

/-- The entry and the counters after a data record. -/
def stepEntry (pos : ℕ) (st : AdIdxState) (r : Spec.AdRec) : AdEntry :=
  { ens := if 0 < st.last r.id ∧ st.last r.id ≠ adFixEns (st.last r.id) r.hw
      then st.N r.id + 1 else st.N r.id,
    hwEns := (adFixEns (st.last r.id) r.hw).toNat, pos := pos, id := r.id,
    config := u16 r.body 2, beamsCy := u16 r.body 30,
    date := [r.body.getD 8 0, r.body.getD 9 0 + 1, r.body.getD 10 0, r.body.getD 11 0,
      r.body.getD 12 0, r.body.getD 13 0, u16 r.body 14],
    dVer := r.body.getD 0 0 }

def stepState (st : AdIdxState) (r : Spec.AdRec) : AdIdxState :=
  if r.id ∈ adIds then
    { N := Function.update st.N r.id (stepEntry 0 st r).ens,
      last := Function.update st.last r.id (adFixEns (st.last r.id) r.hw) }
  else st

theorem u16_append_left (a b : List ℕ) (k : ℕ) (h : k + 1 < a.length) :
    u16 (a ++ b) k = u16 a k := by
  unfold u16
  rw [List.getD_append _ _ _ _ (by omega), List.getD_append _ _ _ _ h]

theorem u32_append_left (a b : List ℕ) (k : ℕ) (h : k + 3 < a.length) :
    u32 (a ++ b) k = u32 a k := by
  unfold u32
  rw [u16_append_left _ _ _ (by omega), u16_append_left _ _ _ (by omega)]

/-- One pass of the loop over a complete record. -/
theorem adIndexStep_rec (pre rest : List ℕ) (r : Spec.AdRec) (st : AdIdxState) (hr : r.ok)
    (B : ℤ) (hB : B + 1 < 2 ^ 32) (hl : st.last r.id ≤ B) (hh : (r.hw : ℤ) ≤ B) :
    adIndexStep (pre ++ r.bytes ++ rest) pre.length st =
      .next (pre.length + 10 + r.body.length) (stepState st r)
        (if r.id ∈ adIds then some (stepEntry pre.length st r) else none) := by
  obtain ⟨hcs, hsz, hid⟩ := hr
  have hd : (pre ++ r.bytes ++ rest).drop pre.length = r.bytes ++ rest := by
    rw [List.append_assoc, List.drop_left]
  have hlen : (r.bytes ++ rest).length = 10 + r.body.length + rest.length := by
    rw [List.length_append, bytes_length r hcs]
  obtain ⟨c0, c1, c2, c3, hc⟩ : ∃ a b c d, r.cs = [a, b, c, d] := by
    rcases h : r.cs with _ | ⟨a, _ | ⟨b, _ | ⟨c, _ | ⟨d, _ | ⟨e, l⟩⟩⟩⟩⟩ <;> rw [h] at hcs <;>
      simp at hcs
    exact ⟨a, b, c, d, rfl⟩
  have hid2 : (r.bytes ++ rest).getD 2 0 = r.id := by simp [Spec.AdRec.bytes]
  have hu : u16 (r.bytes ++ rest) 4 = r.body.length := by
    simp [Spec.AdRec.bytes, u16]; omega
  have hi : i16 (r.bytes ++ rest) 4 = r.body.length := by
    unfold i16; rw [hu, if_pos hsz]
  have hbody : (r.bytes ++ rest).drop 10 = r.body ++ rest := by
    simp [Spec.AdRec.bytes, hc]
  have hseek : ∀ e, adSeekTo (↑pre.length + 10 + ↑r.body.length) (stepState st r) e =
      .next (pre.length + 10 + r.body.length) (stepState st r) e := by
    intro e
    unfold adSeekTo
    rw [if_neg (by omega)]
    congr 1
  unfold adIndexStep
  simp only [hd, hid2, hi, hbody]
  rw [if_neg (by rw [hlen]; omega)]
  by_cases hm : r.id ∈ adIds
  · obtain ⟨h36, h9⟩ := hid hm
    have hs : 40 ≤ adSeek r.id := by unfold adSeek; split <;> omega
    rw [if_pos hm, if_pos hm, if_neg (by rw [hlen]; omega)]
    rw [u32_append_left _ _ _ (by omega), u16_append_left _ _ 2 (by omega),
      u16_append_left _ _ 30 (by omega), u16_append_left _ _ 14 (by omega)]
    have g : ∀ k, k < 20 → (r.body ++ rest).getD k 0 = r.body.getD k 0 := fun k hk =>
      List.getD_append _ _ _ _ (by omega)
    rw [g 0 (by omega), g 8 (by omega), g 9 (by omega), g 10 (by omega), g 11 (by omega),
      g 12 (by omega), g 13 (by omega)]
    have hfix := adFixEns_le (st.last r.id) r.hw B hl hh
    have hnot : ¬ ((2 : ℤ) ^ 32 ≤ adFixEns (st.last r.id) (u32 r.body (32 + adSeek r.id)) ∨
        255 ≤ r.body.getD 9 0) := by
      rintro (h | h)
      · change (2 : ℤ) ^ 32 ≤ adFixEns (st.last r.id) r.hw at h
        omega
      · omega
    rw [if_neg hnot]
    have e := hseek (some (stepEntry pre.length st r))
    rw [stepState, if_pos hm] at e ⊢
    exact e
  · rw [if_neg hm, if_neg hm]
    have e := hseek none
    rw [stepState, if_neg hm] at e ⊢
    exact e

/-- The entries and the counters after a list of records. -/
def runEntries : ℕ → AdIdxState → List Spec.AdRec → List AdEntry
  | _, _, [] => []
  | p, st, r :: rs =>
    (if r.id ∈ adIds then [stepEntry p st r] else []) ++
      runEntries (p + 10 + r.body.length) (stepState st r) rs

def runState : AdIdxState → List Spec.AdRec → AdIdxState
  | st, [] => st
  | st, r :: rs => runState (stepState st r) rs

theorem stepState_bounds (st : AdIdxState) (r : Spec.AdRec) (B : ℤ) (hl : ∀ i, st.last i ≤ B)
    (hh : (r.hw : ℤ) ≤ B) :
    (∀ i, (stepState st r).last i ≤ B + 1) ∧ (∀ i, (stepState st r).N i ≤ st.N i + 1) := by
  unfold stepState
  split
  · constructor
    · intro i
      simp only [Function.update_apply]
      split
      · exact (adFixEns_le _ _ B (hl r.id) hh).2
      · have := hl i; omega
    · intro i
      simp only [Function.update_apply]
      split
      · rename_i h; subst h
        simp only [stepEntry]; split <;> omega
      · omega
  · exact ⟨fun i => by have := hl i; omega, fun i => by omega⟩

/-- The loop over complete records, followed by whatever is left in the file. -/
theorem adIndexLoop_records (rs : List Spec.AdRec) (pre rest : List ℕ) (st : AdIdxState) (nEns f : ℕ)
    (hok : ∀ r ∈ rs, r.ok) (B : ℤ) (hB : B + rs.length < 2 ^ 32) (hl : ∀ i, st.last i ≤ B)
    (hh : ∀ r ∈ rs, (r.hw : ℤ) ≤ B) (hN : st.N 21 + rs.length < nEns) :
    (runState st rs).N 21 < nEns ∧
    adIndexLoop (pre ++ rs.flatMap Spec.AdRec.bytes ++ rest) nEns (rs.length + f) pre.length st =
      match adIndexLoop (pre ++ rs.flatMap Spec.AdRec.bytes ++ rest) nEns f
          (pre.length + (rs.flatMap Spec.AdRec.bytes).length) (runState st rs) with
      | none => none
      | some (.error e) => some (.error e)
      | some (.ok l) => some (.ok (runEntries pre.length st rs ++ l)) := by
  induction rs generalizing pre st B with
  | nil =>
    refine ⟨by simpa [runState] using hN, ?_⟩
    simp only [List.flatMap_nil, List.append_nil, List.length_nil, Nat.zero_add, Nat.add_zero,
      runState, runEntries, List.nil_append]
    split
    · assumption
    · assumption
    · assumption
  | cons r rs ih =>
    have hr := hok r (by simp)
    simp only [List.length_cons] at hB hN ⊢
    push_cast at hB
    obtain ⟨b1, b2⟩ := stepState_bounds st r B hl (hh r (by simp))
    obtain ⟨i1, i2⟩ := ih (pre ++ r.bytes) (stepState st r) (fun x hx => hok x (by simp [hx])) (B + 1)
      (by omega) b1 (fun x hx => by have := hh x (by simp [hx]); omega)
      (by have := b2 21; omega)
    refine ⟨i1, ?_⟩
    have hfile : pre ++ (r :: rs).flatMap Spec.AdRec.bytes ++ rest =
        pre ++ r.bytes ++ (rs.flatMap Spec.AdRec.bytes ++ rest) := by
      simp [List.flatMap_cons]
    have hfile2 : pre ++ r.bytes ++ rs.flatMap Spec.AdRec.bytes ++ rest =
        pre ++ r.bytes ++ (rs.flatMap Spec.AdRec.bytes ++ rest) := by simp
    have hp : (pre ++ r.bytes).length = pre.length + 10 + r.body.length := by
      rw [List.length_append, bytes_length r hr.1]; omega
    have hp2 : (pre ++ r.bytes).length + (rs.flatMap Spec.AdRec.bytes).length =
        pre.length + ((r :: rs).flatMap Spec.AdRec.bytes).length := by
      simp [List.flatMap_cons]; omega
    rw [show rs.length + 1 + f = (rs.length + f) + 1 by omega, adIndexLoop, if_pos (by omega), hfile,
      adIndexStep_rec pre _ r st hr B (by omega) (hl r.id) (hh r (by simp))]
    simp only
    rw [hfile2, hp2, hp] at i2
    rw [i2]
    simp only [runState, runEntries]
    rcases adIndexLoop (pre ++ r.bytes ++ (rs.flatMap Spec.AdRec.bytes ++ rest)) nEns f
      (pre.length + ((r :: rs).flatMap Spec.AdRec.bytes).length) (runState (stepState st r) rs)
      with _ | (e | l)
    · rfl
    · rfl
    · simp only
      split <;> simp

/-- Every entry describes its record. -/
theorem runEntries_describes (rs : List Spec.AdRec) (p : ℕ) (st : AdIdxState) :
    List.Forall₂ Spec.describes (runEntries p st rs) (Spec.indexed p rs) := by
  induction rs generalizing p st with
  | nil => exact .nil
  | cons r rs ih =>
    rw [runEntries, Spec.indexed]
    split
    · exact .cons ⟨rfl, rfl, rfl, rfl, rfl, rfl⟩ (ih _ _)
    · exact ih _ _

/-- The ensemble counter of a type: it starts at zero, never decreases and grows by at most one. -/
theorem runEntries_ens (rs : List Spec.AdRec) (p : ℕ) (st : AdIdxState) (id : ℕ) :
    List.IsChain (fun a b => b = a ∨ b = a + 1) (st.N id :: Spec.ensOf id (runEntries p st rs)) ∧
    (st.last id ≤ 0 → ∀ n ∈ (Spec.ensOf id (runEntries p st rs)).head?, n = st.N id) := by
  induction rs generalizing p st with
  | nil => simp [runEntries, Spec.ensOf]
  | cons r rs ih =>
    obtain ⟨h1, h2⟩ := ih (p + 10 + r.body.length) (stepState st r)
    rw [runEntries]
    by_cases hm : r.id ∈ adIds
    · rw [if_pos hm]
      by_cases hi : r.id = id
      · subst hi
        have e : Spec.ensOf r.id ([stepEntry p st r] ++
            runEntries (p + 10 + r.body.length) (stepState st r) rs) =
            (stepState st r).N r.id ::
              Spec.ensOf r.id (runEntries (p + 10 + r.body.length) (stepState st r) rs) := by
          simp [Spec.ensOf, stepEntry, stepState, hm]
        rw [e]
        have e2 : (stepState st r).N r.id =
            if 0 < st.last r.id ∧ st.last r.id ≠ adFixEns (st.last r.id) r.hw
            then st.N r.id + 1 else st.N r.id := by
          simp [stepState, hm, stepEntry]
        refine ⟨List.IsChain.cons_cons ?_ h1, ?_⟩
        · rw [e2]; split
          · exact .inr rfl
          · exact .inl rfl
        · intro hle n hn
          simp only [List.head?_cons, Option.mem_def, Option.some.injEq] at hn
          rw [← hn, e2, if_neg (by omega)]
      · have e : Spec.ensOf id ([stepEntry p st r] ++
            runEntries (p + 10 + r.body.length) (stepState st r) rs) =
            Spec.ensOf id (runEntries (p + 10 + r.body.length) (stepState st r) rs) := by
          simp [Spec.ensOf, stepEntry, hi]
        have eN : (stepState st r).N id = st.N id := by
          simp [stepState, hm, Function.update_apply, Ne.symm hi]
        have eL : (stepState st r).last id = st.last id := by
          simp [stepState, hm, Function.update_apply, Ne.symm hi]
        rw [e]; rw [eN] at h1 h2; rw [eL] at h2
        exact ⟨h1, h2⟩
    · rw [if_neg hm, List.nil_append]
      rw [stepState, if_neg hm] at h1 h2 ⊢
      exact ⟨h1, h2⟩

/-- When the hardware counters of a type are positive and strictly increasing, its ensembles are
numbered consecutively. -/
theorem runEntries_ens_strict (rs : List Spec.AdRec) (p : ℕ) (st : AdIdxState) (id : ℕ)
    (hid : id ∈ adIds)
    (hinc : List.IsChain (· < ·)
      ((max (st.last id) 0) :: (rs.filter (fun r => r.id = id)).map (fun r => (r.hw : ℤ)))) :
    Spec.ensOf id (runEntries p st rs) =
      List.range' (st.N id + if 0 < st.last id then 1 else 0)
        (rs.filter (fun r => r.id = id)).length := by
  induction rs generalizing p st with
  | nil => simp [runEntries, Spec.ensOf]
  | cons r rs ih =>
    rw [runEntries]
    by_cases hi : r.id = id
    · subst hi
      rw [if_pos hid]
      rw [List.filter_cons_of_pos (by simp), List.map_cons, List.isChain_cons_cons] at hinc
      rw [List.filter_cons_of_pos (by simp), List.length_cons, List.range'_succ]
      have hfix : adFixEns (st.last r.id) r.hw = r.hw := by
        unfold adFixEns
        rw [if_neg]
        rintro ⟨h, h' | h'⟩
        · have := hinc.1; rw [h'] at this; simp at this; omega
        · have := hinc.1; omega
      have hpos : 0 < (r.hw : ℤ) := by have := hinc.1; omega
      have eN : (stepState st r).N r.id = st.N r.id + if 0 < st.last r.id then 1 else 0 := by
        simp only [stepState, hid, if_true, stepEntry, Function.update_self, hfix]
        have := hinc.1
        by_cases h0 : 0 < st.last r.id
        · rw [if_pos ⟨h0, by omega⟩, if_pos h0]
        · rw [if_neg (by omega), if_neg h0]; rfl
      have eL : (stepState st r).last r.id = r.hw := by
        simp [stepState, hid, hfix]
      have := ih (p + 10 + r.body.length) (stepState st r) (by
        rw [eL, max_eq_left hpos.le]; exact hinc.2)
      rw [eN, eL, if_pos hpos] at this
      have e : Spec.ensOf r.id ([stepEntry p st r] ++
            runEntries (p + 10 + r.body.length) (stepState st r) rs) =
            (stepState st r).N r.id ::
              Spec.ensOf r.id (runEntries (p + 10 + r.body.length) (stepState st r) rs) := by
          simp [Spec.ensOf, stepEntry, stepState, hid]
      rw [e, this, eN]
    · rw [List.filter_cons_of_neg (by simpa using hi)] at hinc ⊢
      have eN : (stepState st r).N id = st.N id := by
        unfold stepState; split
        · simp [Function.update_apply, Ne.symm hi]
        · rfl
      have eL : (stepState st r).last id = st.last id := by
        unfold stepState; split
        · simp [Function.update_apply, Ne.symm hi]
        · rfl
      have := ih (p + 10 + r.body.length) (stepState st r) (by rw [eL]; exact hinc)
      rw [eN, eL] at this
      rw [← this]
      split
      · simp [Spec.ensOf, stepEntry, hi]
      · simp

/-- **C46**. For every file made of complete records with sizes below 32768, possibly followed by less
than a header, the index has exactly one entry for every data record of the indexed types, in file
order, with its byte position, type, configuration words and time; for every type the ensemble counter
starts at zero, never decreases and grows by at most one. (The hardware counters must stay clear of
`2^32` by the number of records.) -/
theorem adIndex_complete (rs : List Spec.AdRec) (tail : List ℕ) (ht : tail.length < 10)
    (hok : ∀ r ∈ rs, r.ok) (hh : ∀ r ∈ rs, r.hw + rs.length < 2 ^ 32) (hn : rs.length < 2 ^ 32)
    (fuel : ℕ) (hf : rs.length < fuel) :
    ∃ es, adIndex fuel (rs.flatMap Spec.AdRec.bytes ++ tail) = some (.ok es) ∧
      List.Forall₂ Spec.describes es (Spec.indexed 0 rs) ∧
      ∀ id, List.IsChain (fun a b => b = a ∨ b = a + 1) (Spec.ensOf id es) ∧
        (∀ n ∈ (Spec.ensOf id es).head?, n = 0) := by
  obtain ⟨f, rfl⟩ : ∃ f, fuel = rs.length + (f + 1) := ⟨fuel - rs.length - 1, by omega⟩
  have hB : ((2 : ℤ) ^ 32 - 1 - rs.length) + rs.length < 2 ^ 32 := by omega
  obtain ⟨h1, h2⟩ := adIndexLoop_records rs [] tail { N := fun _ => 0, last := fun _ => -1 }
    (2 ^ 32) (f + 1) hok (2 ^ 32 - 1 - rs.length) hB (by intro i; simp only; omega)
    (by intro r hr; have := hh r hr; omega) (by simp only; omega)
  rw [adIndexLoop, if_pos h1, adIndexStep] at h2
  simp only [List.nil_append, List.length_nil, Nat.zero_add, List.drop_left] at h2
  rw [if_pos ht] at h2
  refine ⟨runEntries 0 { N := fun _ => 0, last := fun _ => -1 } rs, ?_, runEntries_describes _ _ _, ?_⟩
  · unfold adIndex
    rw [h2]
    simp only [List.append_nil]
  · intro id
    obtain ⟨h3, h4⟩ := runEntries_ens rs 0 { N := fun _ => 0, last := fun _ => -1 } id
    exact ⟨h3.of_cons, h4 (by simp)⟩

/-- **C46** (numbering). If in addition the hardware counters of a type are positive and strictly
increasing, the entries of this type are numbered 0, 1, 2, … -/
theorem adIndex_numbering (rs : List Spec.AdRec) (tail : List ℕ) (ht : tail.length < 10)
    (hok : ∀ r ∈ rs, r.ok) (hh : ∀ r ∈ rs, r.hw + rs.length < 2 ^ 32) (hn : rs.length < 2 ^ 32)
    (fuel : ℕ) (hf : rs.length < fuel) (id : ℕ) (hid : id ∈ adIds)
    (hinc : List.IsChain (· < ·)
      (0 :: (rs.filter (fun r => r.id = id)).map Spec.AdRec.hw)) :
    ∃ es, adIndex fuel (rs.flatMap Spec.AdRec.bytes ++ tail) = some (.ok es) ∧
      Spec.ensOf id es = List.range (rs.filter (fun r => r.id = id)).length := by
  obtain ⟨f, rfl⟩ : ∃ f, fuel = rs.length + (f + 1) := ⟨fuel - rs.length - 1, by omega⟩
  have hB : ((2 : ℤ) ^ 32 - 1 - rs.length) + rs.length < 2 ^ 32 := by omega
  obtain ⟨h1, h2⟩ := adIndexLoop_records rs [] tail { N := fun _ => 0, last := fun _ => -1 }
    (2 ^ 32) (f + 1) hok (2 ^ 32 - 1 - rs.length) hB (by intro i; simp only; omega)
    (by intro r hr; have := hh r hr; omega) (by simp only; omega)
  rw [adIndexLoop, if_pos h1, adIndexStep] at h2
  simp only [List.nil_append, List.length_nil, Nat.zero_add, List.drop_left] at h2
  rw [if_pos ht] at h2
  refine ⟨runEntries 0 { N := fun _ => 0, last := fun _ => -1 } rs, ?_, ?_⟩
  · unfold adIndex
    rw [h2]
    simp only [List.append_nil]
  · rw [runEntries_ens_strict rs 0 _ id hid]
    · simp [List.range_eq_range']
    · have := List.isChain_map_of_isChain (S := fun a b : ℤ => a < b) (fun n : ℕ => (n : ℤ))
        (by intro a b h; exact_mod_cast h) hinc
      simpa [Function.comp_def] using this

/-- **C46** (truncated file). If the last record is a data record cut off inside its fixed part, the
whole index fails with `struct.error`. -/
theorem adIndex_truncated (rs : List Spec.AdRec) (tail : List ℕ) (ht : 10 ≤ tail.length)
    (hid : tail.getD 2 0 ∈ adIds) (hcut : tail.length < 46 + adSeek (tail.getD 2 0))
    (hok : ∀ r ∈ rs, r.ok) (hh : ∀ r ∈ rs, r.hw + rs.length < 2 ^ 32) (hn : rs.length < 2 ^ 32)
    (fuel : ℕ) (hf : rs.length < fuel) :
    adIndex fuel (rs.flatMap Spec.AdRec.bytes ++ tail) = some (.error .structError) := by
  obtain ⟨f, rfl⟩ : ∃ f, fuel = rs.length + (f + 1) := ⟨fuel - rs.length - 1, by omega⟩
  have hB : ((2 : ℤ) ^ 32 - 1 - rs.length) + rs.length < 2 ^ 32 := by omega
  obtain ⟨h1, h2⟩ := adIndexLoop_records rs [] tail { N := fun _ => 0, last := fun _ => -1 }
    (2 ^ 32) (f + 1) hok (2 ^ 32 - 1 - rs.length) hB (by intro i; simp only; omega)
    (by intro r hr; have := hh r hr; omega) (by simp only; omega)
  rw [adIndexLoop, if_pos h1, adIndexStep] at h2
  simp only [List.nil_append, List.length_nil, Nat.zero_add, List.drop_left] at h2
  rw [if_neg (by omega), if_pos hid, if_pos hcut] at h2
  unfold adIndex
  exact h2

/-- **C46** (sizes of 32768 or more). The size is read as a signed number: a record of 65526 bytes is
taken for one of −10 bytes, and the loop never ends. -/
theorem adIndex_loops_false (body : List ℕ) (fuel : ℕ) :
    adIndex fuel ([165, 10, 160, 16, 246, 255, 0, 0, 0, 0] ++ body) = none := by
  unfold adIndex
  induction fuel with
  | zero => rfl
  | succ fuel ih =>
    rw [adIndexLoop, if_pos (by simp)]
    have : adIndexStep ([165, 10, 160, 16, 246, 255, 0, 0, 0, 0] ++ body) 0
        { N := fun _ => 0, last := fun _ => -1 } =
        .next 0 { N := fun _ => 0, last := fun _ => -1 } none := by
      simp [adIndexStep, adIds, adSeekTo, i16, u16]
    rw [this]
    simp only
    rw [ih]

/-- Non-vacuity and a test of the counters: an average record, a string and a second average record
with the next hardware counter. -/
def exBody (ens : ℕ) : List ℕ := List.replicate 72 0 ++ [ens, 0, 0, 0]

def exRecs : List Spec.AdRec :=
  [⟨165, 10, 22, 16, [0, 0, 0, 0], exBody 5⟩, ⟨165, 10, 160, 16, [0, 0, 0, 0], [1, 2]⟩,
   ⟨165, 10, 22, 16, [0, 0, 0, 0], exBody 6⟩]

example : (∀ r ∈ exRecs, r.ok) ∧ (∀ r ∈ exRecs, r.hw + exRecs.length < 2 ^ 32) ∧
    List.IsChain (· < ·) (0 :: (exRecs.filter (fun r => r.id = 22)).map Spec.AdRec.hw) := by
  refine ⟨?_, ?_, ?_⟩
  · intro r hr
    simp only [exRecs, List.mem_cons, List.not_mem_nil, or_false] at hr
    rcases hr with rfl | rfl | rfl <;> simp [Spec.AdRec.ok, exBody, adSeek, adIds]
  · decide
  · decide

example : (adIndex 4 (exRecs.flatMap Spec.AdRec.bytes)).map
    (fun r => r.map (fun es => es.map (fun e => (e.ens, e.hwEns, e.pos, e.id)))) =
    some (.ok [(0, 5, 0, 22), (1, 6, 98, 22)]) := by
  decide +kernel

end Dolfyn
