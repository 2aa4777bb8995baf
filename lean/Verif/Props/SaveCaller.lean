import Verif.Model.SaveCaller
import Verif.Props.VarBin
import Verif.Props.IoComplex

/-!
C176: what saving a dataset does to the dataset in memory, and to the file when it is saved again
(`save` of dolfyn/io/api.py).
-/

namespace Dolfyn

variable {T : Type}

theorem set_names (l : Vars T) (k : String) (a : Arr T) :
    (l.set k a).map Prod.fst = if k ∈ l.map Prod.fst then l.map Prod.fst else l.map Prod.fst ++ [k] := by
  unfold Vars.set
  split_ifs with h
  · rw [List.map_map]
    apply List.map_congr_left
    intro p _
    simp only [Function.comp]
    split_ifs with hp
    · exact hp.symm
    · rfl
  · simp

/-- What the file gets is what `saveNc` says. -/
theorem saveHeap_file (r32 : ℝ → ℝ) : ∀ (P : List String) (s : SaveHeap T),
    ((P.foldl (saveHeapStep r32) s).cur, (P.foldl (saveHeapStep r32) s).names) =
      P.foldl (saveStep r32) (s.cur, s.names)
  | [], _ => rfl
  | k :: P, s => by
    rw [List.foldl_cons, List.foldl_cons, saveHeap_file r32 P]
    congr 1
    unfold saveHeapStep saveStep SaveHeap.put
    rcases hg : s.cur.get k with _ | (x | x | z) <;> simp only [hg]

/-- Once `ds` is another dataset the caller's is left alone. -/
theorem saveHeap_apart (r32 : ℝ → ℝ) : ∀ (P : List String) (s : SaveHeap T), s.same = false →
    (P.foldl (saveHeapStep r32) s).caller = s.caller
  | [], _, _ => rfl
  | k :: P, s, h => by
    have key : (saveHeapStep r32 s k).same = false ∧ (saveHeapStep r32 s k).caller = s.caller := by
      unfold saveHeapStep SaveHeap.put
      split <;> simp [h]
    rw [List.foldl_cons, saveHeap_apart r32 P _ key.1, key.2]

/-- Before the first complex variable every assignment is one to the caller's dataset. -/
theorem saveHeap_before (r32 : ℝ → ℝ) : ∀ (P : List String) (s : SaveHeap T), P.Nodup → s.same = true →
    s.caller = s.cur → (∀ k ∈ P, k ∈ s.cur.map Prod.fst) → (∀ k ∈ P, isC s.cur.get k = false) →
    (P.foldl (saveHeapStep r32) s).same = true ∧
      (P.foldl (saveHeapStep r32) s).caller = (P.foldl (saveHeapStep r32) s).cur ∧
      (P.foldl (saveHeapStep r32) s).names = s.names ∧
      (P.foldl (saveHeapStep r32) s).cur.map Prod.fst = s.cur.map Prod.fst ∧
      ∀ k, (P.foldl (saveHeapStep r32) s).cur.get k =
        if k ∈ P then (s.cur.get k).map (Spec.stored r32) else s.cur.get k
  | [], s, _, h1, h2, _, _ => ⟨h1, h2, rfl, rfl, fun k => by simp⟩
  | v :: P, s, hnd, h1, h2, hin, hc => by
    rw [List.foldl_cons]
    have hv := hc v (by simp)
    obtain ⟨hvP, hndP⟩ := List.nodup_cons.mp hnd
    have key : (saveHeapStep r32 s v).same = true ∧ (saveHeapStep r32 s v).caller = (saveHeapStep r32 s v).cur ∧
        (saveHeapStep r32 s v).names = s.names ∧
        (saveHeapStep r32 s v).cur.map Prod.fst = s.cur.map Prod.fst ∧
        ∀ k, (saveHeapStep r32 s v).cur.get k =
          if k = v then (s.cur.get k).map (Spec.stored r32) else s.cur.get k := by
      unfold saveHeapStep SaveHeap.put
      unfold isC at hv
      split
      · next z hz => rw [hz] at hv; simp at hv
      · next x hx =>
        refine ⟨h1, by simp [h1], rfl, ?_, fun k => ?_⟩
        · show (s.cur.set v _).map Prod.fst = _
          rw [set_names, if_pos (hin v (by simp))]
        · show (s.cur.set v _).get k = _
          rw [vars_get_set]
          split_ifs with hk
          · rw [hk, hx]; rfl
          · rfl
      · next hn1 hn2 =>
        refine ⟨h1, h2, rfl, rfl, fun k => ?_⟩
        split_ifs with hk
        · rw [hk]
          cases hg : s.cur.get v with
          | none => rfl
          | some a =>
            cases a with
            | f64 x => exact absurd hg (hn2 x)
            | cplx z => exact absurd hg (hn1 z)
            | f32 x => rfl
        · rfl
    obtain ⟨k1, k2, k3, k4, k5⟩ := key
    obtain ⟨r1, r2, r3, r4, r5⟩ := saveHeap_before r32 P (saveHeapStep r32 s v) hndP k1 k2
      (fun k hk => by rw [k4]; exact hin k (by simp [hk]))
      (fun k hk => by
        have := hc k (by simp [hk])
        unfold isC at this ⊢
        rw [k5, if_neg (fun e : k = v => hvP (e ▸ hk))]
        exact this)
    refine ⟨r1, r2, r3.trans k3, r4.trans k4, fun k => ?_⟩
    rw [r5, k5]
    by_cases hkv : k = v
    · subst hkv
      rw [if_neg hvP, if_pos rfl, if_pos (by simp)]
    · rw [if_neg hkv]
      simp [hkv]

theorem isC_false_of {ds : Vars T} {k : String} (h : ∀ z, ds.get k ≠ some (.cplx z)) : isC ds.get k = false := by
  by_contra hc
  obtain ⟨z, hz⟩ := (isC_iff _ _).mp (by simpa using hc)
  exact h z hz

/-- C176 (refuted in general): saving a dataset without complex variables turns every double-precision variable of
the dataset in memory into single precision. -/
theorem save_caller_rounds (r32 : ℝ → ℝ) (ds : Vars T) (hnd : (ds.map Prod.fst).Nodup)
    (hc : ∀ k z, ds.get k ≠ some (.cplx z)) (k : String) :
    (saveCaller r32 ds).get k = (ds.get k).map (Spec.stored r32) := by
  obtain ⟨-, h2, -, -, h5⟩ := saveHeap_before r32 (ds.map Prod.fst) ⟨ds, ds, true, []⟩ hnd rfl rfl (fun _ h => h)
    (fun k _ => isC_false_of (hc k))
  show (saveHeap r32 ds).caller.get k = _
  rw [show (saveHeap r32 ds).caller = (saveHeap r32 ds).cur from h2, show (saveHeap r32 ds).cur.get k = _ from h5 k]
  split_ifs with hk
  · rfl
  · have : ds.get k = none := by
      by_contra hn
      exact hk ((vars_get_isSome ds k).mp (Option.isSome_iff_ne_none.mpr hn))
    simp [this]

theorem saveHeap_split (r32 : ℝ → ℝ) {ds : Vars T} (hnd : (ds.map Prod.fst).Nodup) {P Q : List String} {v : String}
    {z : T → ℂ} (hn : ds.map Prod.fst = P ++ v :: Q) (hP : ∀ k ∈ P, ∀ z, ds.get k ≠ some (.cplx z))
    (hv : ds.get v = some (.cplx z)) :
    ∃ l : Vars T, saveCaller r32 ds = (l.set (v ++ "_real") (.f64 fun t => (z t).re)).set (v ++ "_imag")
        (.f64 fun t => (z t).im) ∧ l.map Prod.fst = ds.map Prod.fst ∧
      ∀ k, l.get k = if k ∈ P then (ds.get k).map (Spec.stored r32) else ds.get k := by
  have hnd' := hnd
  rw [hn] at hnd'
  obtain ⟨hndP, -, hdis⟩ := List.nodup_append.mp hnd'
  have hvP : v ∉ P := fun h => hdis v h v (by simp) rfl
  obtain ⟨h1, h2, h3, h4, h5⟩ := saveHeap_before r32 P ⟨ds, ds, true, []⟩ hndP rfl rfl
    (fun k hk => by rw [hn]; simp [hk]) (fun k hk => isC_false_of (hP k hk))
  set s := P.foldl (saveHeapStep r32) ⟨ds, ds, true, []⟩ with hs
  have hget : s.cur.get v = some (.cplx z) := by rw [h5, if_neg hvP]; exact hv
  refine ⟨s.cur, ?_, h4, h5⟩
  unfold saveCaller saveHeap
  rw [hn, List.foldl_append, List.foldl_cons, ← hs]
  have hstep : (saveHeapStep r32 s v).same = false ∧ (saveHeapStep r32 s v).caller =
      (s.cur.set (v ++ "_real") (.f64 fun t => (z t).re)).set (v ++ "_imag") (.f64 fun t => (z t).im) := by
    unfold saveHeapStep SaveHeap.put
    rw [hget]
    simp [h1]
  rw [saveHeap_apart r32 Q _ hstep.1, hstep.2]

/-- C176 (refuted in general): saving a dataset with complex variables turns the double-precision variables before
the first of these into single precision and adds its real and imaginary part; everything else stays. -/
theorem save_caller_complex (r32 : ℝ → ℝ) {ds : Vars T} (hnd : (ds.map Prod.fst).Nodup) {P Q : List String} {v : String}
    {z : T → ℂ} (hn : ds.map Prod.fst = P ++ v :: Q) (hP : ∀ k ∈ P, ∀ z, ds.get k ≠ some (.cplx z))
    (hv : ds.get v = some (.cplx z)) (k : String) :
    (saveCaller r32 ds).get k =
      if k = v ++ "_imag" then some (.f64 fun t => (z t).im)
      else if k = v ++ "_real" then some (.f64 fun t => (z t).re)
      else if k ∈ P then (ds.get k).map (Spec.stored r32) else ds.get k := by
  obtain ⟨l, h1, -, h3⟩ := saveHeap_split r32 hnd hn hP hv
  rw [h1, vars_get_set, vars_get_set, h3]

/-- C176: a dataset of single-precision variables is left as it is. -/
theorem save_caller_single (r32 : ℝ → ℝ) (ds : Vars T) (hnd : (ds.map Prod.fst).Nodup)
    (hs : ∀ k a, ds.get k = some a → ∃ x, a = .f32 x) (k : String) : (saveCaller r32 ds).get k = ds.get k := by
  rw [save_caller_rounds r32 ds hnd (fun k z h => by obtain ⟨x, hx⟩ := hs k _ h; cases hx)]
  cases hg : ds.get k with
  | none => rfl
  | some a => obtain ⟨x, rfl⟩ := hs k a hg; rfl

/-- C176 (refuted in general): the file of a second save of the same dataset has the parts of the first complex
variable in single precision, where that of the first save has them in double precision; all else is the same. -/
theorem save_twice (r32 : ℝ → ℝ) (h32 : ∀ x, r32 (r32 x) = r32 x) {ds : Vars T} (hnd : (ds.map Prod.fst).Nodup)
    (hclash : Spec.NoClash ds) {P Q : List String} {v : String} {z : T → ℂ} (hn : ds.map Prod.fst = P ++ v :: Q)
    (hP : ∀ k ∈ P, ∀ z, ds.get k ≠ some (.cplx z)) (hv : ds.get v = some (.cplx z)) :
    (saveNc r32 ds).1.get (v ++ "_real") = some (.f64 fun t => (z t).re) ∧
      (saveNc r32 ds).1.get (v ++ "_imag") = some (.f64 fun t => (z t).im) ∧
      (saveNc r32 (saveCaller r32 ds)).1.get (v ++ "_real") = some (.f32 fun t => r32 (z t).re) ∧
      (saveNc r32 (saveCaller r32 ds)).1.get (v ++ "_imag") = some (.f32 fun t => r32 (z t).im) ∧
      (saveNc r32 (saveCaller r32 ds)).2 = (saveNc r32 ds).2 ∧
      ∀ k, k ≠ v ++ "_real" → k ≠ v ++ "_imag" →
        (saveNc r32 (saveCaller r32 ds)).1.get k = (saveNc r32 ds).1.get k := by
  have hcn := names_filter ds hnd
  have hmem : ∀ c, c ∈ Spec.complexNames ds ↔ c ∈ ds.map Prod.fst ∧ isC ds.get c = true := by
    intro c; rw [← hcn, List.mem_filter]
  have hfr : ∀ c ∈ ds.map Prod.fst, isC ds.get c = true →
      ∀ p ∈ ds.map Prod.fst, p ≠ c ++ "_real" ∧ p ≠ c ++ "_imag" := fun c hc hz p hp =>
    hclash c ((hmem c).mpr ⟨hc, hz⟩) p hp
  have hvn : v ∈ ds.map Prod.fst := by rw [hn]; simp
  have hvc : isC ds.get v = true := (isC_iff _ _).mpr ⟨z, hv⟩
  have hvr : v ++ "_real" ∉ ds.map Prod.fst := fun h => (hfr v hvn hvc _ h).1 rfl
  have hvi : v ++ "_imag" ∉ ds.map Prod.fst := fun h => (hfr v hvn hvc _ h).2 rfl
  obtain ⟨s1, s2, s3, s4⟩ := save_fold r32 ds (ds.map Prod.fst) hnd hfr
  obtain ⟨l, l1, l2, l3⟩ := saveHeap_split r32 hnd hn hP hv
  set ds1 := saveCaller r32 ds with hds1
  have g1 := save_caller_complex r32 hnd hn hP hv
  have hnames : ds1.map Prod.fst = ds.map Prod.fst ++ [v ++ "_real", v ++ "_imag"] := by
    rw [l1, set_names, set_names, l2, if_neg hvr, if_neg]
    · simp
    · rw [List.mem_append]
      rintro (h | h)
      · exact hvi h
      · exact real_ne_imag v v (List.mem_singleton.mp h).symm
  have gk : ∀ k ∈ ds.map Prod.fst, ds1.get k = if k ∈ P then (ds.get k).map (Spec.stored r32) else ds.get k := by
    intro k hk
    rw [g1, if_neg (fun e : k = v ++ "_imag" => hvi (e ▸ hk)), if_neg (fun e : k = v ++ "_real" => hvr (e ▸ hk))]
  have hC : ∀ k ∈ ds.map Prod.fst, isC ds1.get k = isC ds.get k := by
    intro k hk
    unfold isC
    rw [gk k hk]
    split_ifs with hkP
    · cases hg : ds.get k with
      | none => rfl
      | some a =>
        cases a with
        | cplx z => exact absurd hg (hP k hkP z)
        | f64 x => rfl
        | f32 x => rfl
    · rfl
  obtain ⟨t1, t2, t3, t4⟩ := save_fold r32 ds1 (ds.map Prod.fst) hnd (fun c hc hz p hp =>
    hfr c hc (by rw [← hC c hc]; exact hz) p hp)
  set s := (ds.map Prod.fst).foldl (saveStep r32) (ds, []) with hs
  set t := (ds.map Prod.fst).foldl (saveStep r32) (ds1, []) with ht
  have hv1 : ds1.get v = some (.cplx z) := by
    rw [gk v hvn, if_neg (fun h => hP v h z hv), hv]
  obtain ⟨tr, ti⟩ := t3 v hvn z hv1
  obtain ⟨sr, si⟩ := s3 v hvn z hv
  have e1 : saveStep r32 t (v ++ "_real") = (t.1.set (v ++ "_real") (.f32 fun x => r32 (z x).re), t.2) := by
    unfold saveStep; rw [tr]
  have e2 : saveStep r32 (saveStep r32 t (v ++ "_real")) (v ++ "_imag") =
      ((t.1.set (v ++ "_real") (.f32 fun x => r32 (z x).re)).set (v ++ "_imag") (.f32 fun x => r32 (z x).im), t.2) := by
    rw [e1]
    unfold saveStep
    simp only
    rw [vars_get_set, if_neg (real_ne_imag v v).symm, ti]
  have hfile : saveNc r32 ds1 = ((t.1.set (v ++ "_real") (.f32 fun x => r32 (z x).re)).set (v ++ "_imag")
      (.f32 fun x => r32 (z x).im), ncAttr t.2) := by
    unfold saveNc
    rw [hnames, List.foldl_append, ← ht, List.foldl_cons, List.foldl_cons, List.foldl_nil, e2]
  have hfile0 : saveNc r32 ds = (s.1, ncAttr s.2) := rfl
  have hnm : t.2 = s.2 := by
    rw [t4, s4]
    exact List.filter_congr hC
  rw [hfile, hfile0]
  refine ⟨sr, si, ?_, ?_, by simp only; rw [hnm], fun k hk1 hk2 => ?_⟩
  · simp only
    rw [vars_get_set, if_neg (real_ne_imag v v), vars_get_set, if_pos rfl]
  · simp only
    rw [vars_get_set, if_pos rfl]
  · simp only
    rw [vars_get_set, if_neg hk2, vars_get_set, if_neg hk1]
    by_cases hk : k ∈ ds.map Prod.fst
    · rw [t1 k hk, s1 k hk, gk k hk]
      split_ifs with hkP
      · cases hg : ds.get k with
        | none => rfl
        | some a =>
          cases a with
          | cplx z => exact absurd hg (hP k hkP z)
          | f64 x => simp [savedAt, Spec.stored]
          | f32 x => rfl
      · rfl
    · by_cases hpart : ∀ c ∈ ds.map Prod.fst, isC ds.get c = true → k ≠ c ++ "_real" ∧ k ≠ c ++ "_imag"
      · rw [s2 k hk hpart, t2 k hk (fun c hc hz => hpart c hc (by rw [← hC c hc]; exact hz)), g1, if_neg hk2, if_neg hk1,
          if_neg (fun h => hk (by rw [hn]; simp [h]))]
      · push Not at hpart
        obtain ⟨c, hc, hz, hcase⟩ := hpart
        obtain ⟨w, hw⟩ := (isC_iff _ _).mp hz
        have hcP : c ∉ P := fun h => hP c h w hw
        have hw1 : ds1.get c = some (.cplx w) := by rw [gk c hc, if_neg hcP, hw]
        by_cases hkr : k = c ++ "_real"
        · rw [hkr, (s3 c hc w hw).1, (t3 c hc w hw1).1]
        · rw [hcase hkr, (s3 c hc w hw).2, (t3 c hc w hw1).2]

/-- Rounding to single precision as far as it concerns rational numbers. -/
def Spec.Single (r32 : ℝ → ℝ) : Prop := ∀ q : ℚ, r32 (q : ℝ) = ((fl32 q : ℚ) : ℝ)

/-- A float32 stays what it is. -/
theorem fl32_idem (x : ℚ) : fl32 (fl32 x) = fl32 x := by
  rcases eq_or_ne x 0 with rfl | hx
  · simp [fl32_zero]
  have hu : (0 : ℚ) < 2 ^ (Int.log 2 |x| - 23) := zpow_pos (by norm_num) _
  have hlt : |x| < ((2 : ℕ) : ℚ) ^ (Int.log 2 |x| + 1) := Int.lt_zpow_succ_log_self (by norm_num) _
  have e : fl32 x = (pyRound (x / 2 ^ (Int.log 2 |x| - 23)) : ℚ) * 2 ^ (Int.log 2 |x| - 23) := rfl
  generalize hk : Int.log 2 |x| - 23 = k at *
  have hq : |x / (2 : ℚ) ^ k| < 2 ^ 24 := by
    rw [abs_div, abs_of_pos hu, div_lt_iff₀ hu]
    have h1 : (2 : ℚ) ^ (Int.log 2 |x| + 1) = 2 ^ 24 * 2 ^ k := by
      rw [show Int.log 2 |x| + 1 = 24 + k by omega, zpow_add₀ (by norm_num)]
      norm_num
    push_cast at hlt
    rw [← h1]
    exact hlt
  have hm : |pyRound (x / 2 ^ k)| ≤ 2 ^ 24 := by
    have h := pyRound_spec (x / 2 ^ k)
    have h2 : |((pyRound (x / 2 ^ k) : ℤ) : ℚ)| < 2 ^ 24 + 1 := by
      rw [abs_le] at h
      rw [abs_lt] at hq ⊢
      constructor <;> linarith
    have h3 : |pyRound (x / 2 ^ k)| < 2 ^ 24 + 1 := by exact_mod_cast h2
    omega
  rw [e]
  rcases lt_or_eq_of_le hm with h | h
  · exact fl32_exact _ _ h
  · have h2 : (2 : ℚ) ^ k * 2 = 2 ^ (k + 1) := by rw [zpow_add₀ (by norm_num)]; norm_num
    rcases abs_eq (by norm_num) |>.mp h with h' | h' <;> rw [h']
    · have := fl32_exact (2 ^ 23) (k + 1) (by norm_num)
      rw [← h2] at this
      rw [show (((2 : ℤ) ^ 24 : ℤ) : ℚ) * 2 ^ k = ((2 ^ 23 : ℤ) : ℚ) * (2 ^ k * 2) by push_cast; ring]
      exact this
    · have := fl32_exact (-2 ^ 23) (k + 1) (by norm_num)
      rw [← h2] at this
      rw [show ((-(2 : ℤ) ^ 24 : ℤ) : ℚ) * 2 ^ k = ((-2 ^ 23 : ℤ) : ℚ) * (2 ^ k * 2) by push_cast; ring]
      exact this

/-- There is such a function, and it changes nothing when used again. -/
theorem single_exists : ∃ r32, Spec.Single r32 ∧ ∀ x, r32 (r32 x) = r32 x := by
  classical
  refine ⟨fun x => if h : ∃ q : ℚ, (q : ℝ) = x then ((fl32 h.choose : ℚ) : ℝ) else x, ?_, ?_⟩
  · intro q
    have h : ∃ p : ℚ, (p : ℝ) = q := ⟨q, rfl⟩
    simp only [dif_pos h]
    rw [show h.choose = q by exact_mod_cast h.choose_spec]
  · intro x
    by_cases h : ∃ q : ℚ, (q : ℝ) = x
    · simp only [dif_pos h]
      have h' : ∃ q : ℚ, (q : ℝ) = ((fl32 h.choose : ℚ) : ℝ) := ⟨_, rfl⟩
      rw [dif_pos h', show h'.choose = fl32 h.choose by exact_mod_cast h'.choose_spec, fl32_idem]
    · simp only [dif_neg h]

/-- C176 (refuted): a variable of times in seconds, here September 2020, is off by 63 s in memory after the dataset
was saved. -/
theorem save_caller_false {r32 : ℝ → ℝ} (h : Spec.Single r32) :
    ∃ ds : Vars Unit, ds.get "t" = some (.f64 fun _ => 1600000063) ∧
      (saveCaller r32 ds).get "t" = some (.f32 fun _ => 1600000000) := by
  refine ⟨[("t", .f64 fun _ => 1600000063)], rfl, ?_⟩
  rw [save_caller_rounds r32 _ (by simp) (fun k z => ?_)]
  · show some (Arr.f32 fun _ => r32 1600000063) = _
    have := h 1600000063
    rw [show fl32 1600000063 = 1600000000 by decide +kernel] at this
    push_cast at this
    rw [this]
  · unfold Vars.get
    by_cases hk : "t" = k <;> simp [hk]

/-- C176 (refuted): a complex variable survives the first save unchanged and the second one not. -/
theorem save_twice_false {r32 : ℝ → ℝ} (h : Spec.Single r32) :
    ∃ ds ds1 ds2 : Vars Unit, ds.get "spec" = some (.cplx fun _ => 16777217) ∧ loadNc (saveNc r32 ds) = .ok ds1 ∧
      loadNc (saveNc r32 (saveCaller r32 ds)) = .ok ds2 ∧ ds1.get "spec" = some (.cplx fun _ => 16777217) ∧
      ds2.get "spec" = some (.cplx fun _ => 16777216) := by
  have h1 : r32 16777217 = 16777216 := by
    have := h 16777217
    rw [show fl32 16777217 = 16777216 by decide +kernel] at this
    push_cast at this
    exact this
  have h0 : r32 0 = 0 := by
    have := h 0
    rw [fl32_zero] at this
    push_cast at this
    exact this
  let ds : Vars Unit := [("spec", .cplx fun _ => 16777217)]
  have hs : (ds.map Prod.fst).foldl (saveStep r32) (ds, []) =
      ([("spec_real", .f64 fun _ => (16777217 : ℂ).re), ("spec_imag", .f64 fun _ => (16777217 : ℂ).im)], ["spec"]) := rfl
  have hc : saveCaller r32 ds = [("spec", .cplx fun _ => 16777217), ("spec_real", .f64 fun _ => (16777217 : ℂ).re),
      ("spec_imag", .f64 fun _ => (16777217 : ℂ).im)] := rfl
  have hs2 : ((saveCaller r32 ds).map Prod.fst).foldl (saveStep r32) (saveCaller r32 ds, []) =
      ([("spec_real", .f32 fun _ => r32 (16777217 : ℂ).re), ("spec_imag", .f32 fun _ => r32 (16777217 : ℂ).im)],
        ["spec"]) := by rw [hc]; rfl
  have l1 : loadNc (saveNc r32 ds) = .ok [("spec", .cplx fun _ => ((16777217 : ℂ).re : ℂ) + ((16777217 : ℂ).im : ℂ) * Complex.I)] := by
    unfold saveNc
    rw [hs]
    rfl
  have l2 : loadNc (saveNc r32 (saveCaller r32 ds)) =
      .ok [("spec", .cplx fun _ => ((r32 (16777217 : ℂ).re : ℝ) : ℂ) + ((r32 (16777217 : ℂ).im : ℝ) : ℂ) * Complex.I)] := by
    unfold saveNc
    rw [hs2]
    rfl
  have hre : (16777217 : ℂ).re = 16777217 := rfl
  have him : (16777217 : ℂ).im = 0 := rfl
  refine ⟨ds, _, _, rfl, l1, l2, ?_, ?_⟩
  · show some (Arr.cplx fun _ => _) = _
    rw [hre, him]
    simp
  · show some (Arr.cplx fun _ => _) = _
    rw [hre, him, h1, h0]
    simp

/-- A dataset with a double-precision variable before, and one behind, a complex variable. -/
example (x y : ℝ) (z : ℂ) : ∃ ds : Vars Unit, (ds.map Prod.fst).Nodup ∧ Spec.NoClash ds ∧
    ds.map Prod.fst = ["tke"] ++ "csd" :: ["psd"] ∧ (∀ k ∈ ["tke"], ∀ z, ds.get k ≠ some (.cplx z)) ∧
    ds.get "csd" = some (.cplx fun _ => z) := by
  refine ⟨[("tke", .f64 fun _ => x), ("csd", .cplx fun _ => z), ("psd", .f64 fun _ => y)], by simp, ?_, rfl, ?_, rfl⟩
  · show ∀ c ∈ ["csd"], ∀ p ∈ ["tke", "csd", "psd"], p ≠ c ++ "_real" ∧ p ≠ c ++ "_imag"
    decide
  · intro k hk z'
    obtain rfl := List.mem_singleton.mp hk
    simp [Vars.get]

end Dolfyn
