import Verif.Model.AdvDissip
import Verif.Props.Dissip
import Verif.Props.Binned
import Verif.Props.Csd
import Mathlib.Data.List.Sort
import Mathlib.Data.List.GetD

/-!
Properties of the dissipation estimates of point velocimeters: structure function (C106), Trowbridge and Elgar
(C107).
-/

namespace Dolfyn

open Finset

/-! ### Median -/

theorem getD_mem_of_lt {l : List ℝ} {i : ℕ} (h : i < l.length) : l.getD i 0 ∈ l := by
  rw [List.getD_eq_getElem _ _ h]
  exact List.getElem_mem h

theorem npMedian_forall {l : List ℝ} {m : ℝ} (h : npMedian l = some m) : ∃ a ∈ l, ∃ b ∈ l, m = (a + b) / 2 := by
  unfold npMedian at h
  by_cases hl : l = []
  · rw [if_pos hl] at h; cases h
  · rw [if_neg hl] at h
    have hpos := List.length_pos_of_ne_nil hl
    have hlen : (l.insertionSort (· ≤ ·)).length = l.length := List.length_insertionSort _ _
    refine ⟨_, (List.mem_insertionSort (· ≤ ·)).mp (getD_mem_of_lt (by rw [hlen]; omega)), _,
      (List.mem_insertionSort (· ≤ ·)).mp (getD_mem_of_lt (by rw [hlen]; omega)), (Option.some.inj h).symm⟩

theorem npMedian_const {l : List ℝ} {c : ℝ} (hl : l ≠ []) (h : ∀ x ∈ l, x = c) : npMedian l = some c := by
  cases hm : npMedian l with
  | none => unfold npMedian at hm; rw [if_neg hl] at hm; cases hm
  | some m =>
    obtain ⟨a, ha, b, hb, rfl⟩ := npMedian_forall hm
    rw [h a ha, h b hb]
    congr 1
    ring

theorem npMedian_nonneg {l : List ℝ} {m : ℝ} (hl : ∀ x ∈ l, 0 ≤ x) (h : npMedian l = some m) : 0 ≤ m := by
  obtain ⟨a, ha, b, hb, rfl⟩ := npMedian_forall h
  have := hl a ha
  have := hl b hb
  linarith

theorem npMedian_scale (l : List ℝ) {k : ℝ} (hk : 0 < k) :
    npMedian (l.map fun x => k * x) = (npMedian l).map fun x => k * x := by
  unfold npMedian
  by_cases hl : l = []
  · rw [if_pos hl, if_pos (by simp [hl])]; rfl
  · rw [if_neg hl, if_neg (by simpa using hl)]
    have e : (l.map fun x => k * x).insertionSort (· ≤ ·) = (l.insertionSort (· ≤ ·)).map fun x => k * x := by
      rw [List.map_insertionSort (r := (· ≤ ·)) (s := (· ≤ ·))]
      intro a _ b _
      exact (mul_le_mul_iff_right₀ hk).symm
    simp only [Option.map_some]
    rw [e, List.length_map]
    have g : ∀ i, ((l.insertionSort (· ≤ ·)).map fun x => k * x).getD i 0 =
        k * (l.insertionSort (· ≤ ·)).getD i 0 := by
      intro i
      have := List.getD_map (l := l.insertionSort (· ≤ ·)) (d := (0 : ℝ)) (n := i) (f := fun x => k * x)
      rw [← this]
      simp
    rw [g, g]
    congr 1
    ring

/-! ### Structure function -/

/-- Mean squared difference at a lag of `L` samples over a stretch of `n` samples. -/
noncomputable def Spec.structure2 (v : ℕ → ℝ) (n L : ℕ) : ℝ :=
  (∑ i ∈ range (n - L), (v (i + L) - v i) ^ 2) / (n - L : ℕ)

/-- Kolmogorov's law: structure function of dissipation `ε` at a separation `r`. -/
noncomputable def Spec.kolmogorov (ε r : ℝ) : ℝ := 2.1 * (ε * r) ^ (2 / 3 : ℝ)

theorem sfLag_some (n : ℕ) (up : ℕ → Option ℝ) (v : ℕ → ℝ) (L : ℕ) (h0 : 0 < L) (hL : L < n)
    (hv : ∀ i < n, up i = some (v i)) : sfLag n up L = .ok (some (Spec.structure2 v n L)) := by
  unfold sfLag
  rw [if_neg (by omega)]
  have : vals (n - L) (fun i => opt2 (fun a b => (a - b) ^ 2) (up (i + L)) (up i)) =
      vals (n - L) (fun i => some ((v (i + L) - v i) ^ 2)) := by
    unfold vals
    apply List.map_congr_left
    intro i hi
    rw [List.mem_range] at hi
    rw [hv (i + L) (by omega), hv i (by omega)]
    rfl
  rw [this, nanmean_some (n - L) (by omega)]
  rfl

theorem sfDaa_some (n : ℕ) (up : ℕ → Option ℝ) (v : ℕ → ℝ) (lags : List ℕ)
    (hl : ∀ L ∈ lags, 0 < L ∧ L < n) (hv : ∀ i < n, up i = some (v i)) :
    sfDaa n up lags = .ok (lags.map fun L => (L, some (Spec.structure2 v n L))) := by
  unfold sfDaa
  apply mapM_ok_eq
  intro L hL
  obtain ⟨h1, h2⟩ := hl L hL
  rw [sfLag_some n up v L h1 h2 hv]
  simp only [bind, Except.bind]
  rw [if_neg (by omega)]
  rfl

theorem sfBin_exact (fs f0 f1 : ℚ) (n : ℕ) (up : ℕ → Option ℝ) (v : ℕ → ℝ) (U ε : ℝ) (hfs : 0 < fs)
    (hU : 0 < U) (hε : 0 < ε) (hne : sfLags fs f0 f1 ≠ []) (hl : ∀ L ∈ sfLags fs f0 f1, 0 < L ∧ L < n)
    (hv : ∀ i < n, up i = some (v i))
    (hD : ∀ L ∈ sfLags fs f0 f1, Spec.structure2 v n L = Spec.kolmogorov ε (U * (L / fs))) :
    sfBin fs f0 f1 n up U = .ok (some ε) := by
  unfold sfBin
  rw [sfDaa_some n up v _ hl hv]
  simp only [bind, Except.bind]
  rw [if_neg hU.ne']
  have hfs' : (0 : ℝ) < fs := by exact_mod_cast hfs
  have hc : npMedian ((((sfLags fs f0 f1).map fun L => (L, some (Spec.structure2 v n L)))).filterMap fun p =>
      p.2.map fun d => d / (U / fs * (p.1 : ℝ)) ^ (2 / 3 : ℝ)) = some (2.1 * ε ^ (2 / 3 : ℝ)) := by
    have e : (((sfLags fs f0 f1).map fun L => (L, some (Spec.structure2 v n L)))).filterMap (fun p =>
        p.2.map fun d => d / (U / fs * (p.1 : ℝ)) ^ (2 / 3 : ℝ)) =
        (sfLags fs f0 f1).map fun L => Spec.structure2 v n L / (U / fs * (L : ℝ)) ^ (2 / 3 : ℝ) := by
      rw [List.filterMap_map, ← List.filterMap_eq_map]
      rfl
    rw [e]
    apply npMedian_const
    · simpa using hne
    · intro x hx
      obtain ⟨L, hL, rfl⟩ := List.mem_map.mp hx
      have hL0 : (0 : ℝ) < L := by exact_mod_cast (hl L hL).1
      rw [hD L hL, Spec.kolmogorov]
      have hr : 0 < U / fs * (L : ℝ) := by positivity
      rw [show U * ((L : ℝ) / fs) = U / fs * L by ring, Real.mul_rpow hε.le hr.le, ← mul_assoc,
        mul_div_assoc, div_self (by positivity), mul_one]
  change Except.ok _ = _
  rw [hc]
  simp only [Option.map_some]
  rw [mul_comm, mul_div_assoc, div_self (by norm_num), mul_one, two_thirds_three_halves ε hε]

/-- **C106**. If in every bin the mean squared velocity difference follows Kolmogorov's law at the lags that
belong to the frequency range, with separations given by the bin's mean speed, the estimate of each bin is its
dissipation rate. -/
theorem sf_exact (nb : ℕ) (fs f0 f1 : ℚ) (len : ℕ) (v : ℕ → ℝ) (U ε : ℕ → ℝ) (hnb : 0 < nb) (hlen : nb ≤ len)
    (hfs : 0 < fs) (hne : sfLags fs f0 f1 ≠ []) (hl : ∀ L ∈ sfLags fs f0 f1, 0 < L ∧ L < nb)
    (hU : ∀ r < len / nb, 0 < U r) (hε : ∀ r < len / nb, 0 < ε r)
    (hD : ∀ r < len / nb, ∀ L ∈ sfLags fs f0 f1,
      Spec.structure2 (fun i => v (r * nb + i)) nb L = Spec.kolmogorov (ε r) (U r * (L / fs))) :
    epsilonSF nb fs f0 f1 len (fun i => some (v i)) U = .ok ((List.range (len / nb)).map fun r => some (ε r)) := by
  obtain ⟨m, h1, h2, h3, h4⟩ := reshape_no_pad (some 0) len (fun i => some (v i)) nb hnb hlen
  unfold epsilonSF
  rw [h1]
  simp only [bind, Except.bind]
  rw [h2, h3]
  apply mapM_ok_eq
  intro r hr
  rw [List.mem_range] at hr
  exact sfBin_exact fs f0 f1 nb (m.at_ r) (fun i => v (r * nb + i)) (U r) (ε r) hfs (hU r hr) (hε r hr) hne hl
    (fun i hi => h4 r i (by omega) hi) (hD r hr)

theorem nanmean_scale (l : List (Option ℝ)) (k : ℝ) :
    nanmean (l.map (Option.map fun x => k * x)) = (nanmean l).map fun x => k * x := by
  unfold nanmean
  simp only
  rw [List.reduceOption_map]
  by_cases h : l.reduceOption = []
  · rw [if_pos h, if_pos (by simp [h])]; rfl
  · rw [if_neg h, if_neg (by simpa using h), List.sum_map_mul_left, List.length_map]
    simp only [List.map_id', Option.map_some]
    congr 1
    ring

theorem nanmean_nonneg {l : List (Option ℝ)} {m : ℝ} (hl : ∀ x, some x ∈ l → 0 ≤ x) (h : nanmean l = some m) :
    0 ≤ m := by
  unfold nanmean at h
  simp only at h
  rcases ite_eq_iff.mp h with ⟨_, h⟩ | ⟨_, h⟩
  · cases h
  · rw [← Option.some.inj h]
    apply div_nonneg
    · apply List.sum_nonneg
      intro x hx
      exact hl x (List.reduceOption_mem_iff.mp hx)
    · positivity

theorem sfLag_scale (n : ℕ) (up : ℕ → Option ℝ) (L : ℕ) (c : ℝ) :
    sfLag n (fun i => (up i).map fun x => c * x) L =
      (sfLag n up L).map fun d => d.map fun x => c ^ 2 * x := by
  unfold sfLag
  by_cases h : L = 0
  · rw [if_pos h, if_pos h]
    by_cases h1 : n = 1
    · rw [if_pos h1]; rfl
    · rw [if_neg h1]; rfl
  · rw [if_neg h, if_neg h]
    simp only [Except.map]
    rw [← nanmean_scale]
    congr 2
    unfold vals
    rw [List.map_map]
    apply List.map_congr_left
    intro i _
    simp only [Function.comp_apply]
    cases up (i + L) with
    | none => cases up i <;> rfl
    | some a =>
      cases up i with
      | none => rfl
      | some b =>
        simp only [Option.map_some, opt2]
        congr 1
        ring

theorem sfDaa_scale (n : ℕ) (up : ℕ → Option ℝ) (c : ℝ) : ∀ (lags : List ℕ),
    sfDaa n (fun i => (up i).map fun x => c * x) lags =
      (sfDaa n up lags).map fun l => l.map fun p => (p.1, p.2.map fun x => c ^ 2 * x)
  | [] => rfl
  | L :: lags => by
    have ih := sfDaa_scale n up c lags
    unfold sfDaa at ih ⊢
    rw [List.mapM_cons, List.mapM_cons, ih, sfLag_scale]
    cases sfLag n up L with
    | error e => rfl
    | ok d =>
      simp only [Except.map, bind, Except.bind]
      by_cases hn : n ≤ L
      · rw [if_pos hn, if_pos hn]; rfl
      · rw [if_neg hn, if_neg hn]
        simp only [pure, Except.pure]
        generalize (List.mapM _ lags : Except Err (List (ℕ × Option ℝ))) = o
        cases o <;> rfl

theorem sfDaa_nonneg {n : ℕ} {up : ℕ → Option ℝ} : ∀ {lags : List ℕ} {l : List (ℕ × Option ℝ)},
    sfDaa n up lags = .ok l → ∀ p ∈ l, ∀ d, p.2 = some d → 0 ≤ d
  | [], l, h => by
    obtain rfl := Except.ok.inj h
    simp
  | L :: lags, l, h => by
    unfold sfDaa at h
    rw [List.mapM_cons] at h
    cases hL : sfLag n up L with
    | error e => rw [hL] at h; cases h
    | ok d =>
      rw [hL] at h
      simp only [bind, Except.bind] at h
      by_cases hn : n ≤ L
      · rw [if_pos hn] at h; cases h
      · rw [if_neg hn] at h
        simp only [pure, Except.pure] at h
        cases hr : sfDaa n up lags with
        | error e =>
          unfold sfDaa at hr
          simp only [bind, Except.bind, pure, Except.pure] at hr
          rw [hr] at h
          cases h
        | ok l' =>
          have ih := sfDaa_nonneg hr
          unfold sfDaa at hr
          simp only [bind, Except.bind, pure, Except.pure] at hr
          rw [hr] at h
          obtain rfl := Except.ok.inj h
          intro p hp x hx
          rcases List.mem_cons.mp hp with rfl | hp
          · unfold sfLag at hL
            simp only at hx
            rcases ite_eq_iff.mp hL with ⟨_, hL⟩ | ⟨_, hL⟩
            · rcases ite_eq_iff.mp hL with ⟨_, hL⟩ | ⟨_, hL⟩
              · rw [← Except.ok.inj hL] at hx; cases hx
              · cases hL
            · rw [hx] at hL
              apply nanmean_nonneg _ (Except.ok.inj hL)
              intro y hy
              unfold vals at hy
              obtain ⟨i, -, hi⟩ := List.mem_map.mp hy
              cases ha : up (i + L) with
              | none => rw [ha] at hi; cases hb : up i <;> rw [hb] at hi <;> cases hi
              | some a =>
                cases hb : up i with
                | none => rw [ha, hb] at hi; cases hi
                | some b =>
                  rw [ha, hb] at hi
                  rw [← Option.some.inj hi]
                  positivity
          · exact ih p hp x hx

/-- **C106** (units of velocity). Scaling the velocity fluctuations by `c` scales the estimate by `|c|³`, whatever
the data, including missing samples. -/
theorem sf_scale (fs f0 f1 : ℚ) (n : ℕ) (up : ℕ → Option ℝ) (U c : ℝ) (hc : c ≠ 0) (hU : 0 ≤ U) (hfs : 0 < fs) :
    sfBin fs f0 f1 n (fun i => (up i).map fun x => c * x) U =
      (sfBin fs f0 f1 n up U).map fun e => e.map fun x => |c| ^ 3 * x := by
  unfold sfBin
  rw [sfDaa_scale]
  cases hd : sfDaa n up (sfLags fs f0 f1) with
  | error e => rfl
  | ok daa =>
    simp only [Except.map, bind, Except.bind]
    by_cases h0 : U = 0
    · rw [if_pos h0, if_pos h0]; rfl
    · rw [if_neg h0, if_neg h0]
      simp only [pure, Except.pure]
      congr 1
      have hfs' : (0 : ℝ) < fs := by exact_mod_cast hfs
      have hk : 0 < c ^ 2 := by positivity
      have e : (daa.map fun p => (p.1, p.2.map fun x => c ^ 2 * x)).filterMap (fun p =>
          p.2.map fun d => d / (U / fs * (p.1 : ℝ)) ^ (2 / 3 : ℝ)) =
          (daa.filterMap fun p => p.2.map fun d => d / (U / fs * (p.1 : ℝ)) ^ (2 / 3 : ℝ)).map
            fun x => c ^ 2 * x := by
        rw [List.filterMap_map, List.map_filterMap]
        apply List.filterMap_congr
        intro p _
        simp only [Function.comp_apply]
        cases p.2 with
        | none => rfl
        | some d =>
          simp only [Option.map_some]
          congr 1
          ring
      rw [e, npMedian_scale _ hk]
      cases hm : npMedian (daa.filterMap fun p => p.2.map fun d => d / (U / fs * (p.1 : ℝ)) ^ (2 / 3 : ℝ)) with
      | none => rfl
      | some m =>
        simp only [Option.map_some]
        congr 1
        have hm0 : 0 ≤ m := by
          apply npMedian_nonneg _ hm
          intro x hx
          rw [List.mem_filterMap] at hx
          obtain ⟨p, hp, hx⟩ := hx
          cases hp2 : p.2 with
          | none => rw [hp2] at hx; cases hx
          | some d =>
            rw [hp2] at hx
            rw [← Option.some.inj hx]
            have hd0 := sfDaa_nonneg hd p hp d hp2
            have : 0 ≤ U / fs * (p.1 : ℝ) := by positivity
            positivity
        rw [mul_div_assoc, Real.mul_rpow hk.le (by positivity)]
        congr 1
        rw [← sq_abs, ← Real.rpow_natCast, ← Real.rpow_natCast, ← Real.rpow_mul (abs_nonneg c)]
        norm_num

/-- **C106 is false of the code** for a frequency range that reaches beyond the sampling rate: instead of the
announced warning the call raises (bins of two or more samples). -/
theorem sf_high_false (fs f0 f1 : ℚ) (n : ℕ) (up : ℕ → Option ℝ) (U : ℝ) (hn : n ≠ 1) (hfs : 0 < fs)
    (h1 : fs < f1) (h0 : 0 < f0) (h2 : f0 ≤ fs) : sfBin fs f0 f1 n up U = .error .valueError := by
  have ha : (pyInt (fs / f1)).toNat = 0 := by
    have hq : 0 ≤ fs / f1 := div_nonneg hfs.le (hfs.le.trans h1.le)
    have hlt : fs / f1 < 1 := by rw [div_lt_one (by linarith)]; exact h1
    have : ⌊fs / f1⌋ = 0 := by rw [Int.floor_eq_zero_iff]; exact ⟨hq, hlt⟩
    unfold pyInt
    rw [if_pos hq, this]; rfl
  have hb : 1 ≤ (pyInt (fs / f0)).toNat := by
    have hq : 1 ≤ fs / f0 := by rw [le_div_iff₀ h0]; linarith
    have : 1 ≤ ⌊fs / f0⌋ := by rw [Int.le_floor]; exact_mod_cast hq
    unfold pyInt
    rw [if_pos (by linarith)]
    omega
  have hl : ∃ r, sfLags fs f0 f1 = 0 :: r := by
    unfold sfLags
    simp only
    rw [ha]
    obtain ⟨b, hb'⟩ : ∃ b, (pyInt (fs / f0)).toNat = b + 1 := ⟨(pyInt (fs / f0)).toNat - 1, by omega⟩
    rw [hb', Nat.sub_zero, List.range_succ_eq_map, List.map_cons]
    exact ⟨_, rfl⟩
  obtain ⟨r, hr⟩ := hl
  unfold sfBin sfDaa
  rw [hr, List.mapM_cons]
  unfold sfLag
  rw [if_pos rfl, if_neg hn]
  rfl

/-- The lags of the structure function lie in the frequency range, up to rounding down. -/
theorem sfLags_mem (fs f0 f1 : ℚ) (hfs : 0 ≤ fs) (h0 : 0 ≤ f0) (h1 : 0 ≤ f1) (L : ℕ) :
    L ∈ sfLags fs f0 f1 ↔ ⌊fs / f1⌋ ≤ L ∧ (L : ℤ) < ⌊fs / f0⌋ := by
  have e : ∀ f : ℚ, 0 ≤ f → ((pyInt (fs / f)).toNat : ℤ) = ⌊fs / f⌋ := by
    intro f hf
    have hq : 0 ≤ fs / f := by positivity
    have : 0 ≤ ⌊fs / f⌋ := Int.floor_nonneg.mpr hq
    unfold pyInt
    rw [if_pos hq]
    omega
  have e0 := e f0 h0
  have e1 := e f1 h1
  unfold sfLags
  simp only [List.mem_map, List.mem_range]
  constructor
  · rintro ⟨i, hi, rfl⟩
    push_cast
    omega
  · rintro ⟨a, b⟩
    exact ⟨L - (pyInt (fs / f1)).toNat, by omega, by omega⟩

/-- A case of C106: two samples per bin one second apart, lag 1. -/
example : (sfLags 1 (1 / 2) 1) = [1] ∧ 
    Spec.structure2 (fun i => if i = 1 then Real.sqrt 2.1 else 0) 2 1 = Spec.kolmogorov 1 (1 * ((1 : ℕ) / ((1 : ℚ) : ℝ))) := by
  constructor
  · decide +kernel
  · unfold Spec.structure2 Spec.kolmogorov
    rw [show (2 - 1 : ℕ) = 1 from rfl, Finset.sum_range_one]
    simp only [Nat.zero_add, if_true, Nat.zero_ne_one, if_false, sub_zero]
    rw [Real.sq_sqrt (by norm_num)]
    norm_num

/-! ### TE01 -/

theorem cbrt_nonneg {x : ℝ} (h : 0 ≤ x) : 0 ≤ cbrt x := Real.rpow_nonneg h _

/-- The integrand's radicand is a sum of squares. -/
theorem te01_radicand (b t x : ℝ) (hb : b ≠ 0) :
    x ^ 2 - 2 / b * Real.cos t * x + (b ^ 2)⁻¹ = (x - Real.cos t / b) ^ 2 + (Real.sin t / b) ^ 2 := by
  have := Real.sin_sq_add_cos_sq t
  field_simp
  linear_combination (-1 : ℝ) * this

/-- The integral used by TE01 is positive for every intensity and angle. -/
theorem te01Int_pos (b t : ℝ) (hb : 0 < b) : 0 < te01Int b t := by
  unfold te01Int
  have hx : ∀ k, te01X (k + 1) - te01X k = 1 / 100 := by
    intro k
    unfold te01X
    push_cast
    ring
  have hrad : ∀ x : ℝ, 0 ≤ x ^ 2 - 2 / b * Real.cos t * x + (b ^ 2)⁻¹ := by
    intro x
    rw [te01_radicand b t x hb.ne']
    positivity
  have hy : ∀ k, 0 ≤ cbrt (te01X k ^ 2 - 2 / b * Real.cos t * te01X k + (b ^ 2)⁻¹) *
      Real.exp (-(1 / 2) * te01X k ^ 2) := fun k =>
    mul_nonneg (cbrt_nonneg (hrad _)) (Real.exp_pos _).le
  have hsum : 0 < trapz 3999 te01X (fun k => cbrt (te01X k ^ 2 - 2 / b * Real.cos t * te01X k + (b ^ 2)⁻¹) *
      Real.exp (-(1 / 2) * te01X k ^ 2)) := by
    unfold trapz
    -- one of the points -20 and -19.99 is not a zero of the radicand
    have hk0 : 0 < (te01X (0 + 1) - te01X 0) * (cbrt (te01X (0 + 1) ^ 2 - 2 / b * Real.cos t * te01X (0 + 1) +
        (b ^ 2)⁻¹) * Real.exp (-(1 / 2) * te01X (0 + 1) ^ 2) + cbrt (te01X 0 ^ 2 - 2 / b * Real.cos t * te01X 0 +
        (b ^ 2)⁻¹) * Real.exp (-(1 / 2) * te01X 0 ^ 2)) / 2 := by
      rw [hx 0]
      have h1 := hy (0 + 1)
      have h0 := hy 0
      rcases eq_or_ne (te01X 0) (Real.cos t / b) with e | e
      · have hne : te01X (0 + 1) - Real.cos t / b ≠ 0 := by
          rw [← e, hx 0]; norm_num
        have : 0 < te01X (0 + 1) ^ 2 - 2 / b * Real.cos t * te01X (0 + 1) + (b ^ 2)⁻¹ := by
          rw [te01_radicand b t _ hb.ne']
          positivity
        have : 0 < cbrt (te01X (0 + 1) ^ 2 - 2 / b * Real.cos t * te01X (0 + 1) + (b ^ 2)⁻¹) *
            Real.exp (-(1 / 2) * te01X (0 + 1) ^ 2) := mul_pos (Real.rpow_pos_of_pos this _) (Real.exp_pos _)
        linarith
      · have hne : te01X 0 - Real.cos t / b ≠ 0 := sub_ne_zero.mpr e
        have : 0 < te01X 0 ^ 2 - 2 / b * Real.cos t * te01X 0 + (b ^ 2)⁻¹ := by
          rw [te01_radicand b t _ hb.ne']
          positivity
        have : 0 < cbrt (te01X 0 ^ 2 - 2 / b * Real.cos t * te01X 0 + (b ^ 2)⁻¹) *
            Real.exp (-(1 / 2) * te01X 0 ^ 2) := mul_pos (Real.rpow_pos_of_pos this _) (Real.exp_pos _)
        linarith
    rw [show (3999 : ℕ) = 3998 + 1 from rfl, List.range_succ_eq_map, List.map_cons, List.sum_cons]
    refine add_pos_of_pos_of_nonneg hk0 ?_
    apply List.sum_nonneg
    intro y hy'
    obtain ⟨k, -, rfl⟩ := List.mem_map.mp hy'
    rw [hx k]
    have := hy (k + 1)
    have := hy k
    positivity
  have h2 : 0 < (2 * Real.pi) ^ (-(1 / 2) : ℝ) := Real.rpow_pos_of_pos (by positivity) _
  exact mul_pos (mul_pos hsum h2) (Real.rpow_pos_of_pos hb _)

/-- The spectra of Trowbridge and Elgar in a flow of speed `U` (frequencies in rad/s): `c` is 21/55 for the sum
of the horizontal components and 12/55 for the vertical one. -/
noncomputable def Spec.te01Spectrum (c ε U I ω : ℝ) : ℝ :=
  c * 1.5 * I * (ε * U) ^ (2 / 3 : ℝ) * ω ^ (-(5 / 3) : ℝ)

theorem te01_mean (n : ℕ) (f S : ℕ → ℝ) (lo hi c ε U I : ℝ) (hlo : 0 ≤ lo) (hne : freqIdx n f lo hi ≠ [])
    (hS : ∀ k < n, lo < f k → f k < hi → S k = Spec.te01Spectrum c ε U I (f k)) :
    compMean (freqIdx n f lo hi) f S = c * 1.5 * I * (ε * U) ^ (2 / 3 : ℝ) := by
  unfold compMean
  apply const_mean _ hne
  intro k hk
  obtain ⟨h1, h2, h3⟩ := mem_freqIdx.mp hk
  have hf : 0 < f k := by linarith
  have : f k ^ (-(5 / 3) : ℝ) * f k ^ (5 / 3 : ℝ) = 1 := by
    rw [← Real.rpow_add hf]; norm_num
  rw [hS k h1 h2 h3, Spec.te01Spectrum, mul_assoc, this, mul_one]

/-- **C107**. For spectra in rad/s that follow the model of Trowbridge and Elgar in the chosen range, with the
integral of the bin's intensity and angle, the estimate is the dissipation rate. -/
theorem te01_exact (n : ℕ) (f : ℕ → ℝ) (lo hi : ℝ) (Su Sv Sw : ℕ → ℝ) (U b t ε : ℝ) (hlo : 0 ≤ lo)
    (hne : ∃ k < n, lo < f k ∧ f k < hi) (hU : 0 < U) (hb : 0 < b) (hε : 0 < ε)
    (hS : ∀ k < n, lo < f k → f k < hi →
      Su k + Sv k = Spec.te01Spectrum (21 / 55) ε U (te01Int b t) (f k) ∧
      Sw k = Spec.te01Spectrum (12 / 55) ε U (te01Int b t) (f k)) :
    te01 n f lo hi Su Sv Sw U (te01Int b t) = some ε := by
  obtain ⟨k0, hk0, h1, h2⟩ := hne
  have hne : freqIdx n f lo hi ≠ [] := List.ne_nil_of_mem (mem_freqIdx.mpr ⟨hk0, h1, h2⟩)
  have hI := te01Int_pos b t hb
  unfold te01
  simp only
  rw [if_neg hne, if_neg hU.ne',
    te01_mean n f (fun k => Su k + Sv k) lo hi (21 / 55) ε U (te01Int b t) hlo hne fun k a b c => (hS k a b c).1,
    te01_mean n f Sw lo hi (12 / 55) ε U (te01Int b t) hlo hne fun k a b c => (hS k a b c).2]
  have hεU : 0 < ε * U := by positivity
  congr 1
  rw [mul_comm _ ((ε * U) ^ (2 / 3 : ℝ)), mul_div_assoc, div_self (by positivity), mul_one,
    mul_comm _ ((ε * U) ^ (2 / 3 : ℝ)), mul_div_assoc, div_self (by positivity), mul_one,
    two_thirds_three_halves _ hεU]
  field_simp
  norm_num

/-- **C107 is false of the code** for spectra in Hz, which the documentation allows: the same spectrum per Hz
(`S_f = 2π S_ω`, `f = ω/2π`) gives the dissipation rate divided by `2π`. -/
theorem te01_hz_false (n : ℕ) (ω : ℕ → ℝ) (lo hi : ℝ) (Su Sv Sw : ℕ → ℝ) (U b t ε : ℝ) (hlo : 0 ≤ lo)
    (hne : ∃ k < n, lo < ω k ∧ ω k < hi) (hU : 0 < U) (hb : 0 < b) (hε : 0 < ε)
    (hS : ∀ k < n, lo < ω k → ω k < hi →
      Su k + Sv k = Spec.te01Spectrum (21 / 55) ε U (te01Int b t) (ω k) ∧
      Sw k = Spec.te01Spectrum (12 / 55) ε U (te01Int b t) (ω k)) :
    te01 n (fun k => ω k / (2 * Real.pi)) (lo / (2 * Real.pi)) (hi / (2 * Real.pi))
      (fun k => 2 * Real.pi * Su k) (fun k => 2 * Real.pi * Sv k) (fun k => 2 * Real.pi * Sw k) U (te01Int b t) =
        some (ε / (2 * Real.pi)) := by
  have hp : 0 < 2 * Real.pi := by positivity
  have key : ∀ c k, k < n → lo < ω k →
      2 * Real.pi * Spec.te01Spectrum c ε U (te01Int b t) (ω k) =
        Spec.te01Spectrum c (ε / (2 * Real.pi)) U (te01Int b t) (ω k / (2 * Real.pi)) := by
    intro c k _ h1
    have hω : 0 < ω k := by linarith
    unfold Spec.te01Spectrum
    rw [show ε / (2 * Real.pi) * U = (ε * U) / (2 * Real.pi) by ring,
      Real.div_rpow (by positivity) hp.le, Real.div_rpow hω.le hp.le]
    have h53 : (2 * Real.pi) ^ (-(5 / 3) : ℝ) * (2 * Real.pi) ^ (2 / 3 : ℝ) = (2 * Real.pi)⁻¹ := by
      rw [← Real.rpow_add hp, ← Real.rpow_neg_one]
      norm_num
    have hA : (2 * Real.pi) ^ (2 / 3 : ℝ) ≠ 0 := (Real.rpow_pos_of_pos hp _).ne'
    have hB : (2 * Real.pi) ^ (-(5 / 3) : ℝ) ≠ 0 := (Real.rpow_pos_of_pos hp _).ne'
    have : (2 * Real.pi) = ((2 * Real.pi) ^ (-(5 / 3) : ℝ) * (2 * Real.pi) ^ (2 / 3 : ℝ))⁻¹ := by
      rw [h53, inv_inv]
    conv_lhs => rw [this]
    rw [mul_inv]
    field_simp
  apply te01_exact
  · positivity
  · obtain ⟨k, h0, h1, h2⟩ := hne
    exact ⟨k, h0, (div_lt_div_iff_of_pos_right hp).mpr h1, (div_lt_div_iff_of_pos_right hp).mpr h2⟩
  · exact hU
  · exact hb
  · positivity
  · intro k hk h1 h2
    rw [div_lt_div_iff_of_pos_right hp] at h1 h2
    obtain ⟨e1, e2⟩ := hS k hk h1 h2
    constructor
    · rw [← key _ k hk h1, ← e1]; ring
    · rw [← key _ k hk h1, ← e2]

/-- Spectra as in C107. -/
example : ∃ (n : ℕ) (f Su Sv Sw : ℕ → ℝ), (∃ k < n, (6 : ℝ) < f k ∧ f k < 12) ∧ ∀ k < n, 6 < f k → f k < 12 →
      Su k + Sv k = Spec.te01Spectrum (21 / 55) 1 1 (te01Int 1 0) (f k) ∧
      Sw k = Spec.te01Spectrum (12 / 55) 1 1 (te01Int 1 0) (f k) :=
  ⟨1, fun _ => 7, fun k => Spec.te01Spectrum (21 / 55) 1 1 (te01Int 1 0) 7, fun _ => 0,
    fun k => Spec.te01Spectrum (12 / 55) 1 1 (te01Int 1 0) 7, ⟨0, by norm_num, by norm_num, by norm_num⟩,
    fun k _ _ _ => ⟨by ring, rfl⟩⟩

end Dolfyn
