import Verif.Props.Dissip

/-!
C73 (turbulence intensity), C74 (Doppler noise level), C75 (slope of the turbulence cascade),
C76 (friction velocity).
-/

namespace Dolfyn

open Finset

/-! ### C73 -/

theorem fluct_demean (b : Binner) (n len : ℕ) (hb : b.nBin = n) (hn : 0 < n) (hlen : n ≤ len)
    (x : ℕ → ℝ) : ∃ m, fluct b false len (fun i => some (x i)) = .ok m ∧ m.rows = len / n ∧
      m.cols = n ∧ ∀ r < len / n, ∀ j < n,
        m.at_ r j = some (x (r * n + j) - Spec.mean n fun j => x (r * n + j)) := by
  obtain ⟨m, h1, h2, h3, h4⟩ := reshape_no_pad (some 0) len (fun i => some (x i)) n hn hlen
  refine ⟨⟨m.rows, m.cols, fun r j => opt2 (· - ·) (m.at_ r j) (nanmean (m.row r))⟩,
    by unfold fluct; rw [hb, h1]; rfl, h2, h3, fun r hr j hj => ?_⟩
  have hrow : nanmean (m.row r) = some (Spec.mean n fun j => x (r * n + j)) := by
    have : m.row r = vals n fun j => some (x (r * n + j)) := by
      unfold Mat2.row vals
      rw [h3]
      exact List.map_congr_left fun j hj => h4 r j (by omega) (List.mem_range.mp hj)
    rw [this]
    exact nanmean_some n hn fun j => x (r * n + j)
  simp only [hrow, h4 r j (by omega) hj]
  rfl

/-- Turbulence intensity of bin `r`: standard deviation after noise correction over the mean. -/
noncomputable def Spec.ti (n : ℕ) (noise : ℝ) (x : ℕ → ℝ) (r : ℕ) : ℝ :=
  Real.sqrt (Spec.binCov n x x r - noise ^ 2) / Spec.mean n fun j => x (r * n + j)

/-- C73: for a complete record, every bin with a non-zero mean and a variance of at least the noise
variance gets the turbulence intensity of its own samples. -/
theorem ti_spec (b : Binner) (n len : ℕ) (hb : b.nBin = n) (hn : 0 < n) (hlen : n ≤ len)
    (noise th : ℝ) (x : ℕ → ℝ)
    (hm : ∀ r < len / n, Spec.mean n (fun j => x (r * n + j)) ≠ 0)
    (hv : ∀ r < len / n, noise ^ 2 ≤ Spec.binCov n x x r) :
    calcTi b true noise th false len (fun i => some (x i)) =
      .ok ((List.range (len / n)).map fun r => some (Spec.ti n noise x r)) := by
  obtain ⟨m, h1, h2, h3, h4⟩ := fluct_demean b n len hb hn hlen x
  obtain ⟨m', g1, g2, g3⟩ := row_eq_samples (some 0) len (fun i => some (x i)) n hn hlen
  have hmean : binMean b len (fun i => some (x i)) none =
      .ok ((List.range (len / n)).map fun r => some (Spec.mean n fun j => x (r * n + j))) := by
    unfold binMean parseNbin
    rw [Option.getD_none, hb, g1]
    simp only [Except.map, g2]
    congr 1
    apply List.map_congr_left
    intro r hr
    rw [g3 r (List.mem_range.mp hr)]
    exact nanmean_some n hn fun j => x (r * n + j)
  have hprod : rowProd m m = (List.range (len / n)).map fun r => some (Spec.binCov n x x r) := by
    unfold rowProd
    rw [h2, h3]
    apply List.map_congr_left
    intro r hr
    have : vals n (fun j => opt2 (· * ·) (m.at_ r j) (m.at_ r j)) = vals n (fun j => some
        ((x (r * n + j) - Spec.mean n fun j => x (r * n + j)) *
          (x (r * n + j) - Spec.mean n fun j => x (r * n + j)))) := by
      unfold vals
      apply List.map_congr_left
      intro j hj
      rw [h4 r (List.mem_range.mp hr) j (List.mem_range.mp hj)]
      rfl
    rw [this, nanmean_some n hn]
    rfl
  unfold calcTi
  rw [if_neg (by simp), h1, hmean]
  simp only [bind, Except.bind, pure, Except.pure, hprod, subNoise, List.map_map]
  congr 1
  rw [List.zipWith_map_left, List.zipWith_map_right, List.zipWith_self]
  apply List.map_congr_left
  intro r hr
  have hr' := List.mem_range.mp hr
  simp only [Function.comp_apply, Option.map_some, Option.bind_some, npSqrt]
  rw [if_neg (not_lt.mpr (sub_nonneg.mpr (hv r hr')))]
  simp only [npDiv, if_neg (hm r hr'), Spec.ti]

/-- Mean of the samples that are present in bin `r`. -/
noncomputable def Spec.presentMean (n : ℕ) (x : ℕ → Option ℝ) (r : ℕ) : ℝ :=
  (∑ j ∈ range n, (x (r * n + j)).getD 0) / ((range n).filter fun j => (x (r * n + j)).isSome).card

/-- Variance of the samples that are present in bin `r`. -/
noncomputable def Spec.presentVar (n : ℕ) (x : ℕ → Option ℝ) (r : ℕ) : ℝ :=
  (∑ j ∈ (range n).filter fun j => (x (r * n + j)).isSome,
    ((x (r * n + j)).getD 0 - Spec.presentMean n x r) ^ 2) /
    ((range n).filter fun j => (x (r * n + j)).isSome).card

/-- C73 with missing samples: every bin gets the turbulence intensity of the samples it holds, and none if it
holds no sample, if their mean is zero or if their variance is below that of the noise. -/
theorem ti_missing (b : Binner) (n len : ℕ) (hb : b.nBin = n) (hn : 0 < n) (hlen : n ≤ len)
    (noise th : ℝ) (x : ℕ → Option ℝ) :
    calcTi b true noise th false len x = .ok ((List.range (len / n)).map fun r =>
      if (∀ j < n, x (r * n + j) = none) ∨ Spec.presentVar n x r < noise ^ 2 ∨ Spec.presentMean n x r = 0
      then none
      else some (Real.sqrt (Spec.presentVar n x r - noise ^ 2) / Spec.presentMean n x r)) := by
  obtain ⟨m, h1, h2, h3, h4⟩ := reshape_no_pad (some 0) len x n hn hlen
  have hrow : ∀ r < len / n, m.row r = vals n fun j => x (r * n + j) := by
    intro r hr
    unfold Mat2.row vals
    rw [h3]
    exact List.map_congr_left fun j hj => h4 r j (by omega) (List.mem_range.mp hj)
  unfold calcTi fluct binMean parseNbin
  rw [if_neg (by simp), Option.getD_none, hb, h1]
  simp only [bind, Except.bind, pure, Except.pure, Except.map, rowProd, subNoise, List.map_map, h2, h3]
  congr 1
  rw [List.zipWith_map_left, List.zipWith_map_right, List.zipWith_self]
  apply List.map_congr_left
  intro r hr
  have hr' := List.mem_range.mp hr
  set S := (range n).filter fun j => (x (r * n + j)).isSome with hS
  have hmean := nanmean_vals n fun j => x (r * n + j)
  simp only [← hS] at hmean
  by_cases hc : S.card = 0
  · have hall : ∀ j < n, x (r * n + j) = none := by
      intro j hj
      have hj2 : j ∉ S := by rw [Finset.card_eq_zero.mp hc]; simp
      rw [hS, mem_filter] at hj2
      cases hx : x (r * n + j) with
      | none => rfl
      | some v => exact absurd ⟨mem_range.mpr hj, by rw [hx]; rfl⟩ hj2
    rw [if_pos (Or.inl hall)]
    rw [if_pos hc] at hmean
    simp only [Function.comp_apply, hrow r hr', hmean]
    unfold npDiv
    split <;> simp_all
  · have hex : ¬ ∀ j < n, x (r * n + j) = none := by
      intro hall
      apply hc
      rw [Finset.card_eq_zero, hS, filter_eq_empty_iff]
      intro j hj
      simp [hall j (mem_range.mp hj)]
    rw [if_neg hc] at hmean
    have hmean' : nanmean (vals n fun j => x (r * n + j)) = some (Spec.presentMean n x r) := hmean
    have hprod : nanmean (vals n fun j => opt2 (· * ·)
        (opt2 (· - ·) (m.at_ r j) (some (Spec.presentMean n x r)))
        (opt2 (· - ·) (m.at_ r j) (some (Spec.presentMean n x r)))) =
        some (Spec.presentVar n x r) := by
      have e : vals n (fun j => opt2 (· * ·)
          (opt2 (· - ·) (m.at_ r j) (some (Spec.presentMean n x r)))
          (opt2 (· - ·) (m.at_ r j) (some (Spec.presentMean n x r)))) =
          vals n fun j => (x (r * n + j)).map fun v => (v - Spec.presentMean n x r) ^ 2 := by
        unfold vals
        apply List.map_congr_left
        intro j hj
        rw [h4 r j (by omega) (List.mem_range.mp hj)]
        cases x (r * n + j) with
        | none => rfl
        | some v => simp [opt2, sq]
      rw [e, nanmean_vals]
      have ef : ((range n).filter fun i => (Option.map (fun v => (v - Spec.presentMean n x r) ^ 2)
          (x (r * n + i))).isSome) = S := by
        rw [hS]
        apply filter_congr
        intro i _
        simp
      rw [ef, if_neg hc]
      unfold Spec.presentVar
      rw [← hS]
      congr 2
      rw [hS, sum_filter]
      apply sum_congr rfl
      intro j _
      cases x (r * n + j) <;> simp
    simp only [Function.comp_apply, hrow r hr', hmean']
    simp only [Bool.false_eq_true, if_false]
    rw [hprod]
    simp only [Option.map_some, Option.bind_some, npSqrt]
    by_cases hv : Spec.presentVar n x r < noise ^ 2
    · rw [if_pos (Or.inr (Or.inl hv)), if_pos (by linarith)]
      rfl
    · rw [if_neg (by linarith)]
      by_cases hm : Spec.presentMean n x r = 0
      · rw [if_pos (Or.inr (Or.inr hm))]
        simp [npDiv, hm]
      · rw [if_neg (by tauto)]
        simp [npDiv, hm]

/-- C73 is false of the threshold: a steady flow slower than the threshold, "below which TI will not
be calculated", still gets a turbulence intensity in every bin. -/
theorem ti_threshold_false (b : Binner) (n len : ℕ) (hb : b.nBin = n) (hn : 0 < n) (hlen : n ≤ len)
    (c th : ℝ) (hc : 0 < c) (_hth : c < th) :
    calcTi b true 0 th false len (fun _ => some c) =
      .ok ((List.range (len / n)).map fun _ => some 0) := by
  have hn' : (n : ℝ) ≠ 0 := by positivity
  have hmean : Spec.mean n (fun _ => c) = c := by
    simp only [Spec.mean, sum_const, card_range, nsmul_eq_mul]
    field_simp
  have hcov : ∀ r, Spec.binCov n (fun _ => c) (fun _ => c) r = 0 := by
    intro r
    simp [Spec.binCov, Spec.cov, hmean]
  rw [ti_spec b n len hb hn hlen 0 th (fun _ => c) (fun r _ => by rw [hmean]; exact hc.ne')
    (fun r _ => by rw [hcov]; simp)]
  simp [Spec.ti, hcov]

/-- C73: data that is not an xarray object raises. -/
theorem ti_numpy_raises (b : Binner) (noise th : ℝ) (dt : Bool) (len : ℕ) (U : ℕ → Option ℝ) :
    calcTi b false noise th dt len U = .error .unboundLocal := rfl

/-- C73: a bin whose variance is below the noise variance gets no value (and not a wrong one). -/
theorem ti_below_noise (b : Binner) (n len : ℕ) (hb : b.nBin = n) (hn : 0 < n) (hlen : n ≤ len)
    (noise th c : ℝ) (hnz : noise ≠ 0) :
    calcTi b true noise th false len (fun _ => some c) =
      .ok ((List.range (len / n)).map fun _ => none) := by
  obtain ⟨m, h1, h2, h3, h4⟩ := fluct_demean b n len hb hn hlen fun _ => c
  obtain ⟨m', g1, g2, g3⟩ := row_eq_samples (some 0) len (fun _ => some c) n hn hlen
  have hn' : (n : ℝ) ≠ 0 := by positivity
  have hmean : Spec.mean n (fun _ => c) = c := by
    simp only [Spec.mean, sum_const, card_range, nsmul_eq_mul]
    field_simp
  have hprod : rowProd m m = (List.range (len / n)).map fun _ => some 0 := by
    unfold rowProd
    rw [h2, h3]
    apply List.map_congr_left
    intro r hr
    have : vals n (fun j => opt2 (· * ·) (m.at_ r j) (m.at_ r j)) = vals n (fun _ => some 0) := by
      unfold vals
      apply List.map_congr_left
      intro j hj
      rw [h4 r (List.mem_range.mp hr) j (List.mem_range.mp hj), hmean, sub_self]
      simp [opt2]
    rw [this, nanmean_some n hn]
    simp
  unfold calcTi
  rw [if_neg (by simp), h1]
  unfold binMean parseNbin
  rw [Option.getD_none, hb, g1]
  simp only [bind, Except.bind, pure, Except.pure, Except.map, hprod, subNoise, g2, List.map_map]
  congr 1
  rw [List.zipWith_map_left, List.zipWith_map_right, List.zipWith_self]
  apply List.map_congr_left
  intro r hr
  have : (0 : ℝ) - noise ^ 2 < 0 := by
    have := sq_pos_of_ne_zero hnz
    linarith
  simp only [Function.comp_apply, Option.map_some, Option.bind_some, npSqrt, if_pos this]
  rfl

/-- A case meeting the hypotheses of `ti_spec`: alternating 1, 3 in bins of two. -/
example : ∃ x : ℕ → ℝ, (∀ r < 6 / 2, Spec.mean 2 (fun j => x (r * 2 + j)) ≠ 0) ∧
    ∀ r < 6 / 2, (1 / 2 : ℝ) ^ 2 ≤ Spec.binCov 2 x x r := by
  refine ⟨fun i => if i % 2 = 0 then 1 else 3, fun r _ => ?_, fun r _ => ?_⟩
  · have h0 : (r * 2) % 2 = 0 := by omega
    have h1 : (r * 2 + 1) % 2 = 1 := by omega
    simp [Spec.mean, sum_range_succ, h0, h1]
    norm_num
  · have h0 : (r * 2) % 2 = 0 := by omega
    have h1 : (r * 2 + 1) % 2 = 1 := by omega
    simp [Spec.binCov, Spec.cov, Spec.mean, sum_range_succ, h0, h1]
    norm_num

/-! ### C74 -/

theorem mem_noiseBand_hz {fs pct : ℝ} {n : ℕ} {f : ℕ → ℝ} {i : ℕ} :
    i ∈ noiseBand fs pct .hz n f ↔ i < n ∧ pct * (fs / 2) ≤ f i ∧ f i ≤ fs / 2 := by
  simp [noiseBand]

theorem list_mean_bounds (l : List ℕ) (hl : l ≠ []) (g : ℕ → ℝ) (a c : ℝ)
    (h : ∀ k ∈ l, a ≤ g k ∧ g k ≤ c) :
    a ≤ (l.map g).sum / l.length ∧ (l.map g).sum / l.length ≤ c := by
  have h0 : (0 : ℝ) < l.length := by
    have := List.length_pos_of_ne_nil hl
    exact_mod_cast this
  rw [le_div_iff₀ h0, div_le_iff₀ h0]
  clear h0 hl
  induction l with
  | nil => simp
  | cons y ys ih =>
    obtain ⟨i1, i2⟩ := ih fun k hk => h k (List.mem_cons_of_mem _ hk)
    obtain ⟨j1, j2⟩ := h y List.mem_cons_self
    simp only [List.map_cons, List.sum_cons, List.length_cons]
    push_cast
    constructor <;> linarith

/-- C74: for white measurement noise of standard deviation `σ` (spectral level `σ²/(fs/2)` per Hz), the
estimated noise level is at most `σ` and at least `σ √pct`: it never removes more than the true
noise. -/
theorem doppler_noise_white (fs pct σ : ℝ) (hfs : 0 < fs) (hp : 0 ≤ pct) (hσ : 0 ≤ σ) (n : ℕ)
    (f S : ℕ → ℝ)
    (hband : ∃ i < n, pct * (fs / 2) ≤ f i ∧ f i ≤ fs / 2)
    (hS : ∀ i < n, pct * (fs / 2) ≤ f i → f i ≤ fs / 2 → S i = σ ^ 2 / (fs / 2)) :
    ∃ s, dopplerNoise fs pct .hz n f S = some s ∧ σ * Real.sqrt pct ≤ s ∧ s ≤ σ := by
  obtain ⟨i0, hi0, h1, h2⟩ := hband
  have hne : noiseBand fs pct .hz n f ≠ [] :=
    List.ne_nil_of_mem (mem_noiseBand_hz.mpr ⟨hi0, h1, h2⟩)
  have hb := list_mean_bounds (noiseBand fs pct .hz n f) hne (fun i => S i * f i)
    (σ ^ 2 * pct) (σ ^ 2) (by
      intro k hk
      obtain ⟨a, b, c⟩ := mem_noiseBand_hz.mp hk
      rw [hS k a b c]
      have hN : 0 ≤ σ ^ 2 / (fs / 2) := by positivity
      have e1 : σ ^ 2 / (fs / 2) * (pct * (fs / 2)) = σ ^ 2 * pct := by field_simp
      have e2 : σ ^ 2 / (fs / 2) * (fs / 2) = σ ^ 2 := by field_simp
      exact ⟨e1.symm.le.trans (mul_le_mul_of_nonneg_left b hN),
        (mul_le_mul_of_nonneg_left c hN).trans e2.le⟩)
  have h0 : 0 ≤ σ ^ 2 * pct := by positivity
  unfold dopplerNoise
  rw [if_neg hne]
  unfold npSqrt
  rw [if_neg (not_lt.mpr (h0.trans hb.1))]
  refine ⟨_, rfl, ?_, ?_⟩
  · rw [← Real.sqrt_sq hσ, ← Real.sqrt_mul (sq_nonneg σ)]
    simpa only [Real.sqrt_sq hσ] using Real.sqrt_le_sqrt hb.1
  · calc _ ≤ Real.sqrt (σ ^ 2) := Real.sqrt_le_sqrt hb.2
      _ = σ := Real.sqrt_sq hσ

/-- C74: the documented formula `N fc` is exact only if the band is the single frequency `fc`: any
band frequency above `fc` makes the returned variance strictly larger than `N fc`. -/
theorem doppler_noise_above_doc (fs pct N : ℝ) (hfs : 0 < fs) (hp : 0 ≤ pct) (hN : 0 < N) (n : ℕ)
    (f S : ℕ → ℝ) (hS : ∀ i < n, S i = N)
    (hband : ∃ i < n, pct * (fs / 2) < f i ∧ f i ≤ fs / 2) :
    ∃ s, dopplerNoise fs pct .hz n f S = some s ∧ N * (pct * (fs / 2)) < s ^ 2 := by
  obtain ⟨i0, hi0, h1, h2⟩ := hband
  have hmem : i0 ∈ noiseBand fs pct .hz n f := mem_noiseBand_hz.mpr ⟨hi0, h1.le, h2⟩
  have hne := List.ne_nil_of_mem hmem
  have hlen : (0 : ℝ) < (noiseBand fs pct .hz n f).length := by
    exact_mod_cast List.length_pos_of_ne_nil hne
  have hlt : N * (pct * (fs / 2)) * (noiseBand fs pct .hz n f).length <
      ((noiseBand fs pct .hz n f).map fun i => S i * f i).sum := by
    have : ((noiseBand fs pct .hz n f).map fun _ => N * (pct * (fs / 2))).sum <
        ((noiseBand fs pct .hz n f).map fun i => S i * f i).sum := by
      apply List.sum_lt_sum
      · intro k hk
        obtain ⟨a, b, c⟩ := mem_noiseBand_hz.mp hk
        rw [hS k a]
        exact mul_le_mul_of_nonneg_left b hN.le
      · refine ⟨i0, hmem, ?_⟩
        rw [hS i0 hi0]
        exact mul_lt_mul_of_pos_left h1 hN
    simpa [mul_comm] using this
  have hlt' := (lt_div_iff₀ hlen).mpr hlt
  have h0 : 0 ≤ N * (pct * (fs / 2)) := by positivity
  unfold dopplerNoise
  rw [if_neg hne]
  unfold npSqrt
  rw [if_neg (not_lt.mpr (h0.trans hlt'.le))]
  refine ⟨_, rfl, ?_⟩
  rw [Real.sq_sqrt (h0.trans hlt'.le)]
  exact hlt'

/-- C74: the noise level does not depend on the frequency units of the spectrum. -/
theorem doppler_noise_units (fs pct : ℝ) (n : ℕ) (f S : ℕ → ℝ) :
    dopplerNoise fs pct .rad n (fun i => 2 * Real.pi * f i) (fun i => S i / (2 * Real.pi)) =
      dopplerNoise fs pct .hz n f S := by
  have hp : 0 < 2 * Real.pi := by positivity
  have hb : noiseBand fs pct .rad n (fun i => 2 * Real.pi * f i) = noiseBand fs pct .hz n f := by
    unfold noiseBand
    apply List.filter_congr
    intro i _
    apply decide_eq_decide.mpr
    simp only [one_mul, mul_le_mul_iff_right₀ hp]
  unfold dopplerNoise
  simp only [hb]
  have : ∀ i, S i / (2 * Real.pi) * (2 * Real.pi * f i) = S i * f i := fun i => by field_simp
  simp only [this]

example : ∃ i < 11, (0.8 : ℝ) * (10 / 2) ≤ (i : ℝ) / 2 ∧ (i : ℝ) / 2 ≤ 10 / 2 :=
  ⟨9, by norm_num, by norm_num, by norm_num⟩

/-! ### C75 -/

/-- C75: the spectrum `A f^m` has slope `m` and intercept `log10 A`, for every exponent. -/
theorem cascade_slope_exact (n : ℕ) (f S : ℕ → ℝ) (lo hi A m : ℝ) (hlo : 0 ≤ lo) (hA : 0 < A)
    (hS : ∀ k < n, lo < f k → f k < hi → S k = A * f k ^ m)
    (h2 : ∃ i < n, ∃ j < n, lo < f i ∧ f i < hi ∧ lo < f j ∧ f j < hi ∧ f i ≠ f j) :
    cascadeSlope n f S lo hi = some (m, Real.log A / Real.log 10) := by
  obtain ⟨i, hi', j, hj', a1, a2, b1, b2, hne⟩ := h2
  have h10 : 0 < Real.log 10 := Real.log_pos (by norm_num)
  have hp : cascadeSlope n f S lo hi =
      polyfit1 ((freqIdx n f lo hi).map fun k => Real.log (f k) / Real.log 10)
        ((freqIdx n f lo hi).map fun k => Real.log (S k) / Real.log 10) := by
    unfold cascadeSlope polyfit1
    simp only [List.length_map]
  have hy : ((freqIdx n f lo hi).map fun k => Real.log (S k) / Real.log 10) =
      ((freqIdx n f lo hi).map fun k => Real.log (f k) / Real.log 10).map
        fun a => m * a + Real.log A / Real.log 10 := by
    rw [List.map_map]
    apply List.map_congr_left
    intro k hk
    obtain ⟨c1, c2, c3⟩ := mem_freqIdx.mp hk
    have hf : 0 < f k := lt_of_le_of_lt hlo c2
    simp only [Function.comp_apply]
    rw [hS k c1 c2 c3, Real.log_mul hA.ne' (Real.rpow_pos_of_pos hf m).ne', Real.log_rpow hf]
    ring
  rw [hp, hy, polyfit1_line]
  refine ⟨_, List.mem_map.mpr ⟨i, mem_freqIdx.mpr ⟨hi', a1, a2⟩, rfl⟩, _,
    List.mem_map.mpr ⟨j, mem_freqIdx.mpr ⟨hj', b1, b2⟩, rfl⟩, ?_⟩
  intro h
  have := (div_left_inj' h10.ne').mp h
  exact hne (Real.log_injOn_pos (Set.mem_Ioi.mpr (lt_of_le_of_lt hlo a1))
    (Set.mem_Ioi.mpr (lt_of_le_of_lt hlo b1)) this)

/-- C75: scaling a positive spectrum leaves the slope unchanged, whatever its shape. -/
theorem cascade_slope_scale (n : ℕ) (f S : ℕ → ℝ) (lo hi c : ℝ) (hc : 0 < c)
    (hS : ∀ k < n, lo < f k → f k < hi → 0 < S k) :
    (cascadeSlope n f (fun k => c * S k) lo hi).map Prod.fst =
      (cascadeSlope n f S lo hi).map Prod.fst := by
  unfold cascadeSlope
  simp only []
  by_cases hne : freqIdx n f lo hi = []
  · simp [hne]
  have hlen : ((freqIdx n f lo hi).length : ℝ) ≠ 0 := by
    have := List.length_pos_of_ne_nil hne
    positivity
  set idx := freqIdx n f lo hi with hidx
  set κ := Real.log c / Real.log 10 with hκ
  have hy : (idx.map fun k => Real.log (c * S k) / Real.log 10) =
      idx.map fun k => Real.log (S k) / Real.log 10 + κ := by
    apply List.map_congr_left
    intro k hk
    obtain ⟨c1, c2, c3⟩ := mem_freqIdx.mp hk
    rw [Real.log_mul hc.ne' (hS k c1 c2 c3).ne', hκ]
    ring
  have hsum : (idx.map fun k => Real.log (S k) / Real.log 10 + κ).sum / (idx.length : ℝ) =
      (idx.map fun k => Real.log (S k) / Real.log 10).sum / (idx.length : ℝ) + κ := by
    have : (idx.map fun k => Real.log (S k) / Real.log 10 + κ).sum =
        (idx.map fun k => Real.log (S k) / Real.log 10).sum + idx.length * κ := by
      rw [List.sum_map_add]
      simp
    rw [this]
    field_simp
  rw [hy, hsum]
  have hz : ∀ μ ν : ℝ, ((idx.map fun k => Real.log (f k) / Real.log 10).zipWith
      (fun a b => (a - μ) * (b - (ν + κ))) (idx.map fun k => Real.log (S k) / Real.log 10 + κ)) =
      ((idx.map fun k => Real.log (f k) / Real.log 10).zipWith
      (fun a b => (a - μ) * (b - ν)) (idx.map fun k => Real.log (S k) / Real.log 10)) := by
    intro μ ν
    rw [List.zipWith_map_left, List.zipWith_map_right, List.zipWith_self, List.zipWith_map_left,
      List.zipWith_map_right, List.zipWith_self]
    apply List.map_congr_left
    intro k _
    ring
  rw [hz]
  split <;> rfl

/-! ### C76 -/

/-- C76: for a linear stress profile `± u*² (1 - z/H)` below the surface the fit returns `u*`, whatever
cells are used and whatever the sign of the stress. -/
theorem ustar_exact (idx : List ℕ) (hidx : idx ≠ []) (z : ℕ → ℝ) (H us s : ℝ) (hus : 0 ≤ us)
    (hs : s = 1 ∨ s = -1) (hz : ∀ i ∈ idx, z i / H < 1) (uw : ℕ → ℝ)
    (huw : ∀ i ∈ idx, uw i = s * us ^ 2 * (1 - z i / H)) :
    ustarFit idx z H uw = some us := by
  rcases hus.eq_or_lt with rfl | hpos
  · unfold ustarFit
    rw [if_neg hidx]
    have : ∀ c : ℝ, (idx.map fun i => c * uw i / (1 - z i / H)).sum / (idx.length : ℝ) = 0 := by
      intro c
      apply const_mean idx hidx
      intro i hi
      rw [huw i hi]
      simp
    simp only [this, npSqrt, lt_self_iff_false, if_false, Real.sqrt_zero]
  · have hsgn : (idx.map fun i => ((SignType.sign (uw i) : SignType) : ℝ)).sum / (idx.length : ℝ) = s := by
      apply const_mean idx hidx
      intro i hi
      have h1 : 0 < 1 - z i / H := by linarith [hz i hi]
      rw [huw i hi]
      rcases hs with rfl | rfl
      · rw [sign_pos (by positivity)]; simp
      · rw [sign_neg (by
          have : 0 < us ^ 2 * (1 - z i / H) := by positivity
          linarith)]
        simp
    have hss : s * s = 1 := by rcases hs with rfl | rfl <;> norm_num
    have hmean : (idx.map fun i => s * uw i / (1 - z i / H)).sum / (idx.length : ℝ) = us ^ 2 := by
      apply const_mean idx hidx
      intro i hi
      have h1 : 1 - z i / H ≠ 0 := by
        have := hz i hi
        intro h
        linarith
      rw [huw i hi, show s * (s * us ^ 2 * (1 - z i / H)) = s * s * us ^ 2 * (1 - z i / H) by ring,
        hss, one_mul, mul_div_assoc, div_self h1, mul_one]
    unfold ustarFit
    rw [if_neg hidx]
    simp only [hsgn, hmean, npSqrt]
    rw [if_neg (not_lt.mpr (sq_nonneg _)), Real.sqrt_sq hus]

example : ∃ (z : ℕ → ℝ), ∀ i ∈ [1, 2, 3, 4], z i / 10 < 1 :=
  ⟨fun i => (i : ℝ) + 0.5, by
    intro i hi
    have : i ≤ 4 := by
      simp only [List.mem_cons, List.not_mem_nil, or_false] at hi
      omega
    have h : (i : ℝ) ≤ 4 := by exact_mod_cast this
    beta_reduce
    linarith⟩

/-- C76 without the common sign: two cells of opposite stress and equal magnitude give zero friction
velocity (the signs cancel), although the stress magnitude is not zero. -/
theorem ustar_mixed_zero (us H : ℝ) :
    ustarFit [0, 1] (fun _ => 0) H (fun i => if i = 0 then us ^ 2 else -us ^ 2) = some 0 := by
  have h : ((SignType.sign (us ^ 2) : SignType) : ℝ) + ((SignType.sign (-us ^ 2) : SignType) : ℝ) = 0 := by
    rw [Left.sign_neg]
    simp
  unfold ustarFit
  simp only [List.map_cons, List.map_nil, List.sum_cons, List.sum_nil, add_zero, if_true,
    one_ne_zero, if_false, h, zero_div, zero_mul, npSqrt, lt_self_iff_false, Real.sqrt_zero,
    reduceCtorEq]

end Dolfyn
