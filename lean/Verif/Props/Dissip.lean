import Verif.Lemmas.Float64
import Verif.Props.BeamStress
import Mathlib.Analysis.SpecialFunctions.Pow.Real
import Mathlib.Analysis.Real.Pi.Bounds
import Mathlib.Analysis.SpecialFunctions.Log.Basic

/-!
C61 (dissipation from spectra), C62 (structure function), C66 (integral length scale), C73 (turbulence
intensity), C74 (Doppler noise level), C75 (spectral slope), C76 (friction velocity).
-/

namespace Dolfyn

open Finset

/-! ### C61 -/

/-- Inertial-subrange spectrum of dissipation `ε` advected at speed `V` (`V = U` in rad/s,
`V = U/2π` in Hz). -/
noncomputable def Spec.inertial (ε V f : ℝ) : ℝ :=
  1 / 2 * ε ^ (2 / 3 : ℝ) * f ^ (-(5 / 3) : ℝ) * V ^ (2 / 3 : ℝ)

/-- Advection speed in the units of the frequency axis. -/
noncomputable def Spec.advect (units : FreqUnits) (U : ℝ) : ℝ :=
  match units with
  | .hz => U / (2 * Real.pi)
  | .rad => U

theorem inertial_term (ε V f : ℝ) (hf : 0 < f) :
    Spec.inertial ε V f * f ^ (5 / 3 : ℝ) / 0.5 = ε ^ (2 / 3 : ℝ) * V ^ (2 / 3 : ℝ) := by
  unfold Spec.inertial
  have : f ^ (-(5 / 3) : ℝ) * f ^ (5 / 3 : ℝ) = 1 := by
    rw [← Real.rpow_add hf]; norm_num
  have h2 : (1 : ℝ) / 2 / 0.5 = 1 := by norm_num
  calc _ = (1 / 2 / 0.5) * (ε ^ (2 / 3 : ℝ) * V ^ (2 / 3 : ℝ)) *
        (f ^ (-(5 / 3) : ℝ) * f ^ (5 / 3 : ℝ)) := by ring
    _ = _ := by rw [this, h2]; ring

theorem two_thirds_three_halves (x : ℝ) (hx : 0 < x) :
    (x ^ (2 / 3 : ℝ)) ^ (3 / 2 : ℝ) = x := by
  rw [← Real.rpow_mul hx.le]; norm_num

theorem const_mean (l : List ℕ) (hl : l ≠ []) (g : ℕ → ℝ) (c : ℝ) (h : ∀ k ∈ l, g k = c) :
    (l.map g).sum / l.length = c := by
  have : l.map g = List.replicate l.length c := by
    rw [List.eq_replicate_iff]
    refine ⟨by simp, fun x hx => ?_⟩
    obtain ⟨k, hk, rfl⟩ := List.mem_map.mp hx
    exact h k hk
  have h0 : (l.length : ℝ) ≠ 0 := by
    have := List.length_pos_of_ne_nil hl
    positivity
  rw [this, List.sum_replicate, nsmul_eq_mul, mul_comm, mul_div_assoc, div_self h0, mul_one]

/-- `lt83` does not raise as soon as the spectrum has at least one value. -/
theorem lt83_ok (fs : ℝ) (units : FreqUnits) (n : ℕ) (f : ℕ → ℝ) (lo hi : ℝ)
    (rows : List SpecRow) (hn : 0 < n) (hr : rows ≠ []) : ∃ mn, lt83 fs units n f lo hi rows =
    .ok (rows.map fun r =>
      if freqIdx n f lo hi = [] then none
      else if Spec.advect units r.U = 0 then none
      else some ((((freqIdx n f lo hi).map fun k =>
        floorPsd mn (r.S k - r.noise ^ 2 / (fs / 2)) * f k ^ (5 / 3 : ℝ) / 0.5).sum /
          (freqIdx n f lo hi).length) ^ (3 / 2 : ℝ) / Spec.advect units r.U)) := by
  unfold lt83
  simp only []
  cases hm : (rows.flatMap fun r => (List.range n).map fun k =>
      |r.S k - r.noise ^ 2 / (fs / 2)|).min? with
  | none =>
    exfalso
    rw [List.min?_eq_none_iff] at hm
    obtain ⟨r, rs, rfl⟩ := List.exists_cons_of_ne_nil hr
    have := congrArg List.length hm
    simp at this
    omega
  | some mn =>
    refine ⟨mn, ?_⟩
    cases units <;> rfl

/-- C61: a spectrum without values has no smallest one. -/
theorem lt83_empty (fs : ℝ) (units : FreqUnits) (n : ℕ) (f : ℕ → ℝ) (lo hi : ℝ) (rows : List SpecRow)
    (h : n = 0 ∨ rows = []) : lt83 fs units n f lo hi rows = .error .valueError := by
  have hm : (rows.flatMap fun r => (List.range n).map fun k => |r.S k - r.noise ^ 2 / (fs / 2)|).min? = none := by
    rw [List.min?_eq_none_iff]
    rcases h with rfl | rfl
    · simp
    · rfl
  unfold lt83
  simp only [hm]

/-- C61, values at or below the noise: the function replaces them by a hundredth of the smallest
distance from the noise in the whole spectrum, and averages the rest unchanged. -/
theorem lt83_values (fs : ℝ) (units : FreqUnits) (n : ℕ) (f : ℕ → ℝ) (lo hi : ℝ)
    (rows : List SpecRow) (hn : 0 < n) (hr : rows ≠ []) : ∃ mn,
    (∀ r ∈ rows, ∀ k < n, mn ≤ |r.S k - r.noise ^ 2 / (fs / 2)|) ∧
    (∃ r ∈ rows, ∃ k < n, mn = |r.S k - r.noise ^ 2 / (fs / 2)|) ∧
    lt83 fs units n f lo hi rows = .ok (rows.map fun r =>
      if freqIdx n f lo hi = [] then none
      else if Spec.advect units r.U = 0 then none
      else some ((((freqIdx n f lo hi).map fun k =>
        (if 0 < r.S k - r.noise ^ 2 / (fs / 2) then r.S k - r.noise ^ 2 / (fs / 2) else mn / 100) *
          f k ^ (5 / 3 : ℝ) / (1 / 2)).sum /
          (freqIdx n f lo hi).length) ^ (3 / 2 : ℝ) / Spec.advect units r.U)) := by
  unfold lt83
  simp only []
  cases hm : (rows.flatMap fun r => (List.range n).map fun k =>
      |r.S k - r.noise ^ 2 / (fs / 2)|).min? with
  | none =>
    exfalso
    rw [List.min?_eq_none_iff] at hm
    obtain ⟨r, rs, rfl⟩ := List.exists_cons_of_ne_nil hr
    have := congrArg List.length hm
    simp at this
    omega
  | some mn =>
    obtain ⟨h1, h2⟩ := List.min?_eq_some_iff.mp hm
    refine ⟨mn, fun r hr k hk => ?_, ?_, ?_⟩
    · apply h2
      rw [List.mem_flatMap]
      exact ⟨r, hr, List.mem_map.mpr ⟨k, List.mem_range.mpr hk, rfl⟩⟩
    · obtain ⟨r, hr, h⟩ := List.mem_flatMap.mp h1
      obtain ⟨k, hk, h⟩ := List.mem_map.mp h
      exact ⟨r, hr, k, List.mem_range.mp hk, h.symm⟩
    · have e : (0.5 : ℝ) = 1 / 2 := by norm_num
      rw [e]
      cases units <;> rfl

theorem mem_freqIdx {n : ℕ} {f : ℕ → ℝ} {lo hi : ℝ} {k : ℕ} :
    k ∈ freqIdx n f lo hi ↔ k < n ∧ lo < f k ∧ f k < hi := by
  simp [freqIdx]

/-- C61: for a spectrum that is exactly inertial in the chosen band, plus the white noise level the
function is told to subtract, the result is the generating dissipation in every row; for both
frequency units, every speed and every noise level. -/
theorem lt83_exact (fs : ℝ) (units : FreqUnits) (n : ℕ) (f : ℕ → ℝ) (lo hi : ℝ) (hlo : 0 ≤ lo)
    (rows : List SpecRow) (ε : SpecRow → ℝ) (hr : rows ≠ [])
    (hband : ∃ k < n, lo < f k ∧ f k < hi)
    (hε : ∀ r ∈ rows, 0 < ε r) (hU : ∀ r ∈ rows, 0 < r.U)
    (hS : ∀ r ∈ rows, ∀ k < n, lo < f k → f k < hi →
      r.S k = Spec.inertial (ε r) (Spec.advect units r.U) (f k) + r.noise ^ 2 / (fs / 2)) :
    lt83 fs units n f lo hi rows = .ok (rows.map fun r => some (ε r)) := by
  obtain ⟨k0, hk0, h1, h2⟩ := hband
  obtain ⟨mn, h⟩ := lt83_ok fs units n f lo hi rows (by omega) hr
  rw [h]
  have hne : freqIdx n f lo hi ≠ [] := List.ne_nil_of_mem (mem_freqIdx.mpr ⟨hk0, h1, h2⟩)
  congr 1
  apply List.map_congr_left
  intro r hrm
  have hV : 0 < Spec.advect units r.U := by
    have := hU r hrm
    unfold Spec.advect
    cases units
    · exact div_pos this (by positivity)
    · exact this
  rw [if_neg hne, if_neg hV.ne']
  have hmean := const_mean (freqIdx n f lo hi) hne
    (fun k => floorPsd mn (r.S k - r.noise ^ 2 / (fs / 2)) * f k ^ (5 / 3 : ℝ) / 0.5)
    (ε r ^ (2 / 3 : ℝ) * Spec.advect units r.U ^ (2 / 3 : ℝ)) (by
      intro k hk
      obtain ⟨ha, hb, hc⟩ := mem_freqIdx.mp hk
      have hf : 0 < f k := lt_of_le_of_lt hlo hb
      have hpos : 0 < Spec.inertial (ε r) (Spec.advect units r.U) (f k) := by
        unfold Spec.inertial
        have := hε r hrm
        positivity
      simp only [hS r hrm k ha hb hc, add_sub_cancel_right, floorPsd, gt_iff_lt, if_pos hpos]
      exact inertial_term _ _ _ hf)
  rw [hmean, ← Real.mul_rpow (hε r hrm).le hV.le,
    two_thirds_three_halves _ (mul_pos (hε r hrm) hV), mul_div_assoc, div_self hV.ne', mul_one]

/-- A case meeting the hypotheses of `lt83_exact`, with noise and in Hz. -/
example : ∃ (f : ℕ → ℝ) (r : SpecRow), (∃ k < 3, (0.2 : ℝ) < f k ∧ f k < 0.4) ∧ 0 < r.U ∧
    r.noise ≠ 0 ∧ ∀ k < 3, (0.2 : ℝ) < f k → f k < 0.4 →
      r.S k = Spec.inertial 0.001 (Spec.advect .hz r.U) (f k) + r.noise ^ 2 / (1 / 2) := by
  refine ⟨fun k => (k : ℝ) / 10 + 0.1,
    ⟨0.01, 1.5, fun k => Spec.inertial 0.001 (Spec.advect .hz 1.5) ((k : ℝ) / 10 + 0.1) +
      0.01 ^ 2 / (1 / 2)⟩, ⟨2, by norm_num, by norm_num, by norm_num⟩, by norm_num, by norm_num,
    fun k _ _ _ => rfl⟩

/-- C61, change of units: the same spectrum expressed per Hz instead of per rad/s
(`S_f = 2π S_ω`, `f = ω/2π`) gives the same dissipation, for every positive spectrum
(no noise correction). -/
theorem lt83_units (fs : ℝ) (n : ℕ) (ω : ℕ → ℝ) (lo hi : ℝ) (hlo : 0 ≤ lo)
    (U : ℝ) (S : ℕ → ℝ) (hn : 0 < n) (hS : ∀ k < n, 0 < S k) :
    lt83 fs .hz n (fun k => ω k / (2 * Real.pi)) (lo / (2 * Real.pi)) (hi / (2 * Real.pi))
        [⟨0, U, fun k => 2 * Real.pi * S k⟩] =
      lt83 fs .rad n ω lo hi [⟨0, U, S⟩] := by
  obtain ⟨m1, h1⟩ := lt83_ok fs .hz n (fun k => ω k / (2 * Real.pi)) (lo / (2 * Real.pi))
    (hi / (2 * Real.pi)) [⟨0, U, fun k => 2 * Real.pi * S k⟩] hn (by simp)
  obtain ⟨m2, h2⟩ := lt83_ok fs .rad n ω lo hi [⟨0, U, S⟩] hn (by simp)
  have hp : 0 < 2 * Real.pi := by positivity
  have hidx : freqIdx n (fun k => ω k / (2 * Real.pi)) (lo / (2 * Real.pi)) (hi / (2 * Real.pi)) =
      freqIdx n ω lo hi := by
    unfold freqIdx
    congr 1
    funext k
    simp only [div_lt_div_iff_of_pos_right hp]
  rw [h1, h2, hidx]
  have a1 : Spec.advect .hz U = U / (2 * Real.pi) := rfl
  have a2 : Spec.advect .rad U = U := rfl
  simp only [List.map_cons, List.map_nil]
  rw [a1, a2]
  by_cases hne : freqIdx n ω lo hi = []
  · simp [hne]
  · rw [if_neg hne, if_neg hne]
    by_cases hU : U = 0
    · simp [hU]
    · have hU' : U / (2 * Real.pi) ≠ 0 := div_ne_zero hU hp.ne'
      rw [if_neg hU, if_neg hU']
      have key : ((freqIdx n ω lo hi).map fun k =>
          floorPsd m1 (2 * Real.pi * S k - 0 ^ 2 / (fs / 2)) *
            (ω k / (2 * Real.pi)) ^ (5 / 3 : ℝ) / 0.5).sum =
          (2 * Real.pi) ^ (-(2 / 3) : ℝ) * ((freqIdx n ω lo hi).map fun k =>
            floorPsd m2 (S k - 0 ^ 2 / (fs / 2)) * ω k ^ (5 / 3 : ℝ) / 0.5).sum := by
        rw [← List.sum_map_mul_left]
        congr 1
        apply List.map_congr_left
        intro k hk
        obtain ⟨ha, hb, _⟩ := mem_freqIdx.mp hk
        have hs := hS k ha
        have hω : 0 < ω k := lt_of_le_of_lt hlo hb
        have p1 : 0 < 2 * Real.pi * S k := by positivity
        simp only [floorPsd, ne_eq, OfNat.ofNat_ne_zero, not_false_eq_true, zero_pow, zero_div,
          sub_zero, gt_iff_lt, if_pos p1, if_pos hs]
        rw [Real.div_rpow hω.le hp.le]
        have e : (2 * Real.pi) ^ (-(2 / 3) : ℝ) = 2 * Real.pi / (2 * Real.pi) ^ (5 / 3 : ℝ) := by
          rw [show (-(2 / 3) : ℝ) = 1 - 5 / 3 by norm_num, Real.rpow_sub hp, Real.rpow_one]
        rw [e]
        ring
      rw [key, mul_div_assoc]
      have hm0 : 0 ≤ ((freqIdx n ω lo hi).map fun k =>
          floorPsd m2 (S k - 0 ^ 2 / (fs / 2)) * ω k ^ (5 / 3 : ℝ) / 0.5).sum /
            ((freqIdx n ω lo hi).length : ℝ) := by
        apply div_nonneg _ (Nat.cast_nonneg _)
        apply List.sum_nonneg
        intro x hx
        obtain ⟨k, hk, rfl⟩ := List.mem_map.mp hx
        obtain ⟨ha, hb, _⟩ := mem_freqIdx.mp hk
        have hs := hS k ha
        have hω : 0 < ω k := lt_of_le_of_lt hlo hb
        simp only [floorPsd, ne_eq, OfNat.ofNat_ne_zero, not_false_eq_true, zero_pow, zero_div,
          sub_zero, gt_iff_lt, if_pos hs]
        positivity
      rw [Real.mul_rpow (by positivity) hm0, ← Real.rpow_mul hp.le,
        show (-(2 / 3) : ℝ) * (3 / 2) = -1 by norm_num, Real.rpow_neg_one]
      congr 3
      field_simp

/-- The white-noise spectral level that `calc_psd` itself uses for a noise standard deviation `σ`:
`σ²/(fs/2)` per Hz, `σ²/(2π fs/2)` per rad/s (dolfyn/binned.py:404-405 with `fs → 2π fs`). -/
noncomputable def Spec.noiseLevel (units : FreqUnits) (fs σ : ℝ) : ℝ :=
  match units with
  | .hz => σ ^ 2 / (fs / 2)
  | .rad => σ ^ 2 / (2 * Real.pi * fs / 2)

/-- C61 is false for spectra in rad/s with a noise level: the function subtracts the per-Hz level, so a
spectrum made of an exact inertial range plus the white noise it is told about does not return
the generating dissipation. -/
theorem lt83_noise_rad_false : ∃ (fs ε U σ : ℝ) (e : ℝ), 0 < ε ∧ 0 < U ∧ 0 < fs ∧
    lt83 fs .rad 1 (fun _ => 1) 0 2
      [⟨σ, U, fun _ => Spec.inertial ε U 1 + Spec.noiseLevel .rad fs σ⟩] = .ok [some e] ∧ e ≠ ε := by
  obtain ⟨mn, h⟩ := lt83_ok 8 .rad 1 (fun _ => 1) 0 2
    [⟨1, 1, fun _ => Spec.inertial 1 1 1 + Spec.noiseLevel .rad 8 1⟩] (by norm_num) (by simp)
  have hidx : freqIdx 1 (fun _ => 1) 0 2 = [0] := by
    simp [freqIdx]
  rw [hidx] at h
  have hpi := Real.pi_gt_three
  have hv : Spec.inertial 1 1 1 + Spec.noiseLevel .rad 8 1 - 1 ^ 2 / (8 / 2) =
      1 / 4 + 1 / (8 * Real.pi) := by
    simp only [Spec.inertial, Spec.noiseLevel, Real.one_rpow]
    field_simp
    ring
  have hp : 0 < 1 / 4 + 1 / (8 * Real.pi) := by positivity
  have hlt : 1 / (8 * Real.pi) < 1 / 24 := by
    apply one_div_lt_one_div_of_lt <;> linarith
  simp only [List.map_cons, List.map_nil, Spec.advect, hv, floorPsd, gt_iff_lt, if_pos hp,
    Real.one_rpow, List.sum_cons, List.sum_nil, List.length_cons, List.length_nil,
    one_ne_zero, if_false, List.cons_ne_self] at h
  refine ⟨8, 1, 1, 1, _, by norm_num, by norm_num, by norm_num, h, ?_⟩
  apply ne_of_lt
  rw [div_one]
  apply Real.rpow_lt_one
  · positivity
  · rw [mul_one, add_zero, zero_add, Nat.cast_one, div_one, div_lt_one (by norm_num)]
    norm_num at hlt ⊢
    linarith
  · norm_num

/-! ### C62 -/

theorem polyfit1_line (x : List ℝ) (m c : ℝ) (hx : ∃ a ∈ x, ∃ b ∈ x, a ≠ b) :
    polyfit1 x (x.map fun a => m * a + c) = some (m, c) := by
  obtain ⟨a, ha, b, hb, hab⟩ := hx
  have hlen : (x.length : ℝ) ≠ 0 := by
    have := List.length_pos_of_mem ha
    positivity
  have hym : (x.map fun a => m * a + c).sum / (x.length : ℝ) = m * (x.sum / x.length) + c := by
    have : (x.map fun a => m * a + c).sum = m * x.sum + c * x.length := by
      clear ha hb hlen
      induction x with
      | nil => simp
      | cons y ys ih => simp only [List.map_cons, List.sum_cons, ih, List.length_cons]; push_cast; ring
    rw [this]
    field_simp
  have hsxx : (x.map fun a => (a - x.sum / x.length) ^ 2).sum ≠ 0 := by
    intro h0
    have hall : ∀ z ∈ x, z = x.sum / x.length := by
      intro z hz
      have hz' : (z - x.sum / x.length) ^ 2 ≤ 0 := by
        rw [← h0]
        apply List.single_le_sum
        · intro w hw
          obtain ⟨y, -, rfl⟩ := List.mem_map.mp hw
          positivity
        · exact List.mem_map.mpr ⟨z, hz, rfl⟩
      have := pow_eq_zero_iff (two_ne_zero) |>.mp (le_antisymm hz' (sq_nonneg _))
      linarith
    exact hab ((hall a ha).trans (hall b hb).symm)
  have hsxy : ∀ μ : ℝ, (x.zipWith (fun a b => (a - μ) * (b - (m * μ + c)))
      (x.map fun a => m * a + c)).sum = m * (x.map fun a => (a - μ) ^ 2).sum := by
    intro μ
    rw [List.zipWith_map_right, List.zipWith_self, ← List.sum_map_mul_left]
    congr 1
    apply List.map_congr_left
    intros
    ring
  unfold polyfit1
  simp only [hym, hsxy, if_neg hsxx]
  rw [mul_div_assoc, div_self hsxx]
  congr 2
  · ring
  · ring

/-- Structure function of isotropic turbulence with dissipation `ε` and noise offset `N`
(constant 2.1). -/
noncomputable def Spec.isotropicSF (ε N r : ℝ) : ℝ := 2.1 * ε ^ (2 / 3 : ℝ) * r ^ (2 / 3 : ℝ) + N

/-- C62 is false: with the exact structure function of any dissipation `ε > 0` at separations 1 m
and 2 m (bin size 1 m, both separations fitted) the code returns strictly less than `ε`. -/
theorem sf_wrong (ε N : ℝ) (hε : 0 < ε) : ∃ e n, sfFit 1 0 2
    (fun k => Spec.isotropicSF ε N ((k + 1 : ℕ) : ℝ)) = some (e, n) ∧ e < ε := by
  have hx : ((List.range 2).drop 0).map (fun k : ℕ => (((k + 1 : ℕ) : ℝ) * 1) ^ 2 / 3) =
      [1 / 3, 4 / 3] := by
    simp [List.range_succ]
    norm_num
  have h2 : (1 : ℝ) < 2 ^ (2 / 3 : ℝ) := Real.one_lt_rpow (by norm_num) (by norm_num)
  have h2' : (2 : ℝ) ^ (2 / 3 : ℝ) < 2 := by
    conv_rhs => rw [← Real.rpow_one 2]
    exact Real.rpow_lt_rpow_of_exponent_lt (by norm_num) (by norm_num)
  set q := (2 : ℝ) ^ (2 / 3 : ℝ) with hq
  set A := 2.1 * ε ^ (2 / 3 : ℝ) with hA
  have hApos : 0 < A := by positivity
  have hy : ((List.range 2).drop 0).map (fun k => Spec.isotropicSF ε N ((k + 1 : ℕ) : ℝ)) =
      [1 / 3, 4 / 3].map fun a : ℝ => (A * (q - 1)) * a + (A + N - A * (q - 1) / 3) := by
    simp only [List.range_succ, List.range_zero, List.nil_append, List.cons_append, List.drop_zero,
      List.map_cons, List.map_nil, Spec.isotropicSF, List.cons.injEq, and_true]
    constructor
    · norm_num
      ring
    · rw [show (((1 + 1 : ℕ) : ℝ)) = 2 by norm_num, ← hq, ← hA]
      ring
  unfold sfFit
  simp only [hx, hy]
  rw [polyfit1_line _ _ _ ⟨1 / 3, by simp, 4 / 3, by simp, by norm_num⟩]
  refine ⟨_, _, rfl, ?_⟩
  have hlt : A * (q - 1) / 2.1 < ε ^ (2 / 3 : ℝ) := by
    rw [hA]
    have : 0 < ε ^ (2 / 3 : ℝ) := by positivity
    rw [show 2.1 * ε ^ (2 / 3 : ℝ) * (q - 1) / 2.1 = ε ^ (2 / 3 : ℝ) * (q - 1) by ring]
    nlinarith
  have hnn : 0 ≤ A * (q - 1) / 2.1 := by
    have : 0 ≤ q - 1 := by linarith
    positivity
  calc (A * (q - 1) / 2.1) ^ (3 / 2 : ℝ) < (ε ^ (2 / 3 : ℝ)) ^ (3 / 2 : ℝ) :=
        Real.rpow_lt_rpow hnn hlt (by norm_num)
    _ = ε := two_thirds_three_halves ε hε

/-- C62 (partial): the fit and the conversion are right for the abscissa the code uses: a structure
function `2.1 ε^(2/3) · r²/3 + N` returns `ε` and `N`, for all bin sizes and any fitted window of at
least two separations. -/
theorem sf_fit_partial (ε N bin : ℝ) (hε : 0 < ε) (hbin : 0 < bin) (R m : ℕ) (hR : R + 2 ≤ m) :
    sfFit bin R m (fun k => 2.1 * ε ^ (2 / 3 : ℝ) * ((((k + 1 : ℕ) : ℝ) * bin) ^ 2 / 3) + N) =
      some (ε, N) := by
  unfold sfFit
  have hy : ((List.range m).drop R).map
      (fun k => 2.1 * ε ^ (2 / 3 : ℝ) * ((((k + 1 : ℕ) : ℝ) * bin) ^ 2 / 3) + N) =
      (((List.range m).drop R).map fun k : ℕ => (((k + 1 : ℕ) : ℝ) * bin) ^ 2 / 3).map
        fun a => 2.1 * ε ^ (2 / 3 : ℝ) * a + N := by
    rw [List.map_map]; rfl
  have mem : ∀ k, R ≤ k → k < m → k ∈ (List.range m).drop R := by
    intro k h1 h2
    rw [List.mem_iff_getElem]
    refine ⟨k - R, by simp; omega, ?_⟩
    simp
    omega
  simp only [hy]
  rw [polyfit1_line]
  · simp only [Option.map_some]
    rw [show 2.1 * ε ^ (2 / 3 : ℝ) / 2.1 = ε ^ (2 / 3 : ℝ) by ring, two_thirds_three_halves ε hε]
  · refine ⟨_, List.mem_map.mpr ⟨R, mem R le_rfl (by omega), rfl⟩, _,
      List.mem_map.mpr ⟨R + 1, mem (R + 1) (by omega) (by omega), rfl⟩, ?_⟩
    apply ne_of_lt
    have h1 : ((R + 1 : ℕ) : ℝ) * bin < ((R + 1 + 1 : ℕ) : ℝ) * bin := by
      apply mul_lt_mul_of_pos_right _ hbin
      exact_mod_cast Nat.lt_succ_self _
    have h0 : 0 ≤ ((R + 1 : ℕ) : ℝ) * bin := by positivity
    nlinarith

/-- C62: the requested lower end of `r_range` is left out of the fit. With `r_range = [bin, r1]`
(the documented choice "low end of range should be bin size") the smallest fitted separation is
two bins. -/
theorem sf_skips_first (bin : ℚ) (hb : 0 < bin) : sfFirst bin bin = 1 ∧
    ∀ m, ((List.range m).drop (sfFirst bin bin)).head? = if 2 ≤ m then some 1 else none := by
  have h : sfFirst bin bin = 1 := by
    unfold sfFirst
    have h1 : fl64 1 = 1 := by simpa using fl64_natCast 1 (by norm_num)
    rw [div_self hb.ne', h1]
    rfl
  refine ⟨h, fun m => ?_⟩
  rw [h, List.head?_drop]
  by_cases hm : 2 ≤ m
  · rw [if_pos hm, List.getElem?_range (by omega)]
  · rw [if_neg hm, List.getElem?_eq_none (by simp; omega)]

/-- C62: the structure function of a record is zero between identical cells, symmetric in the two
cells' records and missing (not zero) where the lower cell does not exist. -/
theorem structFun_spec (cols : ℕ) (bm : ℕ → ℕ → ℝ) (z i : ℕ) (hc : 0 < cols) :
    structFun cols (fun z j => some (bm z j)) z i =
      if z < i then none
      else some ((∑ j ∈ range cols, (bm z j - bm (z - i) j) ^ 2) / cols) := by
  unfold structFun
  split
  · rfl
  · have := nanmean_some cols hc fun j => (bm (z - i) j - bm z j) ^ 2
    simp only [opt2, Option.map_some]
    rw [this]
    congr 2
    apply sum_congr rfl
    intros
    ring

/-! ### C66 -/

/-- `i` is the first lag below `n` at which the autocorrelation is at most `1/e`. -/
def Spec.FirstCrossing (n : ℕ) (acov : ℕ → ℝ) (i : ℕ) : Prop :=
  i < n ∧ acov i / acov 0 ≤ 1 / Real.exp 1 ∧ ∀ j < i, 1 / Real.exp 1 < acov j / acov 0

/-- C66: the integral scale is the speed times the time of the first crossing of 1/e, and zero when
there is no crossing. -/
theorem lint_first_crossing (fs U : ℝ) (n : ℕ) (acov : ℕ → ℝ) :
    (∀ i, Spec.FirstCrossing n acov i → lInt fs U n acov = U * (i / fs)) ∧
    ((∀ i < n, 1 / Real.exp 1 < acov i / acov 0) → lInt fs U n acov = 0) := by
  constructor
  · rintro i ⟨h1, h2, h3⟩
    have : (List.range n).find? (fun i => decide (¬ (acov i / acov 0 > 1 / Real.exp 1))) = some i := by
      rw [List.find?_range_eq_some]
      refine ⟨by simp; simpa using h2, by simpa using h1, fun j hj => ?_⟩
      have := h3 j hj
      simp only [gt_iff_lt, not_lt, Bool.not_eq_true', decide_eq_false_iff_not, not_le]
      exact this
    unfold lInt lintScale
    rw [this, Option.getD_some]
    ring
  · intro h
    have : (List.range n).find? (fun i => decide (¬ (acov i / acov 0 > 1 / Real.exp 1))) = none := by
      rw [List.find?_eq_none]
      intro i hi
      have := h i (List.mem_range.mp hi)
      simp only [gt_iff_lt, decide_eq_true_eq, not_not]
      exact this
    unfold lInt lintScale
    rw [this, Option.getD_none]
    simp

/-- C66: the two cases of `lint_first_crossing` are exhaustive. -/
theorem lint_cases (n : ℕ) (acov : ℕ → ℝ) : (∃ i, Spec.FirstCrossing n acov i) ∨
    ∀ i < n, 1 / Real.exp 1 < acov i / acov 0 := by
  classical
  by_cases h : ∃ i, i < n ∧ acov i / acov 0 ≤ 1 / Real.exp 1
  · left
    refine ⟨Nat.find h, (Nat.find_spec h).1, (Nat.find_spec h).2, fun j hj => ?_⟩
    have := Nat.find_min h hj
    have hn := (Nat.find_spec h).1
    by_contra hc
    exact this ⟨by omega, not_lt.mp hc⟩
  · right
    intro i hi
    by_contra hc
    exact h ⟨i, hi, not_lt.mp hc⟩

/-- C66: a zero lag never counts as a crossing, so a positive variance gives a positive scale
whenever there is a crossing at all. -/
theorem lint_pos (fs U : ℝ) (hfs : 0 < fs) (hU : 0 < U) (n : ℕ) (acov : ℕ → ℝ) (h0 : 0 < acov 0)
    (i : ℕ) (hi : Spec.FirstCrossing n acov i) : 0 < lInt fs U n acov := by
  rw [(lint_first_crossing fs U n acov).1 i hi]
  have : i ≠ 0 := by
    rintro rfl
    have := hi.2.1
    rw [div_self h0.ne'] at this
    have h1 : (1 : ℝ) / Real.exp 1 < 1 := by
      rw [div_lt_one (Real.exp_pos 1)]
      have := Real.add_one_lt_exp (x := 1) one_ne_zero
      linarith
    linarith
  have : (0 : ℝ) < i := by exact_mod_cast Nat.pos_of_ne_zero this
  positivity

example : Spec.FirstCrossing 4 (fun i => 4 - 2 * (i : ℝ)) 2 := by
  have h1 := Real.exp_pos 1
  have he : (2 : ℝ) < Real.exp 1 := by
    have := Real.add_one_lt_exp (x := 1) one_ne_zero
    linarith
  have : 1 / Real.exp 1 < 1 / 2 := one_div_lt_one_div_of_lt (by norm_num) he
  refine ⟨by norm_num, ?_, fun j hj => ?_⟩
  · norm_num
    positivity
  · interval_cases j
    · norm_num at this ⊢; linarith
    · norm_num at this ⊢; linarith

end Dolfyn
