import Verif.Model.Despike
import Verif.Props.Clean
import Verif.Props.Misc
import Mathlib.Analysis.Complex.ExponentialBounds

/-!
C155, C156: the despiking of Goring and Nikora as a whole.
-/

namespace Dolfyn

open Spec

/-! ### The test of one block -/

/-- The direction angles of a point other than the origin. -/
theorem sphere_dir (u du d2u : ℝ) (hr : u ^ 2 + du ^ 2 + d2u ^ 2 ≠ 0) :
    Real.sin (arctan2 (Real.sqrt (du ^ 2 + u ^ 2)) d2u) * Real.cos (arctan2 du u) =
        u / Real.sqrt (u ^ 2 + du ^ 2 + d2u ^ 2) ∧
      Real.sin (arctan2 (Real.sqrt (du ^ 2 + u ^ 2)) d2u) * Real.sin (arctan2 du u) =
        du / Real.sqrt (u ^ 2 + du ^ 2 + d2u ^ 2) ∧
      Real.cos (arctan2 (Real.sqrt (du ^ 2 + u ^ 2)) d2u) =
        d2u / Real.sqrt (u ^ 2 + du ^ 2 + d2u ^ 2) := by
  have hp : 0 < u ^ 2 + du ^ 2 + d2u ^ 2 := lt_of_le_of_ne (by positivity) hr.symm
  set r := Real.sqrt (u ^ 2 + du ^ 2 + d2u ^ 2) with hrd
  have hr0 : 0 < r := Real.sqrt_pos.mpr hp
  set ρ := Real.sqrt (du ^ 2 + u ^ 2) with hρ
  have hρ2 : ρ ^ 2 = du ^ 2 + u ^ 2 := Real.sq_sqrt (by positivity)
  have n1 : ‖(⟨d2u, ρ⟩ : ℂ)‖ = r := by
    rw [Complex.norm_def, Complex.normSq_mk, hrd]
    congr 1; nlinarith
  have hne : (⟨d2u, ρ⟩ : ℂ) ≠ 0 := by
    intro h
    rw [h, norm_zero] at n1
    exact hr0.ne n1
  have sphi : Real.sin (arctan2 ρ d2u) = ρ / r := by
    unfold arctan2; rw [Complex.sin_arg, n1]
  have n2 : ‖(⟨u, du⟩ : ℂ)‖ = ρ := by
    rw [Complex.norm_def, Complex.normSq_mk, hρ]
    congr 1; ring
  refine ⟨?_, ?_, ?_⟩
  · rw [sphi]
    by_cases h0 : ρ = 0
    · have hu : u = 0 := by
        have : du ^ 2 + u ^ 2 = 0 := by rw [← hρ2, h0]; ring
        nlinarith [sq_nonneg du, sq_nonneg u]
      rw [h0, hu]; simp
    · have hne2 : (⟨u, du⟩ : ℂ) ≠ 0 := by
        intro h; rw [h, norm_zero] at n2; exact h0 n2.symm
      unfold arctan2; rw [Complex.cos_arg hne2, n2]
      field_simp
  · rw [sphi]
    by_cases h0 : ρ = 0
    · have hu : du = 0 := by
        have : du ^ 2 + u ^ 2 = 0 := by rw [← hρ2, h0]; ring
        nlinarith [sq_nonneg du, sq_nonneg u]
      rw [h0, hu]; simp
    · unfold arctan2; rw [Complex.sin_arg, n2]
      field_simp
  · unfold arctan2; rw [Complex.cos_arg hne, n1]

/-- The three quotients of a point other than the origin. -/
theorem peTerms_ne (u du d2u alpha a b sd : ℝ) (hr : u ^ 2 + du ^ 2 + d2u ^ 2 ≠ 0) :
    peTerms u du d2u alpha a b sd =
      [((u * Real.cos alpha + d2u * Real.sin alpha) ^ 2 / (u ^ 2 + du ^ 2 + d2u ^ 2), a),
        ((u * Real.sin alpha - d2u * Real.cos alpha) ^ 2 / (u ^ 2 + du ^ 2 + d2u ^ 2), b),
        (du ^ 2 / (u ^ 2 + du ^ 2 + d2u ^ 2), sd ^ 2)] := by
  obtain ⟨h1, h2, h3⟩ := sphere_dir u du d2u hr
  have hp : 0 ≤ u ^ 2 + du ^ 2 + d2u ^ 2 := by positivity
  have hs := Real.sq_sqrt hp
  unfold peTerms
  simp only
  rw [h1, h2, h3]
  set r := Real.sqrt (u ^ 2 + du ^ 2 + d2u ^ 2)
  rw [← hs]
  have e1 : u / r * Real.cos alpha + d2u / r * Real.sin alpha =
      (u * Real.cos alpha + d2u * Real.sin alpha) / r := by ring
  have e2 : u / r * Real.sin alpha - d2u / r * Real.cos alpha =
      (u * Real.sin alpha - d2u * Real.cos alpha) / r := by ring
  rw [e1, e2, div_pow, div_pow, div_pow]

/-- The three quotients at the origin. -/
theorem peTerms_zero (alpha a b sd : ℝ) :
    peTerms 0 0 0 alpha a b sd =
      [(Real.sin alpha ^ 2, a), (Real.cos alpha ^ 2, b), (0, sd ^ 2)] := by
  have h : arctan2 0 0 = 0 := by unfold arctan2; exact Complex.arg_zero
  unfold peTerms
  simp [h]

/-- Scaling a point and the three denominators leaves the numerators as they are. -/
theorem peTerms_smul (c u du d2u alpha a b sd : ℝ) (hc : c ≠ 0) :
    peTerms (c * u) (c * du) (c * d2u) alpha (c ^ 2 * a) (c ^ 2 * b) (|c| * sd) =
      (peTerms u du d2u alpha a b sd).map fun t => (t.1, c ^ 2 * t.2) := by
  have hsd : (|c| * sd) ^ 2 = c ^ 2 * sd ^ 2 := by rw [mul_pow, sq_abs]
  by_cases hr : u ^ 2 + du ^ 2 + d2u ^ 2 = 0
  · have hu : u = 0 := by nlinarith [sq_nonneg u, sq_nonneg du, sq_nonneg d2u]
    have hdu : du = 0 := by nlinarith [sq_nonneg u, sq_nonneg du, sq_nonneg d2u]
    have hd2 : d2u = 0 := by nlinarith [sq_nonneg u, sq_nonneg du, sq_nonneg d2u]
    subst hu hdu hd2
    rw [mul_zero, peTerms_zero, peTerms_zero, hsd]
    rfl
  · have e : (c * u) ^ 2 + (c * du) ^ 2 + (c * d2u) ^ 2 = c ^ 2 * (u ^ 2 + du ^ 2 + d2u ^ 2) := by ring
    have hc2 : c ^ 2 ≠ 0 := pow_ne_zero 2 hc
    have hr' : (c * u) ^ 2 + (c * du) ^ 2 + (c * d2u) ^ 2 ≠ 0 := by
      rw [e]; exact mul_ne_zero hc2 hr
    rw [peTerms_ne _ _ _ _ _ _ _ hr', peTerms_ne _ _ _ _ _ _ _ hr, e, hsd]
    simp only [List.map_cons, List.map_nil]
    have e1 : (c * u * Real.cos alpha + c * d2u * Real.sin alpha) ^ 2 =
        c ^ 2 * (u * Real.cos alpha + d2u * Real.sin alpha) ^ 2 := by ring
    have e2 : (c * u * Real.sin alpha - c * d2u * Real.cos alpha) ^ 2 =
        c ^ 2 * (u * Real.sin alpha - d2u * Real.cos alpha) ^ 2 := by ring
    rw [e1, e2, mul_pow, mul_div_mul_left _ _ hc2, mul_div_mul_left _ _ hc2, mul_div_mul_left _ _ hc2]

theorem peNan_smul (k : ℝ) (hk : k ≠ 0) (ts : List (ℝ × ℝ)) :
    peNan (ts.map fun t => (t.1, k * t.2)) ↔ peNan ts := by
  unfold peNan
  simp [hk]

theorem peInf_smul (k : ℝ) (hk : k ≠ 0) (ts : List (ℝ × ℝ)) :
    peInf (ts.map fun t => (t.1, k * t.2)) ↔ peInf ts := by
  unfold peInf
  simp [hk]

theorem peSum_smul (k : ℝ) (ts : List (ℝ × ℝ)) :
    (((ts.map fun t => (t.1, k * t.2))).map fun t => t.1 / t.2).sum =
      k⁻¹ * (ts.map fun t => t.1 / t.2).sum := by
  induction ts with
  | nil => simp
  | cons t r ih =>
    simp only [List.map_cons, List.sum_cons, ih, mul_add]
    congr 1
    rw [div_eq_mul_inv, mul_inv, div_eq_mul_inv]; ring

/-- The verdict of one sample does not change when point and ellipsoid are scaled together. -/
theorem peFlag_smul (k : ℝ) (hk : 0 < k) (nan0 nan0' : Prop) (h0 : nan0' ↔ nan0) (p : ℝ)
    (ts : List (ℝ × ℝ)) :
    peFlag nan0' (k * p) (ts.map fun t => (t.1, k * t.2)) = peFlag nan0 p ts := by
  obtain rfl : nan0' = nan0 := propext h0
  unfold peFlag
  have hp : (0 < k * p) ↔ 0 < p := by rw [mul_pos_iff_of_pos_left hk]
  rw [show peNan (ts.map fun t => (t.1, k * t.2)) = peNan ts from propext (peNan_smul k hk.ne' ts),
    show peInf (ts.map fun t => (t.1, k * t.2)) = peInf ts from propext (peInf_smul k hk.ne' ts)]
  simp only [peSum_smul, hp]
  set x := (ts.map fun t => t.1 / t.2).sum
  have hx : (k⁻¹ * x = 0) ↔ x = 0 := by simp [hk.ne']
  have hl : ((k⁻¹ * x)⁻¹ < k * p) ↔ x⁻¹ < p := by
    rw [mul_inv, inv_inv, mul_lt_mul_iff_right₀ hk]
  simp only [hx, hl]

theorem psDu_smul (m : ℕ) (c : ℝ) (u : ℕ → ℝ) : psDu m (fun i => c * u i) = fun i => c * psDu m u i := by
  funext i; unfold psDu; split_ifs <;> ring

theorem psD2u_smul (m : ℕ) (c : ℝ) (u : ℕ → ℝ) :
    psD2u m (fun i => c * u i) = fun i => c * psD2u m u i := by
  funext i; unfold psD2u; rw [psDu_smul]; split_ifs <;> ring

theorem psMean_smul (m : ℕ) (c : ℝ) (u : ℕ → ℝ) : psMean m (fun i => c * u i) = c * psMean m u := by
  unfold psMean; rw [← Finset.mul_sum, mul_div_assoc]

theorem psStd_smul (m : ℕ) (c : ℝ) (u : ℕ → ℝ) : psStd m (fun i => c * u i) = |c| * psStd m u := by
  unfold psStd
  rw [psMean_smul]
  have e : ∀ i, (c * u i - c * psMean m u) ^ 2 = c ^ 2 * (u i - psMean m u) ^ 2 := fun i => by ring
  simp only [e]
  rw [← Finset.mul_sum, mul_div_assoc, Real.sqrt_mul (by positivity), Real.sqrt_sq_eq_abs]

theorem psMean_affine (m : ℕ) (hm : 0 < m) (c k : ℝ) (w : ℕ → ℝ) :
    psMean m (fun i => c * w i + k) = c * psMean m w + k := by
  unfold psMean
  have : (m : ℝ) ≠ 0 := by exact_mod_cast hm.ne'
  rw [Finset.sum_add_distrib, ← Finset.mul_sum]
  simp only [Finset.sum_const, Finset.card_range, nsmul_eq_mul]
  field_simp

theorem calcab_smul (c al s t : ℝ) :
    calcab al (|c| * s) (|c| * t) =
      match calcab al s t with
      | .error e => .error e
      | .ok (a, b) => .ok (c ^ 2 * a, c ^ 2 * b) := by
  unfold calcab
  simp only [mul_pow, sq_abs]
  split_ifs with h
  · rfl
  · simp only
    congr 2
    · ring
    · ring

theorem arctan2_smul (c y x : ℝ) (hc : c ≠ 0) : arctan2 (c ^ 2 * y) (c ^ 2 * x) = arctan2 y x := by
  unfold arctan2
  have hc2 : 0 < c ^ 2 := by positivity
  rw [← Complex.arg_real_mul (⟨x, y⟩ : ℂ) hc2]
  congr 1
  apply Complex.ext <;> simp [pow_two]

theorem phaseCentred_smul (m : ℕ) (c : ℝ) (hc : c ≠ 0) (u : ℕ → ℝ) :
    phaseCentred m (fun i => c * u i) = phaseCentred m u := by
  unfold phaseCentred
  simp only [psDu_smul, psD2u_smul, psStd_smul]
  have e1 : ∑ i ∈ Finset.range m, c * u i * (c * psD2u m u i) =
      c ^ 2 * ∑ i ∈ Finset.range m, u i * psD2u m u i := by
    rw [Finset.mul_sum]; exact Finset.sum_congr rfl fun i _ => by ring
  have e2 : ∑ i ∈ Finset.range m, (c * u i) ^ 2 = c ^ 2 * ∑ i ∈ Finset.range m, u i ^ 2 := by
    rw [Finset.mul_sum]; exact Finset.sum_congr rfl fun i _ => by ring
  rw [e1, e2, arctan2_smul c _ _ hc]
  generalize arctan2 (∑ i ∈ Finset.range m, u i * psD2u m u i) (∑ i ∈ Finset.range m, u i ^ 2) = alpha
  generalize Real.sqrt (2 * Real.log m) = Lu
  rw [mul_left_comm Lu, mul_left_comm Lu, mul_left_comm Lu, calcab_smul]
  cases calcab alpha (Lu * psStd m u) (Lu * psStd m (psD2u m u)) with
  | error e => rfl
  | ok ab =>
    simp only [peTerms_smul _ _ _ _ _ _ _ _ hc]
    congr 1
    funext i
    rw [show (c * u i) ^ 2 + (c * psDu m u i) ^ 2 + (c * psD2u m u i) ^ 2 =
      c ^ 2 * (u i ^ 2 + psDu m u i ^ 2 + psD2u m u i ^ 2) by ring]
    congr 1
    exact peFlag_smul _ (by positivity) _ _ (peNan_smul _ (by positivity) _) _ _

/-- C155: the verdict on a block does not depend on the unit, the sign or the zero of the data. -/
theorem phase_affine (m : ℕ) (hm : 0 < m) (c k : ℝ) (hc : c ≠ 0) (w : ℕ → ℝ) :
    phaseReal m (fun i => c * w i + k) = phaseReal m w := by
  unfold phaseReal
  rw [psMean_affine m hm, ← phaseCentred_smul m c hc fun i => w i - psMean m w]
  congr 1
  funext i
  ring

theorem psDu_congr (m : ℕ) (u u' : ℕ → ℝ) (h : ∀ i < m, u i = u' i) : psDu m u = psDu m u' := by
  funext i; unfold psDu
  split_ifs with hi
  · rw [h _ hi.2, h (i - 1) (by omega)]
  · rfl

theorem psMean_congr (m : ℕ) (u u' : ℕ → ℝ) (h : ∀ i < m, u i = u' i) : psMean m u = psMean m u' := by
  unfold psMean; rw [Finset.sum_congr rfl fun i hi => h i (Finset.mem_range.mp hi)]

theorem psStd_congr (m : ℕ) (u u' : ℕ → ℝ) (h : ∀ i < m, u i = u' i) : psStd m u = psStd m u' := by
  unfold psStd
  rw [psMean_congr m u u' h, Finset.sum_congr rfl fun i hi => by rw [h i (Finset.mem_range.mp hi)]]

theorem phaseCentred_congr (m : ℕ) (u u' : ℕ → ℝ) (h : ∀ i < m, u i = u' i) :
    phaseCentred m u = phaseCentred m u' := by
  have hd := psDu_congr m u u' h
  have hd2 : psD2u m u = psD2u m u' := by funext i; unfold psD2u; rw [hd]
  unfold phaseCentred
  simp only [hd, hd2, psStd_congr m u u' h]
  have e1 : ∑ i ∈ Finset.range m, u i * psD2u m u' i = ∑ i ∈ Finset.range m, u' i * psD2u m u' i :=
    Finset.sum_congr rfl fun i hi => by rw [h i (Finset.mem_range.mp hi)]
  have e2 : ∑ i ∈ Finset.range m, u i ^ 2 = ∑ i ∈ Finset.range m, u' i ^ 2 :=
    Finset.sum_congr rfl fun i hi => by rw [h i (Finset.mem_range.mp hi)]
  rw [e1, e2]
  split
  · rfl
  · congr 1
    funext i
    by_cases hi : i < m
    · rw [h i hi, h 0 (by omega)]
    · simp [hi]

/-- The verdicts depend on the samples of the column only. -/
theorem phaseReal_congr (m : ℕ) (w w' : ℕ → ℝ) (h : ∀ i < m, w i = w' i) :
    phaseReal m w = phaseReal m w' := by
  unfold phaseReal
  rw [psMean_congr m w w' h]
  exact phaseCentred_congr m _ _ fun i hi => by rw [h i hi]

/-- The same with missing samples. -/
theorem phaseSpace_affine (m : ℕ) (hm : 0 < m) (c k : ℝ) (hc : c ≠ 0) (v : ℕ → Option ℝ) :
    phaseSpace m (fun i => (v i).map fun x => c * x + k) = phaseSpace m v := by
  unfold phaseSpace
  have hn : (∃ i < m, (v i).map (fun x => c * x + k) = none) ↔ ∃ i < m, v i = none := by simp
  by_cases h : ∃ i < m, v i = none
  · rw [if_pos h, if_pos (hn.mpr h)]
  · rw [if_neg h, if_neg (fun h' => h (hn.mp h')),
      ← phase_affine m hm c k hc fun i => (v i).getD 0]
    refine phaseReal_congr m _ _ fun i hi => ?_
    cases hv : v i with
    | none => exact absurd ⟨i, hi, hv⟩ h
    | some x => simp [hv]

/-- C156: a missing sample anywhere in a block keeps every sample of the block from being
flagged. -/
theorem phase_missing (m : ℕ) (v : ℕ → Option ℝ) (j : ℕ) (hj : j < m) (h : v j = none) :
    phaseSpace m v = .ok fun _ => false := by
  unfold phaseSpace; rw [if_pos ⟨j, hj, h⟩]

/-- C155: in a block without missing samples and with a proper ellipsoid, the flagged samples are
those whose point (value less the mean, first and second difference) lies outside the ellipsoid with
half axes `sqrt a`, `sqrt b`, tilted by `alpha`, and `Lu * std du`, where `Lu` is the universal
threshold and `a`, `b` solve the two equations for the tilted axes. -/
theorem phase_outside (m : ℕ) (w : ℕ → ℝ) (mask : ℕ → Bool) (h : phaseReal m w = .ok mask)
    (u du d2u : ℕ → ℝ) (hu : ∀ i, u i = w i - (∑ i ∈ Finset.range m, w i) / m)
    (hdu : ∀ i, du i = if 1 ≤ i ∧ i + 1 < m then (u (i + 1) - u (i - 1)) / 2 else 0)
    (hd2 : ∀ i, d2u i = if 2 ≤ i ∧ i + 2 < m then (du (i + 1) - du (i - 1)) / 2 else 0)
    (alpha : ℝ) (hal : alpha = arctan2 (∑ i ∈ Finset.range m, u i * d2u i)
      (∑ i ∈ Finset.range m, u i ^ 2)) (Lu : ℝ) (hLu : Lu = Real.sqrt (2 * Real.log m))
    (a b : ℝ) (ha : 0 < a) (hb : 0 < b) (hs : 0 < Lu * psStd m du)
    (h1 : Real.cos alpha ^ 2 * a + Real.sin alpha ^ 2 * b = (Lu * psStd m u) ^ 2)
    (h2 : Real.sin alpha ^ 2 * a + Real.cos alpha ^ 2 * b = (Lu * psStd m d2u) ^ 2)
    (i : ℕ) (hi : i < m) :
    mask i = true ↔ 1 < (u i * Real.cos alpha + d2u i * Real.sin alpha) ^ 2 / a +
      (u i * Real.sin alpha - d2u i * Real.cos alpha) ^ 2 / b + du i ^ 2 / (Lu * psStd m du) ^ 2 := by
  have eu : u = fun i => w i - psMean m w := funext hu
  have edu : du = psDu m u := by funext i; rw [hdu]; rfl
  have ed2 : d2u = psD2u m u := by funext i; rw [hd2, edu]; rfl
  unfold phaseReal at h
  rw [← eu] at h
  unfold phaseCentred at h
  simp only [← edu, ← ed2, ← hal, ← hLu] at h
  split at h
  · cases h
  · rename_i a' b' hab
    obtain ⟨g1, g2⟩ := calcab_spec _ _ _ _ _ hab
    have hdet : Real.cos alpha ^ 2 * Real.cos alpha ^ 2 - Real.sin alpha ^ 2 * Real.sin alpha ^ 2 ≠ 0 := by
      intro h0
      unfold calcab at hab
      simp only at hab
      rw [if_pos h0] at hab
      cases hab
    have ea : a' = a := by
      apply mul_left_cancel₀ hdet
      linear_combination Real.cos alpha ^ 2 * (g1 - h1) - Real.sin alpha ^ 2 * (g2 - h2)
    have eb : b' = b := by
      apply mul_left_cancel₀ hdet
      linear_combination Real.cos alpha ^ 2 * (g2 - h2) - Real.sin alpha ^ 2 * (g1 - h1)
    subst ea eb
    have h := Except.ok.inj h
    subst h
    simp only [hi, decide_true, Bool.true_and]
    set sd := Lu * psStd m du with hsd
    have hsd2 : 0 < sd ^ 2 := by positivity
    have hnan : ∀ x y z, ¬ peNan (peTerms x y z alpha a' b' sd) := by
      intro x y z hn
      obtain ⟨t, ht, h0, -⟩ := hn
      unfold peTerms at ht
      simp only [List.mem_cons, List.not_mem_nil, or_false] at ht
      rcases ht with rfl | rfl | rfl
      · exact ha.ne' h0
      · exact hb.ne' h0
      · exact hsd2.ne' h0
    have hinf : ∀ x y z, ¬ peInf (peTerms x y z alpha a' b' sd) := by
      intro x y z hn
      obtain ⟨t, ht, h0, -⟩ := hn
      unfold peTerms at ht
      simp only [List.mem_cons, List.not_mem_nil, or_false] at ht
      rcases ht with rfl | rfl | rfl
      · exact ha.ne' h0
      · exact hb.ne' h0
      · exact hsd2.ne' h0
    unfold peFlag
    rw [if_neg (hnan _ _ _), if_neg (hnan _ _ _), if_neg (hinf _ _ _)]
    by_cases hr : u i ^ 2 + du i ^ 2 + d2u i ^ 2 = 0
    · have hu0 : u i = 0 := by nlinarith [sq_nonneg (u i), sq_nonneg (du i), sq_nonneg (d2u i)]
      have hdu0 : du i = 0 := by nlinarith [sq_nonneg (u i), sq_nonneg (du i), sq_nonneg (d2u i)]
      have hd20 : d2u i = 0 := by nlinarith [sq_nonneg (u i), sq_nonneg (du i), sq_nonneg (d2u i)]
      rw [hu0, hdu0, hd20, peTerms_zero]
      simp only [List.map_cons, List.map_nil, List.sum_cons, List.sum_nil]
      have hx : 0 ≤ (Real.sin alpha ^ 2 / a' + (Real.cos alpha ^ 2 / b' + (0 / sd ^ 2 + 0)))⁻¹ := by
        positivity
      split_ifs with h0
      · simp
      · simp only [decide_eq_true_eq]
        constructor
        · intro h'; exfalso; norm_num at h'; norm_num at hx; linarith
        · intro h'; norm_num at h'
    · rw [peTerms_ne _ _ _ _ _ _ _ hr]
      have hp : 0 < u i ^ 2 + du i ^ 2 + d2u i ^ 2 := lt_of_le_of_ne (by positivity) (Ne.symm hr)
      generalize (u i ^ 2 + du i ^ 2 + d2u i ^ 2) = p at *
      simp only [List.map_cons, List.map_nil, List.sum_cons, List.sum_nil]
      set Q := (u i * Real.cos alpha + d2u i * Real.sin alpha) ^ 2 / a' +
        (u i * Real.sin alpha - d2u i * Real.cos alpha) ^ 2 / b' + du i ^ 2 / sd ^ 2 with hQ
      have hQ0 : 0 ≤ Q := by positivity
      have e : (u i * Real.cos alpha + d2u i * Real.sin alpha) ^ 2 / p / a' +
          ((u i * Real.sin alpha - d2u i * Real.cos alpha) ^ 2 / p / b' +
            (du i ^ 2 / p / sd ^ 2 + 0)) = Q / p := by
        rw [hQ, add_div, add_div, div_right_comm _ p a', div_right_comm _ p b',
          div_right_comm _ p (sd ^ 2)]; ring
      rw [e]
      split_ifs with h0
      · have : Q = 0 := by rcases div_eq_zero_iff.mp h0 with h | h; exact h; exact absurd h hp.ne'
        rw [this]; norm_num
      · have hQp : 0 < Q := by
          rcases hQ0.lt_or_eq with h | h
          · exact h
          · exact absurd (by rw [← h, zero_div]) h0
        rw [decide_eq_true_eq, inv_div, div_lt_iff₀ hQp]
        constructor
        · intro h; by_contra hc; nlinarith
        · intro h; nlinarith

/-- C155: nothing is flagged in a record of equal values. -/
theorem phase_constant (m : ℕ) (hm : 0 < m) (c : ℝ) :
    phaseReal m (fun _ => c) = .ok fun _ => false := by
  have hm' : (m : ℝ) ≠ 0 := by exact_mod_cast hm.ne'
  have e : (fun _ : ℕ => c - psMean m fun _ => c) = fun _ => (0 : ℝ) := by
    funext i
    unfold psMean
    simp only [Finset.sum_const, Finset.card_range, nsmul_eq_mul]
    field_simp
    ring
  unfold phaseReal
  rw [e]
  have hd : psDu m (fun _ => 0) = fun _ => 0 := by funext i; unfold psDu; simp
  have hd2 : psD2u m (fun _ => 0) = fun _ => 0 := by funext i; unfold psD2u; rw [hd]; simp
  have hs : psStd m (fun _ => 0) = 0 := by unfold psStd psMean; simp
  have ha : arctan2 0 0 = 0 := by unfold arctan2; exact Complex.arg_zero
  unfold phaseCentred
  simp only [hd, hd2, hs, mul_zero, Finset.sum_const_zero, ha, ne_eq, OfNat.ofNat_ne_zero,
    not_false_eq_true, zero_pow, peTerms_zero]
  unfold calcab
  simp only [Real.cos_zero, Real.sin_zero]
  norm_num
  funext i
  rw [Bool.and_eq_false_iff]
  right
  unfold peFlag
  rw [if_pos ⟨(0, 0), by simp, rfl, rfl⟩]
  simp

theorem sum_ind (m j : ℕ) (hj : j < m) (x : ℝ) :
    ∑ i ∈ Finset.range m, (if i = j then x else 0) = x := by
  rw [Finset.sum_ite_eq', if_pos (Finset.mem_range.mpr hj)]

/-- `log x ≤ x / e`. -/
theorem log_le_div_exp (x : ℝ) (hx : 0 < x) : Real.log x ≤ x / Real.exp 1 := by
  have h := Real.log_le_sub_one_of_pos (div_pos hx (Real.exp_pos 1))
  rw [Real.log_div hx.ne' (Real.exp_pos 1).ne', Real.log_exp] at h
  linarith

/-- The half axes of the ellipsoid of a unit spike. -/
theorem spike_axes (x K q r : ℝ) (hq : q ≠ 0) (hr : r ≠ 0) (h : r * q = x ^ 4 - 1 / 16) :
    x ^ 2 / r * (K * (x ^ 3 - 3 / 32) / q) + 1 / 4 / r * (K * (3 / 8 * x ^ 2 - x / 4) / q) = K * x ∧
      1 / 4 / r * (K * (x ^ 3 - 3 / 32) / q) + x ^ 2 / r * (K * (3 / 8 * x ^ 2 - x / 4) / q) =
        K * (3 / 8) := by
  constructor
  · rw [div_mul_div_comm, div_mul_div_comm, ← add_div, div_eq_iff (mul_ne_zero hr hq), h]
    ring
  · rw [div_mul_div_comm, div_mul_div_comm, ← add_div, div_eq_iff (mul_ne_zero hr hq), h]
    ring

theorem spike_far (x u0 : ℝ) (hx : 9 ≤ x) (hu8 : 8 / 9 ≤ u0) (hq : 0 < u0 ^ 2 - 1 / 4)
    (hq1 : 0 < u0 ^ 3 - 3 / 32) :
    2 * Real.log x / x * (u0 ^ 3 - 3 / 32) / (u0 ^ 2 - 1 / 4) < u0 ^ 2 + 1 / 4 := by
  rw [div_lt_iff₀ hq]
  have hx0 : 0 < x := by linarith
  have hle := log_le_div_exp x hx0
  have he := Real.exp_one_gt_d9
  have h6 : x / Real.exp 1 ≤ 0.37 * x := by
    rw [div_le_iff₀ (Real.exp_pos 1)]
    nlinarith
  have h3 : 2 * Real.log x / x ≤ 0.74 := by
    rw [div_le_iff₀ hx0]
    linarith
  have h4 : 2 * Real.log x / x * (u0 ^ 3 - 3 / 32) ≤ 0.74 * (u0 ^ 3 - 3 / 32) :=
    mul_le_mul_of_nonneg_right h3 hq1.le
  have hu : 0 < u0 := by linarith
  have h5 : 8 / 9 * u0 ^ 3 ≤ u0 * u0 ^ 3 := mul_le_mul_of_nonneg_right hu8 (by positivity)
  have h7 : (u0 ^ 2 + 1 / 4) * (u0 ^ 2 - 1 / 4) = u0 * u0 ^ 3 - 1 / 16 := by ring
  rw [h7]
  linarith

theorem unit_spike_found (m k : ℕ) (hk : 4 ≤ k) (hm : k + 5 ≤ m) :
    ∃ mask, phaseReal m (fun i => if i = k then 1 else 0) = .ok mask ∧ mask k = true := by
  have hm9 : (9 : ℝ) ≤ m := by exact_mod_cast (by omega : 9 ≤ m)
  have hm0 : (m : ℝ) ≠ 0 := by positivity
  set u0 : ℝ := 1 - 1 / m with hu0
  have hinv : 1 / (m : ℝ) ≤ 1 / 9 := one_div_le_one_div_of_le (by norm_num) hm9
  have hinv0 : 0 < 1 / (m : ℝ) := by positivity
  have hu8 : 8 / 9 ≤ u0 := by rw [hu0]; linarith
  have hu1 : u0 < 1 := by rw [hu0]; linarith
  set w : ℕ → ℝ := fun i => if i = k then 1 else 0 with hw
  set u : ℕ → ℝ := fun i => (if i = k then 1 else 0) - 1 / m with hu
  have hmean : psMean m w = 1 / m := by
    unfold psMean; rw [hw, sum_ind m k (by omega)]
  have huw : (fun i => w i - psMean m w) = u := by rw [hmean]
  have hdu : psDu m u = fun i => (if i = k - 1 then 1 / 2 else 0) - (if i = k + 1 then 1 / 2 else 0) := by
    funext i
    unfold psDu
    simp only [hu]
    split_ifs <;> first | (exfalso; omega) | ring
  have hd2 : psD2u m u = fun i => (if i = k - 2 then 1 / 4 else 0) + (if i = k + 2 then 1 / 4 else 0) -
      (if i = k then 1 / 2 else 0) := by
    funext i
    unfold psD2u
    rw [hdu]
    beta_reduce
    split_ifs <;> first | (exfalso; omega) | ring
  have hS : ∑ i ∈ Finset.range m, u i * psD2u m u i = -1 / 2 := by
    have e : ∀ i, u i * psD2u m u i = (if i = k - 2 then -1 / (4 * (m : ℝ)) else 0) +
        (if i = k + 2 then -1 / (4 * (m : ℝ)) else 0) + (if i = k then -u0 / 2 else 0) := by
      intro i
      rw [hd2]
      simp only [hu, hu0]
      split_ifs <;> first | (exfalso; omega) | ring
    rw [Finset.sum_congr rfl fun i _ => e i, Finset.sum_add_distrib, Finset.sum_add_distrib,
      sum_ind m _ (by omega), sum_ind m _ (by omega), sum_ind m _ (by omega), hu0]
    field_simp
    ring
  have hU : ∑ i ∈ Finset.range m, u i ^ 2 = u0 := by
    have e : ∀ i, u i ^ 2 = (if i = k then 1 - 2 / (m : ℝ) else 0) + 1 / (m : ℝ) ^ 2 := by
      intro i
      simp only [hu]
      split_ifs <;> ring
    rw [Finset.sum_congr rfl fun i _ => e i, Finset.sum_add_distrib, sum_ind m _ (by omega), hu0]
    simp only [Finset.sum_const, Finset.card_range, nsmul_eq_mul]
    field_simp
    ring
  have hsu : psStd m u ^ 2 = u0 / m := by
    have : psMean m u = 0 := by
      unfold psMean
      rw [hu, Finset.sum_sub_distrib, sum_ind m _ (by omega)]
      simp only [Finset.sum_const, Finset.card_range, nsmul_eq_mul]
      field_simp
      ring
    unfold psStd
    rw [this]
    simp only [sub_zero]
    rw [hU, Real.sq_sqrt (by positivity)]
  have hsdu : psStd m (psDu m u) ^ 2 = 1 / 2 / m := by
    have h0 : psMean m (psDu m u) = 0 := by
      unfold psMean
      rw [hdu, Finset.sum_sub_distrib, sum_ind m _ (by omega), sum_ind m _ (by omega)]
      simp
    have e : ∀ i, psDu m u i ^ 2 = (if i = k - 1 then 1 / 4 else 0) + (if i = k + 1 then 1 / 4 else 0) := by
      intro i
      rw [hdu]
      beta_reduce
      split_ifs <;> first | (exfalso; omega) | norm_num
    unfold psStd
    rw [h0]
    simp only [sub_zero]
    rw [Finset.sum_congr rfl fun i _ => e i, Finset.sum_add_distrib, sum_ind m _ (by omega),
      sum_ind m _ (by omega), Real.sq_sqrt (by positivity)]
    norm_num
  have hsd2 : psStd m (psD2u m u) ^ 2 = 3 / 8 / m := by
    have h0 : psMean m (psD2u m u) = 0 := by
      unfold psMean
      rw [hd2, Finset.sum_sub_distrib, Finset.sum_add_distrib, sum_ind m _ (by omega),
        sum_ind m _ (by omega), sum_ind m _ (by omega)]
      norm_num
    have e : ∀ i, psD2u m u i ^ 2 = (if i = k - 2 then 1 / 16 else 0) +
        (if i = k + 2 then 1 / 16 else 0) + (if i = k then 1 / 4 else 0) := by
      intro i
      rw [hd2]
      beta_reduce
      split_ifs <;> first | (exfalso; omega) | norm_num
    unfold psStd
    rw [h0]
    simp only [sub_zero]
    rw [Finset.sum_congr rfl fun i _ => e i, Finset.sum_add_distrib, Finset.sum_add_distrib,
      sum_ind m _ (by omega), sum_ind m _ (by omega), sum_ind m _ (by omega),
      Real.sq_sqrt (by positivity)]
    norm_num
  -- the tilt of the ellipsoid
  set alpha := arctan2 (∑ i ∈ Finset.range m, u i * psD2u m u i) (∑ i ∈ Finset.range m, u i ^ 2)
    with hal
  set N := Real.sqrt (u0 ^ 2 + 1 / 4) with hN
  have hN2 : N ^ 2 = u0 ^ 2 + 1 / 4 := Real.sq_sqrt (by positivity)
  have hN0 : 0 < N := Real.sqrt_pos.mpr (by positivity)
  have hnorm : ‖(⟨u0, -1 / 2⟩ : ℂ)‖ = N := by
    rw [Complex.norm_def, Complex.normSq_mk, hN]; congr 1; ring
  have hz : (⟨u0, -1 / 2⟩ : ℂ) ≠ 0 := by
    intro h; rw [h, norm_zero] at hnorm; exact hN0.ne hnorm
  have hcos : Real.cos alpha = u0 / N := by
    rw [hal, hS, hU]; unfold arctan2; rw [Complex.cos_arg hz, hnorm]
  have hsin : Real.sin alpha = -1 / 2 / N := by
    rw [hal, hS, hU]; unfold arctan2; rw [Complex.sin_arg, hnorm]
  -- the half axes
  set Lu := Real.sqrt (2 * Real.log m) with hLu
  have hlog : 0 < Real.log m := Real.log_pos (by linarith)
  have hL2 : Lu ^ 2 = 2 * Real.log m := Real.sq_sqrt (by positivity)
  have hL0 : 0 < Lu := Real.sqrt_pos.mpr (by positivity)
  have hq : 0 < u0 ^ 2 - 1 / 4 := by nlinarith
  have hq1 : 0 < u0 ^ 3 - 3 / 32 := by nlinarith [sq_nonneg (u0 - 8 / 9), mul_pos (by linarith : 0 < u0) hq]
  have hq2 : 0 < 3 / 8 * u0 ^ 2 - u0 / 4 := by nlinarith
  set a := 2 * Real.log m / m * (u0 ^ 3 - 3 / 32) / (u0 ^ 2 - 1 / 4) with ha
  set b := 2 * Real.log m / m * (3 / 8 * u0 ^ 2 - u0 / 4) / (u0 ^ 2 - 1 / 4) with hb
  have ha0 : 0 < a := by positivity
  have hb0 : 0 < b := by positivity
  have hsdpos : 0 < Lu * psStd m (psDu m u) := by
    have h2 : 0 < psStd m (psDu m u) ^ 2 := by rw [hsdu]; positivity
    have h3 : 0 ≤ psStd m (psDu m u) := Real.sqrt_nonneg _
    have h4 : 0 < psStd m (psDu m u) := lt_of_le_of_ne h3 (fun h => by rw [← h] at h2; norm_num at h2)
    positivity
  have hc2 : Real.cos alpha ^ 2 = u0 ^ 2 / (u0 ^ 2 + 1 / 4) := by rw [hcos, div_pow, hN2]
  have hs2 : Real.sin alpha ^ 2 = 1 / 4 / (u0 ^ 2 + 1 / 4) := by rw [hsin, div_pow, hN2]; norm_num
  have hq3 : (0 : ℝ) < u0 ^ 2 + 1 / 4 := by positivity
  have h1 : Real.cos alpha ^ 2 * a + Real.sin alpha ^ 2 * b = (Lu * psStd m u) ^ 2 := by
    rw [hc2, hs2, mul_pow, hL2, hsu, ha, hb,
      (spike_axes u0 (2 * Real.log m / m) _ _ hq.ne' hq3.ne' (by ring)).1]
    ring
  have h2 : Real.sin alpha ^ 2 * a + Real.cos alpha ^ 2 * b = (Lu * psStd m (psD2u m u)) ^ 2 := by
    rw [hc2, hs2, mul_pow, hL2, hsd2, ha, hb,
      (spike_axes u0 (2 * Real.log m / m) _ _ hq.ne' hq3.ne' (by ring)).2]
    ring
  have hdet : Real.cos (2 * alpha) ≠ 0 := by
    rw [Real.cos_two_mul, hc2]
    have : 2 * (u0 ^ 2 / (u0 ^ 2 + 1 / 4)) - 1 = (u0 ^ 2 - 1 / 4) / (u0 ^ 2 + 1 / 4) := by
      field_simp; ring
    rw [this]
    positivity
  obtain ⟨mask, hmask⟩ : ∃ mask, phaseReal m w = .ok mask := by
    unfold phaseReal
    rw [huw]
    unfold phaseCentred
    simp only [← hal]
    cases hcab : calcab alpha (Real.sqrt (2 * Real.log m) * psStd m u)
        (Real.sqrt (2 * Real.log m) * psStd m (psD2u m u)) with
    | error e =>
      exfalso
      have : e = .linAlgError := by
        unfold calcab at hcab
        simp only at hcab
        split_ifs at hcab
        exact (Except.error.inj hcab).symm
      rw [this] at hcab
      exact hdet ((calcab_singular _ _ _).mp hcab)
    | ok ab => exact ⟨_, rfl⟩
  refine ⟨mask, hmask, ?_⟩
  rw [phase_outside m w mask hmask u (psDu m u) (psD2u m u)
    (fun i => by have := congrFun huw i; rw [← this]; rfl) (fun _ => rfl) (fun _ => rfl) alpha hal Lu hLu
    a b ha0 hb0 hsdpos h1 h2 k (by omega)]
  have ek : u k = u0 := by simp [hu, hu0]
  have ek1 : psDu m u k = 0 := by
    rw [hdu]; beta_reduce; rw [if_neg (by omega), if_neg (by omega)]; ring
  have ek2 : psD2u m u k = -1 / 2 := by
    rw [hd2]; beta_reduce; rw [if_neg (by omega), if_neg (by omega), if_pos rfl]; ring
  rw [ek, ek1, ek2, hcos, hsin]
  have e1 : u0 * (u0 / N) + -1 / 2 * (-1 / 2 / N) = N := by
    field_simp
    rw [hN2]; ring
  have e2 : u0 * (-1 / 2 / N) - -1 / 2 * (u0 / N) = 0 := by ring
  rw [e1, e2, hN2]
  have hlt : a < u0 ^ 2 + 1 / 4 := spike_far m u0 hm9 hu8 hq hq1
  have : 1 < (u0 ^ 2 + 1 / 4) / a := by rwa [lt_div_iff₀ ha0, one_mul]
  simpa using this

/-- C155: a lone spike in an otherwise constant record is found, whatever its height, as soon as
it is at least four samples away from the ends. -/
theorem lone_spike_found (m k : ℕ) (hk : 4 ≤ k) (hm : k + 5 ≤ m) (c h : ℝ) (hh : h ≠ 0) :
    ∃ mask, phaseReal m (fun i => if i = k then c + h else c) = .ok mask ∧ mask k = true := by
  obtain ⟨mask, h1, h2⟩ := unit_spike_found m k hk hm
  refine ⟨mask, ?_, h2⟩
  rw [← h1, ← phase_affine m (by omega) h c hh fun i => if i = k then 1 else 0]
  congr 1
  funext i
  split_ifs <;> ring

/-! ### Records -/

/-- The block (start, length) in which sample `i` of a record of `n` samples is judged. -/
def Spec.blockOf (n npt i : ℕ) : ℕ × ℕ := if n - npt ≤ i then (n - npt, min npt n) else (i / npt * npt, npt)

theorem blockOf_mem (n npt i : ℕ) (hn : 0 < npt) : blockOf n npt i ∈ gnBlocks n npt := by
  unfold blockOf gnBlocks
  split_ifs with h
  · simp
  · refine List.mem_append_left _ (List.mem_map.mpr ⟨i / npt, List.mem_range.mpr ?_, rfl⟩)
    rw [Nat.div_lt_iff_lt_mul hn]
    have := Nat.lt_div_mul_add (a := n) hn
    omega

theorem gnBlocks_pos (n npt : ℕ) (hn : 0 < n) (hnpt : 0 < npt) (b : ℕ × ℕ) (hb : b ∈ gnBlocks n npt) :
    0 < b.2 := by
  unfold gnBlocks at hb
  rcases List.mem_append.mp hb with h | h
  · obtain ⟨c, -, rfl⟩ := List.mem_map.mp h
    exact hnpt
  · rw [List.mem_singleton.mp h]
    exact lt_min hnpt hn

theorem mapM_ok_of_mem {β γ : Type*} (g : β → Except Err γ) :
    ∀ (L : List β) (r : List γ), L.mapM g = .ok r → ∀ b ∈ L, ∃ y, g b = .ok y := by
  intro L
  induction L with
  | nil => intro r _ b hb; cases hb
  | cons x xs ih =>
    intro r h b hb
    rw [List.mapM_cons] at h
    cases hx : g x with
    | error e => rw [hx] at h; cases h
    | ok y =>
      rw [hx] at h
      cases hxs : xs.mapM g with
      | error e => rw [hxs] at h; cases h
      | ok ys =>
        rcases List.mem_cons.mp hb with rfl | hb
        · exact ⟨y, hx⟩
        · exact ih ys hxs b hb

theorem mapM_error_mem {β γ : Type*} (g : β → Except Err γ) :
    ∀ (L : List β) (e : Err), L.mapM g = .error e → ∃ b ∈ L, g b = .error e := by
  intro L
  induction L with
  | nil => intro e h; cases h
  | cons x xs ih =>
    intro e h
    rw [List.mapM_cons] at h
    cases hx : g x with
    | error e' =>
      rw [hx] at h
      cases h
      exact ⟨x, by simp, hx⟩
    | ok y =>
      rw [hx] at h
      cases hxs : xs.mapM g with
      | error e' =>
        rw [hxs] at h
        cases h
        obtain ⟨b, hb, h2⟩ := ih e hxs
        exact ⟨b, by simp [hb], h2⟩
      | ok ys => rw [hxs] at h; cases h

/-- What the outcome `r` of despiking the samples `lo .. hi - 1` of a record as a record of their own
is: each sample gets the verdict of its block, or the exception of some block is passed on. -/
def Spec.JudgedAlone {α : Type*} (T : ℕ → (ℕ → α) → Except Err (ℕ → Bool)) (npt : ℕ) (u : ℕ → α) (lo hi : ℕ)
    (r : Except Err (ℕ → Bool)) : Prop :=
  match r with
  | .ok mask => ∀ i < hi - lo, ∃ f,
      T (blockOf (hi - lo) npt i).2 (fun j => u (lo + ((blockOf (hi - lo) npt i).1 + j))) = .ok f ∧
        mask i = f (i - (blockOf (hi - lo) npt i).1)
  | .error e => ∃ i < hi - lo,
      T (blockOf (hi - lo) npt i).2 (fun j => u (lo + ((blockOf (hi - lo) npt i).1 + j))) = .error e

/-- Every block is the block of one of its samples. -/
theorem gnBlocks_blockOf (n npt : ℕ) (hn : 0 < n) (hnpt : 0 < npt) (b : ℕ × ℕ) (hb : b ∈ gnBlocks n npt) :
    ∃ i < n, blockOf n npt i = b := by
  unfold gnBlocks at hb
  rcases List.mem_append.mp hb with h | h
  · obtain ⟨c, hc, rfl⟩ := List.mem_map.mp h
    have h1 := List.mem_range.mp hc
    have h2 : (c + 1) * npt ≤ n / npt * npt := Nat.mul_le_mul_right _ h1
    have h3 := Nat.div_mul_le_self n npt
    rw [add_mul, one_mul] at h2
    refine ⟨c * npt, by omega, ?_⟩
    unfold blockOf
    split_ifs with h4
    · rw [Prod.mk.injEq]; omega
    · rw [Nat.mul_div_cancel _ hnpt]
  · refine ⟨n - npt, by omega, ?_⟩
    rw [List.mem_singleton.mp h]
    unfold blockOf
    rw [if_pos le_rfl]

/-- A record that is not split. -/
theorem gnPlain_judged {α : Type*} (T : ℕ → (ℕ → α) → Except Err (ℕ → Bool)) (npt : ℕ) (hnpt : 0 < npt)
    (u : ℕ → α) (lo hi : ℕ) (h : lo < hi) :
    ∃ r, gnPlain T (hi - lo) npt (fun j => u (lo + j)) = some r ∧ JudgedAlone T npt u lo hi r := by
  have hn : 0 < hi - lo := by omega
  unfold gnPlain
  rw [if_neg (by omega), if_neg (by omega)]
  cases hM : (gnBlocks (hi - lo) npt).mapM fun b => T b.2 fun j => u (lo + (b.1 + j)) with
  | error e =>
    simp only
    refine ⟨_, rfl, ?_⟩
    obtain ⟨b, hb, h2⟩ := mapM_error_mem _ _ _ hM
    obtain ⟨i, hi', rfl⟩ := gnBlocks_blockOf _ _ hn hnpt b hb
    exact ⟨i, hi', h2⟩
  | ok l =>
    simp only
    obtain ⟨mask, c, h1, -, -, h4⟩ := gn2002_spec (fun m v => okFlag (T m v)) (hi - lo) npt hn hnpt
      (fun j => u (lo + j)) 101 (by norm_num)
    rw [h1]
    refine ⟨.ok mask, rfl, ?_⟩
    intro i hi'
    obtain ⟨f, hf⟩ := mapM_ok_of_mem _ _ _ hM _ (blockOf_mem (hi - lo) npt i hnpt)
    refine ⟨f, hf, ?_⟩
    rw [h4 i hi']
    unfold blockOf at hf ⊢
    split_ifs with hc
    · rw [if_pos hc] at hf
      simp only at hf ⊢
      rw [hf]
      rfl
    · rw [if_neg hc] at hf
      simp only at hf ⊢
      rw [hf]
      have : i - i / npt * npt = i % npt := by
        have := Nat.div_add_mod i npt
        rw [mul_comm] at this
        omega
      rw [this]
      rfl

/-- C155: the verdicts on a whole record do not depend on the unit, the sign or the zero. -/
theorem gnPlain_map {α : Type*} (T : ℕ → (ℕ → Option α) → Except Err (ℕ → Bool)) (g : α → α)
    (hT : ∀ m, 0 < m → ∀ v, T m (fun i => (v i).map g) = T m v) (n npt : ℕ) (u : ℕ → Option α) :
    gnPlain T n npt (fun i => (u i).map g) = gnPlain T n npt u := by
  unfold gnPlain
  split_ifs with h1 h2
  · rfl
  · rfl
  · have e : ((gnBlocks n npt).mapM fun b => T b.2 fun j => (u (b.1 + j)).map g) =
        (gnBlocks n npt).mapM fun b => T b.2 fun j => u (b.1 + j) := by
      have : ∀ L : List (ℕ × ℕ), (∀ b ∈ L, 0 < b.2) → (L.mapM fun b => T b.2 fun j => (u (b.1 + j)).map g) =
          L.mapM fun b => T b.2 fun j => u (b.1 + j) := by
        intro L
        induction L with
        | nil => intro _; rfl
        | cons x xs ih =>
          intro hL
          rw [List.mapM_cons, List.mapM_cons, ih fun b hb => hL b (by simp [hb]),
            hT x.2 (hL x (by simp)) fun j => u (x.1 + j)]
      exact this _ fun b hb => gnBlocks_pos n npt (by omega) (by omega) b hb
    rw [e]
    split
    · rfl
    · congr 1
      have hb : ∀ mask, gnPass (fun m v => okFlag (T m v)) n npt (fun i => (u i).map g) mask =
          gnPass (fun m v => okFlag (T m v)) n npt u mask := by
        intro mask
        funext i
        unfold gnPass
        beta_reduce
        rw [hT (min npt n) (lt_min (by omega) (by omega)) fun j => u (n - npt + j),
          hT npt (by omega) fun j => u (i / npt * npt + j)]
      have hl : ∀ f c mask last, gnLoop (fun m v => okFlag (T m v)) n npt (fun i => (u i).map g) f c mask last =
          gnLoop (fun m v => okFlag (T m v)) n npt u f c mask last := by
        intro f
        induction f with
        | zero => intros; rfl
        | succ f ih =>
          intro c mask last
          simp only [gnLoop, hb, ih]
      unfold gnBase
      simp only [hl]

theorem gnJoin_congr (g g' : ℕ → ℕ → Option (Except Err (ℕ → Bool))) (h : ∀ lo hi, g lo hi = g' lo hi)
    (L : List (ℕ × ℕ)) (mask : ℕ → Bool) : gnJoin g L mask = gnJoin g' L mask := by
  have : g = g' := by funext lo hi; exact h lo hi
  rw [this]

theorem gnFull_map {α : Type*} (T : ℕ → (ℕ → Option α) → Except Err (ℕ → Bool)) (g : α → α)
    (hT : ∀ m, 0 < m → ∀ v, T m (fun i => (v i).map g) = T m v) (npt : ℕ) :
    ∀ (f n : ℕ) (u : ℕ → Option α), gnFull T npt f n (fun i => (u i).map g) = gnFull T npt f n u := by
  intro f
  induction f with
  | zero => intros; rfl
  | succ f ih =>
    intro n u
    simp only [gnFull, Option.isNone_map, gnPlain_map T g hT]
    rw [gnJoin_congr _ _ fun lo hi => ih (hi - lo) fun j => u (lo + j)]

/-- C155: `GN2002` flags the same samples whatever the unit, the sign and the zero of the data. -/
theorem despike_affine (npt fuel n : ℕ) (u : ℕ → Option ℝ) (c k : ℝ) (hc : c ≠ 0) :
    gnFull phaseSpace npt fuel n (fun i => (u i).map fun x => c * x + k) =
      gnFull phaseSpace npt fuel n u :=
  gnFull_map phaseSpace (fun x => c * x + k) (fun m hm v => phaseSpace_affine m hm c k hc v) npt fuel n u

/-! ### Records with gaps -/

/-- `[s, t)` is a gap of at least a tenth of the block length. -/
def Spec.LongGap {α : Type*} (n npt : ℕ) (u : ℕ → Option α) (s t : ℕ) : Prop :=
  MaxRun n (fun i => (u i).isNone) s t ∧ npt / 10 ≤ t - s

/-- There are more than two long gaps. -/
def Spec.ManyGaps {α : Type*} (n npt : ℕ) (u : ℕ → Option α) : Prop :=
  ∃ s₁ t₁ s₂ t₂ s₃ t₃, LongGap n npt u s₁ t₁ ∧ LongGap n npt u s₂ t₂ ∧ LongGap n npt u s₃ t₃ ∧
    t₁ < s₂ ∧ t₂ < s₃

/-- `[lo, hi)` is a stretch of the record between long gaps or the ends. -/
structure Spec.Stretch {α : Type*} (n npt : ℕ) (u : ℕ → Option α) (lo hi : ℕ) : Prop where
  lt : lo < hi
  bound : hi ≤ n
  left : lo = 0 ∨ ∃ s, LongGap n npt u s lo
  right : hi = n ∨ ∃ t, LongGap n npt u hi t
  free : ∀ s t, LongGap n npt u s t → t ≤ lo ∨ hi ≤ s

theorem gnWalk_spec (ep : ℕ) : ∀ (L : List (ℕ × ℕ)) (sp : ℕ), sp < ep → L.Pairwise (fun p q => p.2 < q.1) →
    (∀ p ∈ L, p.1 < p.2 ∧ sp < p.1 ∧ p.2 < ep) →
    (∀ r ∈ gnWalk ep sp L, r.1 < r.2 ∧ sp ≤ r.1 ∧ r.2 ≤ ep ∧ (r.1 = sp ∨ ∃ p ∈ L, p.2 = r.1) ∧
      (r.2 = ep ∨ ∃ p ∈ L, p.1 = r.2) ∧ ∀ p ∈ L, p.2 ≤ r.1 ∨ r.2 ≤ p.1) ∧
    (gnWalk ep sp L).Pairwise (fun p q => p.2 ≤ q.1) ∧
    ∀ i, sp ≤ i → i < ep → (∃ r ∈ gnWalk ep sp L, r.1 ≤ i ∧ i < r.2) ∨ ∃ p ∈ L, p.1 ≤ i ∧ i < p.2 := by
  intro L
  induction L with
  | nil =>
    intro sp h _ _
    refine ⟨?_, by simp [gnWalk], ?_⟩
    · intro r hr
      simp only [gnWalk, List.mem_singleton] at hr
      subst hr
      exact ⟨h, le_rfl, le_rfl, .inl rfl, .inl rfl, by simp⟩
    · intro i h1 h2
      exact .inl ⟨(sp, ep), by simp [gnWalk], h1, h2⟩
  | cons p L ih =>
    intro sp h hpw hL
    obtain ⟨s, t⟩ := p
    obtain ⟨h1, h2, h3⟩ := hL (s, t) (by simp)
    simp only at h1 h2 h3
    rw [List.pairwise_cons] at hpw
    obtain ⟨ia, ib, ic⟩ := ih t h3 hpw.2 (fun q hq => ⟨(hL q (by simp [hq])).1, hpw.1 q hq,
      (hL q (by simp [hq])).2.2⟩)
    simp only [gnWalk]
    refine ⟨?_, ?_, ?_⟩
    · intro r hr
      rcases List.mem_cons.mp hr with rfl | hr
      · refine ⟨h2, le_rfl, by simp only; omega, .inl rfl, .inr ⟨(s, t), by simp, rfl⟩, ?_⟩
        intro p hp
        right
        simp only
        rcases List.mem_cons.mp hp with rfl | hp
        · simp only; omega
        · have := hpw.1 p hp
          simp only at this
          omega
      · obtain ⟨a1, a2, a3, a4, a5, a6⟩ := ia r hr
        refine ⟨a1, by omega, a3, ?_, ?_, ?_⟩
        · right
          rcases a4 with a4 | ⟨p, hp, a4⟩
          · exact ⟨(s, t), by simp, a4.symm⟩
          · exact ⟨p, by simp [hp], a4⟩
        · rcases a5 with a5 | ⟨p, hp, a5⟩
          · exact .inl a5
          · exact .inr ⟨p, by simp [hp], a5⟩
        · intro p hp
          rcases List.mem_cons.mp hp with rfl | hp
          · left; simp only; omega
          · exact a6 p hp
    · rw [List.pairwise_cons]
      refine ⟨fun q hq => ?_, ib⟩
      have := (ia q hq).2.1
      simp only
      omega
    · intro i hi1 hi2
      by_cases c1 : i < s
      · exact .inl ⟨(sp, s), by simp, hi1, c1⟩
      · by_cases c2 : i < t
        · exact .inr ⟨(s, t), by simp, by simp only; omega, c2⟩
        · rcases ic i (by omega) hi2 with ⟨r, hr, h5⟩ | ⟨p, hp, h5⟩
          · exact .inl ⟨r, by simp [hr], h5⟩
          · exact .inr ⟨p, by simp [hp], h5⟩

theorem gnJoin_spec (g : ℕ → ℕ → Option (Except Err (ℕ → Bool))) :
    ∀ (L : List (ℕ × ℕ)) (mask0 : ℕ → Bool), L.Pairwise (fun p q => p.2 ≤ q.1) →
      (∀ p ∈ L, ∃ r, g p.1 p.2 = some r) →
      ∃ r, gnJoin g L mask0 = some r ∧
        match r with
        | .ok mask => (∀ p ∈ L, ∃ f, g p.1 p.2 = some (.ok f) ∧
              ∀ i, p.1 ≤ i → i < p.2 → mask i = f (i - p.1)) ∧
            ∀ i, (∀ p ∈ L, i < p.1 ∨ p.2 ≤ i) → mask i = mask0 i
        | .error e => ∃ p ∈ L, g p.1 p.2 = some (.error e) := by
  intro L
  induction L with
  | nil => intro mask0 _ _; exact ⟨_, rfl, by simp, fun _ _ => rfl⟩
  | cons p L ih =>
    intro mask0 hpw hg
    obtain ⟨lo, hi⟩ := p
    rw [List.pairwise_cons] at hpw
    obtain ⟨r0, hr0⟩ := hg (lo, hi) (by simp)
    simp only at hr0
    rw [gnJoin, hr0]
    cases r0 with
    | error e => exact ⟨_, rfl, (lo, hi), by simp, hr0⟩
    | ok f =>
      obtain ⟨r, h1, h2⟩ := ih (fun i => if lo ≤ i ∧ i < hi then f (i - lo) else mask0 i) hpw.2
        (fun q hq => hg q (by simp [hq]))
      refine ⟨r, h1, ?_⟩
      cases r with
      | error e =>
        obtain ⟨q, hq, h3⟩ := h2
        exact ⟨q, by simp [hq], h3⟩
      | ok mask =>
        simp only at h2 ⊢
        refine ⟨?_, ?_⟩
        · intro q hq
          rcases List.mem_cons.mp hq with rfl | hq
          · refine ⟨f, hr0, fun i hi1 hi2 => ?_⟩
            rw [h2.2 i fun q hq => .inl (by have := hpw.1 q hq; simp only at this hi2; omega)]
            rw [if_pos ⟨hi1, hi2⟩]
          · exact h2.1 q hq
        · intro i hi'
          rw [h2.2 i fun q hq => hi' q (by simp [hq])]
          have := hi' (lo, hi) (by simp)
          simp only at this
          rw [if_neg (by omega)]

/-- The regions that are cleaned on their own are the stretches between the long gaps. -/
theorem gnRegions_spec {α : Type*} (n npt : ℕ) (u : ℕ → Option α) (h0 : u 0 ≠ none) (segs : List (ℕ × ℕ))
    (hs : RunsOf n (fun i => (u i).isNone) ((npt / 10 : ℕ) : ℤ) segs) (hlen : segs ≠ []) :
    (∀ r, r ∈ gnRegions n segs ↔ Stretch n npt u r.1 r.2) ∧
      (gnRegions n segs).Pairwise (fun p q => p.2 ≤ q.1) := by
  obtain ⟨hpw, hmem⟩ := hs
  have hlong : ∀ p ∈ segs, LongGap n npt u p.1 p.2 := by
    intro p hp
    obtain ⟨h1, h2⟩ := (hmem p.1 p.2).mp hp
    have := h1.lt
    exact ⟨h1, by omega⟩
  have hin : ∀ s t, LongGap n npt u s t → (s, t) ∈ segs := by
    intro s t h
    have h1 := h.1.lt
    have h2 := h.2
    exact (hmem s t).mpr ⟨h.1, by omega⟩
  have hpos : ∀ p ∈ segs, 0 < p.1 := by
    intro p hp
    have h1 := (hlong p hp).1
    rcases Nat.eq_zero_or_pos p.1 with h | h
    · exfalso
      have := h1.inside 0 (by omega) (by have := h1.lt; omega)
      simp only [Option.isNone_iff_eq_none] at this
      exact h0 this
    · exact h
  obtain ⟨ep, L, hreg, hep, hLs, hsL, hLep, hepn⟩ : ∃ ep L, gnRegions n segs = gnWalk ep 0 L ∧ 0 < ep ∧
      L.Sublist segs ∧ (∀ p ∈ segs, p ∈ L ∨ p = (ep, n)) ∧ (∀ p ∈ L, p.2 < ep) ∧
      (ep = n ∨ (ep, n) ∈ segs) := by
    have hd : gnRegions n segs = match segs.getLast? with
        | some (s, t) => if t = n then gnWalk s 0 segs.dropLast else gnWalk n 0 segs
        | none => gnWalk n 0 segs := by
      unfold gnRegions
      cases segs with
      | nil => rfl
      | cons p r =>
        obtain ⟨s, t⟩ := p
        have := hpos (s, t) (by simp)
        simp only at this
        simp only [if_neg (by omega : ¬ s = 0)]
        rfl
    have hlast := List.getLast?_eq_getLast_of_ne_nil hlen
    set q := segs.getLast hlen with hq
    have hqm : q ∈ segs := List.getLast_mem hlen
    have happ : segs.dropLast ++ [q] = segs := List.dropLast_append_getLast hlen
    rw [hlast] at hd
    obtain ⟨s, t⟩ := q
    simp only at hd
    have hpw' : ∀ p ∈ segs.dropLast, p.2 < s := by
      intro p hp
      rw [← happ, List.pairwise_append] at hpw
      exact hpw.2.2 p hp (s, t) (by simp)
    by_cases ht : t = n
    · rw [if_pos ht] at hd
      refine ⟨s, segs.dropLast, hd, hpos _ hqm, List.dropLast_sublist segs, ?_, hpw', .inr (ht ▸ hqm)⟩
      intro p hp
      rw [← happ] at hp
      rcases List.mem_append.mp hp with h | h
      · exact .inl h
      · right; rw [List.mem_singleton.mp h, ht]
    · rw [if_neg ht] at hd
      have hn := (hlong _ hqm).1.bound
      have hst := (hlong _ hqm).1.lt
      simp only at hn hst
      refine ⟨n, segs, hd, by omega, List.Sublist.refl _, fun p hp => .inl hp, ?_, .inl rfl⟩
      intro p hp
      rw [← happ] at hp
      rcases List.mem_append.mp hp with h | h
      · have := hpw' p h; omega
      · rw [List.mem_singleton.mp h]; simp only; omega
  have hL : ∀ p ∈ L, p ∈ segs := fun p hp => hLs.subset hp
  obtain ⟨ga, gb, gc⟩ := gnWalk_spec ep L 0 hep (hpw.sublist hLs) (fun p hp =>
    ⟨(hlong p (hL p hp)).1.lt, hpos p (hL p hp), hLep p hp⟩)
  have hepn' : ep ≤ n := by
    rcases hepn with h | h
    · omega
    · have := (hlong _ h).1.lt; simp only at this; omega
  have hfwd : ∀ r, r ∈ gnRegions n segs → Stretch n npt u r.1 r.2 := by
    intro r hr
    rw [hreg] at hr
    obtain ⟨a1, a2, a3, a4, a5, a6⟩ := ga r hr
    refine ⟨a1, by omega, ?_, ?_, ?_⟩
    · rcases a4 with h | ⟨p, hp, h⟩
      · exact .inl h
      · exact .inr ⟨p.1, h ▸ hlong p (hL p hp)⟩
    · rcases a5 with h | ⟨p, hp, h⟩
      · rcases hepn with h' | h'
        · left; omega
        · right; rw [h]; exact ⟨n, hlong _ h'⟩
      · exact .inr ⟨p.2, h ▸ hlong p (hL p hp)⟩
    · intro s t hst
      rcases hsL (s, t) (hin s t hst) with h | h
      · exact a6 (s, t) h
      · right
        have := (Prod.ext_iff.mp h).1
        simp only at this
        omega
  refine ⟨fun r => ⟨hfwd r, fun h => ?_⟩, hreg ▸ gb⟩
  have hlo : r.1 < ep := by
    rcases hepn with h' | h'
    · have := h.lt; have := h.bound; omega
    · rcases h.free _ _ (hlong _ h') with h2 | h2
      · have := h.lt; have := h.bound; simp only at h2; omega
      · have := h.lt; simp only at h2; omega
  rcases gc r.1 (Nat.zero_le _) hlo with ⟨r', hr', h1, h2⟩ | ⟨p, hp, h1, h2⟩
  · have h' := hfwd r' (hreg ▸ hr')
    have e1 : r'.1 = r.1 := by
      by_contra hne
      rcases h.left with h3 | ⟨s, h3⟩
      · omega
      · have := h3.1.lt
        rcases h'.free _ _ h3 with h4 | h4
        · omega
        · omega
    have e2 : r'.2 = r.2 := by
      have hlt := h.lt
      rcases Nat.lt_trichotomy r'.2 r.2 with h3 | h3 | h3
      · exfalso
        rcases h'.right with h4 | ⟨t, h4⟩
        · have := h.bound; omega
        · have := h4.1.lt
          rcases h.free _ _ h4 with h5 | h5 <;> omega
      · exact h3
      · exfalso
        rcases h.right with h4 | ⟨t, h4⟩
        · have := h'.bound; omega
        · have := h4.1.lt
          rcases h'.free _ _ h4 with h5 | h5 <;> omega
    have : r = r' := Prod.ext e1.symm e2.symm
    rw [this, hreg]
    exact hr'
  · exfalso
    have := h.lt
    rcases h.free _ _ (hlong p (hL p hp)) with h3 | h3 <;> omega

/-- A mask that starts with `True` gives at most two slices. -/
theorem group_start_le (n : ℕ) (bl : ℕ → Bool) (m : ℤ) (h : bl 0 = true) : (group n bl m).length ≤ 2 := by
  unfold group
  by_cases h1 : (List.range n).any bl = false
  · rw [if_pos h1]; simp
  · rw [if_neg h1]
    simp only [h, if_true]
    refine le_trans (List.length_filter_le _ _) ?_
    rw [List.length_zip]
    refine le_trans (min_le_left _ _) ?_
    split_ifs <;> simp

theorem group_long {α : Type*} (n npt : ℕ) (u : ℕ → Option α) (h0 : u 0 ≠ none) :
    2 < (group n (fun i => (u i).isNone) ((npt / 10 : ℕ) : ℤ)).length ↔ ManyGaps n npt u := by
  have hb : (fun i => (u i).isNone) 0 = false := by
    cases h : u 0 with
    | none => exact absurd h h0
    | some x => simp [h]
  obtain ⟨hpw, hmem⟩ := group_partial n (fun i => (u i).isNone) ((npt / 10 : ℕ) : ℤ) (.inl hb)
  generalize group n (fun i => (u i).isNone) ((npt / 10 : ℕ) : ℤ) = segs at *
  have hlong : ∀ p ∈ segs, LongGap n npt u p.1 p.2 := by
    intro p hp
    obtain ⟨h1, h2⟩ := (hmem p.1 p.2).mp hp
    have := h1.lt
    exact ⟨h1, by omega⟩
  have hin : ∀ s t, LongGap n npt u s t → (s, t) ∈ segs := by
    intro s t h
    have h1 := h.1.lt
    have h2 := h.2
    exact (hmem s t).mpr ⟨h.1, by omega⟩
  constructor
  · intro h
    match segs, h, hpw, hlong with
    | a :: b :: c :: r, _, hpw, hlong =>
      simp only [List.pairwise_cons, List.mem_cons] at hpw
      exact ⟨a.1, a.2, b.1, b.2, c.1, c.2, hlong a (by simp), hlong b (by simp), hlong c (by simp),
        hpw.1 b (by simp), hpw.2.1 c (by simp)⟩
  · rintro ⟨s₁, t₁, s₂, t₂, s₃, t₃, h1, h2, h3, h12, h23⟩
    have m1 := hin _ _ h1
    have m2 := hin _ _ h2
    have m3 := hin _ _ h3
    have l1 := h1.1.lt
    have l2 := h2.1.lt
    match segs, m1, m2, m3 with
    | [], m1, _, _ => cases m1
    | [x], m1, m2, _ =>
      have e1 := List.mem_singleton.mp m1
      have e2 := List.mem_singleton.mp m2
      have := (Prod.ext_iff.mp (e1.trans e2.symm)).1
      simp only at this
      omega
    | [x, y], m1, m2, m3 =>
      simp only [List.mem_cons, List.not_mem_nil, or_false] at m1 m2 m3
      exfalso
      rcases m1 with m1 | m1 <;> rcases m2 with m2 | m2 <;> rcases m3 with m3 | m3 <;>
        first
        | (have := (Prod.ext_iff.mp (m1.trans m2.symm)).1; simp only at this; omega)
        | (have := (Prod.ext_iff.mp (m1.trans m3.symm)).1; simp only at this; omega)
        | (have := (Prod.ext_iff.mp (m2.trans m3.symm)).1; simp only at this; omega)
    | a :: b :: c :: r, _, _, _ => simp

/-- C156: a record that begins with a missing sample, or has at most two long gaps, is judged as
one record, gaps included. -/
theorem despike_unsplit {α : Type*} (T : ℕ → (ℕ → Option α) → Except Err (ℕ → Bool)) (npt n : ℕ)
    (hnpt : 0 < npt) (hn : 0 < n) (u : ℕ → Option α) (h : u 0 = none ∨ ¬ ManyGaps n npt u) (fuel : ℕ)
    (hf : 1 ≤ fuel) : ∃ r, gnFull T npt fuel n u = some r ∧ JudgedAlone T npt u 0 n r := by
  obtain ⟨f, rfl⟩ : ∃ f, fuel = f + 1 := ⟨fuel - 1, by omega⟩
  have hlen : ¬ 2 < (group n (fun i => (u i).isNone) ((npt / 10 : ℕ) : ℤ)).length := by
    by_cases h0 : u 0 = none
    · have := group_start_le n (fun i => (u i).isNone) ((npt / 10 : ℕ) : ℤ) (by simp [h0])
      omega
    · rw [group_long n npt u h0]
      exact h.resolve_left h0
  obtain ⟨r, h1, h2⟩ := gnPlain_judged T npt hnpt u 0 n hn
  refine ⟨r, ?_, h2⟩
  unfold gnFull
  simp only
  rw [if_neg hlen, ← h1]
  simp

/-- A stretch between long gaps has no long gap of its own. -/
theorem stretch_plain {α : Type*} (npt n : ℕ) (u : ℕ → Option α) (h0 : u 0 ≠ none) (lo hi : ℕ)
    (h : Stretch n npt u lo hi) : u (lo + 0) ≠ none ∧ ¬ ManyGaps (hi - lo) npt fun j => u (lo + j) := by
  have hlt := h.lt
  have hbd := h.bound
  have hlo : u lo ≠ none := by
    rcases h.left with h1 | ⟨s, h1⟩
    · rw [h1]; exact h0
    · rcases h1.1.stop with h2 | h2
      · omega
      · intro h3; simp [h3] at h2
  refine ⟨hlo, ?_⟩
  rintro ⟨s, t, -, -, -, -, ⟨hr, hl⟩, -⟩
  have h1 := hr.lt
  have h2 := hr.bound
  have hs0 : s ≠ 0 := by
    rintro rfl
    have := hr.inside 0 le_rfl h1
    simp only [Option.isNone_iff_eq_none] at this
    exact hlo this
  have hg : LongGap n npt u (lo + s) (lo + t) := by
    refine ⟨⟨by omega, by omega, ?_, ?_, ?_⟩, by omega⟩
    · intro j hj1 hj2
      have := hr.inside (j - lo) (by omega) (by omega)
      simp only at this
      rwa [show lo + (j - lo) = j by omega] at this
    · right
      have := hr.start.resolve_left hs0
      simp only at this
      rwa [show lo + (s - 1) = lo + s - 1 by omega] at this
    · rcases hr.stop with h3 | h3
      · rcases h.right with h4 | ⟨t', h4⟩
        · left; omega
        · exfalso
          have h5 := h4.1.start.resolve_left (by omega)
          have h6 := hr.inside (t - 1) (by omega) (by omega)
          simp only at h5 h6
          rw [show lo + (t - 1) = hi - 1 by omega] at h6
          rw [h6] at h5
          cases h5
      · right; exact h3
  rcases h.free _ _ hg with h3 | h3 <;> omega

/-- C156: a record that begins with a sample and has more than two long gaps is split at the long
gaps: each stretch between them is judged as a record of its own, and nothing is flagged in the long
gaps. -/
theorem despike_split {α : Type*} (T : ℕ → (ℕ → Option α) → Except Err (ℕ → Bool)) (npt n : ℕ)
    (hnpt : 0 < npt) (u : ℕ → Option α) (h0 : u 0 ≠ none) (h : ManyGaps n npt u) (fuel : ℕ)
    (hf : 2 ≤ fuel) :
    ∃ r, gnFull T npt fuel n u = some r ∧
      match r with
      | .ok mask => (∀ lo hi, Stretch n npt u lo hi → JudgedAlone T npt u lo hi (.ok fun i => mask (lo + i))) ∧
          ∀ s t, LongGap n npt u s t → ∀ i, s ≤ i → i < t → mask i = false
      | .error e => ∃ lo hi, Stretch n npt u lo hi ∧ JudgedAlone T npt u lo hi (.error e) := by
  obtain ⟨f, rfl⟩ : ∃ f, fuel = f + 2 := ⟨fuel - 2, by omega⟩
  have hlen := (group_long n npt u h0).mpr h
  have hb : (fun i => (u i).isNone) 0 = false := by
    cases h : u 0 with
    | none => exact absurd h h0
    | some x => simp [h]
  have hruns := group_partial n (fun i => (u i).isNone) ((npt / 10 : ℕ) : ℤ) (.inl hb)
  obtain ⟨hreg, hpw⟩ := gnRegions_spec n npt u h0 _ hruns (by
    intro h'; rw [h'] at hlen; simp at hlen)
  have hg : ∀ lo hi, Stretch n npt u lo hi →
      ∃ r, gnFull T npt (f + 1) (hi - lo) (fun j => u (lo + j)) = some r ∧ JudgedAlone T npt u lo hi r := by
    intro lo hi hst
    obtain ⟨-, g2⟩ := stretch_plain npt n u h0 lo hi hst
    obtain ⟨r, r1, r2⟩ := despike_unsplit T npt (hi - lo) hnpt (by have := hst.lt; omega)
      (fun j => u (lo + j)) (.inr g2) (f + 1) (by omega)
    refine ⟨r, r1, ?_⟩
    cases r with
    | error e =>
      unfold JudgedAlone at r2 ⊢
      simp only [Nat.sub_zero, Nat.zero_add] at r2
      exact r2
    | ok mask =>
      unfold JudgedAlone at r2 ⊢
      simp only [Nat.sub_zero, Nat.zero_add] at r2
      exact r2
  obtain ⟨r, h1, h2⟩ := gnJoin_spec (fun lo hi => gnFull T npt (f + 1) (hi - lo) fun j => u (lo + j))
    (gnRegions n (group n (fun i => (u i).isNone) ((npt / 10 : ℕ) : ℤ))) (fun _ => false) hpw
    (fun p hp => by obtain ⟨r, r1, -⟩ := hg p.1 p.2 ((hreg p).mp hp); exact ⟨r, r1⟩)
  refine ⟨r, ?_, ?_⟩
  · rw [← h1, show f + 2 = (f + 1) + 1 from rfl, gnFull]
    rw [if_pos hlen]
  · cases r with
    | error e =>
      obtain ⟨p, hp, h3⟩ := h2
      obtain ⟨r, r1, r2⟩ := hg p.1 p.2 ((hreg p).mp hp)
      have : r = .error e := Option.some.inj (r1.symm.trans h3)
      exact ⟨p.1, p.2, (hreg p).mp hp, this ▸ r2⟩
    | ok mask =>
      simp only at h2 ⊢
      refine ⟨?_, ?_⟩
      · intro lo hi hst
        obtain ⟨g, g1, g2⟩ := h2.1 (lo, hi) ((hreg (lo, hi)).mpr hst)
        obtain ⟨r, r1, r2⟩ := hg lo hi hst
        have : r = .ok g := Option.some.inj (r1.symm.trans g1)
        subst this
        intro i hi'
        obtain ⟨f', f1, f2⟩ := r2 i hi'
        refine ⟨f', f1, ?_⟩
        rw [← f2]
        beta_reduce
        have := g2 (lo + i) (by simp only; omega) (by simp only; omega)
        simp only at this
        rw [this]
        congr 1
        omega
      · intro s t hgap i hi1 hi2
        refine h2.2 i fun p hp => ?_
        rcases ((hreg p).mp hp).free s t hgap with h3 | h3 <;> omega

/-- C156 fails: a missing sample keeps every sample of its block from being flagged, in any record
that is judged as one. -/
theorem despike_missing_false (npt n : ℕ) (hnpt : 0 < npt) (hn : 0 < n) (u : ℕ → Option ℝ)
    (h : u 0 = none ∨ ¬ ManyGaps n npt u) (mask : ℕ → Bool) (fuel : ℕ)
    (hm : gnFull phaseSpace npt fuel n u = some (.ok mask)) (i j : ℕ) (hi : i < n)
    (hj : u j = none) (h1 : (blockOf n npt i).1 ≤ j) (h2 : j < (blockOf n npt i).1 + (blockOf n npt i).2) :
    mask i = false := by
  have hf : 1 ≤ fuel := by
    cases fuel with
    | zero => cases hm
    | succ f => omega
  obtain ⟨r, r1, r2⟩ := despike_unsplit phaseSpace npt n hnpt hn u h fuel hf
  obtain rfl : r = .ok mask := Option.some.inj (r1.symm.trans hm)
  obtain ⟨f, f1, f2⟩ := r2 i (by omega)
  simp only [Nat.sub_zero, Nat.zero_add] at f1 f2
  rw [phase_missing _ _ (j - (blockOf n npt i).1) (by omega)
    (by rw [show (blockOf n npt i).1 + (j - (blockOf n npt i).1) = j by omega]; exact hj)] at f1
  rw [f2, ← Except.ok.inj f1]

/-- C155, C156: in a record that fits into one block, a lone spike is found whatever its height; with
one sample missing anywhere, it and everything else is passed over. -/
theorem gap_hides_spike_false (npt n k j : ℕ) (hk : 4 ≤ k) (hkn : k + 5 ≤ n) (hn : n ≤ npt) (hj : j < n)
    (c h : ℝ) (hh : h ≠ 0) (fuel : ℕ) (hf : 1 ≤ fuel) :
    (∃ mask, gnFull phaseSpace npt fuel n (fun i => some (if i = k then c + h else c)) = some (.ok mask) ∧
      mask k = true) ∧
    ∃ mask, gnFull phaseSpace npt fuel n
        (fun i => if i = j then none else some (if i = k then c + h else c)) = some (.ok mask) ∧
      ∀ i < n, mask i = false := by
  have hblk : ∀ i, blockOf n npt i = (0, n) := by
    intro i
    unfold blockOf
    rw [if_pos (by omega), Prod.mk.injEq]
    omega
  constructor
  · obtain ⟨r, r1, r2⟩ := despike_unsplit phaseSpace npt n (by omega) (by omega)
      (fun i => some (if i = k then c + h else c)) (.inr (by
        rintro ⟨s, t, -, -, -, -, ⟨hr, -⟩, -⟩
        have := hr.inside s le_rfl hr.lt
        simp at this)) fuel hf
    obtain ⟨mask, m1, m2⟩ := lone_spike_found n k hk hkn c h hh
    have hT : phaseSpace n (fun i => some (if i = k then c + h else c)) = .ok mask := by
      unfold phaseSpace
      rw [if_neg (by simp)]
      exact m1
    unfold JudgedAlone at r2
    simp only [Nat.sub_zero, Nat.zero_add, hblk] at r2
    cases r with
    | error e =>
      obtain ⟨i, -, h2⟩ := r2
      rw [hT] at h2
      cases h2
    | ok mask' =>
      refine ⟨mask', r1, ?_⟩
      obtain ⟨f, f1, f2⟩ := r2 k (by omega)
      rw [hT] at f1
      rw [f2, ← Except.ok.inj f1]
      exact m2
  · have hmg : ¬ ManyGaps n npt (fun i => if i = j then none else some (if i = k then c + h else c)) := by
      rintro ⟨s, t, s', t', -, -, ⟨hr, -⟩, ⟨hr', -⟩, -, hlt, -⟩
      have h1 := hr.inside s le_rfl hr.lt
      have h2 := hr'.inside s' le_rfl hr'.lt
      have h3 := hr.lt
      simp only at h1 h2
      have h4 : s = j := by
        by_contra hne
        rw [if_neg hne] at h1
        cases h1
      have h5 : s' = j := by
        by_contra hne
        rw [if_neg hne] at h2
        cases h2
      omega
    obtain ⟨r, r1, r2⟩ := despike_unsplit phaseSpace npt n (by omega) (by omega) _ (.inr hmg) fuel hf
    have hT : phaseSpace n (fun i => if i = j then none else some (if i = k then c + h else c)) =
        .ok fun _ => false := phase_missing n _ j hj (by simp)
    cases r with
    | error e =>
      exfalso
      obtain ⟨i, -, h2⟩ := r2
      simp only [Nat.sub_zero, Nat.zero_add, hblk] at h2
      rw [hT] at h2
      cases h2
    | ok mask =>
      exact ⟨mask, r1, fun i hi => despike_missing_false npt n (by omega) (by omega) _ (.inr hmg) mask fuel r1
        i j hi (by simp) (by rw [hblk]; simp) (by rw [hblk]; simpa using hj)⟩

/-- A record of 21 samples, blocks of 10: gaps at 5, 10, 15. -/
example : ManyGaps 21 10 (fun i => if i = 5 ∨ i = 10 ∨ i = 15 then none else some (i : ℝ)) ∧
    Stretch 21 10 (fun i => if i = 5 ∨ i = 10 ∨ i = 15 then none else some (i : ℝ)) 6 10 := by
  have hrun : ∀ s, s = 5 ∨ s = 10 ∨ s = 15 →
      LongGap 21 10 (fun i => if i = 5 ∨ i = 10 ∨ i = 15 then none else some (i : ℝ)) s (s + 1) := by
    intro s hs
    refine ⟨⟨by omega, by omega, ?_, ?_, ?_⟩, by omega⟩
    · intro j h1 h2
      obtain rfl : j = s := by omega
      simp [hs]
    · right; beta_reduce; rw [if_neg (by omega)]; rfl
    · right; beta_reduce; rw [if_neg (by omega)]; rfl
  refine ⟨⟨5, 6, 10, 11, 15, 16, hrun 5 (by simp), hrun 10 (by simp), hrun 15 (by simp), by omega, by omega⟩, ?_⟩
  refine ⟨by omega, by omega, .inr ⟨5, hrun 5 (by simp)⟩, .inr ⟨11, hrun 10 (by simp)⟩, ?_⟩
  intro s t hg
  by_contra hc
  have h1 := hg.1.lt
  have h2 := hg.1.inside (max s 6) (by omega) (by omega)
  beta_reduce at h2
  split_ifs at h2 with h3
  · omega
  · simp at h2

/-- A record of 20 samples with a spike of height -3 at sample 7, and the same with sample 15
missing. -/
example : (∃ mask, gnFull phaseSpace 5000 1 20 (fun i => some (if i = 7 then 1 + -3 else 1)) = some (.ok mask) ∧
      mask 7 = true) ∧
    ∃ mask, gnFull phaseSpace 5000 1 20
        (fun i => if i = 15 then none else some (if i = 7 then 1 + -3 else 1)) = some (.ok mask) ∧
      ∀ i < 20, mask i = false :=
  gap_hides_spike_false 5000 20 7 15 (by norm_num) (by norm_num) (by norm_num) (by norm_num)
    1 (-3) (by norm_num) 1 le_rfl

end Dolfyn
