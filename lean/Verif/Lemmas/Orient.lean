import Verif.Model.Orient
import Verif.Spec.Orient
import Verif.Lemmas.Rotate
import Mathlib.Tactic.LinearCombination
import Mathlib.Tactic.FieldSimp
import Mathlib.Tactic.FinCases
import Mathlib.Tactic.Positivity

namespace Dolfyn

open Spec

theorem deg2rad_eq (x : ℝ) : deg2rad x = x * Real.pi / 180 := by unfold deg2rad; ring

theorem rad2deg_deg2rad (x : ℝ) : rad2deg (deg2rad x) = x := by
  unfold rad2deg deg2rad
  have := Real.pi_ne_zero
  field_simp

theorem deg2rad_rad2deg (x : ℝ) : deg2rad (rad2deg x) = x := by
  unfold rad2deg deg2rad
  have := Real.pi_ne_zero
  field_simp

theorem cos_deg2rad (x : ℝ) : Real.cos (deg2rad x) = cosd x := by rw [deg2rad_eq]; rfl
theorem sin_deg2rad (x : ℝ) : Real.sin (deg2rad x) = sind x := by rw [deg2rad_eq]; rfl

theorem cosd_sq_add (x : ℝ) : cosd x ^ 2 + sind x ^ 2 = 1 := Real.cos_sq_add_sin_sq _

theorem fmod_nonneg (x : ℝ) {m : ℝ} (hm : 0 < m) : 0 ≤ fmod x m := by
  unfold fmod
  have := Int.floor_le (x / m)
  rw [le_div_iff₀ hm] at this
  linarith

theorem fmod_lt (x : ℝ) {m : ℝ} (hm : 0 < m) : fmod x m < m := by
  unfold fmod
  have := Int.lt_floor_add_one (x / m)
  rw [div_lt_iff₀ hm] at this
  linarith

theorem fmod_same (x : ℝ) : SameDir (fmod x 360) x := ⟨-⌊x / 360⌋, by unfold fmod; push_cast; ring⟩

theorem fmod_eq_of {x y m : ℝ} (hm : 0 < m) (h0 : 0 ≤ y) (h1 : y < m) (k : ℤ) (hk : x - y = m * k) :
    fmod x m = y := by
  unfold fmod
  have : ⌊x / m⌋ = k := by
    rw [Int.floor_eq_iff]
    constructor
    · rw [le_div_iff₀ hm]; linarith
    · rw [div_lt_iff₀ hm]; linarith
  rw [this]; linarith

theorem fmod_congr {x y : ℝ} (h : SameDir x y) : fmod x 360 = fmod y 360 := by
  obtain ⟨k, hk⟩ := h
  apply fmod_eq_of (by norm_num) (fmod_nonneg _ (by norm_num)) (fmod_lt _ (by norm_num)) (k + ⌊y / 360⌋)
  unfold fmod; push_cast; linarith

theorem Spec.SameDir.symm' {a b : ℝ} (h : SameDir a b) : SameDir b a := by
  obtain ⟨k, hk⟩ := h; exact ⟨-k, by push_cast; linarith⟩

theorem Spec.SameDir.trans' {a b c : ℝ} (h : SameDir a b) (h' : SameDir b c) : SameDir a c := by
  obtain ⟨k, hk⟩ := h; obtain ⟨l, hl⟩ := h'; exact ⟨k + l, by push_cast; linarith⟩

theorem cosd_congr {a b : ℝ} (h : SameDir a b) : cosd a = cosd b := by
  obtain ⟨k, hk⟩ := h
  unfold cosd
  rw [show a * Real.pi / 180 = b * Real.pi / 180 + k * (2 * Real.pi) by
    rw [show a = b + 360 * k by linarith]; ring]
  exact Real.cos_add_int_mul_two_pi _ _

theorem sind_congr {a b : ℝ} (h : SameDir a b) : sind a = sind b := by
  obtain ⟨k, hk⟩ := h
  unfold sind
  rw [show a * Real.pi / 180 = b * Real.pi / 180 + k * (2 * Real.pi) by
    rw [show a = b + 360 * k by linarith]; ring]
  exact Real.sin_add_int_mul_two_pi _ _

/-- Angles with the same sine and cosine point the same way. -/
theorem sameDir_of_trig {a b : ℝ} (hc : cosd a = cosd b) (hs : sind a = sind b) : SameDir a b := by
  unfold cosd sind at *
  have h1 : Real.cos (a * Real.pi / 180 - b * Real.pi / 180) = 1 := by
    rw [Real.cos_sub, hc, hs, ← sq, ← sq, Real.cos_sq_add_sin_sq]
  obtain ⟨k, hk⟩ := (Real.cos_eq_one_iff _).mp h1
  refine ⟨k, ?_⟩
  have hpi := Real.pi_ne_zero
  have : (a - b) * Real.pi = 360 * k * Real.pi := by
    have : (a * Real.pi / 180 - b * Real.pi / 180) * 180 = (k * (2 * Real.pi)) * 180 := by rw [hk]
    linarith
  exact mul_right_cancel₀ hpi this

/-- `arctan2 (c sin x) (c cos x)` is `x` for `c > 0` and `x` in `(-π, π]`. -/
theorem arctan2_polar {c x : ℝ} (hc : 0 < c) (hx : x ∈ Set.Ioc (-Real.pi) Real.pi) :
    arctan2 (c * Real.sin x) (c * Real.cos x) = x := by
  unfold arctan2
  have : (⟨c * Real.cos x, c * Real.sin x⟩ : ℂ) = c * (Complex.cos x + Complex.sin x * Complex.I) := by
    apply Complex.ext <;> simp [← Complex.ofReal_cos, ← Complex.ofReal_sin]
  rw [this]
  exact Complex.arg_mul_cos_add_sin_mul_I hc hx

/-- Polar form of `arctan2`. -/
theorem arctan2_spec (y x : ℝ) : Real.sqrt (x ^ 2 + y ^ 2) * Real.cos (arctan2 y x) = x ∧
    Real.sqrt (x ^ 2 + y ^ 2) * Real.sin (arctan2 y x) = y := by
  unfold arctan2
  have hn : ‖(⟨x, y⟩ : ℂ)‖ = Real.sqrt (x ^ 2 + y ^ 2) := by
    rw [Complex.norm_def, Complex.normSq_mk]; congr 1; ring
  constructor
  · have := Complex.norm_mul_cos_arg ⟨x, y⟩
    rwa [hn] at this
  · have := Complex.norm_mul_sin_arg ⟨x, y⟩
    rwa [hn] at this

/-- The nine entries of `euler2orient`. -/
theorem euler2orient_entries (h p r : ℝ) : euler2orient h p r =
    !![sind h * cosd p, cosd h * cosd p, sind p;
       -(sind h * sind p * sind r) - cosd h * cosd r, -(cosd h * sind p * sind r) + sind h * cosd r, sind r * cosd p;
       -(sind h * cosd r * sind p) + cosd h * sind r, -(cosd h * cosd r * sind p) - sind h * sind r,
        cosd p * cosd r] := by
  unfold euler2orient
  simp only [Real.cos_neg, Real.sin_neg, Real.cos_pi_div_two_sub, Real.sin_pi_div_two_sub, cos_deg2rad,
    sin_deg2rad]
  ext i j
  fin_cases i <;> fin_cases j <;>
    simp [Matrix.mul_apply, Fin.sum_univ_three] <;> ring

theorem nortekOrient_entries (h p r : ℝ) : nortekOrient h p r =
    !![sind h * cosd p, cosd h * cosd p, sind p;
       -(sind h * sind p * sind r) - cosd h * cosd r, -(cosd h * sind p * sind r) + sind h * cosd r, sind r * cosd p;
       -(sind h * cosd r * sind p) + cosd h * sind r, -(cosd h * cosd r * sind p) - sind h * sind r,
        cosd p * cosd r] := by
  unfold nortekOrient
  simp only [Real.cos_pi_div_two_sub, Real.sin_pi_div_two_sub, cos_deg2rad, sin_deg2rad]
  ext i j
  fin_cases i <;> fin_cases j <;> simp

theorem cosd_pos {p : ℝ} (h : |p| < 90) : 0 < cosd p := by
  rw [abs_lt] at h
  have := Real.pi_pos
  apply Real.cos_pos_of_mem_Ioo
  constructor <;> nlinarith

theorem Spec.IsRotation.mul {A B : M3} (hA : IsRotation A) (hB : IsRotation B) : IsRotation (A * B) := by
  refine ⟨?_, by rw [Matrix.det_mul, hA.2, hB.2, one_mul]⟩
  have h1 : A * A.transpose = 1 := hA.1
  have h2 : B * B.transpose = 1 := hB.1
  unfold Orthonormal
  rw [Matrix.transpose_mul, Matrix.mul_assoc, ← Matrix.mul_assoc B, h2, Matrix.one_mul, h1]

theorem Spec.IsRotation.transpose {A : M3} (hA : IsRotation A) : IsRotation A.transpose := by
  refine ⟨?_, by rw [Matrix.det_transpose, hA.2]⟩
  unfold Orthonormal
  rw [Matrix.transpose_transpose]
  exact orth_comm hA.1

theorem rotZ_isRotation (c s : ℝ) (h : c ^ 2 + s ^ 2 = 1) :
    IsRotation (!![c, s, 0; -s, c, 0; 0, 0, 1] : M3) := by
  constructor
  · unfold Orthonormal
    ext i j
    fin_cases i <;> fin_cases j <;> simp [Matrix.mul_apply, Fin.sum_univ_three] <;> linarith
  · rw [Matrix.det_fin_three]; simp; linarith

theorem rotY_isRotation (c s : ℝ) (h : c ^ 2 + s ^ 2 = 1) :
    IsRotation (!![c, 0, -s; 0, 1, 0; s, 0, c] : M3) := by
  constructor
  · unfold Orthonormal
    ext i j
    fin_cases i <;> fin_cases j <;> simp [Matrix.mul_apply, Fin.sum_univ_three] <;> linarith
  · rw [Matrix.det_fin_three]; simp; linarith

theorem rotX_isRotation (c s : ℝ) (h : c ^ 2 + s ^ 2 = 1) :
    IsRotation (!![1, 0, 0; 0, c, s; 0, -s, c] : M3) := by
  constructor
  · unfold Orthonormal
    ext i j
    fin_cases i <;> fin_cases j <;> simp [Matrix.mul_apply, Fin.sum_univ_three] <;> linarith
  · rw [Matrix.det_fin_three]; simp; linarith

end Dolfyn
