import Verif.Model.TurbAcc
import Verif.Props.Turb

/-! C119: turbulent kinetic energy, coherent energy and intensities. -/

namespace Dolfyn

/-- **C119 (part).** With all three variances present the energy is half their sum. Missing: NaN (see below). -/
theorem tkeOf_partial (v : Fin 3 → Option ℝ) (x y z : ℝ) (h0 : v 0 = some x) (h1 : v 1 = some y) (h2 : v 2 = some z) :
    2 * tkeOf v = x + y + z := by
  unfold tkeOf
  rw [h0, h1, h2]
  simp only [Option.getD_some]
  ring

/-- **C119.** Refuted: when all variances are missing the energy is reported as zero, not as missing, and so is the
intensity. -/
theorem tkeOf_missing_false (u : ℝ) (hu : u ≠ 0) :
    tkeOf (fun _ => none) = 0 ∧ iTke (fun _ => none) (some u) = some 0 := by
  unfold iTke tkeOf
  simp [npSqrt, npDiv, opt2, hu]

/-- **C119.** The intensity times the speed, squared, is the sum of the variances. -/
theorem iTke_spec (v : Fin 3 → Option ℝ) (x y z u : ℝ) (h0 : v 0 = some x) (h1 : v 1 = some y) (h2 : v 2 = some z)
    (hs : 0 ≤ x + y + z) (hu : 0 < u) :
    ∃ i, iTke v (some u) = some i ∧ 0 ≤ i ∧ (i * u) ^ 2 = x + y + z := by
  unfold iTke
  rw [tkeOf_partial v x y z h0 h1 h2]
  refine ⟨Real.sqrt (x + y + z) / u, ?_, by positivity, ?_⟩
  · simp [npSqrt, npDiv, not_lt.mpr hs, hu.ne']
  · rw [div_mul_cancel₀ _ hu.ne', Real.sq_sqrt hs]

/-- **C119.** The coherent energy is the root of the sum of the squared stresses, defined exactly if all are. -/
theorem eCoh_spec (s : Fin 3 → Option ℝ) (e : ℝ) :
    eCoh s = some e ↔ ∃ a b c, s 0 = some a ∧ s 1 = some b ∧ s 2 = some c ∧ 0 ≤ e ∧ e ^ 2 = a ^ 2 + b ^ 2 + c ^ 2 := by
  unfold eCoh
  constructor
  · intro h
    cases h0 : s 0 with
    | none => rw [h0] at h; cases h1 : s 1 <;> rw [h1] at h <;> simp [opt2] at h
    | some a =>
      cases h1 : s 1 with
      | none => rw [h0, h1] at h; simp [opt2] at h
      | some b =>
        cases h2 : s 2 with
        | none => rw [h0, h1, h2] at h; simp [opt2] at h
        | some c =>
          rw [h0, h1, h2] at h
          simp only [opt2, Option.map_some, Option.some.injEq] at h
          refine ⟨a, b, c, rfl, rfl, rfl, ?_, ?_⟩
          · rw [← h]; exact Real.sqrt_nonneg _
          · rw [← h, Real.sq_sqrt (by positivity)]; ring
  · rintro ⟨a, b, c, h0, h1, h2, he, h⟩
    rw [h0, h1, h2]
    simp only [opt2, Option.map_some, Option.some.injEq]
    rw [show b ^ 2 + a ^ 2 + c ^ 2 = e ^ 2 by rw [h]; ring, Real.sqrt_sq he]

/-- **C119.** For velocities whose components are missing together, the coherent energy of every bin is at most `2/√3`
times its turbulent kinetic energy. -/
theorem eCoh_le_tke (b : Binner) (dt : Bool) (len : ℕ) (vel : Fin 3 → ℕ → Option ℝ)
    (hmask : ∀ p q i, (vel p i).isSome = (vel q i).isSome)
    (tke stress : Fin 3 → List (Option ℝ)) (ht : calcTke b true none dt len vel = .ok tke)
    (hs : calcStress b dt len vel = .ok stress) (r : ℕ) (hr : r < (tke 0).length) (e : ℝ)
    (he : eCoh (fun i => ((stress i)[r]?).getD none) = some e) :
    3 * e ^ 2 ≤ 4 * tkeOf (fun i => ((tke i)[r]?).getD none) ^ 2 := by
  obtain ⟨a, c, d, h0, h1, h2, -, h⟩ := (eCoh_spec _ _).mp he
  have k0 := (stress_cauchy_schwarz_partial b dt len vel hmask tke stress ht hs 0 0 1 (by simp [Spec.StressOf])).2.2 r hr
  have k1 := (stress_cauchy_schwarz_partial b dt len vel hmask tke stress ht hs 1 0 2 (by simp [Spec.StressOf])).2.2 r hr
  have hl := (stress_cauchy_schwarz_partial b dt len vel hmask tke stress ht hs 0 0 1 (by simp [Spec.StressOf])).2.1
  have k2 := (stress_cauchy_schwarz_partial b dt len vel hmask tke stress ht hs 2 1 2 (by simp [Spec.StressOf])).2.2 r
    (hl ▸ hr)
  rcases k0 with ⟨k0, -, -⟩ | ⟨c0, u, v, k0, ku, kv, b0⟩
  · rw [k0] at h0; cases h0
  rcases k1 with ⟨k1, -, -⟩ | ⟨c1, u', w, k1, ku', kw, b1⟩
  · rw [k1] at h1; cases h1
  rcases k2 with ⟨k2, -, -⟩ | ⟨c2, v', w', k2, kv', kw', b2⟩
  · rw [k2] at h2; cases h2
  rw [k0] at h0; rw [k1] at h1; rw [k2] at h2
  simp only [Option.getD_some, Option.some.injEq] at h0 h1 h2
  rw [ku] at ku'; rw [kv] at kv'; rw [kw] at kw'
  simp only [Option.some.injEq] at ku' kv' kw'
  subst h0 h1 h2 ku' kv' kw'
  rw [h]
  have : tkeOf (fun i => ((tke i)[r]?).getD none) = (u + v + w) / 2 := by
    unfold tkeOf
    simp only [ku, kv, kw, Option.getD_some]
  rw [this]
  nlinarith [sq_nonneg (u - v), sq_nonneg (v - w), sq_nonneg (u - w)]

/-- The bound is attained: equal components have stresses equal to the variances. -/
example : (eCoh (fun _ => some 1)) = some (Real.sqrt 3) ∧ tkeOf (fun _ => some 1) = 3 / 2 := by
  constructor
  · unfold eCoh; simp [opt2]; norm_num
  · unfold tkeOf; norm_num

end Dolfyn
