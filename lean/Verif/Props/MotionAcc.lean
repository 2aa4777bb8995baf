import Verif.Props.Motion
import Mathlib.Tactic.FieldSimp

/-!
C126: translational motion of the head from the accelerometer; C77: probe positions.
-/

namespace Dolfyn
open Finset

/-! ### Filter frequencies -/

/-- C126: an argument wins over the attribute of the dataset; without either the acceleration filter is
0.03 Hz and the velocity filter a third of the acceleration filter in use. -/
theorem filtfreqs_spec (attrA attrV : Option ℝ) (a v : ℝ) :
    checkFiltfreqs attrA attrV (some a) (some v) = (a, v) ∧
    checkFiltfreqs attrA (some v) (some a) none = (a, v) ∧
    checkFiltfreqs attrA none (some a) none = (a, a / 3) ∧
    checkFiltfreqs (some a) attrV none (some v) = (a, v) ∧
    checkFiltfreqs (some a) (some v) none none = (a, v) ∧
    checkFiltfreqs (some a) none none none = (a, a / 3) ∧
    checkFiltfreqs none none none none = (0.03, 0.01) := by
  refine ⟨rfl, rfl, rfl, rfl, rfl, rfl, ?_⟩
  unfold checkFiltfreqs
  simp
  norm_num

/-! ### Integration -/

/-- Position along a time axis of `fs` samples per second. -/
noncomputable def Spec.at (fs : ℝ) (t : ℕ) : ℝ := t / fs

theorem cumTrap_linear (fs p q : ℝ) (t : ℕ) :
    cumTrap fs (fun j => p + q * Spec.at fs j) t = p * Spec.at fs t + q * Spec.at fs t ^ 2 / 2 := by
  unfold cumTrap Spec.at
  induction t with
  | zero => simp
  | succ t ih =>
    rw [sum_range_succ, ih]
    push_cast
    ring

/-- C126: without a velocity filter the velocity of a body whose acceleration (less its low-passed part)
is `p + q·t` is `p·t + q·t²/2` from the start of the record: the integral. -/
theorem velacc_integral (F : Filters) (fs : ℝ) (n : ℕ) (acc low : ℕ → ℝ) (p q : ℝ)
    (h : ∀ j, acc j - low j = p + q * Spec.at fs j) :
    ∃ v, velAcc F fs 0 n acc low = .ok v ∧ ∀ t, v t = p * Spec.at fs t + q * Spec.at fs t ^ 2 / 2 := by
  refine ⟨cumTrap fs fun j => acc j - low j, by simp [velAcc], fun t => ?_⟩
  rw [← cumTrap_linear]
  congr 1
  funext j
  exact h j

/-- C126: with a velocity filter the result is that integral less its own low-passed part. -/
theorem velacc_highpass (F : Filters) (fs fv : ℝ) (hfv : 0 < fv) (n : ℕ) (acc low v : ℕ → ℝ)
    (h : velAcc F fs fv n acc low = .ok v) :
    ∃ u l, velAcc F fs 0 n acc low = .ok u ∧ F.lp2 (fv / (fs / 2)) n u = .ok l ∧ ∀ t, v t + l t = u t := by
  unfold velAcc at h
  simp only at h
  rw [if_pos hfv] at h
  refine ⟨cumTrap fs fun j => acc j - low j, ?_⟩
  cases hl : F.lp2 (fv / (fs / 2)) n (cumTrap fs fun j => acc j - low j) with
  | error e => rw [hl] at h; cases h
  | ok l =>
    rw [hl] at h
    cases h
    exact ⟨l, by simp [velAcc], rfl, fun t => by ring⟩

/-- C126: the integral is linear and increments by the mean of neighbouring accelerations over a sample. -/
theorem velacc_step (F : Filters) (fs : ℝ) (n : ℕ) (acc low : ℕ → ℝ) :
    ∃ v, velAcc F fs 0 n acc low = .ok v ∧ v 0 = 0 ∧
      ∀ t, v (t + 1) - v t = ((acc t - low t) + (acc (t + 1) - low (t + 1))) / 2 / fs := by
  refine ⟨cumTrap fs fun j => acc j - low j, by simp [velAcc], by simp [cumTrap], fun t => ?_⟩
  unfold cumTrap
  rw [sum_range_succ]
  ring

/-- The hypotheses hold for a constant excess of 2 m/s² at 16 Hz: 4 m/s after 2 s. -/
example (F : Filters) : ∃ v, velAcc F 16 0 100 (fun _ => 11) (fun _ => 9) = .ok v ∧ v 32 = 4 := by
  obtain ⟨v, h1, h2⟩ := velacc_integral F 16 100 (fun _ => 11) (fun _ => 9) 2 0 (by intro j; norm_num)
  refine ⟨v, h1, ?_⟩
  rw [h2]
  norm_num [Spec.at]

/-- A filter that passes half of the signal. -/
example : ∃ v, velAcc ⟨fun _ _ x => .ok x, fun _ _ x => .ok fun t => x t / 2⟩ 16 (1 / 10) 100 (fun _ => 11)
    (fun _ => 9) = .ok v := by
  refine ⟨fun t => cumTrap 16 (fun _ => 11 - 9) t - cumTrap 16 (fun _ => 11 - 9) t / 2, ?_⟩
  simp [velAcc, Except.map]

/-! ### C77: geometry of the receivers -/

/-- C77: the receivers lie 76 mm from the axis, at -30° (below the plane of the head position), and at equal
angles: their mean is on the axis. -/
theorem probe_geometry (hv : Fin 3 → ℝ) :
    (∀ k, (probePos 1 hv k 0 - hv 0) ^ 2 + (probePos 1 hv k 1 - hv 1) ^ 2 = 0.076 ^ 2) ∧
    (∀ k, probePos 1 hv k 2 - hv 2 = -(0.076 / Real.sqrt 3)) ∧
    (∑ k, (probePos 1 hv k 0 - hv 0) = 0) ∧ (∑ k, (probePos 1 hv k 1 - hv 1) = 0) := by
  have h30 : Real.tan (deg2rad (-30)) = -(1 / Real.sqrt 3) := by
    unfold deg2rad
    rw [show (-30 : ℝ) * (Real.pi / 180) = -(Real.pi / 6) by ring, Real.tan_neg, Real.tan_pi_div_six]
  have c0 : deg2rad 0 = 0 := by simp [deg2rad]
  have hc120 : Real.cos (deg2rad 120) = -(1 / 2) := by
    unfold deg2rad
    rw [show (120 : ℝ) * (Real.pi / 180) = Real.pi - Real.pi / 3 by ring, Real.cos_pi_sub, Real.cos_pi_div_three]
  have hs120 : Real.sin (deg2rad 120) = Real.sqrt 3 / 2 := by
    unfold deg2rad
    rw [show (120 : ℝ) * (Real.pi / 180) = Real.pi - Real.pi / 3 by ring, Real.sin_pi_sub, Real.sin_pi_div_three]
  have hc240 : Real.cos (deg2rad 240) = -(1 / 2) := by
    unfold deg2rad
    rw [show (240 : ℝ) * (Real.pi / 180) = Real.pi / 3 + Real.pi by ring, Real.cos_add_pi, Real.cos_pi_div_three]
  have hs240 : Real.sin (deg2rad 240) = -(Real.sqrt 3 / 2) := by
    unfold deg2rad
    rw [show (240 : ℝ) * (Real.pi / 180) = Real.pi / 3 + Real.pi by ring, Real.sin_add_pi, Real.sin_pi_div_three]
  have sq : Real.sqrt 3 ^ 2 = 3 := Real.sq_sqrt (by norm_num)
  have e0 : ∀ k, probePos 1 hv k 0 - hv 0 = 0.076 * Real.cos (deg2rad (![0, 120, 240] k)) := by
    intro k; simp [probePos]
  have e1 : ∀ k, probePos 1 hv k 1 - hv 1 = 0.076 * Real.sin (deg2rad (![0, 120, 240] k)) := by
    intro k; simp [probePos]
  have e2 : ∀ k, probePos 1 hv k 2 - hv 2 = 0.076 * Real.tan (deg2rad (-30)) := by
    intro k; simp [probePos]
  refine ⟨fun k => ?_, fun k => ?_, ?_, ?_⟩
  · rw [e0, e1, mul_pow, mul_pow, ← mul_add, Real.cos_sq_add_sin_sq, mul_one]
  · rw [e2, h30]; ring
  · simp only [e0, Fin.sum_univ_three]
    simp [c0, hc120, hc240]
    ring
  · simp only [e1, Fin.sum_univ_three]
    simp [c0, hs120, hs240]

end Dolfyn
