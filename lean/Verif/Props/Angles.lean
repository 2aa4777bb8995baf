import Verif.Lemmas.Orient
import Verif.Props.Orient
import Mathlib.Data.List.ReduceOption

/-! Angle helpers: C13, C14, C15, and the orientation record of `_calc_omat` (C68). -/

namespace Dolfyn

open Spec

/-! ### C13 -/

theorem convertDegrees_same (d : ℝ) (t : Bool) : SameDir (convertDegrees d t) (90 - d) := by
  have h := fmod_same (-(d - 90))
  rw [show -(d - 90) = 90 - d by ring] at h
  unfold convertDegrees
  rw [show -(d - 90) = 90 - d by ring]
  cases t
  · exact h
  · simp only [if_true]
    split_ifs
    · obtain ⟨k, hk⟩ := h
      exact ⟨k - 1, by push_cast; linarith⟩
    · exact h

/-- **C13.** The result lies in [0, 360), or in (-180, 180] in tidal mode. -/
theorem convert_degrees_range (d : ℝ) :
    (0 ≤ convertDegrees d false ∧ convertDegrees d false < 360) ∧
    (-180 < convertDegrees d true ∧ convertDegrees d true ≤ 180) := by
  have h0 := fmod_nonneg (-(d - 90)) (m := 360) (by norm_num)
  have h1 := fmod_lt (-(d - 90)) (m := 360) (by norm_num)
  unfold convertDegrees
  refine ⟨⟨h0, h1⟩, ?_⟩
  simp only [if_true]
  split_ifs with h
  · constructor <;> linarith
  · constructor <;> linarith

theorem cosd_90_sub (d : ℝ) : cosd (90 - d) = sind d := by
  unfold cosd sind
  rw [show (90 - d) * Real.pi / 180 = Real.pi / 2 - d * Real.pi / 180 by ring, Real.cos_pi_div_two_sub]

theorem sind_90_sub (d : ℝ) : sind (90 - d) = cosd d := by
  unfold cosd sind
  rw [show (90 - d) * Real.pi / 180 = Real.pi / 2 - d * Real.pi / 180 by ring, Real.sin_pi_div_two_sub]

/-- **C13.** The same direction: the unit vector at `d` degrees counter-clockwise from east is the unit vector at the
returned angle clockwise from north. -/
theorem convert_degrees_direction (d : ℝ) (t : Bool) :
    sind (convertDegrees d t) = cosd d ∧ cosd (convertDegrees d t) = sind d := by
  rw [sind_congr (convertDegrees_same d t), cosd_congr (convertDegrees_same d t), sind_90_sub, cosd_90_sub]
  exact ⟨rfl, rfl⟩

/-- **C13.** Converting twice gives the original direction, in any combination of modes. -/
theorem convert_degrees_twice (d : ℝ) (t t' : Bool) : SameDir (convertDegrees (convertDegrees d t) t') d := by
  obtain ⟨k, hk⟩ := convertDegrees_same d t
  obtain ⟨l, hl⟩ := convertDegrees_same (convertDegrees d t) t'
  exact ⟨l - k, by push_cast; linarith⟩

/-- **C13.** For an angle already in [0, 360) two conversions give it back exactly. -/
theorem convert_degrees_involutive (d : ℝ) (h0 : 0 ≤ d) (h1 : d < 360) (t : Bool) :
    convertDegrees (convertDegrees d t) false = d := by
  obtain ⟨⟨a, b⟩, _⟩ := convert_degrees_range (convertDegrees d t)
  obtain ⟨k, hk⟩ := convert_degrees_twice d t false
  have hk1 : (k : ℝ) < 1 := by linarith
  have hk2 : (-1 : ℝ) < k := by linarith
  have : k = 0 := by
    have : k < 1 := by exact_mod_cast hk1
    have : -1 < k := by exact_mod_cast hk2
    omega
  rw [this] at hk; push_cast at hk; linarith

/-- **C13.** East is 90, north is 0. -/
theorem convert_degrees_east_north (t : Bool) : convertDegrees 0 t = 90 ∧ convertDegrees 90 t = 0 := by
  have e : fmod (-(0 - 90)) 360 = 90 := fmod_eq_of (by norm_num) (by norm_num) (by norm_num) 0 (by norm_num)
  have n : fmod (-(90 - 90)) 360 = 0 := fmod_eq_of (by norm_num) (by norm_num) (by norm_num) 0 (by norm_num)
  unfold convertDegrees
  rw [e, n]
  cases t <;> norm_num

/-! ### C14 -/

theorem cosd_arg_deg (z : ℂ) : ‖z‖ * cosd (Complex.arg z * (180 / Real.pi)) = z.re ∧
    ‖z‖ * sind (Complex.arg z * (180 / Real.pi)) = z.im := by
  have e : Complex.arg z * (180 / Real.pi) * Real.pi / 180 = Complex.arg z := by
    have := Real.pi_ne_zero; field_simp
  unfold cosd sind
  rw [e]
  exact ⟨Complex.norm_mul_cos_arg z, Complex.norm_mul_sin_arg z⟩

/-- **C14.** In the earth frame speed and direction reconstruct (u, v), and the direction is in [0, 360). -/
theorem u_dir_earth (u v : ℝ) :
    uMag u v * sind (uDir true u v) = u ∧ uMag u v * cosd (uDir true u v) = v ∧
    0 ≤ uDir true u v ∧ uDir true u v < 360 := by
  obtain ⟨h1, h2⟩ := cosd_arg_deg (velU u v)
  have hr := (convert_degrees_range (Complex.arg (velU u v) * (180 / Real.pi))).1
  unfold uMag
  have e : uDir true u v = convertDegrees (Complex.arg (velU u v) * (180 / Real.pi)) false := rfl
  rw [e, (convert_degrees_direction _ _).1, (convert_degrees_direction _ _).2]
  exact ⟨h1, h2, hr.1, hr.2⟩

/-- **C14.** In any other frame the direction is the angle clockwise from the first axis, in [0, 360). -/
theorem u_dir_other (u v : ℝ) :
    uMag u v * cosd (uDir false u v) = u ∧ uMag u v * sind (uDir false u v) = -v ∧
    0 ≤ uDir false u v ∧ uDir false u v < 360 := by
  obtain ⟨h1, h2⟩ := cosd_arg_deg (velU u v)
  have hneg : ∀ x, cosd (x * -1) = cosd x ∧ sind (x * -1) = -sind x := by
    intro x
    unfold cosd sind
    rw [show x * -1 * Real.pi / 180 = -(x * Real.pi / 180) by ring, Real.cos_neg, Real.sin_neg]
    exact ⟨rfl, rfl⟩
  have hpi := Real.pi_pos
  have a1 := Complex.neg_pi_lt_arg (velU u v)
  have a2 := Complex.arg_le_pi (velU u v)
  have b1 : -180 < Complex.arg (velU u v) * (180 / Real.pi) := by
    rw [mul_div_assoc', lt_div_iff₀ hpi]; linarith
  have b2 : Complex.arg (velU u v) * (180 / Real.pi) ≤ 180 := by
    rw [mul_div_assoc', div_le_iff₀ hpi]; linarith
  unfold uMag uDir
  simp only [Bool.false_eq_true, if_false]
  split_ifs with h
  · have hs : SameDir (Complex.arg (velU u v) * (180 / Real.pi) * -1 + 360)
        (Complex.arg (velU u v) * (180 / Real.pi) * -1) := ⟨1, by push_cast; ring⟩
    rw [cosd_congr hs, sind_congr hs, (hneg _).1, (hneg _).2, h1, mul_neg, h2]
    exact ⟨rfl, rfl, by linarith, by linarith⟩
  · rw [(hneg _).1, (hneg _).2, h1, mul_neg, h2]
    exact ⟨rfl, rfl, by linarith, by linarith⟩

/-! ### C15 -/

/-- The doubled-angle map of the tidal branch, in closed form. -/
theorem tidalFold_eq (z : ℂ) : tidalFold z * ‖z‖ = z ^ 2 := by
  have key : ∀ w : ℂ, w * Complex.exp (Complex.I * Complex.arg w) * ‖w‖ = w ^ 2 := by
    intro w
    have := Complex.norm_mul_exp_arg_mul_I w
    calc w * Complex.exp (Complex.I * Complex.arg w) * ‖w‖
        = w * (‖w‖ * Complex.exp (Complex.arg w * Complex.I)) := by rw [mul_comm Complex.I]; ring
      _ = w ^ 2 := by rw [this]; ring
  unfold tidalFold
  simp only
  split_ifs
  · have := key (z * -1)
    rw [norm_mul, norm_neg, norm_one, mul_one] at this
    rw [this]; ring
  · exact key z

theorem tidalFold_zero : tidalFold 0 = 0 := by simp [tidalFold]

theorem tidalFold_neg (z : ℂ) : tidalFold (-z) = tidalFold z := by
  by_cases h : z = 0
  · rw [h, neg_zero]
  · have hn : (‖z‖ : ℂ) ≠ 0 := by simpa using h
    have h1 := tidalFold_eq z
    have h2 := tidalFold_eq (-z)
    rw [norm_neg, neg_sq, ← h1] at h2
    exact mul_right_cancel₀ hn h2

/-- Reverse the samples marked by `flip`. -/
def Spec.reverseSome (flip : List Bool) (vel : List (Option (ℝ × ℝ))) : List (Option (ℝ × ℝ)) :=
  List.zipWith (fun b s => if b then s.map fun uv => (-uv.1, -uv.2) else s) flip vel

/-- **C15.** Reversing any subset of the samples does not change the tidal principal heading. -/
theorem principal_heading_reversal (vel : List (Option (ℝ × ℝ))) (flip : List Bool)
    (hl : flip.length = vel.length) :
    principalHeading true (reverseSome flip vel) = principalHeading true vel := by
  have key : ((reverseSome flip vel).filterMap fun s => s.map fun uv => (⟨uv.1, uv.2⟩ : ℂ)).map tidalFold
      = (vel.filterMap fun s => s.map fun uv => (⟨uv.1, uv.2⟩ : ℂ)).map tidalFold := by
    unfold reverseSome
    induction vel generalizing flip with
    | nil => simp
    | cons s vel ih =>
      cases flip with
      | nil => simp at hl
      | cons b flip =>
        have := ih flip (by simpa using hl)
        cases s with
        | none => cases b <;> simpa using this
        | some uv =>
          cases b
          · simpa using this
          · simp only [List.zipWith_cons_cons, if_true, List.filterMap_cons, Option.map_some, List.map_cons]
            rw [this]
            congr 1
            rw [← tidalFold_neg]
            congr 1
            apply Complex.ext <;> simp
  unfold principalHeading
  simp only [if_true]
  rw [key]

theorem rint_le {x : ℝ} {n : ℤ} (h : x ≤ n) : rint x ≤ n := by
  unfold rint
  have h1 := Int.floor_le x
  have h2 : ⌊x⌋ ≤ n := by
    have : (⌊x⌋ : ℝ) ≤ n := h1.trans h
    exact_mod_cast this
  have h3 : (1 / 2 : ℝ) ≤ Int.fract x → ⌊x⌋ + 1 ≤ n := by
    intro hf
    rcases lt_or_eq_of_le h2 with h' | h'
    · omega
    · exfalso
      have := Int.floor_add_fract x
      rw [h'] at this
      linarith
  split_ifs with a b c
  · exact h2
  · exact h3 b.le
  · exact h2
  · exact h3 (not_lt.mp a)

theorem le_rint {x : ℝ} {n : ℤ} (h : n ≤ x) : n ≤ rint x := by
  have : n ≤ ⌊x⌋ := Int.le_floor.mpr h
  unfold rint
  split_ifs <;> omega

theorem rint_near (x : ℝ) : |(rint x : ℝ) - x| ≤ 1 / 2 := by
  have h := Int.floor_add_fract x
  have h0 := Int.fract_nonneg x
  have h1 := Int.fract_lt_one x
  rw [abs_le]
  unfold rint
  split_ifs <;> push_cast <;> constructor <;> linarith

/-- **C15.** The tidal principal heading lies in [0, 180]. -/
theorem principal_heading_range (vel : List (Option (ℝ × ℝ))) (p : ℝ)
    (h : principalHeading true vel = some p) : 0 ≤ p ∧ p ≤ 180 := by
  unfold principalHeading at h
  simp only [if_true, Option.map_map] at h
  obtain ⟨z, _, rfl⟩ := Option.map_eq_some_iff.mp h
  simp only [Function.comp]
  have hpi := Real.pi_pos
  have a1 := Complex.neg_pi_lt_arg z
  have a2 := Complex.arg_le_pi z
  have b1 : -90 ≤ rad2deg (Complex.arg z / 2) := by
    unfold rad2deg; rw [mul_div_assoc', le_div_iff₀ hpi]; linarith
  have b2 : rad2deg (Complex.arg z / 2) ≤ 90 := by
    unfold rad2deg; rw [mul_div_assoc', div_le_iff₀ hpi]; linarith
  unfold round4
  constructor
  · have : (0 : ℤ) ≤ rint ((90 - rad2deg (Complex.arg z / 2)) * 10000) := le_rint (by push_cast; linarith)
    have : (0 : ℝ) ≤ (rint ((90 - rad2deg (Complex.arg z / 2)) * 10000) : ℝ) := by exact_mod_cast this
    positivity
  · have : rint ((90 - rad2deg (Complex.arg z / 2)) * 10000) ≤ 1800000 := rint_le (by push_cast; linarith)
    have : (rint ((90 - rad2deg (Complex.arg z / 2)) * 10000) : ℝ) ≤ 1800000 := by exact_mod_cast this
    rw [div_le_iff₀ (by norm_num)]
    linarith

/-- Sum over the valid samples of the doubled-angle vector `z²/|z|`: same length, twice the angle. -/
noncomputable def Spec.doubledSum (vel : List (Option (ℝ × ℝ))) : ℂ :=
  ((vel.reduceOption).map fun uv => (⟨uv.1, uv.2⟩ : ℂ) ^ 2 / ‖(⟨uv.1, uv.2⟩ : ℂ)‖).sum

theorem tidalFold_div (z : ℂ) : tidalFold z = z ^ 2 / ‖z‖ := by
  by_cases h : z = 0
  · rw [h]; simp [tidalFold]
  · have hn : (‖z‖ : ℂ) ≠ 0 := by simpa using h
    rw [eq_div_iff hn, tidalFold_eq]

/-- The tidal branch: half the angle of the sum of the doubled vectors, as a compass angle, rounded. -/
theorem principalHeading_eq (vel : List (Option (ℝ × ℝ))) (hne : doubledSum vel ≠ 0) :
    principalHeading true vel = some (round4 (90 - rad2deg (Complex.arg (doubledSum vel) / 2))) := by
  have e : (vel.filterMap fun s => s.map fun uv => (⟨uv.1, uv.2⟩ : ℂ)).map tidalFold
      = (vel.reduceOption).map fun uv => (⟨uv.1, uv.2⟩ : ℂ) ^ 2 / ‖(⟨uv.1, uv.2⟩ : ℂ)‖ := by
    clear hne
    induction vel with
    | nil => rfl
    | cons s vel ih =>
      cases s with
      | none => simpa using ih
      | some uv =>
        simp only [List.filterMap_cons, Option.map_some, List.map_cons, List.reduceOption_cons_of_some]
        rw [ih, tidalFold_div]
  unfold principalHeading
  simp only [if_true]
  rw [e]
  have hl : ((vel.reduceOption).map fun uv => (⟨uv.1, uv.2⟩ : ℂ) ^ 2 / ‖(⟨uv.1, uv.2⟩ : ℂ)‖) ≠ [] := by
    intro h
    apply hne
    unfold doubledSum
    rw [h]; rfl
  have hs : doubledSum vel = ((vel.reduceOption).map
      fun uv => (⟨uv.1, uv.2⟩ : ℂ) ^ 2 / ‖(⟨uv.1, uv.2⟩ : ℂ)‖).sum := rfl
  unfold cMean
  rw [if_neg hl, ← hs]
  simp only [Option.map_some]
  congr 5
  generalize hlen : (List.map (fun uv => (⟨uv.1, uv.2⟩ : ℂ) ^ 2 / ‖(⟨uv.1, uv.2⟩ : ℂ)‖)
    (vel.reduceOption)).length = n
  have hn : 0 < n := by rw [← hlen]; exact List.length_pos_iff.mpr hl
  have : doubledSum vel / (n : ℂ) = ((1 / n : ℝ) : ℂ) * doubledSum vel := by push_cast; ring
  rw [this, Complex.arg_real_mul _ (by positivity)]

theorem round4_near (x : ℝ) : |round4 x - x| ≤ 1 / 20000 := by
  have h := rint_near (x * 10000)
  unfold round4
  rw [abs_le] at h ⊢
  obtain ⟨h1, h2⟩ := h
  constructor
  · have : x - 1 / 20000 ≤ (rint (x * 10000) : ℝ) / 10000 := by
      rw [le_div_iff₀ (by norm_num)]; linarith
    linarith
  · have : (rint (x * 10000) : ℝ) / 10000 ≤ x + 1 / 20000 := by
      rw [div_le_iff₀ (by norm_num)]; linarith
    linarith

/-- If the doubled-angle sum points at `2φ` radians, the heading lies on the axis at `90 - φ` degrees. -/
theorem heading_of_sum {z : ℂ} {r φ : ℝ} (hr : 0 < r) (hz : z = r * Complex.exp ((2 * φ : ℝ) * Complex.I)) :
    SameAxis (90 - rad2deg (Complex.arg z / 2)) (90 - rad2deg φ) := by
  have hn : ‖z‖ = r := by
    rw [hz, norm_mul, Complex.norm_exp_ofReal_mul_I, mul_one, Complex.norm_real, Real.norm_of_nonneg hr.le]
  have h1 := Complex.norm_mul_exp_arg_mul_I z
  rw [hn] at h1
  nth_rewrite 2 [hz] at h1
  have hr' : (r : ℂ) ≠ 0 := by exact_mod_cast hr.ne'
  have h2 := mul_left_cancel₀ hr' h1
  obtain ⟨n, hn⟩ := Complex.exp_eq_exp_iff_exists_int.mp h2
  have h3 : (Complex.arg z : ℂ) = ((2 * φ + n * (2 * Real.pi) : ℝ) : ℂ) := by
    have := mul_right_cancel₀ Complex.I_ne_zero (hn.trans (by push_cast; ring :
      ((2 * φ : ℝ) : ℂ) * Complex.I + n * (2 * Real.pi * Complex.I)
        = ((2 * φ + n * (2 * Real.pi) : ℝ) : ℂ) * Complex.I))
    exact this
  have h4 : Complex.arg z = 2 * φ + n * (2 * Real.pi) := by exact_mod_cast h3
  refine ⟨-n, ?_⟩
  rw [h4]
  unfold rad2deg
  have := Real.pi_ne_zero
  push_cast
  field_simp
  ring

/-- **C15.** A rectilinear flow along the axis at compass angle `axis` (degrees clockwise from north), moving forward and
backward at any speeds not all zero, has that axis as its principal heading, up to the rounding to four decimals. -/
theorem principal_heading_rectilinear (axis : ℝ) (speed : List ℝ) (hne : ∃ c ∈ speed, c ≠ 0) :
    ∃ p h, principalHeading true (speed.map fun c => some (c * sind axis, c * cosd axis)) = some p ∧
      |p - h| ≤ 1 / 20000 ∧ SameAxis h axis := by
  obtain ⟨φ, hφ⟩ : ∃ φ, φ = deg2rad (90 - axis) := ⟨_, rfl⟩
  have hc : Real.cos φ = sind axis := by rw [hφ, cos_deg2rad, cosd_90_sub]
  have hs : Real.sin φ = cosd axis := by rw [hφ, sin_deg2rad, sind_90_sub]
  have one : ∀ c : ℝ, (⟨c * sind axis, c * cosd axis⟩ : ℂ) = c * Complex.exp (φ * Complex.I) := by
    intro c
    rw [Complex.exp_mul_I, ← Complex.ofReal_cos, ← Complex.ofReal_sin, hc, hs]
    apply Complex.ext <;> simp
  have sq : ∀ c : ℝ, (⟨c * sind axis, c * cosd axis⟩ : ℂ) ^ 2 / ‖(⟨c * sind axis, c * cosd axis⟩ : ℂ)‖
      = |c| * Complex.exp ((2 * φ : ℝ) * Complex.I) := by
    intro c
    rw [one, norm_mul, Complex.norm_exp_ofReal_mul_I, mul_one, Complex.norm_real, Real.norm_eq_abs, mul_pow,
      ← Complex.exp_nat_mul]
    rw [show ((2 : ℕ) : ℂ) * (φ * Complex.I) = ((2 * φ : ℝ) : ℂ) * Complex.I by push_cast; ring]
    by_cases h0 : c = 0
    · simp [h0]
    · have : ((|c| : ℝ) : ℂ) ≠ 0 := by exact_mod_cast abs_ne_zero.mpr h0
      rw [div_eq_iff this]
      have : (c : ℂ) ^ 2 = ((|c| : ℝ) : ℂ) ^ 2 := by exact_mod_cast (sq_abs c).symm
      rw [this]; ring
  have hsum : doubledSum (speed.map fun c => some (c * sind axis, c * cosd axis))
      = ((speed.map fun c => |c|).sum : ℝ) * Complex.exp ((2 * φ : ℝ) * Complex.I) := by
    unfold doubledSum
    clear hne
    induction speed with
    | nil => simp
    | cons c l ih =>
      simp only [List.map_cons, List.reduceOption_cons_of_some, List.map_cons, List.sum_cons]
      rw [ih, sq]
      push_cast; ring
  have hpos : 0 < (speed.map fun c => |c|).sum := by
    obtain ⟨c, hc, h0⟩ := hne
    refine lt_of_lt_of_le (abs_pos.mpr h0) ?_
    exact List.single_le_sum (by intro x hx; obtain ⟨y, _, rfl⟩ := List.mem_map.mp hx; exact abs_nonneg y) _
      (List.mem_map.mpr ⟨c, hc, rfl⟩)
  have hnz : doubledSum (speed.map fun c => some (c * sind axis, c * cosd axis)) ≠ 0 := by
    rw [hsum]
    exact mul_ne_zero (by exact_mod_cast hpos.ne') (Complex.exp_ne_zero _)
  refine ⟨_, _, principalHeading_eq _ hnz, round4_near _, ?_⟩
  have := heading_of_sum hpos hsum
  rw [hφ, rad2deg_deg2rad] at this
  simpa using this

example : ∃ p h, principalHeading true (([1, -2, 0] : List ℝ).map fun c => some (c * sind 30, c * cosd 30)) = some p ∧
    |p - h| ≤ 1 / 20000 ∧ SameAxis h 30 :=
  principal_heading_rectilinear 30 [1, -2, 0] ⟨1, by simp, by norm_num⟩

/-- Horizontal velocity turned clockwise by `a` degrees. -/
noncomputable def Spec.turn2 (a : ℝ) (uv : ℝ × ℝ) : ℝ × ℝ :=
  (uv.1 * cosd a + uv.2 * sind a, uv.2 * cosd a - uv.1 * sind a)

/-- **C15.** Turning every sample clockwise by `a` degrees turns the principal axis clockwise by `a` degrees
(each heading is within the rounding error of its axis). -/
theorem principal_heading_rotation (a : ℝ) (vel : List (Option (ℝ × ℝ))) (hne : doubledSum vel ≠ 0) :
    ∃ p p' h h', principalHeading true vel = some p ∧
      principalHeading true (vel.map fun s => s.map (turn2 a)) = some p' ∧
      |p - h| ≤ 1 / 20000 ∧ |p' - h'| ≤ 1 / 20000 ∧ SameAxis h' (h + a) := by
  have one : ∀ uv : ℝ × ℝ, (⟨(turn2 a uv).1, (turn2 a uv).2⟩ : ℂ)
      = ⟨uv.1, uv.2⟩ * Complex.exp ((-(deg2rad a) : ℝ) * Complex.I) := by
    intro uv
    rw [Complex.exp_mul_I, ← Complex.ofReal_cos, ← Complex.ofReal_sin, Real.cos_neg, Real.sin_neg, cos_deg2rad,
      sin_deg2rad]
    apply Complex.ext <;> simp [turn2] <;> ring
  have hsum : doubledSum (vel.map fun s => s.map (turn2 a))
      = doubledSum vel * Complex.exp ((2 * -(deg2rad a) : ℝ) * Complex.I) := by
    unfold doubledSum
    clear hne
    induction vel with
    | nil => simp
    | cons s vel ih =>
      cases s with
      | none => simpa using ih
      | some uv =>
        simp only [List.map_cons, Option.map_some, List.reduceOption_cons_of_some, List.map_cons, List.sum_cons]
        rw [ih, one, norm_mul, Complex.norm_exp_ofReal_mul_I, mul_one, mul_pow, ← Complex.exp_nat_mul,
          show ((2 : ℕ) : ℂ) * ((-(deg2rad a) : ℝ) * Complex.I)
            = ((2 * -(deg2rad a) : ℝ) : ℂ) * Complex.I by push_cast; ring]
        ring
  have hnz : doubledSum (vel.map fun s => s.map (turn2 a)) ≠ 0 := by
    rw [hsum]; exact mul_ne_zero hne (Complex.exp_ne_zero _)
  refine ⟨_, _, _, _, principalHeading_eq _ hne, principalHeading_eq _ hnz, round4_near _, round4_near _, ?_⟩
  have hpol : doubledSum (vel.map fun s => s.map (turn2 a))
      = ‖doubledSum vel‖ * Complex.exp ((2 * (Complex.arg (doubledSum vel) / 2 - deg2rad a) : ℝ) * Complex.I) := by
    rw [hsum]
    nth_rewrite 1 [← Complex.norm_mul_exp_arg_mul_I (doubledSum vel)]
    rw [mul_assoc, ← Complex.exp_add]
    congr 2
    push_cast; ring
  have := heading_of_sum (norm_pos_iff.mpr hne) hpol
  obtain ⟨k, hk⟩ := this
  refine ⟨k, ?_⟩
  rw [← hk]
  have : rad2deg (Complex.arg (doubledSum vel) / 2 - deg2rad a)
      = rad2deg (Complex.arg (doubledSum vel) / 2) - a := by
    have h := rad2deg_deg2rad a
    unfold rad2deg at h ⊢
    rw [sub_mul, h]
  rw [this]; ring

example : doubledSum [some (1, 0), none, some (-2, 0)] ≠ 0 := by
  have h1 : ‖(⟨1, 0⟩ : ℂ)‖ = 1 := by rw [show (⟨1, 0⟩ : ℂ) = 1 from rfl]; simp
  have h2 : (⟨-2, 0⟩ : ℂ) = -2 := by apply Complex.ext <;> simp
  intro h
  have := congrArg Complex.re h
  simp [doubledSum, h2] at this
  norm_num [show (⟨1, 0⟩ : ℂ) = 1 from rfl] at this

/-! ### C68 -/

theorem lastGood_spec {l : List HPR} {k : ℕ} (h : lastGood l = some k) :
    (∃ x, l[k]? = some x ∧ x.good = true) ∧ ∀ j x, k < j → l[j]? = some x → x.good = false := by
  unfold lastGood at h
  obtain ⟨ys, hys⟩ := List.getLast?_eq_some_iff.mp h
  have hmem : ∀ j, j ∈ ys ++ [k] ↔ ∃ x, l[j]? = some x ∧ x.good = true := by
    intro j
    rw [← hys, List.mem_filter, List.mem_range]
    constructor
    · rintro ⟨_, h2⟩
      split at h2
      · rename_i x hx; exact ⟨x, hx, h2⟩
      · cases h2
    · rintro ⟨x, hx, hg⟩
      refine ⟨(List.getElem?_eq_some_iff.mp hx).1, ?_⟩
      rw [hx]; exact hg
  have hsort : (ys ++ [k]).Pairwise (· < ·) := hys ▸ (List.pairwise_lt_range.filter _)
  refine ⟨(hmem k).mp (by simp), fun j x hj hx => ?_⟩
  by_contra hg
  have hin := (hmem j).mpr ⟨x, hx, by simpa using hg⟩
  rcases List.mem_append.mp hin with h' | h'
  · have := (List.pairwise_append.mp hsort).2.2 j h' k (by simp)
    omega
  · simp at h'; omega

/-- **C68.** When the final heading, pitch and roll are all missing, every record after the last complete one gets the
orientation of that record, earlier records are unaffected, and the number of records is preserved. -/
theorem calc_omat_fills_end (l : List HPR) (last : HPR) (hlast : l.getLast? = some last)
    (hbad : last.h = none ∧ last.p = none ∧ last.r = none) (out : List (Option M3))
    (h : calcOmat l none = .ok out) :
    out.length = l.length ∧
    ∃ (k : ℕ) (hh pp rr : ℝ), l[k]? = some ⟨some hh, some pp, some rr⟩ ∧
      (∀ j x, k < j → l[j]? = some x → x.good = false) ∧
      (∀ j, k ≤ j → j < l.length → out[j]? = some (some (nortekOrient hh pp rr))) ∧
      (∀ j hj pj rj, j < k → l[j]? = some ⟨some hj, some pj, some rj⟩ →
        out[j]? = some (some (nortekOrient hj pj rj))) := by
  unfold calcOmat calcOmatAngles at h
  rw [hlast] at h
  simp only [hbad, Option.isNone_none, and_self, if_true] at h
  cases hk : lastGood l with
  | none => rw [hk] at h; cases h
  | some k =>
    obtain ⟨⟨x, hx, hg⟩, hafter⟩ := lastGood_spec hk
    rw [hk] at h
    simp only [hx, Except.map] at h
    have hkl := (List.getElem?_eq_some_iff.mp hx).1
    obtain ⟨xh, xp, xr⟩ := x
    simp only [HPR.good, Bool.and_eq_true, Option.isSome_iff_exists] at hg
    obtain ⟨⟨⟨hh, rfl⟩, pp, rfl⟩, rr, rfl⟩ := hg
    cases h
    refine ⟨by simp; omega, k, hh, pp, rr, hx, hafter, ?_, ?_⟩
    · intro j h1 h2
      have : (l.take k ++ List.replicate (l.length - k) (⟨some hh, some pp, some rr⟩ : HPR))[j]?
          = some ⟨some hh, some pp, some rr⟩ := by
        rw [List.getElem?_append_right (by simp; omega), List.getElem?_replicate]
        simp
        omega
      rw [List.getElem?_map, this]; rfl
    · intro j hj pj rj h1 h2
      have : (l.take k ++ List.replicate (l.length - k) (⟨some hh, some pp, some rr⟩ : HPR))[j]?
          = some ⟨some hj, some pj, some rj⟩ := by
        rw [List.getElem?_append_left (by simp; omega), List.getElem?_take_of_lt h1, h2]
      rw [List.getElem?_map, this]; rfl

/-- **C68.** When no record is complete and the last one is empty, there is nothing to repeat and the call fails. -/
theorem calc_omat_no_good (l : List HPR) (last : HPR) (hlast : l.getLast? = some last)
    (hbad : last.h = none ∧ last.p = none ∧ last.r = none) (hnone : ∀ x ∈ l, x.good = false)
    (down : Option (List Bool)) : calcOmat l down = .error .indexError := by
  have hk : lastGood l = none := by
    cases hk : lastGood l with
    | none => rfl
    | some k =>
      obtain ⟨⟨x, hx, hg⟩, _⟩ := lastGood_spec hk
      rw [hnone x (List.mem_of_getElem? hx)] at hg; cases hg
  unfold calcOmat calcOmatAngles
  rw [hlast]
  simp only [hbad, Option.isNone_none, and_self, if_true, hk]
  rfl

example : ∃ out, calcOmat [⟨some 10, some 2, some 3⟩, ⟨none, some 1, none⟩, ⟨none, none, none⟩] none = .ok out ∧
    out[1]? = some (some (nortekOrient 10 2 3)) :=
  ⟨_, rfl, rfl⟩

end Dolfyn
