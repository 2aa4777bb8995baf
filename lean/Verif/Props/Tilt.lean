import Verif.Props.Angles
import Mathlib.Analysis.SpecialFunctions.Trigonometric.Arctan
import Mathlib.Analysis.SpecialFunctions.Trigonometric.Bounds

/-! C08/C68: the upside-down correction of a whole record; C111: tilt. -/

namespace Dolfyn

open Spec

/-- **C08, C68.** The samples flagged upside down, and only those, get the orientation with 180° added to roll: the
second and third instrument axes are reversed. -/
theorem calc_omat_down (l : List HPR) (d : List Bool) (out out0 : List (Option M3))
    (h0 : calcOmat l none = .ok out0) (h : calcOmat l (some d) = .ok out) :
    d.length = l.length ∧ out.length = l.length ∧
    ∀ j, j < l.length → out[j]? = (out0[j]?).map fun o =>
      if d[j]? = some true then o.map fun m => sign3 * m else o := by
  unfold calcOmat at h0 h
  cases ha : calcOmatAngles l none with
  | error e => rw [ha] at h0; cases h0
  | ok l' =>
    rw [ha] at h0
    have hlen : l'.length = l.length := by
      unfold calcOmatAngles at ha
      cases hl : l.getLast? with
      | none => rw [hl] at ha; cases ha
      | some last =>
        rw [hl] at ha
        simp only at ha
        split_ifs at ha with hb
        · cases hk : lastGood l with
          | none => rw [hk] at ha; cases ha
          | some k =>
            obtain ⟨⟨x, hx, _⟩, _⟩ := lastGood_spec hk
            rw [hk] at ha
            simp only [hx] at ha
            cases ha
            have := (List.getElem?_eq_some_iff.mp hx).1
            simp; omega
        · cases ha; rfl
    have hd : calcOmatAngles l (some d) = if d.length ≠ l'.length then .error .indexError
        else .ok (List.zipWith (fun x b => if b then { x with r := x.r.map (· + 180) } else x) l' d) := by
      unfold calcOmatAngles at ha ⊢
      cases hl : l.getLast? with
      | none => rw [hl] at ha; cases ha
      | some last =>
        rw [hl] at ha
        simp only at ha ⊢
        generalize (if last.r.isNone = true ∧ last.p.isNone = true ∧ last.h.isNone = true then
          match lastGood l with
          | none => Except.error Err.indexError
          | some k => match l[k]? with
            | some x => Except.ok (l.take k ++ List.replicate (l.length - k) x)
            | none => Except.error Err.indexError
          else Except.ok l) = f at ha ⊢
        cases f with
        | error e => cases ha
        | ok l1 => cases ha; rfl
    rw [hd] at h
    split_ifs at h with hne
    · cases h
    · have hne : d.length = l'.length := by simpa using hne
      simp only [Except.map] at h h0
      cases h
      cases h0
      refine ⟨by omega, by simp; omega, ?_⟩
      intro j hj
      have hj' : j < l'.length := by omega
      have hjd : j < d.length := by omega
      rw [List.getElem?_map, List.getElem?_map, List.getElem?_zipWith, List.getElem?_eq_getElem hj',
        List.getElem?_eq_getElem hjd]
      simp only [Option.map_some]
      obtain ⟨xh, xp, xr⟩ := l'[j]
      cases hb : d[j]
      · simp
      · cases xh <;> cases xp <;> cases xr <;> simp [nortek_roll_180]

example : ∃ out, calcOmat [⟨some 10, some 2, some 3⟩, ⟨some 10, some 2, some 3⟩] (some [true, false]) = .ok out ∧
    out[0]? = some (some (nortekOrient 10 2 (3 + 180))) ∧ out[1]? = some (some (nortekOrient 10 2 3)) :=
  ⟨_, rfl, by norm_num, rfl⟩

theorem cosd_calcTilt (p r : ℝ) :
    cosd (calcTilt p r) = 1 / Real.sqrt (1 + (Real.tan (deg2rad r) ^ 2 + Real.tan (deg2rad p) ^ 2)) := by
  unfold calcTilt
  rw [show ∀ y, cosd (rad2deg y) = Real.cos y from fun y => by
    unfold cosd rad2deg; congr 1; field_simp]
  rw [Real.cos_arctan, Real.sq_sqrt (by positivity)]

theorem cosd_pos_of {x : ℝ} (h : |x| < 90) : 0 < Real.cos (deg2rad x) := by
  have hpi := Real.pi_pos
  rw [abs_lt] at h
  apply Real.cos_pos_of_mem_Ioo
  unfold deg2rad
  constructor <;> nlinarith [h.1, h.2]

/-- **C111.** The tilt is an angle from 0 to less than 90 degrees, whatever the pitch and roll. -/
theorem tilt_range (p r : ℝ) : 0 ≤ calcTilt p r ∧ calcTilt p r < 90 := by
  unfold calcTilt rad2deg
  have h0 : 0 ≤ Real.arctan (Real.sqrt (Real.tan (deg2rad r) ^ 2 + Real.tan (deg2rad p) ^ 2)) :=
    Real.arctan_nonneg.mpr (Real.sqrt_nonneg _)
  have h1 := Real.arctan_lt_pi_div_two (Real.sqrt (Real.tan (deg2rad r) ^ 2 + Real.tan (deg2rad p) ^ 2))
  have hpi := Real.pi_pos
  refine ⟨by positivity, ?_⟩
  rw [← mul_div_assoc, div_lt_iff₀ hpi]
  linarith

/-- **C111.** The tilt is zero exactly for an upright instrument. -/
theorem tilt_zero_iff (p r : ℝ) (hp : |p| < 90) (hr : |r| < 90) : calcTilt p r = 0 ↔ p = 0 ∧ r = 0 := by
  have key : ∀ x : ℝ, |x| < 90 → Real.tan (deg2rad x) = 0 → x = 0 := by
    intro x hx ht
    have hc := cosd_pos_of hx
    rw [Real.tan_eq_sin_div_cos, div_eq_zero_iff] at ht
    rcases ht with ht | ht
    · have hpi := Real.pi_pos
      rw [abs_lt] at hx
      have := (Real.sin_eq_zero_iff_of_lt_of_lt (x := deg2rad x)
        (by unfold deg2rad; nlinarith [hx.1]) (by unfold deg2rad; nlinarith [hx.2])).mp ht
      unfold deg2rad at this
      rcases mul_eq_zero.mp this with h | h
      · exact h
      · exact absurd h (by positivity)
    · exact absurd ht hc.ne'
  constructor
  · intro h
    unfold calcTilt rad2deg at h
    have hpi := Real.pi_pos
    rcases mul_eq_zero.mp h with h | h
    · rw [Real.arctan_eq_zero_iff, Real.sqrt_eq_zero (by positivity)] at h
      have h1 : Real.tan (deg2rad r) = 0 := by
        have := sq_nonneg (Real.tan (deg2rad r)); have := sq_nonneg (Real.tan (deg2rad p))
        exact pow_eq_zero_iff (two_ne_zero) |>.mp (by linarith)
      have h2 : Real.tan (deg2rad p) = 0 := by
        have := sq_nonneg (Real.tan (deg2rad r)); have := sq_nonneg (Real.tan (deg2rad p))
        exact pow_eq_zero_iff (two_ne_zero) |>.mp (by linarith)
      exact ⟨key p hp h2, key r hr h1⟩
    · exact absurd h (by positivity)
  · rintro ⟨rfl, rfl⟩
    simp [calcTilt, rad2deg, deg2rad]

/-- **C111.** For an RDI instrument (pitch and roll of a gimballed sensor) the tilt is exactly the angle between the
instrument's axis and the vertical: its cosine is the vertical component of that axis in the orientation
matrix. -/
theorem tilt_rdi (h p r : ℝ) (hp : |p| < 90) (hr : |r| < 90) :
    cosd (calcTilt p r) = rdiOrient true false false h p r 2 2 := by
  have hcp := cosd_pos_of hp
  have hcr := cosd_pos_of hr
  rw [cosd_calcTilt]
  unfold rdiOrient
  simp [Matrix.transpose_apply]
  set c := Real.cos (deg2rad r) with hc
  set t := Real.tan (deg2rad p) with ht
  rw [Real.cos_arctan]
  have h1 : Real.tan (deg2rad r) ^ 2 = 1 / c ^ 2 - 1 := by
    rw [Real.tan_eq_sin_div_cos, div_pow, Real.sin_sq, ← hc]
    field_simp
  have h2 : 1 + (Real.tan (deg2rad r) ^ 2 + t ^ 2) = (1 + (t * c) ^ 2) / c ^ 2 := by
    rw [h1]; field_simp; ring
  rw [h2, Real.sqrt_div (by positivity), Real.sqrt_sq hcr.le]
  field_simp

/-- **C111 (part).** For a Nortek instrument the tilt never exceeds the angle between the instrument's axis and the
vertical, and equals it when pitch or roll is zero. Missing: equality when both are non-zero (see the next
theorem). -/
theorem tilt_nortek_partial (h p r : ℝ) (hp : |p| < 90) (hr : |r| < 90) :
    nortekOrient h p r 2 2 ≤ cosd (calcTilt p r) ∧
    (p = 0 ∨ r = 0 → cosd (calcTilt p r) = nortekOrient h p r 2 2) := by
  have hcp := cosd_pos_of hp
  have hcr := cosd_pos_of hr
  have e : nortekOrient h p r 2 2 = Real.cos (deg2rad p) * Real.cos (deg2rad r) := by
    unfold nortekOrient; simp
  have key : ∀ x, 0 < Real.cos (deg2rad x) → Real.tan (deg2rad x) ^ 2 = 1 / Real.cos (deg2rad x) ^ 2 - 1 := by
    intro x hx
    rw [Real.tan_eq_sin_div_cos, div_pow, Real.sin_sq]
    field_simp
  rw [cosd_calcTilt, e]
  constructor
  · rw [le_div_iff₀ (by positivity), key p hcp, key r hcr]
    set a := Real.cos (deg2rad p)
    set b := Real.cos (deg2rad r)
    have ha1 : a ≤ 1 := Real.cos_le_one _
    have hb1 : b ≤ 1 := Real.cos_le_one _
    rw [← Real.sqrt_sq (show 0 ≤ a * b by positivity), ← Real.sqrt_mul (by positivity), Real.sqrt_le_one]
    have : (a * b) ^ 2 * (1 + (1 / b ^ 2 - 1 + (1 / a ^ 2 - 1))) = 1 - (1 - a ^ 2) * (1 - b ^ 2) := by
      field_simp; ring
    rw [this]
    have : 0 ≤ (1 - a ^ 2) * (1 - b ^ 2) := by
      apply mul_nonneg <;> nlinarith
    linarith
  · rintro (rfl | rfl)
    · have hz : Real.cos (deg2rad 0) = 1 := by simp [deg2rad]
      have ht : Real.tan (deg2rad 0) = 0 := by simp [deg2rad]
      rw [key r hcr, ht, hz]
      rw [show 1 + (1 / Real.cos (deg2rad r) ^ 2 - 1 + 0 ^ 2) = (1 / Real.cos (deg2rad r)) ^ 2 by
        field_simp; ring, Real.sqrt_sq (by positivity)]
      field_simp
    · have hz : Real.cos (deg2rad 0) = 1 := by simp [deg2rad]
      have ht : Real.tan (deg2rad 0) = 0 := by simp [deg2rad]
      rw [key p hcp, ht, hz]
      rw [show 1 + (0 ^ 2 + (1 / Real.cos (deg2rad p) ^ 2 - 1)) = (1 / Real.cos (deg2rad p)) ^ 2 by
        field_simp; ring, Real.sqrt_sq (by positivity)]
      field_simp

example : |(3 : ℝ)| < 90 ∧ |(-5 : ℝ)| < 90 := by norm_num [abs_lt]

/-- **C111.** At 45° of pitch and roll of a Nortek instrument the axis is 60° from the vertical but the tilt is less:
its cosine is 1/√3, not 1/2. -/
theorem tilt_nortek_false (h : ℝ) :
    cosd (calcTilt 45 45) = 1 / Real.sqrt 3 ∧ nortekOrient h 45 45 2 2 = 1 / 2 ∧
    cosd (calcTilt 45 45) ≠ nortekOrient h 45 45 2 2 := by
  have e45 : deg2rad 45 = Real.pi / 4 := by unfold deg2rad; ring
  have h1 : cosd (calcTilt 45 45) = 1 / Real.sqrt 3 := by
    rw [cosd_calcTilt, e45, Real.tan_pi_div_four]; norm_num
  have h2 : nortekOrient h 45 45 2 2 = 1 / 2 := by
    have hs : Real.sqrt 2 * Real.sqrt 2 = 2 := Real.mul_self_sqrt (by norm_num)
    unfold nortekOrient
    simp [e45, Real.cos_pi_div_four]
    nlinarith
  refine ⟨h1, h2, ?_⟩
  rw [h1, h2]
  intro h
  have hs : Real.sqrt 3 * Real.sqrt 3 = 3 := Real.mul_self_sqrt (by norm_num)
  have hpos : 0 < Real.sqrt 3 := Real.sqrt_pos.mpr (by norm_num)
  field_simp at h
  nlinarith

end Dolfyn
