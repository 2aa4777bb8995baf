import Verif.Lemmas.Orient
import Verif.Lemmas.RotateTotal
import Mathlib.Algebra.Quaternion

/-! Orientation properties: C07, C08, C11, C16. -/

namespace Dolfyn

open Spec

/-! ### C07 -/

/-- **C07.** `euler2orient` is a proper rotation for every heading, pitch and roll. -/
theorem euler2orient_rotation (h p r : ℝ) : IsRotation (euler2orient h p r) := by
  unfold euler2orient
  refine ((?_ : IsRotation _).mul ?_).mul ?_
  · exact rotX_isRotation _ _ (Real.cos_sq_add_sin_sq _)
  · exact rotY_isRotation _ _ (Real.cos_sq_add_sin_sq _)
  · exact rotZ_isRotation _ _ (Real.cos_sq_add_sin_sq _)

/-- **C07.** The instrument x axis points along the compass heading, raised by the pitch. -/
theorem euler2orient_axis (h p r : ℝ) :
    (fun j => euler2orient h p r 0 j) = compassVec h p := by
  rw [euler2orient_entries]
  funext j
  fin_cases j <;> simp [compassVec]

/-- **C07.** `orient2euler` recovers the angles: heading modulo 360, pitch strictly between ±90, roll in (-180, 180]. -/
theorem orient2euler_euler2orient (h p r : ℝ) (hp : |p| < 90) (hr : r ∈ Set.Ioc (-180) 180) :
    ∃ h', orient2euler (euler2orient h p r) = (h', p, r) ∧ SameDir h' h ∧ 0 ≤ h' ∧ h' < 360 := by
  have hc := cosd_pos hp
  have hpi := Real.pi_pos
  rw [abs_lt] at hp
  refine ⟨fmod (rad2deg (arctan2 (euler2orient h p r 0 0) (euler2orient h p r 0 1))) 360, ?_, ?_,
    fmod_nonneg _ (by norm_num), fmod_lt _ (by norm_num)⟩
  · rw [euler2orient_entries]
    unfold orient2euler
    refine Prod.ext rfl (Prod.ext ?_ ?_)
    · show rad2deg (Real.arcsin (sind p)) = p
      unfold sind
      rw [Real.arcsin_sin (by nlinarith) (by nlinarith), ← deg2rad_eq, rad2deg_deg2rad]
    · show rad2deg (arctan2 (sind r * cosd p) (cosd p * cosd r)) = r
      rw [mul_comm (sind r), ← sin_deg2rad, ← cos_deg2rad r, arctan2_polar hc, rad2deg_deg2rad]
      rw [deg2rad_eq]
      constructor
      · have := hr.1; nlinarith
      · have := hr.2; nlinarith
  · refine (fmod_same _).trans' ?_
    rw [euler2orient_entries]
    show SameDir (rad2deg (arctan2 (sind h * cosd p) (cosd h * cosd p))) h
    obtain ⟨e1, e2⟩ := arctan2_spec (sind h * cosd p) (cosd h * cosd p)
    have hsq : Real.sqrt ((cosd h * cosd p) ^ 2 + (sind h * cosd p) ^ 2) = cosd p := by
      rw [show (cosd h * cosd p) ^ 2 + (sind h * cosd p) ^ 2 = cosd p ^ 2 by
        linear_combination cosd p ^ 2 * cosd_sq_add h, Real.sqrt_sq hc.le]
    rw [hsq] at e1 e2
    apply sameDir_of_trig
    · rw [← cos_deg2rad, deg2rad_rad2deg]
      exact mul_left_cancel₀ hc.ne' (e1.trans (mul_comm _ _))
    · rw [← sin_deg2rad, deg2rad_rad2deg]
      exact mul_left_cancel₀ hc.ne' (e2.trans (mul_comm _ _))

example : ∃ h', orient2euler (euler2orient 350 (-20) 170) = (h', -20, 170) ∧ SameDir h' 350 :=
  (orient2euler_euler2orient 350 (-20) 170 (by norm_num [abs_lt]) (by norm_num)).imp fun _ h => ⟨h.1, h.2.1⟩

/-- **C07.** Conversely every rotation whose x axis is not vertical is the matrix of its own Euler angles. -/
theorem euler2orient_orient2euler (m : M3) (hm : IsRotation m) (hv : |m 0 2| < 1) :
    let e := orient2euler m
    euler2orient e.1 e.2.1 e.2.2 = m := by
  obtain ⟨ho, hd⟩ := hm
  have ho' := orth_comm ho
  unfold Orthonormal at ho
  have o : ∀ i j, ∑ k, m i k * m j k = if i = j then 1 else 0 := by
    intro i j
    have := congrFun (congrFun ho i) j
    simpa [Matrix.mul_apply, Matrix.one_apply] using this
  have o' : ∀ i j, ∑ k, m k i * m k j = if i = j then 1 else 0 := by
    intro i j
    have := congrFun (congrFun ho' i) j
    simpa [Matrix.mul_apply, Matrix.one_apply] using this
  simp only [Fin.sum_univ_three] at o o'
  -- cofactors: the rows of a rotation are the cross products of the other two
  have hadj : m.adjugate = m.transpose := by
    have h1 : m * m.adjugate = 1 := by rw [Matrix.mul_adjugate, hd, one_smul]
    calc m.adjugate = (m.transpose * m) * m.adjugate := by rw [ho', Matrix.one_mul]
      _ = m.transpose := by rw [Matrix.mul_assoc, h1, Matrix.mul_one]
  have hadj' : ∀ i j, m.adjugate i j = m j i := fun i j => by rw [hadj]; rfl
  have a11 := hadj' 1 1
  have a20 := hadj' 0 2
  have a10 := hadj' 0 1
  have a21 := hadj' 1 2
  rw [Matrix.adjugate_fin_three] at a11 a20 a10 a21
  simp at a11 a20 a10 a21
  rw [abs_lt] at hv
  obtain ⟨c, hc⟩ : ∃ c, c = Real.sqrt (1 - m 0 2 ^ 2) := ⟨_, rfl⟩
  have hpos : 0 < 1 - m 0 2 ^ 2 := by nlinarith
  have hc0 : 0 < c := hc ▸ Real.sqrt_pos.mpr hpos
  have hcsq : c ^ 2 = 1 - m 0 2 ^ 2 := by rw [hc, Real.sq_sqrt hpos.le]
  have r00 := o 0 0
  have c22 := o' 2 2
  simp at r00 c22
  -- the three angles
  obtain ⟨h1, h2⟩ := arctan2_spec (m 0 0) (m 0 1)
  rw [show m 0 1 ^ 2 + m 0 0 ^ 2 = 1 - m 0 2 ^ 2 by linarith, ← hc] at h1 h2
  obtain ⟨r1, r2⟩ := arctan2_spec (m 1 2) (m 2 2)
  rw [show m 2 2 ^ 2 + m 1 2 ^ 2 = 1 - m 0 2 ^ 2 by linarith, ← hc] at r1 r2
  have hsame := fmod_same (rad2deg (arctan2 (m 0 0) (m 0 1)))
  have eh1 : cosd (fmod (rad2deg (arctan2 (m 0 0) (m 0 1))) 360) = Real.cos (arctan2 (m 0 0) (m 0 1)) := by
    rw [cosd_congr hsame, ← cos_deg2rad, deg2rad_rad2deg]
  have eh2 : sind (fmod (rad2deg (arctan2 (m 0 0) (m 0 1))) 360) = Real.sin (arctan2 (m 0 0) (m 0 1)) := by
    rw [sind_congr hsame, ← sin_deg2rad, deg2rad_rad2deg]
  have ep1 : cosd (rad2deg (Real.arcsin (m 0 2))) = c := by
    rw [← cos_deg2rad, deg2rad_rad2deg, Real.cos_arcsin, hc]
  have ep2 : sind (rad2deg (Real.arcsin (m 0 2))) = m 0 2 := by
    rw [← sin_deg2rad, deg2rad_rad2deg, Real.sin_arcsin hv.1.le hv.2.le]
  have er1 : cosd (rad2deg (arctan2 (m 1 2) (m 2 2))) = Real.cos (arctan2 (m 1 2) (m 2 2)) := by
    rw [← cos_deg2rad, deg2rad_rad2deg]
  have er2 : sind (rad2deg (arctan2 (m 1 2) (m 2 2))) = Real.sin (arctan2 (m 1 2) (m 2 2)) := by
    rw [← sin_deg2rad, deg2rad_rad2deg]
  show euler2orient (fmod (rad2deg (arctan2 (m 0 0) (m 0 1))) 360) (rad2deg (Real.arcsin (m 0 2)))
    (rad2deg (arctan2 (m 1 2) (m 2 2))) = m
  rw [euler2orient_entries, eh1, eh2, ep1, ep2, er1, er2]
  generalize Real.cos (arctan2 (m 0 0) (m 0 1)) = C at *
  generalize Real.sin (arctan2 (m 0 0) (m 0 1)) = S at *
  generalize Real.cos (arctan2 (m 1 2) (m 2 2)) = c' at *
  generalize Real.sin (arctan2 (m 1 2) (m 2 2)) = s' at *
  have hcc : c ^ 2 ≠ 0 := by positivity
  rw [← h2, ← r1] at a11
  rw [← h1, ← r2] at a20
  rw [← h1, ← r1] at a10
  rw [← h2, ← r2] at a21
  have key : ∀ {x y : ℝ}, c ^ 2 * x = c ^ 2 * y → x = y := fun h => mul_left_cancel₀ hcc h
  ext i j
  fin_cases i <;> fin_cases j <;> simp
  · linarith
  · linarith
  · apply key
    linear_combination a10 + m 0 2 * a21 - m 1 0 * hcsq
  · apply key
    linear_combination a11 - m 0 2 * a20 - m 1 1 * hcsq
  · linarith
  · apply key
    linear_combination a20 - m 0 2 * a11 - m 2 0 * hcsq
  · apply key
    linear_combination a21 + m 0 2 * a10 - m 2 1 * hcsq
  · linarith

example : IsRotation (!![0, 1, 0; -1, 0, 0; 0, 0, 1] : M3) ∧ |(!![0, 1, 0; -1, 0, 0; 0, 0, 1] : M3) 0 2| < 1 := by
  refine ⟨?_, by simp⟩
  have := rotZ_isRotation 0 1 (by norm_num)
  exact this

/-! ### C08 -/

/-- The Nortek formula is the same matrix as `euler2orient` of the same angles. -/
theorem nortek_eq_euler2orient (h p r : ℝ) : nortekOrient h p r = euler2orient h p r := by
  rw [nortekOrient_entries, euler2orient_entries]

/-- **C08.** Nortek angles give a proper rotation. -/
theorem nortek_rotation (h p r : ℝ) : IsRotation (nortekOrient h p r) := by
  rw [nortek_eq_euler2orient]; exact euler2orient_rotation h p r

/-- **C08.** The Nortek instrument's x axis points along the reported heading, raised by the pitch. -/
theorem nortek_axis (h p r : ℝ) : (fun j => nortekOrient h p r 0 j) = compassVec h p := by
  rw [nortek_eq_euler2orient]; exact euler2orient_axis h p r

theorem cosd_add_180 (x : ℝ) : cosd (x + 180) = -cosd x := by
  unfold cosd
  rw [show (x + 180) * Real.pi / 180 = x * Real.pi / 180 + Real.pi by ring, Real.cos_add_pi]

theorem sind_add_180 (x : ℝ) : sind (x + 180) = -sind x := by
  unfold sind
  rw [show (x + 180) * Real.pi / 180 = x * Real.pi / 180 + Real.pi by ring, Real.sin_add_pi]

theorem nortek_roll_180 (h p r : ℝ) : nortekOrient h p (r + 180) = sign3 * nortekOrient h p r := by
  rw [nortekOrient_entries, nortekOrient_entries, cosd_add_180, sind_add_180]
  ext i j
  fin_cases i <;> fin_cases j <;> simp [sign3, Matrix.mul_apply, Fin.sum_univ_three] <;> ring

theorem ext4_sign (M : M3) : ext4 (M * sign3) = ext4 M * sign4 := by
  ext i j
  fin_cases i <;> fin_cases j <;>
    simp [ext4, sign3, sign4, Matrix.mul_apply, Fin.sum_univ_three, Fin.sum_univ_four] <;> ring

theorem sign3_transpose : (sign3).transpose = sign3 := by
  ext i j
  fin_cases i <;> fin_cases j <;> simp [sign3]

theorem sign4_sq : sign4 * sign4 = 1 := by
  ext i j
  fin_cases i <;> fin_cases j <;> simp [sign4, Matrix.mul_apply, Fin.sum_univ_four]

theorem sign4_det : sign4.det ≠ 0 := by
  intro h
  have := congrArg Matrix.det sign4_sq
  rw [Matrix.det_mul, h] at this
  simp at this

/-- **C08.** A Signature mounted upside down is treated exactly as if 180° had been added to its roll: the
rotation between `inst` and `earth`, in either direction, for 3- and 4-row variables, gives the same data or
the same error. -/
theorem signature_down_is_roll_180 (rev : Bool) (ds : RDS T) (hs : ds.inst = .signature) (h p r : T → ℝ) :
    (inst2earth rev { ds with down := true, orientmat := some fun t => nortekOrient (h t) (p t) (r t) }).map
        RDS.vars
      = (inst2earth rev { ds with down := false, orientmat := some fun t => nortekOrient (h t) (p t) (r t + 180) }).map
        RDS.vars := by
  unfold inst2earth
  simp only [hs]
  unfold inst2earthSig
  simp only [effOmat, bind, Except.bind, pure, Except.pure, throw, throwThe, MonadExceptOf.throw, if_true,
    Bool.false_eq_true, if_false, nortek_roll_180, Matrix.transpose_mul, sign3_transpose, ext4_sign,
    Matrix.det_mul, mul_eq_zero, sign4_det, or_false, Matrix.mul_inv_rev, Matrix.inv_eq_left_inv sign4_sq]
  by_cases hc : ds.coordSys = (if rev then .earth else .inst)
  · simp only [hc, ne_eq, not_true, if_false]
    have hiff : (rev = true ∧ ∃ t, (ext4 (nortekOrient (h t) (p t) (r t)).transpose).det = 0) ↔
        (rev = true ∧ ∃ t, (ext4 (sign3 * nortekOrient (h t) (p t) (r t)).transpose).det = 0) := by
      simp only [Matrix.transpose_mul, sign3_transpose, ext4_sign, Matrix.det_mul, mul_eq_zero, sign4_det,
        or_false]
    by_cases hdet : rev = true ∧ ∃ t, (ext4 (nortekOrient (h t) (p t) (r t)).transpose).det = 0
    · rw [if_pos hdet, if_pos (hiff.mp hdet)]
    · rw [if_neg hdet, if_neg (fun h' => hdet (hiff.mpr h'))]
      generalize List.mapM (m := Except Err) _ ds.vars = x
      cases x <;> rfl
  · simp only [hc, ne_eq, not_false_eq_true, if_true, Except.map]

/-- **C08.** RDI angles give a proper rotation, whatever the orientation and tilt settings. -/
theorem rdi_rotation (isRdi up shipTilt : Bool) (h p r : ℝ) : IsRotation (rdiOrient isRdi up shipTilt h p r) := by
  unfold rdiOrient
  apply IsRotation.transpose
  have key : ∀ ch sh cp sp cr sr : ℝ, ch ^ 2 + sh ^ 2 = 1 → cp ^ 2 + sp ^ 2 = 1 → cr ^ 2 + sr ^ 2 = 1 →
      IsRotation (!![ch * cr + sh * sp * sr, sh * cp, ch * sr - sh * sp * cr;
       -sh * cr + ch * sp * sr, ch * cp, -sh * sr - ch * sp * cr;
       -cp * sr, sp, cp * cr] : M3) := by
    intro ch sh cp sp cr sr h1 h2 h3
    have e : (!![ch * cr + sh * sp * sr, sh * cp, ch * sr - sh * sp * cr;
       -sh * cr + ch * sp * sr, ch * cp, -sh * sr - ch * sp * cr;
       -cp * sr, sp, cp * cr] : M3)
       = !![ch, sh, 0; -sh, ch, 0; 0, 0, 1] * !![1, 0, 0; 0, cp, -sp; 0, -(-sp), cp]
         * !![cr, 0, -(-sr); 0, 1, 0; -sr, 0, cr] := by
      ext i j
      fin_cases i <;> fin_cases j <;> simp [Matrix.mul_apply, Fin.sum_univ_three] <;> ring
    rw [e]
    exact ((rotZ_isRotation ch sh h1).mul (rotX_isRotation cp (-sp) (by rw [neg_sq]; exact h2))).mul
      (rotY_isRotation cr (-sr) (by rw [neg_sq]; exact h3))
  apply key <;> exact Real.cos_sq_add_sin_sq _

/-- **C08.** The RDI instrument's y axis (beam 3) points along the reported heading. Its elevation is the
gimballed pitch `arctan (tan pitch cos roll)` of the RDI manual, or zero when the tilts are not used. -/
theorem rdi_axis (isRdi up shipTilt : Bool) (h p r : ℝ) :
    ∃ e, (fun j => rdiOrient isRdi up shipTilt h p r 1 j) = compassVec h e ∧
      e = if isRdi && shipTilt then 0
        else rad2deg (Real.arctan (Real.tan (p * Real.pi / 180) * cosd r)) := by
  refine ⟨_, ?_, rfl⟩
  unfold rdiOrient compassVec
  funext j
  simp only [← cos_deg2rad, ← sin_deg2rad, ← deg2rad_eq]
  by_cases hb : (isRdi && shipTilt) = true
  · simp only [hb, if_true, deg2rad, zero_mul]
    fin_cases j <;> simp
  · simp only [hb, if_false, Bool.false_eq_true, deg2rad_rad2deg]
    fin_cases j <;> simp

/-- **C08.** Upward-looking RDI instruments are treated as if 180° had been added to their roll
(after the pitch correction, which uses the measured roll): the x and z axes are reversed. -/
theorem rdi_up_reverses (h p r : ℝ) (j : Fin 3) :
    rdiOrient true true false h p r 0 j = -rdiOrient true false false h p r 0 j ∧
    rdiOrient true true false h p r 1 j = rdiOrient true false false h p r 1 j ∧
    rdiOrient true true false h p r 2 j = -rdiOrient true false false h p r 2 j := by
  unfold rdiOrient
  simp only [Bool.and_self, if_true, Bool.and_false, Bool.false_eq_true, if_false, Real.cos_add_pi,
    Real.sin_add_pi]
  fin_cases j <;> simp <;> constructor <;> ring

/-- **C08.** Ship-frame data whose tilts were already applied is rotated by the heading alone. -/
theorem rdi_ship_level (up : Bool) (h p r : ℝ) :
    rdiOrient true up true h p r = !![cosd h, -sind h, 0; sind h, cosd h, 0; 0, 0, 1] := by
  unfold rdiOrient
  simp only [Bool.and_self, if_true, Real.cos_zero, Real.sin_zero, cos_deg2rad, sin_deg2rad]
  ext i j
  fin_cases i <;> fin_cases j <;> simp

/-! ### C11 -/

/-- Along-beam velocities seen by the four beams of an RDI head with beam angle `θ` (radians) when the water moves with
`(X, Y, Z)` in instrument coordinates. For a convex head beams 1 to 4 lean towards +X, −X, −Y, +Y; for a concave head they lean
the other way. -/
noncomputable def Spec.beamVel (convex : Bool) (θ X Y Z : ℝ) : ℕ → ℝ := fun i =>
  let s := if convex then 1 else -1
  match i with
  | 0 => s * X * Real.sin θ + Z * Real.cos θ
  | 1 => -(s * X * Real.sin θ) + Z * Real.cos θ
  | 2 => -(s * Y * Real.sin θ) + Z * Real.cos θ
  | 3 => s * Y * Real.sin θ + Z * Real.cos θ
  | _ => 0

/-- **C11.** The beam-to-instrument matrix recovers X, Y and Z, with zero error velocity. -/
theorem rdi_beam_recovers (θ : ℝ) (convex : ℤ) (hs : Real.sin θ ≠ 0) (hc : Real.cos θ ≠ 0) (X Y Z : ℝ) :
    let out := applyM (rdiBeamMat θ convex false) (beamVel (convex ≠ 0 ∧ convex ≠ -1) θ X Y Z)
    out 0 = X ∧ out 1 = Y ∧ out 2 = Z ∧ out 3 = 0 := by
  have h2 : Real.sqrt 2 ≠ 0 := by positivity
  unfold rdiBeamMat beamVel
  by_cases hcv : convex = 0 ∨ convex = -1
  · have hb : ¬ (convex ≠ 0 ∧ convex ≠ -1) := by tauto
    simp only [hcv, hb, if_true, Bool.false_eq_true, if_false, decide_false]
    refine ⟨?_, ?_, ?_, ?_⟩ <;> simp [applyM, Fin.sum_univ_four] <;> field_simp <;> ring
  · have hb : (convex ≠ 0 ∧ convex ≠ -1) := by tauto
    simp only [hcv, hb, if_true, Bool.false_eq_true, if_false]
    refine ⟨?_, ?_, ?_, ?_⟩ <;> simp [applyM, Fin.sum_univ_four, hb] <;> field_simp <;> ring

/-- In degrees the same matrix is used for the angle converted to radians. -/
theorem rdi_beam_degrees (θ : ℝ) (convex : ℤ) :
    rdiBeamMat θ convex true = rdiBeamMat (θ * Real.pi / 180) convex false := by
  unfold rdiBeamMat
  simp [deg2rad_eq]

/-- **C11.** The matrix is invertible, so the reverse rotation is defined. -/
theorem rdi_beam_invertible (θ : ℝ) (convex : ℤ) (hs : Real.sin θ ≠ 0) (hc : Real.cos θ ≠ 0) :
    (rdiBeamMat θ convex false).det ≠ 0 := by
  have h2 : Real.sqrt 2 ≠ 0 := by positivity
  have key : ∀ c a b d : ℝ, c ≠ 0 → a ≠ 0 → b ≠ 0 → d ≠ 0 →
      (!![c * a, -c * a, 0, 0; 0, 0, -c * a, c * a; b, b, b, b; d, d, -d, -d] : M4).det ≠ 0 := by
    intro c a b d hc ha hb hd hdet
    have hmul : (!![c * a, -c * a, 0, 0; 0, 0, -c * a, c * a; b, b, b, b; d, d, -d, -d] : M4) *
        !![1 / (2 * c * a), 0, 1 / (4 * b), 1 / (4 * d);
           -(1 / (2 * c * a)), 0, 1 / (4 * b), 1 / (4 * d);
           0, -(1 / (2 * c * a)), 1 / (4 * b), -(1 / (4 * d));
           0, 1 / (2 * c * a), 1 / (4 * b), -(1 / (4 * d))] = 1 := by
      ext i j
      fin_cases i <;> fin_cases j <;> simp [Matrix.mul_apply, Fin.sum_univ_four] <;> field_simp <;> ring
    have := congrArg Matrix.det hmul
    rw [Matrix.det_mul, hdet] at this
    simp at this
  unfold rdiBeamMat
  apply key
  · split_ifs <;> norm_num
  · simp [hs]
  · simp [hc]
  · simp [hs]

/-- **C11.** Concave instead of convex negates X and Y and nothing else. -/
theorem rdi_beam_concave (θ : ℝ) (b : ℕ → ℝ) :
    let v := applyM (rdiBeamMat θ 1 false) b
    let c := applyM (rdiBeamMat θ 0 false) b
    c 0 = -v 0 ∧ c 1 = -v 1 ∧ c 2 = v 2 ∧ c 3 = v 3 := by
  unfold rdiBeamMat
  refine ⟨?_, ?_, ?_, ?_⟩ <;> simp [applyM, Fin.sum_univ_four] <;> ring

/-- **C11.** `rotate2(ds, 'inst')` of beam data recorded by a four-beam RDI instrument gives back the
instrument-frame velocity. -/
theorem rdi_beam2inst_recovers (ds ds' : RDS T) (θ : ℝ) (convex : ℤ) (hi : ds.inst = .rdi)
    (hs : Real.sin θ ≠ 0) (hc : Real.cos θ ≠ 0)
    (hB : ds.beam2inst = some ⟨4, rdiBeamMat θ convex false⟩)
    (X Y Z : T → ℝ) (v : RVar T) (k : ℕ) (hv : ds.vars[k]? = some v) (hn : v.n = 4)
    (hval : ∀ t, v.val t = beamVel (convex ≠ 0 ∧ convex ≠ -1) θ (X t) (Y t) (Z t))
    (h : beam2inst false ds = .ok ds') :
    ∃ v', ds'.vars[k]? = some v' ∧ ∀ t, v'.val t 0 = X t ∧ v'.val t 1 = Y t ∧ v'.val t 2 = Z t ∧ v'.val t 3 = 0 := by
  unfold beam2inst at h
  simp only [hi] at h
  obtain ⟨_, B, hB', _, rfl⟩ := beam2instBase_cases h
  rw [hB] at hB'
  cases hB'
  refine ⟨v.rot fun _ => rdiBeamMat θ convex false, ?_, fun t => ?_⟩
  · simp [hv, hn]
  · have := rdi_beam_recovers θ convex hs hc (X t) (Y t) (Z t)
    simp only [RVar.rot, hval]
    exact this

example : Real.sin (Real.pi / 9) ≠ 0 ∧ Real.cos (Real.pi / 9) ≠ 0 := by
  have := Real.pi_pos
  exact ⟨(Real.sin_pos_of_pos_of_lt_pi (by linarith) (by linarith)).ne',
    (Real.cos_pos_of_mem_Ioo ⟨by linarith, by linarith⟩).ne'⟩

/-! ### C16 -/

/-- The quaternion `w + x i + y j + z k`. -/
def Spec.quat (w x y z : ℝ) : Quaternion ℝ := ⟨w, x, y, z⟩

theorem quat_re (w x y z : ℝ) : (quat w x y z).re = w := rfl
theorem quat_imI (w x y z : ℝ) : (quat w x y z).imI = x := rfl
theorem quat_imJ (w x y z : ℝ) : (quat w x y z).imJ = y := rfl
theorem quat_imK (w x y z : ℝ) : (quat w x y z).imK = z := rfl

/-- **C16.** For every non-zero quaternion `q = W + Xi + Yj + Zk` the matrix is a proper rotation, and it maps a vector `v` to
`q⁻¹ v q` (the inverse of the rotation `v ↦ q v q⁻¹` that `q` stands for). -/
theorem quaternion2orient_spec (q : Fin 4 → ℝ) (hq : q ≠ 0) :
    ∃ m, quaternion2orient q = .ok m ∧ IsRotation m ∧
      ∀ v : Fin 3 → ℝ,
        quat 0 (m.mulVec v 0) (m.mulVec v 1) (m.mulVec v 2)
          = (quat (q 0) (q 1) (q 2) (q 3))⁻¹ * quat 0 (v 0) (v 1) (v 2) * quat (q 0) (q 1) (q 2) (q 3) := by
  obtain ⟨n, hn⟩ : ∃ n, n = Real.sqrt (q 1 ^ 2 + q 2 ^ 2 + q 3 ^ 2 + q 0 ^ 2) := ⟨_, rfl⟩
  have hpos : 0 < q 1 ^ 2 + q 2 ^ 2 + q 3 ^ 2 + q 0 ^ 2 := by
    obtain ⟨i, hi⟩ := Function.ne_iff.mp hq
    have : 0 < q i ^ 2 := sq_pos_iff.mpr hi
    have h0 := sq_nonneg (q 0); have h1 := sq_nonneg (q 1)
    have h2 := sq_nonneg (q 2); have h3 := sq_nonneg (q 3)
    fin_cases i <;> simp only [Fin.zero_eta, Fin.mk_one, Fin.reduceFinMk] at this <;> linarith
  have hn0 : n ≠ 0 := by rw [hn]; exact (Real.sqrt_pos.mpr hpos).ne'
  have hnsq : n ^ 2 = q 1 ^ 2 + q 2 ^ 2 + q 3 ^ 2 + q 0 ^ 2 := by rw [hn, Real.sq_sqrt hpos.le]
  obtain ⟨w, hw⟩ : ∃ w, w = q 0 / n := ⟨_, rfl⟩
  obtain ⟨x, hx⟩ : ∃ w, w = q 1 / n := ⟨_, rfl⟩
  obtain ⟨y, hy⟩ : ∃ w, w = q 2 / n := ⟨_, rfl⟩
  obtain ⟨z, hz⟩ : ∃ w, w = q 3 / n := ⟨_, rfl⟩
  have hu : w ^ 2 + x ^ 2 + y ^ 2 + z ^ 2 = 1 := by
    rw [hw, hx, hy, hz]; field_simp; linarith
  refine ⟨!![x ^ 2 - y ^ 2 - z ^ 2 + w ^ 2, 2 * (x * y - z * w), 2 * (x * z + y * w);
           2 * (x * y + z * w), -x ^ 2 + y ^ 2 - z ^ 2 + w ^ 2, 2 * (y * z - x * w);
           2 * (x * z - y * w), 2 * (y * z + x * w), -x ^ 2 - y ^ 2 + z ^ 2 + w ^ 2].transpose, ?_, ?_, ?_⟩
  · unfold quaternion2orient scipyFromQuat
    simp only [← hn, hn0, if_false, ← hw, ← hx, ← hy, ← hz]
    rfl
  · apply IsRotation.transpose
    have hu' : w ^ 2 = 1 - x ^ 2 - y ^ 2 - z ^ 2 := by linarith
    constructor
    · unfold Orthonormal
      ext i j
      fin_cases i <;> fin_cases j <;> simp [Matrix.mul_apply, Fin.sum_univ_three]
      · linear_combination (w ^ 2 + x ^ 2 + y ^ 2 + z ^ 2 + 1) * hu
      · ring
      · ring
      · ring
      · linear_combination (w ^ 2 + x ^ 2 + y ^ 2 + z ^ 2 + 1) * hu
      · ring
      · ring
      · ring
      · linear_combination (w ^ 2 + x ^ 2 + y ^ 2 + z ^ 2 + 1) * hu
    · rw [Matrix.det_fin_three]
      simp
      linear_combination ((w ^ 2 + x ^ 2 + y ^ 2 + z ^ 2) ^ 2 + (w ^ 2 + x ^ 2 + y ^ 2 + z ^ 2) + 1) * hu
  · intro v
    have hQ : quat (q 0) (q 1) (q 2) (q 3) ≠ 0 := by
      intro h
      have h0 := congrArg QuaternionAlgebra.re h
      have h1 := congrArg QuaternionAlgebra.imI h
      have h2 := congrArg QuaternionAlgebra.imJ h
      have h3 := congrArg QuaternionAlgebra.imK h
      simp only [quat_re, quat_imI, quat_imJ, quat_imK, Quaternion.re_zero, Quaternion.imI_zero,
        Quaternion.imJ_zero, Quaternion.imK_zero] at h0 h1 h2 h3
      rw [h0, h1, h2, h3] at hpos
      norm_num at hpos
    have e0 : q 0 = n * w := by rw [hw]; field_simp
    have e1 : q 1 = n * x := by rw [hx]; field_simp
    have e2 : q 2 = n * y := by rw [hy]; field_simp
    have e3 : q 3 = n * z := by rw [hz]; field_simp
    rw [mul_assoc, eq_inv_mul_iff_mul_eq₀ hQ, e0, e1, e2, e3]
    ext <;> simp only [Quaternion.re_mul, Quaternion.imI_mul, Quaternion.imJ_mul, Quaternion.imK_mul, quat_re,
      quat_imI, quat_imJ, quat_imK] <;> simp [Matrix.mulVec, dotProduct, Fin.sum_univ_three]
    · linear_combination (-n * (x * v 0 + y * v 1 + z * v 2)) * hu
    · linear_combination (n * w * v 0 + n * (z * v 1 - y * v 2)) * hu
    · linear_combination (n * w * v 1 + n * (x * v 2 - z * v 0)) * hu
    · linear_combination (n * w * v 2 + n * (y * v 0 - x * v 1)) * hu

example : ∃ m, quaternion2orient ![1, 2, 3, 4] = .ok m ∧ IsRotation m :=
  (quaternion2orient_spec ![1, 2, 3, 4] (by intro h; simpa using congrFun h 0)).imp fun _ h => ⟨h.1, h.2.1⟩

/-- **C16.** `q` and `-q` are the same orientation. -/
theorem quaternion2orient_neg (q : Fin 4 → ℝ) : quaternion2orient (-q) = quaternion2orient q := by
  unfold quaternion2orient scipyFromQuat
  simp only [Pi.neg_apply, neg_sq, neg_div]
  split_ifs
  · rfl
  · simp only [Except.map, neg_mul_neg]

/-- **C16.** A zero quaternion is an error. -/
theorem quaternion2orient_zero : quaternion2orient 0 = .error .valueError := by
  unfold quaternion2orient scipyFromQuat
  simp [Except.map]

end Dolfyn
