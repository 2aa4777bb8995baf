import Verif.Lemmas.RotateTotal

/-! Changing the orientation matrix by a planar rotation turns the earth-frame data. -/

namespace Dolfyn

open Spec

variable {T : Type}

/-- Rotation of the horizontal components by `-angle` degrees, i.e. clockwise by `angle`. -/
noncomputable def cw (angle : ℝ) : Matrix (Fin 2) (Fin 2) ℝ := rot2 (-(deg2rad angle))

theorem applyM_rotDec (angle : ℝ) (v : ℕ → ℝ) : applyM (rotDec angle) v = applyM (cw angle) v := by
  funext i
  match i with
  | 0 => simp [applyM, rotDec, cw, rot2, Fin.sum_univ_three, Fin.sum_univ_two]
  | 1 => simp [applyM, rotDec, cw, rot2, Fin.sum_univ_three, Fin.sum_univ_two]
  | 2 => simp [applyM, rotDec, Fin.sum_univ_three]
  | i + 3 => simp [applyM]

theorem applyM_ext4_rotDec (angle : ℝ) (R : M3) (v : ℕ → ℝ) :
    applyM (ext4 (rotDec angle * R)) v = applyM (cw angle) (applyM (ext4 R) v) := by
  funext i
  match i with
  | 0 =>
    simp [applyM, rotDec, cw, rot2, ext4, Matrix.mul_apply, Fin.sum_univ_four,
      Fin.sum_univ_three, Fin.sum_univ_two]
    ring
  | 1 =>
    simp [applyM, rotDec, cw, rot2, ext4, Matrix.mul_apply, Fin.sum_univ_four,
      Fin.sum_univ_three, Fin.sum_univ_two]
    ring
  | 2 =>
    simp [applyM, rotDec, cw, rot2, ext4, Matrix.mul_apply, Fin.sum_univ_four,
      Fin.sum_univ_three]
  | 3 =>
    simp [applyM, rotDec, cw, rot2, ext4, Matrix.mul_apply, Fin.sum_univ_four,
      Fin.sum_univ_three]
  | i + 4 => simp [applyM]

theorem rotDec_add (a b : ℝ) : rotDec a * rotDec b = rotDec (a + b) := by
  have h : deg2rad (a + b) = deg2rad a + deg2rad b := by unfold deg2rad; ring
  have e1 := Real.cos_add (deg2rad a) (deg2rad b)
  have e2 := Real.sin_add (deg2rad a) (deg2rad b)
  ext i j
  fin_cases i <;> fin_cases j <;>
    simp [rotDec, Matrix.mul_apply, Fin.sum_univ_three, h, e1, e2, -neg_add_rev] <;> ring

theorem rotDec_comm (a b : ℝ) : rotDec a * rotDec b = rotDec b * rotDec a := by
  rw [rotDec_add, rotDec_add, add_comm]

theorem rotDec_zero : rotDec 0 = 1 := by
  ext i j
  fin_cases i <;> fin_cases j <;> simp [rotDec, deg2rad]

theorem rotDec_orth (a : ℝ) : Orthonormal (rotDec a) := by
  have := Real.cos_sq_add_sin_sq (deg2rad a)
  unfold Orthonormal
  ext i j
  fin_cases i <;> fin_cases j <;>
    simp [rotDec, Matrix.mul_apply, Fin.sum_univ_three] <;> nlinarith

theorem rot2_add (a b : ℝ) : rot2 a * rot2 b = rot2 (a + b) := by
  have e1 := Real.cos_add a b
  have e2 := Real.sin_add a b
  ext i j
  fin_cases i <;> fin_cases j <;>
    simp [rot2, Matrix.mul_apply, Fin.sum_univ_two, e1, e2] <;> ring

/-- Forward `_inst2earth` with the orientation matrix `m · Rdecᵀ` is the old one followed by
a clockwise turn. -/
theorem i2eVar_dec {inst : Inst} {down : Bool} {m : T → M3} {v v' : RVar T} (angle : ℝ)
    (h : i2eVar inst false down m v = .ok v') :
    i2eVar inst false down (fun t => m t * (rotDec angle).transpose) v
      = .ok (v'.rot fun _ => cw angle) := by
  have key3 : ∀ (A : T → M3),
      v.rot (fun t => rotDec angle * A t) = (v.rot A).rot (fun _ => cw angle) := by
    intro A
    unfold RVar.rot
    congr 1
    funext t
    rw [applyM_mul, applyM_rotDec]
  have tr : ∀ t, (m t * (rotDec angle).transpose).transpose = rotDec angle * (m t).transpose := by
    intro t; rw [Matrix.transpose_mul, Matrix.transpose_transpose]
  unfold i2eVar at h ⊢
  cases inst <;> simp only [Bool.false_eq_true, if_false, sigMat3, sigMat4, tr] at h ⊢
  · by_cases h3 : v.n = 3
    · simp only [h3, ne_eq, not_true, if_false] at h ⊢
      cases h; rw [key3]
    · simp [h3] at h
  · by_cases h3 : v.n = 3
    · simp only [h3, ne_eq, not_true, if_false] at h ⊢
      cases h; rw [key3]
    · simp [h3] at h
  · by_cases h3 : v.n = 3
    · simp only [h3, if_true] at h ⊢
      cases h
      cases down
      · simp only [Bool.false_eq_true, if_false]; rw [key3]
      · simp only [if_true, Matrix.mul_assoc]; rw [key3]
    · by_cases h4 : v.n = 4
      · simp only [h4, if_true, show ¬ ((4 : ℕ) = 3) by norm_num, if_false] at h ⊢
        cases h
        congr 1
        unfold RVar.rot
        congr 1
        funext t
        cases down
        · simp only [Bool.false_eq_true, if_false]
          rw [applyM_ext4_rotDec]
        · simp only [if_true]
          rw [applyM_mul, applyM_ext4_rotDec, applyM_mul]
      · simp [h3, h4] at h
  · by_cases h3 : v.n < 3
    · simp [h3] at h
    · simp only [h3, if_false] at h ⊢
      cases h; rw [key3]
  · cases h

/-- The bookkeeping part of `set_declination`: new matrix, headings and attribute. -/
noncomputable def decUpd (angle declin : ℝ) (m : T → M3) (ds : RDS T) : RDS T :=
  { ds with
    orientmat := some fun t => m t * (rotDec angle).transpose
    heading := ds.heading.map fun h t => h t + angle
    principalHeading := ds.principalHeading.map (· + angle)
    declination := some declin }

theorem setDeclination_not_earth {fuel : ℕ} {declin : ℝ} {ds : RDS T} {m : T → M3}
    (hf : ds.coordSys ≠ .earth) (hm : ds.orientmat = some m) :
    setDeclination fuel declin ds = some (.ok (decUpd (decAngle declin ds) declin m ds)) := by
  unfold setDeclination
  simp only [hf, if_false, hm, Bool.false_eq_true]
  rfl

theorem beam2inst_upd {r : Bool} {ds ds' : RDS T} (om : Option (T → M3)) (hd : Option (T → ℝ))
    (ph dc : Option ℝ) (h : beam2inst r ds = .ok ds') :
    beam2inst r { ds with orientmat := om, heading := hd, principalHeading := ph, declination := dc }
      = .ok { ds' with orientmat := om, heading := hd, principalHeading := ph, declination := dc } := by
  have hB : ∀ {r : Bool} {a b : RDS T}, beam2instBase r a = .ok b →
      beam2instBase r { a with orientmat := om, heading := hd, principalHeading := ph, declination := dc }
      = .ok { b with orientmat := om, heading := hd, principalHeading := ph, declination := dc } := by
    intro r a b hab
    obtain ⟨hc, B, hB, hdet, rfl⟩ := beam2instBase_cases hab
    unfold beam2instBase
    cases r
    · simp at hc
      simp [hc, hB]; rfl
    · simp at hc
      simp [hc, hB, hdet]; rfl
  have hI : ∀ {r : Bool} {a b : RDS T}, rotateInst2head r a = .ok b →
      rotateInst2head r { a with orientmat := om, heading := hd, principalHeading := ph, declination := dc }
      = .ok { b with orientmat := om, heading := hd, principalHeading := ph, declination := dc } := by
    intro r a b hab
    rcases rotateInst2head_cases hab with ⟨hi, rfl⟩ | ⟨R, hi, hs, hd, vs, hvs, rfl⟩
    · simp only [rotateInst2head, checkInst2head, hi]
    · simp only [rotateInst2head, checkInst2head, hi, hs, hd, Bool.true_eq_false, not_true, if_false]
      rw [hvs]; rfl
  unfold beam2inst at h ⊢
  simp only
  split at h
  · cases r
    · simp only [Bool.false_eq_true, if_false, bind, Except.bind] at h ⊢
      split at h
      · cases h
      · rename_i d hd
        rw [hB hd]; exact hI h
    · simp only [if_true, bind, Except.bind] at h ⊢
      split at h
      · cases h
      · rename_i d hd
        rw [hI hd]; exact hB h
  · exact hB h

theorem effOmat_some {ds : RDS T} {m : T → M3} (h : ds.orientmat = some m) :
    effOmat ds = .ok m := by
  unfold effOmat; rw [h]

theorem mapM_dec {inst : Inst} {down : Bool} {m : T → M3} (angle : ℝ) {l l' : List (RVar T)}
    (h : l.mapM (i2eVar inst false down m) = .ok l') :
    l.mapM (i2eVar inst false down fun t => m t * (rotDec angle).transpose)
      = .ok (l'.map fun v => v.rot fun _ => cw angle) := by
  induction l generalizing l' with
  | nil => simp only [List.mapM_nil] at h; cases h; rfl
  | cons a l ih =>
    simp only [List.mapM_cons, bind, Except.bind] at h
    split at h
    · cases h
    · rename_i b hb
      split at h
      · cases h
      · rename_i bs hbs
        cases h
        rw [List.mapM_cons, i2eVar_dec angle hb, ih hbs]
        rfl

/-- Forward inst→earth step after the matrix was changed. -/
theorem inst2earth_dec {angle declin : ℝ} {m : T → M3} {ds ds' : RDS T}
    (hm : ds.orientmat = some m) (h : inst2earth false ds = .ok ds') (hd : Option (T → ℝ))
    (ph dc : Option ℝ) :
    inst2earth false { ds with
        orientmat := some fun t => m t * (rotDec angle).transpose
        heading := hd, principalHeading := ph, declination := dc }
      = .ok { ds' with
        orientmat := some fun t => m t * (rotDec angle).transpose
        heading := hd, principalHeading := ph, declination := dc
        vars := ds'.vars.map fun v => v.rot fun _ => cw angle } := by
  obtain ⟨hu, hf, m', hm', _, vs, hvs, rfl⟩ := inst2earth_iff.mp h
  rw [effOmat_some hm] at hm'
  cases hm'
  exact inst2earth_iff.mpr ⟨hu, hf, _, effOmat_some rfl, by simp, _, mapM_dec angle hvs, rfl⟩

theorem setDeclination_earth {fuel : ℕ} {declin : ℝ} {ds d1 : RDS T} {m : T → M3}
    (hfuel : 3 ≤ fuel) (hr : Rotatable ds) (hf : ds.coordSys = .earth) (hm : ds.orientmat = some m)
    {b : Bool} (hc : checkInst2head ds = .ok b) (h : inst2earth true ds = .ok d1) :
    setDeclination fuel declin ds = some (.ok
      { decUpd (decAngle declin ds) declin m ds with
        vars := ds.vars.map fun v => v.rot fun _ => cw (decAngle declin ds) }) := by
  obtain ⟨hback, hs, hf1, _⟩ := inst2earth_undo true hr (by rw [hf]; decide) h
  have hu : ds.inst ≠ .unknown := (inst2earth_iff.mp h).1
  -- the first rotation, on the dataset without declination attribute
  have h0 : inst2earth true { ds with declination := none } = .ok { d1 with declination := none } := by
    obtain ⟨hu, hf, m', hm', hdet, vs, hvs, rfl⟩ := inst2earth_iff.mp h
    exact inst2earth_iff.mpr ⟨hu, hf, m', hm', hdet, vs, hvs, rfl⟩
  have r0 : rotate2 fuel .inst { ds with declination := none }
      = some (.ok { d1 with declination := none }) := by
    rw [rotate2_eq (i := 2) (j := 1) fuel { ds with declination := none }
      (by show Pos ds.coordSys 2; rw [hf]; exact .earth) .inst hfuel hu hc]
    rw [show steps 2 1 = [(1, true)] by decide]
    simp only [List.foldlM_cons, oneStep, h0, bind, Except.bind, List.foldlM_nil]
    rfl
  have hm1 : d1.orientmat = some m := by
    have := congrArg RDS.orientmat hs
    simp only at this
    rw [← this, hm]
  have h1 := inst2earth_dec (angle := decAngle declin ds) (declin := declin) hm1 hback
    (d1.heading.map fun h t => h t + decAngle declin ds) d1.principalHeading none
  have hu1 : d1.inst ≠ .unknown := by rw [hs.inst_eq]; exact hu
  have r1 := rotate2_eq (i := 1) (j := 2) (out := .earth) fuel
    { d1 with
        orientmat := some fun t => m t * (rotDec (decAngle declin ds)).transpose
        heading := d1.heading.map fun h t => h t + decAngle declin ds, declination := none }
    (by rw [show ({ d1 with
        orientmat := some fun t => m t * (rotDec (decAngle declin ds)).transpose
        heading := d1.heading.map fun h t => h t + decAngle declin ds, declination := none }
          : RDS T).coordSys = d1.coordSys from rfl, hf1]; exact .inst) .earth hfuel hu1
    (b := b) (by rw [← hc, ← hs.head_eq]; rfl)
  rw [show steps 1 2 = [(1, false)] by decide] at r1
  simp only [List.foldlM_cons, oneStep, bind, Except.bind, List.foldlM_nil] at r1
  have e5 := congrArg RDS.principalHeading hs
  have e6 := congrArg RDS.heading hs
  simp only at e5 e6
  unfold setDeclination
  dsimp only
  rw [if_pos hf, r0]
  dsimp only
  rw [hm1]
  dsimp only
  rw [if_pos rfl]
  rw [r1, h1]
  simp only [pure, Except.pure, decUpd, ← e5, ← e6]

end Dolfyn
