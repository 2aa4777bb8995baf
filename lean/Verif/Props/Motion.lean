import Verif.Model.Motion
import Verif.Props.Rotate
import Mathlib.LinearAlgebra.CrossProduct
import Mathlib.Tactic.IntervalCases
import Mathlib.Tactic.LinearCombination

/-!
C63 (rotational velocity), C64 (motion correction), C65 (duty cycle), C77 (separate probes),
C78 (constant acceleration).
-/

namespace Dolfyn

open Finset Spec

/-! ### C63 -/

/-- C63: the rotation-induced velocity is the cross product of the rotation rate with the lever arm. -/
theorem velRot_cross (d w : Fin 3 → ℝ) : velRot d w = crossProduct w d := by
  rw [cross_apply]
  unfold velRot
  congr 1
  · ring
  · congr 1
    · ring
    · congr 1
      ring

/-- C63: it is orthogonal to the lever arm and to the rotation axis, and its length is the area of the
parallelogram they span. -/
theorem velRot_orthogonal (d w : Fin 3 → ℝ) :
    dotProduct d (velRot d w) = 0 ∧ dotProduct w (velRot d w) = 0 ∧
      dotProduct (velRot d w) (velRot d w) =
        dotProduct w w * dotProduct d d - dotProduct w d ^ 2 := by
  simp only [velRot, dotProduct, Fin.sum_univ_three, Matrix.cons_val_zero, Matrix.cons_val_one,
    Matrix.cons_val]
  refine ⟨by ring, by ring, by ring⟩

/-- C63: no rotation, no lever arm, or rotation about the lever arm itself induce no velocity. -/
theorem velRot_zero (d w : Fin 3 → ℝ) (c : ℝ) : velRot d 0 = 0 ∧ velRot 0 w = 0 ∧
    velRot d (c • d) = 0 := by
  refine ⟨?_, ?_, ?_⟩ <;> funext i <;> fin_cases i <;> simp [velRot] <;> ring

theorem velRot_add (d w w' : Fin 3 → ℝ) :
    velRot d (w + w') = velRot d w + velRot d w' := by
  funext i; fin_cases i <;> simp [velRot] <;> ring

/-- C63: it does not matter whether the velocity is rotated to the earth frame or computed from vectors
that already are in the earth frame. -/
theorem velRot_frame (R : M3) (hR : IsRotation R) (d w : Fin 3 → ℝ) :
    velRot (R.mulVec d) (R.mulVec w) = R.mulVec (velRot d w) := by
  obtain ⟨h, hd⟩ := hR
  have hinv : R.adjugate = R.transpose := by
    have h1 : R.transpose * R = 1 := orth_comm h
    calc R.adjugate = R.transpose * R * R.adjugate := by rw [h1, one_mul]
      _ = R.transpose := by rw [Matrix.mul_assoc, Matrix.mul_adjugate, hd, one_smul, mul_one]
  have e : ∀ i j, R.adjugate i j = R j i := fun i j => by rw [hinv]; rfl
  have e00 := e 0 0; have e01 := e 0 1; have e02 := e 0 2
  have e10 := e 1 0; have e11 := e 1 1; have e12 := e 1 2
  have e20 := e 2 0; have e21 := e 2 1; have e22 := e 2 2
  rw [Matrix.adjugate_fin_three] at e00 e01 e02 e10 e11 e12 e20 e21 e22
  simp at e00 e01 e02 e10 e11 e12 e20 e21 e22
  set v0 := d 2 * w 1 - d 1 * w 2 with hv0
  set v1 := d 0 * w 2 - d 2 * w 0 with hv1
  set v2 := d 1 * w 0 - d 0 * w 1 with hv2
  funext i
  match i with
  | 0 =>
    simp only [velRot, Matrix.mulVec, dotProduct, Fin.sum_univ_three, Matrix.cons_val_zero,
      Matrix.cons_val_one, Matrix.cons_val]
    linear_combination v0 * e00 + v1 * e10 + v2 * e20
  | 1 =>
    simp only [velRot, Matrix.mulVec, dotProduct, Fin.sum_univ_three, Matrix.cons_val_zero,
      Matrix.cons_val_one, Matrix.cons_val]
    linear_combination v0 * e01 + v1 * e11 + v2 * e21
  | 2 =>
    simp only [velRot, Matrix.mulVec, dotProduct, Fin.sum_univ_three, Matrix.cons_val_zero,
      Matrix.cons_val_one, Matrix.cons_val]
    linear_combination v0 * e02 + v1 * e12 + v2 * e22

/-! ### C64 -/

/-- The values of a three-component variable. -/
def Spec.vec (ds : RDS ℕ) (name : String) : Option (ℕ → Fin 3 → ℝ) :=
  (ds.findVar name).map RVar.v3

theorem mkVar3_v3 (name : String) (f : ℕ → Fin 3 → ℝ) : (mkVar3 name f).v3 = f := by
  funext t i
  simp [mkVar3, RVar.v3]

theorem rot_v3 (v : RVar ℕ) (M : ℕ → M3) : (v.rot M).v3 = fun t => (M t).mulVec (v.v3 t) := by
  funext t i
  simp [RVar.v3, RVar.rot, applyM, Matrix.mulVec, dotProduct]

/-- Name lookup through an update that keeps names. -/
theorem findVar_map (ds : RDS ℕ) (vs : List (RVar ℕ)) (g : RVar ℕ → RVar ℕ)
    (hg : ∀ v, (g v).name = v.name) (name : String) :
    ({ ds with vars := vs.map g } : RDS ℕ).findVar name =
      (({ ds with vars := vs } : RDS ℕ).findVar name).map g := by
  unfold RDS.findVar
  simp only [List.find?_map]
  congr 2
  funext v
  simp [hg]

theorem findVar_name {ds : RDS ℕ} {name : String} {v : RVar ℕ} (h : ds.findVar name = some v) :
    v.name = name := by
  have := List.find?_some h
  simpa using this

theorem findVar_append (ds : RDS ℕ) (a b : List (RVar ℕ)) (name : String) :
    ({ ds with vars := a ++ b } : RDS ℕ).findVar name =
      (({ ds with vars := a } : RDS ℕ).findVar name).or
        (({ ds with vars := b } : RDS ℕ).findVar name) := by
  unfold RDS.findVar
  simp only [List.find?_append]

theorem inst2earthSel_eq (r : Bool) (sel : String → Bool) (omat : ℕ → M3) (ds : RDS ℕ)
    (h : ∀ v ∈ ds.vars, v.n = 3) : inst2earthSel r sel omat ds = .ok { ds with
      vars := ds.vars.map fun v => if sel v.name then
        v.rot (fun t => if r then omat t else (omat t).transpose) else v
      coordSys := if r then .inst else .earth } := by
  unfold inst2earthSel
  rw [mapM_ok_of_forall (g := fun v => if sel v.name then
        v.rot (fun t => if r then omat t else (omat t).transpose) else v) ds.vars]
  · rfl
  · intro v hv
    by_cases hs : sel v.name = true
    · simp [hs, h v hv]
    · simp [hs]

/-- What correct_motion needs of a dataset in the instrument frame: the IMU variables, an
orientation matrix, a known probe position, only three-component variables, and no earlier
correction. -/
structure Spec.MotionReady (m : MDS) (vel acc ang : RVar ℕ) (omat : ℕ → M3) (hv : Fin 3 → ℝ) :
    Prop where
  frame : m.rds.coordSys = .inst
  inst : m.rds.inst = .vector
  omat : m.rds.orientmat = some omat
  vel : m.rds.findVar "vel" = some vel
  acc : m.rds.findVar "accel" = some acc
  ang : m.rds.findVar "angrt" = some ang
  head : m.headVec = some hv
  check : ∃ b, checkInst2head m.rds = .ok b
  size : ∀ v ∈ m.rds.vars, v.n = 3
  fresh : ∀ nm ∈ ["velrot", "velacc", "acclow", "vel_raw"], m.rds.findVar nm = none
  accOk : m.accelNaN = false
  angOk : m.angrtNaN = false
  imu : m.hasImu = true
  first : m.corrected = false

/-- The frame change of a result: identity or instrument to earth. -/
noncomputable def Spec.toFrame (toEarth : Bool) (omat : ℕ → M3) (x : ℕ → Fin 3 → ℝ) :
    ℕ → Fin 3 → ℝ :=
  fun t => if toEarth then (omat t).transpose.mulVec (x t) else x t

/-- The frame change of something computed in the earth frame. -/
noncomputable def Spec.fromEarth (toEarth : Bool) (omat : ℕ → M3) (x : ℕ → Fin 3 → ℝ) :
    ℕ → Fin 3 → ℝ :=
  fun t => if toEarth then x t else (omat t).mulVec (x t)

theorem findVar_setVals (name : String) (f : ℕ → Fin 3 → ℝ) (ds : RDS ℕ) (nm : String) :
    (setVals name f ds).findVar nm =
      (ds.findVar nm).map fun v => if v.name = name then mkVar3 name f else v := by
  unfold setVals
  rw [findVar_map]
  intro v
  split
  · rename_i h
    rw [h]; rfl
  · rfl

/-- Variables before the last step: `ds1` of `motionFinish` after the rotation. -/
noncomputable def finishRot (toEarth : Bool) (omat : ℕ → M3) (k : MotionTerms) (v : RVar ℕ) : RVar ℕ :=
  if toEarth then
    if v.name = "accel" then mkVar3 "accel" k.accel
    else if v.name = "acclow" ∨ v.name = "velacc" then v
    else v.rot fun t => (omat t).transpose
  else if v.name = "acclow" ∨ v.name = "velacc" then v.rot omat else v

theorem finishRot_name (toEarth : Bool) (omat : ℕ → M3) (k : MotionTerms) (v : RVar ℕ) :
    (finishRot toEarth omat k v).name = v.name := by
  unfold finishRot
  split_ifs with h1 h2 <;> first | rfl | (rw [h2]; rfl)

theorem finish_rotated (toEarth : Bool) (omat : ℕ → M3) (k : MotionTerms) (ds : RDS ℕ)
    (hsize : ∀ v ∈ ds.vars, v.n = 3) :
    motionRotate toEarth omat k ds = .ok { ds with
      vars := ds.vars.map (finishRot toEarth omat k)
      coordSys := if toEarth then .earth else .inst } := by
  unfold motionRotate
  cases toEarth with
  | true =>
    rw [if_pos rfl, inst2earthSel_eq]
    · simp only [setVals, List.map_map, Bool.false_eq_true, if_false, if_true]
      congr 2
      apply List.map_congr_left
      intro v _
      simp only [Function.comp_apply, finishRot, if_true]
      by_cases h1 : v.name = "accel"
      · simp [h1, mkVar3]
      · simp only [if_neg h1]
        by_cases h2 : v.name = "acclow" ∨ v.name = "velacc"
        · rw [if_pos h2, if_neg]
          simp only [decide_eq_true_eq]
          tauto
        · rw [if_neg h2, if_pos]
          simp only [decide_eq_true_eq]
          tauto
    · intro v hv
      simp only [setVals, List.mem_map] at hv
      obtain ⟨w, hw, rfl⟩ := hv
      split
      · rfl
      · exact hsize w hw
  | false =>
    rw [if_neg (by simp), inst2earthSel_eq _ _ _ _ hsize]
    simp only [if_true, Bool.false_eq_true, if_false]
    congr 2
    apply List.map_congr_left
    intro v _
    simp only [finishRot, Bool.false_eq_true, if_false, decide_eq_true_eq]

/-- The final step of motion correction. -/
theorem motionFinish_spec (toEarth : Bool) (omat : ℕ → M3) (k : MotionTerms) (ds : RDS ℕ)
    (vel : RVar ℕ) (hvel : ds.findVar "vel" = some vel) (hsize : ∀ v ∈ ds.vars, v.n = 3)
    (hfresh : ∀ nm ∈ ["velrot", "velacc", "acclow", "vel_raw"], ds.findVar nm = none) :
    ∃ out, motionFinish toEarth omat k ds = .ok out ∧
      out.coordSys = (if toEarth then .earth else .inst) ∧
      vec out "vel_raw" = some (toFrame toEarth omat vel.v3) ∧
      vec out "velrot" = some (toFrame toEarth omat k.velrot) ∧
      vec out "velacc" = some (fromEarth toEarth omat k.velacc) ∧
      vec out "acclow" = some (fromEarth toEarth omat k.acclow) ∧
      vec out "vel" = some (fun t => toFrame toEarth omat vel.v3 t +
        (toFrame toEarth omat k.velrot t + fromEarth toEarth omat k.velacc t)) ∧
      (∀ nm v, ds.findVar nm = some v → nm ≠ "vel" → nm ≠ "accel" →
        vec out nm = some (toFrame toEarth omat v.v3)) ∧
      out = { ds with vars := out.vars, coordSys := out.coordSys } := by
  set ds1 : RDS ℕ := { ds with vars := ds.vars ++
    [mkVar3 "velrot" k.velrot, mkVar3 "velacc" k.velacc, mkVar3 "acclow" k.acclow] } with hds1
  have hs1 : ∀ v ∈ ds1.vars, v.n = 3 := by
    intro v hv
    simp only [hds1, List.mem_append, List.mem_cons, List.not_mem_nil, or_false] at hv
    rcases hv with hv | rfl | rfl | rfl
    · exact hsize v hv
    all_goals rfl
  have hrot := finish_rotated toEarth omat k ds1 hs1
  set ds2 : RDS ℕ := { ds1 with
      vars := ds1.vars.map (finishRot toEarth omat k)
      coordSys := if toEarth then .earth else .inst } with hds2
  have find1 : ∀ nm, ds1.findVar nm = (ds.findVar nm).or (({ ds with vars :=
      [mkVar3 "velrot" k.velrot, mkVar3 "velacc" k.velacc, mkVar3 "acclow" k.acclow] } :
      RDS ℕ).findVar nm) := fun nm => findVar_append ds ds.vars _ nm
  have find2 : ∀ nm, ds2.findVar nm = (ds1.findVar nm).map (finishRot toEarth omat k) := fun nm =>
    findVar_map _ ds1.vars _ (finishRot_name toEarth omat k) nm
  have f_raw : ds2.findVar "vel_raw" = none := by
    rw [find2, find1, hfresh "vel_raw" (by simp)]
    simp [RDS.findVar, mkVar3]
  have f_vr : ds2.findVar "velrot" =
      some (finishRot toEarth omat k (mkVar3 "velrot" k.velrot)) := by
    rw [find2, find1, hfresh "velrot" (by simp)]
    simp [RDS.findVar, mkVar3]
  have f_va : ds2.findVar "velacc" =
      some (finishRot toEarth omat k (mkVar3 "velacc" k.velacc)) := by
    rw [find2, find1, hfresh "velacc" (by simp)]
    simp [RDS.findVar, mkVar3]
  have f_al : ds2.findVar "acclow" =
      some (finishRot toEarth omat k (mkVar3 "acclow" k.acclow)) := by
    rw [find2, find1, hfresh "acclow" (by simp)]
    simp [RDS.findVar, mkVar3]
  have f_vel : ds2.findVar "vel" = some (finishRot toEarth omat k vel) := by
    rw [find2, find1, hvel]
    rfl
  -- values of the rotated variables
  have g_to : ∀ v : RVar ℕ, v.name ≠ "accel" → v.name ≠ "acclow" → v.name ≠ "velacc" →
      (finishRot toEarth omat k v).v3 = toFrame toEarth omat v.v3 := by
    intro v h1 h2 h3
    unfold finishRot toFrame
    cases toEarth <;> simp [h1, h2, h3, rot_v3]
  have g_from : ∀ v : RVar ℕ, v.name ≠ "accel" → (v.name = "acclow" ∨ v.name = "velacc") →
      (finishRot toEarth omat k v).v3 = fromEarth toEarth omat v.v3 := by
    intro v h1 h2
    unfold finishRot fromEarth
    cases toEarth
    · simp [h2, rot_v3]
    · simp [h1, h2]
  have hvn := findVar_name hvel
  set vel' := finishRot toEarth omat k vel with hvel'
  have hval : vel'.v3 = toFrame toEarth omat vel.v3 := g_to vel (by rw [hvn]; decide)
    (by rw [hvn]; decide) (by rw [hvn]; decide)
  set ds3 : RDS ℕ := { ds2 with vars := ds2.vars ++ [{ vel' with name := "vel_raw" }] } with hds3
  set fsum : ℕ → Fin 3 → ℝ := fun t i => vel'.val t i +
    ((finishRot toEarth omat k (mkVar3 "velrot" k.velrot)).val t i +
      (finishRot toEarth omat k (mkVar3 "velacc" k.velacc)).val t i) with hfsum
  have hfin : motionFinish toEarth omat k ds = .ok (setVals "vel" fsum ds3) := by
    unfold motionFinish
    rw [← hds1]
    dsimp only
    rw [hrot]
    simp only [bind, Except.bind]
    rw [f_vel, f_vr, f_va]
    rfl
  have find3 : ∀ nm, ds3.findVar nm = (ds2.findVar nm).or
      (({ ds2 with vars := [{ vel' with name := "vel_raw" }] } : RDS ℕ).findVar nm) := fun nm =>
    findVar_append ds2 ds2.vars _ nm
  have vecout : ∀ nm v, ds2.findVar nm = some v → nm ≠ "vel" →
      vec (setVals "vel" fsum ds3) nm = some v.v3 := by
    intro nm v h hne
    have := findVar_name h
    unfold vec
    rw [findVar_setVals, find3, h, Option.some_or, Option.map_some, Option.map_some,
      if_neg (by rw [this]; exact hne)]
  refine ⟨setVals "vel" fsum ds3, hfin, rfl, ?_, ?_, ?_, ?_, ?_, ?_, rfl⟩
  · unfold vec
    rw [findVar_setVals, find3, f_raw]
    simp only [RDS.findVar, List.find?_cons, decide_true, Option.none_or, Option.map_some]
    rw [if_neg (by decide), ← hval]
    rfl
  · rw [vecout _ _ f_vr (by decide), g_to _ (by simp [mkVar3]) (by simp [mkVar3]) (by simp [mkVar3]),
      mkVar3_v3]
  · rw [vecout _ _ f_va (by decide), g_from _ (by simp [mkVar3]) (by simp [mkVar3]), mkVar3_v3]
  · rw [vecout _ _ f_al (by decide), g_from _ (by simp [mkVar3]) (by simp [mkVar3]), mkVar3_v3]
  · unfold vec
    rw [findVar_setVals, find3, f_vel, Option.some_or, Option.map_some, Option.map_some,
      if_pos (by rw [hvel', finishRot_name]; exact hvn), mkVar3_v3]
    congr 1
    funext t
    have h1 := congrFun hval t
    have h2 := congrFun (g_to (mkVar3 "velrot" k.velrot) (by simp [mkVar3]) (by simp [mkVar3])
      (by simp [mkVar3])) t
    have h3 := congrFun (g_from (mkVar3 "velacc" k.velacc) (by simp [mkVar3]) (by simp [mkVar3])) t
    rw [mkVar3_v3] at h2 h3
    rw [← h1, ← h2, ← h3]
    rfl
  · intro nm v h h1 h2
    have hn := findVar_name h
    have h3 : nm ≠ "acclow" := by
      rintro rfl
      rw [hfresh "acclow" (by simp)] at h
      cases h
    have h4 : nm ≠ "velacc" := by
      rintro rfl
      rw [hfresh "velacc" (by simp)] at h
      cases h
    rw [vecout nm (finishRot toEarth omat k v) (by rw [find2, find1, h]; rfl) h1,
      g_to v (by rw [hn]; exact h2) (by rw [hn]; exact h3) (by rw [hn]; exact h4)]

/-- The series used by `correct_motion` exist (the filters accept the record). -/
def Spec.MotionSeries (F : Filters) (argA argV : Option ℝ) (m : MDS) (acc : RVar ℕ) (omat : ℕ → M3)
    (low vacc : ℕ → Fin 3 → ℝ) : Prop :=
  ∃ duty, checkDuty m.len m.time m.nBurst m.interval = .ok duty ∧
    ∀ i : Fin 3, accBursts F m.fs (checkFiltfreqs m.accelFreqAttr m.velFreqAttr argA argV).1
      (checkFiltfreqs m.accelFreqAttr m.velFreqAttr argA argV).2 m.len duty
      (fun t => (omat t).transpose.mulVec (acc.v3 t) i) = .ok (fun t => low t i, fun t => vacc t i)

theorem motionChecks_ok {m : MDS} {vel acc ang : RVar ℕ} {omat : ℕ → M3} {hv : Fin 3 → ℝ}
    (h : MotionReady m vel acc ang omat hv) : motionChecks m = .ok () := by
  unfold motionChecks
  rw [h.acc, h.ang, h.accOk, h.angOk, h.imu, h.first, h.fresh "velrot" (by simp)]
  rfl

/-- C64: on ready data the correction succeeds and the result is
`vel = vel_raw + velrot + velacc`, all in the requested frame, where `vel_raw` is the measured
velocity, `velrot` the cross product of rotation rate and lever arm and `velacc` the integrated
high-passed earth-frame acceleration. -/
theorem correct_motion_spec (fuel : ℕ) (F : Filters) (argA argV : Option ℝ) (toEarth : Bool) (m : MDS)
    (vel acc ang : RVar ℕ) (omat : ℕ → M3) (hv : Fin 3 → ℝ) (low vacc : ℕ → Fin 3 → ℝ)
    (h : MotionReady m vel acc ang omat hv) (hs : MotionSeries F argA argV m acc omat low vacc) :
    ∃ out, correctMotion fuel F argA argV toEarth m = some (.ok out) ∧
      out.rds.coordSys = (if toEarth then .earth else .inst) ∧
      vec out.rds "vel_raw" = some (toFrame toEarth omat vel.v3) ∧
      vec out.rds "velrot" = some (toFrame toEarth omat
        fun t => crossProduct (ang.v3 t) fun i => hv i - body2imu i) ∧
      vec out.rds "velacc" = some (fromEarth toEarth omat vacc) ∧
      vec out.rds "acclow" = some (fromEarth toEarth omat low) ∧
      vec out.rds "angrt" = some (toFrame toEarth omat ang.v3) ∧
      vec out.rds "vel" = some (fun t => toFrame toEarth omat vel.v3 t +
        (toFrame toEarth omat (fun t => crossProduct (ang.v3 t) fun i => hv i - body2imu i) t +
          fromEarth toEarth omat vacc t)) ∧
      out.corrected = true := by
  obtain ⟨duty, hd, hser⟩ := hs
  obtain ⟨b, hb⟩ := h.check
  set f := checkFiltfreqs m.accelFreqAttr m.velFreqAttr argA argV with hf
  set k : MotionTerms := ⟨accelEarth omat acc, fun t => ![low t 0, low t 1, low t 2],
    fun t => ![vacc t 0, vacc t 1, vacc t 2],
    fun t => velRot (fun i => hv i - body2imu i) (ang.v3 t)⟩ with hk
  have hterms : motionTerms F f.1 f.2 m m.rds omat acc ang = .ok k := by
    have h0 := hser 0
    have h1 := hser 1
    have h2 := hser 2
    unfold motionTerms accelEarth
    simp only [hd, bind, Except.bind]
    simp only [h0, h1, h2, h.head, h.inst]
    rfl
  have e3 : ∀ x : ℕ → Fin 3 → ℝ, (fun t => ![x t 0, x t 1, x t 2]) = x := by
    intro x
    funext t i
    fin_cases i <;> rfl
  obtain ⟨out, ho, h1, h2, h3, h4, h5, h6, h7, _⟩ :=
    motionFinish_spec toEarth omat k m.rds vel h.vel h.size h.fresh
  refine ⟨{ m with rds := out, corrected := true, accelFreqAttr := some f.1 }, ?_, h1, h2, ?_, ?_, ?_,
    h7 "angrt" ang h.ang (by decide) (by decide), ?_, rfl⟩
  · unfold correctMotion
    rw [motionChecks_ok h]
    simp only [h.frame, if_true, h.omat, h.acc, h.ang, hb, ← hf, bind, Except.bind, hterms, ho]
    rfl
  · rw [h3]
    simp only [hk, velRot_cross]
  · rw [h4]
    simp only [hk, e3]
  · rw [h5]
    simp only [hk, e3]
  · rw [h6]
    simp only [hk, e3, velRot_cross]

/-- C64: choosing the earth or the instrument frame for the output gives the same corrected
velocity, expressed in the two frames. -/
theorem correct_motion_frames (fuel : ℕ) (F : Filters) (argA argV : Option ℝ) (m : MDS)
    (vel acc ang : RVar ℕ) (omat : ℕ → M3) (hv : Fin 3 → ℝ) (low vacc : ℕ → Fin 3 → ℝ)
    (hrot : ∀ t, Orthonormal (omat t))
    (h : MotionReady m vel acc ang omat hv) (hs : MotionSeries F argA argV m acc omat low vacc) :
    ∃ oi oe vi ve, correctMotion fuel F argA argV false m = some (.ok oi) ∧
      correctMotion fuel F argA argV true m = some (.ok oe) ∧
      vec oi.rds "vel" = some vi ∧ vec oe.rds "vel" = some ve ∧
      ∀ t, ve t = (omat t).transpose.mulVec (vi t) := by
  obtain ⟨oi, i1, -, -, -, -, -, -, i2, -⟩ :=
    correct_motion_spec fuel F argA argV false m vel acc ang omat hv low vacc h hs
  obtain ⟨oe, e1, -, -, -, -, -, -, e2, -⟩ :=
    correct_motion_spec fuel F argA argV true m vel acc ang omat hv low vacc h hs
  refine ⟨oi, oe, _, _, i1, e1, i2, e2, fun t => ?_⟩
  simp only [toFrame, fromEarth, Bool.false_eq_true, if_true, if_false]
  rw [Matrix.mulVec_add, Matrix.mulVec_add, Matrix.mulVec_mulVec,
    show (omat t).transpose * omat t = 1 from orth_comm (hrot t), Matrix.one_mulVec]

/-- C64: corrected data is never corrected again. -/
theorem correct_motion_twice (fuel fuel' : ℕ) (F F' : Filters) (a v a' v' : Option ℝ) (e e' : Bool)
    (m out : MDS) (h : correctMotion fuel F a v e m = some (.ok out)) :
    ∃ er, correctMotion fuel' F' a' v' e' out = some (.error er) := by
  have hc : out.corrected = true := by
    unfold correctMotion at h
    split at h
    · cases h
    · simp only at h
      split at h
      · cases h
      · cases h
      · rename_i ds _
        replace h := Option.some.inj h
        simp only [bind, Except.bind] at h
        split at h
        · cases h
        · split at h
          · split at h
            · cases h
            · split at h
              · cases h
              · cases h; rfl
          · cases h
  have hm : ∃ er, motionChecks out = .error er := by
    unfold motionChecks
    rw [hc]
    by_cases h1 : (out.rds.findVar "accel").isNone = true
    · rw [if_pos h1]; exact ⟨_, rfl⟩
    rw [if_neg h1]
    by_cases h2 : out.accelNaN = true
    · rw [if_pos h2]; exact ⟨_, rfl⟩
    rw [if_neg h2]
    by_cases h3 : (out.rds.findVar "angrt").isNone = true
    · rw [if_pos h3]; exact ⟨_, rfl⟩
    rw [if_neg h3]
    by_cases h4 : out.angrtNaN = true
    · rw [if_pos h4]; exact ⟨_, rfl⟩
    rw [if_neg h4, if_pos (Or.inr rfl)]
    exact ⟨_, rfl⟩
  obtain ⟨er, her⟩ := hm
  refine ⟨er, ?_⟩
  unfold correctMotion
  rw [her]

theorem foldlM_names (l : List (ℕ × Bool)) {T : Type} {ds ds' : RDS T}
    (h : l.foldlM oneStep ds = .ok ds') :
    ds'.vars.map RVar.name = ds.vars.map RVar.name := by
  induction l generalizing ds with
  | nil => cases h; rfl
  | cons a l ih =>
    simp only [List.foldlM_cons, bind, Except.bind] at h
    split at h
    · cases h
    · rename_i d hd
      rw [ih h]
      have := oneStep_shapes (k := a.1) (r := a.2) hd
      clear hd h ih
      generalize ds.vars = x at this
      generalize d.vars = y at this
      induction this with
      | nil => rfl
      | cons hab _ ih => simp [hab.2, ih]

theorem findVar_isSome (ds : RDS ℕ) (nm : String) :
    (ds.findVar nm).isSome = true ↔ nm ∈ ds.vars.map RVar.name := by
  unfold RDS.findVar
  rw [List.find?_isSome]
  simp

theorem findVar_isSome_congr {a b : RDS ℕ} (h : a.vars.map RVar.name = b.vars.map RVar.name)
    (nm : String) : (a.findVar nm).isSome = (b.findVar nm).isSome := by
  rw [Bool.eq_iff_iff, findVar_isSome, findVar_isSome, h]

/-- C64: data in any other frame is corrected as the same data rotated to the instrument frame first. -/
theorem correct_motion_any_frame (fuel : ℕ) (hfuel : 3 ≤ fuel) (F : Filters) (a v : Option ℝ) (e : Bool)
    (m : MDS) (d : RDS ℕ) (i : ℕ) (hi : Pos m.rds.coordSys i) (hne : m.rds.coordSys ≠ .inst)
    (hd : rotate2 fuel .inst m.rds = some (.ok d)) :
    correctMotion fuel F a v e m = correctMotion fuel F a v e { m with rds := d } := by
  have hcs := (rotate2_reaches (j := 1) hfuel hi .inst hd).1
  have hnames : d.vars.map RVar.name = m.rds.vars.map RVar.name := by
    rcases rotate2_path (j := 1) hfuel hi .inst (ds := m.rds) (out := .inst) with h1 | ⟨_, er, h1⟩
    · rw [h1] at hd
      exact foldlM_names _ (Option.some.inj hd)
    · rw [h1] at hd; cases hd
  have hs := fun nm => findVar_isSome_congr hnames nm
  have hn : ∀ nm, (d.findVar nm).isNone = (m.rds.findVar nm).isNone := by
    intro nm
    rw [← Option.not_isSome, ← Option.not_isSome, hs]
  have hchk : motionChecks { m with rds := d } = motionChecks m := by
    unfold motionChecks
    simp only [hs, hn]
  unfold correctMotion
  rw [hchk]
  simp only [if_neg hne, hcs, if_true, hd]
  rfl

/-- C64: data without accelerations, with missing samples in the IMU series or without the attribute
`has_imu` is rejected. (The first case gives a KeyError and not the "no IMU" message of the code.) -/
theorem correct_motion_rejects (fuel : ℕ) (F : Filters) (a v : Option ℝ) (e : Bool) (m : MDS) :
    (m.rds.findVar "accel" = none → correctMotion fuel F a v e m = some (.error .keyError)) ∧
    (m.accelNaN = true → ∃ er, correctMotion fuel F a v e m = some (.error er)) ∧
    (m.angrtNaN = true → ∃ er, correctMotion fuel F a v e m = some (.error er)) ∧
    (m.hasImu = false → ∃ er, correctMotion fuel F a v e m = some (.error er)) := by
  have key : ∀ er, motionChecks m = .error er → correctMotion fuel F a v e m = some (.error er) := by
    intro er her
    unfold correctMotion
    rw [her]
  have gen : (m.accelNaN = true ∨ m.angrtNaN = true ∨ m.hasImu = false) →
      ∃ er, motionChecks m = .error er := by
    intro h
    unfold motionChecks
    by_cases h1 : (m.rds.findVar "accel").isNone = true
    · rw [if_pos h1]; exact ⟨_, rfl⟩
    rw [if_neg h1]
    by_cases h2 : m.accelNaN = true
    · rw [if_pos h2]; exact ⟨_, rfl⟩
    rw [if_neg h2]
    by_cases h3 : (m.rds.findVar "angrt").isNone = true
    · rw [if_pos h3]; exact ⟨_, rfl⟩
    rw [if_neg h3]
    by_cases h4 : m.angrtNaN = true
    · rw [if_pos h4]; exact ⟨_, rfl⟩
    rw [if_neg h4]
    by_cases h5 : (m.rds.findVar "velrot").isSome = true ∨ m.corrected = true
    · rw [if_pos h5]; exact ⟨_, rfl⟩
    rw [if_neg h5, if_pos (by tauto)]
    exact ⟨_, rfl⟩
  refine ⟨fun h => key _ ?_, fun h => ?_, fun h => ?_, fun h => ?_⟩
  · unfold motionChecks
    rw [if_pos (by rw [h]; rfl)]
    rfl
  · obtain ⟨er, her⟩ := gen (Or.inl h)
    exact ⟨er, key er her⟩
  · obtain ⟨er, her⟩ := gen (Or.inr (Or.inl h))
    exact ⟨er, key er her⟩
  · obtain ⟨er, her⟩ := gen (Or.inr (Or.inr h))
    exact ⟨er, key er her⟩

/-- A Vector data set of 8 samples with all the filtering switched off, used to show that the hypotheses
above can be met: non-trivial velocity, acceleration, rotation rate and orientation. -/
noncomputable def exMDS : MDS where
  rds := {
    inst := .vector
    coordSys := .inst
    vars := [⟨"vel", 3, fun t i => t + i⟩, ⟨"accel", 3, fun t i => t * i⟩, ⟨"angrt", 3, fun t i => i - t⟩]
    beam2inst := none
    orientmat := some fun _ => !![0, 1, 0; -1, 0, 0; 0, 0, 1]
    calcOmat := fun _ => .error .unboundLocal
    down := false
    principalHeading := none
    declination := none
    heading := none
    inst2head := none
    inst2headSet := false }
  len := 8
  fs := 16
  accelNaN := false
  angrtNaN := false
  hasImu := true
  corrected := false
  accelFreqAttr := none
  velFreqAttr := none
  nBurst := none
  interval := none
  time := fun i => i
  headVec := some ![0.1, 0.2, 0.3]

example (F : Filters) : ∃ vel acc ang omat hv low vacc, MotionReady exMDS vel acc ang omat hv ∧
    MotionSeries F (some 0) (some 0) exMDS acc omat low vacc := by
  refine ⟨⟨"vel", 3, fun t i => t + i⟩, ⟨"accel", 3, fun t i => t * i⟩, ⟨"angrt", 3, fun t i => i - t⟩,
    fun _ => !![0, 1, 0; -1, 0, 0; 0, 0, 1], ![0.1, 0.2, 0.3],
    fun _ i => seriesMean 8 fun t => (Matrix.transpose !![0, 1, 0; -1, 0, 0; 0, 0, 1] : M3).mulVec
      (RVar.v3 ⟨"accel", 3, fun t i => t * i⟩ t) i,
    fun t i => cumTrap 16 (fun t => (Matrix.transpose !![0, 1, 0; -1, 0, 0; 0, 0, 1] : M3).mulVec
      (RVar.v3 ⟨"accel", 3, fun t i => t * i⟩ t) i - seriesMean 8 fun t =>
      (Matrix.transpose !![0, 1, 0; -1, 0, 0; 0, 0, 1] : M3).mulVec
        (RVar.v3 ⟨"accel", 3, fun t i => t * i⟩ t) i) t, ?_, none, rfl, ?_⟩
  · refine ⟨rfl, rfl, rfl, ?_, ?_, ?_, rfl, ⟨false, rfl⟩, ?_, ?_, rfl, rfl, rfl, rfl⟩
    · simp [exMDS, RDS.findVar]
    · simp [exMDS, RDS.findVar]
    · simp [exMDS, RDS.findVar]
    · simp [exMDS]
    · simp [exMDS, RDS.findVar]
  · intro i
    have hf : checkFiltfreqs exMDS.accelFreqAttr exMDS.velFreqAttr (some 0) (some 0) = (0, 0) := rfl
    rw [hf]
    unfold accBursts accSeries accLow velAcc
    simp only [if_true, gt_iff_lt, lt_self_iff_false, if_false]
    rfl

/-! ### C78 -/

/-- The low-pass filter has unit gain for constants: adding a constant to its input adds it to its
output. Linear filters of unit gain at zero frequency, such as the Butterworth filters used here,
have this property. -/
def Spec.UnitGain (F : Filters) : Prop :=
  ∀ r n x c, F.lp1 r n (fun t => x t + c) = (F.lp1 r n x).map fun l t => l t + c

theorem accLow_const (F : Filters) (hF : UnitGain F) (fs fa : ℝ) (n : ℕ) (hn : 0 < n) (x : ℕ → ℝ)
    (c : ℝ) : accLow F fs fa n (fun t => x t + c) = (accLow F fs fa n x).map fun l t => l t + c := by
  unfold accLow
  split
  · simp only [Except.map, seriesMean]
    congr 1
    funext _
    rw [sum_add_distrib, sum_const, card_range, nsmul_eq_mul]
    have : (n : ℝ) ≠ 0 := by positivity
    field_simp
  · exact hF _ _ _ _

theorem accSeries_const (F : Filters) (hF : UnitGain F) (fs fa fv : ℝ) (n : ℕ) (hn : 0 < n)
    (x : ℕ → ℝ) (c : ℝ) : accSeries F fs fa fv n (fun t => x t + c) =
      (accSeries F fs fa fv n x).map fun p => (fun t => p.1 t + c, p.2) := by
  unfold accSeries
  rw [accLow_const F hF fs fa n hn]
  cases h : accLow F fs fa n x with
  | error e => rfl
  | ok low =>
    have e : velAcc F fs fv n (fun t => x t + c) (fun t => low t + c) = velAcc F fs fv n x low := by
      unfold velAcc
      simp only [add_sub_add_right_eq_sub]
    simp only [Except.map, bind, Except.bind, e]
    cases velAcc F fs fv n x low <;> rfl

theorem mapM_map_except {α β : Type} (f f' : α → Except Err β) (g : β → β) (l : List α)
    (h : ∀ a ∈ l, f' a = (f a).map g) : l.mapM f' = (l.mapM f).map (List.map g) := by
  induction l with
  | nil => rfl
  | cons a l ih =>
    rw [List.mapM_cons, List.mapM_cons, h a (by simp), ih fun a ha => h a (by simp [ha])]
    cases f a with
    | error e => rfl
    | ok b =>
      simp only [Except.map, bind, Except.bind]
      cases l.mapM f <;> rfl

theorem accBursts_const (F : Filters) (hF : UnitGain F) (fs fa fv : ℝ) (len : ℕ) (hlen : 0 < len)
    (duty : Option ℕ) (hduty : duty ≠ some 0) (x low vacc : ℕ → ℝ) (c : ℝ)
    (h : accBursts F fs fa fv len duty x = .ok (low, vacc)) :
    ∃ low', accBursts F fs fa fv len duty (fun t => x t + c) = .ok (low', vacc) := by
  unfold accBursts at h ⊢
  cases duty with
  | none =>
    simp only at h ⊢
    rw [accSeries_const F hF fs fa fv len hlen, h]
    exact ⟨_, rfl⟩
  | some n =>
    have hn : 0 < n := Nat.pos_of_ne_zero fun h0 => hduty (by rw [h0])
    simp only at h ⊢
    rw [mapM_map_except (fun b => accSeries F fs fa fv n fun j => x (b * n + j))
      (fun b => accSeries F fs fa fv n fun j => x (b * n + j) + c)
      (fun p => (fun t => p.1 t + c, p.2)) (List.range (len / n))
      fun b _ => accSeries_const F hF fs fa fv n hn _ c]
    cases hp : (List.range (len / n)).mapM fun b => accSeries F fs fa fv n fun j => x (b * n + j) with
    | error e => rw [hp] at h; cases h
    | ok parts =>
      rw [hp] at h
      simp only [bind, Except.bind, Except.map] at h ⊢
      by_cases hm : len % n ≠ 0
      · rw [if_pos hm] at h; cases h
      · rw [if_neg hm] at h ⊢
        simp only [pure, Except.pure, Except.ok.injEq, Prod.mk.injEq] at h ⊢
        refine ⟨_, rfl, ?_⟩
        rw [← h.2]
        funext t
        congr 1
        simp only [List.getD_eq_getElem?_getD, List.getElem?_map]
        cases parts[t / n]? <;> rfl

/-- C78: a constant acceleration in the earth frame (gravity, a sensor bias fixed to the earth) has no
effect on the corrected velocity: two datasets that differ only by such a constant get the same
velocity. -/
theorem correct_motion_gravity (fuel : ℕ) (F : Filters) (hF : UnitGain F) (argA argV : Option ℝ)
    (toEarth : Bool) (m : MDS) (vel acc acc' ang : RVar ℕ) (omat : ℕ → M3) (hv : Fin 3 → ℝ)
    (low vacc : ℕ → Fin 3 → ℝ) (g : Fin 3 → ℝ) (hlen : 0 < m.len)
    (hrot : ∀ t, Orthonormal (omat t)) (hg : ∀ t, acc'.v3 t = acc.v3 t + (omat t).mulVec g)
    (h : MotionReady m vel acc ang omat hv) (hs : MotionSeries F argA argV m acc omat low vacc)
    (rds' : RDS ℕ) (h' : MotionReady { m with rds := rds' } vel acc' ang omat hv) :
    ∃ o o' v, correctMotion fuel F argA argV toEarth m = some (.ok o) ∧
      correctMotion fuel F argA argV toEarth { m with rds := rds' } = some (.ok o') ∧
      vec o.rds "vel" = some v ∧ vec o'.rds "vel" = some v := by
  obtain ⟨duty, hd, hser⟩ := hs
  have hduty : duty ≠ some 0 := by
    rintro rfl
    cases hb : m.nBurst with
    | none => rw [hb] at hd; cases hd
    | some n =>
      cases n with
      | zero => rw [hb] at hd; cases hd
      | succ n =>
        rw [hb] at hd
        unfold checkDuty at hd
        simp only at hd
        split at hd
        · split at hd
          · cases hd
          · split at hd
            · cases hd
            · split at hd
              · cases hd
              · cases hd
        · cases hd
  have hex : ∀ i : Fin 3, ∃ low', accBursts F m.fs
      (checkFiltfreqs m.accelFreqAttr m.velFreqAttr argA argV).1
      (checkFiltfreqs m.accelFreqAttr m.velFreqAttr argA argV).2 m.len duty
      (fun t => (omat t).transpose.mulVec (acc'.v3 t) i) = .ok (low', fun t => vacc t i) := by
    intro i
    have e : (fun t => (omat t).transpose.mulVec (acc'.v3 t) i) =
        fun t => (omat t).transpose.mulVec (acc.v3 t) i + g i := by
      funext t
      rw [hg t, Matrix.mulVec_add, Matrix.mulVec_mulVec,
        show (omat t).transpose * omat t = 1 from orth_comm (hrot t), Matrix.one_mulVec]
      rfl
    rw [e]
    exact accBursts_const F hF _ _ _ _ hlen duty hduty _ _ _ _ (hser i)
  choose low' hlow' using hex
  obtain ⟨o, h1, -, -, -, -, -, -, h2, -⟩ :=
    correct_motion_spec fuel F argA argV toEarth m vel acc ang omat hv low vacc h ⟨duty, hd, hser⟩
  obtain ⟨o', h1', -, -, -, -, -, -, h2', -⟩ :=
    correct_motion_spec fuel F argA argV toEarth { m with rds := rds' } vel acc' ang omat hv
      (fun t i => low' i t) vacc h' ⟨duty, hd, fun i => hlow' i⟩
  exact ⟨o, o', _, h1, h1', h2, h2'⟩

/-- C78: an instrument at rest (no rotation, constant earth-frame acceleration) is not corrected:
the velocity is unchanged. -/
theorem correct_motion_at_rest (fuel : ℕ) (F : Filters) (argA argV : Option ℝ)
    (hlp1 : ∀ r n c, F.lp1 r n (fun _ => c) = .ok fun _ => c)
    (hlp2 : ∀ r n, F.lp2 r n (fun _ => 0) = .ok fun _ => 0)
    (toEarth : Bool) (m : MDS) (vel acc ang : RVar ℕ) (omat : ℕ → M3) (hv g : Fin 3 → ℝ)
    (hlen : 0 < m.len) (hduty : m.nBurst = none) (hrot : ∀ t, Orthonormal (omat t))
    (hacc : ∀ t, acc.v3 t = (omat t).mulVec g) (hang : ∀ t, ang.v3 t = 0)
    (h : MotionReady m vel acc ang omat hv) :
    ∃ o, correctMotion fuel F argA argV toEarth m = some (.ok o) ∧
      vec o.rds "vel" = some (toFrame toEarth omat vel.v3) := by
  have hs : MotionSeries F argA argV m acc omat (fun _ => g) (fun _ _ => 0) := by
    refine ⟨none, by rw [hduty]; rfl, fun i => ?_⟩
    have e : (fun t => (omat t).transpose.mulVec (acc.v3 t) i) = fun _ => g i := by
      funext t
      rw [hacc t, Matrix.mulVec_mulVec,
        show (omat t).transpose * omat t = 1 from orth_comm (hrot t), Matrix.one_mulVec]
    rw [e]
    generalize (checkFiltfreqs m.accelFreqAttr m.velFreqAttr argA argV).1 = fa
    generalize (checkFiltfreqs m.accelFreqAttr m.velFreqAttr argA argV).2 = fv
    have hlow : accLow F m.fs fa m.len (fun _ => g i) = .ok fun _ => g i := by
      unfold accLow
      split
      · have : (m.len : ℝ) ≠ 0 := by positivity
        simp only [seriesMean, sum_const, card_range, nsmul_eq_mul]
        congr 1
        funext _
        field_simp
      · exact hlp1 _ _ _
    have hz : cumTrap m.fs (fun _ => g i - g i) = fun _ => 0 := by
      funext t
      simp [cumTrap]
    have hva : velAcc F m.fs fv m.len (fun _ => g i) (fun _ => g i) = .ok fun _ => 0 := by
      unfold velAcc
      rw [hz]
      dsimp only
      split
      · rw [hlp2]
        simp [Except.map]
      · rfl
    unfold accBursts accSeries
    simp only [hlow, bind, Except.bind, hva]
    rfl
  obtain ⟨o, h1, -, -, -, -, -, -, h2, -⟩ :=
    correct_motion_spec fuel F argA argV toEarth m vel acc ang omat hv _ _ h hs
  refine ⟨o, h1, ?_⟩
  rw [h2]
  congr 1
  funext t
  have e1 : fromEarth toEarth omat (fun _ _ => 0) t = 0 := by
    unfold fromEarth
    split
    · rfl
    · exact Matrix.mulVec_zero _
  have e2 : toFrame toEarth omat
      (fun t => crossProduct (ang.v3 t) fun i => hv i - body2imu i) t = 0 := by
    unfold toFrame
    simp only [hang t, map_zero, LinearMap.zero_apply, Matrix.mulVec_zero, ite_self]
  rw [e1, e2, add_zero, add_zero]

/-! ### C65 -/

/-- C65 is false: with a declared burst interval `iv` and a record whose bursts follow each other at any
other regular interval, the duty cycle is accepted. -/
theorem duty_false (len n : ℕ) (hn : 0 < n) (hlen : n < len) (time : ℕ → ℤ) (actual iv : ℤ)
    (h : ∀ i, time (i + n) - time i = actual * 1000000000) :
    checkDuty len time (some n) (some iv) = .ok (some n) := by
  obtain ⟨k, rfl⟩ : ∃ k, n = k + 1 := ⟨n - 1, by omega⟩
  have hd : (List.range (len - (k + 1))).map (fun i => dutyDiff time (k + 1) i) =
      List.replicate (len - (k + 1)) actual := by
    rw [List.eq_replicate_iff]
    refine ⟨by simp, fun b hb => ?_⟩
    obtain ⟨i, -, rfl⟩ := List.mem_map.mp hb
    unfold dutyDiff
    rw [h i]
    exact Int.mul_tdiv_cancel _ (by norm_num)
  have hpos : 0 < len - (k + 1) := by omega
  unfold checkDuty
  simp only [hd, List.max?_replicate_of_pos hpos, List.min?_replicate_of_pos hpos]
  rw [if_neg (by omega), if_neg (by omega)]

/-- C65 (partial): irregular bursts, with two intervals that differ by more than two seconds, are
rejected. -/
theorem duty_irregular_partial (len n : ℕ) (hn : 0 < n) (time : ℕ → ℤ) (iv : Option ℤ) (i j : ℕ)
    (hi : i + n < len) (hj : j + n < len) (h : dutyDiff time n i - dutyDiff time n j > 2) :
    checkDuty len time (some n) iv = .error .exception := by
  obtain ⟨k, rfl⟩ : ∃ k, n = k + 1 := ⟨n - 1, by omega⟩
  unfold checkDuty
  simp only
  set d := (List.range (len - (k + 1))).map fun i => dutyDiff time (k + 1) i with hd
  have mi : dutyDiff time (k + 1) i ∈ d := List.mem_map.mpr ⟨i, List.mem_range.mpr (by omega), rfl⟩
  have mj : dutyDiff time (k + 1) j ∈ d := List.mem_map.mpr ⟨j, List.mem_range.mpr (by omega), rfl⟩
  have hne : d ≠ [] := List.ne_nil_of_mem mi
  obtain ⟨hi', hmax⟩ := Option.isSome_iff_exists.mp (List.isSome_max?_of_mem mi)
  obtain ⟨lo', hmin⟩ := Option.isSome_iff_exists.mp (List.isSome_min?_of_mem mj)
  have h1 := (List.max?_eq_some_iff.mp hmax).2 _ mi
  have h2 := (List.min?_eq_some_iff.mp hmin).2 _ mj
  rw [hmax, hmin]
  simp only
  rw [if_pos (by omega)]

/-- C65: a record that does not end with a complete burst cannot be corrected. -/
theorem duty_partial_burst (F : Filters) (fs fa fv : ℝ) (len n : ℕ) (x : ℕ → ℝ) (h : len % n ≠ 0) :
    ∃ e, accBursts F fs fa fv len (some n) x = .error e := by
  unfold accBursts
  simp only [bind, Except.bind]
  split
  · exact ⟨_, rfl⟩
  · rw [if_pos h]
    exact ⟨_, rfl⟩

/-- C65: without a declared duty cycle nothing is checked; with one, a record shorter than a burst
raises. -/
theorem duty_none (len : ℕ) (time : ℕ → ℤ) (iv : Option ℤ) :
    checkDuty len time none iv = .ok none ∧ checkDuty len time (some 0) iv = .ok none ∧
      ∀ n, 0 < n → len ≤ n → checkDuty len time (some n) iv = .error .valueError := by
  refine ⟨rfl, rfl, fun n hn hle => ?_⟩
  obtain ⟨k, rfl⟩ : ∃ k, n = k + 1 := ⟨n - 1, by omega⟩
  unfold checkDuty
  have : len - (k + 1) = 0 := by omega
  simp [this]

/-- A burst record meeting `duty_false`: 4 samples per burst, bursts every 600 s. -/
example : ∃ time : ℕ → ℤ, ∀ i, time (i + 4) - time i = 600 * 1000000000 :=
  ⟨fun i => (i / 4 : ℕ) * 600000000000 + (i % 4 : ℕ) * 1000000000, fun i => by
    have h1 : (i + 4) / 4 = i / 4 + 1 := by omega
    have h2 : (i + 4) % 4 = i % 4 := by omega
    simp only [h1, h2]
    push_cast
    ring⟩

/-! ### C77 -/

/-- The along-beam component seen by each receiver, put together again: probe `k` contributes the
component along beam `k` of its own velocity `v · k`. -/
noncomputable def Spec.probeVel (T rmat : M3) (v : Fin 3 → Fin 3 → ℝ) : Fin 3 → ℝ :=
  rmat.transpose.mulVec (T.mulVec fun k => T⁻¹.mulVec (rmat.mulVec fun c => v c k) k)

/-- C77 is false: with `separate_probes` the code contracts the wrong axis, mixing the velocities of
different probes. Witness: the real probe geometry of a Vector, rotation about the vertical. -/
theorem separate_probes_false : ∃ (T : M3) (hv w : Fin 3 → ℝ), T.det ≠ 0 ∧
    separateProbes T 1 (fun c k => velRot (fun i => probePos 1 hv k i - body2imu i) w c) ≠
      probeVel T 1 (fun c k => velRot (fun i => probePos 1 hv k i - body2imu i) w c) := by
  have hinv : (!![1, 1, 0; 0, 1, 0; 0, 0, 1] : M3)⁻¹ = !![1, -1, 0; 0, 1, 0; 0, 0, 1] := by
    apply Matrix.inv_eq_right_inv
    ext i j
    fin_cases i <;> fin_cases j <;> simp [Matrix.mul_apply, Fin.sum_univ_three]
  refine ⟨!![1, 1, 0; 0, 1, 0; 0, 0, 1], body2imu, ![0, 0, 1], ?_, fun h => ?_⟩
  · simp [Matrix.det_fin_three]
  · have h0 := congrFun h 0
    have hs : 0 < Real.sin (deg2rad 120) := by
      apply Real.sin_pos_of_pos_of_lt_pi <;> unfold deg2rad <;>
        linarith [Real.pi_pos, mul_pos (by norm_num : (0 : ℝ) < 120) Real.pi_pos]
    have hz : deg2rad 0 = 0 := by simp [deg2rad]
    simp [separateProbes, probeVel, hinv, velRot, probePos, Matrix.mulVec, dotProduct,
      Fin.sum_univ_three, hz] at h0
    linarith

/-- C77 (partial): for a diagonal beam matrix and no head rotation the probes are not mixed. -/
theorem separate_probes_partial (d : Fin 3 → ℝ) (hd : ∀ i, d i ≠ 0) (v : Fin 3 → Fin 3 → ℝ) :
    separateProbes (Matrix.diagonal d) 1 v = probeVel (Matrix.diagonal d) 1 v := by
  have hinv : (Matrix.diagonal d : M3)⁻¹ = Matrix.diagonal fun i => (d i)⁻¹ := by
    apply Matrix.inv_eq_right_inv
    rw [Matrix.diagonal_mul_diagonal]
    simp [hd]
  unfold separateProbes probeVel
  rw [hinv]
  simp [Matrix.mulVec_diagonal, Matrix.diagonal_apply, Matrix.one_apply]

end Dolfyn
