import Verif.Props.NkEarth

/-!
C149: the file of a Vector with an IMU, read and rotated to the earth frame.
-/

namespace Dolfyn

open Spec

variable {T : Type}

/-! ### The rotations of a Vector with several variables -/

/-- The head matrix is for the velocity only. -/
noncomputable def headTurn (R : M3) (name : String) (v : ℕ → ℝ) : ℕ → ℝ := if name = "vel" then applyM R v else v

/-- What becomes of a variable of a Vector on the way to the earth frame. -/
noncomputable def vecTurn (f : NkFrame) (B : BeamMat) (R : M3) (name : String) (O : M3) (v : ℕ → ℝ) : ℕ → ℝ :=
  match f with
  | .beam => applyM O.transpose (headTurn R name (applyM B.mat v))
  | .inst => applyM O.transpose (headTurn R name v)
  | .earth => v

theorem headTurn_one (name : String) (v : ℕ → ℝ) : headTurn 1 name v = v := by
  unfold headTurn
  split_ifs
  · exact applyM_one v
  · rfl

theorem inst2earth_vec {ds : RDS T} {m : T → M3} {r : Bool} (hi : ds.inst = .vector) (hm : ds.orientmat = some m)
    (hn : ∀ v ∈ ds.vars, v.n = 3) (hf : ds.coordSys = if r then .earth else .inst) :
    inst2earth r ds = .ok { ds with
      vars := ds.vars.map fun v => { v with val := fun t => applyM (if r then m t else (m t).transpose) (v.val t) }
      coordSys := if r then .inst else .earth } := by
  refine inst2earth_iff.mpr ⟨by rw [hi]; decide, Or.inl hf, m, effOmat_some hm, ?_, _, ?_, rfl⟩
  · intro h
    rw [hi] at h
    cases h
  · refine mapM_ok_of_forall _ fun v hv => ?_
    rw [hi]
    unfold i2eVar
    simp only
    rw [if_neg (by simp [hn v hv])]
    rfl

theorem beamBase_vec {ds : RDS T} {B : BeamMat} (hb : ds.beam2inst = some B) (hB : B.n = 3)
    (hn : ∀ v ∈ ds.vars, v.n = 3) (hf : ds.coordSys = .beam) :
    beam2instBase false ds = .ok { ds with
      vars := ds.vars.map fun v => { v with val := fun t => applyM B.mat (v.val t) }
      coordSys := .inst } := by
  have hmap : (ds.vars.map fun v => if v.n = B.n then v.rot (fun _ => B.mat) else v) =
      ds.vars.map fun v => { v with val := fun t => applyM B.mat (v.val t) } := by
    refine List.map_congr_left fun v h => ?_
    rw [if_pos ((hn v h).trans hB.symm)]
    rfl
  obtain ⟨i, c, vars, bm, om, co, dn, ph, dc, hea, ih, ihs⟩ := ds
  simp only at hf hb hmap
  subst hf hb
  simp only [beam2instBase, Bool.false_eq_true, false_and, if_false, ne_eq, not_true_eq_false, and_false, hmap]
  rfl

theorem inst2head_vec {ds : RDS T} {R : M3} (hh : ds.inst2head = some R) (hs : ds.inst2headSet = true) (hd : R.det = 1)
    (hn : ∀ v ∈ ds.vars, v.n = 3) :
    rotateInst2head false ds = .ok { ds with
      vars := ds.vars.map fun v => { v with val := fun t => headTurn R v.name (v.val t) } } := by
  obtain ⟨i, c, vars, bm, om, co, dn, ph, dc, hea, ih, ihs⟩ := ds
  simp only at hh hs hn
  subst hh hs
  have hc : checkRotmatDet R := by
    unfold checkRotmatDet
    rw [hd]
    norm_num
  simp only [rotateInst2head, checkInst2head, hc]
  have := mapM_ok_of_forall (f := fun (v : RVar T) =>
      if v.name = "vel" then
        if v.n = 3 then Except.ok (v.rot fun _ => if false = true then R.transpose else R)
        else Except.error Err.valueError
      else Except.ok v) (g := fun v => { v with val := fun t => headTurn R v.name (v.val t) }) vars (by
    intro v hv
    unfold headTurn
    by_cases h : v.name = "vel"
    · rw [if_pos h, if_pos (hn v hv)]
      simp only [if_pos h]
      rfl
    · simp only [if_neg h])
  simp only [this, not_true_eq_false, if_false, Bool.true_eq_false]
  rfl

/-- The head matrix in force. -/
def HeadIs (ds : RDS T) (R : M3) : Prop :=
  (ds.inst2head = none ∧ R = 1) ∨ (ds.inst2head = some R ∧ ds.inst2headSet = true ∧ R.det = 1)

theorem HeadIs.check {ds : RDS T} {R : M3} (h : HeadIs ds R) : ∃ b, checkInst2head ds = .ok b := by
  unfold checkInst2head
  rcases h with ⟨h1, -⟩ | ⟨h1, h2, h3⟩
  · rw [h1]; exact ⟨_, rfl⟩
  · rw [h1]
    simp [h2, checkRotmatDet, h3]

theorem map_vars_id (l : List (RVar T)) {g : RVar T → T → ℕ → ℝ} (h : ∀ v ∈ l, ∀ t, g v t = v.val t) :
    (l.map fun v => { v with val := g v }) = l := by
  conv_rhs => rw [← List.map_id l]
  refine List.map_congr_left fun v hv => ?_
  rw [show g v = v.val from funext (h v hv)]
  rfl

theorem beam2inst_vec {ds : RDS T} {B : BeamMat} {R : M3} (hi : ds.inst = .vector) (hh : HeadIs ds R)
    (hb : ds.beam2inst = some B) (hB : B.n = 3) (hn : ∀ v ∈ ds.vars, v.n = 3) (hf : ds.coordSys = .beam) :
    beam2inst false ds = .ok { ds with
      vars := ds.vars.map fun v => { v with val := fun t => headTurn R v.name (applyM B.mat (v.val t)) }
      coordSys := .inst } := by
  unfold beam2inst
  rw [hi]
  simp only [Bool.false_eq_true, if_false, beamBase_vec hb hB hn hf, bind, Except.bind]
  rcases hh with ⟨h1, rfl⟩ | ⟨h1, h2, h3⟩
  · unfold rotateInst2head checkInst2head
    simp only [h1, headTurn_one]
    rw [hi]
  · rw [inst2head_vec (ds := { ds with
        vars := ds.vars.map fun v => { v with val := fun t => applyM B.mat (v.val t) }
        coordSys := .inst }) (R := R) h1 h2 h3 (by
      intro v hv
      obtain ⟨x, hx, rfl⟩ := List.mem_map.mp hv
      exact hn x hx)]
    simp only [List.map_map, hi]
    rfl

/-- The rotation to the earth frame. -/
theorem rotate2_vec {ds : RDS T} {m : T → M3} {B : BeamMat} {R : M3} {f : NkFrame} (hi : ds.inst = .vector)
    (hm : ds.orientmat = some m) (hb : ds.beam2inst = some B) (hB : B.n = 3) (hh : HeadIs ds R)
    (hn : ∀ v ∈ ds.vars, v.n = 3) (hf : ds.coordSys = f.toFrame) :
    rotate2 3 .earth ds = some (.ok { ds with
      vars := ds.vars.map fun v =>
        { v with val := fun t => vecTurn f B (if f = .beam then R else 1) v.name (m t) (v.val t) }
      coordSys := .earth }) := by
  have hu : ds.inst ≠ .unknown := by rw [hi]; decide
  obtain ⟨b, hck⟩ := hh.check
  cases f with
  | beam =>
    rw [rotate2_eq (i := 0) (j := 2) 3 ds (by rw [hf]; exact .beam) .earth (le_refl 3) hu hck, steps_earth.1]
    simp only [List.foldlM_cons, List.foldlM_nil, oneStep, beam2inst_vec hi hh hb hB hn hf, bind, Except.bind]
    rw [inst2earth_vec (m := m) (r := false) (ds := { ds with
        vars := ds.vars.map fun v => { v with val := fun t => headTurn R v.name (applyM B.mat (v.val t)) }
        coordSys := .inst }) hi hm (by
      intro v hv
      obtain ⟨x, hx, rfl⟩ := List.mem_map.mp hv
      exact hn x hx) rfl]
    simp only [List.map_map]
    rfl
  | inst =>
    rw [rotate2_eq (i := 1) (j := 2) 3 ds (by rw [hf]; exact .inst) .earth (le_refl 3) hu hck, steps_earth.2.1]
    simp only [List.foldlM_cons, List.foldlM_nil, oneStep]
    rw [inst2earth_vec (m := m) (r := false) hi hm hn hf]
    simp only [vecTurn, reduceCtorEq, if_false, headTurn_one]
    rfl
  | earth =>
    rw [rotate2_earth_earth hu hf hck]
    have hid : (ds.vars.map fun v =>
        { v with val := fun t => vecTurn .earth B (if NkFrame.earth = .beam then R else 1) v.name (m t) (v.val t) }) =
        ds.vars := map_vars_id _ fun _ _ _ => rfl
    rw [hid]
    obtain ⟨i, c, vars, bm, om, co, dn, ph, dc, hea, ih, ihs⟩ := ds
    simp only at hf
    subst hf
    rfl

theorem vecTurn_dec {f : NkFrame} (hf : f ≠ .earth) (B : BeamMat) (R : M3) (name : String) (O : M3) (a : ℝ) (v : ℕ → ℝ) :
    vecTurn f B R name (O * (rotDec a).transpose) v = turnCW a (vecTurn f B R name O v) := by
  have e : (O * (rotDec a).transpose).transpose = rotDec a * O.transpose := by
    rw [Matrix.transpose_mul, Matrix.transpose_transpose]
  cases f with
  | earth => exact absurd rfl hf
  | inst => simp only [vecTurn, e, applyM_mul, applyM_rotDec, applyM_cw]
  | beam => simp only [vecTurn, e, applyM_mul, applyM_rotDec, applyM_cw]

/-- The end of reading a Vector, and the rotation to the earth frame. -/
theorem vector_userApply {ds : RDS T} {m : T → M3} {B : BeamMat} {f : NkFrame} (hi : ds.inst = .vector)
    (hm : ds.orientmat = some m) (hh : ds.inst2head = none)
    (hb : ds.beam2inst = some B) (hB : B.n = 3) (hn : ∀ v ∈ ds.vars, v.n = 3)
    (hf : ds.coordSys = f.toFrame) (hdec : ds.declination = none) (rot : Option M3)
    (hR : ∀ R, rot = some R → R.det = 1 ∧ f ≠ .earth) (dec : Option ℝ)
    (ho : f = .earth → dec ≠ none → B.mat.det ≠ 0 ∧ ∀ t, Orthonormal (m t)) :
    ∃ d e, nkUserApply rot dec ds = some (.ok d) ∧ d.coordSys = f.toFrame ∧ rotate2 3 .earth d = some (.ok e) ∧
      e.vars = (ds.vars.map fun v =>
        { v with val := fun t => turnCW (dec.getD 0) (vecTurn f B (rot.getD 1) v.name (m t) (v.val t)) }) ∧
      d.heading = ds.heading.map (fun h t => h t + dec.getD 0) := by
  have hu : ds.inst ≠ .unknown := by rw [hi]; decide
  -- after the head matrix
  obtain ⟨d1, h1, h2, h3, h4, h5, h6, h7, h8, h9, R1, hR1, h10⟩ : ∃ d1 : RDS T, nkUserHead rot ds = some (.ok d1) ∧
      d1.coordSys = f.toFrame ∧ d1.orientmat = some m ∧ d1.declination = none ∧ d1.inst = .vector ∧
      d1.heading = ds.heading ∧ d1.beam2inst = some B ∧ (∀ v ∈ d1.vars, v.n = 3) ∧
      (f = .earth → d1.inst2head = none) ∧
      ∃ R1, HeadIs d1 R1 ∧ ∀ O : T → M3, (d1.vars.map fun v =>
          { v with val := fun t => vecTurn f B (if f = .beam then R1 else 1) v.name (O t) (v.val t) }) =
        ds.vars.map fun v => { v with val := fun t => vecTurn f B (rot.getD 1) v.name (O t) (v.val t) } := by
    cases rot with
    | none =>
      refine ⟨ds, rfl, hf, hm, hdec, hi, rfl, hb, hn, fun _ => hh, 1, .inl ⟨hh, rfl⟩, fun O => ?_⟩
      simp only [Option.getD_none, ite_self]
    | some R =>
      obtain ⟨hRd, hfe⟩ := hR R rfl
      have hh' : nkUserHead (some R) ds = setInst2head 3 R ds := rfl
      rw [hh']
      obtain ⟨i, c, vars, bm, om, co, dn, ph, dc, hea, ih, ihs⟩ := ds
      simp only at hm hh hb hf hdec hi hn
      subst hm hh hb hf hdec hi
      cases f with
      | earth => exact absurd rfl hfe
      | beam =>
        refine ⟨⟨.vector, .beam, vars, some B, some m, co, dn, ph, none, hea, some R, true⟩, ?_, rfl, rfl, rfl,
          rfl, rfl, rfl, hn, (fun h => by cases h), R, .inr ⟨rfl, rfl, hRd⟩, fun O => rfl⟩
        simp [setInst2head, NkFrame.toFrame]
      | inst =>
        refine ⟨⟨.vector, .inst, vars.map fun v => { v with val := fun t => headTurn R v.name (v.val t) }, some B, some m, co,
          dn, ph, none, hea, some R, true⟩, ?_, rfl, rfl, rfl, rfl, rfl, rfl, ?_, (fun h => by cases h), R,
          .inr ⟨rfl, rfl, hRd⟩, fun O => ?_⟩
        · have := inst2head_vec (ds := ⟨.vector, .inst, vars, some B, some m, co, dn, ph, none, hea, some R, true⟩)
            rfl rfl hRd hn
          simp only [setInst2head, NkFrame.toFrame, ne_eq, reduceCtorEq, not_false_eq_true, not_true, false_and, if_false,
            if_true, this]
        · intro v hv
          obtain ⟨x, hx, rfl⟩ := List.mem_map.mp hv
          exact hn x hx
        · simp only [List.map_map, vecTurn, reduceCtorEq, if_false, headTurn_one, Option.getD_some]
          rfl
  cases dec with
  | none =>
    refine ⟨d1, _, ?_, h2, rotate2_vec h5 h3 h7 hB hR1 h8 h2, ?_, ?_⟩
    · unfold nkUserApply
      simp only [h1]
    · simp only [Option.getD_none, turnCW_zero]
      exact h10 m
    · rw [h6]
      cases ds.heading <;> simp
  | some a =>
    have hA : decAngle a d1 = a := by simp [decAngle, h4]
    have hap : nkUserApply rot (some a) ds = setDeclination 3 a d1 := by
      unfold nkUserApply
      simp only [h1]
    rw [hap]
    by_cases hfe : f = .earth
    · subst hfe
      have hh1 := h9 rfl
      have hr : Rotatable d1 := by
        refine ⟨?_, ?_, ?_, ?_⟩
        · rintro m' (h | ⟨h, -⟩)
          · rw [h3] at h; cases h; exact (ho rfl (by simp)).2
          · rw [h3] at h; cases h
        · intro h
          rw [h5] at h
          cases h
        · intro B' h
          rw [h7] at h; cases h; exact (ho rfl (by simp)).1
        · intro R h
          rw [hh1] at h; cases h
      obtain ⟨b, hck⟩ := hR1.check
      have h11 := inst2earth_vec (r := true) h5 h3 h8 h2
      have h12 := setDeclination_earth (fuel := 3) (declin := a) (le_refl 3) hr h2 h3 hck h11
      rw [hA] at h12
      refine ⟨_, _, h12, h2, rotate2_earth_earth (by show d1.inst ≠ _; rw [h5]; decide) h2 (b := false) ?_, ?_, ?_⟩
      · unfold checkInst2head decUpd
        simp only [hh1]
      · have h13 : d1.vars = ds.vars :=
          (map_vars_id d1.vars fun _ _ _ => rfl).symm.trans ((h10 m).trans (map_vars_id ds.vars fun _ _ _ => rfl))
        show (d1.vars.map fun v => v.rot fun _ => cw a) = _
        rw [h13]
        refine List.map_congr_left fun v _ => ?_
        unfold RVar.rot
        simp only [applyM_cw]
        rfl
      · show d1.heading.map _ = _
        rw [h6]
        rfl
    · have hne : d1.coordSys ≠ .earth := by
        rw [h2]
        cases f <;> simp [NkFrame.toFrame] at hfe ⊢
      have h12 := setDeclination_not_earth (fuel := 3) (declin := a) hne h3
      rw [hA] at h12
      have hR2 : HeadIs (decUpd a a m d1) R1 := hR1
      refine ⟨_, _, h12, h2, rotate2_vec (ds := decUpd a a m d1) (m := fun t => m t * (rotDec a).transpose) (B := B) h5 rfl h7 hB
        hR2 h8 h2, ?_, ?_⟩
      · have h13 := h10 fun t => m t * (rotDec a).transpose
        refine h13.trans ?_
        simp only [vecTurn_dec hfe, Option.getD_some]
      · show d1.heading.map _ = _
        rw [h6]
        rfl

/-! ### What the variables should be -/

/-- Number `j` of an IMU record; `fl` decodes a float. -/
def Spec.imuNum (fl : List ℕ → ℝ) (z : NkRec) (j : ℕ) : ℝ := fl (((z.body.drop 4).drop (4 * j)).take 4)

/-- East, north and up of a vector with components `u` along the axes of the IMU; `g j c` is the component of axis `j`
towards north, east and down. -/
def Spec.byImu (g : ℕ → ℕ → ℝ) (u : ℕ → ℝ) : ℕ → ℝ
  | 0 => u 0 * g 0 1 + u 1 * g 1 1 + u 2 * g 2 1
  | 1 => u 0 * g 0 0 + u 1 * g 1 0 + u 2 * g 2 0
  | 2 => -(u 0 * g 0 2 + u 1 * g 1 2 + u 2 * g 2 2)
  | i + 3 => u (i + 3)

/-- Components along the axes of the IMU of a vector with components `v` along those of the Vector, whose z axis is the
x axis of the IMU and whose x axis points against the z axis of the IMU. -/
def Spec.inImu (v : ℕ → ℝ) : ℕ → ℝ
  | 0 => v 2
  | 1 => v 1
  | 2 => -v 0
  | i + 3 => v (i + 3)

/-- … and the other way round. -/
def Spec.fromImu (u : Fin 3 → ℝ) : ℕ → ℝ := fun i => (![-u 2, u 1, u 0] : Fin 3 → ℝ) (Fin.ofNat 3 i)

/-- The first number of the orientation matrix in a record. -/
def Spec.imuMatAt (a : ℕ) : ℕ := if a = 195 then 6 else 9

/-- Where a sensor stands in a record, and its unit: types 195 and 211 record increments from sample to sample. -/
noncomputable def Spec.imuPlace (a : ℕ) (fs : ℝ) (name : String) : ℕ × ℝ :=
  if name = "accel" then (if a = 204 then (0, 9.80665) else (3, 9.80665 * fs))
  else if name = "angrt" then (if a = 204 then (3, 1) else (0, fs))
  else (6, 1)

/-- The components along the axes of the Vector of what a sensor of the IMU has recorded. -/
noncomputable def Spec.imuSignal (fl : List ℕ → ℝ) (a : ℕ) (fs : ℝ) (z : NkRec) (name : String) : ℕ → ℝ :=
  Spec.fromImu fun j => Spec.imuNum fl z ((Spec.imuPlace a fs name).1 + j) * (Spec.imuPlace a fs name).2

/-- How the axes of the Vector lie at sample `k`: as the IMU has recorded it, or, if its records have no matrix, by the
heading, pitch and roll that hold (the roll turned by 180° when it points down). -/
def Spec.vecPose (fl : List ℕ → ℝ) (a : ℕ) (q : Bool) (recs : List NkRec) (k : ℕ) (A : (ℕ → ℝ) → ℕ → ℝ) : Prop :=
  (a ≠ 211 ∧ ∃ z, Spec.imuAt recs k z ∧
    A = fun v => Spec.byImu (fun j c => Spec.imuNum fl z (Spec.imuMatAt a + 3 * j + c)) (Spec.inImu v)) ∨
  (a = 211 ∧ ∃ h p r, Spec.vecAngles true recs k h p r ∧ A = Spec.attitude h p (r + if q then 180 else 0))

/-- From the recorded components to the earth frame, `A` being the attitude. -/
noncomputable def Spec.earthBy (axes : NkAxes) (M R : M3) (A : (ℕ → ℝ) → ℕ → ℝ) (v : ℕ → ℝ) : ℕ → ℝ :=
  match axes with
  | .enu => v
  | .xyz => A (Spec.lin R v)
  | .beam => A (Spec.lin R (Spec.lin M v))

/-- The rotated variables. -/
def Spec.imuNames (a : ℕ) : List String :=
  if a = 195 then ["vel", "accel", "angrt"] else if a = 204 then ["vel", "accel", "angrt", "mag"]
  else ["vel", "angrt", "accel", "mag"]

/-- What is recorded of a variable in a sample and its IMU record. -/
noncomputable def Spec.vecSignal (fl : List ℕ → ℝ) (a : ℕ) (fs : ℝ) (fine : Bool) (x : Spec.VecVals) (z : NkRec)
    (name : String) : ℕ → ℝ :=
  if name = "vel" then fun b => (x.v (Fin.ofNat 3 b) : ℝ) * (if fine then 1 / 10 else 1) / 1000
  else Spec.imuSignal fl a fs z name

theorem imu_signal (fs : ℝ) (fl : List ℕ → ℝ) (z : NkRec) {a : ℕ} (hA : a = 195 ∨ a = 204 ∨ a = 211) :
    (∀ b, (sciImu fs a (imuDecode fl a (z.body.drop 4))).accel (Fin.ofNat 3 b) = Spec.imuSignal fl a fs z "accel" b) ∧
    (∀ b, (sciImu fs a (imuDecode fl a (z.body.drop 4))).angrt (Fin.ofNat 3 b) = Spec.imuSignal fl a fs z "angrt" b) ∧
    (a ≠ 195 → ∃ m, (sciImu fs a (imuDecode fl a (z.body.drop 4))).mag = some m ∧
      ∀ b, m (Fin.ofNat 3 b) = Spec.imuSignal fl a fs z "mag" b) := by
  rcases hA with rfl | rfl | rfl
  all_goals
    simp only [sciImu, imuDecode, Spec.imuSignal, Spec.fromImu, Spec.imuPlace, Spec.imuNum]
    refine ⟨fun b => ?_, fun b => ?_, fun h => ?_⟩
  · generalize Fin.ofNat 3 b = i
    fin_cases i <;> simp [msAxes] <;> ring
  · generalize Fin.ofNat 3 b = i
    fin_cases i <;> simp [msAxes]
  · exact absurd rfl h
  · generalize Fin.ofNat 3 b = i
    fin_cases i <;> simp [msAxes]
  · generalize Fin.ofNat 3 b = i
    fin_cases i <;> simp [msAxes]
  · refine ⟨_, rfl, fun b => ?_⟩
    generalize Fin.ofNat 3 b = i
    fin_cases i <;> simp [msAxes]
  · generalize Fin.ofNat 3 b = i
    fin_cases i <;> simp [msAxes] <;> ring
  · generalize Fin.ofNat 3 b = i
    fin_cases i <;> simp [msAxes]
  · refine ⟨_, rfl, fun b => ?_⟩
    generalize Fin.ofNat 3 b = i
    fin_cases i <;> simp [msAxes]

theorem imu_matrix (fs : ℝ) (fl : List ℕ → ℝ) (z : NkRec) {a : ℕ} (hA : a = 195 ∨ a = 204) :
    ∃ m, (sciImu fs a (imuDecode fl a (z.body.drop 4))).orient = some m ∧
      (Orthonormal (Matrix.of fun i j : Fin 3 => Spec.imuNum fl z (Spec.imuMatAt a + 3 * i + j)) →
        Orthonormal (Matrix.of m)) ∧ ∀ v, ∀ i < 3,
      applyM (Matrix.of m).transpose v i =
        Spec.byImu (fun j c => Spec.imuNum fl z (Spec.imuMatAt a + 3 * j + c)) (Spec.inImu v) i := by
  refine ⟨msOrient fun i j : Fin 3 => Spec.imuNum fl z (Spec.imuMatAt a + 3 * i + j), ?_, ?_, ?_⟩
  · rcases hA with rfl | rfl <;> simp [sciImu, imuDecode, Spec.imuMatAt, Spec.imuNum]
  · intro h
    exact (imu_axes _).2.1 h
  · intro v i hi
    have : i = 0 ∨ i = 1 ∨ i = 2 := by omega
    rcases this with rfl | rfl | rfl <;>
      simp [applyM, Fin.sum_univ_three, Spec.byImu, Spec.inImu, msOrient, msColumns, msAxes] <;> ring

theorem vecImu_vars {ds : VecDs} {om : List (Option M3)} {a : ℕ} (h : ds.imuType = some a) :
    vecImuVars ds om =
      let accel : RVar (VecT ds om) := ⟨"accel", 3, fun t b => ((ds.imu t.1).map fun d => d.accel (Fin.ofNat 3 b)).getD 0⟩
      let angrt : RVar (VecT ds om) := ⟨"angrt", 3, fun t b => ((ds.imu t.1).map fun d => d.angrt (Fin.ofNat 3 b)).getD 0⟩
      let mag : RVar (VecT ds om) :=
        ⟨"mag", 3, fun t b => ((ds.imu t.1).bind fun d => d.mag.map fun m => m (Fin.ofNat 3 b)).getD 0⟩
      if a = 195 then [accel, angrt] else if a = 204 then [accel, angrt, mag] else [angrt, accel, mag] := by
  unfold vecImuVars
  split
  · rename_i h'
    rw [h] at h'
    cases h'
  · rename_i f hf
    rw [h] at hf
    cases hf
    rfl

theorem vecImu_omat {ds : VecDs} {recs : List NkRec} {fs : ℝ} {fl : List ℕ → ℝ} {a : ℕ} (hA : a = 195 ∨ a = 204)
    (hty : ds.imuType = some a)
    (dI : ∀ k r, Spec.imuAt recs k r → ds.imu k = some (sciImu fs a (imuDecode fl a (r.body.drop 4)))) :
    ∃ om, vecOmat ds = .ok om ∧ ∀ k < ds.n, ∀ z, Spec.imuAt recs k z → ∃ m, om[k]? = some (some m) ∧
      (Orthonormal (Matrix.of fun i j : Fin 3 => Spec.imuNum fl z (Spec.imuMatAt a + 3 * i + j)) → Orthonormal m) ∧
      ∀ v, ∀ i < 3, applyM m.transpose v i =
        Spec.byImu (fun j c => Spec.imuNum fl z (Spec.imuMatAt a + 3 * j + c)) (Spec.inImu v) i := by
  have h1 : (Option.map imuHasOrient ds.imuType).getD false = true := by
    rw [hty]
    rcases hA with rfl | rfl <;> rfl
  refine ⟨_, by unfold vecOmat; rw [if_pos h1], fun k hk z hz => ?_⟩
  obtain ⟨m, hm1, hm2, hm3⟩ := imu_matrix fs fl z hA
  refine ⟨Matrix.of m, ?_, hm2, hm3⟩
  rw [List.getElem?_map, List.getElem?_range hk, Option.map_some, dI k z hz]
  simp only [Option.bind_some, hm1, Option.map_some]

theorem vec_heading {ds : VecDs} {recs : List NkRec}
    (d2 : ∀ k r x, Spec.sysAt recs k r → x.ok → r.body = Spec.VecSysVals.bytes true x →
      (∀ p ∈ Spec.sysVars, p.1 ds k = some ((p.2 x : ℚ) : ℝ)) ∧ ds.status k = x.st ∧ ds.error k = x.er)
    (d3 : ∀ k k' r r' x x', Spec.sysAt recs k r → x.ok → r.body = Spec.VecSysVals.bytes true x →
      Spec.sysAt recs k' r' → x'.ok → r'.body = Spec.VecSysVals.bytes true x' →
      (∀ j q, Spec.sysAt recs j q → ¬ (k < j ∧ j < k')) → ∀ i, k < i → i < k' →
      ∀ p ∈ Spec.sysVars, p.1 ds i =
        some ((p.2 x : ℝ) + ((p.2 x' : ℝ) - (p.2 x : ℝ)) * ((i : ℝ) - k) / ((k' : ℝ) - k)))
    {k : ℕ} {h p r : ℝ} (ha : Spec.vecAngles true recs k h p r) (hj : ∃ j z, Spec.sysAt recs j z ∧ k ≤ j) :
    ds.heading k = some h := by
  have mh : (VecDs.heading, fun x : Spec.VecSysVals => (x.he : ℚ) / 10) ∈ Spec.sysVars := by simp [Spec.sysVars]
  obtain ⟨j', z', hj', hle⟩ := hj
  rcases ha with ⟨j, z, y, e1, e2, e3, e4, e5, rfl, rfl, rfl⟩ |
    ⟨j, j', z, z', y, y', e1, e2, e3, e1', e2', e3', e4, e5, e6, rfl, rfl, rfl⟩
  · have hk : j = k := by
      rcases e5 with e5 | e5
      · exact e5
      · have := e5 j' z' hj'
        omega
    subst hk
    refine ((d2 j z y e1 e2 e3).1 _ mh).trans ?_
    simp
  · refine (d3 j j' z z' y y' e1 e2 e3 e1' e2' e3' e4 k e5 e6 _ mh).trans ?_
    simp

theorem vecTurn_three {hd : NkHeadCfg} (h3 : hd.nBeam = 3) (f : NkFrame) (R : M3) (nm : String) (O : M3) (v : ℕ → ℝ) :
    vecTurn f (nkBeamMat hd) R nm O v = vecTurn f ⟨3, fun i j => (hd.mat i j : ℝ)⟩ R nm O v ∧
    (nkBeamMat hd).mat.det = Matrix.det (n := Fin 3) fun i j => (hd.mat i j : ℝ) := by
  obtain ⟨a, b, c, d, n, m⟩ := hd
  simp only at h3
  subst h3
  exact ⟨rfl, rfl⟩

theorem vecTurn_earthBy (axes : NkAxes) (M R O : M3) (nm : String) {A : (ℕ → ℝ) → ℕ → ℝ}
    (hA : ∀ v, ∀ i < 3, applyM O.transpose v i = A v i) (d : ℝ) (v : ℕ → ℝ) (i : ℕ) (hi : i < 3) :
    turnCW d (vecTurn (Spec.frameOf axes) ⟨3, M⟩ R nm O v) i =
      turnCW d (Spec.earthBy axes M (if nm = "vel" then R else 1) A v) i := by
  have hh : ∀ w, headTurn R nm w = Spec.lin (if nm = "vel" then R else 1) w := by
    intro w
    unfold headTurn
    split_ifs
    · rfl
    · exact (applyM_one w).symm
  have key : ∀ j < 3, vecTurn (Spec.frameOf axes) ⟨3, M⟩ R nm O v j =
      Spec.earthBy axes M (if nm = "vel" then R else 1) A v j := by
    intro j hj
    cases axes
    · rfl
    · show applyM O.transpose (headTurn R nm v) j = A (Spec.lin _ v) j
      rw [hh, hA _ j hj]
    · show applyM O.transpose (headTurn R nm (applyM M v)) j = A (Spec.lin _ (Spec.lin M v)) j
      rw [hh, hA _ j hj]
      rfl
  unfold Spec.turnCW
  rw [key 0 (by omega), key 1 (by omega), key i hi]

theorem vecImu_mem {ds : VecDs} {om : List (Option M3)} {a : ℕ} (h : ds.imuType = some a)
    (hA : a = 195 ∨ a = 204 ∨ a = 211) {o : NkOpened} :
    ((vecRDS o ds om).vars.map RVar.name = Spec.imuNames a) ∧ (∀ v ∈ (vecRDS o ds om).vars, v.n = 3) ∧
    ∀ v ∈ (vecRDS o ds om).vars,
      (v.name = "vel" ∧ ∀ t b, v.val t b = (((ds.vel t.1 (Fin.ofNat 3 b)).getD 0 : ℚ) : ℝ)) ∨
      (v.name = "accel" ∧ ∀ t b, v.val t b = ((ds.imu t.1).map fun d => d.accel (Fin.ofNat 3 b)).getD 0) ∨
      (v.name = "angrt" ∧ ∀ t b, v.val t b = ((ds.imu t.1).map fun d => d.angrt (Fin.ofNat 3 b)).getD 0) ∨
      (v.name = "mag" ∧ a ≠ 195 ∧
        ∀ t b, v.val t b = ((ds.imu t.1).bind fun d => d.mag.map fun m => m (Fin.ofNat 3 b)).getD 0) := by
  have hvars : (vecRDS o ds om).vars =
      ⟨"vel", 3, fun t b => (((ds.vel t.1 (Fin.ofNat 3 b)).getD 0 : ℚ) : ℝ)⟩ :: vecImuVars ds om := rfl
  rw [hvars, vecImu_vars h]
  rcases hA with rfl | rfl | rfl
  · simp [Spec.imuNames]
  · simp [Spec.imuNames]
  · simp [Spec.imuNames]

/-- **C149 (Vector with IMU), what the code does.** A continuous recording of a Vector with an IMU record behind each
sample, read with a head matrix and a declination (or without) in the userdata and rotated to the earth frame: all
variables (velocity and sensors of the IMU) go the same way, from the frame in which the *velocity* was recorded. -/
theorem vector_imu_actual (utf8 : List ℕ → Option (List Char)) (hu : Spec.Utf8 utf8) (b : Spec.NkBoard)
    (h : Spec.NkSonde) (s : Spec.NkSetup) (cs : Fin 6 → ℕ) (t : List ℕ) (w : List Char)
    (hb : b.Valid) (hs : b.serial = Spec.prefixOf .adv ++ t) (hw : firstWord (Spec.ascii b.serial) = .ok w)
    (hn : Spec.beamsOf (Spec.ascii b.serial) h = 3) (hm : ∀ k < 9, Spec.I16 (h.mat k))
    (h1 : Spec.Text 6 s.name) (h2 : Spec.Text 80 s.comments) (hburst : s.nBurst.val = 0)
    {fs a : ℕ} {t0 : ℝ} (hfs : s.avgInterval.val * fs = 512) (ht0 : 0 < t0) (hA : a = 195 ∨ a = 204 ∨ a = 211)
    {recs : List NkRec} (hrec : Spec.VecRecording ⟨true, false, false, s.nBeams.val, s.nBins.val⟩ fs t0 a recs)
    (hsz : ∀ r ∈ recs, Spec.nkSized true r)
    {size B : ℕ} {pre : List NkBlock} {bs : List (List NkBlock)} (e : Spec.blocks recs = pre ++ bs.flatten)
    (hpre : ∀ r ∈ pre, r.id ≠ 17) (hp : Spec.countId 16 pre < fs) (hbs : ∀ b ∈ bs, Spec.isBlock 17 size B b)
    (hfsb : ∀ b ∈ bs, Spec.countId 16 b ≤ fs) (hne : bs ≠ []) (hsize : size < B)
    (hall : ∀ k < recs.countP Spec.isSample, ∃ r, Spec.imuAt recs k r) (q : Bool)
    (hq : a = 211 → ∀ k r x, Spec.sysAt recs k r → x.ok → r.body = Spec.VecSysVals.bytes true x →
      x.st % 2 = if q then 1 else 0)
    (round : ℝ → ℤ) (cosH : ℝ) (fl : List ℕ → ℝ)
    (rot : Option M3) (hR : ∀ R, rot = some R → IsRotation R ∧ s.axes ≠ .enu) (dec : Option ℝ)
    (hE : s.axes = .enu → dec ≠ none → (Spec.beamMatrix h).det ≠ 0 ∧ (a ≠ 211 → ∀ k z, Spec.imuAt recs k z →
      Orthonormal (Matrix.of fun i j : Fin 3 => Spec.imuNum fl z (Spec.imuMatAt a + 3 * i + j)))) :
    ∃ o ds om d e hh, nortekRead false utf8 fl round cosH (Spec.nkFile true 3 b h s cs (recs.flatMap NkRec.encode)) =
        some (.ok (.vec o ds)) ∧ ds.n = recs.countP Spec.isSample ∧
      vecFinish rot dec o ds = some (.ok ⟨om, d⟩) ∧ d.coordSys = (Spec.frameOf s.axes).toFrame ∧ d.heading = some hh ∧
      rotate2 3 .earth d = some (.ok e) ∧ e.vars.map RVar.name = Spec.imuNames a ∧ (∀ v ∈ e.vars, v.n = 3) ∧
      ∀ k r x z A, Spec.sampleAt recs k r → x.ok → r.body = Spec.VecVals.bytes true x → Spec.imuAt recs k z →
        Spec.vecPose fl a q recs k A →
        ∃ hT, (∀ he pi ro, Spec.vecAngles true recs k he pi ro → (∃ j z, Spec.sysAt recs j z ∧ k ≤ j) →
            hh ⟨k, hT⟩ = he + dec.getD 0) ∧
          ∀ v ∈ e.vars, ∀ i < 3, v.val ⟨k, hT⟩ i = turnCW (dec.getD 0)
            (Spec.earthBy s.axes (Spec.beamMatrix h) (if v.name = "vel" then rot.getD 1 else 1) A
              (Spec.vecSignal fl a fs s.fine x z v.name)) i := by
  have ha : 0 < s.avgInterval.val := by
    rcases Nat.eq_zero_or_pos s.avgInterval.val with h0 | h0
    · rw [h0] at hfs; omega
    · exact h0
  obtain ⟨o, ds, r1, r2, r3, -, -, r6, d1, d2, dI, dn, d3, -, d5, d6⟩ := vector_whole_partial utf8 hu b h s cs t w hb hs hw
    (by omega) (by rw [hn]; exact hm) h1 h2 hburst hfs ht0 hA hrec hsz e hpre hp hbs hfsb hne hsize round cosH fl
  obtain ⟨o', q1, -, -, -, -, -, q7, -⟩ := nortek_opens utf8 hu b h s cs (recs.flatMap NkRec.encode)
    .adv t w hb hs hw (by omega) (by rw [hn]; exact hm) h1 h2 ha
  have hoo := nortekRead_opened r1
  rw [q1] at hoo
  have hoo' : o' = o := Except.ok.inj hoo
  subst hoo'
  rw [hn] at q7 r1
  have hof : o'.frame = Spec.frameOf s.axes := r3
  -- there are samples
  obtain ⟨i0, j0, k0, hij, hjk, ⟨z0, hz0⟩, -, ⟨zk, hzk⟩⟩ := hrec.three
  have hcnt : i0 < recs.countP Spec.isSample := by
    have := sysAt_le hzk
    omega
  have hn' : ds.n = recs.countP Spec.isSample := dn hall (by
    obtain ⟨r, hr⟩ := hall i0 hcnt
    exact ⟨i0, r, hr⟩)
  have hty : ds.imuType = some a := by
    obtain ⟨r, hr⟩ := hall i0 hcnt
    exact (dI i0 r hr).2
  have hval : ∀ j z, Spec.sysAt recs j z → ∃ y : Spec.VecSysVals, y.ok ∧ z.body = y.bytes true := by
    rintro j z ⟨pre', post', e', hz, -⟩
    exact hrec.sysvals z (by rw [e']; simp) hz
  have hmat : (fun i j => (o'.head.mat i j : ℝ) : Matrix (Fin 3) (Fin 3) ℝ) = Spec.beamMatrix h := by
    funext i j
    rw [r6 i (by rw [q7]; exact i.isLt) j (by rw [q7]; exact j.isLt), q7]
    simp [Spec.beamMatrix]
  -- the orientation
  obtain ⟨om, hom, hpose, hort⟩ : ∃ om, vecOmat ds = .ok om ∧
      (∀ k < ds.n, ∀ A, Spec.vecPose fl a q recs k A → ∃ O, om[k]? = some (some O) ∧
        ∀ v, ∀ i < 3, applyM O.transpose v i = A v i) ∧
      (s.axes = .enu → dec ≠ none → ∀ k < ds.n, ∀ O, om[k]? = some (some O) → Orthonormal O) := by
    by_cases h211 : a = 211
    · obtain ⟨om, hom, hget⟩ := vec_omat hval ⟨i0, z0, hz0, by omega⟩ d2 d3 d5 (d6 q (hq h211))
      refine ⟨om, ?_, ?_, ?_⟩
      · unfold vecOmat
        rw [hty, h211]
        exact hom
      · rintro k hk A (⟨hno, -⟩ | ⟨-, he, pi, ro, hv, rfl⟩)
        · exact absurd h211 hno
        · refine ⟨_, ((hget k hk).2.2.2 he pi ro hv).1, fun v i _ => ?_⟩
          rw [nortek_attitude]
      · intro _ _ k hk O hO
        exact (hget k hk).2.1 O hO
    · have hA' : a = 195 ∨ a = 204 := hA.imp_right fun hx => hx.resolve_right h211
      obtain ⟨om, hom, hget⟩ := vecImu_omat hA' hty fun k r hr => (dI k r hr).1
      refine ⟨om, hom, ?_, ?_⟩
      · rintro k hk A (⟨-, z, hz, rfl⟩ | ⟨h', -⟩)
        · obtain ⟨m, g1, -, g3⟩ := hget k hk z hz
          exact ⟨m, g1, g3⟩
        · exact absurd h' h211
      · intro hax hdec k hk O hO
        obtain ⟨z, hz⟩ := hall k (by omega)
        obtain ⟨m, g1, g2, -⟩ := hget k hk z hz
        rw [g1] at hO
        cases hO
        exact g2 ((hE hax hdec).2 h211 k z hz)
  obtain ⟨n1, n2, n3⟩ := vecImu_mem (om := om) (o := o') hty hA
  obtain ⟨d, ee, u1, u2, u3, u4, u5⟩ := vector_userApply (ds := vecRDS o' ds om) (f := o'.frame)
    (m := fun t => ((om[t.1]?).join).getD 1) (B := nkBeamMat o'.head) rfl rfl rfl rfl q7 n2 rfl rfl rot (by
      intro R hRR
      refine ⟨(hR R hRR).1.2, ?_⟩
      rw [hof]
      intro hx
      apply (hR R hRR).2
      revert hx
      cases s.axes <;> simp [Spec.frameOf]) dec (by
      intro hfe hdec
      have hax : s.axes = .enu := by
        rw [hof] at hfe
        revert hfe
        cases s.axes <;> simp [Spec.frameOf]
      refine ⟨by rw [(vecTurn_three q7 .beam 1 "" 1 fun _ => 0).2, hmat]; exact (hE hax hdec).1, fun t => ?_⟩
      obtain ⟨m, hm'⟩ := t.2.2.2.1
      rw [hm']
      exact hort hax hdec t.1 t.2.1 m hm')
  refine ⟨o', ds, om, d, ee, _, r1, hn', ?_, ?_, u5, u3, ?_, ?_, ?_⟩
  · unfold vecFinish
    rw [hom]
    simp only [u1, Option.map_some]
  · rw [u2, hof]
  · rw [u4, List.map_map, ← n1]
    rfl
  · intro v hv
    rw [u4] at hv
    obtain ⟨y, hy, rfl⟩ := List.mem_map.mp hv
    exact n2 y hy
  · intro k r x z A p1 p2 p3 p4 p5
    have hk : k < ds.n := by
      obtain ⟨pre', post', e', hid, hc⟩ := p1
      have : k < recs.countP Spec.isSample := by
        rw [e', List.countP_append, List.countP_cons, hc]
        have : Spec.isSample r = true := by simp [Spec.isSample, hid]
        rw [if_pos this]
        omega
      omega
    obtain ⟨O, hO, hOA⟩ := hpose k hk A p5
    have hvel := (d1 k r x p1 p2 p3).1
    obtain ⟨s1, s2, s3⟩ := imu_signal fs fl z hA
    have hik := (dI k z p4).1
    refine ⟨⟨hk, ?_, ⟨_, hO⟩, ?_⟩, ?_, ?_⟩
    · intro b
      rw [hvel b]
      rfl
    · intro f hf
      rw [hty] at hf
      cases hf
      refine ⟨_, hik, fun hmag => ?_⟩
      obtain ⟨m, hm', -⟩ := s3 (by rintro rfl; simp [imuHasMag] at hmag)
      rw [hm']
      rfl
    · intro he pi ro hv hj
      simp only [vec_heading d2 d3 hv hj, Option.getD_some]
    · intro v hv i hi
      rw [u4] at hv
      obtain ⟨y, hy, rfl⟩ := List.mem_map.mp hv
      simp only [hO, Option.join_some, Option.getD_some]
      rw [hof, (vecTurn_three q7 _ _ _ _ _).1, hmat, vecTurn_earthBy s.axes _ _ _ _ hOA _ _ i hi]
      congr 2
      funext b
      rcases n3 y hy with ⟨hnm, hyv⟩ | ⟨hnm, hyv⟩ | ⟨hnm, hyv⟩ | ⟨hnm, h195, hyv⟩
      · refine (hyv _ b).trans ?_
        rw [hnm, Spec.vecSignal, if_pos rfl]
        dsimp only
        rw [hvel]
        cases s.fine <;> simp
      · refine (hyv _ b).trans ?_
        rw [hnm, Spec.vecSignal, if_neg (by decide : ¬ "accel" = "vel")]
        dsimp only
        rw [hik]
        exact s1 b
      · refine (hyv _ b).trans ?_
        rw [hnm, Spec.vecSignal, if_neg (by decide : ¬ "angrt" = "vel")]
        dsimp only
        rw [hik]
        exact s2 b
      · obtain ⟨m, hm', hmb⟩ := s3 h195
        refine (hyv _ b).trans ?_
        rw [hnm, Spec.vecSignal, if_neg (by decide : ¬ "mag" = "vel")]
        dsimp only
        rw [hik]
        simp only [Option.bind_some, hm', Option.map_some, Option.getD_some]
        exact hmb b

/-- **C149 (Vector with IMU).** A continuous recording of a Vector with an IMU record behind each sample, read with a
head matrix and a declination (or without) in the userdata and rotated to the earth frame. The velocity is that towards
east, north and up, with the attitude that the IMU has recorded (that of heading, pitch and roll where its records have
no orientation matrix), whatever axes it was recorded in. Acceleration, rotation rate and magnetic field are right when
the velocity was recorded along the axes of the instrument; the other cases are in `vector_imu_beam_false` and
`vector_imu_enu_false`. -/
theorem vector_imu_earth_partial (utf8 : List ℕ → Option (List Char)) (hu : Spec.Utf8 utf8) (b : Spec.NkBoard)
    (h : Spec.NkSonde) (s : Spec.NkSetup) (cs : Fin 6 → ℕ) (t : List ℕ) (w : List Char)
    (hb : b.Valid) (hs : b.serial = Spec.prefixOf .adv ++ t) (hw : firstWord (Spec.ascii b.serial) = .ok w)
    (hn : Spec.beamsOf (Spec.ascii b.serial) h = 3) (hm : ∀ k < 9, Spec.I16 (h.mat k))
    (h1 : Spec.Text 6 s.name) (h2 : Spec.Text 80 s.comments) (hburst : s.nBurst.val = 0)
    {fs a : ℕ} {t0 : ℝ} (hfs : s.avgInterval.val * fs = 512) (ht0 : 0 < t0) (hA : a = 195 ∨ a = 204 ∨ a = 211)
    {recs : List NkRec} (hrec : Spec.VecRecording ⟨true, false, false, s.nBeams.val, s.nBins.val⟩ fs t0 a recs)
    (hsz : ∀ r ∈ recs, Spec.nkSized true r)
    {size B : ℕ} {pre : List NkBlock} {bs : List (List NkBlock)} (e : Spec.blocks recs = pre ++ bs.flatten)
    (hpre : ∀ r ∈ pre, r.id ≠ 17) (hp : Spec.countId 16 pre < fs) (hbs : ∀ b ∈ bs, Spec.isBlock 17 size B b)
    (hfsb : ∀ b ∈ bs, Spec.countId 16 b ≤ fs) (hne : bs ≠ []) (hsize : size < B)
    (hall : ∀ k < recs.countP Spec.isSample, ∃ r, Spec.imuAt recs k r) (q : Bool)
    (hq : a = 211 → ∀ k r x, Spec.sysAt recs k r → x.ok → r.body = Spec.VecSysVals.bytes true x →
      x.st % 2 = if q then 1 else 0)
    (round : ℝ → ℤ) (cosH : ℝ) (fl : List ℕ → ℝ)
    (rot : Option M3) (hR : ∀ R, rot = some R → IsRotation R ∧ s.axes ≠ .enu) (dec : Option ℝ)
    (hE : s.axes = .enu → dec ≠ none → (Spec.beamMatrix h).det ≠ 0 ∧ (a ≠ 211 → ∀ k z, Spec.imuAt recs k z →
      Orthonormal (Matrix.of fun i j : Fin 3 => Spec.imuNum fl z (Spec.imuMatAt a + 3 * i + j)))) :
    ∃ o ds om d e hh, nortekRead false utf8 fl round cosH (Spec.nkFile true 3 b h s cs (recs.flatMap NkRec.encode)) =
        some (.ok (.vec o ds)) ∧ ds.n = recs.countP Spec.isSample ∧
      vecFinish rot dec o ds = some (.ok ⟨om, d⟩) ∧ d.coordSys = (Spec.frameOf s.axes).toFrame ∧ d.heading = some hh ∧
      rotate2 3 .earth d = some (.ok e) ∧ e.vars.map RVar.name = Spec.imuNames a ∧ (∀ v ∈ e.vars, v.n = 3) ∧
      ∀ k r x z A, Spec.sampleAt recs k r → x.ok → r.body = Spec.VecVals.bytes true x → Spec.imuAt recs k z →
        Spec.vecPose fl a q recs k A →
        ∃ hT, (∀ he pi ro, Spec.vecAngles true recs k he pi ro → (∃ j z, Spec.sysAt recs j z ∧ k ≤ j) →
            hh ⟨k, hT⟩ = he + dec.getD 0) ∧
          ∀ v ∈ e.vars, ∀ i < 3,
            (v.name = "vel" → v.val ⟨k, hT⟩ i = turnCW (dec.getD 0)
              (Spec.earthBy s.axes (Spec.beamMatrix h) (rot.getD 1) A
                fun b => (x.v (Fin.ofNat 3 b) : ℝ) * (if s.fine then 1 / 10 else 1) / 1000) i) ∧
            (v.name ≠ "vel" → s.axes = .xyz → v.val ⟨k, hT⟩ i =
              turnCW (dec.getD 0) (A (Spec.imuSignal fl a fs z v.name)) i) := by
  obtain ⟨o, ds, om, d, ee, hh, c1, c2, c3, c4, c5, c6, c7, c8, c9⟩ := vector_imu_actual utf8 hu b h s cs t w hb hs hw hn hm
    h1 h2 hburst hfs ht0 hA hrec hsz e hpre hp hbs hfsb hne hsize hall q hq round cosH fl rot hR dec hE
  refine ⟨o, ds, om, d, ee, hh, c1, c2, c3, c4, c5, c6, c7, c8, fun k r x z A p1 p2 p3 p4 p5 => ?_⟩
  obtain ⟨hT, g1, g2⟩ := c9 k r x z A p1 p2 p3 p4 p5
  refine ⟨hT, g1, fun v hv i hi => ⟨fun hnm => ?_, fun hnm hx => ?_⟩⟩
  · rw [g2 v hv i hi, if_pos hnm, Spec.vecSignal, if_pos hnm]
  · rw [g2 v hv i hi, if_neg hnm, Spec.vecSignal, if_neg hnm, hx]
    show turnCW _ (A (Spec.lin 1 _)) i = _
    rw [show Spec.lin (1 : M3) (Spec.imuSignal fl a fs z v.name) = _ from applyM_one _]

/-! ### A Vector with an IMU -/

/-- An IMU record of type 204: 1 g along the x axis of the IMU, no rotation, magnetic field 0; the axes of the IMU point
north, east and down. -/
def exImuBody : List ℕ :=
  [43, 0, 0, 204] ++ ([1, 0, 0, 0, 0, 0, 0, 0, 0, 1, 0, 0, 0, 1, 0, 0, 0, 1] : List ℕ).flatMap (fun b =>
    [0, 0, 128 * b, 63 * b]) ++ [0, 0, 0, 0, 0, 0]

/-- Three seconds at 2 Hz. -/
def exImuRecs : List NkRec :=
  [⟨0x11, (exNorthSys 0).bytes true, 0, 0⟩, ⟨0x10, exNorthVals.bytes true, 0, 0⟩, ⟨0x71, exImuBody, 0, 0⟩,
   ⟨0x10, exNorthVals.bytes true, 0, 0⟩, ⟨0x71, exImuBody, 0, 0⟩,
   ⟨0x11, (exNorthSys 1).bytes true, 0, 0⟩, ⟨0x10, exNorthVals.bytes true, 0, 0⟩, ⟨0x71, exImuBody, 0, 0⟩,
   ⟨0x10, exNorthVals.bytes true, 0, 0⟩, ⟨0x71, exImuBody, 0, 0⟩,
   ⟨0x11, (exNorthSys 2).bytes true, 0, 0⟩, ⟨0x10, exNorthVals.bytes true, 0, 0⟩, ⟨0x71, exImuBody, 0, 0⟩,
   ⟨0x10, exNorthVals.bytes true, 0, 0⟩, ⟨0x71, exImuBody, 0, 0⟩]

theorem exImu_mem : ∀ r ∈ exImuRecs, (∃ k < 3, r = ⟨0x11, (exNorthSys k).bytes true, 0, 0⟩) ∨
    r = ⟨0x10, exNorthVals.bytes true, 0, 0⟩ ∨ r = ⟨0x71, exImuBody, 0, 0⟩ := by
  intro r hr
  simp only [exImuRecs, List.mem_cons, List.not_mem_nil, or_false] at hr
  rcases hr with rfl | rfl | rfl | rfl | rfl | rfl | rfl | rfl | rfl | rfl | rfl | rfl | rfl | rfl | rfl
  · exact .inl ⟨0, by omega, rfl⟩
  · exact .inr (.inl rfl)
  · exact .inr (.inr rfl)
  · exact .inr (.inl rfl)
  · exact .inr (.inr rfl)
  · exact .inl ⟨1, by omega, rfl⟩
  · exact .inr (.inl rfl)
  · exact .inr (.inr rfl)
  · exact .inr (.inl rfl)
  · exact .inr (.inr rfl)
  · exact .inl ⟨2, by omega, rfl⟩
  · exact .inr (.inl rfl)
  · exact .inr (.inr rfl)
  · exact .inr (.inl rfl)
  · exact .inr (.inr rfl)

theorem exImu_sysAt {k : ℕ} {r : NkRec} (h : Spec.sysAt exImuRecs k r) :
    ∃ i < 3, k = 2 * i ∧ r = ⟨0x11, (exNorthSys i).bytes true, 0, 0⟩ := by
  obtain ⟨pre, post, e, h1, h2⟩ := h
  obtain ⟨h3, h4, h5, -⟩ := split_idx e
  have key : ∀ i < 15, (exImuRecs[i]?.map NkRec.id) = some 0x11 → i = 0 ∨ i = 5 ∨ i = 10 := by decide
  have hcount : pre.countP Spec.isSample = (exImuRecs.take pre.length).countP Spec.isSample := by rw [← h5]
  rcases key pre.length h3 (by rw [h4, Option.map_some, h1]) with h0 | h0 | h0
  all_goals rw [h0] at h4 hcount
  · cases h4
    exact ⟨0, by omega, by rw [← h2, hcount]; decide, rfl⟩
  · cases h4
    exact ⟨1, by omega, by rw [← h2, hcount]; decide, rfl⟩
  · cases h4
    exact ⟨2, by omega, by rw [← h2, hcount]; decide, rfl⟩

theorem exImu_between (id : ℕ) (hid : id = 0x11 ∨ id = 0x71) : ∀ pre r mid q post,
    exImuRecs = pre ++ r :: (mid ++ q :: post) → r.id = id → q.id = id → 0 < mid.countP Spec.isSample := by
  intro pre r mid q post e h1 h2
  have e' : exImuRecs = (pre ++ r :: mid) ++ q :: post := by rw [e]; simp
  obtain ⟨a1, a2, a3, a4⟩ := split_idx e
  obtain ⟨b1, b2, b3, b4⟩ := split_idx e'
  have hm : mid = (exImuRecs.drop (pre.length + 1)).take mid.length := by rw [← a4]; simp
  have hlen : pre.length + 1 + mid.length = (pre ++ r :: mid).length := by simp; omega
  rw [hm]
  have key : ∀ id, id = 0x11 ∨ id = 0x71 → ∀ i < 15, ∀ j < 15, (exImuRecs[i]?.map NkRec.id) = some id →
      (exImuRecs[i + 1 + j]?.map NkRec.id) = some id →
      0 < ((exImuRecs.drop (i + 1)).take j).countP Spec.isSample := by
    rintro id (rfl | rfl) <;> decide +kernel
  refine key id hid pre.length a1 mid.length ?_ (by rw [a2, Option.map_some, h1]) (by
    rw [hlen, b2, Option.map_some, h2])
  have : exImuRecs.length = 15 := rfl
  omega

theorem exImu_recording : Spec.VecRecording exCfg (2 : ℕ) 1339502400 204 exImuRecs := by
  refine ⟨?_, ?_, ?_, ?_, ?_, exImu_between _ (.inl rfl), exImu_between _ (.inr rfl), ?_, ?_, ?_⟩
  · intro r hr
    rcases exImu_mem r hr with ⟨k, -, rfl⟩ | rfl | rfl
    · left; simp [nkFixedLen, Spec.VecSysVals.bytes, Spec.clock6, put16_length]
    · left; simp [nkFixedLen, Spec.VecVals.bytes, put16_length]
    · right; right; exact ⟨rfl, 78, by decide, by decide⟩
  · intro r hr
    rcases exImu_mem r hr with ⟨k, -, rfl⟩ | rfl | rfl <;> simp
  · intro r hr h
    rcases exImu_mem r hr with ⟨k, -, rfl⟩ | rfl | rfl
    · simp at h
    · exact ⟨exNorthVals, exNorthVals_ok, rfl⟩
    · simp at h
  · intro r hr h
    rcases exImu_mem r hr with ⟨k, hk, rfl⟩ | rfl | rfl
    · exact ⟨exNorthSys k, exNorthSys_ok k hk, rfl⟩
    · simp at h
    · simp at h
  · intro r hr h
    rcases exImu_mem r hr with ⟨k, -, rfl⟩ | rfl | rfl
    · simp at h
    · simp at h
    · decide
  · intro pre r post e h1
    obtain ⟨a1, a2, a3, a4⟩ := split_idx e
    have key : ∀ i < 15, (exImuRecs[i]?.map NkRec.id) = some 0x71 → 0 < 0 + (exImuRecs.take i).countP Spec.isSample := by
      decide +kernel
    have h2 := key pre.length a1 (by rw [a2, Option.map_some, h1])
    rwa [← a3] at h2
  · intro k r x hr e hx
    obtain ⟨i, hi, rfl, rfl⟩ := exImu_sysAt hr
    have h3 : (exNorthSys i).t = x.t := congrArg VecSys.time (exNorth_bytes hi hx e)
    rw [← h3]
    have : i = 0 ∨ i = 1 ∨ i = 2 := by omega
    rcases this with rfl | rfl | rfl
    · have : date2epoch (exNorthSys 0).t 0 = 1339502400 := by decide +kernel
      rw [this]; norm_num
    · have : date2epoch (exNorthSys 1).t 0 = 1339502401 := by decide +kernel
      rw [this]; norm_num
    · have : date2epoch (exNorthSys 2).t 0 = 1339502402 := by decide +kernel
      rw [this]; norm_num
  · refine ⟨0, 2, 4, by omega, by omega, ⟨_, [], _, rfl, rfl, rfl⟩,
      ⟨_, exImuRecs.take 5, _, rfl, rfl, by decide⟩, ⟨_, exImuRecs.take 10, _, rfl, rfl, by decide⟩⟩

/-- A head with three beams; the third row of the matrix of a Vector. -/
def exImuSonde : Spec.NkSonde := { exNkSonde with mat := fun k => if k < 6 then exNkSonde.mat k else 1423 }

/-- The setup at 2 Hz. -/
def exImuSetup (axes : NkAxes) : Spec.NkSetup := { exNorthSetup with axes := axes }

theorem exImu_imuAt : ∀ k < 6, Spec.imuAt exImuRecs k ⟨0x71, exImuBody, 0, 0⟩ := by
  intro k hk
  have : k = 0 ∨ k = 1 ∨ k = 2 ∨ k = 3 ∨ k = 4 ∨ k = 5 := by omega
  rcases this with rfl | rfl | rfl | rfl | rfl | rfl
  · exact ⟨exImuRecs.take 2, _, rfl, rfl, by decide⟩
  · exact ⟨exImuRecs.take 4, _, rfl, rfl, by decide⟩
  · exact ⟨exImuRecs.take 7, _, rfl, rfl, by decide⟩
  · exact ⟨exImuRecs.take 9, _, rfl, rfl, by decide⟩
  · exact ⟨exImuRecs.take 12, _, rfl, rfl, by decide⟩
  · exact ⟨exImuRecs.take 14, _, rfl, rfl, by decide⟩

theorem exImu_read (axes : NkAxes) (round : ℝ → ℤ) (cosH : ℝ) (fl : List ℕ → ℝ) :
    ∃ o ds om d e, nortekRead false exUtf8 fl round cosH
        (Spec.nkFile true 3 exNkBoard exImuSonde (exImuSetup axes) (fun _ => 0) (exImuRecs.flatMap NkRec.encode)) =
        some (.ok (.vec o ds)) ∧
      vecFinish none none o ds = some (.ok ⟨om, d⟩) ∧ rotate2 3 .earth d = some (.ok e) ∧
      e.vars.map RVar.name = ["vel", "accel", "angrt", "mag"] ∧
      ∃ hT, ∀ v ∈ e.vars, ∀ i < 3, v.val ⟨0, hT⟩ i =
        Spec.earthBy axes (Spec.beamMatrix exImuSonde) 1
          (fun v => Spec.byImu (fun j c => Spec.imuNum fl ⟨0x71, exImuBody, 0, 0⟩ (9 + 3 * j + c)) (Spec.inImu v))
          (Spec.vecSignal fl 204 2 true exNorthVals ⟨0x71, exImuBody, 0, 0⟩ v.name) i := by
  have hfw : firstWord (Spec.ascii exNkBoard.serial) = .ok ['V', 'E', 'C'] := by decide
  have hbe : Spec.beamsOf (Spec.ascii exNkBoard.serial) exImuSonde = 3 := by
    unfold Spec.beamsOf
    rw [hfw]
    rfl
  obtain ⟨o, ds, om, d, e, hh, c1, c2, c3, c4, c5, c6, c7, c8, c9⟩ := vector_imu_actual exUtf8 exUtf8_ok exNkBoard exImuSonde
    (exImuSetup axes) (fun _ => 0) [32, 52, 57, 53, 49] _ ⟨by decide, by decide, by decide⟩ rfl hfw hbe
    (by decide) ⟨by cases axes <;> decide, by cases axes <;> decide⟩ ⟨by cases axes <;> decide, by cases axes <;> decide⟩
    rfl (fs := 2) (a := 204) rfl (by norm_num) (by simp)
    (recs := exImuRecs) exImu_recording (by
      intro r hr
      rcases exImu_mem r hr with ⟨k, hk, rfl⟩ | rfl | rfl
      · right; right
        refine ⟨by simp, by simp, 14, 0, _, rfl, ?_⟩
        simp [Spec.VecSysVals.bytes, Spec.clock6, put16_length]
        decide
      · left; exact ⟨rfl, by decide +kernel⟩
      · right; right; exact ⟨by decide, by decide, 43, 0, _, rfl, by decide +kernel⟩)
    (size := 28) (B := 248) (pre := []) (bs := List.replicate 3 [⟨17, 28⟩, ⟨16, 24⟩, ⟨113, 86⟩, ⟨16, 24⟩, ⟨113, 86⟩])
    (by decide +kernel) (by simp) (by decide) (by
      intro b hb
      rw [List.eq_of_mem_replicate hb]
      exact ⟨[⟨16, 24⟩, ⟨113, 86⟩, ⟨16, 24⟩, ⟨113, 86⟩], rfl, by simp, rfl⟩) (by decide) (by simp) (by omega)
    (by
      intro k hk
      exact ⟨_, exImu_imuAt k hk⟩) false
    (by intro h; cases h) round cosH fl none (by intro R hR; cases hR) none (by intro _ h; exact absurd rfl h)
  refine ⟨o, ds, om, d, e, c1, c3, c6, c7, ?_⟩
  obtain ⟨hT, -, g⟩ := c9 0 ⟨0x10, exNorthVals.bytes true, 0, 0⟩ exNorthVals ⟨0x71, exImuBody, 0, 0⟩ _
    ⟨exImuRecs.take 1, _, rfl, rfl, by decide⟩ exNorthVals_ok rfl (exImu_imuAt 0 (by omega))
    (.inl ⟨by decide, _, exImu_imuAt 0 (by omega), rfl⟩)
  refine ⟨hT, fun v hv i hi => ?_⟩
  have hf : (exImuSetup axes).fine = true := by cases axes <;> decide
  rw [g v hv i hi, hf]
  simp only [Option.getD_none, ite_self, turnCW_zero]
  rfl

theorem exImu_signal (fl : List ℕ → ℝ) (h0 : fl [0, 0, 0, 0] = 0) (h1 : fl [0, 0, 128, 63] = 1) :
    (∀ j c, j < 3 → c < 3 → Spec.imuNum fl ⟨0x71, exImuBody, 0, 0⟩ (9 + 3 * j + c) = if j = c then 1 else 0) ∧
    Spec.vecSignal fl 204 2 true exNorthVals ⟨0x71, exImuBody, 0, 0⟩ "accel" 0 = 0 ∧
    Spec.vecSignal fl 204 2 true exNorthVals ⟨0x71, exImuBody, 0, 0⟩ "accel" 1 = 0 ∧
    Spec.vecSignal fl 204 2 true exNorthVals ⟨0x71, exImuBody, 0, 0⟩ "accel" 2 = 9.80665 := by
  have hb : ∀ j, Spec.imuNum fl ⟨0x71, exImuBody, 0, 0⟩ j = fl (((exImuBody.drop 4).drop (4 * j)).take 4) := fun _ => rfl
  have hs : ∀ i, Spec.vecSignal fl 204 2 true exNorthVals ⟨0x71, exImuBody, 0, 0⟩ "accel" i = Spec.fromImu
      (fun j => Spec.imuNum fl ⟨0x71, exImuBody, 0, 0⟩ (0 + j) * 9.80665) i := by
    intro i
    rw [Spec.vecSignal, if_neg (by decide : ¬ "accel" = "vel"), Spec.imuSignal, Spec.imuPlace]
    rfl
  have g0 : Spec.imuNum fl ⟨0x71, exImuBody, 0, 0⟩ 0 = 1 := by
    rw [hb, show ((exImuBody.drop 4).drop (4 * 0)).take 4 = [0, 0, 128, 63] by decide, h1]
  have g1 : Spec.imuNum fl ⟨0x71, exImuBody, 0, 0⟩ 1 = 0 := by
    rw [hb, show ((exImuBody.drop 4).drop (4 * 1)).take 4 = [0, 0, 0, 0] by decide, h0]
  have g2 : Spec.imuNum fl ⟨0x71, exImuBody, 0, 0⟩ 2 = 0 := by
    rw [hb, show ((exImuBody.drop 4).drop (4 * 2)).take 4 = [0, 0, 0, 0] by decide, h0]
  refine ⟨?_, ?_, ?_, ?_⟩
  · intro j c hj hc
    have key : ∀ j < 3, ∀ c < 3, ((exImuBody.drop 4).drop (4 * (9 + 3 * j + c))).take 4 =
        if j = c then [0, 0, 128, 63] else [0, 0, 0, 0] := by decide
    rw [hb, key j hj c hc]
    split_ifs
    · exact h1
    · exact h0
  · rw [hs]
    simp [Spec.fromImu, g2]
  · rw [hs]
    show Spec.imuNum fl ⟨0x71, exImuBody, 0, 0⟩ 1 * 9.80665 = 0
    rw [g1, zero_mul]
  · rw [hs]
    simp [Spec.fromImu, g0]

/-- The acceleration is towards north when the velocity was recorded along the axes of the instrument. -/
example (round : ℝ → ℤ) (cosH : ℝ) (fl : List ℕ → ℝ) (h0 : fl [0, 0, 0, 0] = 0) (h1 : fl [0, 0, 128, 63] = 1) :
    ∃ o ds om d e, nortekRead false exUtf8 fl round cosH
        (Spec.nkFile true 3 exNkBoard exImuSonde (exImuSetup .xyz) (fun _ => 0) (exImuRecs.flatMap NkRec.encode)) =
        some (.ok (.vec o ds)) ∧ vecFinish none none o ds = some (.ok ⟨om, d⟩) ∧ rotate2 3 .earth d = some (.ok e) ∧
      e.vars.map RVar.name = ["vel", "accel", "angrt", "mag"] ∧
      ∃ hT, ∀ v ∈ e.vars, v.name = "accel" → v.val ⟨0, hT⟩ 0 = 0 ∧ v.val ⟨0, hT⟩ 1 = 9.80665 ∧ v.val ⟨0, hT⟩ 2 = 0 := by
  obtain ⟨o, ds, om, d, e, c1, c2, c3, c4, hT, c5⟩ := exImu_read .xyz round cosH fl
  refine ⟨o, ds, om, d, e, c1, c2, c3, c4, hT, fun v hv hnm => ?_⟩
  obtain ⟨s1, s2, s3, s4⟩ := exImu_signal fl h0 h1
  rw [c5 v hv 0 (by omega), c5 v hv 1 (by omega), c5 v hv 2 (by omega), hnm]
  have hlin : ∀ x, Spec.lin (1 : M3) x = x := fun x => applyM_one x
  simp only [Spec.earthBy, hlin, Spec.byImu, Spec.inImu, s2, s3, s4]
  refine ⟨?_, ?_, ?_⟩
  · rw [s1 0 1 (by omega) (by omega), if_neg (by omega)]; ring
  · rw [s1 0 0 (by omega) (by omega), if_pos rfl]; ring
  · rw [s1 0 2 (by omega) (by omega), if_neg (by omega)]; ring

/-- **C149 is false of the code** for the sensors of the IMU when the velocity was recorded along the beams: they have
three components as well, and are multiplied with the matrix of the *beams* of the velocity. A Vector whose x axis of
the IMU points north records an acceleration of 1 g along it; in the earth frame it is 0.347 g towards north, 2.71 g
towards east, 2.71 g upwards. -/
theorem vector_imu_beam_false (round : ℝ → ℤ) (cosH : ℝ) (fl : List ℕ → ℝ) (h0 : fl [0, 0, 0, 0] = 0)
    (h1 : fl [0, 0, 128, 63] = 1) :
    ∃ o ds om d e, nortekRead false exUtf8 fl round cosH
        (Spec.nkFile true 3 exNkBoard exImuSonde (exImuSetup .beam) (fun _ => 0) (exImuRecs.flatMap NkRec.encode)) =
        some (.ok (.vec o ds)) ∧ vecFinish none none o ds = some (.ok ⟨om, d⟩) ∧ rotate2 3 .earth d = some (.ok e) ∧
      e.vars.map RVar.name = ["vel", "accel", "angrt", "mag"] ∧
      ∃ hT, ∀ v ∈ e.vars, v.name = "accel" → v.val ⟨0, hT⟩ 0 = 9.80665 * 11105 / 4096 ∧
        v.val ⟨0, hT⟩ 1 = 9.80665 * 1423 / 4096 ∧ v.val ⟨0, hT⟩ 2 = 9.80665 * 11105 / 4096 := by
  obtain ⟨o, ds, om, d, e, c1, c2, c3, c4, hT, c5⟩ := exImu_read .beam round cosH fl
  refine ⟨o, ds, om, d, e, c1, c2, c3, c4, hT, fun v hv hnm => ?_⟩
  obtain ⟨s1, s2, s3, s4⟩ := exImu_signal fl h0 h1
  rw [c5 v hv 0 (by omega), c5 v hv 1 (by omega), c5 v hv 2 (by omega), hnm]
  have hlin : ∀ x, Spec.lin (1 : M3) x = x := fun x => applyM_one x
  simp only [Spec.earthBy, hlin, Spec.byImu, Spec.inImu]
  have t : ∀ j c, j < 3 → c < 3 → Spec.imuNum fl ⟨0x71, exImuBody, 0, 0⟩ (9 + 3 * j + c) = if j = c then 1 else 0 := s1
  rw [t 0 1, t 1 1, t 2 1, t 0 0, t 1 0, t 2 0, t 0 2, t 1 2, t 2 2] <;> try omega
  simp [Spec.lin, Fin.sum_univ_three, Spec.beamMatrix, exImuSonde, exNkSonde, s2, s3, s4]
  norm_num

/-- **C149 is false of the code** for the sensors of the IMU when the velocity was recorded towards east, north and up:
they are recorded along the axes of the IMU but taken for components towards east, north and up. A Vector whose x axis
of the IMU points north records an acceleration of 1 g along it; in the earth frame it points upwards. -/
theorem vector_imu_enu_false (round : ℝ → ℤ) (cosH : ℝ) (fl : List ℕ → ℝ) (h0 : fl [0, 0, 0, 0] = 0)
    (h1 : fl [0, 0, 128, 63] = 1) :
    ∃ o ds om d e, nortekRead false exUtf8 fl round cosH
        (Spec.nkFile true 3 exNkBoard exImuSonde (exImuSetup .enu) (fun _ => 0) (exImuRecs.flatMap NkRec.encode)) =
        some (.ok (.vec o ds)) ∧ vecFinish none none o ds = some (.ok ⟨om, d⟩) ∧ rotate2 3 .earth d = some (.ok e) ∧
      e.vars.map RVar.name = ["vel", "accel", "angrt", "mag"] ∧
      ∃ hT, ∀ v ∈ e.vars, v.name = "accel" → v.val ⟨0, hT⟩ 0 = 0 ∧ v.val ⟨0, hT⟩ 1 = 0 ∧ v.val ⟨0, hT⟩ 2 = 9.80665 := by
  obtain ⟨o, ds, om, d, e, c1, c2, c3, c4, hT, c5⟩ := exImu_read .enu round cosH fl
  refine ⟨o, ds, om, d, e, c1, c2, c3, c4, hT, fun v hv hnm => ?_⟩
  obtain ⟨-, s2, s3, s4⟩ := exImu_signal fl h0 h1
  rw [c5 v hv 0 (by omega), c5 v hv 1 (by omega), c5 v hv 2 (by omega), hnm]
  exact ⟨s2, s3, s4⟩

end Dolfyn
