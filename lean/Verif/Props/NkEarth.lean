import Verif.Model.NkEarth
import Verif.Props.NkFile
import Verif.Props.RotateMore
import Verif.Props.Orient
import Verif.Props.Angles
import Verif.Props.Tilt

/-!
C149: a Nortek file, read and rotated to the earth frame.
-/

namespace Dolfyn

open Spec

variable {T : Type}

/-! ### The rotations of a freshly read dataset -/

/-- Turning the velocity of a dataset that has only this variable. -/
noncomputable def Spec.withVel (ds : RDS T) (f : Frame) (w : T → ℕ → ℝ) : RDS T :=
  { ds with vars := [⟨"vel", 3, w⟩], coordSys := f }

theorem inst2earth_vel {ds : RDS T} {m : T → M3} {w : T → ℕ → ℝ} {r : Bool} (hi : ds.inst = .vector ∨ ds.inst = .awac)
    (hm : ds.orientmat = some m) (hv : ds.vars = [⟨"vel", 3, w⟩])
    (hf : ds.coordSys = if r then .earth else .inst) :
    inst2earth r ds = .ok (Spec.withVel ds (if r then .inst else .earth)
      fun t => applyM (if r then m t else (m t).transpose) (w t)) := by
  refine inst2earth_iff.mpr ⟨?_, Or.inl hf, m, effOmat_some hm, ?_, _, ?_, rfl⟩
  · rcases hi with h | h <;> rw [h] <;> decide
  · intro h
    rcases hi with h' | h' <;> rw [h'] at h <;> cases h
  · rw [hv]
    rcases hi with h | h <;> rw [h] <;> rfl

theorem beam2inst_vel {ds : RDS T} {B : BeamMat} {w : T → ℕ → ℝ} (hi : ds.inst = .vector ∨ ds.inst = .awac)
    (hh : ds.inst2head = none) (hb : ds.beam2inst = some B) (hB : B.n = 3) (hv : ds.vars = [⟨"vel", 3, w⟩])
    (hf : ds.coordSys = .beam) :
    beam2inst false ds = .ok (Spec.withVel ds .inst fun t => applyM B.mat (w t)) := by
  have hbase : beam2instBase false ds = .ok (Spec.withVel ds .inst fun t => applyM B.mat (w t)) := by
    obtain ⟨i, c, vars, bm, om, co, dn, ph, dc, hea, ih, ihs⟩ := ds
    simp only at hf hb hv
    subst hf hb hv
    simp [beam2instBase, hB, Spec.withVel, RVar.rot]
    rfl
  unfold beam2inst
  rcases hi with h | h <;> rw [h]
  · simp only [Bool.false_eq_true, if_false, hbase, bind, Except.bind]
    unfold rotateInst2head checkInst2head
    have : (Spec.withVel ds .inst fun t => applyM B.mat (w t)).inst2head = none := hh
    rw [this]
  · exact hbase

theorem inst2head_vel {ds : RDS T} {R : M3} {w : T → ℕ → ℝ} (hh : ds.inst2head = some R)
    (hs : ds.inst2headSet = true) (hd : R.det = 1) (hv : ds.vars = [⟨"vel", 3, w⟩]) :
    rotateInst2head false ds = .ok (Spec.withVel ds ds.coordSys fun t => applyM R (w t)) := by
  obtain ⟨i, c, vars, bm, om, co, dn, ph, dc, hea, ih, ihs⟩ := ds
  simp only at hh hs hv
  subst hh hs hv
  have hc : checkRotmatDet R := by
    unfold checkRotmatDet
    rw [hd]
    norm_num
  simp [rotateInst2head, checkInst2head, hc]
  rfl

theorem beam2inst_head_vel {ds : RDS T} {B : BeamMat} {R : M3} {w : T → ℕ → ℝ} (hi : ds.inst = .vector)
    (hh : ds.inst2head = some R) (hs : ds.inst2headSet = true) (hd : R.det = 1) (hb : ds.beam2inst = some B)
    (hB : B.n = 3) (hv : ds.vars = [⟨"vel", 3, w⟩]) (hf : ds.coordSys = .beam) :
    beam2inst false ds = .ok (Spec.withVel ds .inst fun t => applyM R (applyM B.mat (w t))) := by
  have hbase : beam2instBase false ds = .ok (Spec.withVel ds .inst fun t => applyM B.mat (w t)) := by
    obtain ⟨i, c, vars, bm, om, co, dn, ph, dc, hea, ih, ihs⟩ := ds
    simp only at hf hb hv
    subst hf hb hv
    simp [beam2instBase, hB, Spec.withVel, RVar.rot]
    rfl
  unfold beam2inst
  rw [hi]
  simp only [Bool.false_eq_true, if_false, hbase, bind, Except.bind]
  exact inst2head_vel (ds := Spec.withVel ds .inst fun t => applyM B.mat (w t)) hh hs hd rfl

/-- The velocity in the earth frame: `O` is the orientation matrix, `M` the matrix of the beams, `R` that of the
head. -/
noncomputable def Spec.toEarthBy (f : NkFrame) {n : ℕ} (M : Matrix (Fin n) (Fin n) ℝ) (R O : M3) (v : ℕ → ℝ) : ℕ → ℝ :=
  match f with
  | .beam => applyM O.transpose (applyM R (applyM M v))
  | .inst => applyM O.transpose (applyM R v)
  | .earth => applyM O.transpose (applyM R (applyM O v))

theorem steps_earth : steps 0 2 = [(0, false), (1, false)] ∧ steps 1 2 = [(1, false)] ∧ steps 2 2 = [] ∧
    steps 2 1 = [(1, true)] := by decide

theorem turnCW_zero (v : ℕ → ℝ) : turnCW 0 v = v := by
  funext i
  unfold Spec.turnCW
  split_ifs with h1 h2
  · simp [h1]
  · simp [h2]
  · rfl

/-- One step of the chain, from the instrument to the earth frame. -/
theorem rotate2_inst_earth {ds : RDS T} {m : T → M3} {w : T → ℕ → ℝ} (hi : ds.inst = .vector ∨ ds.inst = .awac)
    (hm : ds.orientmat = some m) (hv : ds.vars = [⟨"vel", 3, w⟩]) (hf : ds.coordSys = .inst) {b : Bool}
    (hc : checkInst2head ds = .ok b) :
    rotate2 3 .earth ds = some (.ok (Spec.withVel ds .earth fun t => applyM (m t).transpose (w t))) := by
  have hu : ds.inst ≠ .unknown := by rcases hi with h | h <;> rw [h] <;> decide
  rw [rotate2_eq (i := 1) (j := 2) 3 ds (by rw [hf]; exact .inst) .earth (le_refl 3) hu hc, steps_earth.2.1]
  simp only [List.foldlM_cons, List.foldlM_nil, oneStep]
  rw [inst2earth_vel (r := false) hi hm hv hf]
  rfl

theorem rotate2_earth_inst {ds : RDS T} {m : T → M3} {w : T → ℕ → ℝ} (hi : ds.inst = .vector ∨ ds.inst = .awac)
    (hm : ds.orientmat = some m) (hv : ds.vars = [⟨"vel", 3, w⟩]) (hf : ds.coordSys = .earth) {b : Bool}
    (hc : checkInst2head ds = .ok b) :
    rotate2 3 .inst ds = some (.ok (Spec.withVel ds .inst fun t => applyM (m t) (w t))) := by
  have hu : ds.inst ≠ .unknown := by rcases hi with h | h <;> rw [h] <;> decide
  rw [rotate2_eq (i := 2) (j := 1) 3 ds (by rw [hf]; exact .earth) .inst (le_refl 3) hu hc, steps_earth.2.2.2]
  simp only [List.foldlM_cons, List.foldlM_nil, oneStep]
  rw [inst2earth_vel (r := true) hi hm hv hf]
  rfl

theorem rotate2_earth_earth {ds : RDS T} (hi : ds.inst ≠ .unknown) (hf : ds.coordSys = .earth) {b : Bool}
    (hc : checkInst2head ds = .ok b) : rotate2 3 .earth ds = some (.ok ds) := by
  rw [rotate2_eq (i := 2) (j := 2) 3 ds (by rw [hf]; exact .earth) .earth (le_refl 3) hi hc, steps_earth.2.2.1]
  rfl

theorem rotate2_beam_earth {ds : RDS T} {m : T → M3} {w' : T → ℕ → ℝ} (hi : ds.inst = .vector ∨ ds.inst = .awac)
    (hm : ds.orientmat = some m) (hf : ds.coordSys = .beam) {b : Bool}
    (hc : checkInst2head ds = .ok b) (hb : beam2inst false ds = .ok (Spec.withVel ds .inst w')) :
    rotate2 3 .earth ds = some (.ok (Spec.withVel ds .earth fun t => applyM (m t).transpose (w' t))) := by
  have hu : ds.inst ≠ .unknown := by rcases hi with h | h <;> rw [h] <;> decide
  rw [rotate2_eq (i := 0) (j := 2) 3 ds (by rw [hf]; exact .beam) .earth (le_refl 3) hu hc, steps_earth.1]
  simp only [List.foldlM_cons, List.foldlM_nil, oneStep, hb, bind, Except.bind]
  rw [inst2earth_vel (ds := Spec.withVel ds .inst w') (m := m) (w := w') (r := false) hi hm rfl rfl]
  rfl

/-- The end of reading, and the rotation to the earth frame. -/
theorem userApply_earth {ds : RDS T} {m : T → M3} {w : T → ℕ → ℝ} {B : BeamMat} {f : NkFrame}
    (hi : ds.inst = .vector ∨ ds.inst = .awac) (hm : ds.orientmat = some m) (ho : ∀ t, Orthonormal (m t))
    (hh : ds.inst2head = none) (hb : ds.beam2inst = some B) (hB : B.n = 3) (hdet : B.mat.det ≠ 0)
    (hv : ds.vars = [⟨"vel", 3, w⟩]) (hf : ds.coordSys = f.toFrame) (hdec : ds.declination = none)
    (rot : Option M3) (hR : ∀ R, rot = some R → IsRotation R ∧ ds.inst = .vector) (dec : Option ℝ) :
    ∃ d e, nkUserApply rot dec ds = some (.ok d) ∧ d.coordSys = f.toFrame ∧ rotate2 3 .earth d = some (.ok e) ∧
      e.vars = [⟨"vel", 3, fun t => turnCW (dec.getD 0) (Spec.toEarthBy f B.mat (rot.getD 1) (m t) (w t))⟩] ∧
      d.heading = ds.heading.map (fun h t => h t + dec.getD 0) := by
  have hu : ds.inst ≠ .unknown := by rcases hi with h | h <;> rw [h] <;> decide
  have hck : checkInst2head ds = .ok false := by unfold checkInst2head; rw [hh]
  have pos : ∃ i, Pos f.toFrame i := by
    cases f
    · exact ⟨2, .earth⟩
    · exact ⟨1, .inst⟩
    · exact ⟨0, .beam⟩
  -- after the head matrix
  obtain ⟨d1, h1, h2, h3, h4, h5, hhd, hr1, e1, h6, h7, h8⟩ : ∃ d1 : RDS T,
      nkUserHead rot ds = some (.ok d1) ∧
      d1.coordSys = f.toFrame ∧ d1.orientmat = some m ∧ d1.declination = none ∧ d1.inst = ds.inst ∧
      d1.heading = ds.heading ∧ Rotatable d1 ∧
      ∃ e1, rotate2 3 .earth d1 = some (.ok e1) ∧
        e1.vars = [⟨"vel", 3, fun t => Spec.toEarthBy f B.mat (rot.getD 1) (m t) (w t)⟩] ∧
        (d1.coordSys = .earth → ∃ x, rotate2 3 .inst d1 = some (.ok x)) := by
    have hrot : ∀ y : RDS T, y.inst = ds.inst → y.orientmat = some m → y.beam2inst = some B →
        (∀ R, y.inst2head = some R → Orthonormal R) → Rotatable y := by
      intro y y1 y2 y3 y4
      refine ⟨?_, ?_, ?_, y4⟩
      · rintro m' (h | ⟨h, -⟩)
        · rw [y2] at h
          cases h
          exact ho
        · rw [y2] at h
          cases h
      · intro h
        rw [y1] at h
        rcases hi with h' | h' <;> rw [h'] at h <;> cases h
      · intro B' h
        rw [y3] at h
        cases h
        exact hdet
    cases rot with
    | none =>
      have hr0 : Rotatable ds := hrot ds rfl hm hb (by rw [hh]; intro R h; cases h)
      refine ⟨ds, rfl, hf, hm, hdec, rfl, rfl, hr0, ?_⟩
      cases f with
      | beam =>
        refine ⟨_, rotate2_beam_earth hi hm hf hck (beam2inst_vel hi hh hb hB hv hf), ?_, ?_⟩
        · simp [Spec.withVel, Spec.toEarthBy, applyM_one]
        · intro h; rw [hf] at h; cases h
      | inst =>
        refine ⟨_, rotate2_inst_earth hi hm hv hf hck, ?_, ?_⟩
        · simp [Spec.withVel, Spec.toEarthBy, applyM_one]
        · intro h; rw [hf] at h; cases h
      | earth =>
        refine ⟨_, rotate2_earth_earth hu hf hck, ?_, ?_⟩
        · rw [hv]
          simp only [Spec.toEarthBy, Option.getD_none, applyM_one]
          congr 2
          funext t
          rw [← applyM_mul, orth_comm (ho t), applyM_one]
        · intro _
          exact ⟨_, rotate2_earth_inst hi hm hv hf hck⟩
    | some R =>
      obtain ⟨⟨hRo, hRd⟩, hvec⟩ := hR R rfl
      have hck' : ∀ y : RDS T, y.inst2head = some R → y.inst2headSet = true → checkInst2head y = .ok true := by
        intro y y1 y2
        simp [checkInst2head, y1, y2, checkRotmatDet, hRd]
      have hh' : nkUserHead (some R) ds = setInst2head 3 R ds := rfl
      rw [hh']
      obtain ⟨i, c, vars, bm, om, co, dn, ph, dc, hea, ih, ihs⟩ := ds
      simp only at hm hh hb hv hf hdec hvec
      subst hm hh hb hv hf hdec hvec
      cases f with
      | beam =>
        refine ⟨⟨.vector, .beam, [⟨"vel", 3, w⟩], some B, some m, co, dn, ph, none, hea, some R, true⟩, ?_, rfl, rfl, rfl,
          rfl, rfl, hrot _ rfl rfl rfl (by intro R' h; cases h; exact hRo), _,
          rotate2_beam_earth (Or.inl rfl) rfl rfl (hck' _ rfl rfl) (beam2inst_head_vel rfl rfl rfl hRd rfl hB rfl rfl),
          rfl, ?_⟩
        · simp [setInst2head, NkFrame.toFrame]
        · intro h; cases h
      | inst =>
        refine ⟨⟨.vector, .inst, [⟨"vel", 3, fun t => applyM R (w t)⟩], some B, some m, co, dn, ph, none, hea, some R, true⟩,
          ?_, rfl, rfl, rfl, rfl, rfl, hrot _ rfl rfl rfl (by intro R' h; cases h; exact hRo), _,
          rotate2_inst_earth (Or.inl rfl) rfl rfl rfl (hck' _ rfl rfl), rfl, ?_⟩
        · have := inst2head_vel (ds := ⟨.vector, .inst, [⟨"vel", 3, w⟩], some B, some m, co, dn, ph, none, hea, some R, true⟩)
            rfl rfl hRd rfl
          simp only [setInst2head, NkFrame.toFrame, ne_eq, reduceCtorEq, not_false_eq_true, not_true, false_and, if_false,
            if_true, this]
          rfl
        · intro h; cases h
      | earth =>
        have h1 := rotate2_earth_inst (ds := ⟨.vector, .earth, [⟨"vel", 3, w⟩], some B, some m, co, dn, ph, none, hea, none, ihs⟩)
          (m := m) (Or.inl rfl) rfl rfl rfl hck
        have h2 := inst2head_vel (ds := ⟨.vector, .inst, [⟨"vel", 3, fun t => applyM (m t) (w t)⟩], some B, some m, co, dn, ph,
          none, hea, some R, true⟩) rfl rfl hRd rfl
        have h3 := rotate2_inst_earth (ds := ⟨.vector, .inst, [⟨"vel", 3, fun t => applyM R (applyM (m t) (w t))⟩], some B,
          some m, co, dn, ph, none, hea, some R, true⟩) (m := m) (Or.inl rfl) rfl rfl rfl (hck' _ rfl rfl)
        refine ⟨⟨.vector, .earth, [⟨"vel", 3, fun t => applyM (m t).transpose (applyM R (applyM (m t) (w t)))⟩], some B,
          some m, co, dn, ph, none, hea, some R, true⟩, ?_, rfl, rfl, rfl, rfl, rfl,
          hrot _ rfl rfl rfl (by intro R' h; cases h; exact hRo), _,
          rotate2_earth_earth (by simp) rfl (hck' _ rfl rfl), rfl, ?_⟩
        · simp only [setInst2head, NkFrame.toFrame, ne_eq, reduceCtorEq, not_false_eq_true, not_true, and_self, if_false,
            if_true]
          rw [h1]
          simp only [Spec.withVel]
          rw [h2]
          simp only [Spec.withVel]
          rw [h3]
          rfl
        · intro _
          exact ⟨_, rotate2_earth_inst (m := m) (Or.inl rfl) rfl rfl rfl (hck' _ rfl rfl)⟩
  cases dec with
  | none =>
    refine ⟨d1, e1, ?_, h2, h6, ?_, ?_⟩
    · unfold nkUserApply
      simp only [h1]
    · rw [h7]
      simp only [Option.getD_none, turnCW_zero]
    · rw [hhd]
      cases ds.heading <;> simp
  | some dd =>
    obtain ⟨i, hp⟩ := pos
    obtain ⟨d, e, g1, g2, g3, g4⟩ := set_declination_turns_earth (fuel := 3) (le_refl 3) (d := dd) (ds := d1) (e := e1)
      (i := i) (by rw [h2]; exact hp) hr1 (by rw [h3]; simp) h8 h6
    refine ⟨d, e, ?_, g2.trans h2, g3, ?_, ?_⟩
    · unfold nkUserApply
      simp only [h1]
      exact g1
    · rw [g4, h7]
      simp [declChange, h4]
    · rw [(set_declination_heading (fuel := 3) (le_refl 3) (i := i) (by rw [h2]; exact hp) hr1 (by rw [h3]; simp) h8 g1).1, hhd]
      simp [declChange, h4]

/-! ### Attitude -/

/-- The earth components (east, north, up) of a vector with components `v` along the axes of an instrument. The x axis
points in the direction of the heading, raised by the pitch. Without roll the y axis is horizontal and points to
the left of it, and the z axis completes them; the roll turns these two about the x axis. -/
noncomputable def Spec.attitude (h p r : ℝ) (v : ℕ → ℝ) : ℕ → ℝ := fun i =>
  if hi : i < 3 then
    v 0 * compassVec h p ⟨i, hi⟩ +
    v 1 * (cosd r * compassVec (h - 90) 0 ⟨i, hi⟩ + sind r * compassVec h (p + 90) ⟨i, hi⟩) +
    v 2 * (-(sind r * compassVec (h - 90) 0 ⟨i, hi⟩) + cosd r * compassVec h (p + 90) ⟨i, hi⟩)
  else v i

theorem cosd_add_90 (x : ℝ) : cosd (x + 90) = -sind x := by
  unfold cosd sind
  rw [show (x + 90) * Real.pi / 180 = x * Real.pi / 180 + Real.pi / 2 by ring, Real.cos_add_pi_div_two]

theorem sind_add_90 (x : ℝ) : sind (x + 90) = cosd x := by
  unfold cosd sind
  rw [show (x + 90) * Real.pi / 180 = x * Real.pi / 180 + Real.pi / 2 by ring, Real.sin_add_pi_div_two]

theorem cosd_sub_90 (x : ℝ) : cosd (x - 90) = sind x := by
  have := sind_add_90 (x - 90)
  rw [sub_add_cancel] at this
  exact this.symm

theorem sind_sub_90 (x : ℝ) : sind (x - 90) = -cosd x := by
  have := cosd_add_90 (x - 90)
  rw [sub_add_cancel] at this
  rw [this, neg_neg]

theorem cosd_zero : cosd 0 = 1 := by simp [cosd]

theorem sind_zero : sind 0 = 0 := by simp [sind]

theorem nortek_attitude (h p r : ℝ) (v : ℕ → ℝ) : applyM (nortekOrient h p r).transpose v = Spec.attitude h p r v := by
  rw [nortekOrient_entries]
  funext i
  unfold applyM Spec.attitude
  split_ifs with hi
  · have : i = 0 ∨ i = 1 ∨ i = 2 := by omega
    rcases this with rfl | rfl | rfl <;>
      simp [compassVec, Fin.sum_univ_three, cosd_add_90, sind_add_90, cosd_sub_90, sind_sub_90, cosd_zero, sind_zero] <;>
      ring
  · rfl

/-- The matrix of the transducers in the file. -/
noncomputable def Spec.beamMatrix (h : Spec.NkSonde) : M3 := fun i j => (h.mat (3 * i.val + j.val) : ℝ) / 4096

/-- The components after a linear map of the first three. -/
noncomputable def Spec.lin (M : M3) (v : ℕ → ℝ) : ℕ → ℝ := fun i => if hi : i < 3 then ∑ j : Fin 3, M ⟨i, hi⟩ j * v j else v i

/-- The velocity in the earth frame: recorded as such; along the axes of the head; or along the beams. `M` takes
components along the beams to the axes of the head, `R` components along the axes of the head to those of the
housing, where the compass is. -/
noncomputable def Spec.earthVel (axes : NkAxes) (M R : M3) (h p r : ℝ) (v : ℕ → ℝ) : ℕ → ℝ :=
  match axes with
  | .enu => v
  | .xyz => Spec.attitude h p r (Spec.lin R v)
  | .beam => Spec.attitude h p r (Spec.lin R (Spec.lin M v))

theorem earthVel_eq (axes : NkAxes) (M R : M3) (h p r : ℝ) (v : ℕ → ℝ) (hR : axes = .enu → R = 1) :
    Spec.toEarthBy (Spec.frameOf axes) M R (nortekOrient h p r) v = Spec.earthVel axes M R h p r v := by
  cases axes
  · show applyM (nortekOrient h p r).transpose (applyM R (applyM (nortekOrient h p r) v)) = v
    rw [hR rfl, applyM_one, ← applyM_mul, orth_comm (nortek_rotation h p r).1, applyM_one]
  · show applyM (nortekOrient h p r).transpose (applyM R v) = _
    rw [nortek_attitude]
    rfl
  · show applyM (nortekOrient h p r).transpose (applyM R (applyM M v)) = _
    rw [nortek_attitude]
    rfl

theorem earthVel_congr (axes : NkAxes) (M R : M3) (h p r a : ℝ) {v v' : ℕ → ℝ} (hv : ∀ i < 3, v i = v' i) (i : ℕ)
    (hi : i < 3) : turnCW a (Spec.earthVel axes M R h p r v) i = turnCW a (Spec.earthVel axes M R h p r v') i := by
  have hlin : ∀ (A : M3) (x x' : ℕ → ℝ), (∀ i < 3, x i = x' i) → ∀ i < 3, Spec.lin A x i = Spec.lin A x' i := by
    intro A x x' hx j hj
    simp only [Spec.lin, dif_pos hj, Fin.sum_univ_three, Fin.val_zero, Fin.val_one, Fin.val_two, hx 0 (by omega),
      hx 1 (by omega), hx 2 (by omega)]
  have hatt : ∀ x x' : ℕ → ℝ, (∀ i < 3, x i = x' i) → ∀ i < 3, Spec.attitude h p r x i = Spec.attitude h p r x' i := by
    intro x x' hx j hj
    simp only [Spec.attitude, dif_pos hj, hx 0 (by omega), hx 1 (by omega), hx 2 (by omega)]
  have key : ∀ j < 3, Spec.earthVel axes M R h p r v j = Spec.earthVel axes M R h p r v' j := by
    cases axes
    · exact hv
    · exact hatt _ _ (hlin R _ _ hv)
    · exact hatt _ _ (hlin R _ _ (hlin M _ _ hv))
  unfold Spec.turnCW
  rw [key 0 (by omega), key 1 (by omega), key i hi]

theorem beamMat_three {hd : NkHeadCfg} (h3 : hd.nBeam = 3) (f : NkFrame) (R O : M3) (v : ℕ → ℝ) :
    Spec.toEarthBy f (nkBeamMat hd).mat R O v =
      Spec.toEarthBy f (n := 3) (fun i j => (hd.mat i j : ℝ)) R O v ∧
    (nkBeamMat hd).mat.det = Matrix.det (n := Fin 3) fun i j => (hd.mat i j : ℝ) := by
  obtain ⟨a, b, c, d, n, m⟩ := hd
  simp only at h3
  subst h3
  exact ⟨rfl, rfl⟩

/-! ### AWAC -/

/-- The matrices when all angles are known. -/
theorem calcOmat_known {n : ℕ} (hn : 0 < n) (h p r : ℕ → ℝ) :
    calcOmat ((List.range n).map fun i => ⟨some (h i), some (p i), some (r i)⟩) none =
      .ok ((List.range n).map fun i => some (nortekOrient (h i) (p i) (r i))) := by
  unfold calcOmat calcOmatAngles
  have hl : ((List.range n).map fun i => (⟨some (h i), some (p i), some (r i)⟩ : HPR)).getLast? =
      some ⟨some (h (n - 1)), some (p (n - 1)), some (r (n - 1))⟩ := by
    rw [List.getLast?_map, List.getLast?_range, if_neg (by omega)]
    rfl
  rw [hl]
  simp [Except.map]

/-- What the dataset of a file was opened with. -/
def NkDs.opened : NkDs → NkOpened
  | .vec o _ => o
  | .awac o _ => o
  | .vno o _ => o

theorem nortekRead_opened {doCs : Bool} {utf8 : List ℕ → Option (List Char)} {fl : List ℕ → ℝ} {round : ℝ → ℤ} {cosH : ℝ}
    {bytes : List ℕ} {x : NkDs}
    (h : nortekRead doCs utf8 fl round cosH bytes = some (.ok x)) : nkInit doCs utf8 bytes = .ok x.opened := by
  unfold nortekRead at h
  split at h
  · cases h
  · cases h
  · rename_i le o' hle ho
    rw [ho]
    split at h
    · cases h
    · cases h
    · split at h
      · obtain ⟨y, -, hy⟩ := Option.map_eq_some_iff.mp h
        cases y <;> cases hy
        rfl
      · obtain ⟨y, -, hy⟩ := Option.map_eq_some_iff.mp h
        cases y <;> cases hy
        rfl
      · obtain ⟨y, -, hy⟩ := Option.map_eq_some_iff.mp h
        cases y <;> cases hy
        rfl

theorem awacRDS_vars {o : NkOpened} {ds : AwacDs} {om : List (Option M3)} {n : ℕ} (h : o.user.nBeams = n) :
    (awacRDS o ds om).vars = [⟨"vel", n, fun t b => (((ds.vel b t.1.1 t.1.2).getD 0 : ℚ) : ℝ)⟩] := by
  show [RVar.mk "vel" o.user.nBeams (fun (t : AwacT o ds om) b => (((ds.vel b t.1.1 t.1.2).getD 0 : ℚ) : ℝ))] = _
  generalize (fun (t : AwacT o ds om) b => (((ds.vel b t.1.1 t.1.2).getD 0 : ℚ) : ℝ)) = f
  rw [h]

/-- **C149 (AWAC).** A file of an AWAC, read with the declination `dec` (or none) in the userdata and rotated to the
earth frame: the velocity of every cell of every profile is the recorded one, brought to the earth frame with the
matrix of the transducers and with the recorded heading, pitch and roll of this profile, and turned clockwise by
the declination. The heading in the dataset is the recorded one plus the declination. -/
theorem awac_earth (utf8 : List ℕ → Option (List Char)) (hu : Spec.Utf8 utf8) (b : Spec.NkBoard)
    (h : Spec.NkSonde) (s : Spec.NkSetup) (cs : Fin 6 → ℕ) (t : List ℕ) (w : List Char)
    (hb : b.Valid) (hs : b.serial = Spec.prefixOf .awac ++ t) (hw : firstWord (Spec.ascii b.serial) = .ok w)
    (hn : Spec.beamsOf (Spec.ascii b.serial) h = 3)
    (hm : ∀ k < 9, Spec.I16 (h.mat k)) (hdet : (Spec.beamMatrix h).det ≠ 0)
    (h1 : Spec.Text 6 s.name) (h2 : Spec.Text 80 s.comments) (ha : 0 < s.avgInterval.val) (hbe : s.nBeams.val = 3)
    {recs : List NkRec} (hrec : Spec.AwacRecording ⟨true, false, false, s.nBeams.val, s.nBins.val⟩ recs)
    (hsz : ∀ r ∈ recs, Spec.nkSized true r)
    {size B : ℕ} {pre : List NkBlock} {bs : List (List NkBlock)} (e : Spec.blocks recs = pre ++ bs.flatten)
    (hpre : ∀ r ∈ pre, r.id ≠ 32) (hbs : ∀ b ∈ bs, Spec.isBlock 32 size B b) (hsize : 0 < size)
    (round : ℝ → ℤ) (cosH : ℝ) (fl : List ℕ → ℝ) {cell bd : ℝ} {rg : ℕ → ℝ}
    (hr : awacRange round cosH h.freqKHz.val s.binLength.val s.blank.val = .ok (cell, bd, rg)) (dec : Option ℝ) :
    ∃ o ds om d e v hh, nortekRead false utf8 fl round cosH (Spec.nkFile true 3 b h s cs (recs.flatMap NkRec.encode)) =
        some (.ok (.awac o ds)) ∧
      awacFinish none dec o ds = some (.ok ⟨om, d⟩) ∧ d.coordSys = (Spec.frameOf s.axes).toFrame ∧ d.heading = some hh ∧
      rotate2 3 .earth d = some (.ok e) ∧ e.vars = [⟨"vel", 3, v⟩] ∧
      ∀ k r x j, Spec.profAt recs k r → x.ok s.nBeams.val s.nBins.val →
        r.body = Spec.AwacVals.bytes true s.nBeams.val s.nBins.val x → j < s.nBins.val →
        ∃ hT, hh ⟨(j, k), hT⟩ = (x.he : ℝ) / 10 + dec.getD 0 ∧ ∀ i < 3, v ⟨(j, k), hT⟩ i = turnCW (dec.getD 0)
          (Spec.earthVel s.axes (Spec.beamMatrix h) 1 ((x.he : ℝ) / 10) ((x.pi : ℝ) / 10) ((x.ro : ℝ) / 10)
            fun b => (x.v b j : ℝ) / 1000) i := by
  obtain ⟨o, ds, r1, r2, r3, r4, r5, r6, r7, -, -, -, r8⟩ := awac_whole_partial utf8 hu b h s cs t w hb hs hw (by omega)
    (by rw [hn]; exact hm) h1 h2 ha (by omega) hrec hsz e hpre hbs hsize round cosH fl hr
  obtain ⟨o', q1, -, -, -, -, -, q7, -⟩ := nortek_opens utf8 hu b h s cs (recs.flatMap NkRec.encode)
    .awac t w hb hs hw (by omega) (by rw [hn]; exact hm) h1 h2 ha
  have hoo := nortekRead_opened r1
  rw [q1] at hoo
  have hoo' : o' = o := Except.ok.inj hoo
  subst hoo'
  rw [hn] at q7 r1
  have hub : o'.user.nBeams = 3 := by rw [r5]; exact hbe
  have hui : o'.user.nBins = s.nBins.val := by rw [r5]; rfl
  have hof : o'.frame = Spec.frameOf s.axes := r3
  -- every profile is there
  have hex : ∀ k, ∃ x : Spec.AwacVals, k < ds.n → ∃ r, Spec.profAt recs k r ∧ x.ok s.nBeams.val s.nBins.val ∧
      r.body = Spec.AwacVals.bytes true s.nBeams.val s.nBins.val x := by
    intro k
    by_cases hk : k < ds.n
    · rw [r7] at hk
      obtain ⟨r, hr'⟩ := prof_exists hrec.awac k hk
      have hr'' := hr'
      obtain ⟨pre', post', e', h20, -⟩ := hr''
      obtain ⟨x, x1, x2⟩ := hrec.vals r (by rw [e']; simp) h20
      exact ⟨x, fun _ => ⟨r, hr', x1, x2⟩⟩
    · obtain ⟨r, hr', h20⟩ := hrec.some
      obtain ⟨x, -, -⟩ := hrec.vals r hr' h20
      exact ⟨x, fun h => absurd h hk⟩
  choose X hX using hex
  have hn0 : 0 < ds.n := by
    rw [r7, List.countP_pos_iff]
    obtain ⟨r, hr', h20⟩ := hrec.some
    exact ⟨r, hr', (isSample_awac (hrec.awac r hr')).mpr h20⟩
  have hom : calcOmat (awacHPR ds) none = .ok ((List.range ds.n).map fun i =>
      some (nortekOrient ((X i).he / 10) ((X i).pi / 10) ((X i).ro / 10))) := by
    rw [← calcOmat_known hn0]
    congr 1
    unfold awacHPR
    refine List.map_congr_left fun i hi => ?_
    obtain ⟨r, p1, p2, p3⟩ := hX i (List.mem_range.mp hi)
    obtain ⟨-, -, -, -, z1, z2, z3, -⟩ := r8 i r (X i) p1 p2 p3
    rw [z1, z2, z3]
    simp
  obtain ⟨om, eom⟩ : ∃ om, om = (List.range ds.n).map fun i =>
      some (nortekOrient ((X i).he / 10) ((X i).pi / 10) ((X i).ro / 10)) := ⟨_, rfl⟩
  rw [← eom] at hom
  have hget : ∀ k < ds.n, om[k]? = some (some (nortekOrient ((X k).he / 10) ((X k).pi / 10) ((X k).ro / 10))) := by
    intro k hk
    rw [eom, List.getElem?_map, List.getElem?_range hk]
    rfl
  have hmat : (fun i j => (o'.head.mat i j : ℝ) : Matrix (Fin 3) (Fin 3) ℝ) = Spec.beamMatrix h := by
    funext i j
    rw [r6 i (by rw [q7]; exact i.isLt) j (by rw [q7]; exact j.isLt), q7]
    simp [Spec.beamMatrix]
  obtain ⟨d, ee, u1, u2, u3, u4, u5⟩ := userApply_earth (ds := awacRDS o' ds om) (f := o'.frame)
    (m := fun t => ((om[t.1.2]?).join).getD 1)
    (w := fun t b => (((ds.vel b t.1.1 t.1.2).getD 0 : ℚ) : ℝ)) (B := nkBeamMat o'.head)
    (Or.inr rfl) rfl (by
      intro t
      rw [hget t.1.2 t.2.2.1]
      exact (nortek_rotation _ _ _).1) rfl rfl q7 (by rw [(beamMat_three q7 .beam 1 1 fun _ => 0).2, hmat]; exact hdet)
    (awacRDS_vars hub) rfl rfl none (by intro R hR; cases hR) dec
  refine ⟨o', ds, om, d, ee, _, _, r1, ?_, ?_, u5, u3, u4, ?_⟩
  · unfold awacFinish
    rw [hom]
    simp only [u1, Option.map_some]
  · rw [u2, hof]
  · intro k r x j p1 p2 p3 hj
    have hk : k < ds.n := by
      rw [r7]
      obtain ⟨pre', post', e', h20, hc⟩ := p1
      have : Spec.isSample r = true := (isSample_awac (hrec.awac r (by rw [e']; simp))).mpr h20
      rw [e', List.countP_append, List.countP_cons, if_pos this]
      omega
    obtain ⟨r', p1', p2', p3'⟩ := hX k hk
    obtain ⟨-, -, -, -, z1, z2, z3, -, -, -, z4⟩ := r8 k r x p1 p2 p3
    obtain ⟨-, -, -, -, y1, y2, y3, -⟩ := r8 k r' (X k) p1' p2' p3'
    have a1 : ((X k).he : ℝ) / 10 = (x.he : ℝ) / 10 := by
      have := y1.symm.trans z1
      have := Option.some.inj this
      exact_mod_cast congrArg (fun q : ℚ => (q : ℝ)) this
    have a2 : ((X k).pi : ℝ) / 10 = (x.pi : ℝ) / 10 := by
      have := y2.symm.trans z2
      have := Option.some.inj this
      exact_mod_cast congrArg (fun q : ℚ => (q : ℝ)) this
    have a3 : ((X k).ro : ℝ) / 10 = (x.ro : ℝ) / 10 := by
      have := y3.symm.trans z3
      have := Option.some.inj this
      exact_mod_cast congrArg (fun q : ℚ => (q : ℝ)) this
    refine ⟨⟨by rw [hui]; exact hj, hk, ?_, _, hget k hk⟩, ?_, ?_⟩
    · intro b hb'
      rw [hub] at hb'
      rw [(z4 b j (by omega) hj).1]
      rfl
    · simp only [z1]
      simp
    · intro i hi
      simp only [hget k hk, Option.join_some, Option.getD_some, Option.getD_none, hof]
      rw [(beamMat_three q7 _ _ _ _).1, hmat, earthVel_eq _ _ _ _ _ _ _ fun _ => rfl, a1, a2, a3]
      refine earthVel_congr _ _ _ _ _ _ _ ?_ i hi
      intro b hb'
      rw [(z4 b j (by omega) hj).1]
      simp

/-- Head of 1 MHz, three beams at right angles. -/
def exEarthSonde : Spec.NkSonde := { exAwacSonde with mat := fun k => if k % 4 = 0 then 4096 else 0 }

/-- Heading 187.5°, pitch 1.2°, roll 0.7°, velocity (−1, 99, 199) mm/s in the first cell of the second profile. -/
example (round : ℝ → ℤ) (cosH : ℝ) (fl : List ℕ → ℝ) :
    ∃ o ds om d e v, nortekRead false exUtf8 fl round cosH (Spec.nkFile true 3 exAwacBoard exEarthSonde exAwacSetup
        (fun _ => 0) (exAwacRecs.flatMap NkRec.encode)) = some (.ok (.awac o ds)) ∧
      awacFinish none (some 10) o ds = some (.ok ⟨om, d⟩) ∧ rotate2 3 .earth d = some (.ok e) ∧
      e.vars = [⟨"vel", 3, v⟩] ∧ ∃ hT, ∀ i < 3, v ⟨(0, 1), hT⟩ i =
        turnCW 10 (Spec.attitude (1875 / 10) (12 / 10) (7 / 10) fun b => (100 * (b : ℝ) - 1) / 1000) i := by
  have hfw : firstWord (Spec.ascii exAwacBoard.serial) = .ok ['W', 'P', 'R'] := by decide
  have hbe : Spec.beamsOf (Spec.ascii exAwacBoard.serial) exEarthSonde = 3 := by
    unfold Spec.beamsOf
    rw [hfw]
    rfl
  have hrange : ∃ x, awacRange round cosH exEarthSonde.freqKHz.val exAwacSetup.binLength.val exAwacSetup.blank.val =
      .ok x := by
    have hco : awacCoef exEarthSonde.freqKHz.val = some (478 / 10000) := by
      unfold awacCoef
      rw [if_neg (by decide), if_pos (by decide)]
    unfold awacRange
    rw [hco]
    exact ⟨_, rfl⟩
  obtain ⟨⟨c0, c1, c2⟩, hrange⟩ := hrange
  obtain ⟨o, ds, om, d, e, v, hh, h1, h2, -, -, h3, h4, h5⟩ := awac_earth exUtf8 exUtf8_ok exAwacBoard exEarthSonde
    exAwacSetup (fun _ => 0) [32, 49, 50, 56, 55] _ ⟨by decide, by decide, by decide⟩ rfl hfw hbe
    (by decide) (by
      rw [show Spec.beamMatrix exEarthSonde = 1 by
        funext i j
        fin_cases i <;> fin_cases j <;> simp [Spec.beamMatrix, exEarthSonde]]
      simp) ⟨by decide, by decide⟩ ⟨by decide, by decide⟩ (by decide) rfl
    (recs := exAwacRecs) exAwac_recording (by
      intro r hr
      simp only [exAwacRecs, List.mem_cons, List.not_mem_nil, or_false] at hr
      rcases hr with rfl | rfl
      · exact exAwac_sized 0 (by omega)
      · exact exAwac_sized 1 (by omega))
    (size := 138) (B := 138) (pre := []) (bs := [[⟨32, 138⟩], [⟨32, 138⟩]]) (by decide +kernel) (by simp) (by
      intro b hb
      simp only [List.mem_cons, List.not_mem_nil, or_false, or_self] at hb
      subst hb
      exact ⟨[], rfl, by simp, rfl⟩) (by omega) round cosH fl hrange (some 10)
  obtain ⟨hT, -, hv⟩ := h5 1 (exProfRec 1) (exProf 1) 0 ⟨[exProfRec 0], [], rfl, rfl, by decide⟩ (exProf_ok 1 (by omega)) rfl
    (by decide)
  refine ⟨o, ds, om, d, e, v, h1, h2, h3, h4, hT, fun i hi => (hv i hi).trans ?_⟩
  have hlin : ∀ x, Spec.lin 1 x = x := fun x => applyM_one x
  have ha : exAwacSetup.axes = .xyz := rfl
  rw [ha]
  simp only [Spec.earthVel, hlin, Option.getD_some]
  simp [exProf]

/-! ### Vector -/

theorem calcOmatAngles_down {l l' : List HPR} {d : List Bool} (h : calcOmatAngles l none = .ok l') (hd : d.length = l'.length) :
    calcOmatAngles l (some d) =
      .ok (List.zipWith (fun x b => if b then { x with r := x.r.map (· + 180) } else x) l' d) := by
  unfold calcOmatAngles at h ⊢
  cases hl : l.getLast? with
  | none => rw [hl] at h; cases h
  | some last =>
    rw [hl] at h
    simp only at h ⊢
    split at h
    · cases h
    · rename_i l'' _ hf _
      cases h
      rw [hf]
      simp only
      rw [if_neg (by omega)]
    · cases ‹none = some _›

/-- The matrices when the angles are known from entry `g` to entry `e`. -/
theorem calcOmat_range {n g e : ℕ} (he : e < n) (hge : g ≤ e) (h p r : ℕ → ℝ) (q : Bool) :
    calcOmat ((List.range n).map fun i => if g ≤ i ∧ i ≤ e then ⟨some (h i), some (p i), some (r i)⟩ else ⟨none, none, none⟩)
        (some ((List.range n).map fun _ => q)) =
      .ok ((List.range n).map fun i => if g ≤ i then
        some (nortekOrient (h (min i e)) (p (min i e)) (r (min i e) + if q then 180 else 0)) else none) := by
  set row : ℕ → HPR := fun i => if g ≤ i ∧ i ≤ e then ⟨some (h i), some (p i), some (r i)⟩ else ⟨none, none, none⟩ with hrow
  have hl : ((List.range n).map row).getLast? = some (row (n - 1)) := by
    rw [List.getLast?_map, List.getLast?_range, if_neg (by omega)]
    rfl
  have hget : ∀ i < n, ((List.range n).map row)[i]? = some (row i) := by
    intro i hi
    rw [List.getElem?_map, List.getElem?_range hi]
    rfl
  have hgood : ∀ i, (row i).good = true ↔ g ≤ i ∧ i ≤ e := by
    intro i
    rw [hrow]
    simp only
    split_ifs with hc
    · simp [HPR.good, hc]
    · simp [HPR.good, hc]
  have hfill : calcOmatAngles ((List.range n).map row) none =
      .ok ((List.range n).map fun i => if g ≤ i then row (min i e) else ⟨none, none, none⟩) := by
    unfold calcOmatAngles
    rw [hl]
    simp only
    have hsame : ∀ i, i ≤ e → row i = if g ≤ i then row (min i e) else ⟨none, none, none⟩ := by
      intro i hi
      rw [Nat.min_eq_left hi]
      split_ifs with hc
      · rfl
      · rw [hrow]
        simp only
        rw [if_neg (by omega)]
    by_cases hlast : e = n - 1
    · rw [if_neg]
      · refine congrArg Except.ok (List.map_congr_left fun i hi => hsame i ?_)
        rw [List.mem_range] at hi
        omega
      · rw [hrow]
        simp only
        rw [if_pos (by omega)]
        simp
    · rw [if_pos]
      · have hk : lastGood ((List.range n).map row) = some e := by
          cases hk : lastGood ((List.range n).map row) with
          | none =>
            unfold lastGood at hk
            rw [List.getLast?_eq_none_iff, List.filter_eq_nil_iff] at hk
            have := hk e (by simp [he])
            rw [hget e he] at this
            exact absurd ((hgood e).mpr ⟨hge, le_refl e⟩) this
          | some k =>
            obtain ⟨⟨x, hx, hg⟩, hafter⟩ := lastGood_spec hk
            have hkn : k < n := by
              have := (List.getElem?_eq_some_iff.mp hx).1
              simpa using this
            rw [hget k hkn] at hx
            cases hx
            have hke := ((hgood k).mp hg).2
            rcases Nat.lt_or_ge k e with h1 | h1
            · have := hafter e (row e) h1 (hget e he)
              rw [(hgood e).mpr ⟨hge, le_refl e⟩] at this
              cases this
            · rw [Nat.le_antisymm hke h1]
        rw [hk]
        simp only [hget e he]
        refine congrArg Except.ok ?_
        refine List.ext_getElem? fun i => ?_
        rcases Nat.lt_or_ge i n with hi | hi
        · rcases Nat.lt_or_ge i e with h1 | h1
          · rw [List.getElem?_append_left (by simp; omega), List.getElem?_take_of_lt h1, hget i hi, List.getElem?_map,
              List.getElem?_range hi, Option.map_some, ← hsame i (by omega)]
          · rw [List.getElem?_append_right (by simp; omega), List.getElem?_map,
              List.getElem?_range hi, Option.map_some, if_pos (by omega), Nat.min_eq_right h1, List.getElem?_replicate,
              if_pos (by simp; omega)]
        · rw [List.getElem?_eq_none (by simp; omega), List.getElem?_eq_none (by simp; omega)]
      · rw [hrow]
        simp only
        rw [if_neg (by omega)]
        simp
  unfold calcOmat
  rw [calcOmatAngles_down hfill (by simp)]
  simp only [Except.map, List.zipWith_map, List.zipWith_self, List.map_map]
  congr 1
  refine List.map_congr_left fun i hi => ?_
  simp only [Function.comp]
  by_cases hc : g ≤ i
  · have hrm : row (min i e) = ⟨some (h (min i e)), some (p (min i e)), some (r (min i e))⟩ :=
      if_pos ⟨Nat.le_min.mpr ⟨hc, hge⟩, Nat.min_le_right _ _⟩
    rw [if_pos hc, if_pos hc, hrm]
    cases q <;> simp
  · rw [if_neg hc, if_neg hc]
    cases q <;> simp

/-- The angles that hold at sample `k`: those of the system record just before it; or of the last system record, if
it lies before; or on the straight line between two system records that follow each other. -/
def Spec.vecAngles (le : Bool) (recs : List NkRec) (k : ℕ) (h p r : ℝ) : Prop :=
  (∃ j q y, Spec.sysAt recs j q ∧ y.ok ∧ q.body = Spec.VecSysVals.bytes le y ∧ j ≤ k ∧
    (j = k ∨ ∀ j' q', Spec.sysAt recs j' q' → j' ≤ j) ∧ h = y.he / 10 ∧ p = y.pi / 10 ∧ r = y.ro / 10) ∨
  (∃ j j' q q' y y', Spec.sysAt recs j q ∧ y.ok ∧ q.body = Spec.VecSysVals.bytes le y ∧
    Spec.sysAt recs j' q' ∧ y'.ok ∧ q'.body = Spec.VecSysVals.bytes le y' ∧
    (∀ m z, Spec.sysAt recs m z → ¬ (j < m ∧ m < j')) ∧ j < k ∧ k < j' ∧
    h = (y.he / 10 : ℝ) + ((y'.he / 10 : ℝ) - y.he / 10) * ((k : ℝ) - j) / ((j' : ℝ) - j) ∧
    p = (y.pi / 10 : ℝ) + ((y'.pi / 10 : ℝ) - y.pi / 10) * ((k : ℝ) - j) / ((j' : ℝ) - j) ∧
    r = (y.ro / 10 : ℝ) + ((y'.ro / 10 : ℝ) - y.ro / 10) * ((k : ℝ) - j) / ((j' : ℝ) - j))

/-- The orientation matrices that are calculated from the system records of a Vector. -/
theorem vec_omat {ds : VecDs} {recs : List NkRec} {q : Bool}
    (hval : ∀ j z, Spec.sysAt recs j z → ∃ y : Spec.VecSysVals, y.ok ∧ z.body = y.bytes true)
    (hin : ∃ j z, Spec.sysAt recs j z ∧ j < ds.n)
    (d2 : ∀ k r x, Spec.sysAt recs k r → x.ok → r.body = Spec.VecSysVals.bytes true x →
      (∀ p ∈ Spec.sysVars, p.1 ds k = some ((p.2 x : ℚ) : ℝ)) ∧ ds.status k = x.st ∧ ds.error k = x.er)
    (d3 : ∀ k k' r r' x x', Spec.sysAt recs k r → x.ok → r.body = Spec.VecSysVals.bytes true x →
      Spec.sysAt recs k' r' → x'.ok → r'.body = Spec.VecSysVals.bytes true x' →
      (∀ j q, Spec.sysAt recs j q → ¬ (k < j ∧ j < k')) → ∀ i, k < i → i < k' →
      ∀ p ∈ Spec.sysVars, p.1 ds i =
        some ((p.2 x : ℝ) + ((p.2 x' : ℝ) - (p.2 x : ℝ)) * ((i : ℝ) - k) / ((k' : ℝ) - k)))
    (d5 : ∀ i < ds.n, (∀ j q, Spec.sysAt recs j q → i < j) ∨ (∀ j q, Spec.sysAt recs j q → j < i) →
      ∀ p ∈ Spec.sysVars, p.1 ds i = none)
    (d6 : ∀ i < ds.n, ds.down i = q) :
    ∃ om, calcOmat (vecHPR ds) (some (vecDowns ds)) = .ok om ∧ ∀ k < ds.n,
      ((∀ j z, Spec.sysAt recs j z → k < j) → om[k]? = some none) ∧
      (∀ m, om[k]? = some (some m) → Orthonormal m) ∧
      ((∃ j z, Spec.sysAt recs j z ∧ j ≤ k) → ∃ he pi ro, Spec.vecAngles true recs k he pi ro) ∧
      ∀ he pi ro, Spec.vecAngles true recs k he pi ro →
        om[k]? = some (some (nortekOrient he pi (ro + if q then 180 else 0))) ∧
        ((∃ j z, Spec.sysAt recs j z ∧ k ≤ j) → ds.heading k = some he) := by
  -- first and last system record
  classical
  set A : ℕ → Option Unit := fun j => if ∃ z, Spec.sysAt recs j z then some () else none with hAdef
  have hAn : ∀ j, A j ≠ none ↔ ∃ z, Spec.sysAt recs j z := by
    intro j
    rw [hAdef]
    simp only
    split_ifs with hc <;> simp [hc]
  obtain ⟨i0, z0, hz0, hi0⟩ := hin
  have hle : ∀ j z, Spec.sysAt recs j z → j < recs.countP Spec.isSample + 1 := fun j z hj => by
    have := sysAt_le hj
    omega
  obtain ⟨g, hg, -⟩ := exists_firstGood (hle i0 z0 hz0) ((hAn i0).mpr ⟨z0, hz0⟩)
  obtain ⟨l, hl, -⟩ := exists_lastGood (hle i0 z0 hz0) ((hAn i0).mpr ⟨z0, hz0⟩)
  obtain ⟨zg, hzg⟩ := (hAn g).mp hg.2.1
  obtain ⟨zl, hzl⟩ := (hAn l).mp hl.2.1
  have hfirst : ∀ j z, Spec.sysAt recs j z → g ≤ j := by
    intro j z hj
    by_contra hlt
    exact (hAn j).mpr ⟨z, hj⟩ (hg.2.2 j (by omega))
  have hlast : ∀ j z, Spec.sysAt recs j z → j ≤ l := by
    intro j z hj
    by_contra hlt
    exact (hAn j).mpr ⟨z, hj⟩ (hl.2.2 j (by omega) (hle j z hj))
  have hgl : g ≤ l := hfirst l zl hzl
  have hgi := hfirst i0 z0 hz0
  obtain ⟨e, he⟩ : ∃ e, e = min l (ds.n - 1) := ⟨_, rfl⟩
  -- the angles that hold
  have mh : (VecDs.heading, fun x : Spec.VecSysVals => (x.he : ℚ) / 10) ∈ Spec.sysVars := by simp [Spec.sysVars]
  have mp : (VecDs.pitch, fun x : Spec.VecSysVals => (x.pi : ℚ) / 10) ∈ Spec.sysVars := by simp [Spec.sysVars]
  have mr : (VecDs.roll, fun x : Spec.VecSysVals => (x.ro : ℚ) / 10) ∈ Spec.sysVars := by simp [Spec.sysVars]
  have hang : ∀ k < ds.n, ∀ h p r, Spec.vecAngles true recs k h p r → g ≤ k ∧ ds.heading (min k e) = some h ∧
      ds.pitch (min k e) = some p ∧ ds.roll (min k e) = some r := by
    rintro k hk h p r (⟨j, z, y, e1, e2, e3, e4, e5, rfl, rfl, rfl⟩ |
      ⟨j, j', z, z', y, y', e1, e2, e3, e1', e2', e3', e4, e5, e6, rfl, rfl, rfl⟩)
    · have hmin : min k e = j := by
        have := hlast j z e1
        rcases e5 with rfl | e5
        · omega
        · have := e5 l zl hzl
          omega
      have hfr := hfirst j z e1
      have := (d2 j z y e1 e2 e3).1
      rw [hmin]
      refine ⟨by omega, (this _ mh).trans ?_, (this _ mp).trans ?_, (this _ mr).trans ?_⟩ <;> simp
    · have h3 := hlast j' z' e1'
      have hmin : min k e = k := by omega
      have hfr := hfirst j z e1
      have := d3 j j' z z' y y' e1 e2 e3 e1' e2' e3' e4 k e5 e6
      rw [hmin]
      refine ⟨by omega, (this _ mh).trans ?_, (this _ mp).trans ?_, (this _ mr).trans ?_⟩ <;> simp
  have hexang : ∀ k, g ≤ k → ∃ he pi ro, Spec.vecAngles true recs k he pi ro := by
    intro k hk
    by_cases hkl : l ≤ k
    · obtain ⟨y, y1, y2⟩ := hval l zl hzl
      exact ⟨_, _, _, .inl ⟨l, zl, y, hzl, y1, y2, hkl, .inr hlast, rfl, rfl, rfl⟩⟩
    · by_cases hks : ∃ z, Spec.sysAt recs k z
      · obtain ⟨z, hz⟩ := hks
        obtain ⟨y, y1, y2⟩ := hval k z hz
        exact ⟨_, _, _, .inl ⟨k, z, y, hz, y1, y2, le_refl k, .inl rfl, rfl, rfl, rfl⟩⟩
      · have hAk : A k = none := by
          by_contra hc
          exact hks ((hAn k).mp hc)
        have hgk : g ≠ k := by rintro rfl; exact hg.2.1 hAk
        obtain ⟨j, j', hgap, hj, hj'⟩ := exists_gap hg hl (by omega) (by omega) hAk
        obtain ⟨z, hz⟩ := (hAn j).mp hgap.left
        obtain ⟨z', hz'⟩ := (hAn j').mp hgap.right
        obtain ⟨y, y1, y2⟩ := hval j z hz
        obtain ⟨y', y1', y2'⟩ := hval j' z' hz'
        exact ⟨_, _, _, .inr ⟨j, j', z, z', y, y', hz, y1, y2, hz', y1', y2',
          fun m x hx hc => (hAn m).mpr ⟨x, hx⟩ (hgap.between m hc.1 hc.2), hj, hj', rfl, rfl, rfl⟩⟩
  have hom : calcOmat (vecHPR ds) (some (vecDowns ds)) = .ok ((List.range ds.n).map fun i => if g ≤ i then
        some (nortekOrient ((ds.heading (min i e)).getD 0) ((ds.pitch (min i e)).getD 0)
          ((ds.roll (min i e)).getD 0 + if q then 180 else 0)) else none) := by
    rw [← calcOmat_range (n := ds.n) (e := e) (by omega) (by omega : g ≤ e) (fun i => (ds.heading i).getD 0) (fun i => (ds.pitch i).getD 0)
      (fun i => (ds.roll i).getD 0) q]
    congr 1
    · unfold vecHPR
      refine List.map_congr_left fun i hi => ?_
      rw [List.mem_range] at hi
      by_cases hc : g ≤ i ∧ i ≤ e
      · rw [if_pos hc]
        obtain ⟨h, p, r, hv⟩ := hexang i hc.1
        obtain ⟨-, v1, v2, v3⟩ := hang i hi h p r hv
        rw [Nat.min_eq_left hc.2] at v1 v2 v3
        rw [v1, v2, v3]
        rfl
      · rw [if_neg hc]
        have hout : (∀ j q, Spec.sysAt recs j q → i < j) ∨ (∀ j q, Spec.sysAt recs j q → j < i) := by
          rcases Nat.lt_or_ge i g with h3 | h3
          · exact .inl fun j z hj => lt_of_lt_of_le h3 (hfirst j z hj)
          · exact .inr fun j z hj => lt_of_le_of_lt (hlast j z hj) (by omega)
        rw [show ds.heading i = none from d5 i hi hout _ mh, show ds.pitch i = none from d5 i hi hout _ mp,
          show ds.roll i = none from d5 i hi hout _ mr]
    · unfold vecDowns
      refine congrArg some (List.map_congr_left fun i hi => ?_)
      exact d6 i (List.mem_range.mp hi)
  obtain ⟨om, eom⟩ : ∃ om, om = (List.range ds.n).map fun i => if g ≤ i then
        some (nortekOrient ((ds.heading (min i e)).getD 0) ((ds.pitch (min i e)).getD 0)
          ((ds.roll (min i e)).getD 0 + if q then 180 else 0)) else none := ⟨_, rfl⟩
  rw [← eom] at hom
  have hget : ∀ k < ds.n, om[k]? = some (if g ≤ k then
        some (nortekOrient ((ds.heading (min k e)).getD 0) ((ds.pitch (min k e)).getD 0)
          ((ds.roll (min k e)).getD 0 + if q then 180 else 0)) else none) := by
    intro k hk
    rw [eom, List.getElem?_map, List.getElem?_range hk]
    rfl
  refine ⟨om, hom, fun k hk => ⟨?_, ?_, ?_, ?_⟩⟩
  · intro hbef
    have := hbef g zg hzg
    rw [hget k hk, if_neg (by omega)]
  · intro m hm
    have hk' := hget k hk
    rw [hm] at hk'
    by_cases hc : g ≤ k
    · rw [if_pos hc] at hk'
      cases hk'
      exact (nortek_rotation _ _ _).1
    · rw [if_neg hc] at hk'
      cases hk'
  · rintro ⟨j, z, hj, hjk⟩
    exact hexang k ((hfirst j z hj).trans hjk)
  · intro h p r hv
    obtain ⟨v0, v1, v2, v3⟩ := hang k hk h p r hv
    have hgk := hget k hk
    rw [if_pos v0, v1, v2, v3] at hgk
    refine ⟨hgk, ?_⟩
    rintro ⟨j, z, hj, hkj⟩
    have := hlast j z hj
    rwa [Nat.min_eq_left (by omega)] at v1

theorem vecRDS_vars {o : NkOpened} {ds : VecDs} {om : List (Option M3)} (h : ds.imuType = none) :
    (vecRDS o ds om).vars = [⟨"vel", 3, fun t b => (((ds.vel t.1 (Fin.ofNat 3 b)).getD 0 : ℚ) : ℝ)⟩] := by
  have : vecImuVars ds om = [] := by
    unfold vecImuVars
    simp only
    split
    · rfl
    · rename_i f hf
      rw [h] at hf
      cases hf
  unfold vecRDS
  rw [this]

/-- **C149 (Vector).** A continuous recording of a Vector without IMU whose system records all say "down" (`q`) or all
"up", read with a head matrix and a declination (or without) in the userdata and rotated to the earth frame: the
velocity of every sample that does not come before the first system record is the recorded one, brought to the
earth frame with the matrix of the transducers, the head matrix, and the heading, pitch and roll that hold at
this sample (the roll turned by 180° when it points down), and turned clockwise by the declination. Up to the
last system record the heading in the dataset is the one that holds plus the declination. Samples before the
first system record have no orientation. -/
theorem vector_earth_partial (utf8 : List ℕ → Option (List Char)) (hu : Spec.Utf8 utf8) (b : Spec.NkBoard)
    (h : Spec.NkSonde) (s : Spec.NkSetup) (cs : Fin 6 → ℕ) (t : List ℕ) (w : List Char)
    (hb : b.Valid) (hs : b.serial = Spec.prefixOf .adv ++ t) (hw : firstWord (Spec.ascii b.serial) = .ok w)
    (hn : Spec.beamsOf (Spec.ascii b.serial) h = 3)
    (hm : ∀ k < 9, Spec.I16 (h.mat k)) (hdet : (Spec.beamMatrix h).det ≠ 0)
    (h1 : Spec.Text 6 s.name) (h2 : Spec.Text 80 s.comments) (hburst : s.nBurst.val = 0)
    {fs a : ℕ} {t0 : ℝ} (hfs : s.avgInterval.val * fs = 512) (ht0 : 0 < t0) (hA : a = 195 ∨ a = 204 ∨ a = 211)
    {recs : List NkRec} (hrec : Spec.VecRecording ⟨true, false, false, s.nBeams.val, s.nBins.val⟩ fs t0 a recs)
    (hsz : ∀ r ∈ recs, Spec.nkSized true r)
    {size B : ℕ} {pre : List NkBlock} {bs : List (List NkBlock)} (e : Spec.blocks recs = pre ++ bs.flatten)
    (hpre : ∀ r ∈ pre, r.id ≠ 17) (hp : Spec.countId 16 pre < fs) (hbs : ∀ b ∈ bs, Spec.isBlock 17 size B b)
    (hfsb : ∀ b ∈ bs, Spec.countId 16 b ≤ fs) (hne : bs ≠ []) (hsize : size < B)
    (hno : ∀ k r, ¬ Spec.imuAt recs k r) (q : Bool)
    (hq : ∀ k r x, Spec.sysAt recs k r → x.ok → r.body = Spec.VecSysVals.bytes true x → x.st % 2 = if q then 1 else 0)
    (round : ℝ → ℤ) (cosH : ℝ) (fl : List ℕ → ℝ)
    (rot : Option M3) (hR : ∀ R, rot = some R → IsRotation R ∧ s.axes ≠ .enu) (dec : Option ℝ) :
    ∃ o ds om d e v hh, nortekRead false utf8 fl round cosH (Spec.nkFile true 3 b h s cs (recs.flatMap NkRec.encode)) =
        some (.ok (.vec o ds)) ∧
      vecFinish rot dec o ds = some (.ok ⟨om, d⟩) ∧ d.coordSys = (Spec.frameOf s.axes).toFrame ∧ d.heading = some hh ∧
      rotate2 3 .earth d = some (.ok e) ∧ e.vars = [⟨"vel", 3, v⟩] ∧
      ∀ k r x, Spec.sampleAt recs k r → x.ok → r.body = Spec.VecVals.bytes true x →
        ((∀ j z, Spec.sysAt recs j z → k < j) → om[k]? = some none) ∧
        ((∃ j z, Spec.sysAt recs j z ∧ j ≤ k) → ∃ he pi ro, Spec.vecAngles true recs k he pi ro) ∧
        ∀ he pi ro, Spec.vecAngles true recs k he pi ro →
          ∃ hT, ((∃ j z, Spec.sysAt recs j z ∧ k ≤ j) → hh ⟨k, hT⟩ = he + dec.getD 0) ∧
            ∀ i < 3, v ⟨k, hT⟩ i = turnCW (dec.getD 0)
            (Spec.earthVel s.axes (Spec.beamMatrix h) (rot.getD 1) he pi (ro + if q then 180 else 0)
              fun b => (x.v (Fin.ofNat 3 b) : ℝ) * (if s.fine then 1 / 10 else 1) / 1000) i := by
  have ha : 0 < s.avgInterval.val := by
    rcases Nat.eq_zero_or_pos s.avgInterval.val with h0 | h0
    · rw [h0] at hfs; omega
    · exact h0
  obtain ⟨o, ds, r1, r2, r3, -, -, r6, d1, d2, -, -, d3, d4, d5, d6⟩ := vector_whole_partial utf8 hu b h s cs t w hb hs hw (by omega)
    (by rw [hn]; exact hm) h1 h2 hburst hfs ht0 hA hrec hsz e hpre hp hbs hfsb hne hsize round cosH fl
  obtain ⟨⟨d4, hty⟩, -⟩ := d4 hno
  have d6 := d6 q hq
  obtain ⟨o', q1, -, -, -, -, -, q7, -⟩ := nortek_opens utf8 hu b h s cs (recs.flatMap NkRec.encode)
    .adv t w hb hs hw (by omega) (by rw [hn]; exact hm) h1 h2 ha
  have hoo := nortekRead_opened r1
  rw [q1] at hoo
  have hoo' : o' = o := Except.ok.inj hoo
  subst hoo'
  rw [hn] at q7 r1
  have hof : o'.frame = Spec.frameOf s.axes := r3
  have hle : ∀ j z, Spec.sysAt recs j z → j < ds.n := fun j z hj => lt_of_le_of_lt (sysAt_le hj) d4
  have hval : ∀ j z, Spec.sysAt recs j z → ∃ y : Spec.VecSysVals, y.ok ∧ z.body = y.bytes true := by
    rintro j z ⟨pre', post', e', hz, -⟩
    exact hrec.sysvals z (by rw [e']; simp) hz
  obtain ⟨i0, -, -, -, -, ⟨z0, hz0⟩, -, -⟩ := hrec.three
  obtain ⟨om, hom, hget⟩ := vec_omat hval ⟨i0, z0, hz0, hle i0 z0 hz0⟩ d2 d3 d5 d6
  have hmat : (fun i j => (o'.head.mat i j : ℝ) : Matrix (Fin 3) (Fin 3) ℝ) = Spec.beamMatrix h := by
    funext i j
    rw [r6 i (by rw [q7]; exact i.isLt) j (by rw [q7]; exact j.isLt), q7]
    simp [Spec.beamMatrix]
  obtain ⟨d, ee, u1, u2, u3, u4, u5⟩ := userApply_earth (ds := vecRDS o' ds om) (f := o'.frame)
    (m := fun t => ((om[t.1]?).join).getD 1)
    (w := fun t b => (((ds.vel t.1 (Fin.ofNat 3 b)).getD 0 : ℚ) : ℝ)) (B := nkBeamMat o'.head)
    (Or.inl rfl) rfl (by
      intro t
      obtain ⟨m, hm⟩ := t.2.2.2.1
      rw [hm]
      exact (hget t.1 t.2.1).2.1 m hm) rfl rfl q7 (by rw [(beamMat_three q7 .beam 1 1 fun _ => 0).2, hmat]; exact hdet)
    (vecRDS_vars hty) rfl rfl rot (by
      intro R hRR
      exact ⟨(hR R hRR).1, rfl⟩) dec
  refine ⟨o', ds, om, d, ee, _, _, r1, ?_, ?_, u5, u3, u4, ?_⟩
  · unfold vecFinish vecOmat
    rw [hty]
    simp only [Option.map_none, Option.getD_none, Bool.false_eq_true, if_false]
    rw [hom]
    simp only [u1, Option.map_some]
  · rw [u2, hof]
  · intro k r x p1 p2 p3
    have hk : k < ds.n := by
      obtain ⟨pre', post', e', hid, hc⟩ := p1
      have : k < recs.countP Spec.isSample := by
        rw [e', List.countP_append, List.countP_cons, hc]
        have : Spec.isSample r = true := by simp [Spec.isSample, hid]
        rw [if_pos this]
        omega
      omega
    obtain ⟨k1, -, k2, k3⟩ := hget k hk
    refine ⟨k1, k2, ?_⟩
    intro he pi ro hv
    obtain ⟨hgk, hhk⟩ := k3 he pi ro hv
    have hvel := (d1 k r x p1 p2 p3).1
    refine ⟨⟨hk, ?_, ⟨_, hgk⟩, ?_⟩, ?_, ?_⟩
    · intro b
      rw [hvel b]
      rfl
    · intro f hf
      rw [hty] at hf
      cases hf
    · intro hj
      simp only [hhk hj]
      simp
    · intro i hi
      simp only [hgk, Option.join_some, Option.getD_some, hof]
      rw [(beamMat_three q7 _ _ _ _).1, hmat, earthVel_eq _ _ _ _ _ _ _ (by
        intro hx
        cases rot with
        | none => rfl
        | some R => exact absurd hx (hR R rfl).2)]
      refine earthVel_congr _ _ _ _ _ _ _ ?_ i hi
      intro b hb'
      rw [hvel]
      cases s.fine <;> simp

/-! ### A Vector that turns through north -/

/-- A system record of the example: heading 359.0° in the first, then 1.0°; no pitch and roll; up. -/
def exNorthSys (sec : ℕ) : Spec.VecSysVals :=
  ⟨14, 0, ⟨2012, 6, 12, 12, 0, sec⟩, 120, 14900, if sec = 0 then 3590 else 10, 0, 0, 1080, 0, 0, 0⟩

/-- A sample of the example: 0.1 m/s along the x axis. -/
def exNorthVals : Spec.VecVals := ⟨1, 7, 0, ![80, 81, 82], ![97, 98, 99], 10250, 3, ![1000, 0, 0]⟩

/-- Three seconds at 2 Hz. -/
def exNorthRecs : List NkRec :=
  [⟨0x11, (exNorthSys 0).bytes true, 0, 0⟩, ⟨0x10, exNorthVals.bytes true, 0, 0⟩, ⟨0x10, exNorthVals.bytes true, 0, 0⟩,
   ⟨0x11, (exNorthSys 1).bytes true, 0, 0⟩, ⟨0x10, exNorthVals.bytes true, 0, 0⟩, ⟨0x10, exNorthVals.bytes true, 0, 0⟩,
   ⟨0x11, (exNorthSys 2).bytes true, 0, 0⟩, ⟨0x10, exNorthVals.bytes true, 0, 0⟩, ⟨0x10, exNorthVals.bytes true, 0, 0⟩]

theorem exNorth_sysAt {k : ℕ} {r : NkRec} (h : Spec.sysAt exNorthRecs k r) :
    ∃ i < 3, k = 2 * i ∧ r = ⟨0x11, (exNorthSys i).bytes true, 0, 0⟩ := by
  obtain ⟨pre, post, e, h1, h2⟩ := h
  obtain ⟨h3, h4, h5, -⟩ := split_idx e
  have key : ∀ i < 9, (exNorthRecs[i]?.map NkRec.id) = some 0x11 → i = 0 ∨ i = 3 ∨ i = 6 := by decide
  have hcount : pre.countP Spec.isSample = (exNorthRecs.take pre.length).countP Spec.isSample := by rw [← h5]
  rcases key pre.length h3 (by rw [h4, Option.map_some, h1]) with h0 | h0 | h0
  all_goals rw [h0] at h4 hcount
  · cases h4
    exact ⟨0, by omega, by rw [← h2, hcount]; decide, rfl⟩
  · cases h4
    exact ⟨1, by omega, by rw [← h2, hcount]; decide, rfl⟩
  · cases h4
    exact ⟨2, by omega, by rw [← h2, hcount]; decide, rfl⟩

theorem exNorthSys_ok (k : ℕ) (h : k < 3) : (exNorthSys k).ok := by
  have : k = 0 ∨ k = 1 ∨ k = 2 := by omega
  rcases this with rfl | rfl | rfl <;> unfold exNorthSys Spec.VecSysVals.ok Spec.U16 Spec.I16 <;> decide

theorem exNorthVals_ok : exNorthVals.ok := by
  refine ⟨by decide, by unfold Spec.U16; decide, ?_⟩
  intro b
  fin_cases b <;> (unfold Spec.I16; decide)

theorem exNorth_bytes {i : ℕ} (hi : i < 3) {x : Spec.VecSysVals} (hx : x.ok)
    (e : (exNorthSys i).bytes true = x.bytes true) : (exNorthSys i).sys = x.sys := by
  have h1 := vecSysVals_decoded true x hx
  rw [← e, vecSysVals_decoded true (exNorthSys i) (exNorthSys_ok i hi)] at h1
  exact Except.ok.inj h1

theorem exNorth_recording : Spec.VecRecording exCfg (2 : ℕ) 1339502400 204 exNorthRecs := by
  have hmem : ∀ r ∈ exNorthRecs, (∃ k < 3, r = ⟨0x11, (exNorthSys k).bytes true, 0, 0⟩) ∨
      r = ⟨0x10, exNorthVals.bytes true, 0, 0⟩ := by
    intro r hr
    simp only [exNorthRecs, List.mem_cons, List.not_mem_nil, or_false] at hr
    rcases hr with rfl | rfl | rfl | rfl | rfl | rfl | rfl | rfl | rfl
    · exact .inl ⟨0, by omega, rfl⟩
    · exact .inr rfl
    · exact .inr rfl
    · exact .inl ⟨1, by omega, rfl⟩
    · exact .inr rfl
    · exact .inr rfl
    · exact .inl ⟨2, by omega, rfl⟩
    · exact .inr rfl
    · exact .inr rfl
  refine ⟨?_, ?_, ?_, ?_, ?_, ?_, ?_, ?_, ?_, ?_⟩
  · intro r hr
    left
    rcases hmem r hr with ⟨k, -, rfl⟩ | rfl
    · simp [nkFixedLen, Spec.VecSysVals.bytes, Spec.clock6, put16_length]
    · simp [nkFixedLen, Spec.VecVals.bytes, put16_length]
  · intro r hr
    rcases hmem r hr with ⟨k, -, rfl⟩ | rfl <;> simp
  · intro r hr h
    rcases hmem r hr with ⟨k, -, rfl⟩ | rfl
    · simp at h
    · exact ⟨exNorthVals, exNorthVals_ok, rfl⟩
  · intro r hr h
    rcases hmem r hr with ⟨k, hk, rfl⟩ | rfl
    · exact ⟨exNorthSys k, exNorthSys_ok k hk, rfl⟩
    · simp at h
  · intro r hr h
    rcases hmem r hr with ⟨k, -, rfl⟩ | rfl <;> simp at h
  · intro pre r mid q post e h1 h2
    have e' : exNorthRecs = (pre ++ r :: mid) ++ q :: post := by rw [e]; simp
    obtain ⟨a1, a2, a3, a4⟩ := split_idx e
    obtain ⟨b1, b2, b3, b4⟩ := split_idx e'
    have hm : mid = (exNorthRecs.drop (pre.length + 1)).take mid.length := by rw [← a4]; simp
    have hlen : pre.length + 1 + mid.length = (pre ++ r :: mid).length := by simp; omega
    rw [hm]
    have key : ∀ i < 9, ∀ j < 9, (exNorthRecs[i]?.map NkRec.id) = some 0x11 →
        (exNorthRecs[i + 1 + j]?.map NkRec.id) = some 0x11 →
        0 < ((exNorthRecs.drop (i + 1)).take j).countP Spec.isSample := by decide +kernel
    refine key pre.length a1 mid.length ?_ (by rw [a2, Option.map_some, h1]) (by
      rw [hlen, b2, Option.map_some, h2])
    have : exNorthRecs.length = 9 := rfl
    omega
  · intro pre r mid q post e h1 h2
    rcases hmem r (by rw [e]; simp) with ⟨k, -, rfl⟩ | rfl <;> simp at h1
  · intro pre r post e h1
    rcases hmem r (by rw [e]; simp) with ⟨k, -, rfl⟩ | rfl <;> simp at h1
  · intro k r x hr e hx
    obtain ⟨i, hi, rfl, rfl⟩ := exNorth_sysAt hr
    have h3 : (exNorthSys i).t = x.t := congrArg VecSys.time (exNorth_bytes hi hx e)
    rw [← h3]
    have : i = 0 ∨ i = 1 ∨ i = 2 := by omega
    rcases this with rfl | rfl | rfl
    · have : date2epoch (exNorthSys 0).t 0 = 1339502400 := by decide +kernel
      rw [this]; norm_num
    · have : date2epoch (exNorthSys 1).t 0 = 1339502401 := by decide +kernel
      rw [this]; norm_num
    · have : date2epoch (exNorthSys 2).t 0 = 1339502402 := by decide +kernel
      rw [this]; norm_num
  · refine ⟨0, 2, 4, by omega, by omega, ⟨_, [], _, rfl, rfl, rfl⟩,
      ⟨_, exNorthRecs.take 3, _, rfl, rfl, by decide⟩, ⟨_, exNorthRecs.take 6, _, rfl, rfl, by decide⟩⟩

/-- The setup at 2 Hz. -/
def exNorthSetup : Spec.NkSetup := { exNkSetup with avgInterval := 256, nBurst := 0 }

/-- A head with three beams at right angles. -/
def exNorthSonde : Spec.NkSonde := { exNkSonde with mat := fun k => if k % 4 = 0 then 4096 else 0 }

/-- **C149 is false of the code** between two system records on both sides of north: the heading is interpolated
through south. A Vector whose x axis turns from 359° to 1° in one second measures 0.1 m/s along it all the
time. In the dataset the velocity is towards north when its heading is recorded, and towards south half a
second later. -/
theorem vector_north_false (round : ℝ → ℤ) (cosH : ℝ) (fl : List ℕ → ℝ) :
    ∃ o ds om d e v, nortekRead false exUtf8 fl round cosH
        (Spec.nkFile true 3 exNkBoard exNorthSonde exNorthSetup (fun _ => 0) (exNorthRecs.flatMap NkRec.encode)) =
        some (.ok (.vec o ds)) ∧
      vecFinish none none o ds = some (.ok ⟨om, d⟩) ∧ rotate2 3 .earth d = some (.ok e) ∧ e.vars = [⟨"vel", 3, v⟩] ∧
      (∃ hT, v ⟨0, hT⟩ 0 = 0.1 * sind 359 ∧ v ⟨0, hT⟩ 1 = 0.1 * cosd 359) ∧
      (∃ hT, v ⟨1, hT⟩ 0 = 0 ∧ v ⟨1, hT⟩ 1 = -0.1) ∧
      ∃ hT, v ⟨2, hT⟩ 0 = 0.1 * sind 1 ∧ v ⟨2, hT⟩ 1 = 0.1 * cosd 1 := by
  have hfw : firstWord (Spec.ascii exNkBoard.serial) = .ok ['V', 'E', 'C'] := by decide
  have hbe : Spec.beamsOf (Spec.ascii exNkBoard.serial) exNorthSonde = 3 := by
    unfold Spec.beamsOf
    rw [hfw]
    rfl
  have hsys : ∀ i < 3, Spec.sysAt exNorthRecs (2 * i) ⟨0x11, (exNorthSys i).bytes true, 0, 0⟩ := by
    intro i hi
    have : i = 0 ∨ i = 1 ∨ i = 2 := by omega
    rcases this with rfl | rfl | rfl
    · exact ⟨[], _, rfl, rfl, rfl⟩
    · exact ⟨exNorthRecs.take 3, _, rfl, rfl, by decide⟩
    · exact ⟨exNorthRecs.take 6, _, rfl, rfl, by decide⟩
  obtain ⟨o, ds, om, d, e, v, hh, h1, h2, -, -, h3, h4, h5⟩ := vector_earth_partial exUtf8 exUtf8_ok exNkBoard exNorthSonde
    exNorthSetup (fun _ => 0) [32, 52, 57, 53, 49] _ ⟨by decide, by decide, by decide⟩ rfl hfw hbe
    (by decide) (by
      rw [show Spec.beamMatrix exNorthSonde = 1 by
        funext i j
        fin_cases i <;> fin_cases j <;> simp [Spec.beamMatrix, exNorthSonde]]
      simp) ⟨by decide, by decide⟩ ⟨by decide, by decide⟩ rfl (fs := 2) rfl (by norm_num) (by simp)
    (recs := exNorthRecs) exNorth_recording (by
      intro r hr
      simp only [exNorthRecs, List.mem_cons, List.not_mem_nil, or_false] at hr
      rcases hr with rfl | rfl | rfl | rfl | rfl | rfl | rfl | rfl | rfl
      · right; right; exact ⟨by decide, by decide, 14, 0, _, rfl, by decide +kernel⟩
      · left; exact ⟨rfl, by decide +kernel⟩
      · left; exact ⟨rfl, by decide +kernel⟩
      · right; right; exact ⟨by decide, by decide, 14, 0, _, rfl, by decide +kernel⟩
      · left; exact ⟨rfl, by decide +kernel⟩
      · left; exact ⟨rfl, by decide +kernel⟩
      · right; right; exact ⟨by decide, by decide, 14, 0, _, rfl, by decide +kernel⟩
      · left; exact ⟨rfl, by decide +kernel⟩
      · left; exact ⟨rfl, by decide +kernel⟩)
    (size := 28) (B := 76) (pre := []) (bs := List.replicate 3 [⟨17, 28⟩, ⟨16, 24⟩, ⟨16, 24⟩])
    (by decide +kernel) (by simp) (by decide) (by
      intro b hb
      rw [List.eq_of_mem_replicate hb]
      exact ⟨[⟨16, 24⟩, ⟨16, 24⟩], rfl, by simp, rfl⟩) (by decide) (by simp) (by omega)
    (by
      rintro k r ⟨pre, post, e, h1, -⟩
      have : ∀ r ∈ exNorthRecs, r.id ≠ 0x71 := by decide
      exact this r (by rw [e]; simp) h1) false
    (by
      intro k r x hr hx he
      obtain ⟨i, hi, rfl, rfl⟩ := exNorth_sysAt hr
      have h3 : ((0 : ℕ) : ℤ) = x.st := congrArg VecSys.status (exNorth_bytes hi hx he)
      have h4 : x.st = 0 := by omega
      rw [h4]
      rfl)
    round cosH fl none (by intro R hR; cases hR) none
  have hs : ∀ k, k = 0 ∨ k = 1 ∨ k = 2 → Spec.sampleAt exNorthRecs k ⟨0x10, exNorthVals.bytes true, 0, 0⟩ := by
    rintro k (rfl | rfl | rfl)
    · exact ⟨exNorthRecs.take 1, _, rfl, rfl, by decide⟩
    · exact ⟨exNorthRecs.take 2, _, rfl, rfl, by decide⟩
    · exact ⟨exNorthRecs.take 4, _, rfl, rfl, by decide⟩
  have hval : ∀ he : ℝ, turnCW ((none : Option ℝ).getD 0) (Spec.earthVel exNorthSetup.axes (Spec.beamMatrix exNorthSonde)
        ((none : Option M3).getD 1) he 0 (0 + if false = true then 180 else 0)
        (fun b => (exNorthVals.v (Fin.ofNat 3 b) : ℝ) * (if exNorthSetup.fine then 1 / 10 else 1) / 1000)) 0 = 0.1 * sind he ∧
      turnCW ((none : Option ℝ).getD 0) (Spec.earthVel exNorthSetup.axes (Spec.beamMatrix exNorthSonde)
        ((none : Option M3).getD 1) he 0 (0 + if false = true then 180 else 0)
        (fun b => (exNorthVals.v (Fin.ofNat 3 b) : ℝ) * (if exNorthSetup.fine then 1 / 10 else 1) / 1000)) 1 = 0.1 * cosd he := by
    intro he
    have hf : exNorthSetup.fine = true := by decide
    have ha : exNorthSetup.axes = .xyz := rfl
    rw [hf, ha]
    have hlin : ∀ x, Spec.lin 1 x = x := fun x => applyM_one x
    have h0 : (exNorthVals.v (Fin.ofNat 3 0) : ℝ) = 1000 := by simp [exNorthVals]
    have h1 : (exNorthVals.v (Fin.ofNat 3 1) : ℝ) = 0 := by
      rw [show exNorthVals.v (Fin.ofNat 3 1) = 0 from rfl]; simp
    have h2 : (exNorthVals.v (Fin.ofNat 3 2) : ℝ) = 0 := by
      rw [show exNorthVals.v (Fin.ofNat 3 2) = 0 from rfl]; simp
    simp only [Option.getD_none, turnCW_zero, Spec.earthVel, hlin, Spec.attitude, h0, h1, h2]
    norm_num [compassVec, cosd_zero, sind_zero]
  refine ⟨o, ds, om, d, e, v, h1, h2, h3, h4, ?_, ?_, ?_⟩
  · obtain ⟨hT, -, hv⟩ := (h5 0 _ exNorthVals (hs 0 (by simp)) exNorthVals_ok rfl).2.2 359 0 0
      (.inl ⟨0, _, exNorthSys 0, hsys 0 (by omega), exNorthSys_ok 0 (by omega), rfl, le_refl 0, .inl rfl,
        by norm_num [exNorthSys], by norm_num [exNorthSys], by norm_num [exNorthSys]⟩)
    exact ⟨hT, (hv 0 (by omega)).trans (hval _).1, (hv 1 (by omega)).trans (hval _).2⟩
  · obtain ⟨hT, -, hv⟩ := (h5 1 _ exNorthVals (hs 1 (by simp)) exNorthVals_ok rfl).2.2 180 0 0
      (.inr ⟨0, 2, _, _, exNorthSys 0, exNorthSys 1, hsys 0 (by omega), exNorthSys_ok 0 (by omega), rfl,
        hsys 1 (by omega), exNorthSys_ok 1 (by omega), rfl, by
          rintro m z hz ⟨h6, h7⟩
          obtain ⟨i, -, rfl, -⟩ := exNorth_sysAt hz
          omega, by omega, by omega,
        by norm_num [exNorthSys], by norm_num [exNorthSys], by norm_num [exNorthSys]⟩)
    have h180 : sind 180 = 0 ∧ cosd 180 = -1 := by
      unfold sind cosd
      rw [show (180 : ℝ) * Real.pi / 180 = Real.pi by ring]
      exact ⟨Real.sin_pi, Real.cos_pi⟩
    refine ⟨hT, ((hv 0 (by omega)).trans (hval _).1).trans ?_, ((hv 1 (by omega)).trans (hval _).2).trans ?_⟩
    · rw [h180.1, mul_zero]
    · rw [h180.2]; norm_num
  · obtain ⟨hT, -, hv⟩ := (h5 2 _ exNorthVals (hs 2 (by simp)) exNorthVals_ok rfl).2.2 1 0 0
      (.inl ⟨2, _, exNorthSys 1, hsys 1 (by omega), exNorthSys_ok 1 (by omega), rfl, le_refl 2, .inl rfl,
        by norm_num [exNorthSys], by norm_num [exNorthSys], by norm_num [exNorthSys]⟩)
    exact ⟨hT, (hv 0 (by omega)).trans (hval _).1, (hv 1 (by omega)).trans (hval _).2⟩

end Dolfyn
