import Verif.Model.RdiEarth
import Verif.Props.RdiCfg
import Verif.Props.RotateMore
import Verif.Props.Orient
import Verif.Props.NkEarth

/-!
C150: a TRDI file, read and rotated to the earth frame.
-/

namespace Dolfyn

open Spec

variable {T : Type}

/-! ### The rotations of a freshly read dataset -/

/-- Velocity in the earth frame from velocity in the frame `f`, with beam matrix `M` and orientation matrix `O`. -/
noncomputable def rdToEarthBy (f : RdFrame) {n : ℕ} (M : Matrix (Fin n) (Fin n) ℝ) (O : M3) (v : ℕ → ℝ) : ℕ → ℝ :=
  match f with
  | .beam => applyM O.transpose (applyM M v)
  | .inst | .ship => applyM O.transpose v
  | .earth => v

theorem mapM_i2e_rdi {m : T → M3} {r down : Bool} : ∀ {vs : List (RVar T)}, (∀ v ∈ vs, v.n = 4) →
    vs.mapM (i2eVar .rdi r down m) = .ok (vs.map fun v => v.rot fun t => if r then m t else (m t).transpose)
  | [], _ => rfl
  | v :: vs, h => by
    rw [List.mapM_cons, mapM_i2e_rdi (fun x hx => h x (by simp [hx]))]
    have : i2eVar .rdi r down m v = .ok (v.rot fun t => if r then m t else (m t).transpose) := by
      unfold i2eVar
      simp only
      rw [if_neg (by rw [h v (by simp)]; decide)]
    rw [this]
    rfl

theorem inst2earth_rdi {ds : RDS T} {m : T → M3} {r : Bool} (hi : ds.inst = .rdi)
    (hm : ds.orientmat = some m) (hv : ∀ v ∈ ds.vars, v.n = 4)
    (hf : ds.coordSys = (if r then .earth else .inst) ∨ (r = false ∧ ds.coordSys = .ship)) :
    inst2earth r ds = .ok { ds with
      vars := ds.vars.map fun v => v.rot fun t => if r then m t else (m t).transpose
      coordSys := if r then .inst else .earth } := by
  refine inst2earth_iff.mpr ⟨by rw [hi]; decide, ?_, m, effOmat_some hm, ?_, _, ?_, rfl⟩
  · rcases hf with h | h
    · exact Or.inl h
    · exact Or.inr ⟨hi, h⟩
  · intro h; rw [hi] at h; cases h
  · rw [hi]; exact mapM_i2e_rdi hv

theorem beam2inst_rdi {ds : RDS T} {B : BeamMat} (hi : ds.inst = .rdi) (hb : ds.beam2inst = some B) (hB : B.n = 4)
    (hv : ∀ v ∈ ds.vars, v.n = 4) (hf : ds.coordSys = .beam) :
    beam2inst false ds = .ok { ds with vars := ds.vars.map fun v => v.rot fun _ => B.mat, coordSys := .inst } := by
  have hmap : (ds.vars.map fun v => if v.n = B.n then v.rot (fun _ => B.mat) else v) =
      ds.vars.map fun v => v.rot fun _ => B.mat := by
    refine List.map_congr_left fun v h => ?_
    rw [if_pos (by rw [hv v h, hB])]
  unfold beam2inst
  rw [hi]
  simp only
  obtain ⟨i, c, vars, bm, om, co, dn, ph, dc, hea, ih, ihs⟩ := ds
  simp only at hi hf hb hmap
  subst hi hf hb
  simp only [beam2instBase, Bool.false_eq_true, false_and, if_false, ne_eq, not_true_eq_false, and_false, if_true, hmap]
  rfl

/-- The rotation to the earth frame, from any frame the reader can deliver. -/
theorem rotate2_rdi {ds : RDS T} {m : T → M3} {B : BeamMat} {f : RdFrame} (hi : ds.inst = .rdi)
    (hm : ds.orientmat = some m) (hb : ds.beam2inst = some B) (hB : B.n = 4) (hh : ds.inst2head = none)
    (hv : ∀ v ∈ ds.vars, v.n = 4) (hf : ds.coordSys = f.toFrame) :
    rotate2 3 .earth ds = some (.ok { ds with
      vars := ds.vars.map fun v => { v with val := fun t => rdToEarthBy f B.mat (m t) (v.val t) }
      coordSys := .earth }) := by
  have hu : ds.inst ≠ .unknown := by rw [hi]; decide
  have hck : checkInst2head ds = .ok false := by unfold checkInst2head; rw [hh]
  cases f with
  | beam =>
    rw [rotate2_eq (i := 0) (j := 2) 3 ds (by rw [hf]; exact .beam) .earth (le_refl 3) hu hck, steps_earth.1]
    simp only [List.foldlM_cons, List.foldlM_nil, oneStep, beam2inst_rdi hi hb hB hv hf, bind, Except.bind]
    rw [inst2earth_rdi (ds := { ds with vars := ds.vars.map fun v => v.rot fun _ => B.mat, coordSys := .inst }) (m := m)
      (r := false) hi hm (by
      intro v hx
      obtain ⟨x, hx', rfl⟩ := List.mem_map.mp hx
      exact hv x hx') (Or.inl rfl)]
    simp only [List.map_map]
    rfl
  | inst =>
    rw [rotate2_eq (i := 1) (j := 2) 3 ds (by rw [hf]; exact .inst) .earth (le_refl 3) hu hck, steps_earth.2.1]
    simp only [List.foldlM_cons, List.foldlM_nil, oneStep]
    rw [inst2earth_rdi (m := m) (r := false) hi hm hv (Or.inl hf)]
    rfl
  | ship =>
    rw [rotate2_ship 2 ds hf .earth hu hck, if_pos (by decide),
      inst2earth_rdi (m := m) (r := false) hi hm hv (Or.inr ⟨rfl, hf⟩)]
    simp only [Bool.false_eq_true, if_false]
    unfold rotateLoop
    rw [if_pos rfl]
    rfl
  | earth =>
    rw [rotate2_earth_earth hu hf hck]
    have : (ds.vars.map fun v => { v with val := fun t => rdToEarthBy .earth B.mat (m t) (v.val t) }) = ds.vars := by
      conv_rhs => rw [← List.map_id ds.vars]
      rfl
    rw [this]
    obtain ⟨i, c, vars, bm, om, co, dn, ph, dc, hea, ih, ihs⟩ := ds
    simp only [RdFrame.toFrame] at hf
    subst hf
    rfl

theorem rdToEarthBy_dec {f : RdFrame} (hf : f ≠ .earth) {n : ℕ} (M : Matrix (Fin n) (Fin n) ℝ) (O : M3) (a : ℝ)
    (v : ℕ → ℝ) : rdToEarthBy f M (O * (rotDec a).transpose) v = turnCW a (rdToEarthBy f M O v) := by
  have : ∀ u : ℕ → ℝ, applyM (O * (rotDec a).transpose).transpose u = turnCW a (applyM O.transpose u) := by
    intro u
    rw [Matrix.transpose_mul, Matrix.transpose_transpose, applyM_mul, applyM_rotDec, applyM_cw]
  cases f with
  | beam => exact this _
  | inst => exact this _
  | ship => exact this _
  | earth => exact absurd rfl hf

/-- The end of reading and the rotation to the earth frame. The declination of the userdata turns the data only if
the recorded one is zero. -/
theorem rdi_decl_earth {ds : RDS T} {m : T → M3} {B : BeamMat} {f : RdFrame} (hi : ds.inst = .rdi)
    (hm : ds.orientmat = some m) (ho : ∀ t, Orthonormal (m t)) (hb : ds.beam2inst = some B) (hB : B.n = 4)
    (hdet : B.mat.det ≠ 0) (hh : ds.inst2head = none) (hv : ∀ v ∈ ds.vars, v.n = 4) (hf : ds.coordSys = f.toFrame)
    (magVar : ℝ) :
    ∃ d e, setRdiDeclination 3 magVar ds = some (.ok d) ∧ d.coordSys = f.toFrame ∧
      d.declination = (ds.declination.or (if magVar = 0 then none else some magVar)) ∧
      d.heading = ds.heading.map (fun h t => h t + if magVar = 0 then ds.declination.getD 0 else 0) ∧
      rotate2 3 .earth d = some (.ok e) ∧ e.coordSys = .earth ∧
      e.vars = ds.vars.map fun v =>
        { v with
          val := fun t => turnCW (if magVar = 0 then ds.declination.getD 0 else 0)
            (rdToEarthBy f B.mat (m t) (v.val t)) } := by
  unfold setRdiDeclination
  cases hdc : ds.declination with
  | none =>
    simp only
    have hz : ∀ u, turnCW (if magVar = 0 then (none : Option ℝ).getD 0 else 0) u = u := by
      intro u
      rw [show (if magVar = 0 then (none : Option ℝ).getD 0 else 0) = (0 : ℝ) by split_ifs <;> rfl, turnCW_zero]
    simp only [hz]
    have hz' : ∀ b : Bool, ds.heading = ds.heading.map (fun h t => h t + if b then (none : Option ℝ).getD 0 else 0) := by
      intro b
      cases ds.heading <;> cases b <;> simp
    by_cases h0 : magVar = 0
    · rw [if_neg (by simpa using h0), if_pos h0, if_pos h0]
      exact ⟨ds, _, rfl, hf, hdc, hz' true, rotate2_rdi hi hm hb hB hh hv hf, rfl, rfl⟩
    · rw [if_pos h0, if_neg h0, if_neg h0]
      exact ⟨{ ds with declination := some magVar }, _, rfl, hf, rfl, hz' false,
        rotate2_rdi (ds := { ds with declination := some magVar }) hi hm hb hB hh hv hf, rfl, rfl⟩
  | some declin =>
    simp only [Option.getD_some, Option.some_or]
    obtain ⟨dc, hds1, hang⟩ : ∃ dc, (if magVar ≠ 0 then { ds with declination := some declin }
        else { ds with declination := none }) = { ds with declination := dc } ∧
        decAngle declin { ds with declination := dc } = if magVar = 0 then declin else 0 := by
      by_cases h0 : magVar = 0
      · exact ⟨none, by rw [if_neg (by simpa using h0)], by rw [if_pos h0]; rfl⟩
      · exact ⟨some declin, by rw [if_pos h0], by rw [if_neg h0]; simp [decAngle]⟩
    rw [hds1, ← hang]
    generalize hA : decAngle declin { ds with declination := dc } = A
    by_cases hfe : f = .earth
    · subst hfe
      have hr : Rotatable { ds with declination := dc } := by
        refine ⟨?_, ?_, ?_, ?_⟩
        · rintro m' (h | ⟨h, -⟩)
          · have : ds.orientmat = some m' := h
            rw [hm] at this; cases this; exact ho
          · have : ds.orientmat = none := h
            rw [hm] at this; cases this
        · intro h
          have : ds.inst = .signature := h
          rw [hi] at this; cases this
        · intro B' h
          have : ds.beam2inst = some B' := h
          rw [hb] at this; cases this; exact hdet
        · intro R h
          have : ds.inst2head = some R := h
          rw [hh] at this; cases this
      have h1 := inst2earth_rdi (ds := { ds with declination := dc }) (m := m) (r := true) hi hm hv (Or.inl hf)
      have hck : checkInst2head { ds with declination := dc } = .ok false := by unfold checkInst2head; rw [hh]
      have h2 := setDeclination_earth (fuel := 3) (declin := declin) (ds := { ds with declination := dc }) (le_refl 3) hr hf hm
        hck h1
      rw [hA] at h2
      refine ⟨_, _, h2, hf, rfl, rfl, rotate2_earth_earth (by show ds.inst ≠ _; rw [hi]; decide) hf (b := false) ?_, hf, ?_⟩
      · unfold checkInst2head decUpd
        simp only [hh]
      · refine List.map_congr_left fun v _ => ?_
        rw [rot_cw]
        rfl
    · have h2 := setDeclination_not_earth (fuel := 3) (declin := declin) (ds := { ds with declination := dc }) (m := m)
        (by show ds.coordSys ≠ _; rw [hf]; cases f <;> simp_all [RdFrame.toFrame]) hm
      rw [hA] at h2
      refine ⟨_, _, h2, hf, rfl, rfl, rotate2_rdi (ds := decUpd A declin m { ds with declination := dc })
        (m := fun t => m t * (rotDec A).transpose) (B := B) (f := f) hi rfl hb hB hh hv hf, rfl, ?_⟩
      refine List.map_congr_left fun v _ => ?_
      simp only [rdToEarthBy_dec hfe]

/-! ### What the velocity should be -/

/-- Velocity along the axes of the instrument from the velocities along four slanted beams: opposite beams differ by
twice the horizontal part, their sum is the vertical part, and the two pairs should agree on it. -/
noncomputable def Spec.janus (convex : Bool) (θ : ℝ) (b : ℕ → ℝ) : ℕ → ℝ
  | 0 => (if convex then 1 else -1) * (b 0 - b 1) / (2 * sind θ)
  | 1 => (if convex then 1 else -1) * (b 3 - b 2) / (2 * sind θ)
  | 2 => (b 0 + b 1 + b 2 + b 3) / (4 * cosd θ)
  | 3 => (b 0 + b 1 - (b 2 + b 3)) / (2 * Real.sqrt 2 * sind θ)
  | i => b i

/-- An instrument whose second axis points to heading `h` at elevation `el`, rolled by `ρ` about this axis. -/
noncomputable def Spec.trdiAttitude (h el ρ : ℝ) (v : ℕ → ℝ) (i : ℕ) : ℝ :=
  if hi : i < 3 then
    v 1 * compassVec h el ⟨i, hi⟩ +
      v 0 * (cosd ρ * compassVec (h + 90) 0 ⟨i, hi⟩ - sind ρ * compassVec h (el + 90) ⟨i, hi⟩) +
      v 2 * (sind ρ * compassVec (h + 90) 0 ⟨i, hi⟩ + cosd ρ * compassVec h (el + 90) ⟨i, hi⟩)
  else v i

/-- The elevation of the second axis from the readings of pitch and roll, when the pitch sensor rolls with the
instrument. -/
noncomputable def Spec.trdiPitch (p r : ℝ) : ℝ :=
  Real.arctan (Real.tan (p * Real.pi / 180) * cosd r) * 180 / Real.pi

/-- The angle of the beams from the axis, in degrees; old firmware only records a nominal one. -/
noncomputable def Spec.RdSetup.theta (S : Spec.RdSetup) : ℝ :=
  if 1627 ≤ 100 * S.fw + S.rev then (S.angle : ℝ) else ![15, 20, 30] S.angleIdx

/-- The velocity in the earth frame, from velocity `v` in the recorded frame and the readings of compass and tilt
sensors in degrees. -/
noncomputable def Spec.trdiEarth (S : Spec.RdSetup) (h p r : ℝ) (v : ℕ → ℝ) : ℕ → ℝ :=
  let tilted := Spec.trdiAttitude h (Spec.trdiPitch p r) (if S.up then r + 180 else r)
  match S.frame with
  | .beam => tilted (Spec.janus S.convex S.theta v)
  | .inst => tilted v
  | .ship => if S.tilts then Spec.trdiAttitude h 0 0 v else tilted v
  | .earth => v

theorem trdiAttitude_eq (h el ρ : ℝ) (v : ℕ → ℝ) :
    applyM (!![cosd h * cosd ρ + sind h * sind el * sind ρ, sind h * cosd el, cosd h * sind ρ - sind h * sind el * cosd ρ;
       -sind h * cosd ρ + cosd h * sind el * sind ρ, cosd h * cosd el, -sind h * sind ρ - cosd h * sind el * cosd ρ;
       -cosd el * sind ρ, sind el, cosd el * cosd ρ] : M3) v = Spec.trdiAttitude h el ρ v := by
  have c1 : ∀ x, cosd (x + 90) = -sind x := by
    intro x
    unfold cosd sind
    rw [show (x + 90) * Real.pi / 180 = x * Real.pi / 180 + Real.pi / 2 by ring, Real.cos_add_pi_div_two]
  have s1 : ∀ x, sind (x + 90) = cosd x := by
    intro x
    unfold cosd sind
    rw [show (x + 90) * Real.pi / 180 = x * Real.pi / 180 + Real.pi / 2 by ring, Real.sin_add_pi_div_two]
  have c0 : cosd 0 = 1 := by simp [cosd]
  have s0 : sind 0 = 0 := by simp [sind]
  funext i
  match i with
  | 0 =>
    simp [applyM, Spec.trdiAttitude, Fin.sum_univ_three, compassVec, c1, s1, c0, s0]
    ring
  | 1 =>
    simp [applyM, Spec.trdiAttitude, Fin.sum_univ_three, compassVec, c1, s1, c0, s0]
    ring
  | 2 =>
    simp [applyM, Spec.trdiAttitude, Fin.sum_univ_three, compassVec, c1, s1, c0, s0]
    ring
  | i + 3 => simp [applyM, Spec.trdiAttitude]

theorem rdiOrient_attitude (up ship : Bool) (h p r : ℝ) (v : ℕ → ℝ) :
    applyM (rdiOrient true up ship h p r).transpose v =
      if ship then Spec.trdiAttitude h 0 0 v
      else Spec.trdiAttitude h (Spec.trdiPitch p r) (if up then r + 180 else r) v := by
  have hg : Real.arctan (Real.tan (deg2rad p) * Real.cos (deg2rad r)) = deg2rad (Spec.trdiPitch p r) := by
    unfold Spec.trdiPitch
    rw [cos_deg2rad, deg2rad_eq, deg2rad_eq]
    field_simp
  have hu : deg2rad r + Real.pi = deg2rad (r + 180) := by
    rw [deg2rad_eq, deg2rad_eq]; ring
  unfold rdiOrient
  simp only [Bool.true_and, Matrix.transpose_transpose, hg, hu]
  cases ship
  · cases up
    · simp only [Bool.false_eq_true, if_false, cos_deg2rad, sin_deg2rad]
      exact trdiAttitude_eq ..
    · simp only [Bool.false_eq_true, if_false, if_true, cos_deg2rad, sin_deg2rad]
      exact trdiAttitude_eq ..
  · simp only [if_true]
    rw [show (0 : ℝ) = deg2rad 0 by simp [deg2rad]]
    simp only [cos_deg2rad, sin_deg2rad]
    rw [show deg2rad 0 = (0 : ℝ) by simp [deg2rad]]
    exact trdiAttitude_eq ..

theorem rdiBeamMat_janus (θ : ℝ) (convex : Bool) (b : ℕ → ℝ) :
    applyM (rdiBeamMat θ (if convex then 1 else 0) true) b = Spec.janus convex θ b := by
  unfold rdiBeamMat
  simp only [if_true, sin_deg2rad, cos_deg2rad]
  funext i
  cases convex
  all_goals
    match i with
    | 0 => simp [applyM, Spec.janus, Fin.sum_univ_four]; ring
    | 1 => simp [applyM, Spec.janus, Fin.sum_univ_four]; ring
    | 2 => simp [applyM, Spec.janus, Fin.sum_univ_four]; ring
    | 3 => simp [applyM, Spec.janus, Fin.sum_univ_four]; ring
    | i + 4 => simp [applyM, Spec.janus]

theorem theta_cfg (S : Spec.RdSetup) : ((S.cfg.beamAngle : ℕ) : ℝ) = S.theta := by
  unfold Spec.RdSetup.cfg Spec.RdSetup.theta
  simp only
  split_ifs
  · rfl
  · generalize S.angleIdx = a
    fin_cases a <;> simp

theorem rdToEarthBy_trdi (S : Spec.RdSetup) (h p r : ℝ) (v : ℕ → ℝ) :
    rdToEarthBy S.frame (rdBeamMat S.cfg).mat
      (rdiOrient true S.up (decide (S.frame = .ship) && S.tilts) h p r) v = Spec.trdiEarth S h p r v := by
  unfold Spec.trdiEarth rdBeamMat
  simp only [← theta_cfg]
  rw [show S.cfg.convex = S.convex from rfl]
  cases hf : S.frame with
  | beam =>
    simp only [rdToEarthBy, reduceCtorEq, decide_false, Bool.false_and]
    rw [rdiBeamMat_janus, rdiOrient_attitude]
    simp
  | inst =>
    simp only [rdToEarthBy, reduceCtorEq, decide_false, Bool.false_and]
    rw [rdiOrient_attitude]
    simp
  | ship =>
    simp only [rdToEarthBy, decide_true, Bool.true_and]
    rw [rdiOrient_attitude]
  | earth => rfl

/-! ### Independent check of the description -/

/-- Velocities along the beams when the water moves with `U` (east, north, up): the components of `U` along the three
axes of the instrument, projected on the beams. -/
noncomputable def Spec.alongBeams (S : Spec.RdSetup) (h p r : ℝ) (U : ℕ → ℝ) : ℕ → ℝ :=
  let along (a : ℕ) : ℝ := ∑ i : Fin 3, U i *
    Spec.trdiAttitude h (Spec.trdiPitch p r) (if S.up then r + 180 else r) (fun j => if j = a then 1 else 0) i
  Spec.beamVel S.convex (S.theta * Real.pi / 180) (along 0) (along 1) (along 2)

theorem janus_recovers (convex : Bool) (θ X Y Z : ℝ) (hs : sind θ ≠ 0) (hc : cosd θ ≠ 0) :
    let out := Spec.janus convex θ (Spec.beamVel convex (θ * Real.pi / 180) X Y Z)
    out 0 = X ∧ out 1 = Y ∧ out 2 = Z ∧ out 3 = 0 := by
  have e1 : Real.sin (θ * Real.pi / 180) = sind θ := rfl
  have e2 : Real.cos (θ * Real.pi / 180) = cosd θ := rfl
  unfold Spec.janus Spec.beamVel
  cases convex <;> simp only [e1, e2, Bool.false_eq_true, if_false, if_true] <;>
    refine ⟨?_, ?_, ?_, ?_⟩ <;> field_simp <;> ring

/-- C150: the description recovers the motion of the water. -/
theorem rdi_earth_flow {S : Spec.RdSetup} (hf : S.frame = .beam) (h0 : 0 < S.theta) (h1 : S.theta < 90) (h p r : ℝ)
    (U : ℕ → ℝ) : (∀ k < 3, Spec.trdiEarth S h p r (Spec.alongBeams S h p r U) k = U k) ∧
    Spec.trdiEarth S h p r (Spec.alongBeams S h p r U) 3 = 0 := by
  have hs : sind S.theta ≠ 0 := by
    refine (Real.sin_pos_of_pos_of_lt_pi ?_ ?_).ne'
    · have := Real.pi_pos; positivity
    · have := Real.pi_pos; nlinarith
  have hc : cosd S.theta ≠ 0 := by
    refine (Real.cos_pos_of_mem_Ioo ⟨?_, ?_⟩).ne'
    · have := Real.pi_pos
      have : 0 < S.theta * Real.pi / 180 := by positivity
      linarith
    · have := Real.pi_pos; nlinarith
  unfold Spec.trdiEarth
  rw [hf]
  simp only
  set O := rdiOrient true S.up false h p r with hO
  have hatt : ∀ v, Spec.trdiAttitude h (Spec.trdiPitch p r) (if S.up then r + 180 else r) v = applyM O.transpose v := by
    intro v
    rw [hO, rdiOrient_attitude]
    simp
  have hal : ∀ a : Fin 3, (∑ i : Fin 3, U i * Spec.trdiAttitude h (Spec.trdiPitch p r) (if S.up then r + 180 else r)
      (fun j => if j = (a : ℕ) then 1 else 0) i) = applyM O U a := by
    intro a
    simp only [hatt]
    simp only [applyM, a.isLt, dif_pos, Fin.is_lt]
    refine Finset.sum_congr rfl fun i _ => ?_
    rw [mul_comm]
    congr 1
    fin_cases a <;> simp [Fin.sum_univ_three]
  have hjan := janus_recovers S.convex S.theta (applyM O U 0) (applyM O U 1) (applyM O U 2) hs hc
  have hab : Spec.alongBeams S h p r U =
      Spec.beamVel S.convex (S.theta * Real.pi / 180) (applyM O U 0) (applyM O U 1) (applyM O U 2) := by
    unfold Spec.alongBeams
    have a0 := hal 0
    have a1 := hal 1
    have a2 := hal 2
    simp only [Fin.val_zero, Fin.val_one, Fin.val_two] at a0 a1 a2
    simp only [a0, a1, a2]
  rw [hatt, hab]
  obtain ⟨j0, j1, j2, j3⟩ := hjan
  generalize hJ : Spec.janus S.convex S.theta
    (Spec.beamVel S.convex (S.theta * Real.pi / 180) (applyM O U 0) (applyM O U 1) (applyM O U 2)) = J at *
  have hback : applyM O.transpose (applyM O U) = U := by
    rw [← applyM_mul, orth_comm (rdi_rotation ..).1, applyM_one]
  constructor
  · intro k hk
    conv_rhs => rw [← hback]
    simp only [applyM, hk, dif_pos, Fin.sum_univ_three, Fin.val_zero, Fin.val_one, Fin.val_two]
    rw [j0, j1, j2]
    simp only [applyM, Nat.lt_add_one, Nat.ofNat_pos, Nat.one_lt_ofNat, dif_pos, Fin.sum_univ_three]
    rfl
  · rw [show applyM O.transpose J 3 = J 3 by simp [applyM]]
    exact j3

/-! ### The whole way from the file -/

/-- The ensemble records this setup. -/
def Spec.hasSetup (e : Spec.RdEns) (S : Spec.RdSetup) : Prop :=
  ∃ b ∈ e.blks, b.id = 0 ∧ (∃ extra, b.pl = Spec.record S.fields ++ extra) ∧ ∀ x ∈ S.fields, Spec.inRange x.1 x.2

/-- The ensemble has this variable leader. -/
def Spec.hasLeader (e : Spec.RdEns) (L : Spec.RdLeader) : Prop :=
  ∃ b ∈ e.blks, b.id = 128 ∧ (∃ extra, b.pl = Spec.record L.fields ++ extra) ∧ ∀ x ∈ L.fields, Spec.inRange x.1 x.2

/-- The ensemble has these velocities (cell, beam) in mm/s. -/
def Spec.hasVel (f : RdFixed) (e : Spec.RdEns) (w : ℕ → ℕ → ℤ) : Prop :=
  ∃ b, Spec.LastBlk e b ∧ b.id = 256 ∧ (∃ extra, b.pl = Spec.cellRecord .h f.nCells w ++ extra) ∧
    ∀ c < f.nCells, ∀ k < 4, Spec.inRange .h (w c k)

/-- The ensemble has this bottom track. -/
def Spec.hasBottom (e : Spec.RdEns) (R : Spec.RdBottom) : Prop :=
  ∃ b, Spec.LastBlk e b ∧ b.id = 1536 ∧ (∃ lead gap extra : List ℕ, lead.length = 14 ∧ gap.length = 33 ∧
    b.pl = lead ++ (Spec.record R.fields ++ (gap ++ (Spec.record R.high ++ extra)))) ∧
    ∀ x ∈ R.fields ++ R.high, Spec.inRange x.1 x.2

theorem rdToEarthBy_congr {f : RdFrame} {n : ℕ} (hn : n ≤ 4) {M : Matrix (Fin n) (Fin n) ℝ} {O : M3} {u v : ℕ → ℝ} {k : ℕ}
    (h : ∀ j < (if f = .beam then 4 else 3), u j = v j) (hk : k < 4) (h3 : k = 3 → u 3 = v 3) :
    rdToEarthBy f M O u k = rdToEarthBy f M O v k := by
  have hr : ∀ (x y : ℕ → ℝ), (∀ j < 3, x j = y j) → (k = 3 → x 3 = y 3) →
      applyM O.transpose x k = applyM O.transpose y k := by
    intro x y hxy hx3
    unfold applyM
    by_cases hk3 : k < 3
    · rw [dif_pos hk3, dif_pos hk3]
      refine Finset.sum_congr rfl fun j _ => ?_
      rw [hxy j j.isLt]
    · rw [dif_neg hk3, dif_neg hk3]
      have : k = 3 := by omega
      subst this
      exact hx3 rfl
  cases f with
  | beam =>
    simp only [if_true] at h
    have hb : ∀ j < 4, applyM M u j = applyM M v j := by
      intro j hj
      unfold applyM
      split_ifs with hjn
      · refine Finset.sum_congr rfl fun i _ => ?_
        rw [h i (by have := i.isLt; omega)]
      · exact h j hj
    exact hr _ _ (fun j hj => hb j (by omega)) (fun _ => hb 3 (by omega))
  | inst =>
    simp only [reduceCtorEq, if_false] at h
    exact hr _ _ h h3
  | ship =>
    simp only [reduceCtorEq, if_false] at h
    exact hr _ _ h h3
  | earth =>
    simp only [reduceCtorEq, if_false] at h
    show u k = v k
    by_cases hk3 : k < 3
    · exact h k hk3
    · have : k = 3 := by omega
      subst this
      exact h3 rfl

theorem turnCW_congr {a : ℝ} {u v : ℕ → ℝ} {k : ℕ} (hk : k < 4)
    (h : ∀ j < 3, u j = v j) (h3 : k = 3 → u 3 = v 3) : turnCW a u k = turnCW a v k := by
  unfold Spec.turnCW
  by_cases k0 : k = 0
  · rw [if_pos k0, if_pos k0, h 0 (by omega), h 1 (by omega)]
  rw [if_neg k0, if_neg k0]
  by_cases k1 : k = 1
  · rw [if_pos k1, if_pos k1, h 0 (by omega), h 1 (by omega)]
  rw [if_neg k1, if_neg k1]
  by_cases hk3 : k < 3
  · exact h k hk3
  · have : k = 3 := by omega
    subst this
    exact h3 rfl

/-- C150 (partial: with the setup of the last ensemble read for the whole file, and for the bottom track without regard to
bad beams): the velocities of a TRDI file in the earth frame are the recorded ones, turned by the attitude recorded in the
same ensemble, and by the declination of the userdata if the instrument had none. The heading in the dataset is the
recorded one plus this angle. -/
theorem rdi_earth_partial {env : RdEnv} {junk : RdName → ℕ → ℕ → ℕ → ℚ} {f : RdFixed} (hf : 0 < f.nCells)
    {cells nens n : ℕ} {es : List Spec.RdEns} (hok : ∀ e ∈ es, e.Ok f) {ds : RdDs}
    (h : RdDsOf env junk f cells es nens (.ok ds)) (hn : min nens (es.length - 1) = n + 1) {last : Spec.RdEns}
    (hlast : es[n]? = some last) {S : Spec.RdSetup} (hS : Spec.hasSetup last S) (h0 : 0 < S.theta) (h1 : S.theta < 90)
    (dec : Option ℝ) :
    ∃ d e vel hh, rdReadEnd dec ds = some (.ok d) ∧ d.coordSys = S.frame.toFrame ∧ d.heading = some hh ∧
      d.declination = dec.or (if S.magVar = 0 then none else some (S.magVar / 100)) ∧
      rotate2 3 .earth d = some (.ok e) ∧ e.coordSys = .earth ∧ e.vars[0]? = some vel ∧ vel.name = "vel" ∧ vel.n = 4 ∧
      (∀ i ei L w c, i ≤ n → es[i]? = some ei → Spec.hasLeader ei L → Spec.hasVel f ei w → c < f.nCells →
        (∀ j < (if S.frame = .beam then 4 else 3), w c j ≠ -32768) →
        ∃ t : RdT ds, t.1 = (some c, i) ∧
          hh t = (L.heading : ℝ) / 100 + (if S.magVar = 0 then dec.getD 0 else 0) ∧ ∀ k < 4, (k = 3 → w c 3 ≠ -32768) →
          vel.val t k = turnCW (if S.magVar = 0 then dec.getD 0 else 0)
            (Spec.trdiEarth S (L.heading / 100) (L.pitch / 100) (L.roll / 100) fun j => w c j / 1000) k) ∧
      ((∃ i, ∃ ei, i ≤ n ∧ es[i]? = some ei ∧ ∃ b ∈ ei.blks, b.id = 1536) →
        ∃ bt, e.vars[1]? = some bt ∧ bt.name = "vel_bt" ∧ bt.n = 4 ∧
        ∀ i ei L R, i ≤ n → es[i]? = some ei → Spec.hasLeader ei L → Spec.hasBottom ei R →
          ∃ t : RdT ds, t.1 = (none, i) ∧ ∀ k : Fin 4,
            bt.val t k = turnCW (if S.magVar = 0 then dec.getD 0 else 0)
              (Spec.trdiEarth S (L.heading / 100) (L.pitch / 100) (L.roll / 100)
                fun j => if hj : j < 4 then R.vel ⟨j, hj⟩ / 1000 else 0) k) := by
  obtain ⟨bS, hbS, hidS, ⟨exS, hplS⟩, hrS⟩ := hS
  have hcfg := rdi_config hf hok h hn hlast hbS hidS hplS hrS
  have hshape := rdi_shape hf hok h
  obtain ⟨o, ho, has⟩ := rdDsOf_spec hf hok h
  obtain ⟨-, -, -, -, -, -, -, hel, hrv, -⟩ := rdAssemble_ok has.symm
  have hnm := (rdAssemble_ok has.symm).2.1
  have hcells : f.nCells ≤ ds.cells := by rw [hshape.2.1]; exact (rdReadOf_cols hf hok ho).1
  have hwid : ds.width = n + 1 := by rw [hshape.1, hn]
  -- the leaders are there
  have hlead : ∀ nm, 128 = Spec.rdId nm → nm ≠ .pressure → nm ≠ .pressureStd → nm ∈ ds.names := by
    intro nm h128 hp1 hp2
    rw [rdi_names hf hok h]
    obtain ⟨fx, vr, rest, hb, -, hvid, -⟩ := (hok last (List.mem_of_getElem? hlast)).shape
    refine ⟨last, ?_, vr, by rw [hb]; simp, ?_⟩
    · rw [hn]
      refine List.mem_of_getElem? (i := n) ?_
      rw [List.getElem?_take_of_lt (by omega)]
      exact hlast
    · exact ⟨by rw [hvid]; exact h128, by tauto⟩
  have hpos := Real.pi_pos
  have hs : Real.sin (S.theta * Real.pi / 180) ≠ 0 :=
    (Real.sin_pos_of_pos_of_lt_pi (by positivity) (by nlinarith)).ne'
  have hc : Real.cos (S.theta * Real.pi / 180) ≠ 0 := by
    refine (Real.cos_pos_of_mem_Ioo ⟨?_, by nlinarith⟩).ne'
    have : 0 < S.theta * Real.pi / 180 := by positivity
    linarith
  have hmag : ((ds.cfg.magVar : ℚ) : ℝ) = S.magVar / 100 := by
    rw [hcfg]
    simp [Spec.RdSetup.cfg]
  have hmag0 : ((ds.cfg.magVar : ℚ) : ℝ) = 0 ↔ S.magVar = 0 := by
    rw [hmag]
    constructor
    · intro hz
      have : (S.magVar : ℝ) = 0 := by linarith
      exact_mod_cast this
    · intro hz
      rw [hz]
      norm_num
  obtain ⟨d, e, u1, u2, u3, u3', u4, u4', u5⟩ := rdi_decl_earth (ds := rdRDS dec ds) (m := fun t => rdOrientAt ds t.1.2)
    (B := rdBeamMat ds.cfg) (f := ds.cfg.frame) rfl rfl (fun t => (rdi_rotation ..).1) rfl rfl (by
      show (rdiBeamMat _ _ true).det ≠ 0
      rw [hcfg, rdi_beam_degrees, theta_cfg]
      exact rdi_beam_invertible _ _ hs hc) rfl (by
      intro v hv
      obtain ⟨nm, -, rfl⟩ := List.mem_map.mp hv
      rfl) rfl ((ds.cfg.magVar : ℚ) : ℝ)
  have hfr : ds.cfg.frame = S.frame := by rw [hcfg]; rfl
  have hE : ∀ (O : M3) (v : ℕ → ℝ), rdToEarthBy ds.cfg.frame (rdBeamMat ds.cfg).mat O v =
      rdToEarthBy S.frame (rdBeamMat S.cfg).mat O v := by
    intro O v
    rw [hcfg]
    rfl
  have hD : (if ((ds.cfg.magVar : ℚ) : ℝ) = 0 then (rdRDS dec ds).declination.getD 0 else 0) =
      (if S.magVar = 0 then dec.getD 0 else 0) := by
    simp only [hmag0]
    rfl
  have hval : ∀ (L : Spec.RdLeader) (i : ℕ) (ei : Spec.RdEns), i ≤ n → es[i]? = some ei → Spec.hasLeader ei L →
      rdOrientAt ds i = rdiOrient true S.up (decide (S.frame = .ship) && S.tilts) (L.heading / 100) (L.pitch / 100)
        (L.roll / 100) := by
    rintro L i ei hi hei ⟨b, hb, hid, ⟨ex, hpl⟩, hr⟩
    have hi' : i < min nens (es.length - 1) := by omega
    have a1 := rdi_leader_values hf hok ho hi' hei hb hid hpl hr (nm := .heading) (k := 0) rfl (by simp) junk
    have a2 := rdi_leader_values hf hok ho hi' hei hb hid hpl hr (nm := .pitch) (k := 0) rfl (by simp) junk
    have a3 := rdi_leader_values hf hok ho hi' hei hb hid hpl hr (nm := .roll) (k := 0) rfl (by simp) junk
    unfold rdOrientAt rdAngle
    rw [hel, hel, hel, a1, a2, a3, hcfg]
    simp [Spec.RdSetup.cfg]
  refine ⟨d, e, ⟨"vel", 4, fun t => turnCW (if S.magVar = 0 then dec.getD 0 else 0)
      (rdToEarthBy S.frame (rdBeamMat S.cfg).mat (rdOrientAt ds t.1.2) (rdVal ds .vel t))⟩,
    _, ?_, by rw [u2, hfr], u3', ?_, u4, ?_, ?_, rfl, rfl, ?_, ?_⟩
  · unfold rdReadEnd
    rw [if_pos ⟨hlead _ rfl (by decide) (by decide), hlead _ rfl (by decide) (by decide), hlead _ rfl (by decide) (by decide)⟩]
    exact u1
  · rw [u3, hmag]
    simp only [← hmag0, hmag]
    rfl
  · exact u4'
  · rw [u5, hD]
    show ((rdRDS dec ds).vars.map _)[0]? = _
    unfold rdRDS
    simp only
    rw [hrv]
    simp only [hE]
    rfl
  · intro i ei L w c hi hei hL hw hcc hknown
    obtain ⟨b, hb, hid, ⟨ex, hpl⟩, hr⟩ := hw
    have hlay : ∀ k < 4, ds.elem .vel k c i = if w c k = -32768 then none else some ((w c k : ℚ) / 1000) := fun k hk =>
      rdi_vel_layout hf hok h (by omega) hei hb hid hpl hr hcc hk
    have h4 : (if S.frame = .beam then 4 else 3) ≤ 4 := by split_ifs <;> omega
    refine ⟨⟨(some c, i), by show i < ds.width; omega, ⟨by omega, ?_⟩⟩, rfl, ?_, ?_⟩
    · intro k hk
      unfold rdNeeded at hk
      rw [hfr] at hk
      show (ds.elem .vel k c i).isSome
      rw [hlay k (by omega), if_neg (hknown k hk)]
      rfl
    · obtain ⟨b, hb, hid, ⟨ex, hpl⟩, hr⟩ := hL
      have a1 := rdi_leader_values hf hok ho (by omega) hei hb hid hpl hr (nm := .heading) (k := 0) rfl (by simp) junk
      show rdAngle ds .heading i +
        (if ((ds.cfg.magVar : ℚ) : ℝ) = 0 then (rdRDS dec ds).declination.getD 0 else 0) = _
      rw [hD]
      unfold rdAngle
      rw [hel, a1]
      simp
    · intro k hk h3
      simp only
      have hgen : ∀ j < 4, (j = 3 → w c 3 ≠ -32768) → rdToEarthBy S.frame (rdBeamMat S.cfg).mat (rdOrientAt ds i)
          (rdVal ds .vel ⟨(some c, i), by show i < ds.width; omega, ⟨by omega, by
            intro k hk
            unfold rdNeeded at hk
            rw [hfr] at hk
            show (ds.elem .vel k c i).isSome
            rw [hlay k (by omega), if_neg (hknown k hk)]
            rfl⟩⟩) j =
          Spec.trdiEarth S (L.heading / 100) (L.pitch / 100) (L.roll / 100) (fun j => w c j / 1000) j := by
        intro j hj hj3
        rw [hval L i ei hi hei hL, ← rdToEarthBy_trdi]
        refine rdToEarthBy_congr (le_refl _) ?_ hj ?_
        · intro q hq
          show (((ds.elem .vel q c i).getD 0 : ℚ) : ℝ) = _
          rw [hlay q (by omega), if_neg (hknown q hq)]
          simp
        · intro hq
          show (((ds.elem .vel 3 c i).getD 0 : ℚ) : ℝ) = _
          rw [hlay 3 (by omega), if_neg (hj3 hq)]
          simp
      exact turnCW_congr hk (fun j hj => hgen j (by omega) (by omega)) (fun hk3 => hgen 3 (by omega) (fun _ => h3 hk3))
  · rintro ⟨i0, e0, hi0, he0, b0, hb0, hid0⟩
    have hmem : RdName.velBt ∈ ds.names := by
      rw [rdi_names hf hok h]
      refine ⟨e0, ?_, b0, hb0, hid0, by simp⟩
      rw [hn]
      refine List.mem_of_getElem? (i := i0) ?_
      rw [List.getElem?_take_of_lt (by omega)]
      exact he0
    refine ⟨⟨"vel_bt", 4, fun t => turnCW (if S.magVar = 0 then dec.getD 0 else 0)
      (rdToEarthBy S.frame (rdBeamMat S.cfg).mat (rdOrientAt ds t.1.2) (rdVal ds .velBt t))⟩, ?_, rfl, rfl, ?_⟩
    · rw [u5, hD]
      show ((rdRDS dec ds).vars.map _)[1]? = _
      unfold rdRDS
      simp only
      rw [hrv, ← hnm, if_pos hmem]
      simp only [hE]
      rfl
    · intro i ei L R hi hei hL hR
      obtain ⟨b, hb, hid, ⟨lead, gap, ex, hl, hg, hpl⟩, hr⟩ := hR
      have hv : ∀ k : Fin 4, ds.elem .velBt k 0 i = some ((R.vel k : ℚ) / 1000) := by
        intro k
        rw [hel]
        exact rdi_bottom_values hf hok ho (by omega) hei hb hid hpl hl hg hr (nm := .velBt) (k := k) rfl junk
      have h4 : rdNeeded ds.cfg ≤ 4 := by unfold rdNeeded; split_ifs <;> omega
      obtain ⟨t, ht⟩ : ∃ t : RdT ds, t.1 = (none, i) := by
        refine ⟨⟨(none, i), by show i < ds.width; omega, ?_⟩, rfl⟩
        intro k hk
        show (ds.elem .velBt k 0 i).isSome
        rw [hv ⟨k, by omega⟩]
        rfl
      refine ⟨t, ht, fun k => ?_⟩
      have hti : t.1.2 = i := by rw [ht]
      have hfun : ∀ j < 4, rdVal ds .velBt t j = (if hj : j < 4 then (R.vel ⟨j, hj⟩ : ℝ) / 1000 else 0) := by
        intro j hj
        rw [dif_pos hj]
        unfold rdVal
        rw [ht]
        simp only
        rw [hv ⟨j, hj⟩]
        simp
      have hgen : ∀ j < 4, rdToEarthBy S.frame (rdBeamMat S.cfg).mat (rdOrientAt ds t.1.2) (rdVal ds .velBt t) j =
          Spec.trdiEarth S (L.heading / 100) (L.pitch / 100) (L.roll / 100)
            (fun j => if hj : j < 4 then (R.vel ⟨j, hj⟩ : ℝ) / 1000 else 0) j := by
        intro j hj
        rw [hti, hval L i ei hi hei hL, ← rdToEarthBy_trdi]
        exact rdToEarthBy_congr (le_refl _) (fun q hq => hfun q (by split_ifs at hq <;> omega)) hj
          (fun _ => hfun 3 (by omega))
      exact turnCW_congr k.isLt (fun j hj => hgen j (by omega)) (fun _ => hgen 3 (by omega))

/-! ### Files for which the property fails -/

/-- A level instrument heading north. -/
def exLevel : Spec.RdLeader := { exLeader with heading := 0, pitch := 0, roll := 0, clock2 := ![21, 12, 4, 5, 6, 7, 8] }

/-- The instrument of `exSetup`, looking up or down, recording in its own axes. -/
def exUp (up : Bool) : Spec.RdSetup := { exSetup with up := up, frame := .inst, tilts := false }

/-- An ensemble of that instrument with a bottom track whose third component is bad. -/
def exEnsU (up : Bool) : Spec.RdEns :=
  ⟨0, [⟨0, Spec.record (exUp up).fields ++ [0, 0]⟩, ⟨128, Spec.record exLevel.fields ++ [0, 0]⟩,
    ⟨256, Spec.cellRecord .h 2 exVel ++ []⟩,
    ⟨1536, List.replicate 14 0 ++ (Spec.record exBottom.fields ++ (List.replicate 33 0 ++
      (Spec.record exBottom.high ++ [0, 0, 0, 0, 0, 0])))⟩], [0, 0, 9, 9]⟩

set_option maxRecDepth 10000 in
theorem exEnsU_ok (up : Bool) : (exEnsU up).Ok ⟨16, 1628, 2⟩ where
  tail := rfl
  small := by revert up; decide +kernel
  count := by revert up; decide +kernel
  shape := by
    refine ⟨_, _, _, rfl, ?_, rfl, by revert up; decide +kernel, ?_⟩
    · unfold Spec.rdFixedBlk; revert up; decide +kernel
    · intro b hb
      fin_cases hb
      · exact ⟨by decide, 16, by decide, by decide +kernel⟩
      · exact ⟨by decide, 83, by decide, by decide +kernel⟩

/-- An instrument that is turned over: it looks up in the first ensemble, and down in the others. -/
def exFileU : List Spec.RdEns := [exEnsU true, exEnsU false, exEnsU false]

theorem exFileU_ok : ∀ e ∈ exFileU, e.Ok ⟨16, 1628, 2⟩ := by
  intro e he
  unfold exFileU at he
  fin_cases he <;> exact exEnsU_ok _

theorem exUp_has (up : Bool) : Spec.hasSetup (exEnsU up) (exUp up) :=
  ⟨⟨0, Spec.record (exUp up).fields ++ [0, 0]⟩, by simp [exEnsU], rfl, ⟨[0, 0], rfl⟩, by revert up; decide +kernel⟩

theorem exLevel_has (up : Bool) : Spec.hasLeader (exEnsU up) exLevel :=
  ⟨⟨128, Spec.record exLevel.fields ++ [0, 0]⟩, by simp [exEnsU], rfl, ⟨[0, 0], rfl⟩, by decide +kernel⟩

theorem exVel_has (up : Bool) : Spec.hasVel ⟨16, 1628, 2⟩ (exEnsU up) exVel :=
  ⟨⟨256, Spec.cellRecord .h 2 exVel ++ []⟩, ⟨[_, _], [_], rfl, by simp⟩, rfl, ⟨[], rfl⟩, by decide +kernel⟩

theorem exBottom_has (up : Bool) : Spec.hasBottom (exEnsU up) exBottom :=
  ⟨_, ⟨[_, _, _], [], rfl, by simp⟩, rfl, ⟨_, _, _, by simp, by simp, rfl⟩, by decide +kernel⟩

theorem exFileU_read (junk : RdName → ℕ → ℕ → ℕ → ℚ) :
    ∃ ds, RdDsOf rdYes junk ⟨16, 1628, 2⟩ 2 exFileU 10 (.ok ds) := by
  obtain ⟨t, m, o, h1, h2⟩ := rdi_reads_columns (env := rdYes) (nens := 10) (f := ⟨16, 1628, 2⟩) (by decide)
    exFileU_ok (s := exStart) rfl exStart_between
  have hr : RdDsOf rdYes junk ⟨16, 1628, 2⟩ 2 exFileU 10 (rdAssemble junk (ensCells t.ens) m o) := by
    refine ⟨2, exStart, le_refl _, rfl, exStart_between, ?_⟩
    unfold rdReadDs
    rw [h1]
  obtain ⟨ds, hds⟩ := rdi_opens (f := ⟨16, 1628, 2⟩) (by decide) exFileU_ok hr (n := 1) rfl (e := exEnsU false) rfl
    (b := ⟨0, Spec.record (exUp false).fields ++ [0, 0]⟩) (by simp [exEnsU]) rfl rfl (by decide +kernel)
    (e0 := exEnsU true) rfl (b0 := ⟨128, Spec.record exLevel.fields ++ [0, 0]⟩) (by simp [exEnsU]) rfl rfl
    (by decide +kernel) ⟨2021, 12, 4, 5, 6, 7⟩ 8 (by decide +kernel) (by decide +kernel) (by decide +kernel)
    (by decide +kernel) (by decide +kernel) (by decide +kernel) (by decide +kernel) (by decide +kernel) (by decide)
  exact ⟨ds, hds ▸ hr⟩

theorem exLevel_up (up : Bool) (v : ℕ → ℝ) :
    Spec.trdiEarth (exUp up) ((exLevel.heading : ℤ) / 100) ((exLevel.pitch : ℤ) / 100) ((exLevel.roll : ℤ) / 100) v 2 =
      if up then -v 2 else v 2 := by
  have e1 : (exLevel.heading : ℤ) = 0 := rfl
  have e2 : (exLevel.pitch : ℤ) = 0 := rfl
  have e3 : (exLevel.roll : ℤ) = 0 := rfl
  rw [e1, e2, e3]
  have g : Spec.trdiPitch ((0 : ℤ) / 100) ((0 : ℤ) / 100) = 0 := by simp [Spec.trdiPitch]
  have h1 : (180 : ℝ) * Real.pi / 180 = Real.pi := by ring
  have h2 : (90 : ℝ) * Real.pi / 180 = Real.pi / 2 := by ring
  unfold Spec.trdiEarth
  rw [show (exUp up).frame = .inst from rfl, show (exUp up).up = up from rfl]
  simp only [g]
  cases up <;> simp [Spec.trdiAttitude, compassVec, sind, cosd, h1, h2]

/-- C150 (refuted): of an instrument that is turned over, the ensembles recorded before show up as down: here the water
moves up at 2 cm/s according to the setup recorded in the first ensemble, and the dataset says down. -/
theorem rdi_earth_setup_false (junk : RdName → ℕ → ℕ → ℕ → ℚ) :
    ∃ (es : List Spec.RdEns) (f : RdFixed) (ds : RdDs) (e0 : Spec.RdEns) (S : Spec.RdSetup) (L : Spec.RdLeader)
      (w : ℕ → ℕ → ℤ) (d e : RDS (RdT ds)) (vel : RVar (RdT ds)) (t : RdT ds),
      (∀ x ∈ es, x.Ok f) ∧ RdDsOf rdYes junk f 2 es 10 (.ok ds) ∧ es[0]? = some e0 ∧ Spec.hasSetup e0 S ∧
      Spec.hasLeader e0 L ∧ Spec.hasVel f e0 w ∧ rdReadEnd none ds = some (.ok d) ∧
      rotate2 3 .earth d = some (.ok e) ∧ e.vars[0]? = some vel ∧ t.1 = (some 0, 0) ∧
      vel.val t 2 = -(1 / 50) ∧
      Spec.trdiEarth S (L.heading / 100) (L.pitch / 100) (L.roll / 100) (fun j => w 0 j / 1000) 2 = 1 / 50 := by
  obtain ⟨ds, hds⟩ := exFileU_read junk
  have hth : (exUp false).theta = 20 := by
    unfold Spec.RdSetup.theta
    rw [if_pos (by decide)]
    norm_num [exUp, exSetup]
  obtain ⟨d, e, vel, hh, h1, -, -, -, h2, -, h3, -, -, h4, -⟩ := rdi_earth_partial (f := ⟨16, 1628, 2⟩) (by decide) exFileU_ok hds
    (n := 1) rfl (last := exEnsU false) rfl (exUp_has false) (by rw [hth]; norm_num) (by rw [hth]; norm_num) none
  obtain ⟨t, ht, -, hv⟩ := h4 0 (exEnsU true) exLevel exVel 0 (by omega) rfl (exLevel_has true) (exVel_has true) (by decide)
    (by rw [if_neg (by decide)]; decide)
  refine ⟨exFileU, ⟨16, 1628, 2⟩, ds, exEnsU true, exUp true, exLevel, exVel, d, e, vel, t, exFileU_ok, hds, rfl, exUp_has true,
    exLevel_has true, exVel_has true, h1, h2, h3, ht, ?_, ?_⟩
  · rw [hv 2 (by omega) (by omega), show (if (exUp false).magVar = 0 then (none : Option ℝ).getD 0 else 0) = (0 : ℝ) from rfl,
      turnCW_zero, exLevel_up]
    norm_num [exVel]
  · rw [exLevel_up]
    norm_num [exVel]

/-- C150 (refuted): the bottom velocity is given, and turned, although the instrument marked it as bad. -/
theorem rdi_earth_bottom_false (junk : RdName → ℕ → ℕ → ℕ → ℚ) :
    ∃ (es : List Spec.RdEns) (f : RdFixed) (ds : RdDs) (e1 : Spec.RdEns) (R : Spec.RdBottom)
      (d e : RDS (RdT ds)) (bt : RVar (RdT ds)) (t : RdT ds),
      (∀ x ∈ es, x.Ok f) ∧ RdDsOf rdYes junk f 2 es 10 (.ok ds) ∧ es[1]? = some e1 ∧
      Spec.hasBottom e1 R ∧ R.vel 2 = -32768 ∧ rdReadEnd none ds = some (.ok d) ∧
      rotate2 3 .earth d = some (.ok e) ∧ e.vars[1]? = some bt ∧ bt.name = "vel_bt" ∧ t.1 = (none, 1) ∧
      bt.val t 2 = -32.768 := by
  obtain ⟨ds, hds⟩ := exFileU_read junk
  have hth : (exUp false).theta = 20 := by
    unfold Spec.RdSetup.theta
    rw [if_pos (by decide)]
    norm_num [exUp, exSetup]
  obtain ⟨d, e, vel, hh, h1, -, -, -, h2, -, -, -, -, -, h5⟩ := rdi_earth_partial (f := ⟨16, 1628, 2⟩) (by decide) exFileU_ok hds
    (n := 1) rfl (last := exEnsU false) rfl (exUp_has false) (by rw [hth]; norm_num) (by rw [hth]; norm_num) none
  obtain ⟨bt, h6, h7, -, h8⟩ := h5 ⟨1, exEnsU false, le_refl _, rfl, _, by
    show _ ∈ [_, _, _, _]
    exact List.mem_cons_of_mem _ (List.mem_cons_of_mem _ (List.mem_cons_of_mem _ (List.mem_cons_self ..))), rfl⟩
  obtain ⟨t, ht, hv⟩ := h8 1 (exEnsU false) exLevel exBottom (le_refl _) rfl (exLevel_has false) (exBottom_has false)
  refine ⟨exFileU, ⟨16, 1628, 2⟩, ds, exEnsU false, exBottom, d, e, bt, t, exFileU_ok, hds, rfl, exBottom_has false, rfl,
    h1, h2, h6, h7, ht, ?_⟩
  have := hv 2
  rw [show ((2 : Fin 4) : ℕ) = 2 from rfl] at this
  rw [this, show (if (exUp false).magVar = 0 then (none : Option ℝ).getD 0 else 0) = (0 : ℝ) from rfl,
      turnCW_zero, exLevel_up]
  norm_num [exBottom]

/-- Non-vacuity of `rdi_earth_partial` with a declination: due north becomes 10° east of north. -/
example (junk : RdName → ℕ → ℕ → ℕ → ℚ) : ∃ (ds : RdDs) (d e : RDS (RdT ds)) (vel : RVar (RdT ds)) (t : RdT ds),
    RdDsOf rdYes junk ⟨16, 1628, 2⟩ 2 exFileU 10 (.ok ds) ∧ rdReadEnd (some 10) ds = some (.ok d) ∧
    d.declination = some 10 ∧ rotate2 3 .earth d = some (.ok e) ∧ e.vars[0]? = some vel ∧ t.1 = (some 0, 1) ∧
    vel.val t 2 = -(1 / 50) ∧ vel.val t 3 = -(3 / 100) := by
  obtain ⟨ds, hds⟩ := exFileU_read junk
  have hth : (exUp false).theta = 20 := by
    unfold Spec.RdSetup.theta
    rw [if_pos (by decide)]
    norm_num [exUp, exSetup]
  obtain ⟨d, e, vel, hh, h1, -, -, hd, h2, -, h3, -, -, h4, -⟩ := rdi_earth_partial (f := ⟨16, 1628, 2⟩) (by decide) exFileU_ok hds
    (n := 1) rfl (last := exEnsU false) rfl (exUp_has false) (by rw [hth]; norm_num) (by rw [hth]; norm_num) (some 10)
  obtain ⟨t, ht, -, hv⟩ := h4 1 (exEnsU false) exLevel exVel 0 (by omega) rfl (exLevel_has false) (exVel_has false) (by decide)
    (by rw [if_neg (by decide)]; decide)
  refine ⟨ds, d, e, vel, t, hds, h1, hd, h2, h3, ht, ?_, ?_⟩
  · rw [hv 2 (by omega) (by omega)]
    unfold Spec.turnCW
    rw [if_neg (by omega), if_neg (by omega), exLevel_up]
    norm_num [exVel]
  · rw [hv 3 (by omega) (by decide)]
    unfold Spec.turnCW
    rw [if_neg (by omega), if_neg (by omega)]
    unfold Spec.trdiEarth
    rw [show (exUp false).frame = .inst from rfl]
    simp only [Spec.trdiAttitude]
    norm_num [exVel]

end Dolfyn
