import Verif.Props.Rotate

/-! Properties C06, C09, C10, C12 of the rotation code. -/

namespace Dolfyn

open Spec

variable {T : Type}

/-! ### C06 -/

theorem oneStep_normSq3 {k : ℕ} {r : Bool} {ds ds' : RDS T} (hk : k ≠ 0) (hr : Rotatable ds)
    (h3 : ds.inst = .signature → ∀ v ∈ ds.vars, v.n = 3) (h : oneStep ds (k, r) = .ok ds') :
    List.Forall₂ (fun v v' => v'.name = v.name ∧ ∀ t, normSq3 (v'.val t) = normSq3 (v.val t))
      ds.vars ds'.vars := by
  match k with
  | 0 => exact absurd rfl hk
  | 1 =>
    obtain ⟨_, _, m, hm, _, vs, hvs, rfl⟩ := inst2earth_iff.mp h
    have ho := hr.omat m (effOmat_uses hm)
    have ho' : ∀ t, Orthonormal (m t).transpose := by
      intro t; unfold Orthonormal; rw [Matrix.transpose_transpose]; exact orth_comm (ho t)
    have hsg : Orthonormal sign3 := by
      unfold Orthonormal
      rw [show sign3.transpose = sign3 from Matrix.diagonal_transpose _, sign3_mul_self]
    have hmul : ∀ {A B : M3}, Orthonormal A → Orthonormal B → Orthonormal (A * B) := by
      intro A B hA hB
      unfold Orthonormal at *
      rw [Matrix.transpose_mul, Matrix.mul_assoc, ← Matrix.mul_assoc B, hB, Matrix.one_mul, hA]
    have hf2 := mapM_forall₂ hvs
    have hf3 : List.Forall₂ (fun v v' => v ∈ ds.vars ∧ i2eVar ds.inst r ds.down m v = .ok v')
        ds.vars vs := by
      have := List.forall₂_iff_zip.mp hf2
      refine List.forall₂_iff_zip.mpr ⟨this.1, ?_⟩
      intro a b hab
      exact ⟨(List.of_mem_zip hab).1, this.2 hab⟩
    refine hf3.imp ?_
    rintro v v' ⟨hv, hvv⟩
    refine ⟨(i2eVar_shape hvv).2, ?_⟩
    intro t
    unfold i2eVar at hvv
    cases hi : ds.inst <;> simp only [hi] at hvv
    · obtain ⟨_, rfl⟩ := ite_err_ok.mp hvv
      apply applyM3_normSq
      cases r
      · exact ho' t
      · exact ho t
    · obtain ⟨_, rfl⟩ := ite_err_ok.mp hvv
      apply applyM3_normSq
      cases r
      · exact ho' t
      · exact ho t
    · rw [if_pos (h3 hi v hv)] at hvv
      cases hvv
      apply applyM3_normSq
      unfold sigMat3
      cases r <;> cases ds.down <;> simp
      · exact ho' t
      · exact hmul (ho' t) hsg
      · exact ho t
      · exact hmul hsg (ho t)
    · obtain ⟨_, rfl⟩ := ite_err_ok.mp hvv
      apply applyM3_normSq
      cases r
      · exact ho' t
      · exact ho t
    · cases hvv
  | 2 =>
    obtain ⟨ph, _, _, vs, hvs, rfl⟩ := earth2principal_iff.mp h
    refine (mapM_forall₂ hvs).imp ?_
    intro v v' hv
    by_cases h2 : v.n < 2
    · rw [if_pos h2] at hv; cases hv
    · rw [if_neg h2] at hv
      cases hv
      refine ⟨rfl, ?_⟩
      intro t
      have h := applyM2_normSq (if r then deg2rad (90 - ph) else -deg2rad (90 - ph)) (v.val t)
      have e2 := h.2 2 le_rfl
      have e1 := h.1
      simp only [normSq2] at e1
      simp only [normSq3, RVar.rot]
      rw [e2]; linarith
  | k + 3 => cases h

/-- **C06.** Rotating between inst, earth and principal in any direction keeps the length of every
three-component vector at every sample (for RDI the first three components of a four-component velocity).
For the four-component Signature velocity see C12. -/
theorem rotate2_preserves_speed {fuel : ℕ} (hfuel : 3 ≤ fuel) {out : Frame} {ds ds' : RDS T}
    {i j : ℕ} (hi : Pos ds.coordSys i) (ho : Pos out j) (hi1 : 1 ≤ i) (hj1 : 1 ≤ j)
    (hr : Rotatable ds) (h3 : ds.inst = .signature → ∀ v ∈ ds.vars, v.n = 3)
    (h : rotate2 fuel out ds = some (.ok ds')) :
    List.Forall₂ (fun v v' => v'.name = v.name ∧ ∀ t, normSq3 (v'.val t) = normSq3 (v.val t))
      ds.vars ds'.vars := by
  obtain ⟨hu, b, hb⟩ := rotate2_ok_checks h
  rw [rotate2_eq fuel ds hi ho hfuel hu hb] at h
  replace h := Option.some.inj h
  have hmem : ∀ s ∈ steps i j, s.1 ≠ 0 := by
    intro s hs
    unfold steps at hs
    split_ifs at hs
    · simp only [List.mem_map, List.mem_range'] at hs
      obtain ⟨a, ⟨c, _, rfl⟩, rfl⟩ := hs
      simp only; omega
    · simp only [List.mem_map, List.mem_reverse, List.mem_range'] at hs
      obtain ⟨a, ⟨c, _, rfl⟩, rfl⟩ := hs
      simp only; omega
  have hship := hi.ne_ship
  generalize steps i j = l at h hmem
  clear hi ho hu hb
  induction l generalizing ds with
  | nil => cases h; rw [List.forall₂_same]; intro v _; exact ⟨rfl, fun _ => rfl⟩
  | cons s l ih =>
    simp only [List.foldlM_cons, bind, Except.bind] at h
    split at h
    · cases h
    · rename_i d hd
      obtain ⟨k, r⟩ := s
      obtain ⟨_, hs⟩ := oneStep_undo hr hship hd
      have n1 := oneStep_normSq3 (hmem (k, r) (by simp)) hr h3 hd
      have n2 := ih (Rotatable.of_same hs hr) (by
        intro hsg v' hv'
        obtain ⟨v, hv, hn, _⟩ := forall₂_mem (oneStep_shapes hd) v' hv'
        rw [hn]; exact h3 (by rw [← hs.inst_eq]; exact hsg) v hv)
        (oneStep_frame hd).1.ne_ship h (fun s hs => hmem s (by simp [hs]))
      clear ih h hd hs h3 hr
      generalize ds.vars = A at n1
      generalize d.vars = B at n1 n2
      generalize ds'.vars = C at n2
      induction n1 generalizing C with
      | nil => cases n2; exact .nil
      | cons h1 _ ih =>
        cases n2 with
        | cons h2 t2 =>
          exact .cons ⟨by rw [h2.1, h1.1], fun t => by rw [h2.2, h1.2]⟩ (ih _ t2)

/-- **C06.** Rotating between earth and principal keeps the horizontal speed and does not touch the other
components, for any principal heading and with no assumption on the matrices. -/
theorem rotate2_principal_horizontal {fuel : ℕ} (hfuel : 3 ≤ fuel) {ds ds' : RDS T} {f g : Frame}
    (hfg : f = .earth ∧ g = .principal ∨ f = .principal ∧ g = .earth)
    (hf : ds.coordSys = f) (h : rotate2 fuel g ds = some (.ok ds')) :
    List.Forall₂ (fun v v' => v'.name = v.name ∧ ∀ t, normSq2 (v'.val t) = normSq2 (v.val t) ∧
      ∀ i, 2 ≤ i → v'.val t i = v.val t i) ds.vars ds'.vars := by
  obtain ⟨hu, b, hb⟩ := rotate2_ok_checks h
  obtain ⟨r, hstep⟩ : ∃ r, earth2principal r ds = .ok ds' := by
    rcases hfg with ⟨rfl, rfl⟩ | ⟨rfl, rfl⟩
    · rw [rotate2_eq (i := 2) (j := 3) fuel ds (by rw [hf]; exact .earth) .principal hfuel hu hb,
        show steps 2 3 = [(2, false)] by decide] at h
      replace h := Option.some.inj h
      simp only [List.foldlM_cons, List.foldlM_nil, oneStep, bind, Except.bind] at h
      split at h
      · cases h
      · rename_i d hd; cases h; exact ⟨false, hd⟩
    · rw [rotate2_eq (i := 3) (j := 2) fuel ds (by rw [hf]; exact .principal) .earth hfuel hu hb,
        show steps 3 2 = [(2, true)] by decide] at h
      replace h := Option.some.inj h
      simp only [List.foldlM_cons, List.foldlM_nil, oneStep, bind, Except.bind] at h
      split at h
      · cases h
      · rename_i d hd; cases h; exact ⟨true, hd⟩
  obtain ⟨ph, _, _, vs, hvs, rfl⟩ := earth2principal_iff.mp hstep
  refine (mapM_forall₂ hvs).imp ?_
  intro v v' hv
  by_cases h2 : v.n < 2
  · rw [if_pos h2] at hv; cases hv
  · rw [if_neg h2] at hv
    cases hv
    exact ⟨rfl, fun t => applyM2_normSq _ _⟩

/-- Non-vacuity of C06. -/
example : ∃ ds', rotate2 3 .principal (exDS .inst) = some (.ok ds') ∧
    List.Forall₂ (fun v v' => v'.name = v.name ∧ ∀ t, normSq3 (v'.val t) = normSq3 (v.val t))
      (exDS .inst).vars ds'.vars := by
  obtain ⟨ds', h, _⟩ := rotate2_succeeds (fuel := 3) le_rfl (ds := exDS .inst) .inst .principal
    (exDS_rotatable _) (exDS_complete _)
  exact ⟨ds', h, rotate2_preserves_speed le_rfl (ds := exDS .inst) .inst .principal (by decide) (by decide)
    (exDS_rotatable _) (by intro h; cases h) h⟩

/-! ### C09 -/

/-- Clockwise turn of the horizontal components by `angle` degrees. -/
noncomputable def Spec.turnCW (angle : ℝ) (v : ℕ → ℝ) : ℕ → ℝ := fun i =>
  if i = 0 then Real.cos (angle * Real.pi / 180) * v 0 + Real.sin (angle * Real.pi / 180) * v 1
  else if i = 1 then - Real.sin (angle * Real.pi / 180) * v 0 + Real.cos (angle * Real.pi / 180) * v 1
  else v i

theorem applyM_cw (angle : ℝ) (v : ℕ → ℝ) : applyM (cw angle) v = turnCW angle v := by
  have e : deg2rad angle = angle * Real.pi / 180 := by unfold deg2rad; ring
  funext i
  match i with
  | 0 => simp [applyM, cw, rot2, turnCW, e, Fin.sum_univ_two]
  | 1 => simp [applyM, cw, rot2, turnCW, e, Fin.sum_univ_two]
  | i + 2 => simp [applyM, turnCW]

theorem rot_cw (v : RVar T) (angle : ℝ) :
    v.rot (fun _ => cw angle) = { v with val := fun t => turnCW angle (v.val t) } := by
  unfold RVar.rot
  congr 1
  funext t
  exact applyM_cw _ _

/-- The change of declination a call asks for: the new value minus the old one (zero if never set). -/
noncomputable def Spec.declChange (declin : ℝ) (ds : RDS T) : ℝ := declin - ds.declination.getD 0

theorem decAngle_eq (declin : ℝ) (ds : RDS T) : decAngle declin ds = declChange declin ds := by
  unfold decAngle declChange
  cases ds.declination <;> simp

/-- **C09.** After `set_declination(d)`, whatever chain frame the dataset is in, the earth-frame data it
rotates to is the earth-frame data it rotated to before, turned clockwise by the change of
declination; the frame the data is in is unchanged. -/
theorem set_declination_turns_earth {fuel : ℕ} (hfuel : 3 ≤ fuel) {d : ℝ} {ds e : RDS T} {i : ℕ}
    (hi : Pos ds.coordSys i) (hr : Rotatable ds) (hm : ds.orientmat ≠ none)
    (hinst : ds.coordSys = .earth → ∃ d1, rotate2 fuel .inst ds = some (.ok d1))
    (he : rotate2 fuel .earth ds = some (.ok e)) :
    ∃ ds' e', setDeclination fuel d ds = some (.ok ds') ∧ ds'.coordSys = ds.coordSys ∧
      rotate2 fuel .earth ds' = some (.ok e') ∧
      e'.vars = e.vars.map (fun v =>
        { v with val := fun t => turnCW (declChange d ds) (v.val t) }) := by
  obtain ⟨m, hm⟩ := Option.ne_none_iff_exists'.mp hm
  obtain ⟨hu, b, hb⟩ := rotate2_ok_checks he
  rw [← decAngle_eq]
  simp only [← rot_cw]
  set A := decAngle d ds with hA
  rw [rotate2_eq fuel ds hi .earth hfuel hu hb] at he
  replace he := Option.some.inj he
  generalize hcs : ds.coordSys = f at hi
  cases hi
  case beam =>
    rw [show steps 0 2 = [(0, false), (1, false)] by decide] at he
    simp only [List.foldlM_cons, List.foldlM_nil, oneStep, bind, Except.bind] at he
    split at he
    · cases he
    · rename_i d1 hd1
      split at he
      · cases he
      · rename_i d2 hd2
        cases he
        have hs := (beam2inst_frame hd1).2.1
        have hm1 : d1.orientmat = some m := by
          have := congrArg RDS.orientmat hs
          simp only at this
          rw [← this, hm]
        have key := rotate2_eq (i := 0) (j := 2) fuel (decUpd (decAngle d ds) d m ds)
            (by show Pos ds.coordSys 0; rw [hcs]; exact .beam) .earth hfuel hu hb
        rw [show steps 0 2 = [(0, false), (1, false)] by decide] at key
        simp only [List.foldlM_cons, List.foldlM_nil, oneStep, bind, Except.bind, decUpd] at key
        rw [beam2inst_upd _ _ _ _ hd1] at key
        simp only at key
        rw [inst2earth_dec (declin := d) hm1 hd2] at key
        exact ⟨_, _, setDeclination_not_earth (by rw [hcs]; decide) hm, hcs, key, rfl⟩
  case inst =>
    rw [show steps 1 2 = [(1, false)] by decide] at he
    simp only [List.foldlM_cons, List.foldlM_nil, oneStep, bind, Except.bind] at he
    split at he
    · cases he
    · rename_i d2 hd2
      cases he
      have key := rotate2_eq (i := 1) (j := 2) fuel (decUpd (decAngle d ds) d m ds)
          (by show Pos ds.coordSys 1; rw [hcs]; exact .inst) .earth hfuel hu hb
      rw [show steps 1 2 = [(1, false)] by decide] at key
      simp only [List.foldlM_cons, List.foldlM_nil, oneStep, bind, Except.bind, decUpd] at key
      rw [inst2earth_dec (declin := d) hm hd2] at key
      exact ⟨_, _, setDeclination_not_earth (by rw [hcs]; decide) hm, hcs, key, rfl⟩
  case earth =>
    rw [show steps 2 2 = [] by decide] at he
    cases he
    obtain ⟨d1, hd1⟩ := hinst hcs
    rw [rotate2_eq (i := 2) (j := 1) fuel ds (by rw [hcs]; exact .earth) .inst hfuel hu hb,
      show steps 2 1 = [(1, true)] by decide] at hd1
    replace hd1 := Option.some.inj hd1
    simp only [List.foldlM_cons, List.foldlM_nil, oneStep, bind, Except.bind] at hd1
    split at hd1
    · cases hd1
    · rename_i d1' hd1'
      cases hd1
      have key := rotate2_eq (i := 2) (j := 2) fuel
          { decUpd (decAngle d ds) d m ds with
            vars := ds.vars.map fun v => v.rot fun _ => cw (decAngle d ds) }
          (by show Pos ds.coordSys 2; rw [hcs]; exact .earth) .earth hfuel hu hb
      rw [show steps 2 2 = [] by decide] at key
      exact ⟨_, _, setDeclination_earth hfuel hr hcs hm hb hd1', hcs, key, rfl⟩
  case principal =>
    rw [show steps 3 2 = [(2, true)] by decide] at he
    simp only [List.foldlM_cons, List.foldlM_nil, oneStep, bind, Except.bind] at he
    split at he
    · cases he
    · rename_i d2 hd2
      cases he
      obtain ⟨ph, hph, hc2, vs, hvs, rfl⟩ := earth2principal_iff.mp hd2
      have hvs' : ds.vars.mapM (fun v => if v.n < 2 then Except.error Err.valueError else
          Except.ok (v.rot fun _ => rot2 (if true then deg2rad (90 - (ph + A)) else -deg2rad (90 - (ph + A)))))
          = .ok (vs.map fun v => v.rot fun _ => cw A) := by
        clear hd2 hinst
        generalize ds.vars = l at hvs
        induction l generalizing vs with
        | nil => simp only [List.mapM_nil] at hvs; cases hvs; rfl
        | cons a l ih =>
          simp only [List.mapM_cons, bind, Except.bind] at hvs
          split at hvs
          · cases hvs
          · rename_i b' hb'
            split at hvs
            · cases hvs
            · rename_i bs hbs
              cases hvs
              by_cases h2 : a.n < 2
              · rw [if_pos h2] at hb'; cases hb'
              · rw [if_neg h2] at hb'
                cases hb'
                rw [List.mapM_cons, if_neg h2, ih _ hbs]
                simp only [pure, Except.pure, bind, Except.bind, List.map_cons, if_true]
                congr 2
                rw [RVar.rot_rot]
                congr 1
                funext _
                unfold cw
                rw [rot2_add]
                congr 1
                unfold deg2rad; ring
      have key := rotate2_eq (i := 3) (j := 2) fuel (decUpd (decAngle d ds) d m ds)
          (by show Pos ds.coordSys 3; rw [hcs]; exact .principal) .earth hfuel hu hb
      rw [show steps 3 2 = [(2, true)] by decide] at key
      simp only [List.foldlM_cons, List.foldlM_nil, oneStep, bind, Except.bind] at key
      rw [(earth2principal_iff (ds := decUpd (decAngle d ds) d m ds)).mpr ⟨ph + A, by simp [decUpd, hph, hA], by simp [decUpd, hcs], _, hvs', rfl⟩] at key
      exact ⟨_, _, setDeclination_not_earth (by rw [hcs]; decide) hm, hcs, key, rfl⟩

/-- Non-vacuity of C09: the example dataset (declination 10 before) in every frame. -/
example (f : Frame) (i : ℕ) (hi : Pos f i) (d : ℝ) :
    ∃ e ds' e', rotate2 3 .earth (exDS f) = some (.ok e) ∧
      setDeclination 3 d (exDS f) = some (.ok ds') ∧ rotate2 3 .earth ds' = some (.ok e') ∧
      e'.vars = e.vars.map (fun v => { v with val := fun t => turnCW (d - 10) (v.val t) }) := by
  obtain ⟨e, he, _⟩ := rotate2_succeeds (fuel := 3) le_rfl (ds := exDS f) hi .earth
    (exDS_rotatable _) (exDS_complete _)
  obtain ⟨ds', e', h1, _, h2, h3⟩ := set_declination_turns_earth (d := d) le_rfl (ds := exDS f) hi
    (exDS_rotatable _) (by simp [exDS]) (fun _ => by
      obtain ⟨d1, h, _⟩ := rotate2_succeeds (fuel := 3) le_rfl (ds := exDS f) hi .inst
        (exDS_rotatable _) (exDS_complete _)
      exact ⟨d1, h⟩) he
  exact ⟨e, ds', e', he, h1, h2, h3⟩

theorem decUpd_decUpd (a b d1 d2 : ℝ) (m : T → M3) (ds : RDS T) :
    decUpd b d2 (fun t => m t * (rotDec a).transpose) (decUpd a d1 m ds) = decUpd (a + b) d2 m ds := by
  unfold decUpd
  ext1 <;> try rfl
  · simp only
    congr 1
    funext t
    rw [Matrix.mul_assoc, ← Matrix.transpose_mul, rotDec_add, add_comm b a]
  · simp only
    cases ds.principalHeading <;> simp [add_assoc]
  · simp only
    cases ds.heading <;> simp [add_assoc]

/-- **C09.** Setting the declination twice is the same as setting the last value only: the resulting
datasets are equal in every respect. Taking `d1 = d2` this says that setting the same value
again changes nothing. -/
theorem set_declination_last_wins {fuel : ℕ} (hfuel : 3 ≤ fuel) {d1 d2 : ℝ} {ds ds1 : RDS T} {i : ℕ}
    (hi : Pos ds.coordSys i) (hr : Rotatable ds) (hm : ds.orientmat ≠ none)
    (hinst : ds.coordSys = .earth → ∃ x, rotate2 fuel .inst ds = some (.ok x))
    (h1 : setDeclination fuel d1 ds = some (.ok ds1)) :
    setDeclination fuel d2 ds1 = setDeclination fuel d2 ds := by
  obtain ⟨m, hm⟩ := Option.ne_none_iff_exists'.mp hm
  have hang : decAngle d1 ds + (d2 - d1) = decAngle d2 ds := by
    rw [decAngle_eq, decAngle_eq]; unfold declChange; ring
  by_cases he : ds.coordSys = .earth
  · obtain ⟨x, hx⟩ := hinst he
    obtain ⟨hu, b, hb⟩ := rotate2_ok_checks hx
    rw [rotate2_eq (i := 2) (j := 1) fuel ds (by rw [he]; exact .earth) .inst hfuel hu hb,
      show steps 2 1 = [(1, true)] by decide] at hx
    replace hx := Option.some.inj hx
    simp only [List.foldlM_cons, List.foldlM_nil, oneStep, bind, Except.bind] at hx
    split at hx
    · cases hx
    · rename_i x' hx'
      cases hx
      have e1 := setDeclination_earth (declin := d1) hfuel hr he hm hb hx'
      rw [e1] at h1
      replace h1 := Option.some.inj h1
      replace h1 := Except.ok.inj h1
      rw [setDeclination_earth (declin := d2) hfuel hr he hm hb hx']
      -- the dataset after the first call is again well-formed and can be rotated to inst
      obtain ⟨hback, hs, hf1, _⟩ := inst2earth_undo true hr (by rw [he]; decide) hx'
      have hm1 : x.orientmat = some m := by
        have := congrArg RDS.orientmat hs
        simp only at this
        rw [← this, hm]
      have hr' : ∀ y : RDS T, y.inst = ds.inst → y.beam2inst = ds.beam2inst →
          y.inst2head = ds.inst2head →
          y.orientmat = some (fun t => m t * (rotDec (decAngle d1 ds)).transpose) → Rotatable y := by
        intro y y1 y2 y3 y4
        have om := hr.omat m (Or.inl hm)
        refine ⟨?_, ?_, ?_, ?_⟩
        · rintro m' (h | ⟨h, _⟩)
          · rw [y4] at h
            cases h
            intro t
            unfold Orthonormal
            have ho : m t * (m t).transpose = 1 := om t
            have hd : (rotDec (decAngle d1 ds)).transpose * rotDec (decAngle d1 ds) = 1 :=
              orth_comm (rotDec_orth _)
            rw [Matrix.transpose_mul, Matrix.transpose_transpose, Matrix.mul_assoc,
              ← Matrix.mul_assoc (rotDec _).transpose, hd, Matrix.one_mul, ho]
          · rw [y4] at h; cases h
        · intro hsig m' hm' t
          rcases hm' with h | ⟨h, _⟩
          · rw [y4] at h
            cases h
            have := hr.tilt (by rw [← y1]; exact hsig) m (Or.inl hm) t
            simpa [Matrix.mul_apply, Fin.sum_univ_three, rotDec] using this
          · rw [y4] at h; cases h
        · intro B hB; exact hr.beam B (by rw [← y2]; exact hB)
        · intro R hR; exact hr.head R (by rw [← y3]; exact hR)
      have hstep := inst2earth_dec (angle := decAngle d1 ds) (declin := d1) hm1 hback
        (ds.heading.map fun h t => h t + decAngle d1 ds)
        (ds.principalHeading.map (· + decAngle d1 ds)) (some d1)
      have hX1 := congrArg RDS.inst hs
      have hX2 := congrArg RDS.beam2inst hs
      have hX3 := congrArg RDS.inst2head hs
      simp only at hX1 hX2 hX3
      obtain ⟨hundo, _⟩ := inst2earth_undo false (ds := { x with
          orientmat := some fun t => m t * (rotDec (decAngle d1 ds)).transpose
          heading := ds.heading.map fun h t => h t + decAngle d1 ds
          principalHeading := ds.principalHeading.map (· + decAngle d1 ds)
          declination := some d1 }) (hr' _ hX1.symm hX2.symm hX3.symm rfl)
        (by show x.coordSys ≠ .ship; rw [hf1]; simp) hstep
      have hds1 : ds1 = { ds with
          orientmat := some fun t => m t * (rotDec (decAngle d1 ds)).transpose
          heading := ds.heading.map fun h t => h t + decAngle d1 ds
          principalHeading := ds.principalHeading.map (· + decAngle d1 ds)
          declination := some d1
          vars := ds.vars.map fun v => v.rot fun _ => cw (decAngle d1 ds) } := by
        rw [← h1]; rfl
      rw [← hds1] at hundo
      have hr1 : Rotatable ds1 := hr' ds1 (by rw [hds1]) (by rw [hds1]) (by rw [hds1]) (by rw [hds1])
      rw [setDeclination_earth (declin := d2) (b := b) hfuel hr1 (by rw [hds1]; exact he)
        (m := fun t => m t * (rotDec (decAngle d1 ds)).transpose) (by rw [hds1])
        (by rw [hds1]; exact hb) hundo]
      congr 2
      have hA : decAngle d2 ds1 = d2 - d1 := by rw [hds1]; rfl
      rw [hA]
      have hu1 := decUpd_decUpd (decAngle d1 ds) (d2 - d1) d1 d2 m ds
      rw [hang] at hu1
      rw [← hu1]
      rw [hds1]
      unfold decUpd
      simp only [List.map_map]
      congr 1
      apply List.map_congr_left
      intro v _
      simp only [Function.comp]
      rw [RVar.rot_rot, ← hang]
      congr 1
      funext _
      unfold cw
      rw [rot2_add]
      congr 1
      unfold deg2rad; ring
  · rw [setDeclination_not_earth he hm] at h1
    replace h1 := Except.ok.inj (Option.some.inj h1)
    rw [setDeclination_not_earth he hm, ← h1,
      setDeclination_not_earth (m := fun t => m t * (rotDec (decAngle d1 ds)).transpose)
        (by exact he) rfl]
    have hA : decAngle d2 (decUpd (decAngle d1 ds) d1 m ds) = d2 - d1 := rfl
    rw [hA, decUpd_decUpd, hang]

/-- **C09.** The heading variable moves by exactly the change of declination. (It is not wrapped back
into [0, 360): the code adds the angle and nothing else.) -/
theorem set_declination_heading {fuel : ℕ} (hfuel : 3 ≤ fuel) {d : ℝ} {ds ds1 : RDS T} {i : ℕ}
    (hi : Pos ds.coordSys i) (hr : Rotatable ds) (hm : ds.orientmat ≠ none)
    (hinst : ds.coordSys = .earth → ∃ x, rotate2 fuel .inst ds = some (.ok x))
    (h1 : setDeclination fuel d ds = some (.ok ds1)) :
    ds1.heading = ds.heading.map (fun h t => h t + declChange d ds) ∧ ds1.declination = some d := by
  obtain ⟨m, hm⟩ := Option.ne_none_iff_exists'.mp hm
  rw [← decAngle_eq]
  by_cases he : ds.coordSys = .earth
  · obtain ⟨x, hx⟩ := hinst he
    obtain ⟨hu, b, hb⟩ := rotate2_ok_checks hx
    rw [rotate2_eq (i := 2) (j := 1) fuel ds (by rw [he]; exact .earth) .inst hfuel hu hb,
      show steps 2 1 = [(1, true)] by decide] at hx
    replace hx := Option.some.inj hx
    simp only [List.foldlM_cons, List.foldlM_nil, oneStep, bind, Except.bind] at hx
    split at hx
    · cases hx
    · rename_i x' hx'
      rw [setDeclination_earth (declin := d) hfuel hr he hm hb hx'] at h1
      cases h1
      exact ⟨rfl, rfl⟩
  · rw [setDeclination_not_earth he hm] at h1
    cases h1
    exact ⟨rfl, rfl⟩

/-- **C09.** Without an orientation matrix there is nothing to correct and the call fails. -/
theorem set_declination_needs_orientmat (fuel : ℕ) (d : ℝ) (ds : RDS T) (hm : ds.orientmat = none)
    (he : ds.coordSys ≠ .earth) : setDeclination fuel d ds = some (.error .keyError) := by
  simp [setDeclination, he, hm]

/-! ### C10 -/

/-- **C10.** Only Vector instruments, and only once. -/
theorem set_inst2head_rejects (fuel : ℕ) (R : M3) (ds : RDS T)
    (h : ds.inst ≠ .vector ∨ ds.inst2head ≠ none) :
    setInst2head fuel R ds = some (.error .exception) := by
  unfold setInst2head
  by_cases hv : ds.inst = .vector
  · rcases h with h | h
    · exact absurd hv h
    · obtain ⟨x, hx⟩ := Option.ne_none_iff_exists'.mp h
      simp [hv, hx]
  · simp [hv]

/-- **C10.** A matrix whose determinant is off by a thousandth or more is refused (data in instrument coordinates). -/
theorem set_inst2head_refuses_matrix (fuel : ℕ) (R : M3) (ds : RDS T) (hv : ds.inst = .vector)
    (hn : ds.inst2head = none) (hc : ds.coordSys = .inst) (h : 1 / 1000 ≤ |R.det - 1|) :
    setInst2head fuel R ds = some (.error .valueError) := by
  have h' : (1000 : ℝ)⁻¹ ≤ |R.det - 1| := by rw [← one_div]; exact h
  simp [setInst2head, hv, hn, hc, rotateInst2head, checkInst2head, checkRotmatDet, h']

/-- A matrix that stretches by one percent. -/
def exStretch : M3 := !![1.01, 0, 0; 0, 1, 0; 0, 0, 1]

example (ds : RDS T) (hv : ds.inst = .vector) (hn : ds.inst2head = none) (hc : ds.coordSys = .inst) :
    setInst2head 3 exStretch ds = some (.error .valueError) := by
  apply set_inst2head_refuses_matrix 3 exStretch ds hv hn hc
  rw [show exStretch.det = 1.01 by simp [exStretch, Matrix.det_fin_three]]
  rw [abs_of_pos (by norm_num)]
  norm_num

/-- **C10.** With data in beam coordinates nothing is checked: any matrix is stored. -/
theorem set_inst2head_beam_unchecked (fuel : ℕ) (R : M3) (ds : RDS T) (hv : ds.inst = .vector)
    (hn : ds.inst2head = none) (hc : ds.coordSys = .beam) :
    setInst2head fuel R ds = some (.ok { ds with inst2head := some R, inst2headSet := true }) := by
  simp [setInst2head, hv, hn, hc]

/-- The matrix applied to the variable `vel` and to nothing else. -/
noncomputable def Spec.headApplied (R : M3) (v : RVar T) : RVar T :=
  if v.name = "vel" then
    { v with val := fun t i => match i with
        | 0 => R 0 0 * v.val t 0 + R 0 1 * v.val t 1 + R 0 2 * v.val t 2
        | 1 => R 1 0 * v.val t 0 + R 1 1 * v.val t 1 + R 1 2 * v.val t 2
        | 2 => R 2 0 * v.val t 0 + R 2 1 * v.val t 1 + R 2 2 * v.val t 2
        | i => v.val t i }
  else v

theorem headApplied_eq (R : M3) (v : RVar T) :
    headApplied R v = if v.name = "vel" then v.rot (fun _ => R) else v := by
  unfold headApplied RVar.rot
  split_ifs
  · congr 1
    funext t i
    match i with
    | 0 => simp [applyM, Fin.sum_univ_three]
    | 1 => simp [applyM, Fin.sum_univ_three]
    | 2 => simp [applyM, Fin.sum_univ_three]
    | i + 3 => simp [applyM]
  · rfl

theorem rotateInst2head_vars {ds ds' : RDS T} {R : M3} (hR : ds.inst2head = some R)
    (h : rotateInst2head false ds = .ok ds') :
    ds' = { ds with vars := ds.vars.map (headApplied R) } := by
  rcases rotateInst2head_cases h with ⟨hi, rfl⟩ | ⟨R', hi, hs, hd, vs, hvs, rfl⟩
  · rw [hR] at hi; cases hi
  · rw [hR] at hi
    cases hi
    have : ∀ a ∈ ds.vars, ∀ b, (if a.name = "vel" then
          if a.n = 3 then Except.ok (a.rot fun _ => if false then R.transpose else R)
          else Except.error Err.valueError
        else Except.ok a) = .ok b → b = headApplied R a := by
      intro a _ b hab
      rw [headApplied_eq]
      by_cases hn : a.name = "vel"
      · by_cases h3 : a.n = 3
        · simp only [hn, h3, if_true, Bool.false_eq_true, if_false] at hab ⊢
          cases hab; rfl
        · simp only [hn, h3, if_true, if_false] at hab; cases hab
      · simp only [hn, if_false] at hab ⊢
        cases hab; rfl
    congr 1
    have hf := mapM_forall₂ hvs
    clear hvs h
    generalize ds.vars = l at this hf
    induction hf with
    | nil => rfl
    | cons h1 _ ih =>
      rw [List.map_cons, this _ (by simp) _ h1, ih (fun a ha => this a (by simp [ha]))]

/-- **C10.** After `set_inst2head_rotmat(R)` the instrument-frame data is `R` applied once to `vel` of
the earlier instrument-frame data, whichever chain frame the dataset was in; the frame the data is in
does not change. -/
theorem set_inst2head_applies_once {fuel : ℕ} (hfuel : 3 ≤ fuel) {R : M3} {ds ds' i0 i1 : RDS T} {i : ℕ}
    (hi : Pos ds.coordSys i) (hr : Rotatable ds) (hR : Orthonormal R)
    (h0 : rotate2 fuel .inst ds = some (.ok i0))
    (h : setInst2head fuel R ds = some (.ok ds'))
    (h1 : rotate2 fuel .inst ds' = some (.ok i1)) :
    ds'.coordSys = ds.coordSys ∧ i1.vars = i0.vars.map (headApplied R) ∧ ds'.inst2head = some R := by
  have hv : ds.inst = .vector := by
    by_contra hv
    rw [set_inst2head_rejects fuel R ds (Or.inl hv)] at h; cases h
  have hn : ds.inst2head = none := by
    by_contra hn
    rw [set_inst2head_rejects fuel R ds (Or.inr hn)] at h; cases h
  have hck0 : checkInst2head ds = .ok false := by unfold checkInst2head; rw [hn]
  have hu : ds.inst ≠ .unknown := by rw [hv]; decide
  -- well-formedness once the matrix is stored
  have hrR : ∀ y : RDS T, SameFrameInfo { ds with inst2head := some R, inst2headSet := true } y →
      Rotatable y := fun y hy => Rotatable.of_same hy
    ⟨hr.omat, hr.tilt, hr.beam, by intro R' h'; cases h'; exact hR⟩
  unfold setInst2head at h
  rw [if_neg (not_not.mpr hv)] at h
  simp only [hn] at h
  generalize hcs : ds.coordSys = f at hi
  by_cases hb : f = .beam
  · subst hb
    have c1 : ¬ (ds.coordSys ≠ .inst ∧ ds.coordSys ≠ .beam) := by simp [hcs]
    have c2 : ¬ (ds.coordSys ≠ .beam) := by simp [hcs]
    simp only [if_neg c1, if_neg c2] at h
    cases h
    refine ⟨hcs, ?_, rfl⟩
    -- before: the beam step alone (no head matrix); after: the beam step, then the head matrix
    rw [rotate2_eq (i := 0) (j := 1) fuel ds (by rw [hcs]; exact .beam) .inst hfuel hu hck0,
      show steps 0 1 = [(0, false)] by decide] at h0
    replace h0 := Option.some.inj h0
    simp only [List.foldlM_cons, List.foldlM_nil, oneStep, bind, Except.bind] at h0
    split at h0
    · cases h0
    rename_i x hx
    cases h0
    obtain ⟨hu1, b1, hb1⟩ := rotate2_ok_checks h1
    rw [rotate2_eq (i := 0) (j := 1) fuel _ (by rw [hcs]; exact .beam) .inst hfuel hu1 hb1,
      show steps 0 1 = [(0, false)] by decide] at h1
    replace h1 := Option.some.inj h1
    simp only [List.foldlM_cons, List.foldlM_nil, oneStep, bind, Except.bind] at h1
    split at h1
    · cases h1
    rename_i y hy
    cases h1
    simp only [beam2inst, hv, Bool.false_eq_true, if_false, bind, Except.bind] at hx hy
    split at hx
    · cases hx
    rename_i p hp
    split at hy
    · cases hy
    rename_i q hq
    obtain ⟨c1, B1, hB1, _, rfl⟩ := beam2instBase_cases hp
    obtain ⟨c2, B2, hB2, _, rfl⟩ := beam2instBase_cases hq
    simp only at hB2
    rw [hB1] at hB2
    cases hB2
    rcases rotateInst2head_cases hx with ⟨_, rfl⟩ | ⟨R', hi', _⟩
    · have := rotateInst2head_vars (R := R) rfl hy
      rw [this]
    · simp only [hn] at hi'; cases hi'
  · -- inst, earth or principal
    have key : ∃ d1 d3 : RDS T, rotate2 fuel .inst ds = some (.ok d1) ∧ d1.coordSys = .inst ∧
        rotateInst2head false { d1 with inst2head := some R, inst2headSet := true } = .ok d3 ∧
        (f = .inst ∧ ds' = d3 ∨ f ≠ .inst ∧ rotate2 fuel f d3 = some (.ok ds')) := by
      by_cases hin : f = .inst
      · subst hin
        have c1 : ¬ (ds.coordSys ≠ .inst ∧ ds.coordSys ≠ .beam) := by simp [hcs]
        have c2 : ds.coordSys ≠ .beam := by simp [hcs]
        simp only [if_neg c1, if_pos c2] at h
        refine ⟨ds, ?_⟩
        split at h
        · cases h
        · rename_i d3 hd3
          cases h
          refine ⟨_, ?_, hcs, hd3, Or.inl ⟨rfl, rfl⟩⟩
          rw [rotate2_eq (i := 1) (j := 1) fuel ds (by rw [hcs]; exact .inst) .inst hfuel hu hck0,
            show steps 1 1 = [] by decide]
          rfl
      · have c2 : ds.coordSys ≠ .beam := by rw [hcs]; exact hb
        have c1 : ds.coordSys ≠ .inst ∧ ds.coordSys ≠ .beam := ⟨by rw [hcs]; exact hin, c2⟩
        simp only [if_pos c1, if_pos c2] at h
        split at h
        · cases h
        · cases h
        · rename_i d1 hd1
          split at h
          · cases h
          · rename_i d3 hd3
            have hfr := (rotate2_reaches hfuel (by rw [hcs]; exact hi) Pos.inst hd1).1
            exact ⟨d1, d3, hd1, hfr, hd3, Or.inr ⟨hin, by rw [hcs] at h; exact h⟩⟩
    obtain ⟨d1, d3, hd1, hf1, hd3, hcase⟩ := key
    rw [h0] at hd1
    cases hd1
    obtain ⟨vs0, hi0⟩ := (rotate2_reaches hfuel (by rw [hcs]; exact hi) Pos.inst h0).2
    have e3 := rotateInst2head_vars (R := R) rfl hd3
    have hs3 : SameFrameInfo { ds with inst2head := some R, inst2headSet := true } d3 := by
      rw [e3, hi0]; rfl
    have hf3 : d3.coordSys = .inst := by rw [e3]; exact hf1
    rcases hcase with ⟨rfl, rfl⟩ | ⟨hin, hfin⟩
    · refine ⟨hf3, ?_, by rw [e3]⟩
      obtain ⟨hu1, b1, hb1⟩ := rotate2_ok_checks h1
      rw [rotate2_eq (i := 1) (j := 1) fuel ds' (by rw [hf3]; exact .inst) .inst hfuel hu1 hb1,
        show steps 1 1 = [] by decide] at h1
      cases h1
      rw [e3]
    · have hback := rotate2_roundtrip hfuel (by rw [hf3]; exact Pos.inst) hi (hrR d3 hs3) hfin
      rw [hf3] at hback
      rw [h1] at hback
      cases hback
      obtain ⟨hfd, vs', hds'⟩ := rotate2_reaches hfuel (by rw [hf3]; exact Pos.inst) hi hfin
      refine ⟨hfd, by rw [e3], by rw [hds', e3]⟩

/-! ### C12 -/

/-- The matrix fact behind `signature_4comp_agrees`. -/
theorem sigMat4_consistent (r : Bool) (down : Bool) (R : M3) (hr : r = false) (v : ℕ → ℝ)
    (hw : v 3 = v 2) :
    (∀ i, i < 3 → applyM (sigMat4 r down R) v i = applyM (sigMat3 r down R) v i) ∧
    applyM (sigMat4 r down R) v 3 = applyM (sigMat3 r down R) v 2 := by
  subst hr
  cases down
  · simp only [sigMat4, sigMat3, Bool.false_eq_true, if_false]
    refine ⟨?_, ?_⟩
    · intro i hi
      interval_cases i <;>
        simp [applyM, ext4, Fin.sum_univ_four, Fin.sum_univ_three, hw] <;> ring
    · simp [applyM, ext4, Fin.sum_univ_four, Fin.sum_univ_three, hw]
  · simp only [sigMat4, sigMat3, Bool.false_eq_true, if_false, if_true]
    rw [applyM_mul, applyM_mul]
    refine ⟨?_, ?_⟩
    · intro i hi
      interval_cases i <;>
        simp [applyM, ext4, sign3, sign4, Fin.sum_univ_four, Fin.sum_univ_three, Matrix.diagonal, hw] <;> ring
    · simp [applyM, ext4, sign3, sign4, Fin.sum_univ_four, Fin.sum_univ_three, Matrix.diagonal, hw]

theorem forall₂_getElem? {α β : Type} {P : α → β → Prop} {l : List α} {l' : List β}
    (h : List.Forall₂ P l l') {k : ℕ} {a : α} {b : β} (ha : l[k]? = some a) (hb : l'[k]? = some b) :
    P a b := by
  induction h generalizing k with
  | nil => simp at ha
  | cons h1 _ ih =>
    cases k with
    | zero => simp at ha hb; subst ha hb; exact h1
    | succ k => exact ih (by simpa using ha) (by simpa using hb)

/-- **C12.** Signature data carrying both a 4-row variable `a` (u, v and two estimates of w) and a 3-row variable
`b` (u, v, w): at every time at which the two estimates agree with each other and the rows of `a` are those of `b`,
`rotate2(ds, 'earth')` gives `a` the same E, N and U as `b`, and its second U is the same too. -/
theorem signature_4comp_agrees {fuel : ℕ} (hfuel : 3 ≤ fuel) {ds e : RDS T} (hs : ds.inst = .signature)
    (hcs : ds.coordSys = .inst) (h : rotate2 fuel .earth ds = some (.ok e)) {k l : ℕ}
    {a b a' b' : RVar T} (ha : ds.vars[k]? = some a) (hb : ds.vars[l]? = some b)
    (ha' : e.vars[k]? = some a') (hb' : e.vars[l]? = some b') (h4 : a.n = 4) (h3 : b.n = 3) {t : T}
    (hab : ∀ i, i < 3 → a.val t i = b.val t i) (hw : a.val t 3 = a.val t 2) :
    a'.val t 0 = b'.val t 0 ∧ a'.val t 1 = b'.val t 1 ∧ a'.val t 2 = b'.val t 2 ∧
      a'.val t 3 = b'.val t 2 := by
  obtain ⟨hu, c, hc⟩ := rotate2_ok_checks h
  rw [rotate2_eq (i := 1) (j := 2) fuel ds (by rw [hcs]; exact .inst) .earth hfuel hu hc,
    show steps 1 2 = [(1, false)] by decide] at h
  replace h := Option.some.inj h
  simp only [List.foldlM_cons, List.foldlM_nil, oneStep, bind, Except.bind] at h
  split at h
  · cases h
  rename_i x hx
  cases h
  obtain ⟨_, _, m, _, _, vs, hvs, rfl⟩ := inst2earth_iff.mp hx
  have hf := mapM_forall₂ hvs
  have ea := forall₂_getElem? hf ha ha'
  have eb := forall₂_getElem? hf hb hb'
  simp only [i2eVar, hs, h4, h3, if_true, Nat.reduceEqDiff, if_false] at ea eb
  cases ea
  cases eb
  have hc4 := sigMat4_consistent false ds.down (m t) rfl (a.val t) hw
  have e3 : ∀ i, i < 3 → applyM (sigMat3 false ds.down (m t)) (a.val t) i
      = applyM (sigMat3 false ds.down (m t)) (b.val t) i := by
    intro i hi
    simp only [applyM, hi, dite_true, Fin.sum_univ_three]
    rw [hab _ (by decide), hab _ (by decide), hab _ (by decide)]
  simp only [RVar.rot]
  exact ⟨(hc4.1 0 (by decide)).trans (e3 0 (by decide)), (hc4.1 1 (by decide)).trans (e3 1 (by decide)),
    (hc4.1 2 (by decide)).trans (e3 2 (by decide)), hc4.2.trans (e3 2 (by decide))⟩

/-- A Signature dataset with a 4-row velocity and a 3-row acceleration. -/
noncomputable def exSig (down : Bool) : RDS ℤ where
  inst := .signature
  coordSys := .inst
  vars := [⟨"vel", 4, fun t i => if i = 3 then t + 2 else t + i⟩, ⟨"accel", 3, fun t i => t + i⟩]
  beam2inst := none
  orientmat := some fun _ => !![0, 1, 0; -1, 0, 0; 0, 0, 1]
  calcOmat := fun _ => .error .unboundLocal
  down := down
  principalHeading := none
  declination := none
  heading := none
  inst2head := none
  inst2headSet := false

example (down : Bool) : ∃ e a' b', rotate2 3 .earth (exSig down) = some (.ok e) ∧ e.vars[0]? = some a' ∧
    e.vars[1]? = some b' ∧ ∀ t, a'.val t 0 = b'.val t 0 := by
  have h : ∃ e, inst2earth false (exSig down) = .ok e := by
    obtain ⟨vs, hvs⟩ := mapM_total (i2eVar .signature false down
      fun _ => !![0, 1, 0; -1, 0, 0; 0, 0, 1]) (exSig down).vars (by
        intro v hv
        simp only [exSig, List.mem_cons, List.not_mem_nil, or_false] at hv
        rcases hv with rfl | rfl <;> exact ⟨_, rfl⟩)
    exact ⟨_, inst2earth_iff.mpr ⟨by simp [exSig], by simp [exSig], _, rfl, by simp, vs, hvs, rfl⟩⟩
  obtain ⟨e, he⟩ := h
  have hrot : rotate2 3 .earth (exSig down) = some (.ok e) := by
    rw [rotate2_eq (i := 1) (j := 2) 3 (exSig down) .inst .earth le_rfl (by simp [exSig])
      (b := false) rfl, show steps 1 2 = [(1, false)] by decide]
    simp only [List.foldlM_cons, List.foldlM_nil, oneStep, bind, Except.bind, he]
    rfl
  have hf := oneStep_shapes (k := 1) (r := false) (ds := exSig down) (ds' := e) he
  have hl := hf.length_eq
  have hlen : e.vars.length = 2 := hl.symm
  refine ⟨e, e.vars[0], e.vars[1], hrot, by simp [hlen], by simp [hlen], fun t => ?_⟩
  refine (signature_4comp_agrees (ds := exSig down) (k := 0) (l := 1) le_rfl rfl rfl hrot rfl rfl
    (List.getElem?_eq_getElem _) (List.getElem?_eq_getElem _) rfl rfl (t := t) ?_ ?_).1
  · intro i hi
    interval_cases i <;> simp
  · simp

theorem foldlM_complete (l : List (ℕ × Bool)) {ds ds' : RDS T} (hc : Complete ds)
    (h : l.foldlM oneStep ds = .ok ds') : Complete ds' := by
  induction l generalizing ds with
  | nil => cases h; exact hc
  | cons s l ih =>
    simp only [List.foldlM_cons, bind, Except.bind] at h
    split at h
    · cases h
    · rename_i d hd
      exact ih (hc.of_step hd) h

/-- **C10.** With a complete Vector dataset and a rotation matrix the call succeeds, from any chain frame, and the
result can be rotated to every frame. -/
theorem set_inst2head_succeeds {fuel : ℕ} (hfuel : 3 ≤ fuel) {R : M3} {ds : RDS T} {i : ℕ}
    (hi : Pos ds.coordSys i) (hr : Rotatable ds) (hc : Complete ds) (hv : ds.inst = .vector)
    (hn : ds.inst2head = none) (hR : Spec.IsRotation R) :
    ∃ ds', setInst2head fuel R ds = some (.ok ds') ∧
      ∀ {out : Frame} {j : ℕ}, Pos out j → ∃ x, rotate2 fuel out ds' = some (.ok x) := by
  have hset : ∀ y : RDS T, Rotatable y → Complete y → y.inst = .vector →
      Rotatable { y with inst2head := some R, inst2headSet := true } ∧
      Complete { y with inst2head := some R, inst2headSet := true } := by
    intro y y1 y2 y3
    refine ⟨⟨y1.omat, y1.tilt, y1.beam, by intro R' h'; cases h'; exact hR.1⟩,
      ⟨y2.known, ⟨true, ?_⟩, y2.beam, y2.omat, y2.heading, y2.size, ?_⟩⟩
    · simp [checkInst2head, checkRotmatDet, hR.2]
    · intro _ v hv _
      rcases y2.size v hv with h | ⟨_, h | h⟩
      · exact h
      · rw [y3] at h; cases h
      · rw [y3] at h; cases h
  unfold setInst2head
  rw [if_neg (not_not.mpr hv)]
  simp only [hn]
  generalize hcs : ds.coordSys = f at hi
  by_cases hb : f = .beam
  · subst hb
    have c1 : ¬ ((Frame.beam : Frame) ≠ .inst ∧ Frame.beam ≠ .beam) := by simp
    have c2 : ¬ (Frame.beam ≠ .beam) := by simp
    simp only [if_neg c1, if_neg c2]
    obtain ⟨a1, a2⟩ := hset ds hr hc hv
    refine ⟨_, rfl, fun {out j} hj => ?_⟩
    obtain ⟨x, hx, _⟩ := rotate2_succeeds hfuel (ds := { ds with inst2head := some R, inst2headSet := true })
      (by rw [hcs]; exact hi) hj a1 a2
    exact ⟨x, by rw [← hx, hcs]⟩
  · have step : ∀ d1 : RDS T, Rotatable d1 → Complete d1 → d1.inst = .vector → d1.coordSys = .inst →
        ∃ d3, rotateInst2head false { d1 with inst2head := some R, inst2headSet := true } = .ok d3 ∧
          Rotatable d3 ∧ Complete d3 ∧ d3.coordSys = .inst := by
      intro d1 r1 r2 r3 r4
      obtain ⟨a1, a2⟩ := hset d1 r1 r2 r3
      obtain ⟨d3, h3⟩ := rotateInst2head_total (r := false) a2
      have e3 := rotateInst2head_vars (R := R) rfl h3
      have hsame : SameFrameInfo { d1 with inst2head := some R, inst2headSet := true } d3 := by
        rw [e3]; rfl
      refine ⟨d3, h3, Rotatable.of_same hsame a1, a2.of_same hsame ?_, by rw [e3]; exact r4⟩
      rw [e3]
      show List.Forall₂ _ d1.vars (d1.vars.map (headApplied R))
      rw [List.forall₂_map_right_iff, List.forall₂_same]
      intro v _
      rw [headApplied_eq]
      split_ifs <;> exact ⟨rfl, rfl⟩
    by_cases hin : f = .inst
    · subst hin
      have c1 : ¬ ((Frame.inst : Frame) ≠ .inst ∧ Frame.inst ≠ .beam) := by simp
      have c2 : Frame.inst ≠ .beam := by simp
      simp only [if_neg c1, if_pos c2]
      obtain ⟨d3, h3, r1, r2, r3⟩ := step ds hr hc hv hcs
      rw [hcs] at h3
      rw [h3]
      exact ⟨d3, rfl, fun {out j} hj => (rotate2_succeeds hfuel (by rw [r3]; exact Pos.inst) hj r1 r2).imp
        fun _ h => h.1⟩
    · have c1 : f ≠ .inst ∧ f ≠ .beam := ⟨hin, hb⟩
      simp only [if_pos c1, if_pos hb]
      obtain ⟨d1, h1, hf1⟩ := rotate2_succeeds hfuel (by rw [hcs]; exact hi) Pos.inst hr hc
      obtain ⟨hu, b, hck⟩ := rotate2_ok_checks h1
      have hfold := h1
      rw [rotate2_eq fuel ds (by rw [hcs]; exact hi) .inst hfuel hu hck] at hfold
      replace hfold := Option.some.inj hfold
      have hsame := foldlM_same _ hfold
      obtain ⟨d3, h3, r1, r2, r3⟩ := step d1 (Rotatable.of_same hsame hr) (foldlM_complete _ hc hfold)
        (by rw [← hv]; exact (congrArg RDS.inst hsame).symm) hf1
      obtain ⟨ds', h4, hf4⟩ := rotate2_succeeds hfuel (by rw [r3]; exact Pos.inst) hi r1 r2
      obtain ⟨hu4, b4, hck4⟩ := rotate2_ok_checks h4
      have hfold4 := h4
      rw [rotate2_eq fuel d3 (by rw [r3]; exact Pos.inst) hi hfuel hu4 hck4] at hfold4
      replace hfold4 := Option.some.inj hfold4
      refine ⟨ds', ?_, fun {out j} hj => ?_⟩
      · rw [h1]
        simp only
        rw [h3]
        exact h4
      · exact (rotate2_succeeds hfuel (by rw [hf4]; exact hi) hj
          (Rotatable.of_same (foldlM_same _ hfold4) r1) (foldlM_complete _ r2 hfold4)).imp fun _ h => h.1

/-- Non-vacuity of C10: a call that succeeds from any of the four frames. -/
example (f : Frame) (i : ℕ) (hi : Pos f i) (R : M3) (hR : Spec.IsRotation R) :
    ∃ ds' i0 i1, setInst2head 3 R (exDS f) = some (.ok ds') ∧ rotate2 3 .inst (exDS f) = some (.ok i0) ∧
      rotate2 3 .inst ds' = some (.ok i1) ∧ i1.vars = i0.vars.map (headApplied R) := by
  obtain ⟨ds', h1, h2⟩ := set_inst2head_succeeds (fuel := 3) le_rfl (ds := exDS f) (i := i) hi
    (exDS_rotatable f) (exDS_complete f) rfl rfl hR
  obtain ⟨i1, h3⟩ := h2 Pos.inst
  obtain ⟨i0, h0, _⟩ := rotate2_succeeds (fuel := 3) le_rfl (ds := exDS f) hi .inst
    (exDS_rotatable f) (exDS_complete f)
  exact ⟨ds', i0, i1, h1, h0, h3,
    (set_inst2head_applies_once le_rfl hi (exDS_rotatable f) hR.1 h0 h1 h3).2.1⟩

end Dolfyn
