import Verif.Lemmas.RotateDecl

/-!
Properties C04, C05, C06, C09, C10 of the rotation code. `fuel` bounds the number of passes through the
`while` loop of `rotate2`; `none` would mean "still looping after that many passes", so a statement for
`3 ≤ fuel` says in particular that three passes are always enough.
-/

namespace Dolfyn

open Spec

variable {T : Type}

/-! ### C05 -/

/-- **C05.** On a dataset in a chain frame, `rotate2` either fails its checks or performs exactly the
single steps between the two frames, in order; it terminates within three passes. -/
theorem rotate2_path {fuel : ℕ} {out : Frame} {ds : RDS T} {i j : ℕ} (hfuel : 3 ≤ fuel)
    (hi : Pos ds.coordSys i) (ho : Pos out j) :
    (rotate2 fuel out ds = some ((steps i j).foldlM oneStep ds)) ∨
    ((ds.inst = .unknown ∨ ∃ e, checkInst2head ds = .error e) ∧ ∃ e, rotate2 fuel out ds = some (.error e)) := by
  cases hc : checkInst2head ds with
  | error e => right; exact ⟨Or.inr ⟨e, rfl⟩, e, by unfold rotate2; rw [hc]⟩
  | ok b =>
    by_cases hu : ds.inst = .unknown
    · right; exact ⟨Or.inl hu, .valueError, by unfold rotate2; rw [hc]; simp [hu]⟩
    · left; exact rotate2_eq fuel ds hi ho hfuel hu hc

/-- **C05.** When `rotate2` returns, the data is in the requested frame and nothing but the rotated
variables and the frame name has changed. -/
theorem rotate2_reaches {fuel : ℕ} {out : Frame} {ds ds' : RDS T} {i j : ℕ} (hfuel : 3 ≤ fuel)
    (hi : Pos ds.coordSys i) (ho : Pos out j) (h : rotate2 fuel out ds = some (.ok ds')) :
    ds'.coordSys = out ∧ ∃ vs, ds' = { ds with vars := vs, coordSys := out } := by
  rcases rotate2_path hfuel hi ho with h1 | ⟨_, e, h1⟩
  · rw [h1] at h
    have h := Option.some.inj h
    have hp := foldlM_frame hi h
    have hs := foldlM_same _ h
    have hf := hp.inj ho
    refine ⟨hf, ds'.vars, ?_⟩
    rw [← hf]
    unfold SameFrameInfo at hs
    have := congrArg (fun x : RDS T => { x with vars := ds'.vars, coordSys := ds'.coordSys }) hs
    exact this.symm
  · rw [h1] at h; cases h

/-- **C05.** `rotate2` never loops: three passes are enough for every dataset and every requested frame
name, valid or not. -/
theorem rotate2_terminates {fuel : ℕ} (hfuel : 3 ≤ fuel) (out : Frame) (ds : RDS T) :
    rotate2 fuel out ds ≠ none := by
  obtain ⟨f, rfl⟩ : ∃ f, fuel = f + 3 := ⟨fuel - 3, by omega⟩
  by_cases ho : ∃ j, Pos out j
  · obtain ⟨j, ho⟩ := ho
    by_cases hi : ∃ i, Pos ds.coordSys i
    · obtain ⟨i, hi⟩ := hi
      rcases rotate2_path hfuel hi ho with h1 | ⟨_, e, h1⟩ <;> rw [h1] <;> simp
    · -- ship or unknown frame
      have hi' : ∀ i, ¬ Pos ds.coordSys i := fun i h => hi ⟨i, h⟩
      cases hck : checkInst2head ds with
      | error e => unfold rotate2; rw [hck]; simp
      | ok b =>
        by_cases hu : ds.inst = .unknown
        · unfold rotate2; rw [hck]; simp [hu]
        · cases hc : ds.coordSys
          case ship =>
            rw [show f + 3 = (f + 2) + 1 from rfl, rotate2_ship (f + 2) ds hc ho hu hck]
            by_cases hj : 1 < j
            · rw [if_pos hj]
              cases hs : inst2earth false ds with
              | error e => simp
              | ok d =>
                have hp := (oneStep_frame (k := 1) (r := false) hs).1
                simp only [Bool.false_eq_true, if_false] at hp ⊢
                have hl := ho.lt
                rw [rotateLoop_fwd ho (j - 2) 2 (f + 2) d hp (by omega) (by omega)]
                simp
            · rw [if_neg hj]
              cases hs : beam2inst true ds with
              | error e => simp
              | ok d =>
                exfalso
                have := (beam2inst_frame hs).2.2
                rw [hc] at this; simp at this
          case other => unfold rotate2; rw [hck]; simp [hu, hc, shipAsInst, chainIndex]
          all_goals exact absurd (by rw [hc]; constructor) (hi' _)
  · have ho' : chainIndex out = none := by
      cases hc : chainIndex out with
      | none => rfl
      | some j => exact absurd ⟨j, pos_iff.mpr hc⟩ ho
    unfold rotate2
    split
    · simp
    · split_ifs
      · simp
      · split
        · simp
        · rw [ho']; simp

/-- **C05.** An invalid requested frame raises before the first step (here: with no loop pass
allowed at all). -/
theorem rotate2_invalid_frame (fuel : ℕ) (out : Frame) (ds : RDS T) (h : ∀ j, ¬ Pos out j) :
    ∃ e, rotate2 fuel out ds = some (.error e) := by
  have ho' : chainIndex out = none := by
    cases hc : chainIndex out with
    | none => rfl
    | some j => exact absurd (pos_iff.mpr hc) (h j)
  unfold rotate2
  split
  · exact ⟨_, rfl⟩
  · split_ifs
    · exact ⟨_, rfl⟩
    · split
      · exact ⟨_, rfl⟩
      · rw [ho']; exact ⟨_, rfl⟩

/-- **C05 (as the property says, the code breaks it).** Data in the ship frame cannot be rotated to the
instrument or beam frame: every such call raises, whatever the dataset contains. -/
theorem rotate2_ship_fails {fuel : ℕ} (hfuel : 1 ≤ fuel) {out : Frame} (ds : RDS T)
    (hs : ds.coordSys = .ship) (ho : out = .inst ∨ out = .beam) :
    ∃ e, rotate2 fuel out ds = some (.error e) := by
  obtain ⟨f, rfl⟩ : ∃ f, fuel = f + 1 := ⟨fuel - 1, by omega⟩
  obtain ⟨j, hj, hj'⟩ : ∃ j, Pos out j ∧ ¬ 1 < j := by
    rcases ho with rfl | rfl
    · exact ⟨1, .inst, by decide⟩
    · exact ⟨0, .beam, by decide⟩
  cases hck : checkInst2head ds with
  | error e => exact ⟨e, by unfold rotate2; rw [hck]⟩
  | ok b =>
    by_cases hu : ds.inst = .unknown
    · exact ⟨.valueError, by unfold rotate2; rw [hck]; simp [hu]⟩
    · rw [rotate2_ship f ds hs hj hu hck, if_neg hj']
      cases hstep : beam2inst true ds with
      | error e => exact ⟨e, rfl⟩
      | ok d =>
        exfalso
        have := (beam2inst_frame hstep).2.2
        rw [hs] at this; simp at this

/-- **C05.** The exception is a ValueError for every ADCP that has no head rotation of its own. -/
theorem rotate2_ship_error {fuel : ℕ} (hfuel : 1 ≤ fuel) {out : Frame} (ds : RDS T)
    (hs : ds.coordSys = .ship) (ho : out = .inst ∨ out = .beam) (hh : ds.inst2head = none)
    (hv : ds.inst ≠ .vector) : rotate2 fuel out ds = some (.error .valueError) := by
  obtain ⟨f, rfl⟩ : ∃ f, fuel = f + 1 := ⟨fuel - 1, by omega⟩
  obtain ⟨j, hj, hj'⟩ : ∃ j, Pos out j ∧ ¬ 1 < j := by
    rcases ho with rfl | rfl
    · exact ⟨1, .inst, by decide⟩
    · exact ⟨0, .beam, by decide⟩
  have hck : checkInst2head ds = .ok false := by unfold checkInst2head; rw [hh]
  by_cases hu : ds.inst = .unknown
  · unfold rotate2; rw [hck]; simp [hu]
  · have hb : beam2inst true ds = .error .valueError := by
      have h1 : beam2instBase true ds = .error .valueError := by
        unfold beam2instBase
        simp [hs]
        rfl
      unfold beam2inst
      cases hi : ds.inst with
      | vector => exact absurd hi hv
      | unknown => exact absurd hi hu
      | awac => exact h1
      | signature => exact h1
      | rdi => exact h1
    rw [rotate2_ship f ds hs hj hu hck, if_neg hj', hb]

/-- **C05.** Ship-frame data can be taken forward: if `rotate2` to earth or principal returns, the data is
in that frame. -/
theorem rotate2_ship_forward {fuel : ℕ} (hfuel : 3 ≤ fuel) {out : Frame} {ds ds' : RDS T}
    (hs : ds.coordSys = .ship) (ho : out = .earth ∨ out = .principal)
    (h : rotate2 fuel out ds = some (.ok ds')) : ds'.coordSys = out := by
  obtain ⟨f, rfl⟩ : ∃ f, fuel = f + 1 := ⟨fuel - 1, by omega⟩
  obtain ⟨j, hj, hj'⟩ : ∃ j, Pos out j ∧ 1 < j := by
    rcases ho with rfl | rfl
    · exact ⟨2, .earth, by decide⟩
    · exact ⟨3, .principal, by decide⟩
  obtain ⟨hu, b, hck⟩ := rotate2_ok_checks h
  rw [rotate2_ship f ds hs hj hu hck, if_pos hj'] at h
  cases hstep : inst2earth false ds with
  | error e => rw [hstep] at h; cases h
  | ok d =>
    rw [hstep] at h
    have hp := (oneStep_frame (k := 1) (r := false) hstep).1
    simp only [Bool.false_eq_true, if_false] at hp h
    have hl := hj.lt
    rw [rotateLoop_fwd hj (j - 2) 2 f d hp (by omega) (by omega)] at h
    have e : (List.range' 2 (j - 2)).map (·, false) = steps 2 j := by
      interval_cases j <;> decide
    rw [e] at h
    exact (foldlM_frame hp (Option.some.inj h)).inj hj

/-- **C05.** A complete dataset can always be rotated to every chain frame. -/
theorem rotate2_succeeds {fuel : ℕ} (hfuel : 3 ≤ fuel) {out : Frame} {ds : RDS T} {i j : ℕ}
    (hi : Pos ds.coordSys i) (ho : Pos out j) (hr : Rotatable ds) (hc : Complete ds) :
    ∃ ds', rotate2 fuel out ds = some (.ok ds') ∧ ds'.coordSys = out := by
  obtain ⟨b, hb⟩ := hc.headCheck
  have hj := ho.lt
  obtain ⟨ds', h⟩ := foldlM_total i j hr hc hi (by omega)
  refine ⟨ds', ?_, (foldlM_frame hi h).inj ho⟩
  rw [rotate2_eq fuel ds hi ho hfuel hc.known hb, h]

/-- A small Vector dataset used to show that the hypotheses of this file can be met: one velocity series over
all of `ℤ`, a non-trivial beam matrix, an orientation matrix that turns by 90 degrees. -/
noncomputable def exDS (f : Frame) : RDS ℤ where
  inst := .vector
  coordSys := f
  vars := [⟨"vel", 3, fun t i => t + i⟩, ⟨"accel", 3, fun t i => t * i⟩]
  beam2inst := some ⟨3, Matrix.diagonal ![2, 3, 1]⟩
  orientmat := some fun _ => !![0, 1, 0; -1, 0, 0; 0, 0, 1]
  calcOmat := fun _ => .error .unboundLocal
  down := false
  principalHeading := some 30
  declination := some 10
  heading := some fun t => t
  inst2head := none
  inst2headSet := false

theorem exDS_rotatable (f : Frame) : Rotatable (exDS f) := by
  refine ⟨?_, ?_, ?_, ?_⟩
  · rintro m (h | ⟨h, _⟩)
    · intro t
      cases h
      unfold Orthonormal
      ext i j
      fin_cases i <;> fin_cases j <;> simp [Matrix.mul_apply, Fin.sum_univ_three]
    · cases h
  · intro h; cases h
  · intro B h
    cases h
    simp [Matrix.det_diagonal, Fin.prod_univ_three]
  · intro R h; cases h

theorem exDS_complete (f : Frame) : Complete (exDS f) := by
  refine ⟨by simp [exDS], ⟨false, rfl⟩, ⟨_, rfl⟩, Or.inl (by simp [exDS]), by simp [exDS], ?_, ?_⟩
  · intro v hv
    simp [exDS] at hv
    rcases hv with rfl | rfl <;> simp
  · intro h; exact absurd rfl h

/-- Non-vacuity of C05 and C04: the example really can be rotated, from and to any frame. -/
example (f out : Frame) (i j : ℕ) (hi : Pos f i) (ho : Pos out j) :
    ∃ ds', rotate2 3 out (exDS f) = some (.ok ds') ∧ ds'.coordSys = out :=
  rotate2_succeeds le_rfl (ds := exDS f) hi ho (exDS_rotatable f) (exDS_complete f)

/-! ### C04 -/

/-- **C04.** Rotating to any chain frame and back to the starting frame gives back the same dataset,
every value of every variable, for all instrument families. -/
theorem rotate2_roundtrip {fuel : ℕ} (hfuel : 3 ≤ fuel) {out : Frame} {ds ds' : RDS T} {i j : ℕ}
    (hi : Pos ds.coordSys i) (ho : Pos out j) (hr : Rotatable ds)
    (h : rotate2 fuel out ds = some (.ok ds')) :
    rotate2 fuel ds.coordSys ds' = some (.ok ds) := by
  obtain ⟨hu, b, hb⟩ := rotate2_ok_checks h
  rw [rotate2_eq fuel ds hi ho hfuel hu hb] at h
  have h := Option.some.inj h
  obtain ⟨hback, hs⟩ := foldlM_undo _ hr hi.ne_ship h
  have hp := foldlM_frame hi h
  rw [rotate2_eq (i := j) (j := i) fuel ds' hp hi hfuel (by rw [hs.inst_eq]; exact hu)
    (b := b) (by rw [hs.head_eq]; exact hb), steps_swap, hback]

/-- **C04.** Going through an intermediate frame makes no difference. -/
theorem rotate2_via {fuel : ℕ} (hfuel : 3 ≤ fuel) {mid out : Frame} {ds d1 d2 : RDS T} {i k j : ℕ}
    (hi : Pos ds.coordSys i) (hk : Pos mid k) (ho : Pos out j) (hr : Rotatable ds)
    (h1 : rotate2 fuel mid ds = some (.ok d1)) (h2 : rotate2 fuel out d1 = some (.ok d2)) :
    rotate2 fuel out ds = some (.ok d2) := by
  obtain ⟨hu, b, hb⟩ := rotate2_ok_checks h1
  have e1 := h1
  rw [rotate2_eq fuel ds hi hk hfuel hu hb] at h1
  have h1 := Option.some.inj h1
  have hs := foldlM_same _ h1
  have hp1 := foldlM_frame hi h1
  have hr1 := Rotatable.of_same hs hr
  obtain ⟨hu1, b1, hb1⟩ := rotate2_ok_checks h2
  rw [rotate2_eq (i := k) fuel d1 hp1 ho hfuel hu1 hb1] at h2
  have h2 := Option.some.inj h2
  rw [rotate2_eq fuel ds hi ho hfuel hu hb]
  congr 1
  -- split the longer of the two paths at the shared frame
  have split_app : ∀ {a b c : ℕ}, (a ≤ b ∧ b ≤ c ∨ c ≤ b ∧ b ≤ a) → a < 4 → b < 4 → c < 4 →
      steps a c = steps a b ++ steps b c := by
    intro a b c h ha hb hc
    interval_cases a <;> interval_cases b <;> interval_cases c <;> first | decide | omega
  have app : ∀ {a b c : ℕ} (x y z : RDS T), steps a c = steps a b ++ steps b c →
      (steps a b).foldlM oneStep x = .ok y → (steps b c).foldlM oneStep y = .ok z →
      (steps a c).foldlM oneStep x = .ok z := by
    intro a b c x y z e hx hy
    rw [e, List.foldlM_append, hx]; exact hy
  have hil := hi.lt
  have hkl := hk.lt
  have hjl := ho.lt
  have undo := fun (a b : ℕ) (x y : RDS T) (hx : Rotatable x) (hsx : x.coordSys ≠ .ship)
      (hxy : (steps a b).foldlM oneStep x = .ok y) =>
    (show (steps b a).foldlM oneStep y = .ok x by
      rw [steps_swap]; exact (foldlM_undo _ hx hsx hxy).1)
  by_cases hmid : i ≤ k ∧ k ≤ j ∨ j ≤ k ∧ k ≤ i
  · exact app ds d1 d2 (split_app hmid hil hkl hjl) h1 h2
  · -- the path turns around at `k`: either `j` lies between `i` and `k`, or `i` between `j` and `k`
    rcases (by omega : (i ≤ j ∧ j ≤ k ∨ k ≤ j ∧ j ≤ i) ∨ (k ≤ i ∧ i ≤ j ∨ j ≤ i ∧ i ≤ k)) with hc | hc
    · rw [split_app hc hil hjl hkl, List.foldlM_append] at h1
      cases hm : (steps i j).foldlM oneStep ds with
      | error e => rw [hm] at h1; cases h1
      | ok y =>
        rw [hm] at h1
        have hy : (steps j k).foldlM oneStep y = .ok d1 := h1
        have hys := foldlM_same _ hm
        have hpy := foldlM_frame hi hm
        have := undo j k y d1 (Rotatable.of_same hys hr) hpy.ne_ship hy
        rw [h2] at this
        exact this.symm
    · rw [split_app hc hkl hil hjl, List.foldlM_append] at h2
      have hb := undo i k ds d1 hr hi.ne_ship h1
      rw [hb] at h2
      exact h2

/-- **C04, why the head matrix must be orthonormal.** The code only checks that the determinant of
`inst2head_rotmat` is one; a shear has determinant one and breaks the round trip inst → beam → inst. -/
theorem rotate2_roundtrip_fails_shear :
    ∃ ds d1 d2 : RDS Unit, ds.coordSys = .inst ∧ rotate2 3 .beam ds = some (.ok d1) ∧
      rotate2 3 .inst d1 = some (.ok d2) ∧ ds ≠ d2 := by
  let R : M3 := !![1, 1, 0; 0, 1, 0; 0, 0, 1]
  let v0 : RVar Unit := ⟨"vel", 3, fun _ i => if i = 0 then 1 else 0⟩
  let mk : Frame → RVar Unit → RDS Unit := fun f v =>
    { inst := .vector, coordSys := f, vars := [v], beam2inst := some ⟨3, 1⟩, orientmat := none,
      calcOmat := fun _ => .error .unboundLocal, down := false, principalHeading := none,
      declination := none, heading := none, inst2head := some R, inst2headSet := true }
  have hR : checkRotmatDet R := by
    unfold checkRotmatDet
    simp [R, Matrix.det_fin_three]
  have hck : ∀ f v, checkInst2head (mk f v) = .ok true := by
    intro f v
    simp [checkInst2head, mk, hR]
  have b1 : ∀ v : RVar Unit, v.name = "vel" → v.n = 3 →
      beam2inst true (mk .inst v) = .ok (mk .beam (v.rot fun _ => R.transpose)) := by
    intro v hn h3
    have e1 : rotateInst2head true (mk .inst v) = .ok (mk .inst (v.rot fun _ => R.transpose)) := by
      unfold rotateInst2head
      rw [hck]
      simp [mk, hn, h3, Except.map, pure, Except.pure, bind, Except.bind]
    have e2 : beam2instBase true (mk .inst (v.rot fun _ => R.transpose))
        = .ok (mk .beam (v.rot fun _ => R.transpose)) := by
      rw [beam2instBase_ok (r := true) (ds := mk .inst (v.rot fun _ => R.transpose)) (B := ⟨3, 1⟩) rfl rfl (by simp)]
      simp only [mk, List.map_cons, List.map_nil, RVar.rot_n, h3, if_true, inv_one]
      rw [RVar.rot_one _ _ (fun _ => rfl)]
    show (match (mk .inst v).inst with
      | .vector => if true then do
            let ds ← rotateInst2head true (mk .inst v)
            beam2instBase true ds
          else do
            let ds ← beam2instBase false (mk .inst v)
            rotateInst2head false ds
      | _ => beam2instBase true (mk .inst v)) = _
    simp only [show (mk .inst v).inst = Inst.vector from rfl, if_true, bind, Except.bind, e1, e2]
  have b2 : ∀ v : RVar Unit, v.name = "vel" → v.n = 3 →
      beam2inst false (mk .beam v) = .ok (mk .inst (v.rot fun _ => R)) := by
    intro v hn h3
    have e1 : rotateInst2head false (mk .inst v) = .ok (mk .inst (v.rot fun _ => R)) := by
      unfold rotateInst2head
      rw [hck]
      simp [mk, hn, h3, Except.map, pure, Except.pure, bind, Except.bind]
    have e2 : beam2instBase false (mk .beam v) = .ok (mk .inst v) := by
      rw [beam2instBase_ok (r := false) (ds := mk .beam v) (B := ⟨3, 1⟩) rfl rfl (by simp)]
      simp only [mk, List.map_cons, List.map_nil, h3, if_true, Bool.false_eq_true, if_false]
      rw [RVar.rot_one _ _ (fun _ => rfl)]
    show (match (mk .beam v).inst with
      | .vector => if false then do
            let ds ← rotateInst2head true (mk .beam v)
            beam2instBase true ds
          else do
            let ds ← beam2instBase false (mk .beam v)
            rotateInst2head false ds
      | _ => beam2instBase false (mk .beam v)) = _
    simp only [show (mk .beam v).inst = Inst.vector from rfl, Bool.false_eq_true, if_false, bind,
      Except.bind, e1, e2]
  refine ⟨mk .inst v0, mk .beam (v0.rot fun _ => R.transpose),
    mk .inst ((v0.rot fun _ => R.transpose).rot fun _ => R), rfl, ?_, ?_, ?_⟩
  · rw [rotate2_eq (i := 1) (j := 0) 3 (mk .inst v0) .inst .beam le_rfl (by simp [mk]) (hck _ _)]
    rw [show steps 1 0 = [(0, true)] by decide]
    simp only [List.foldlM_cons, List.foldlM_nil, oneStep, b1 v0 rfl rfl]
    rfl
  · rw [rotate2_eq (i := 0) (j := 1) 3 (mk .beam (v0.rot fun _ => R.transpose)) .beam .inst le_rfl
      (by simp [mk]) (hck _ _)]
    rw [show steps 0 1 = [(0, false)] by decide]
    simp only [List.foldlM_cons, List.foldlM_nil, oneStep, b2 (v0.rot fun _ => R.transpose) rfl rfl]
    rfl
  · intro h
    have h1 := congrArg RDS.vars h
    simp only [mk, List.cons.injEq, and_true] at h1
    have h2 := congrArg (fun v : RVar Unit => v.val () 0) h1
    simp [v0, RVar.rot, applyM, Fin.sum_univ_three, R] at h2

end Dolfyn
