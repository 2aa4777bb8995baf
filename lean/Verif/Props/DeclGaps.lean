import Verif.Props.RotateGaps
import Verif.Lemmas.RotateDecl

/-!
C183 for `set_declination` and `set_inst2head_rotmat`, which rotate the data internally.
-/

namespace Dolfyn

open Spec

variable {T : Type}

/-- C183: `set_declination` on data with gaps: same error, or every value present afterwards is the one
obtained from the filled data. -/
theorem gap_declination_values (fuel : ℕ) (d : ℝ) (g : GDS T) (c : String → T → ℕ → ℝ) :
    sameRun within (setDeclination fuel d (filled c g)) (setDeclinationG fuel d g) := by
  obtain ⟨vs, he, hv⟩ := filled_within c g
  rw [he]
  unfold setDeclination setDeclinationG
  have ha : decAngle d { g.hdr with vars := vs } = decAngle d g.hdr := rfl
  simp only [ha]
  by_cases hcs : g.hdr.coordSys = .earth
  · rw [if_pos hcs, if_pos hcs]
    have h1 := rotate2_within fuel .inst
      (ds := { g.hdr with vars := vs, declination := none })
      (g := { g with hdr := { g.hdr with declination := none } }) ⟨vs, rfl, hv⟩
    generalize rotate2 fuel .inst { g.hdr with vars := vs, declination := none } = x at h1 ⊢
    generalize rotate2G fuel .inst ({ g with hdr := { g.hdr with declination := none } } : GDS T) = y at h1 ⊢
    rcases x with _ | (e | ds1) <;> rcases y with _ | (e' | g1)
    · trivial
    · exact h1.elim
    · exact h1.elim
    · exact h1.elim
    · exact h1
    · exact h1.elim
    · exact h1.elim
    · exact h1.elim
    · obtain ⟨ws, rfl, hw⟩ := h1
      dsimp only
      cases g1.hdr.orientmat with
      | none => rfl
      | some m =>
        dsimp only
        simp only [if_true]
        have h2 := rotate2_within fuel .earth
          (ds := { g1.hdr with
            vars := ws
            orientmat := some fun t => m t * (rotDec (decAngle d g.hdr)).transpose
            heading := g1.hdr.heading.map fun h t => h t + decAngle d g.hdr })
          (g := { g1 with hdr := { g1.hdr with
            orientmat := some fun t => m t * (rotDec (decAngle d g.hdr)).transpose
            heading := g1.hdr.heading.map fun h t => h t + decAngle d g.hdr } }) ⟨ws, rfl, hw⟩
        generalize rotate2 fuel .earth _ = x at h2 ⊢
        generalize rotate2G fuel .earth _ = y at h2 ⊢
        rcases x with _ | (e | ds3) <;> rcases y with _ | (e' | g3)
        · trivial
        · exact h2.elim
        · exact h2.elim
        · exact h2.elim
        · exact h2
        · exact h2.elim
        · exact h2.elim
        · exact h2.elim
        · obtain ⟨us, rfl, hu⟩ := h2
          exact ⟨us, rfl, hu⟩
  · rw [if_neg hcs, if_neg hcs]
    cases g.hdr.orientmat with
    | none => rfl
    | some m =>
      dsimp only
      simp only [Bool.false_eq_true, if_false]
      exact ⟨vs, rfl, hv⟩

/-- C183: `set_declination` outside earth coordinates leaves the data alone, gaps and values. -/
theorem gap_declination_other {fuel : ℕ} {d : ℝ} {g g' : GDS T} (hcs : g.hdr.coordSys ≠ .earth)
    (h : setDeclinationG fuel d g = some (.ok g')) : g'.vars = g.vars := by
  unfold setDeclinationG at h
  dsimp only at h
  rw [if_neg hcs] at h
  cases hm : g.hdr.orientmat with
  | none => rw [hm] at h; cases h
  | some m =>
    rw [hm] at h
    simp only [Bool.false_eq_true, if_false] at h
    cases h
    rfl

/-- C183: `set_declination` in earth coordinates loses every component that is mixed with a missing one between
instrument and earth coordinates, and no other. -/
theorem gap_declination_earth {fuel : ℕ} {d : ℝ} {g g' : GDS T} (hcs : g.hdr.coordSys = .earth)
    (h : setDeclinationG fuel d g = some (.ok g')) :
    List.Forall₂ (fun v w => spreads (if g.hdr.inst = .rdi then 3 else v.n) v w) g.vars g'.vars := by
  unfold setDeclinationG at h
  dsimp only at h
  rw [if_pos hcs] at h
  cases h1 : rotate2G fuel .inst ({ g with hdr := { g.hdr with declination := none } } : GDS T) with
  | none => rw [h1] at h; cases h
  | some x =>
    cases x with
    | error e => rw [h1] at h; cases h
    | ok g1 =>
      rw [h1] at h
      dsimp only at h
      have hp : Pos ({ g with hdr := { g.hdr with declination := none } } : GDS T).hdr.coordSys 2 := by
        show Pos g.hdr.coordSys 2
        rw [hcs]; exact .earth
      obtain ⟨a1, a2⟩ := gap_spread hp Pos.inst h1
      cases hm : g1.hdr.orientmat with
      | none => rw [hm] at h; cases h
      | some m =>
        rw [hm] at h
        simp only [if_true] at h
        cases h2 : rotate2G fuel .earth ({ g1 with hdr := { g1.hdr with
            orientmat := some fun t => m t * (rotDec (decAngle d g.hdr)).transpose
            heading := g1.hdr.heading.map fun h t => h t + decAngle d g.hdr } } : GDS T) with
        | none => rw [h2] at h; cases h
        | some y =>
          cases y with
          | error e => rw [h2] at h; cases h
          | ok g3 =>
            rw [h2] at h
            cases h
            have hq : Pos ({ g1 with hdr := { g1.hdr with
                orientmat := some fun t => m t * (rotDec (decAngle d g.hdr)).transpose
                heading := g1.hdr.heading.map fun h t => h t + decAngle d g.hdr } } : GDS T).hdr.coordSys 1 := by
              show Pos g1.hdr.coordSys 1
              rw [a1]; exact .inst
            obtain ⟨b1, b2⟩ := gap_spread hq Pos.earth h2
            refine forall₂_through a2 b2 fun u v w huv hvw => ?_
            have e1 : mixedPath ({ g.hdr with declination := none } : RDS T) u.name u.n 2 1 =
                if g.hdr.inst = .rdi then 3 else u.n := by
              unfold mixedPath
              simp [List.range'_succ, mixed_one]
            have hinst : g1.hdr.inst = g.hdr.inst := by rw [a1]
            rw [show ({ g with hdr := { g.hdr with declination := none } } : GDS T).hdr =
              ({ g.hdr with declination := none } : RDS T) from rfl, e1] at huv
            have e2 : mixedPath ({ g1.hdr with
                orientmat := some fun t => m t * (rotDec (decAngle d g.hdr)).transpose
                heading := g1.hdr.heading.map fun h t => h t + decAngle d g.hdr } : RDS T) v.name v.n 1 2 =
                if g.hdr.inst = .rdi then 3 else u.n := by
              unfold mixedPath
              simp [List.range'_succ, mixed_one, hinst, huv.2.1]
            dsimp only at hvw
            rw [e2] at hvw
            have := spreads_trans huv hvw
            rwa [max_self] at this

/-- C183: `set_inst2head_rotmat` on data with gaps: same error, or every value present afterwards is the one
obtained from the filled data. -/
theorem gap_head_values (fuel : ℕ) (R : M3) (g : GDS T) (c : String → T → ℕ → ℝ) :
    sameRun within (setInst2head fuel R (filled c g)) (setInst2headG fuel R g) := by
  have hw0 := filled_within c g
  generalize filled c g = ds at hw0 ⊢
  have hc : ds.coordSys = g.hdr.coordSys := by obtain ⟨vs, rfl, hv⟩ := hw0; rfl
  have hi : ds.inst = g.hdr.inst := by obtain ⟨vs, rfl, hv⟩ := hw0; rfl
  have hh : ds.inst2head = g.hdr.inst2head := by obtain ⟨vs, rfl, hv⟩ := hw0; rfl
  unfold setInst2head setInst2headG
  rw [hc, hi, hh]
  split
  · rfl
  · cases g.hdr.inst2head with
    | some _ => rfl
    | none =>
      dsimp only
      have hfin : ∀ (ds1 : RDS T) (g1 : GDS T), within ds1 g1 → sameRun within
          (match if g.hdr.coordSys ≠ .beam then rotateInst2head false { ds1 with inst2head := some R, inst2headSet := true }
              else .ok { ds1 with inst2head := some R, inst2headSet := true } with
            | .error e => some (.error e)
            | .ok ds3 => if g.hdr.coordSys ≠ .inst ∧ g.hdr.coordSys ≠ .beam then rotate2 fuel g.hdr.coordSys ds3 else some (.ok ds3))
          (match if g.hdr.coordSys ≠ .beam then rotateInst2headG false
                { g1 with hdr := { g1.hdr with inst2head := some R, inst2headSet := true } }
              else .ok { g1 with hdr := { g1.hdr with inst2head := some R, inst2headSet := true } } with
            | .error e => some (.error e)
            | .ok g3 => if g.hdr.coordSys ≠ .inst ∧ g.hdr.coordSys ≠ .beam then rotate2G fuel g.hdr.coordSys g3 else some (.ok g3)) := by
        intro ds1 g1 h1
        have h2 : within { ds1 with inst2head := some R, inst2headSet := true }
            ({ g1 with hdr := { g1.hdr with inst2head := some R, inst2headSet := true } } : GDS T) := by
          obtain ⟨ws, rfl, hw⟩ := h1
          exact ⟨ws, rfl, hw⟩
        have h3 : sameOutcome within
            (if g.hdr.coordSys ≠ .beam then rotateInst2head false { ds1 with inst2head := some R, inst2headSet := true }
              else .ok { ds1 with inst2head := some R, inst2headSet := true })
            (if g.hdr.coordSys ≠ .beam then rotateInst2headG false
                ({ g1 with hdr := { g1.hdr with inst2head := some R, inst2headSet := true } } : GDS T)
              else .ok { g1 with hdr := { g1.hdr with inst2head := some R, inst2headSet := true } }) := by
          split
          · exact head_within false h2
          · exact h2
        generalize (if g.hdr.coordSys ≠ .beam then rotateInst2head false { ds1 with inst2head := some R, inst2headSet := true }
              else .ok { ds1 with inst2head := some R, inst2headSet := true }) = x at h3 ⊢
        generalize (if g.hdr.coordSys ≠ .beam then rotateInst2headG false
                ({ g1 with hdr := { g1.hdr with inst2head := some R, inst2headSet := true } } : GDS T)
              else .ok { g1 with hdr := { g1.hdr with inst2head := some R, inst2headSet := true } }) = y at h3 ⊢
        cases x <;> cases y
        · exact h3
        · exact h3.elim
        · exact h3.elim
        · dsimp only
          split
          · exact rotate2_within fuel g.hdr.coordSys h3
          · exact h3
      by_cases hq : g.hdr.coordSys ≠ .inst ∧ g.hdr.coordSys ≠ .beam
      · rw [if_pos hq, if_pos hq]
        have h1 := rotate2_within fuel .inst hw0
        generalize rotate2 fuel .inst ds = x at h1 ⊢
        generalize rotate2G fuel .inst g = y at h1 ⊢
        rcases x with _ | (e | ds1) <;> rcases y with _ | (e' | g1)
        · trivial
        · exact h1.elim
        · exact h1.elim
        · exact h1.elim
        · exact h1
        · exact h1.elim
        · exact h1.elim
        · exact h1.elim
        · exact hfin ds1 g1 h1
      · rw [if_neg hq, if_neg hq]
        exact hfin ds g hw0

/-- C183: setting the head orientation of a Vector in instrument coordinates makes a velocity missing in all three
components where one is, and touches no gap of another variable. -/
theorem gap_head_inst {fuel : ℕ} {R : M3} {g g' : GDS T} (hcs : g.hdr.coordSys = .inst)
    (h : setInst2headG fuel R g = some (.ok g')) :
    List.Forall₂ (fun v w => spreads (if v.name = "vel" then 3 else 0) v w) g.vars g'.vars := by
  unfold setInst2headG at h
  split at h
  · cases h
  · cases hh : g.hdr.inst2head with
    | some _ => rw [hh] at h; cases h
    | none =>
      rw [hh] at h
      dsimp only at h
      rw [hcs] at h
      simp only [ne_eq, not_true, false_and, if_false, reduceCtorEq, not_false_eq_true, if_true] at h
      cases hr : rotateInst2headG false
          ({ g with hdr := { g.hdr with coordSys := .inst, inst2head := some R, inst2headSet := true } } : GDS T) with
      | error e => rw [hr] at h; cases h
      | ok g3 =>
        rw [hr] at h
        cases h
        obtain ⟨a1, a2⟩ := headG_spread hr
        refine a2.imp fun v w hvw => ?_
        have e : headMix ({ g.hdr with coordSys := .inst, inst2head := some R, inst2headSet := true } : RDS T) v.name =
            if v.name = "vel" then 3 else 0 := by
          unfold headMix; simp
        have := hvw.1
        rwa [e] at this

/-- C183: setting the head orientation in beam coordinates changes no value. -/
theorem gap_head_beam {fuel : ℕ} {R : M3} {g g' : GDS T} (hcs : g.hdr.coordSys = .beam)
    (h : setInst2headG fuel R g = some (.ok g')) : g'.vars = g.vars := by
  unfold setInst2headG at h
  split at h
  · cases h
  · cases hh : g.hdr.inst2head with
    | some _ => rw [hh] at h; cases h
    | none =>
      rw [hh] at h
      dsimp only at h
      rw [hcs] at h
      simp only [ne_eq, not_true, and_false, if_false] at h
      cases h
      rfl

/-- C183 (false of `set_declination`): setting the declination of earth-frame data, even the one that is already set,
loses the measured vertical velocity of a sample whose northward velocity is missing. -/
theorem gap_declination_false : ∃ g g' : GDS ℤ, Rotatable g.hdr ∧ g.hdr.declination = some 10 ∧
    setDeclinationG 3 10 g = some (.ok g') ∧
    ∃ v w, g.vars.head? = some v ∧ g'.vars.head? = some w ∧ v.val 5 2 = some 7 ∧ w.val 5 2 = none := by
  obtain ⟨g1, h1⟩ := gap_succeeds (fuel := 3) le_rfl
    (g := ({ exGaps .earth with hdr := { exDS .earth with declination := none } } : GDS ℤ)) (out := .inst)
    (i := 2) (j := 1) Pos.earth Pos.inst
    ⟨(exDS_rotatable .earth).omat, (exDS_rotatable .earth).tilt, (exDS_rotatable .earth).beam,
      (exDS_rotatable .earth).head⟩
    ⟨(exGaps_complete .earth).known, (exGaps_complete .earth).headCheck, (exGaps_complete .earth).beam,
      (exGaps_complete .earth).omat, (exGaps_complete .earth).heading, (exGaps_complete .earth).size,
      (exGaps_complete .earth).headVel⟩
  obtain ⟨a1, a2⟩ := gap_spread
    (g := ({ exGaps .earth with hdr := { exDS .earth with declination := none } } : GDS ℤ)) (i := 2) Pos.earth Pos.inst h1
  have hsize : ∀ w ∈ g1.vars, w.n = 3 := by
    have hall : ∀ v ∈ (exGaps .earth).vars, v.n = 3 := by
      intro v hv
      simp [exGaps] at hv
      rcases hv with rfl | rfl <;> rfl
    dsimp only at a2
    generalize (exGaps .earth).vars = l at a2 hall
    generalize g1.vars = m at a2
    induction a2 with
    | nil => intro w hw; cases hw
    | cons h1 _ ih =>
      intro w hw
      rcases List.mem_cons.mp hw with rfl | hw
      · rw [h1.2.1]; exact hall _ (by simp)
      · exact ih (fun v hv => hall v (by simp [hv])) w hw
  have hang : decAngle 10 (exGaps .earth).hdr = 0 := by simp [decAngle, exGaps, exDS]
  have hom : g1.hdr.orientmat = (exDS .earth).orientmat := by rw [a1]
  have hom2 : (exDS .earth).orientmat = some fun _ => !![0, 1, 0; -1, 0, 0; 0, 0, 1] := rfl
  obtain ⟨g3, h3⟩ := gap_succeeds (fuel := 3) le_rfl
    (g := ({ g1 with hdr := { g1.hdr with
      orientmat := some fun t => (fun _ => !![0, 1, 0; -1, 0, 0; 0, 0, 1] : ℤ → M3) t *
        (rotDec (decAngle 10 (exGaps .earth).hdr)).transpose
      heading := g1.hdr.heading.map fun h t => h t + decAngle 10 (exGaps .earth).hdr } } : GDS ℤ)) (out := .earth)
    (i := 1) (j := 2) (by dsimp only; rw [a1]; exact .inst) Pos.earth
    (by
      rw [hang, rotDec_zero, Matrix.transpose_one, a1]
      simp only [mul_one]
      exact ⟨(exDS_rotatable .earth).omat, (exDS_rotatable .earth).tilt, (exDS_rotatable .earth).beam,
        (exDS_rotatable .earth).head⟩)
    (by
      refine ⟨?_, ?_, ?_, Or.inl (by simp [filled]), ?_, ?_, ?_⟩
      · rw [a1]; exact (exGaps_complete .earth).known
      · rw [a1]; exact ⟨false, rfl⟩
      · rw [a1]; exact ⟨_, rfl⟩
      · rw [a1]; exact (exGaps_complete .earth).heading
      · intro v hv
        obtain ⟨w, hw, rfl⟩ := List.mem_map.mp hv
        exact Or.inl (hsize w hw)
      · rw [a1]; intro h; exact absurd rfl h)
  have hs : ∃ g', setDeclinationG 3 10 (exGaps .earth) = some (.ok g') := by
    unfold setDeclinationG
    dsimp only
    rw [if_pos (by rfl)]
    have e : rotate2G 3 .inst (⟨{ (exGaps .earth).hdr with declination := none },
        (exGaps .earth).vars⟩ : GDS ℤ) = some (.ok g1) := h1
    rw [e]
    dsimp only
    rw [hom, hom2]
    simp only [if_true]
    rw [h3]
    exact ⟨_, rfl⟩
  obtain ⟨g', h⟩ := hs
  refine ⟨exGaps .earth, g', exDS_rotatable .earth, rfl, h, ?_⟩
  have b := gap_declination_earth (g := exGaps .earth) rfl h
  generalize g'.vars = l2 at b ⊢
  cases b with
  | cons h1 h2 =>
    refine ⟨_, _, rfl, rfl, by norm_num, ?_⟩
    refine (h1.2.2 5 2).mpr (Or.inr ?_)
    rw [if_neg (by simp [exGaps, exDS])]
    exact ⟨by norm_num, 1, by norm_num, by simp⟩

/-- Non-vacuity of `gap_head_inst`. -/
example : ∃ g', setInst2headG 3 1 (exGaps .inst) = some (.ok g') := by
  refine ⟨?_, ?_⟩
  rotate_left
  · unfold setInst2headG rotateInst2headG checkInst2head checkRotmatDet
    simp only [exGaps, exDS, ne_eq, not_true, if_false, false_and, reduceCtorEq, not_false_eq_true, if_true,
      Matrix.det_one, sub_self, abs_zero, List.mapM_cons, List.mapM_nil]
    norm_num
    rfl

/-- Non-vacuity of `gap_head_beam` and `gap_declination_other`. -/
example : (∃ g', setInst2headG 3 1 (exGaps .beam) = some (.ok g')) ∧
    ∃ g', setDeclinationG 3 20 (exGaps .beam) = some (.ok g') := by
  constructor
  · unfold setInst2headG
    simp only [exGaps, exDS, ne_eq, not_true, if_false, and_false]
    exact ⟨_, rfl⟩
  · unfold setDeclinationG
    simp only [exGaps, exDS, reduceCtorEq, if_false]
    exact ⟨_, rfl⟩

end Dolfyn
