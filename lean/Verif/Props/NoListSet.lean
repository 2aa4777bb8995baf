import Verif.Model.NoListSet
import Verif.Props.NoList

/-! Setting the declination and the head orientation of datasets whose attribute `rotate_vars` is missing. -/

namespace Dolfyn

open Spec

variable {T : Type}

theorem rotateLoop_target {out : Frame} (r : Bool) : ∀ (fuel : ℕ) (ds d : RDS T),
    rotateLoop r out fuel ds = some (.ok d) → d.coordSys = out
  | 0, ds, d, h => by
    unfold rotateLoop at h
    by_cases hc : ds.coordSys = out
    · rw [if_pos hc] at h
      cases h
      exact hc
    · rw [if_neg hc] at h
      cases h
  | fuel + 1, ds, d, h => by
    unfold rotateLoop at h
    by_cases hc : ds.coordSys = out
    · rw [if_pos hc] at h
      cases h
      exact hc
    · rw [if_neg hc] at h
      split at h
      · cases h
      · split at h
        · cases h
        · exact rotateLoop_target r fuel _ d h

theorem rotate2_target {out : Frame} {fuel : ℕ} {ds d : RDS T} (h : rotate2 fuel out ds = some (.ok d)) :
    d.coordSys = out := by
  unfold rotate2 at h
  split at h
  · cases h
  · split at h
    · cases h
    · split at h
      · cases h
      · split at h
        · cases h
        · exact rotateLoop_target _ _ _ _ h

/-- **C186.** Setting the declination needs no list, whatever frame the data are in. -/
theorem nolist_declination (fuel : ℕ) (declin : ℝ) (ds : RDS T) :
    setDeclinationNoList fuel declin ds = setDeclination fuel declin ds := by
  unfold setDeclinationNoList setDeclination
  by_cases he : ds.coordSys = .earth
  · have hr := nolist_partial (out := .inst) fuel { ds with declination := none } (by simp [he]) (by decide)
    simp only [if_pos he, if_true]
    rw [hr]
    rcases h : rotate2 fuel .inst { ds with declination := none } with _ | (e | d)
    · rfl
    · rfl
    · simp only
      cases hm : d.orientmat with
      | none => rfl
      | some m =>
        simp only
        rw [nolist_partial fuel _ (by simp [rotate2_target h]) (by decide)]
        generalize rotate2 fuel .earth _ = x
        rcases x with _ | (e | d3) <;> rfl
  · simp only [he, if_false, Bool.false_eq_true]
    cases ds.orientmat <;> rfl

/-- Earth-frame data of a Teledyne instrument without the list get the declination. -/
example : ∃ d, setDeclinationNoList 3 15 { noListWitness with coordSys := .earth } = some (.ok d) ∧
    d.coordSys = .earth ∧ d.declination = some 15 := ⟨_, rfl, rfl, rfl⟩

/-- **C186.** Nor does setting the orientation of the head. -/
theorem nolist_head (fuel : ℕ) (R : M3) (ds : RDS T) :
    setInst2headNoList fuel R ds = setInst2head fuel R ds := by
  unfold setInst2headNoList setInst2head
  by_cases hv : ds.inst ≠ .vector
  · rw [if_pos hv, if_pos hv]
  rw [if_neg hv, if_neg hv]
  cases hh : ds.inst2head with
  | some _ => rfl
  | none =>
    simp only
    by_cases hc : ds.coordSys ≠ .inst ∧ ds.coordSys ≠ .beam
    · simp only [if_pos hc, if_pos hc.2]
      rw [nolist_partial fuel ds hc.2 (by decide)]
      rcases h : rotate2 fuel .inst ds with _ | (e | d)
      · rfl
      · rfl
      · simp only
        have hd := rotate2_target h
        cases h3 : rotateInst2head false { d with inst2head := some R, inst2headSet := true } with
        | error e => rfl
        | ok d3 =>
          simp only
          refine nolist_partial fuel d3 ?_ hc.2
          have : d3.coordSys = d.coordSys := by
            rcases rotateInst2head_cases h3 with ⟨_, rfl⟩ | ⟨R', _, _, _, vs, _, rfl⟩ <;> rfl
          rw [this, hd]
          decide
    · simp only [if_neg hc]
      by_cases hb : ds.coordSys = .beam
      · simp only [hb, ne_eq, not_true, if_false]
      · simp only [hb, ne_eq, not_false_eq_true, if_true]
        cases rotateInst2head false { ds with inst2head := some R, inst2headSet := true } <;> rfl

/-- A Vector in instrument coordinates without the list gets its head orientation. -/
example : (∃ d, setInst2headNoList 3 (1 : M3) { noListWitness with
    inst := .vector, coordSys := .inst, vars := [⟨"vel", 3, fun _ _ => 1⟩] } = some (.ok d) ∧ d.inst2headSet = true) := by
  have hk : checkRotmatDet (1 : M3) := by unfold checkRotmatDet; norm_num
  simp [setInst2headNoList, noListWitness, rotateInst2head, checkInst2head, hk, Except.map, pure, Except.pure]
  exact ⟨_, rfl, rfl⟩

end Dolfyn
