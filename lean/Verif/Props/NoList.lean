import Verif.Model.NoList
import Verif.Lemmas.RotatePath

/-! Rotations of datasets whose attribute `rotate_vars` is missing. -/

namespace Dolfyn

open Spec

variable {T : Type}

theorem baseNoList_err (r : Bool) (ds d : RDS T) : beam2instBaseNoList r ds ≠ .ok d := by
  unfold beam2instBaseNoList
  cases r <;> cases hb : ds.beam2inst <;> by_cases h1 : ds.coordSys = .beam <;> by_cases h2 : ds.coordSys = .inst <;>
    simp_all [throw, throwThe, MonadExceptOf.throw, bind, Except.bind]

theorem beam2instNoList_err (r : Bool) (ds d : RDS T) : beam2instNoList r ds ≠ .ok d := by
  intro h
  unfold beam2instNoList at h
  split at h
  · cases r
    · simp only [Bool.false_eq_true, if_false, bind, Except.bind] at h
      split at h
      · cases h
      · rename_i x hx
        exact baseNoList_err _ _ _ hx
    · simp only [if_true, bind, Except.bind] at h
      split at h
      · cases h
      · exact baseNoList_err _ _ _ h
  · exact baseNoList_err _ _ _ h

/-- Ship-frame data are refused before the list is looked at. -/
theorem beam2instNoList_ship {ds : RDS T} (hs : ds.coordSys = .ship) : beam2instNoList true ds = beam2inst true ds := by
  have hB : ∀ d : RDS T, d.coordSys = .ship → beam2instBaseNoList true d = beam2instBase true d := by
    intro d hd
    unfold beam2instBaseNoList beam2instBase
    simp [hd, throw, throwThe, MonadExceptOf.throw, bind, Except.bind]
  unfold beam2instNoList beam2inst
  cases ds.inst with
  | vector =>
    simp only [if_true, bind, Except.bind]
    cases hd : rotateInst2head true ds with
    | error e => rfl
    | ok d =>
      refine hB d ?_
      rcases rotateInst2head_cases hd with ⟨_, rfl⟩ | ⟨R, _, _, _, vs, _, rfl⟩ <;> exact hs
  | awac => exact hB ds hs
  | signature => exact hB ds hs
  | rdi => exact hB ds hs
  | unknown => exact hB ds hs

/-- States from which no beam rotation is reached. -/
def NoBeam (out : Frame) : Bool → RDS T → Prop
  | false, ds => ds.coordSys ≠ .beam
  | true, ds => ds.coordSys = out ∨ ds.coordSys = .ship ∨ ∃ i j, Pos ds.coordSys i ∧ Pos out j ∧ 1 ≤ j ∧ j < i

theorem loopNoList_eq {out : Frame} (r : Bool) : ∀ (fuel : ℕ) (ds : RDS T), NoBeam out r ds →
    rotateLoopNoList r out fuel ds = rotateLoop r out fuel ds
  | 0, ds, _ => rfl
  | fuel + 1, ds, h => by
    unfold rotateLoopNoList rotateLoop
    by_cases hc : ds.coordSys = out
    · rw [if_pos hc, if_pos hc]
    rw [if_neg hc, if_neg hc]
    cases hi : chainIndex (shipAsInst ds.coordSys) with
    | none => rfl
    | some inow =>
      simp only
      cases r with
      | false =>
        have h1 : 1 ≤ inow := by
          have hb : ds.coordSys ≠ .beam := h
          rcases Nat.eq_zero_or_pos inow with rfl | h
          · exfalso
            cases hf : ds.coordSys <;> rw [hf] at hi hb <;> simp [chainIndex, shipAsInst] at hi hb
          · exact h
        have hl : linkFunNoList (inow : ℤ) false ds = linkFun (inow : ℤ) false ds := by
          unfold linkFunNoList
          rw [if_neg (by omega)]
        simp only [Bool.false_eq_true, if_false, hl]
        cases hd : linkFun (inow : ℤ) false ds with
        | error e => rfl
        | ok d =>
          simp only
          refine loopNoList_eq false fuel d ?_
          have hk : inow < 4 := (pos_iff.mpr hi).lt
          rcases Nat.lt_or_ge inow 3 with h3 | h3
          · rw [linkFun_oneStep inow h3] at hd
            have := (oneStep_frame hd).1
            simp only [Bool.false_eq_true, if_false] at this
            intro hbm
            rw [hbm] at this
            exact absurd (Pos.fn this .beam) (by omega)
          · have : inow = 3 := by omega
            subst this
            simp [linkFun] at hd
      | true =>
        simp only [if_true]
        rcases h with h | h | ⟨i, j, h1, h2, h3, h4⟩
        · exact absurd h hc
        · rw [h] at hi
          have : inow = 1 := by simpa [shipAsInst, chainIndex] using hi.symm
          subst this
          have hl : linkFunNoList (((1 : ℕ) : ℤ) - 1) true ds = linkFun (((1 : ℕ) : ℤ) - 1) true ds := by
            unfold linkFunNoList
            rw [if_pos (by norm_num), beam2instNoList_ship h]
            unfold linkFun
            rw [if_pos (by norm_num)]
          rw [hl]
          cases hd : linkFun (((1 : ℕ) : ℤ) - 1) true ds with
          | error e => rfl
          | ok d =>
            exfalso
            have hb : beam2inst true ds = .ok d := by
              unfold linkFun at hd
              rwa [if_pos (by norm_num)] at hd
            have := (beam2inst_frame hb).2.2
            rw [h] at this
            simp at this
        · rw [h1.shipAsInst, pos_iff.mp h1] at hi
          have : i = inow := Option.some.inj hi
          subst this
          have hk := h1.lt
          have hcast : (i : ℤ) - 1 = ((i - 1 : ℕ) : ℤ) := by omega
          have hl : linkFunNoList ((i : ℤ) - 1) true ds = linkFun ((i : ℤ) - 1) true ds := by
            unfold linkFunNoList
            rw [if_neg (by omega)]
          rw [hl]
          cases hd : linkFun ((i : ℤ) - 1) true ds with
          | error e => rfl
          | ok d =>
            simp only
            refine loopNoList_eq true fuel d ?_
            rw [hcast, linkFun_oneStep (i - 1) (by omega)] at hd
            have hp := (oneStep_frame hd).1
            simp only [if_true] at hp
            rcases Nat.lt_or_ge j (i - 1) with hj | hj
            · exact Or.inr (Or.inr ⟨i - 1, j, hp, h2, h3, hj⟩)
            · have : i - 1 = j := by omega
              rw [this] at hp
              exact Or.inl (Pos.inj hp h2)

/-- **C186.** Without the list, a rotation between any frames other than `beam` does exactly what it does with the list
`['vel']`: the same result or the same exception. -/
theorem nolist_partial {out : Frame} (fuel : ℕ) (ds : RDS T) (hi : ds.coordSys ≠ .beam) (ho : out ≠ .beam) :
    rotate2NoList fuel out ds = rotate2 fuel out ds := by
  unfold rotate2NoList rotate2
  cases checkInst2head ds with
  | error e => rfl
  | ok b =>
    simp only
    by_cases hu : ds.inst = .unknown
    · rw [if_pos hu, if_pos hu]
    rw [if_neg hu, if_neg hu]
    cases hii : chainIndex (shipAsInst ds.coordSys) with
    | none => rfl
    | some iin =>
      cases hoo : chainIndex out with
      | none => rfl
      | some iout =>
        simp only
        refine loopNoList_eq _ fuel ds ?_
        have hpo : Pos out iout := pos_iff.mpr hoo
        have h1 : 1 ≤ iout := by
          rcases Nat.eq_zero_or_pos iout with rfl | h
          · exact absurd (Pos.inj hpo .beam) ho
          · exact h
        by_cases hlt : iin < iout
        · simp only [hlt, not_true, decide_false]
          exact hi
        · simp only [hlt, not_false_eq_true, decide_true]
          by_cases hs : ds.coordSys = .ship
          · exact Or.inr (Or.inl hs)
          · have hpi : Pos ds.coordSys iin := by
              rw [pos_iff]
              cases hf : ds.coordSys <;> rw [hf] at hii hs <;> simp_all [shipAsInst]
            rcases Nat.lt_or_ge iout iin with h | h
            · exact Or.inr (Or.inr ⟨iin, iout, hpi, hpo, h1, h⟩)
            · have : iin = iout := by omega
              subst this
              exact Or.inl (Pos.inj hpi hpo)

/-- **C186.** Without the list, no rotation out of beam coordinates returns. -/
theorem nolist_beam_never {out : Frame} (fuel : ℕ) (ds d : RDS T) (hi : ds.coordSys = .beam) (ho : out ≠ .beam) :
    rotate2NoList fuel out ds ≠ some (.ok d) := by
  intro h
  unfold rotate2NoList at h
  cases hck : checkInst2head ds with
  | error e => rw [hck] at h; simp at h
  | ok b =>
    rw [hck] at h
    simp only at h
    by_cases hu : ds.inst = .unknown
    · rw [if_pos hu] at h; simp at h
    rw [if_neg hu, hi, show chainIndex (shipAsInst .beam) = some 0 from rfl] at h
    simp only at h
    cases hoo : chainIndex out with
    | none => rw [hoo] at h; simp at h
    | some iout =>
      rw [hoo] at h
      simp only at h
      have h1 : 1 ≤ iout := by
        rcases Nat.eq_zero_or_pos iout with rfl | h'
        · exact absurd (Pos.inj (pos_iff.mpr hoo) .beam) ho
        · exact h'
      rw [show decide (¬ 0 < iout) = false from decide_eq_false (by omega)] at h
      have hc : ds.coordSys ≠ out := fun hh => ho (hh ▸ hi)
      cases fuel with
      | zero => unfold rotateLoopNoList at h; rw [if_neg hc] at h; cases h
      | succ f =>
        unfold rotateLoopNoList at h
        rw [if_neg hc, hi, show chainIndex (shipAsInst .beam) = some 0 from rfl] at h
        simp only [Bool.false_eq_true, if_false] at h
        cases hl : linkFunNoList ((0 : ℕ) : ℤ) false ds with
        | error e => rw [hl] at h; simp at h
        | ok x =>
          unfold linkFunNoList at hl
          rw [if_pos (by norm_num)] at hl
          exact beam2instNoList_err _ _ _ hl

theorem loopNoList_beam : ∀ (fuel : ℕ) (ds d : RDS T), ds.coordSys ≠ .beam →
    rotateLoopNoList true .beam fuel ds ≠ some (.ok d)
  | 0, ds, d, hi => by
    unfold rotateLoopNoList
    rw [if_neg hi]
    simp
  | fuel + 1, ds, d, hi => by
    intro h
    unfold rotateLoopNoList at h
    rw [if_neg hi] at h
    cases hn : chainIndex (shipAsInst ds.coordSys) with
    | none => rw [hn] at h; simp at h
    | some inow =>
      rw [hn] at h
      simp only [if_true] at h
      have hk : inow < 4 := (pos_iff.mpr hn).lt
      have h1 : 1 ≤ inow := by
        rcases Nat.eq_zero_or_pos inow with rfl | h'
        · exfalso
          cases hf : ds.coordSys <;> rw [hf] at hn hi <;> simp [chainIndex, shipAsInst] at hn hi
        · exact h'
      cases hl : linkFunNoList ((inow : ℤ) - 1) true ds with
      | error e => rw [hl] at h; simp at h
      | ok x =>
        rw [hl] at h
        simp only at h
        unfold linkFunNoList at hl
        by_cases h0 : (inow : ℤ) - 1 = 0
        · rw [if_pos h0] at hl
          exact beam2instNoList_err _ _ _ hl
        · rw [if_neg h0, show (inow : ℤ) - 1 = ((inow - 1 : ℕ) : ℤ) by omega,
            linkFun_oneStep (inow - 1) (by omega)] at hl
          have hp := (oneStep_frame hl).1
          simp only [if_true] at hp
          refine loopNoList_beam fuel x d (fun hb => ?_) h
          rw [hb] at hp
          exact absurd (Pos.fn hp .beam) (by omega)

/-- **C186.** Without the list, no rotation into beam coordinates returns. -/
theorem nolist_to_beam_never (fuel : ℕ) (ds d : RDS T) (hi : ds.coordSys ≠ .beam) :
    rotate2NoList fuel .beam ds ≠ some (.ok d) := by
  intro h
  unfold rotate2NoList at h
  cases hck : checkInst2head ds with
  | error e => rw [hck] at h; simp at h
  | ok b =>
    rw [hck] at h
    simp only at h
    by_cases hu : ds.inst = .unknown
    · rw [if_pos hu] at h; simp at h
    rw [if_neg hu, show chainIndex .beam = some 0 from rfl] at h
    cases hn : chainIndex (shipAsInst ds.coordSys) with
    | none => rw [hn] at h; simp at h
    | some iin =>
      rw [hn] at h
      simp only [Nat.not_lt_zero, not_false_eq_true, decide_true] at h
      exact loopNoList_beam fuel ds d hi h

/-- An upward Teledyne instrument in beam coordinates with the identity as beam matrix. -/
def noListWitness : RDS Unit where
  inst := .rdi
  coordSys := .beam
  vars := [⟨"vel", 4, fun _ _ => 1⟩]
  beam2inst := some ⟨4, 1⟩
  orientmat := some fun _ => 1
  calcOmat := fun _ => .error .keyError
  down := false
  principalHeading := none
  declination := none
  heading := none
  inst2head := none
  inst2headSet := false

/-- **C186, refuted.** In beam coordinates a dataset that can be rotated with the list `['vel']` raises AttributeError
without it, instead of warning and rotating `vel`. -/
theorem nolist_false : (∃ d, rotate2 3 .inst noListWitness = some (.ok d) ∧ d.coordSys = .inst) ∧
    rotate2NoList 3 .inst noListWitness = some (.error .attributeError) := by
  constructor
  · refine ⟨{ noListWitness with
      coordSys := .inst
      vars := [RVar.rot (n := 4) ⟨"vel", 4, fun _ _ => 1⟩ fun _ => 1] }, ?_, rfl⟩
    rfl
  · rfl

/-- `nolist_partial` is met by the same dataset in instrument coordinates, where the rotation succeeds. -/
example : ∃ d, rotate2NoList 3 .earth { noListWitness with coordSys := .inst } = some (.ok d) ∧ d.coordSys = .earth := by
  rw [nolist_partial 3 _ (by simp) (by decide)]
  refine ⟨{ noListWitness with
    coordSys := .earth
    vars := [RVar.rot (n := 3) ⟨"vel", 4, fun _ _ => 1⟩ fun _ => (1 : M3).transpose] }, ?_, rfl⟩
  rfl

end Dolfyn
