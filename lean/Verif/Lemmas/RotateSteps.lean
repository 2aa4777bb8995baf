import Verif.Lemmas.Rotate
import Verif.Spec.Rotate

/-! Each single rotation step undoes the opposite step. -/

namespace Dolfyn

open Spec

variable {T : Type}

/-- The fields that no rotation step changes. -/
def SameFrameInfo (a b : RDS T) : Prop :=
  { a with vars := [], coordSys := .other } = { b with vars := [], coordSys := .other }

theorem Rotatable.of_same {a b : RDS T} (h : SameFrameInfo a b) (hr : Rotatable a) :
    Rotatable b := by
  obtain ⟨_, _, _, _, _, _, _, _, _, _, _, _⟩ := a
  obtain ⟨_, _, _, _, _, _, _, _, _, _, _, _⟩ := b
  simp only [SameFrameInfo, RDS.mk.injEq, true_and] at h
  obtain ⟨rfl, rfl, rfl, rfl, rfl, rfl, rfl, rfl, rfl, rfl⟩ := h
  exact ⟨hr.omat, hr.tilt, hr.beam, hr.head⟩

theorem effOmat_uses {ds : RDS T} {m : T → M3} (h : effOmat ds = .ok m) : UsesOmat ds m := by
  unfold effOmat at h
  cases ho : ds.orientmat with
  | some m' => rw [ho] at h; left; rw [ho]; cases h; rfl
  | none => rw [ho] at h; right; exact ⟨ho, _, h⟩

theorem effOmat_congr {ds : RDS T} {vs : List (RVar T)} {f : Frame}
    (h1 : ds.coordSys ≠ .ship) (h2 : f ≠ .ship) :
    effOmat { ds with vars := vs, coordSys := f } = effOmat ds := by
  unfold effOmat
  simp [h1, h2]

/-- `rotateInst2head` succeeds only in two ways. -/
theorem rotateInst2head_cases {r : Bool} {ds ds' : RDS T} (h : rotateInst2head r ds = .ok ds') :
    (ds.inst2head = none ∧ ds' = ds) ∨
    ∃ R, ds.inst2head = some R ∧ ds.inst2headSet = true ∧ checkRotmatDet R ∧
      ∃ vs, ds.vars.mapM (fun v => if v.name = "vel" then
          if v.n = 3 then Except.ok (v.rot fun _ => if r then R.transpose else R)
          else Except.error Err.valueError
        else Except.ok v) = .ok vs ∧ ds' = { ds with vars := vs } := by
  unfold rotateInst2head at h
  cases hi : ds.inst2head with
  | none =>
    simp only [checkInst2head, hi] at h
    left
    cases h; exact ⟨rfl, rfl⟩
  | some R =>
    right
    simp only [checkInst2head, hi] at h
    by_cases hs : ds.inst2headSet = false
    · simp only [hs, if_true] at h; cases h
    · by_cases hd : checkRotmatDet R
      · simp only [hs, hd, not_true, if_false, Bool.true_eq_false] at h
        refine ⟨R, rfl, by simpa using hs, hd, ?_⟩
        simp only [Except.map] at h
        split at h
        · cases h
        · rename_i vs hvs
          refine ⟨vs, hvs, ?_⟩
          cases h
          ext1 <;> simp_all
      · simp only [hs, hd, not_false_eq_true, if_true, if_false] at h; cases h

theorem rotateInst2head_undo (r : Bool) {ds ds' : RDS T} (hr : Rotatable ds)
    (h : rotateInst2head r ds = .ok ds') :
    rotateInst2head (!r) ds' = .ok ds ∧ SameFrameInfo ds ds' ∧ ds'.coordSys = ds.coordSys := by
  rcases rotateInst2head_cases h with ⟨hi, rfl⟩ | ⟨R, hi, hs, hd, vs, hvs, rfl⟩
  · refine ⟨?_, rfl, rfl⟩
    simp only [rotateInst2head, checkInst2head, hi]
  · refine ⟨?_, rfl, rfl⟩
    have hback := mapM_roundtrip (g := fun v => if v.name = "vel" then
          if v.n = 3 then Except.ok (v.rot fun _ => if !r then R.transpose else R)
          else Except.error Err.valueError
        else Except.ok v) ds.vars vs (by
      intro a _ b hab
      have hR := hr.head R hi
      by_cases hn : a.name = "vel"
      · by_cases h3 : a.n = 3
        · simp only [hn, h3, if_true] at hab
          cases hab
          simp only [RVar.rot_name, RVar.rot_n, hn, h3, if_true]
          congr 1
          apply RVar.rot_cancel
          intro _
          cases r
          · exact orth_comm hR
          · exact hR
        · simp only [hn, h3, if_true, if_false] at hab; cases hab
      · simp only [hn, if_false] at hab
        cases hab
        simp only [hn, if_false]) hvs
    simp only [rotateInst2head, checkInst2head, hi, hs, hd, Bool.true_eq_false, not_true, if_false]
    rw [hback, ← hi, ← hs]
    rfl

theorem beam2instBase_cases {r : Bool} {ds ds' : RDS T} (h : beam2instBase r ds = .ok ds') :
    ds.coordSys = (if r then .inst else .beam) ∧ ∃ B, ds.beam2inst = some B ∧
      (r = true → B.mat.det ≠ 0) ∧
      ds' = { ds with
        vars := ds.vars.map fun v =>
          if v.n = B.n then v.rot (fun _ => if r then B.mat⁻¹ else B.mat) else v
        coordSys := if r then .beam else .inst } := by
  unfold beam2instBase at h
  cases r
  · by_cases hc : ds.coordSys = .beam
    · simp only [hc, ne_eq, not_true, and_false, if_false] at h
      cases hb : ds.beam2inst with
      | none => rw [hb] at h; cases h
      | some B =>
        rw [hb] at h
        refine ⟨by simpa using hc, B, rfl, by simp, ?_⟩
        simp at h
        cases h; rfl
    · simp [hc] at h; cases h
  · by_cases hc : ds.coordSys = .inst
    · simp only [hc, ne_eq, not_true, and_false, if_false] at h
      cases hb : ds.beam2inst with
      | none => rw [hb] at h; cases h
      | some B =>
        rw [hb] at h
        by_cases hdet : B.mat.det = 0
        · simp [hdet] at h; cases h
        · refine ⟨by simpa using hc, B, rfl, fun _ => hdet, ?_⟩
          simp [hdet] at h
          cases h; rfl
    · simp [hc] at h; cases h

theorem beam2instBase_ok {r : Bool} {ds : RDS T} {B : BeamMat}
    (hc : ds.coordSys = (if r then .inst else .beam)) (hb : ds.beam2inst = some B)
    (hdet : B.mat.det ≠ 0) :
    beam2instBase r ds = .ok { ds with
        vars := ds.vars.map fun v =>
          if v.n = B.n then v.rot (fun _ => if r then B.mat⁻¹ else B.mat) else v
        coordSys := if r then .beam else .inst } := by
  unfold beam2instBase
  cases r
  · simp at hc
    simp [hc, hb]; rfl
  · simp at hc
    simp [hc, hb, hdet]; rfl

theorem beam2instBase_undo (r : Bool) {ds ds' : RDS T} (hr : Rotatable ds)
    (h : beam2instBase r ds = .ok ds') :
    beam2instBase (!r) ds' = .ok ds ∧ SameFrameInfo ds ds'
      ∧ ds'.coordSys = (if r then .beam else .inst)
      ∧ ds.coordSys = (if r then .inst else .beam) := by
  obtain ⟨hc, B, hb, hdet, rfl⟩ := beam2instBase_cases h
  refine ⟨?_, rfl, rfl, hc⟩
  have hB := hr.beam B hb
  have hu : IsUnit B.mat.det := isUnit_iff_ne_zero.mpr hB
  have hback : (ds.vars.map fun v =>
        if v.n = B.n then v.rot (fun _ => if r then B.mat⁻¹ else B.mat) else v).map (fun v =>
        if v.n = B.n then v.rot (fun _ => if !r then B.mat⁻¹ else B.mat) else v) = ds.vars := by
    rw [List.map_map]
    conv_rhs => rw [← List.map_id ds.vars]
    apply List.map_congr_left
    intro v _
    simp only [Function.comp]
    by_cases hv : v.n = B.n
    · simp only [hv, if_true, RVar.rot_n]
      apply RVar.rot_cancel
      intro _
      cases r
      · simpa using Matrix.nonsing_inv_mul _ hu
      · simpa using Matrix.mul_nonsing_inv _ hu
    · simp [hv]
  refine (beam2instBase_ok (r := !r) (B := B) (ds := { ds with
      vars := _, coordSys := if r then .beam else .inst }) (by cases r <;> rfl) hb hB).trans ?_
  congr 1
  ext1 <;> first | rfl | skip
  · cases r <;> simp [hc]
  · exact hback

/-- Successful Nortek inst ↔ earth step. -/
theorem inst2earthNortek_iff {r : Bool} {ds ds' : RDS T} :
    inst2earthNortek r ds = .ok ds' ↔
      ds.coordSys = (if r then .earth else .inst) ∧ ∃ m, effOmat ds = .ok m ∧ ∃ vs,
        ds.vars.mapM (fun v => if v.n ≠ 3 then Except.error Err.exception
          else Except.ok (v.rot fun t => if r then m t else (m t).transpose)) = .ok vs ∧
        ds' = { ds with vars := vs, coordSys := if r then .inst else .earth } := by
  unfold inst2earthNortek
  by_cases hc : ds.coordSys = (if r then .earth else .inst)
  · cases hm : effOmat ds with
    | error e =>
      simp only [hc, ne_eq, not_true, if_false, bind, Except.bind, pure, Except.pure, throw,
        throwThe, MonadExceptOf.throw]
      simp
    | ok m =>
      simp only [hc, ne_eq, not_true, if_false, bind, Except.bind, pure, Except.pure]
      split
      · rename_i e he
        simp only [reduceCtorEq, Except.ok.injEq, exists_eq_left', true_and, false_iff]
        rintro ⟨vs, h1, h2⟩
        rw [h1] at he; cases he
      · rename_i vs hvs
        simp only [Except.ok.injEq, exists_eq_left', true_and]
        constructor
        · intro h; exact ⟨vs, hvs, h.symm⟩
        · rintro ⟨vs', h1, h2⟩
          rw [hvs] at h1; cases h1; exact h2.symm
  · simp only [hc, ne_eq, not_false_eq_true, if_true, false_and, iff_false]
    intro h; cases h

theorem inst2earthNortek_undo (r : Bool) {ds ds' : RDS T} (hr : Rotatable ds)
    (h : inst2earthNortek r ds = .ok ds') :
    inst2earthNortek (!r) ds' = .ok ds ∧ SameFrameInfo ds ds'
      ∧ ds'.coordSys = (if r then .inst else .earth)
      ∧ ds.coordSys = (if r then .earth else .inst) := by
  obtain ⟨hc, m, hm, vs, hvs, rfl⟩ := inst2earthNortek_iff.mp h
  refine ⟨?_, rfl, rfl, hc⟩
  have ho := hr.omat m (effOmat_uses hm)
  rw [inst2earthNortek_iff]
  refine ⟨by cases r <;> rfl, m, ?_, ds.vars, ?_, ?_⟩
  · rw [effOmat_congr (by rw [hc]; cases r <;> simp) (by cases r <;> simp)]; exact hm
  · apply mapM_roundtrip ds.vars vs _ hvs
    intro a _ b hab
    by_cases h3 : a.n = 3
    · simp only [h3, ne_eq, not_true, if_false] at hab
      cases hab
      simp only [RVar.rot_n, h3, ne_eq, not_true, if_false]
      congr 1
      apply RVar.rot_cancel
      intro t
      cases r
      · exact ho t
      · exact orth_comm (ho t)
    · simp only [h3, ne_eq, not_false_eq_true, if_true] at hab; cases hab
  · ext1 <;> first | rfl | skip
    cases r <;> simp [hc]

theorem inst2earthRdi_iff {r : Bool} {ds ds' : RDS T} :
    inst2earthRdi r ds = .ok ds' ↔
      (if r then ds.coordSys = .earth else ds.coordSys = .inst ∨ ds.coordSys = .ship) ∧
      ∃ m, effOmat ds = .ok m ∧ ∃ vs,
        ds.vars.mapM (fun v => if v.n < 3 then Except.error Err.valueError
          else Except.ok (v.rot fun t => if r then m t else (m t).transpose)) = .ok vs ∧
        ds' = { ds with vars := vs, coordSys := if r then .inst else .earth } := by
  unfold inst2earthRdi
  by_cases hc : (if r then ds.coordSys = .earth else ds.coordSys = .inst ∨ ds.coordSys = .ship)
  · have h1 : ¬ (r = true ∧ ds.coordSys ≠ .earth) := by cases r <;> simp_all
    have h2 : ¬ (r = false ∧ ds.coordSys ≠ .inst ∧ ds.coordSys ≠ .ship) := by
      cases r
      · simp at hc ⊢; rcases hc with hc | hc <;> simp [hc]
      · simp
    cases hm : effOmat ds with
    | error e =>
      simp only [hc, h1, h2, if_false, bind, Except.bind, pure, Except.pure]
      simp
    | ok m =>
      simp only [hc, h1, h2, if_false, bind, Except.bind, pure, Except.pure]
      split
      · rename_i e he
        simp only [reduceCtorEq, Except.ok.injEq, exists_eq_left', true_and, false_iff]
        rintro ⟨vs, h1, h2⟩
        rw [h1] at he; cases he
      · rename_i vs hvs
        simp only [Except.ok.injEq, exists_eq_left', true_and]
        constructor
        · intro h; exact ⟨vs, hvs, h.symm⟩
        · rintro ⟨vs', h1, h2⟩
          rw [hvs] at h1; cases h1; exact h2.symm
  · simp only [hc, false_and, iff_false]
    intro h
    cases r
    · simp at hc
      simp [hc.1, hc.2] at h; cases h
    · simp at hc
      simp [hc] at h; cases h

theorem inst2earthRdi_undo (r : Bool) {ds ds' : RDS T} (hr : Rotatable ds)
    (hship : ds.coordSys ≠ .ship) (h : inst2earthRdi r ds = .ok ds') :
    inst2earthRdi (!r) ds' = .ok ds ∧ SameFrameInfo ds ds'
      ∧ ds'.coordSys = (if r then .inst else .earth)
      ∧ ds.coordSys = (if r then .earth else .inst) := by
  obtain ⟨hc, m, hm, vs, hvs, rfl⟩ := inst2earthRdi_iff.mp h
  have hc' : ds.coordSys = (if r then .earth else .inst) := by
    cases r
    · simp at hc ⊢; rcases hc with hc | hc
      · exact hc
      · exact absurd hc hship
    · simpa using hc
  refine ⟨?_, rfl, rfl, hc'⟩
  have ho := hr.omat m (effOmat_uses hm)
  rw [inst2earthRdi_iff]
  refine ⟨by cases r <;> simp, m, ?_, ds.vars, ?_, ?_⟩
  · rw [effOmat_congr hship (by cases r <;> simp)]; exact hm
  · apply mapM_roundtrip ds.vars vs _ hvs
    intro a _ b hab
    by_cases h3 : a.n < 3
    · simp only [h3, if_true] at hab; cases hab
    · simp only [h3, if_false] at hab
      cases hab
      simp only [RVar.rot_n, h3, if_false]
      congr 1
      apply RVar.rot_cancel
      intro t
      cases r
      · exact ho t
      · exact orth_comm (ho t)
  · ext1 <;> first | rfl | skip
    cases r <;> simp [hc']

/-- The matrix used by the Signature step for a 3-component variable. -/
noncomputable def sigMat3 (r down : Bool) (R : M3) : M3 :=
  if down then if r then sign3 * R else R.transpose * sign3
  else if r then R else R.transpose

/-- The matrix used by the Signature step for a 4-component variable. -/
noncomputable def sigMat4 (r down : Bool) (R : M3) : M4 :=
  if down then if r then sign4 * (ext4 R.transpose)⁻¹ else ext4 R.transpose * sign4
  else if r then (ext4 R.transpose)⁻¹ else ext4 R.transpose

theorem sigMat3_cancel (r down : Bool) {R : M3} (h : Orthonormal R) :
    sigMat3 (!r) down R * sigMat3 r down R = 1 := by
  have h' : R.transpose * R = 1 := orth_comm h
  have h : R * R.transpose = 1 := h
  cases r <;> cases down <;> simp [sigMat3]
  · exact h
  · rw [Matrix.mul_assoc, ← Matrix.mul_assoc R, h, Matrix.one_mul, sign3_mul_self]
  · exact h'
  · rw [Matrix.mul_assoc, ← Matrix.mul_assoc sign3, sign3_mul_self, Matrix.one_mul, h']

theorem sigMat4_cancel (r down : Bool) {R : M3} (h : (ext4 R.transpose).det ≠ 0) :
    sigMat4 (!r) down R * sigMat4 r down R = 1 := by
  have hu : IsUnit (ext4 R.transpose).det := isUnit_iff_ne_zero.mpr h
  have h1 := Matrix.mul_nonsing_inv _ hu
  have h2 := Matrix.nonsing_inv_mul _ hu
  cases r <;> cases down <;> simp only [sigMat4, Bool.not_false, Bool.not_true, if_true,
    Bool.false_eq_true, if_false]
  · exact h2
  · rw [Matrix.mul_assoc, ← Matrix.mul_assoc (ext4 R.transpose)⁻¹, h2, Matrix.one_mul,
      sign4_mul_self]
  · exact h1
  · rw [Matrix.mul_assoc, ← Matrix.mul_assoc sign4, sign4_mul_self, Matrix.one_mul, h1]

theorem inst2earthSig_iff {r : Bool} {ds ds' : RDS T} :
    inst2earthSig r ds = .ok ds' ↔
      ds.coordSys = (if r then .earth else .inst) ∧ ∃ m, effOmat ds = .ok m ∧
        (r = true → ∀ t, (ext4 (m t).transpose).det ≠ 0) ∧ ∃ vs,
        ds.vars.mapM (fun v => if v.n = 3 then Except.ok (v.rot fun t => sigMat3 r ds.down (m t))
          else if v.n = 4 then Except.ok (v.rot fun t => sigMat4 r ds.down (m t))
          else Except.error Err.exception) = .ok vs ∧
        ds' = { ds with vars := vs, coordSys := if r then .inst else .earth } := by
  unfold inst2earthSig
  by_cases hc : ds.coordSys = (if r then .earth else .inst)
  · cases hm : effOmat ds with
    | error e =>
      simp only [hc, ne_eq, not_true, if_false, bind, Except.bind, pure, Except.pure]
      simp
    | ok m =>
      simp only [hc, ne_eq, not_true, if_false, bind, Except.bind, pure, Except.pure]
      by_cases hdet : r = true ∧ ∃ t, (ext4 (m t).transpose).det = 0
      · simp only [hdet, and_true, if_true, throw, throwThe, MonadExceptOf.throw, reduceCtorEq,
          false_iff, not_and, not_exists, true_and, Except.ok.injEq]
        rintro m' rfl h
        obtain ⟨t, ht⟩ := hdet.2
        exact absurd ht (h trivial t)
      · simp only [hdet, if_false]
        have hdet' : r = true → ∀ t, (ext4 (m t).transpose).det ≠ 0 := by
          intro h1 t h2; exact hdet ⟨h1, t, h2⟩
        have e : (fun v : RVar T => if v.n = 3 then Except.ok (v.rot fun t => sigMat3 r ds.down (m t))
          else if v.n = 4 then Except.ok (v.rot fun t => sigMat4 r ds.down (m t))
          else Except.error Err.exception) = (fun v => if v.n = 3 then
            Except.ok (v.rot fun t =>
              if ds.down = true then if r = true then sign3 * m t else (m t).transpose * sign3
              else if r = true then m t else (m t).transpose)
          else if v.n = 4 then
            Except.ok (v.rot fun t =>
              if ds.down = true then
                if r = true then sign4 * (ext4 (m t).transpose)⁻¹
                else ext4 (m t).transpose * sign4
              else if r = true then (ext4 (m t).transpose)⁻¹ else ext4 (m t).transpose)
          else Except.error Err.exception) := rfl
        rw [← e]
        split
        · rename_i e he
          simp only [reduceCtorEq, Except.ok.injEq, exists_eq_left', true_and, false_iff]
          rintro ⟨_, vs, h1, h2⟩
          rw [h1] at he; cases he
        · rename_i vs hvs
          simp only [Except.ok.injEq, exists_eq_left', true_and]
          constructor
          · intro h; exact ⟨hdet', vs, hvs, h.symm⟩
          · rintro ⟨_, vs', h1, h2⟩
            rw [hvs] at h1; cases h1; exact h2.symm
  · simp only [hc, ne_eq, not_false_eq_true, if_true, false_and, iff_false]
    intro h; cases h

theorem inst2earthSig_undo (r : Bool) {ds ds' : RDS T} (hi : ds.inst = .signature)
    (hr : Rotatable ds) (h : inst2earthSig r ds = .ok ds') :
    inst2earthSig (!r) ds' = .ok ds ∧ SameFrameInfo ds ds'
      ∧ ds'.coordSys = (if r then .inst else .earth)
      ∧ ds.coordSys = (if r then .earth else .inst) := by
  obtain ⟨hc, m, hm, hdet, vs, hvs, rfl⟩ := inst2earthSig_iff.mp h
  refine ⟨?_, rfl, rfl, hc⟩
  have ho := hr.omat m (effOmat_uses hm)
  have hd : ∀ t, (ext4 (m t).transpose).det ≠ 0 := by
    intro t
    rw [ext4_det, Matrix.det_transpose, Matrix.transpose_apply]
    exact mul_ne_zero (hr.tilt hi m (effOmat_uses hm) t) (orth_det_ne (ho t))
  rw [inst2earthSig_iff]
  refine ⟨by cases r <;> rfl, m, ?_, fun _ => hd, ds.vars, ?_, ?_⟩
  · rw [effOmat_congr (by rw [hc]; cases r <;> simp) (by cases r <;> simp)]; exact hm
  · apply mapM_roundtrip ds.vars vs _ hvs
    intro a _ b hab
    by_cases h3 : a.n = 3
    · simp only [h3, if_true] at hab
      cases hab
      simp only [RVar.rot_n, h3, if_true]
      congr 1
      apply RVar.rot_cancel
      intro t
      exact sigMat3_cancel r ds.down (ho t)
    · by_cases h4 : a.n = 4
      · simp only [h4, if_true, show ¬ ((4 : ℕ) = 3) by norm_num, if_false] at hab
        cases hab
        simp only [RVar.rot_n, h4, if_true, show ¬ ((4 : ℕ) = 3) by norm_num, if_false]
        congr 1
        apply RVar.rot_cancel
        intro t
        exact sigMat4_cancel r ds.down (hd t)
      · simp only [h3, h4, if_false] at hab; cases hab
  · ext1 <;> first | rfl | skip
    cases r <;> simp [hc]

theorem earth2principal_iff {r : Bool} {ds ds' : RDS T} :
    earth2principal r ds = .ok ds' ↔
      ∃ ph, ds.principalHeading = some ph ∧ ds.coordSys = (if r then .principal else .earth) ∧
        ∃ vs, ds.vars.mapM (fun v => if v.n < 2 then Except.error Err.valueError else
          Except.ok (v.rot fun _ => rot2 (if r then deg2rad (90 - ph) else -deg2rad (90 - ph)))) = .ok vs ∧
        ds' = { ds with vars := vs, coordSys := if r then .earth else .principal } := by
  unfold earth2principal
  cases hp : ds.principalHeading with
  | none =>
    simp [throw, throwThe, MonadExceptOf.throw]
  | some ph =>
    simp only [Option.some.injEq, exists_eq_left']
    by_cases hc : ds.coordSys = (if r then .principal else .earth)
    · simp only [hc, ne_eq, not_true, if_false, bind, Except.bind, pure, Except.pure, true_and]
      split
      · rename_i e he
        simp only [reduceCtorEq, false_iff]
        rintro ⟨vs, h1, h2⟩
        rw [h1] at he; cases he
      · rename_i vs hvs
        simp only [Except.ok.injEq]
        constructor
        · intro h; exact ⟨vs, hvs, h.symm⟩
        · rintro ⟨vs', h1, h2⟩
          rw [hvs] at h1; cases h1; exact h2.symm
    · simp only [hc, ne_eq, not_false_eq_true, if_true, false_and, iff_false]
      intro h; cases h

theorem earth2principal_undo (r : Bool) {ds ds' : RDS T}
    (h : earth2principal r ds = .ok ds') :
    earth2principal (!r) ds' = .ok ds ∧ SameFrameInfo ds ds'
      ∧ ds'.coordSys = (if r then .earth else .principal)
      ∧ ds.coordSys = (if r then .principal else .earth) := by
  obtain ⟨ph, hp, hc, vs, hvs, rfl⟩ := earth2principal_iff.mp h
  refine ⟨?_, rfl, rfl, hc⟩
  rw [earth2principal_iff]
  refine ⟨ph, hp, by cases r <;> rfl, ds.vars, ?_, ?_⟩
  · apply mapM_roundtrip ds.vars vs _ hvs
    intro a _ b hab
    by_cases h2 : a.n < 2
    · simp only [h2, if_true] at hab; cases hab
    · simp only [h2, if_false] at hab
      cases hab
      simp only [RVar.rot_n, h2, if_false]
      congr 1
      apply RVar.rot_cancel
      intro t
      cases r
      · simpa using rot2_mul_neg _
      · simpa using rot2_neg_mul _
  · ext1 <;> first | rfl | skip
    cases r <;> simp [hc]

theorem SameFrameInfo.symm {a b : RDS T} (h : SameFrameInfo a b) : SameFrameInfo b a := Eq.symm h
theorem SameFrameInfo.trans {a b c : RDS T} (h : SameFrameInfo a b) (h' : SameFrameInfo b c) :
    SameFrameInfo a c := Eq.trans h h'
theorem SameFrameInfo.inst_eq {a b : RDS T} (h : SameFrameInfo a b) : b.inst = a.inst := by
  have := congrArg RDS.inst h; simpa using this.symm
theorem SameFrameInfo.head_eq {a b : RDS T} (h : SameFrameInfo a b) :
    checkInst2head b = checkInst2head a := by
  have h1 := congrArg RDS.inst2head h
  have h2 := congrArg RDS.inst2headSet h
  simp only at h1 h2
  simp only [checkInst2head, h1, h2]

theorem beam2inst_undo (r : Bool) {ds ds' : RDS T} (hr : Rotatable ds)
    (h : beam2inst r ds = .ok ds') :
    beam2inst (!r) ds' = .ok ds ∧ SameFrameInfo ds ds'
      ∧ ds'.coordSys = (if r then .beam else .inst)
      ∧ ds.coordSys = (if r then .inst else .beam) := by
  by_cases hv : ds.inst = .vector
  · cases r
    · simp only [beam2inst, hv, Bool.false_eq_true, if_false, bind, Except.bind] at h
      split at h
      · cases h
      · rename_i d1 hd1
        obtain ⟨a1, a2, a3, a4⟩ := beam2instBase_undo false hr hd1
        obtain ⟨b1, b2, b3⟩ := rotateInst2head_undo false (Rotatable.of_same a2 hr) h
        refine ⟨?_, a2.trans b2, by rw [b3, a3], a4⟩
        have : ds'.inst = .vector := by rw [(a2.trans b2).inst_eq, hv]
        simp only [beam2inst, this, Bool.not_false, if_true, bind, Except.bind]
        simp only [Bool.not_false] at b1 a1
        rw [b1]; exact a1
    · simp only [beam2inst, hv, if_true, bind, Except.bind] at h
      split at h
      · cases h
      · rename_i d1 hd1
        obtain ⟨b1, b2, b3⟩ := rotateInst2head_undo true hr hd1
        obtain ⟨a1, a2, a3, a4⟩ := beam2instBase_undo true (Rotatable.of_same b2 hr) h
        refine ⟨?_, b2.trans a2, a3, by rw [← b3, a4]⟩
        have : ds'.inst = .vector := by rw [(b2.trans a2).inst_eq, hv]
        simp only [beam2inst, this, Bool.not_true, Bool.false_eq_true, if_false, bind, Except.bind]
        simp only [Bool.not_true] at b1 a1
        rw [a1]; exact b1
  · have key : ∀ (d : RDS T) (b : Bool), d.inst ≠ .vector → beam2inst b d = beam2instBase b d := by
      intro d b hd
      unfold beam2inst
      cases hi : d.inst <;> simp_all
    rw [key _ _ hv] at h
    obtain ⟨a1, a2, a3, a4⟩ := beam2instBase_undo r hr h
    refine ⟨?_, a2, a3, a4⟩
    rw [key _ _ (by rw [a2.inst_eq]; exact hv)]
    exact a1

theorem inst2earth_undo (r : Bool) {ds ds' : RDS T} (hr : Rotatable ds)
    (hship : ds.coordSys ≠ .ship) (h : inst2earth r ds = .ok ds') :
    inst2earth (!r) ds' = .ok ds ∧ SameFrameInfo ds ds'
      ∧ ds'.coordSys = (if r then .inst else .earth)
      ∧ ds.coordSys = (if r then .earth else .inst) := by
  unfold inst2earth at h
  cases hi : ds.inst <;> simp only [hi] at h
  case unknown => cases h
  case rdi =>
    obtain ⟨a1, a2, a3⟩ := inst2earthRdi_undo r hr hship h
    refine ⟨?_, a2, a3⟩
    have := a2.inst_eq
    unfold inst2earth; rw [this, hi]; exact a1
  case signature =>
    obtain ⟨a1, a2, a3⟩ := inst2earthSig_undo r hi hr h
    refine ⟨?_, a2, a3⟩
    have := a2.inst_eq
    unfold inst2earth; rw [this, hi]; exact a1
  all_goals
    obtain ⟨a1, a2, a3⟩ := inst2earthNortek_undo r hr h
    refine ⟨?_, a2, a3⟩
    have := a2.inst_eq
    unfold inst2earth; rw [this, hi]; exact a1

/-- The frame before (`side = false`) and after (`side = true`) link `i` of the chain. -/
def linkFrame (i : ℤ) (side : Bool) : Frame :=
  if i = 0 then if side then .inst else .beam
  else if i = 1 then if side then .earth else .inst
  else if i = 2 then if side then .principal else .earth
  else .other

theorem linkFun_undo (i : ℤ) (r : Bool) {ds ds' : RDS T} (hr : Rotatable ds)
    (hship : ds.coordSys ≠ .ship) (h : linkFun i r ds = .ok ds') :
    linkFun i (!r) ds' = .ok ds ∧ SameFrameInfo ds ds'
      ∧ ds'.coordSys = linkFrame i (!r) ∧ ds.coordSys = linkFrame i r
      ∧ 0 ≤ i ∧ i ≤ 2 := by
  unfold linkFun linkFrame at *
  by_cases h0 : i = 0
  · subst h0
    simp only [if_true] at h ⊢
    obtain ⟨a1, a2, a3, a4⟩ := beam2inst_undo r hr h
    refine ⟨a1, a2, ?_, ?_, by omega, by omega⟩
    · rw [a3]; cases r <;> rfl
    · rw [a4]
  by_cases h1 : i = 1
  · subst h1
    simp only [if_true, one_ne_zero, if_false] at h ⊢
    obtain ⟨a1, a2, a3, a4⟩ := inst2earth_undo r hr hship h
    refine ⟨a1, a2, ?_, ?_, by omega, by omega⟩
    · rw [a3]; cases r <;> rfl
    · rw [a4]
  by_cases h2 : i = 2
  · subst h2
    simp only [if_true, show ¬ ((2 : ℤ) = 0) by norm_num, show ¬ ((2 : ℤ) = 1) by norm_num,
      if_false] at h ⊢
    obtain ⟨a1, a2, a3, a4⟩ := earth2principal_undo r h
    refine ⟨a1, a2, ?_, ?_, by omega, by omega⟩
    · rw [a3]; cases r <;> rfl
    · rw [a4]
  · simp only [h0, h1, h2, if_false] at h
    split_ifs at h <;> cases h

end Dolfyn
