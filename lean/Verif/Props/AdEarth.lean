import Verif.Model.AdEarth
import Verif.Props.Ad2cpFile
import Verif.Props.Ad2cpBits
import Verif.Props.RdiEarth

/-!
C151: a Signature (AD2CP) file, read and rotated to the earth frame.
-/

namespace Dolfyn

open Spec

variable {T : Type}

/-! ### The rotations of a freshly read dataset -/

/-- Earth components from the components `v` along the axes of the instrument. -/
noncomputable def sigTurn (down : Bool) (O : M3) (n : ℕ) (v : ℕ → ℝ) : ℕ → ℝ :=
  if n = 3 then applyM (sigMat3 false down O) v else applyM (sigMat4 false down O) v

/-- Earth components from the components in the frame `f`; only as many components as there are beams are taken to be
along the beams. -/
noncomputable def sigToEarthBy (f : Frame) (B : BeamMat) (down : Bool) (O : M3) (n : ℕ) (v : ℕ → ℝ) : ℕ → ℝ :=
  match f with
  | .beam => sigTurn down O n (if n = B.n then applyM B.mat v else v)
  | .inst => sigTurn down O n v
  | _ => v

theorem mapM_i2e_sig {m : T → M3} {down : Bool} : ∀ {vs : List (RVar T)}, (∀ v ∈ vs, v.n = 3 ∨ v.n = 4) →
    vs.mapM (i2eVar .signature false down m) = .ok (vs.map fun v => { v with val := fun t => sigTurn down (m t) v.n (v.val t) })
  | [], _ => rfl
  | v :: vs, h => by
    rw [List.mapM_cons, mapM_i2e_sig (fun x hx => h x (by simp [hx]))]
    have : i2eVar .signature false down m v = .ok { v with val := fun t => sigTurn down (m t) v.n (v.val t) } := by
      unfold i2eVar sigTurn
      simp only
      rcases h v (by simp) with h3 | h4
      · rw [if_pos h3]
        unfold RVar.rot
        congr 2
        funext t
        rw [if_pos h3]
      · rw [if_neg (by omega), if_pos h4]
        unfold RVar.rot
        congr 2
        funext t
        rw [if_neg (by omega)]
    rw [this]
    rfl

theorem mapM_i2e_sig_ok {m : T → M3} {r down : Bool} : ∀ {vs : List (RVar T)}, (∀ v ∈ vs, v.n = 3 ∨ v.n = 4) →
    ∃ vs', vs.mapM (i2eVar .signature r down m) = .ok vs'
  | [], _ => ⟨[], rfl⟩
  | v :: vs, h => by
    obtain ⟨vs', h1⟩ := mapM_i2e_sig_ok (m := m) (r := r) (down := down) (vs := vs) (fun x hx => h x (by simp [hx]))
    obtain ⟨v', h2⟩ : ∃ v', i2eVar .signature r down m v = .ok v' := by
      unfold i2eVar
      simp only
      rcases h v (by simp) with h3 | h4
      · rw [if_pos h3]; exact ⟨_, rfl⟩
      · rw [if_neg (by omega), if_pos h4]; exact ⟨_, rfl⟩
    exact ⟨v' :: vs', by rw [List.mapM_cons, h2, h1]; rfl⟩

theorem inst2earth_sig {ds : RDS T} {m : T → M3} (hi : ds.inst = .signature)
    (hm : ds.orientmat = some m) (hv : ∀ v ∈ ds.vars, v.n = 3 ∨ v.n = 4) (hf : ds.coordSys = .inst) :
    inst2earth false ds = .ok { ds with
      vars := ds.vars.map fun v => { v with val := fun t => sigTurn ds.down (m t) v.n (v.val t) }
      coordSys := .earth } := by
  refine inst2earth_iff.mpr ⟨by rw [hi]; decide, Or.inl hf, m, effOmat_some hm, by simp, _, ?_, rfl⟩
  rw [hi]; exact mapM_i2e_sig hv

theorem beam2inst_sig {ds : RDS T} {B : BeamMat} (hi : ds.inst = .signature) (hb : ds.beam2inst = some B)
    (hf : ds.coordSys = .beam) :
    beam2inst false ds = .ok { ds with
      vars := ds.vars.map fun v => { v with val := fun t => if v.n = B.n then applyM B.mat (v.val t) else v.val t }
      coordSys := .inst } := by
  have hmap : (ds.vars.map fun v => if v.n = B.n then v.rot (fun _ => B.mat) else v) =
      ds.vars.map fun v => { v with val := fun t => if v.n = B.n then applyM B.mat (v.val t) else v.val t } := by
    refine List.map_congr_left fun v h => ?_
    by_cases hn : v.n = B.n
    · rw [if_pos hn]
      unfold RVar.rot
      congr 1
      funext t
      rw [if_pos hn]
    · rw [if_neg hn]
      simp only [if_neg hn]
  unfold beam2inst
  rw [hi]
  simp only
  obtain ⟨i, c, vars, bm, om, co, dn, ph, dc, hea, ih, ihs⟩ := ds
  simp only at hi hf hb hmap
  subst hi hf hb
  simp only [beam2instBase, Bool.false_eq_true, false_and, if_false, ne_eq, not_true_eq_false, and_false, hmap]
  rfl

/-- The rotation to the earth frame, from any frame the reader can deliver. -/
theorem rotate2_sig {ds : RDS T} {m : T → M3} {B : BeamMat} (hi : ds.inst = .signature)
    (hm : ds.orientmat = some m) (hb : ds.beam2inst = some B) (hh : ds.inst2head = none)
    (hv : ∀ v ∈ ds.vars, v.n = 3 ∨ v.n = 4) (hf : ds.coordSys = .beam ∨ ds.coordSys = .inst ∨ ds.coordSys = .earth) :
    rotate2 3 .earth ds = some (.ok { ds with
      vars := ds.vars.map fun v =>
        { v with val := fun t => sigToEarthBy ds.coordSys B ds.down (m t) v.n (v.val t) }
      coordSys := .earth }) := by
  have hu : ds.inst ≠ .unknown := by rw [hi]; decide
  have hck : checkInst2head ds = .ok false := by unfold checkInst2head; rw [hh]
  rcases hf with hf | hf | hf
  · rw [rotate2_eq (i := 0) (j := 2) 3 ds (by rw [hf]; exact .beam) .earth (le_refl 3) hu hck, steps_earth.1]
    simp only [List.foldlM_cons, List.foldlM_nil, oneStep, beam2inst_sig hi hb hf, bind, Except.bind]
    rw [inst2earth_sig (ds := { ds with vars := ds.vars.map fun v =>
        { v with val := fun t => if v.n = B.n then applyM B.mat (v.val t) else v.val t }, coordSys := .inst }) (m := m)
      hi hm (by
      intro v hx
      obtain ⟨x, hx', rfl⟩ := List.mem_map.mp hx
      exact hv x hx') rfl]
    simp only [List.map_map, hf]
    rfl
  · rw [rotate2_eq (i := 1) (j := 2) 3 ds (by rw [hf]; exact .inst) .earth (le_refl 3) hu hck, steps_earth.2.1]
    simp only [List.foldlM_cons, List.foldlM_nil, oneStep]
    rw [inst2earth_sig (m := m) hi hm hv hf, hf]
    rfl
  · rw [rotate2_earth_earth hu hf hck]
    have : (ds.vars.map fun v => { v with val := fun t => sigToEarthBy ds.coordSys B ds.down (m t) v.n (v.val t) }) =
        ds.vars := by
      conv_rhs => rw [← List.map_id ds.vars]
      rw [hf]
      rfl
    rw [this]
    obtain ⟨i, c, vars, bm, om, co, dn, ph, dc, hea, ih, ihs⟩ := ds
    simp only at hf
    subst hf
    rfl

theorem sigTurn_dec (down : Bool) (O : M3) (a : ℝ) {n : ℕ} (hn : n = 3 ∨ n = 4) (v : ℕ → ℝ) :
    sigTurn down (O * (rotDec a).transpose) n v = turnCW a (sigTurn down O n v) := by
  have e : (O * (rotDec a).transpose).transpose = rotDec a * O.transpose := by
    rw [Matrix.transpose_mul, Matrix.transpose_transpose]
  unfold sigTurn
  rcases hn with rfl | rfl
  · simp only [if_true, sigMat3, Bool.false_eq_true, if_false, e]
    cases down
    · simp only [Bool.false_eq_true, if_false]
      rw [applyM_mul, applyM_rotDec, applyM_cw]
    · simp only [if_true]
      rw [Matrix.mul_assoc, applyM_mul, applyM_rotDec, applyM_cw]
  · simp only [show ¬ (4 = 3) by decide, if_false, sigMat4, Bool.false_eq_true, e]
    cases down
    · simp only [Bool.false_eq_true, if_false]
      rw [applyM_ext4_rotDec, applyM_cw]
    · simp only [if_true]
      rw [applyM_mul, applyM_ext4_rotDec, applyM_cw, applyM_mul]

theorem sigToEarthBy_dec {f : Frame} (hf : f = .beam ∨ f = .inst) (B : BeamMat) (down : Bool) (O : M3) (a : ℝ) {n : ℕ}
    (hn : n = 3 ∨ n = 4) (v : ℕ → ℝ) :
    sigToEarthBy f B down (O * (rotDec a).transpose) n v = turnCW a (sigToEarthBy f B down O n v) := by
  rcases hf with rfl | rfl
  · exact sigTurn_dec down O a hn _
  · exact sigTurn_dec down O a hn _

/-- Setting the declination of a freshly read dataset, and the rotation to the earth frame. -/
theorem sig_decl_earth {ds : RDS T} {m : T → M3} {B : BeamMat} (hi : ds.inst = .signature)
    (hm : ds.orientmat = some m) (hb : ds.beam2inst = some B) (hh : ds.inst2head = none) (hd : ds.declination = none)
    (hv : ∀ v ∈ ds.vars, v.n = 3 ∨ v.n = 4) (hf : ds.coordSys = .beam ∨ ds.coordSys = .inst ∨ ds.coordSys = .earth)
    (dec : Option ℝ)
    (ho : ds.coordSys = .earth → dec ≠ none → B.mat.det ≠ 0 ∧ ∀ t, Orthonormal (m t) ∧ m t 2 2 ≠ 0) :
    ∃ d e, (match dec with
        | none => some (Except.ok ds)
        | some a => setDeclination 3 a ds) = some (.ok d) ∧
      d.coordSys = ds.coordSys ∧ d.declination = dec ∧
      d.heading = ds.heading.map (fun h t => h t + dec.getD 0) ∧
      rotate2 3 .earth d = some (.ok e) ∧ e.coordSys = .earth ∧
      e.vars = ds.vars.map fun v =>
        { v with val := fun t => turnCW (dec.getD 0) (sigToEarthBy ds.coordSys B ds.down (m t) v.n (v.val t)) } := by
  cases dec with
  | none =>
    refine ⟨ds, _, rfl, rfl, hd, ?_, rotate2_sig hi hm hb hh hv hf, rfl, ?_⟩
    · cases ds.heading <;> simp
    · simp only [Option.getD_none, turnCW_zero]
  | some a =>
    simp only [Option.getD_some]
    have hA : decAngle a ds = a := by simp [decAngle, hd]
    by_cases hfe : ds.coordSys = .earth
    · obtain ⟨hB, ho'⟩ := ho hfe (by simp)
      have hdet : ∀ t, (ext4 (m t).transpose).det ≠ 0 := by
        intro t
        rw [ext4_det]
        refine mul_ne_zero (ho' t).2 ?_
        rw [Matrix.det_transpose]
        intro h0
        have h1 := congrArg Matrix.det (show m t * (m t).transpose = 1 from (ho' t).1)
        rw [Matrix.det_mul, Matrix.det_transpose, h0, Matrix.det_one] at h1
        norm_num at h1
      have hr : Rotatable ds := by
        refine ⟨?_, ?_, ?_, ?_⟩
        · rintro m' (h | ⟨h, -⟩)
          · rw [hm] at h; cases h; exact fun t => (ho' t).1
          · rw [hm] at h; cases h
        · rintro - m' (h | ⟨h, -⟩)
          · rw [hm] at h; cases h; exact fun t => (ho' t).2
          · rw [hm] at h; cases h
        · intro B' h
          rw [hb] at h; cases h; exact hB
        · intro R h
          rw [hh] at h; cases h
      have hck : checkInst2head ds = .ok false := by unfold checkInst2head; rw [hh]
      obtain ⟨vs, hvs⟩ := mapM_i2e_sig_ok (m := m) (r := true) (down := ds.down) hv
      have h1 : inst2earth true ds = .ok { ds with vars := vs, coordSys := .inst } :=
        inst2earth_iff.mpr ⟨by rw [hi]; decide, Or.inl hfe, m, effOmat_some hm, fun _ _ => hdet, vs, by rw [hi]; exact hvs, rfl⟩
      have h2 := setDeclination_earth (fuel := 3) (declin := a) (le_refl 3) hr hfe hm hck h1
      rw [hA] at h2
      refine ⟨_, _, h2, rfl, rfl, rfl, rotate2_earth_earth (by show ds.inst ≠ _; rw [hi]; decide) hfe (b := false) ?_, hfe, ?_⟩
      · unfold checkInst2head decUpd
        simp only [hh]
      · refine List.map_congr_left fun v _ => ?_
        rw [rot_cw, hfe]
        rfl
    · have h2 := setDeclination_not_earth (fuel := 3) (declin := a) hfe hm
      rw [hA] at h2
      have hf' : ds.coordSys = .beam ∨ ds.coordSys = .inst := by tauto
      refine ⟨_, _, h2, rfl, rfl, rfl, rotate2_sig (ds := decUpd a a m ds)
        (m := fun t => m t * (rotDec a).transpose) (B := B) hi rfl hb hh hv hf, rfl, ?_⟩
      refine List.map_congr_left fun v hx => ?_
      simp only [decUpd, sigToEarthBy_dec hf' B ds.down _ a (hv v hx)]

/-! ### What the components should be -/

/-- An instrument turned over about its x axis. -/
def Spec.over (down : Bool) (v : ℕ → ℝ) : ℕ → ℝ := fun i => if down = true ∧ 0 < i then -v i else v i

/-- Another third component. -/
def Spec.withThird (v : ℕ → ℝ) (z : ℝ) : ℕ → ℝ := fun i => if i = 2 then z else v i

/-- Four components, the last two of which are independent measurements of the third one. -/
noncomputable def Spec.twoThirds (A : (ℕ → ℝ) → ℕ → ℝ) (v : ℕ → ℝ) : ℕ → ℝ
  | 0 => A (Spec.withThird v ((v 2 + v 3) / 2)) 0
  | 1 => A (Spec.withThird v ((v 2 + v 3) / 2)) 1
  | 2 => A (Spec.withThird v (v 2)) 2
  | 3 => A (Spec.withThird v (v 3)) 2
  | i => v i

/-- Earth components of `n` components along the axes of the instrument, if `A` does it for three. -/
noncomputable def Spec.sigTilted (A : (ℕ → ℝ) → ℕ → ℝ) (n : ℕ) (v : ℕ → ℝ) : ℕ → ℝ :=
  if n = 4 then Spec.twoThirds A v else A v

/-- Earth components of a velocity of `n` components in the recorded coordinate system, of an instrument with beam matrix
`M`. -/
noncomputable def Spec.sigVelocity (cy : AdCy) (M : ℕ → ℕ → ℝ) (A : (ℕ → ℝ) → ℕ → ℝ) (n : ℕ) (v : ℕ → ℝ) : ℕ → ℝ :=
  match cy with
  | .beam => Spec.sigTilted A n fun i => if i < n then ∑ j ∈ Finset.range n, M i j * v j else v i
  | .xyz => Spec.sigTilted A n v
  | _ => v

/-- How the instrument is tilted: as the recorded matrix says, or as heading, pitch and roll say. -/
noncomputable def Spec.sigAttitude (ahrs down : Bool) (R : ℕ → ℕ → ℝ) (h p r : ℝ) (v : ℕ → ℝ) : ℕ → ℝ :=
  if ahrs then fun i => if i < 3 then ∑ j ∈ Finset.range 3, R i j * Spec.over down v j else v i
  else Spec.attitude h p (if down then r + 180 else r) v

theorem applyM_ext4 (R : M3) (v : ℕ → ℝ) : applyM (ext4 R) v = Spec.twoThirds (applyM R) v := by
  funext i
  match i with
  | 0 => simp [applyM, ext4, Spec.twoThirds, Spec.withThird, Fin.sum_univ_four, Fin.sum_univ_three]; ring
  | 1 => simp [applyM, ext4, Spec.twoThirds, Spec.withThird, Fin.sum_univ_four, Fin.sum_univ_three]; ring
  | 2 => simp [applyM, ext4, Spec.twoThirds, Spec.withThird, Fin.sum_univ_four, Fin.sum_univ_three]
  | 3 => simp [applyM, ext4, Spec.twoThirds, Spec.withThird, Fin.sum_univ_four, Fin.sum_univ_three]
  | i + 4 => simp [applyM, Spec.twoThirds]

theorem sigTurn_eq (down : Bool) (O : M3) {n : ℕ} (hn : n = 3 ∨ n = 4) (v : ℕ → ℝ) :
    sigTurn down O n v = Spec.sigTilted (applyM (if down then O.transpose * sign3 else O.transpose)) n v := by
  unfold sigTurn Spec.sigTilted
  rcases hn with rfl | rfl
  · cases down <;> simp [sigMat3]
  · simp only [show ¬ (4 = 3) by decide, if_false, if_true, sigMat4, Bool.false_eq_true]
    cases down
    · simp only [Bool.false_eq_true, if_false]
      exact applyM_ext4 _ _
    · simp only [if_true]
      rw [← ext4_sign]
      exact applyM_ext4 _ _

theorem applyM_sign3 (R : M3) (v : ℕ → ℝ) (i : ℕ) (hi : i < 3) :
    applyM (R * sign3) v i = applyM R (Spec.over true v) i := by
  have : i = 0 ∨ i = 1 ∨ i = 2 := by omega
  rcases this with rfl | rfl | rfl <;>
    simp [applyM, Spec.over, sign3, Matrix.mul_apply, Fin.sum_univ_three]

theorem sigTilted_congr {A A' : (ℕ → ℝ) → ℕ → ℝ} (h : ∀ v, A v = A' v) (n : ℕ) (v : ℕ → ℝ) :
    Spec.sigTilted A n v = Spec.sigTilted A' n v := by
  rw [show A = A' from funext h]

/-- The tilt of heading, pitch and roll. -/
theorem sigTurn_euler (down : Bool) (h p r : ℝ) (R : ℕ → ℕ → ℝ) {n : ℕ} (hn : n = 3 ∨ n = 4) (v : ℕ → ℝ) :
    sigTurn down (nortekOrient h p r) n v = Spec.sigTilted (Spec.sigAttitude false down R h p r) n v := by
  rw [sigTurn_eq down _ hn]
  refine sigTilted_congr (fun v => ?_) n v
  unfold Spec.sigAttitude
  simp only [Bool.false_eq_true, if_false]
  cases down
  · simp only [Bool.false_eq_true, if_false]
    exact nortek_attitude h p r v
  · simp only [if_true]
    rw [← nortek_attitude, nortek_roll_180, Matrix.transpose_mul, sign3_transpose]

/-- The tilt of a recorded matrix. -/
theorem sigTurn_ahrs (down : Bool) (h p r : ℝ) (R : ℕ → ℕ → ℝ) {n : ℕ} (hn : n = 3 ∨ n = 4) (v : ℕ → ℝ) :
    sigTurn down (Matrix.of fun a b => R b.val a.val) n v = Spec.sigTilted (Spec.sigAttitude true down R h p r) n v := by
  rw [sigTurn_eq down _ hn]
  refine sigTilted_congr (fun v => ?_) n v
  unfold Spec.sigAttitude
  simp only [if_true]
  funext i
  split_ifs with h1 h2 h2
  · rw [applyM_sign3 _ _ _ h2, h1]
    simp only [applyM, h2, dif_pos]
    rw [Finset.sum_range]
    rfl
  · simp only [applyM, h2, dif_neg, not_false_eq_true]
  · simp only [applyM, h2, dif_pos]
    rw [Finset.sum_range]
    simp [Spec.over, h1, Matrix.transpose_apply]
  · simp only [applyM, h2, dif_neg, not_false_eq_true]

/-! ### Fields of the records -/

/-- Number `k` of field `i` of a record. -/
def Spec.sigAt (vss : List (List ℤ)) (i k : ℕ) : ℤ := (vss.getD i []).getD k 0

/-- The field with the orientation matrix. -/
def Spec.ahrsField (id config : ℕ) : ℕ :=
  let bit (k : ℕ) : ℕ := if getbit config k then 1 else 0
  if id = 23 then 35 + bit 5 + bit 8 + bit 9
  else if id = 28 then 36 + bit 11
  else 36 + bit 5 + bit 6 + bit 7 + 3 * bit 8 + 5 * bit 10 + 3 * bit 9

theorem encodes_get {fs : List AdField} {vss : List (List ℤ)} {bs : List ℕ} (h : Spec.Encodes fs vss bs) :
    ∀ (i : ℕ) (fd : AdField), fs[i]? = some fd → ∃ vs, vss[i]? = some vs ∧ vs.length = fd.n := by
  induction h with
  | nil => intro i fd h; simp at h
  | @cons fd fs vs vss pad r hn h1 hr hp h ih =>
    intro i fd' hi
    cases i with
    | zero =>
      simp only [List.getElem?_cons_zero, Option.some.injEq] at hi
      subst hi
      exact ⟨vs, rfl, hn⟩
    | succ i =>
      simp only [List.getElem?_cons_succ] at hi ⊢
      exact ih i fd' hi

/-- The fields that all records have, and how their definitions go with them. -/
theorem reader_head {id c b : ℕ} {fs : List AdField} (h : adReaderOf id c b = .ok fs) :
    (id ≠ 23 → ∃ t, fs = adBurstHdr ++ t) ∧ (id = 23 → ∃ t, fs = adBtHdr ++ t) := by
  unfold adReaderOf at h
  simp only at h
  constructor
  · intro h23
    split at h
    · unfold adEchoStruct at h
      split at h
      · cases h
      · cases h
        simp only [List.append_assoc]
        exact ⟨_, rfl⟩
    · split at h
      · cases h
      · unfold adBurstStruct at h
        split at h
        · cases h
        · cases h
          simp only [List.append_assoc]
          exact ⟨_, rfl⟩
  · rintro rfl
    rw [if_neg (by decide)] at h
    split at h
    · cases h
    · rw [if_pos rfl] at h
      cases h
      unfold adBtStruct
      simp only [List.append_assoc]
      exact ⟨_, rfl⟩

theorem defs_head (id c : ℕ) :
    (id ≠ 23 → ∃ x t, adDefsOf id c = adBurstHdrDefs x ++ t) ∧ (id = 23 → ∃ t, adDefsOf id c = adBtHdrDefs ++ t) := by
  unfold adDefsOf
  constructor
  · intro h23
    split_ifs
    · unfold adEchoDefs
      simp only [List.append_assoc]
      exact ⟨_, _, rfl⟩
    · unfold adBurstDefs
      simp only [List.append_assoc]
      exact ⟨_, _, rfl⟩
  · rintro rfl
    rw [if_neg (by decide), if_pos rfl]
    unfold adBtDefs
    simp only [List.append_assoc]
    exact ⟨_, rfl⟩

/-- Header fields common to all types. -/
theorem header_field {id c b : ℕ} {fs : List AdField} (h : adReaderOf id c b = .ok fs) {i : ℕ} {v : AdVar} {fd : AdField}
    (hb : (adBurstHdr)[i]? = some fd) (ht : (adBtHdr)[i]? = some fd)
    (hv : ∀ x, ((adBurstHdrDefs x)[i]?).map AdDef.name = some v) (hv' : (adBtHdrDefs[i]?).map AdDef.name = some v) :
    fs[i]? = some fd ∧ ((adDefsOf id c)[i]?).map AdDef.name = some v := by
  have key : ∀ {α : Type} {l t : List α} {x : α}, l[i]? = some x → (l ++ t)[i]? = some x := by
    intro α l t x hx
    rw [List.getElem?_append_left (List.getElem?_eq_some_iff.mp hx).1]
    exact hx
  by_cases h23 : id = 23
  · obtain ⟨t, rfl⟩ := (reader_head h).2 h23
    obtain ⟨t', h'⟩ := (defs_head id c).2 h23
    obtain ⟨df, h1, h2⟩ := Option.map_eq_some_iff.mp hv'
    exact ⟨key ht, by rw [h', key h1]; exact congrArg some h2⟩
  · obtain ⟨t, rfl⟩ := (reader_head h).1 h23
    obtain ⟨x, t', h'⟩ := (defs_head id c).1 h23
    obtain ⟨df, h1, h2⟩ := Option.map_eq_some_iff.mp (hv x)
    exact ⟨key hb, by rw [h', key h1]; exact congrArg some h2⟩

/-- Header fields of all types but the bottom track. -/
theorem header_field' {id c b : ℕ} {fs : List AdField} (h : adReaderOf id c b = .ok fs) (h23 : id ≠ 23) {i : ℕ} {v : AdVar}
    {fd : AdField} (hb : (adBurstHdr)[i]? = some fd) (hv : ∀ x, ((adBurstHdrDefs x)[i]?).map AdDef.name = some v) :
    fs[i]? = some fd ∧ ((adDefsOf id c)[i]?).map AdDef.name = some v := by
  have key : ∀ {α : Type} {l t : List α} {x : α}, l[i]? = some x → (l ++ t)[i]? = some x := by
    intro α l t x hx
    rw [List.getElem?_append_left (List.getElem?_eq_some_iff.mp hx).1]
    exact hx
  obtain ⟨t, rfl⟩ := (reader_head h).1 h23
  obtain ⟨x, t', h'⟩ := (defs_head id c).1 h23
  obtain ⟨df, h1, h2⟩ := Option.map_eq_some_iff.mp (hv x)
  exact ⟨key hb, by rw [h', key h1]; exact congrArg some h2⟩

/-- The velocity field. -/
theorem vel_field {id c b nb : ℕ} {fs : List AdField} (h : adReaderOf id c b = .ok fs) (h28 : id ≠ 28)
    (hnb : (beamsCyDict b id).nBeams = some nb) (h5 : getbit c 5 = true) :
    fs[if id = 23 then 35 else 36]? =
      some (if id = 23 then ⟨.i, 0, nb⟩ else ⟨.h, 0, nb * (beamsCyDict b id).nCells⟩) ∧
    ((adDefsOf id c)[if id = 23 then 35 else 36]?).map AdDef.name = some .vel := by
  unfold adReaderOf at h
  simp only [if_neg h28, hnb] at h
  unfold adDefsOf
  rw [if_neg h28]
  by_cases h23 : id = 23
  · simp only [if_pos h23] at h ⊢
    cases h
    unfold adBtStruct adBtDefs
    simp only [h5, if_true, List.append_assoc]
    exact ⟨rfl, rfl⟩
  · simp only [if_neg h23] at h ⊢
    unfold adBurstStruct at h
    split at h
    · cases h
    · cases h
      unfold adBurstDefs
      simp only [h5, if_true, List.append_assoc]
      exact ⟨rfl, rfl⟩

theorem getElem?_after {α : Type} (P Q : List α) (k : ℕ) : (P ++ Q)[P.length + k]? = Q[k]? := by
  rw [List.getElem?_append_right (by omega), Nat.add_sub_cancel_left]

/-- The fields of the orientation sensor. -/
theorem ahrs_field {id c b : ℕ} {fs : List AdField} (h : adReaderOf id c b = .ok fs)
    (ha : (if id = 23 then getbit c 10 else getbit c 12) = true) :
    (fs[Spec.ahrsField id c]? = some ⟨.f, 0, 9⟩ ∧
      ((adDefsOf id c)[Spec.ahrsField id c]?).map AdDef.name = some .orientmat) ∧
    (fs[Spec.ahrsField id c + 2]? = some ⟨.f, 0, 3⟩ ∧
      ((adDefsOf id c)[Spec.ahrsField id c + 2]?).map AdDef.name = some .angrt) := by
  unfold adReaderOf at h
  simp only at h
  unfold adDefsOf Spec.ahrsField
  by_cases h28 : id = 28
  · subst h28
    simp only [if_true, show ¬ (28 = 23) by decide, if_false] at h ha ⊢
    unfold adEchoStruct at h
    split at h
    · cases h
    · cases h
      unfold adEchoDefs
      simp only [ha, if_true]
      cases getbit c 11 <;> exact ⟨⟨rfl, rfl⟩, rfl, rfl⟩
  · simp only [if_neg h28] at h ⊢
    split at h
    · cases h
    · rename_i nb hnb
      by_cases h23 : id = 23
      · simp only [if_pos h23] at h ha ⊢
        cases h
        unfold adBtStruct adBtDefs
        simp only [ha, if_true]
        cases getbit c 5 <;> cases getbit c 8 <;> cases getbit c 9 <;> exact ⟨⟨rfl, rfl⟩, rfl, rfl⟩
      · simp only [if_neg h23] at h ha ⊢
        unfold adBurstStruct at h
        split at h
        · cases h
        · cases h
          unfold adBurstDefs
          simp only [ha, if_true]
          generalize hP : adBurstHdr ++ _ ++ _ ++ _ ++ _ ++ _ ++ _ = P
          generalize hD : adBurstHdrDefs _ ++ _ ++ _ ++ _ ++ _ ++ _ ++ _ = D
          generalize hN : 36 + _ + _ + _ + _ + _ + _ = N
          have e3 : ∀ k, (if getbit c k = true then 1 + 1 + 1 else 0) = 3 * if getbit c k = true then 1 else 0 := by
            intro k; split_ifs <;> rfl
          have e5 : ∀ k, (if getbit c k = true then 1 + 1 + 1 + 1 + 1 else 0) =
              5 * if getbit c k = true then 1 else 0 := by
            intro k; split_ifs <;> rfl
          have lP : P.length = N := by
            rw [← hP, ← hN]
            simp only [List.length_append, apply_ite List.length, List.length_cons, List.length_nil, Nat.zero_add,
              e3, e5]
            rw [show adBurstHdr.length = 36 from rfl]
          have lD : D.length = N := by
            rw [← hD, ← hN]
            simp only [List.length_append, apply_ite List.length, List.length_cons, List.length_nil, Nat.zero_add,
              e3, e5]
            rw [show (adBurstHdrDefs 0.01).length = 36 from rfl]
          simp only [List.append_assoc]
          refine ⟨⟨?_, ?_⟩, ?_, ?_⟩
          · rw [← lP, ← Nat.add_zero P.length, getElem?_after]; rfl
          · rw [← lD, ← Nat.add_zero D.length, getElem?_after]; rfl
          · rw [← lP, getElem?_after]; rfl
          · rw [← lD, getElem?_after]; rfl

theorem encodes_cons {fd : AdField} {fs : List AdField} {vss : List (List ℤ)} {bs : List ℕ}
    (h : Spec.Encodes (fd :: fs) vss bs) : ∃ vs vss' pre r, vss = vs :: vss' ∧ bs = pre ++ r ∧
      pre.length = fd.n * fd.fmt.size + fd.pad ∧ Spec.Encodes fs vss' r ∧ vs.length = fd.n := by
  cases h with
  | @cons _ _ vs vss' pad r hn h1 hr hp h =>
    refine ⟨vs, vss', _, r, rfl, rfl, ?_, h, hn⟩
    rw [List.length_append, hp, List.length_flatMap]
    have : (vs.map fun x => (Spec.encVal fd.fmt x).length) = List.replicate vs.length fd.fmt.size := by
      rw [List.eq_replicate_iff]
      refine ⟨by simp, ?_⟩
      intro x hx
      obtain ⟨y, -, rfl⟩ := List.mem_map.mp hx
      exact encNat_length _ _
    rw [this, List.sum_replicate, hn, smul_eq_mul]

theorem encodes_drop : ∀ (P : List AdField) {fs : List AdField} {vss : List (List ℤ)} {bs : List ℕ},
    Spec.Encodes (P ++ fs) vss bs → ∃ pre r, bs = pre ++ r ∧
      pre.length = (P.map fun fd => fd.n * fd.fmt.size + fd.pad).sum ∧ Spec.Encodes fs (vss.drop P.length) r
  | [], fs, vss, bs, h => ⟨[], bs, rfl, rfl, h⟩
  | fd :: P, fs, vss, bs, h => by
    obtain ⟨vs, vss', pre, r, rfl, rfl, h1, h2, -⟩ := encodes_cons h
    obtain ⟨pre', r', rfl, h3, h4⟩ := encodes_drop P h2
    refine ⟨pre ++ pre', r', by rw [List.append_assoc], ?_, h4⟩
    rw [List.length_append, h1, h3, List.map_cons, List.sum_cons]

/-- The beam word in the bytes is the field of this name. -/
theorem beam_word {t : List AdField} {vss : List (List ℤ)} {bs : List ℕ} (h : Spec.Encodes (adBurstHdr ++ t) vss bs) :
    Spec.sigAt vss 17 0 = u16 bs 30 := by
  rw [show adBurstHdr ++ t = adBurstHdr.take 17 ++ (⟨.H, 0, 1⟩ :: (adBurstHdr.drop 18 ++ t)) by
    rw [← List.cons_append, ← List.append_assoc]; rfl] at h
  obtain ⟨pre, r, rfl, h1, h2⟩ := encodes_drop _ h
  have h1' : pre.length = 30 := by rw [h1]; decide
  have hlen : (adBurstHdr.take 17).length = 17 := rfl
  rw [hlen] at h2
  generalize hq : vss.drop 17 = q at h2
  cases h2 with
  | @cons _ _ vs vss' pad r' hn h1 hr hp h =>
    have hn' : vs.length = 1 := hn
    obtain ⟨v, rfl⟩ := List.length_eq_one_iff.mp hn'
    have hpad : pad = [] := List.length_eq_zero_iff.mp hp
    subst hpad
    have hv : vss[17]? = some [v] := by
      have := congrArg (fun l => l[0]?) hq
      simpa using this
    have hs : Spec.sigAt vss 17 0 = v := by
      unfold Spec.sigAt
      rw [show vss.getD 17 [] = [v] by rw [List.getD_eq_getElem?_getD, hv]; rfl]
      rfl
    have hr' := hr v (by simp)
    simp only [Spec.inRange, AdFmt.signed, AdFmt.size, Bool.false_eq_true, if_false] at hr'
    obtain ⟨n, rfl⟩ := Int.eq_ofNat_of_zero_le hr'.1
    rw [hs]
    unfold u16
    have e : ([(n : ℤ)].flatMap (Spec.encVal .H) ++ [] ++ r') = n % 256 :: n / 256 % 256 :: r' := by
      have hn2 : n < 65536 := by exact_mod_cast hr'.2
      simp only [List.flatMap_cons, List.flatMap_nil, List.append_nil, Spec.encVal, AdFmt.size, Spec.encNat]
      have : ((n : ℤ) % 2 ^ (8 * 2)).toNat = n := by omega
      rw [this]
      rfl
    rw [e, List.getD_append_right _ _ _ _ (by omega), List.getD_append_right _ _ _ _ (by omega), h1']
    have hn2 : n < 65536 := by exact_mod_cast hr'.2
    simp
    omega

/-! ### The file -/

/-- The numbers in the records of the file: `V id j` are the fields of the record of type `id` in ensemble `j`. -/
def Spec.SigNumbers (order : List ℕ) (fs : ℕ → List AdField) (es : List (List Spec.AdRec))
    (V : ℕ → ℕ → List (List ℤ)) : Prop :=
  ∀ j e, es[j]? = some e → ∀ r ∈ e, r.id ∈ order → Spec.Encodes (fs r.id) (V r.id j) r.body

/-- Most of the first `n` values are `r`. -/
def Spec.mostly (n : ℕ) (f : ℕ → ℕ) (r : ℕ) : Prop :=
  ∀ x ≠ r, ((List.range n).map f).count x < ((List.range n).map f).count r

/-- The bits of the status word of a velocity record. -/
def Spec.sigStatus (lo hi : ℕ) (vss : List (List ℤ)) : ℕ := bitSlice (Spec.sigAt vss 34 0).toNat lo hi

/-- The ping was recorded by an instrument that looks down. -/
def Spec.sigDown (vss : List (List ℤ)) : Bool := decide (Spec.sigStatus 25 28 vss = 5)

/-- A Signature file of `nE` ensembles with velocities of `nb` beams in the coordinate system `cy`, and the matrix `rows` in
its head. Most pings agree on the wakeup state, the orientation and how it was found, with or without the last ping. -/
structure Spec.SigPlan (pInt : Key → Option ℤ) (cfg : List (Key × HOut)) (order : List ℕ) (cb : ℕ → ℕ × ℕ)
    (nE : ℕ) (V : ℕ → ℕ → List (List ℤ)) (nb : ℕ) (cy : AdCy) (rows : List (List ℚ)) (down : Bool) : Prop where
  types : ∀ id ∈ order, id ∈ [21, 23, 24, 28]
  burst : 21 ∈ order
  model : ∃ model, adModel cfg = .ok model ∧ adInst model = .signature
  rate : ∃ x, headItem cfg "BURST" "SR" = .ok x
  matrix : headMat cfg "XFBURST" = .ok rows
  theta : ∃ z, adTheta pInt cfg = .ok z
  square : rows.length = nb
  size : nb = 3 ∨ nb = 4
  beams : beamsCyDict (cb 21).2 21 = ⟨(beamsCyDict (cb 21).2 21).nCells, some cy, some nb⟩
  known : cy ≠ .unset
  velocity : getbit (cb 21).1 5 = true
  track : 23 ∈ order → getbit (cb 23).1 5 = true → (beamsCyDict (cb 23).2 23).nBeams = some 3 ∨
    (beamsCyDict (cb 23).2 23).nBeams = some 4
  status : ∃ wake up auto : ℕ, wake < 4 ∧ up < 8 ∧ up ≠ 6 ∧ (auto = 0 ∨ auto = 1 ∨ auto = 3) ∧ down = decide (up = 5) ∧
    ∀ n, n = nE ∨ n + 1 = nE → Spec.mostly n (fun j => Spec.sigStatus 28 32 (V 21 j)) wake ∧
      Spec.mostly n (fun j => Spec.sigStatus 25 28 (V 21 j)) up ∧ Spec.mostly n (fun j => Spec.sigStatus 22 25 (V 21 j)) auto

theorem collapse_mostly {n : ℕ} {f : ℕ → ℕ} {r : ℕ} (h : Spec.mostly n f r) :
    collapse ((List.range n).map fun j => (f j : ℤ)) [] = .ok (r : ℤ) := by
  have hcount : ∀ x : ℕ, ((List.range n).map fun j => (f j : ℤ)).count (x : ℤ) = ((List.range n).map f).count x := by
    intro x
    rw [show ((List.range n).map fun j => (f j : ℤ)) = ((List.range n).map f).map (Nat.cast : ℕ → ℤ) by
      rw [List.map_map]; rfl]
    exact List.count_map_of_injective _ _ Nat.cast_injective _
  have hr : (r : ℤ) ∈ (List.range n).map fun j => (f j : ℤ) := by
    rw [← List.count_pos_iff, hcount]
    have := h (r + 1) (by omega)
    omega
  by_cases hu : ∀ x ∈ (List.range n).map (fun j => (f j : ℤ)), x = r
  · cases hl : (List.range n).map (fun j => (f j : ℤ)) with
    | nil => rw [hl] at hr; simp at hr
    | cons a l =>
      rw [hl] at hu
      obtain rfl := hu a (by simp)
      exact collapse_uniform _ l [] fun x hx => hu x (by simp [hx])
  · push Not at hu
    obtain ⟨y, hy, hyr⟩ := hu
    obtain ⟨z, h1, h2, h3, -⟩ := collapse_vote _ [] y r hy hr hyr (by simp) (by simp)
    rw [h1]
    obtain ⟨j, -, rfl⟩ := List.mem_map.mp h2
    by_cases hj : f j = r
    · rw [hj]
    · have h4 := h3 r
      rw [hcount, hcount] at h4
      have := h (f j) hj
      omega

theorem dat_field {fl : ℤ → ℝ} {id : ℕ} {k : ℤ} {defs : List AdDef} {fs : List AdField} {vss : List (List ℤ)} {bs : List ℕ}
    {d : AdData} (hE : Spec.Encodes fs vss bs)
    (hd : ∀ (i : ℕ) (df : AdDef) (fd : AdField) (vs : List ℤ), defs[i]? = some df → fs[i]? = some fd → vss[i]? = some vs →
      d df.name = some (vs.map fun v : ℤ => Spec.adUnits id k df.name (if fd.fmt = .f then fl v else v)))
    {i : ℕ} {v : AdVar} {fd : AdField} (hfd : fs[i]? = some fd) (hdf : (defs[i]?).map AdDef.name = some v) (b : ℕ) :
    ((d v).getD []).getD b 0 =
      if b < fd.n then Spec.adUnits id k v (if fd.fmt = .f then fl (Spec.sigAt vss i b) else Spec.sigAt vss i b) else 0 := by
  obtain ⟨vs, h1, h2⟩ := encodes_get hE i fd hfd
  obtain ⟨df, h3, rfl⟩ := Option.map_eq_some_iff.mp hdf
  rw [hd i df fd vs h3 hfd h1, Option.getD_some, ← h2]
  have hs : ∀ b, Spec.sigAt vss i b = vs.getD b 0 := by
    intro b
    unfold Spec.sigAt
    rw [show vss.getD i [] = vs by rw [List.getD_eq_getElem?_getD, h1]; rfl]
  rw [hs, List.getD_eq_getElem?_getD, List.getD_eq_getElem?_getD, List.getElem?_map]
  by_cases hb : b < vs.length
  · rw [if_pos hb, List.getElem?_eq_getElem hb]
    rfl
  · rw [if_neg hb, List.getElem?_eq_none (by omega)]
    rfl

theorem lookup_mem {α β : Type} [BEq α] [LawfulBEq α] : ∀ {l : List (α × β)} {x : α × β}, x ∈ l → ∃ y, l.lookup x.1 = some y
  | [], x, h => by simp at h
  | (a, b) :: l, x, h => by
    rw [List.lookup_cons]
    by_cases hx : (x.1 == a) = true
    · rw [hx]; exact ⟨_, rfl⟩
    · rw [Bool.not_eq_true] at hx
      rw [hx]
      rcases List.mem_cons.mp h with rfl | h
      · simp at hx
      · exact lookup_mem h

/-- What a file reads as. -/
structure SigRead (fl : ℤ → ℝ) (order : List ℕ) (cb : ℕ → ℕ × ℕ) (fs : ℕ → List AdField) (V : ℕ → ℕ → List (List ℤ))
    (o : AdOpen) (ws : List AdWrite) (nt : ℕ) : Prop where
  nens : adNens o = nt
  cfg : ∀ id, o.cfg.lookup id = if id ∈ order then some (cb id) else none
  ok : ∀ id ∈ order, ∀ j < nt, ∃ d, adValues fl o ws id j = some (.ok d)
  field : ∀ id ∈ order, ∀ j < nt, ∀ i v fd, (fs id)[i]? = some fd →
    ((adDefsOf id (cb id).1)[i]?).map AdDef.name = some v → ∀ b,
    (((adDat fl o ws id j) v).getD []).getD b 0 =
      if b < fd.n then Spec.adUnits id (Spec.sigAt (V id j) 28 0) v
        (if fd.fmt = .f then fl (Spec.sigAt (V id j) i b) else Spec.sigAt (V id j) i b) else 0

/-- A file of ensembles, read. -/
theorem sig_read (fl : ℤ → ℝ) (order : List ℕ) (cb : ℕ → ℕ × ℕ) (fs : ℕ → List AdField)
    (pre : List Spec.AdRec) (es : List (List Spec.AdRec)) (tail : List ℕ) (h : Spec.AdEnsembles order cb fs es)
    (hpre : ∀ r ∈ pre, r.ok ∧ r.id ∉ adIds) (h2 : 2 ≤ es.length) (ht : tail.length < 10)
    (hh : ∀ r ∈ pre ++ es.flatten, r.hw + (pre ++ es.flatten).length < 2 ^ 32)
    (hn : (pre ++ es.flatten).length < 2 ^ 32) (fuel : ℕ) (hf : (pre ++ es.flatten).length < fuel) (dp : Bool)
    {V : ℕ → ℕ → List (List ℤ)} (hV : Spec.SigNumbers order fs es V) :
    ∃ (o : AdOpen) (ws : List AdWrite) (nt : ℕ),
      adOpen fuel ((pre ++ es.flatten).flatMap Spec.AdRec.bytes ++ tail) dp = some (.ok o) ∧
      adReadOpen fuel ((pre ++ es.flatten).flatMap Spec.AdRec.bytes ++ tail) o 0 none = some (.ok ws) ∧
      (nt = es.length ∨ nt + 1 = es.length) ∧
      ((∃ L, ∀ e ∈ es, Spec.sizeOf e = L) → tail = [] → nt = es.length) ∧ SigRead fl order cb fs V o ws nt := by
  obtain ⟨o, ws, nt, a1, a2, a3, a4, a5, a6, a7⟩ := ad_file_values_partial fl order cb fs pre es tail h hpre h2 ht hh hn fuel hf dp
  have key : ∀ id ∈ order, ∀ j < nt, ∃ d bs, adValues fl o ws id j = some (.ok d) ∧ Spec.Encodes (fs id) (V id j) bs ∧
      ∀ (i : ℕ) (df : AdDef) (fd : AdField) (vs : List ℤ), (adDefsOf id (cb id).1)[i]? = some df →
            (fs id)[i]? = some fd → (V id j)[i]? = some vs →
            d df.name = some (vs.map fun v : ℤ => Spec.adUnits id (Spec.sigAt (V id j) 28 0) df.name
              (if fd.fmt = .f then fl v else v)) := by
    intro id hid j hj
    have hje : j < es.length := by omega
    obtain ⟨e, he⟩ : ∃ e, es[j]? = some e := ⟨es[j], List.getElem?_eq_getElem hje⟩
    have hem : e ∈ es := List.mem_of_getElem? he
    obtain ⟨r, hr, rfl⟩ : ∃ r ∈ e, r.id = id := by
      have hid' := hid
      rw [← h.data e hem] at hid'
      obtain ⟨r, hr, rfl⟩ := List.mem_map.mp hid'
      exact ⟨r, (List.mem_filter.mp hr).1, rfl⟩
    have hE := hV j e he r hr hid
    obtain ⟨vs, hvs, hvl⟩ := encodes_get hE 28 ⟨.b, 0, 1⟩ (header_field (v := .velScale) (h.reader r.id hid) rfl rfl (fun _ => rfl) rfl).1
    obtain ⟨k, rfl⟩ := List.length_eq_one_iff.mp hvl
    have hk : Spec.sigAt (V r.id j) 28 0 = k := by
      unfold Spec.sigAt
      rw [show (V r.id j).getD 28 [] = [k] by rw [List.getD_eq_getElem?_getD, hvs]; rfl]
      rfl
    obtain ⟨d, b1, -, b3⟩ := a7 j e hj he r hr hid _ k hE hvs
    exact ⟨d, _, b1, hE, by rw [hk]; exact b3⟩
  refine ⟨o, ws, nt, a1, a2, a3, a4, a5.symm, a6, ?_, ?_⟩
  · intro id hid j hj
    obtain ⟨d, -, h1, -⟩ := key id hid j hj
    exact ⟨d, h1⟩
  · intro id hid j hj i v fd h1 h2 b
    obtain ⟨d, bs, h3, h4, h5⟩ := key id hid j hj
    have : adDat fl o ws id j = d := by unfold adDat; rw [h3]
    rw [this]
    exact dat_field h4 h5 h1 h2 b

/-- The reading of an angle: that of the burst, or the middle of burst and fifth beam, unless they are opposite. -/
def Spec.sigReading (fifth : Prop) (a b x : ℝ) : Prop :=
  (¬ fifth → x = a) ∧ (fifth → ∀ k : ℤ, |a - (b + 360 * k)| < 180 → ∃ m : ℤ, x = (a + (b + 360 * k)) / 2 + 360 * m)

theorem reduceAvgAngle_reading (a b : ℝ) (fifth : Prop) [Decidable fifth] :
    Spec.sigReading fifth a b ((reduceAvgAngle (some a) (if fifth then some b else none)).1.getD 0) := by
  constructor
  · intro h
    rw [if_neg h]
    rfl
  · intro h k hk
    obtain ⟨m, hm⟩ := reduceAvgAngle_midpoint a (b + 360 * k) hk
    have := reduceAvgAngle_periodic a b 0 k
    simp only [Int.cast_zero, mul_zero, add_zero] at this
    rw [if_pos h, ← this, hm]
    exact ⟨m, rfl⟩

/-- The frame of the velocities. -/
def Spec.sigFrame : AdCy → Frame
  | .xyz => .inst
  | .enu => .earth
  | _ => .beam

theorem except_bind_ok {α β : Type} {x : Except Err α} {a : α} (h : x = .ok a) (f : α → Except Err β) : (x >>= f) = f a := by
  rw [h]; rfl

/-- Attributes of the dataset. -/
theorem sig_attrs {pInt : Key → Option ℤ} {cfg : List (Key × HOut)} {fl : ℤ → ℝ} {order : List ℕ} {cb : ℕ → ℕ × ℕ}
    {fs : ℕ → List AdField} {V : ℕ → ℕ → List (List ℤ)} {o : AdOpen} {ws : List AdWrite} {nt nE nb : ℕ} {cy : AdCy}
    {rows : List (List ℚ)} {down : Bool} (h : SigRead fl order cb fs V o ws nt) (hnt : 0 < nt) (hnE : nt = nE ∨ nt + 1 = nE)
    (hr : ∀ id ∈ order, adReaderOf id (cb id).1 (cb id).2 = .ok (fs id))
    (hw : ∀ j < nt, Spec.sigAt (V 21 j) 17 0 = (cb 21).2)
    (hp : Spec.SigPlan pInt cfg order cb nE V nb cy rows down) :
    adAttrs ((List.range (adNens o)).map (adDat fl o ws 21)) = .ok (Spec.sigFrame cy, down) := by
  obtain ⟨wake, up, auto, s1, s2, s3, s4, s5, s6⟩ := hp.status
  replace s6 := s6 nt hnE
  obtain ⟨n, rfl⟩ : ∃ n, nt = n + 1 := ⟨nt - 1, by omega⟩
  have col : ∀ (f : AdData → ℤ) (x : ℤ), (∀ j < n + 1, f (adDat fl o ws 21 j) = x) →
      collapse (((List.range (adNens o)).map (adDat fl o ws 21)).map f) [] = .ok x := by
    intro f x hx
    rw [h.nens, List.range_succ_eq_map, List.map_cons, List.map_cons, hx 0 (by omega)]
    refine collapse_uniform x _ [] ?_
    intro y hy
    simp only [List.map_map, List.mem_map, List.mem_range, Function.comp] at hy
    obtain ⟨j, hj, rfl⟩ := hy
    exact hx _ (by omega)
  have hword : ∀ j < n + 1, ∀ i v fd, (fs 21)[i]? = some fd →
      ((adDefsOf 21 (cb 21).1)[i]?).map AdDef.name = some v → fd.n = 1 → fd.fmt ≠ .f → v = .beamConfig ∨ v = .status →
      adWord (adDat fl o ws 21 j) v = Spec.sigAt (V 21 j) i 0 := by
    intro j hj i v fd h1 h2 h3 h4 h5
    unfold adWord adNum1
    rw [h.field 21 hp.burst j hj i v fd h1 h2 0, if_pos (by omega), if_neg h4]
    rcases h5 with rfl | rfl <;> simp [Spec.adUnits, Spec.adPhysical]
  have hcf := header_field (c := (cb 21).1) (v := .beamConfig) (i := 17) (hr 21 hp.burst) rfl rfl (fun _ => rfl) rfl
  have hst := header_field' (c := (cb 21).1) (v := .status) (i := 34) (hr 21 hp.burst) (by decide) rfl (fun _ => rfl)
  unfold adAttrs
  rw [except_bind_ok (col _ ((cb 21).2 : ℤ) fun j hj => by
    rw [hword j hj 17 _ _ hcf.1 hcf.2 rfl (by decide) (Or.inl rfl)]; exact hw j hj)]
  have hstat : ∀ (lo hi x : ℕ), Spec.mostly (n + 1) (fun j => Spec.sigStatus lo hi (V 21 j)) x →
      collapse (((List.range (adNens o)).map (adDat fl o ws 21)).map (adStatus lo hi)) [] = .ok (x : ℤ) := by
    intro lo hi x hx
    rw [← collapse_mostly hx, h.nens, List.map_map]
    congr 1
    refine List.map_congr_left fun j hj => ?_
    simp only [Function.comp]
    unfold adStatus
    rw [hword j (List.mem_range.mp hj) 34 _ _ hst.1 hst.2 rfl (by decide) (Or.inr rfl)]
    rfl
  rw [except_bind_ok (hstat 28 32 wake s6.1)]
  obtain ⟨ww, hww⟩ : ∃ w, rgWake (wake : ℤ).toNat = .ok w := by
    rw [Int.toNat_natCast]
    unfold rgWake
    split_ifs <;> first | exact ⟨_, rfl⟩ | omega
  rw [except_bind_ok hww, except_bind_ok (hstat 25 28 up s6.2.1)]
  obtain ⟨uu, huu, hud⟩ : ∃ w, rgOrient (up : ℤ).toNat = .ok w ∧ decide (w = "down") = down := by
    rw [Int.toNat_natCast, s5]
    unfold rgOrient
    have : up = 0 ∨ up = 1 ∨ up = 2 ∨ up = 3 ∨ up = 4 ∨ up = 5 ∨ up = 7 := by omega
    rcases this with rfl | rfl | rfl | rfl | rfl | rfl | rfl <;> exact ⟨_, rfl, by decide⟩
  rw [except_bind_ok huu, except_bind_ok (hstat 22 25 auto s6.2.2)]
  obtain ⟨aa, haa⟩ : ∃ w, rgOrientStatus (auto : ℤ).toNat = .ok w := by
    rw [Int.toNat_natCast]
    rcases s4 with rfl | rfl | rfl <;> exact ⟨_, rfl⟩
  rw [except_bind_ok haa]
  have hfr : adFrame ((cb 21).2 : ℤ).toNat = .ok (Spec.sigFrame cy) := by
    rw [Int.toNat_natCast]
    unfold adFrame
    rw [hp.beams]
    have := hp.known
    cases cy <;> first | rfl | exact absurd rfl this
  rw [except_bind_ok hfr, hud]
  rfl

/-- The dataset that is built. -/
theorem sig_build {pInt : Key → Option ℤ} {cfg : List (Key × HOut)} {fl : ℤ → ℝ} {order : List ℕ} {cb : ℕ → ℕ × ℕ}
    {fs : ℕ → List AdField} {V : ℕ → ℕ → List (List ℤ)} {o : AdOpen} {ws : List AdWrite} {nt nE nb : ℕ} {cy : AdCy}
    {rows : List (List ℚ)} {down : Bool} (h : SigRead fl order cb fs V o ws nt) (hnt : 0 < nt) (hnE : nt = nE ∨ nt + 1 = nE)
    (hr : ∀ id ∈ order, adReaderOf id (cb id).1 (cb id).2 = .ok (fs id))
    (hw : ∀ j < nt, Spec.sigAt (V 21 j) 17 0 = (cb 21).2)
    (hp : Spec.SigPlan pInt cfg order cb nE V nb cy rows down) (dec : Option ℝ) :
    adReadEnd pInt cfg dec fl o ws =
      match dec with
      | none => some (.ok (adRDS o (adDat fl o ws) .signature (Spec.sigFrame cy) down (adBeamMat rows)))
      | some a => setDeclination 3 a (adRDS o (adDat fl o ws) .signature (Spec.sigFrame cy) down (adBeamMat rows)) := by
  have hhas : ∀ x ∈ o.cfg, x.1 ∈ order := by
    intro x hx
    obtain ⟨y, hy⟩ := lookup_mem hx
    rw [h.cfg] at hy
    by_contra hc
    rw [if_neg hc] at hy
    cases hy
  have hcov : adCovered fl o ws := by
    refine ⟨?_, ?_, ?_⟩
    · unfold adHas
      rw [h.cfg, if_pos hp.burst]
      rfl
    · intro x hx
      simpa using hp.types _ (hhas x hx)
    · intro x hx j hj
      rw [h.nens] at hj
      exact h.ok _ (hhas x hx) j hj
  obtain ⟨model, hm1, hm2⟩ := hp.model
  obtain ⟨sr, hsr⟩ := hp.rate
  obtain ⟨z, hz⟩ := hp.theta
  have hx : ∃ v, pget cfg "XFBURST".toList = some v := by
    have := hp.matrix
    unfold headMat at this
    cases hc : pget cfg "XFBURST".toList with
    | some v => exact ⟨v, rfl⟩
    | none =>
      unfold headItem at this
      rw [hc] at this
      cases this
  obtain ⟨xv, hxv⟩ := hx
  have hconf : adConf o 21 = (cb 21).1 := by
    unfold adConf
    rw [h.cfg, if_pos hp.burst]
    rfl
  have hred : ∃ st, adReduce cfg ⟨if getbit (adConf o 21) 5 then some (adCells o 21, 0, 0) else none, none, none, none⟩ =
      .ok st ∧ st.beam2inst = rows := by
    rw [hconf, hp.velocity]
    refine ⟨⟨some (adRange (adCells o 21) 0 0), none, none, none, sr, rows⟩, ?_, rfl⟩
    unfold adReduce burstPlan avgPlan
    simp only [if_true]
    rw [except_bind_ok (a := some (sr, "XFBURST"))]
    · rw [except_bind_ok (a := some (sr, "XFBURST")) rfl]
      simp only
      rw [except_bind_ok hp.matrix]
      rfl
    · rw [except_bind_ok hsr, hxv]
      rfl
  obtain ⟨st, hst, hst2⟩ := hred
  have hbuild : adBuild pInt cfg o (adDat fl o ws) =
      .ok (adRDS o (adDat fl o ws) .signature (Spec.sigFrame cy) down (adBeamMat rows)) := by
    unfold adBuild
    rw [except_bind_ok hm1, except_bind_ok (sig_attrs h hnt hnE hr hw hp)]
    simp only
    rw [except_bind_ok hst, except_bind_ok hz, hm2, hst2]
    rfl
  unfold adReadEnd
  rw [if_pos hcov, hbuild]
  cases dec <;> rfl

/-! ### The variables -/

/-- The suffix of the variables of a type of record. -/
def Spec.sigTag (id : ℕ) : String := if id = 23 then "_bt" else if id = 24 then "_b5" else if id = 28 then "_echo" else ""

/-- The records have an orientation matrix and rates of rotation. -/
def Spec.sigAhrs (id config : ℕ) : Bool := if id = 23 then getbit config 10 else getbit config 12

/-- The vectors in the dataset: name, type of record, quantity. -/
inductive Spec.SigVar (order : List ℕ) (cb : ℕ → ℕ × ℕ) : String → ℕ → AdVar → Prop
  | vel : Spec.SigVar order cb "vel" 21 .vel
  | velBt (h : 23 ∈ order) (h5 : getbit (cb 23).1 5 = true) : Spec.SigVar order cb "vel_bt" 23 .vel
  | accel (id : ℕ) (h : id ∈ order) : Spec.SigVar order cb ("accel" ++ Spec.sigTag id) id .accel
  | mag (id : ℕ) (h : id ∈ order) : Spec.SigVar order cb ("mag" ++ Spec.sigTag id) id .mag
  | angrt (id : ℕ) (h : id ∈ order) (ha : Spec.sigAhrs id (cb id).1 = true) :
    Spec.SigVar order cb ("angrt" ++ Spec.sigTag id) id .angrt

/-- The number of components. -/
def Spec.sigN (cb : ℕ → ℕ × ℕ) (id : ℕ) (v : AdVar) : ℕ :=
  if v = .vel then ((beamsCyDict (cb id).2 id).nBeams).getD 0 else 3

/-- The recorded vector of `n` components, in SI units but for the magnetic field; `c` is the cell. The numbers of a
velocity are in the units of the exponent in the record. -/
noncomputable def Spec.sigRecorded (fl : ℤ → ℝ) (id : ℕ) (v : AdVar) (config n nc c : ℕ) (vss : List (List ℤ)) (b : ℕ) : ℝ :=
  if b < n then
    match v with
    | .vel => (if id = 23 then Spec.sigAt vss 35 b else Spec.sigAt vss 36 (b * nc + c)) * (10 : ℝ) ^ Spec.sigAt vss 28 0
    | .accel => Spec.sigAt vss 24 b / 16384 * 9.81
    | .mag => if id = 23 then Spec.sigAt vss 23 b else Spec.sigAt vss 23 b / 10
    | .angrt => fl (Spec.sigAt vss (Spec.ahrsField id config + 2) b) * (Real.pi / 180)
    | _ => 0
  else 0

/-- The recorded orientation matrix. -/
def Spec.sigRot (fl : ℤ → ℝ) (config : ℕ) (vss : List (List ℤ)) (i j : ℕ) : ℝ :=
  fl (Spec.sigAt vss (Spec.ahrsField 21 config) (3 * i + j))

theorem sigVar_iff {order : List ℕ} {cb : ℕ → ℕ × ℕ} {o : AdOpen}
    (hc : ∀ id, o.cfg.lookup id = if id ∈ order then some (cb id) else none)
    (ht : ∀ id ∈ order, id ∈ [21, 23, 24, 28]) (x : String × ℕ × AdVar) :
    x ∈ adRotVars o ↔ Spec.SigVar order cb x.1 x.2.1 x.2.2 := by
  have hhas : ∀ id, adHas o id = true ↔ id ∈ order := by
    intro id
    unfold adHas
    rw [hc]
    split_ifs with h <;> simp [h]
  have hconf : ∀ id ∈ order, adConf o id = (cb id).1 := by
    intro id hid
    unfold adConf
    rw [hc, if_pos hid]
    rfl
  have htag : ∀ y : ℕ × String, y ∈ adTags o ↔ y.1 ∈ order ∧ y.2 = Spec.sigTag y.1 := by
    intro y
    obtain ⟨i, t⟩ := y
    unfold adTags
    rw [List.mem_filter]
    simp only [hhas, List.mem_cons, List.not_mem_nil, or_false, Prod.mk.injEq]
    constructor
    · rintro ⟨h | h | h | h, ho⟩ <;> (obtain ⟨rfl, rfl⟩ := h; exact ⟨ho, rfl⟩)
    · rintro ⟨ho, rfl⟩
      refine ⟨?_, ho⟩
      have := ht i ho
      simp only [List.mem_cons, List.not_mem_nil, or_false] at this
      rcases this with rfl | rfl | rfl | rfl
      · left; exact ⟨rfl, rfl⟩
      · right; left; exact ⟨rfl, rfl⟩
      · right; right; left; exact ⟨rfl, rfl⟩
      · right; right; right; exact ⟨rfl, rfl⟩
  have hah : ∀ id ∈ order, adAhrsOn o id = Spec.sigAhrs id (cb id).1 := by
    intro id hid
    unfold adAhrsOn Spec.sigAhrs
    rw [hconf id hid]
  obtain ⟨nm, id, v⟩ := x
  unfold adRotVars
  simp only [List.mem_append, List.mem_map, List.mem_filter, List.mem_singleton, htag, Prod.mk.injEq]
  constructor
  · rintro ((((⟨rfl, rfl, rfl⟩ | ⟨⟨i, t⟩, ⟨h1, h3⟩, rfl, rfl, rfl⟩) | ⟨⟨i, t⟩, ⟨⟨h1, h3⟩, h2⟩, rfl, rfl, rfl⟩) |
      ⟨⟨i, t⟩, ⟨h1, h3⟩, rfl, rfl, rfl⟩) | h)
    · exact .vel
    · simp only at h3 ⊢
      rw [h3]
      exact .accel _ h1
    · simp only at h3 ⊢
      rw [h3]
      exact .angrt _ h1 (by rw [← hah _ h1]; exact h2)
    · simp only at h3 ⊢
      rw [h3]
      exact .mag _ h1
    · split_ifs at h with hb
      · simp only [List.mem_singleton, Prod.mk.injEq] at h
        obtain ⟨rfl, rfl, rfl⟩ := h
        rw [Bool.and_eq_true, hhas] at hb
        exact .velBt hb.1 (by rw [← hconf 23 hb.1]; exact hb.2)
      · simp at h
  · intro h
    cases h with
    | vel => left; left; left; left; exact ⟨rfl, rfl, rfl⟩
    | velBt h h5 =>
      right
      rw [if_pos (by rw [Bool.and_eq_true, hhas, hconf 23 h]; exact ⟨h, h5⟩)]
      simp
    | accel _ h => left; left; left; right; exact ⟨(id, _), ⟨h, rfl⟩, rfl, rfl, rfl⟩
    | mag _ h => left; right; exact ⟨(id, _), ⟨h, rfl⟩, rfl, rfl, rfl⟩
    | angrt _ h ha => left; left; right; exact ⟨(id, _), ⟨⟨h, rfl⟩, by rw [hah _ h]; exact ha⟩, rfl, rfl, rfl⟩

section
variable {pInt : Key → Option ℤ} {cfg : List (Key × HOut)} {fl : ℤ → ℝ} {order : List ℕ} {cb : ℕ → ℕ × ℕ}
    {fs : ℕ → List AdField} {V : ℕ → ℕ → List (List ℤ)} {o : AdOpen} {ws : List AdWrite} {nt nE nb : ℕ} {cy : AdCy}
    {rows : List (List ℚ)} {down : Bool}

theorem sigVar_order (hp : Spec.SigPlan pInt cfg order cb nE V nb cy rows down) {nm : String} {id : ℕ} {v : AdVar}
    (hv : Spec.SigVar order cb nm id v) : id ∈ order := by
  cases hv with
  | vel => exact hp.burst
  | velBt h _ => exact h
  | accel _ h => exact h
  | mag _ h => exact h
  | angrt _ h _ => exact h

theorem sigN_cases (hp : Spec.SigPlan pInt cfg order cb nE V nb cy rows down) {nm : String} {id : ℕ} {v : AdVar}
    (hv : Spec.SigVar order cb nm id v) : Spec.sigN cb id v = 3 ∨ Spec.sigN cb id v = 4 := by
  unfold Spec.sigN
  cases hv with
  | vel =>
    rw [if_pos rfl, hp.beams]
    exact hp.size
  | velBt h h5 =>
    rw [if_pos rfl]
    rcases hp.track h h5 with h | h <;> rw [h] <;> simp
  | accel => left; rfl
  | mag => left; rfl
  | angrt => left; rfl

theorem adRVar_n (h : SigRead fl order cb fs V o ws nt) (hp : Spec.SigPlan pInt cfg order cb nE V nb cy rows down)
    {x : String × ℕ × AdVar} (hv : Spec.SigVar order cb x.1 x.2.1 x.2.2) (dat : ℕ → ℕ → AdData) :
    (adRVar o dat x).n = Spec.sigN cb x.2.1 x.2.2 := by
  have := sigVar_order hp hv
  simp only [adRVar, Spec.sigN, adBeams, h.cfg, this, if_true, Option.getD_some]

/-- The values that are read. -/
theorem adRVar_val (h : SigRead fl order cb fs V o ws nt) (hp : Spec.SigPlan pInt cfg order cb nE V nb cy rows down)
    (hr : ∀ id ∈ order, adReaderOf id (cb id).1 (cb id).2 = .ok (fs id))
    {x : String × ℕ × AdVar} (hv : Spec.SigVar order cb x.1 x.2.1 x.2.2) (t : AdT o) :
    (adRVar o (adDat fl o ws) x).val t = Spec.sigRecorded fl x.2.1 x.2.2 (cb x.2.1).1 (Spec.sigN cb x.2.1 x.2.2)
      (beamsCyDict (cb 21).2 21).nCells t.1.1 (V x.2.1 t.1.2) := by
  have hid := sigVar_order hp hv
  have hnc : adCells o 21 = (beamsCyDict (cb 21).2 21).nCells := by
    unfold adCells
    rw [h.cfg, if_pos hp.burst]
    rfl
  have ht1 : t.1.1 < (beamsCyDict (cb 21).2 21).nCells := by rw [← hnc]; exact t.2.1
  have ht2 : t.1.2 < nt := by rw [← h.nens]; exact t.2.2
  obtain ⟨nm, id, v⟩ := x
  simp only at hv hid ⊢
  have hf := h.field id hid t.1.2 ht2
  obtain ⟨⟨c, j⟩, ht⟩ := t
  simp only at ht1 ht2 hf ⊢
  funext b
  unfold adRVar Spec.sigRecorded Spec.sigN
  simp only
  have hnot : ∀ {w : AdVar}, w ≠ .vel → ¬ (w = .vel ∧ id = 21) := fun hw hc => hw hc.1
  have hsens : ∀ {w : AdVar} {i : ℕ} (fd : AdField), w ≠ .vel → (fs id)[i]? = some fd →
      ((adDefsOf id (cb id).1)[i]?).map AdDef.name = some w → fd.n = 3 →
      (((adDat fl o ws id j) w).getD []).getD b 0 = if b < 3 then
        Spec.adUnits id (Spec.sigAt (V id j) 28 0) w
          (if fd.fmt = .f then fl (Spec.sigAt (V id j) i b) else Spec.sigAt (V id j) i b) else 0 := by
    intro w i fd hw h1 h2 h3
    rw [hf i w fd h1 h2 b, h3]
  cases hv with
  | vel =>
    have hnb : (beamsCyDict (cb 21).2 21).nBeams = some nb := by rw [hp.beams]
    have hvf := vel_field (hr 21 hid) (by decide) hnb hp.velocity
    simp only [show ¬ (21 = 23) by decide, if_false] at hvf
    rw [if_pos ⟨rfl, rfl⟩, hf 36 .vel _ hvf.1 hvf.2, hnc]
    simp only [if_true, hnb, Option.getD_some, show ¬ (21 = 23) by decide, if_false]
    by_cases hb : b < nb
    · rw [if_pos hb, if_pos (by nlinarith [Nat.mul_le_mul_right (beamsCyDict (cb 21).2 21).nCells (Nat.succ_le_of_lt hb)])]
      simp [Spec.adUnits, Spec.adPhysical]
    · rw [if_neg hb, if_neg]
      have := Nat.mul_le_mul_right (beamsCyDict (cb 21).2 21).nCells (Nat.le_of_not_lt hb)
      omega
  | velBt h23 h5 =>
    have hnb : ∃ n, (beamsCyDict (cb 23).2 23).nBeams = some n := by
      rcases hp.track h23 h5 with h | h <;> exact ⟨_, h⟩
    obtain ⟨n, hnb⟩ := hnb
    have hvf := vel_field (hr 23 hid) (by decide) hnb h5
    simp only [if_true] at hvf
    rw [if_neg (by decide), hf 35 .vel _ hvf.1 hvf.2]
    simp only [if_true, hnb, Option.getD_some]
    simp [Spec.adUnits, Spec.adPhysical]
  | accel _ h1 =>
    have hq := header_field (c := (cb id).1) (v := .accel) (i := 24) (hr id hid) rfl rfl (fun _ => rfl) rfl
    rw [if_neg (hnot (by decide)), hsens _ (by decide) hq.1 hq.2 rfl]
    simp [Spec.adUnits, Spec.adPhysical]
  | mag _ h1 =>
    have hq := header_field (c := (cb id).1) (v := .mag) (i := 23) (hr id hid) rfl rfl (fun _ => rfl) rfl
    rw [if_neg (hnot (by decide)), hsens _ (by decide) hq.1 hq.2 rfl]
    simp [Spec.adUnits, Spec.adPhysical]
  | angrt _ h1 ha =>
    have hq := (ahrs_field (hr id hid) ha).2
    rw [if_neg (hnot (by decide)), hsens _ (by decide) hq.1 hq.2 rfl]
    simp [Spec.adUnits, Spec.adPhysical]

/-- The angles of the dataset. -/
theorem adAngle_reading (h : SigRead fl order cb fs V o ws nt) (hp : Spec.SigPlan pInt cfg order cb nE V nb cy rows down)
    (hr : ∀ id ∈ order, adReaderOf id (cb id).1 (cb id).2 = .ok (fs id)) {j : ℕ} (hj : j < nt) {i : ℕ} {v : AdVar}
    (hiv : i = 14 ∧ v = .heading ∨ i = 15 ∧ v = .pitch ∨ i = 16 ∧ v = .roll) :
    Spec.sigReading (24 ∈ order) (Spec.sigAt (V 21 j) i 0 / 100) (Spec.sigAt (V 24 j) i 0 / 100)
      (adAngle o (adDat fl o ws) v j) := by
  have hval : ∀ id ∈ order, adNum1 (adDat fl o ws id j) v = Spec.sigAt (V id j) i 0 / 100 := by
    intro id hid
    unfold adNum1
    rcases hiv with ⟨rfl, rfl⟩ | ⟨rfl, rfl⟩ | ⟨rfl, rfl⟩
    · have hq := header_field (c := (cb id).1) (v := .heading) (i := 14) (hr id hid) rfl rfl (fun _ => rfl) rfl
      rw [h.field id hid j hj _ _ _ hq.1 hq.2, if_pos (by decide), if_neg (by decide)]
      simp [Spec.adUnits, Spec.adPhysical]
    · have hq := header_field (c := (cb id).1) (v := .pitch) (i := 15) (hr id hid) rfl rfl (fun _ => rfl) rfl
      rw [h.field id hid j hj _ _ _ hq.1 hq.2, if_pos (by decide), if_neg (by decide)]
      simp [Spec.adUnits, Spec.adPhysical]
    · have hq := header_field (c := (cb id).1) (v := .roll) (i := 16) (hr id hid) rfl rfl (fun _ => rfl) rfl
      rw [h.field id hid j hj _ _ _ hq.1 hq.2, if_pos (by decide), if_neg (by decide)]
      simp [Spec.adUnits, Spec.adPhysical]
  have hhas : adHas o 24 = decide (24 ∈ order) := by
    unfold adHas
    rw [h.cfg]
    split_ifs with h <;> simp [h]
  unfold adAngle
  rw [hval 21 hp.burst, hhas]
  by_cases h24 : 24 ∈ order
  · rw [hval 24 h24]
    simp only [decide_eq_true_eq]
    exact reduceAvgAngle_reading _ _ _
  · simp only [decide_eq_true_eq]
    rw [if_neg h24]
    exact ⟨fun _ => rfl, fun hc => absurd hc h24⟩

/-- The orientation matrix of the dataset. -/
theorem adOmat_eq (h : SigRead fl order cb fs V o ws nt) (hp : Spec.SigPlan pInt cfg order cb nE V nb cy rows down)
    (hr : ∀ id ∈ order, adReaderOf id (cb id).1 (cb id).2 = .ok (fs id)) {j : ℕ} (hj : j < nt) :
    adOmat o (adDat fl o ws) j = if getbit (cb 21).1 12 then
      Matrix.of fun a b : Fin 3 => Spec.sigRot fl (cb 21).1 (V 21 j) b.val a.val
    else nortekOrient (adAngle o (adDat fl o ws) .heading j) (adAngle o (adDat fl o ws) .pitch j)
      (adAngle o (adDat fl o ws) .roll j) := by
  have hah : adAhrsOn o 21 = getbit (cb 21).1 12 := by
    unfold adAhrsOn adConf
    rw [h.cfg, if_pos hp.burst]
    rfl
  unfold adOmat
  rw [hah]
  by_cases ha : getbit (cb 21).1 12 = true
  · rw [if_pos ha, if_pos ha]
    ext a b
    have hq := (ahrs_field (hr 21 hp.burst) (by rw [if_neg (by decide)]; exact ha)).1
    rw [Matrix.of_apply, Matrix.of_apply, h.field 21 hp.burst j hj _ _ _ hq.1 hq.2, if_pos (by show _ < 9; omega), if_pos rfl]
    simp [Spec.adUnits, Spec.adPhysical, Spec.sigRot]
  · rw [if_neg ha, if_neg ha]

/-- Earth components of a velocity. -/
theorem sigToEarthBy_vel (hcy : cy ≠ .unset) (hl : rows.length = nb) {O : M3} {A : (ℕ → ℝ) → ℕ → ℝ} {n : ℕ} {v : ℕ → ℝ}
    (hA : ∀ w, sigTurn down O n w = Spec.sigTilted A n w) (hb : cy = .beam → n = nb) :
    sigToEarthBy (Spec.sigFrame cy) (adBeamMat rows) down O n v =
      Spec.sigVelocity cy (fun i j => (((rows.getD i []).getD j 0 : ℚ) : ℝ)) A n v := by
  cases cy with
  | enu => rfl
  | xyz => exact hA v
  | unset => exact absurd rfl hcy
  | beam =>
    have hn : n = rows.length := by rw [hl]; exact hb rfl
    subst hn
    simp only [sigToEarthBy, Spec.sigFrame, Spec.sigVelocity]
    rw [hA, if_pos (show rows.length = (adBeamMat rows).n from rfl)]
    congr 1
    funext i
    simp only [applyM]
    by_cases hi : i < rows.length
    · rw [dif_pos (show i < (adBeamMat rows).n from hi), if_pos hi, Finset.sum_range]
      rfl
    · rw [dif_neg (show ¬ i < (adBeamMat rows).n from hi), if_neg hi]

end

/-- The tilt of the instrument in ping `j`, of which `H`, `P` and `R` are the angles. -/
noncomputable def Spec.sigPose (fl : ℤ → ℝ) (cb : ℕ → ℕ × ℕ) (V : ℕ → ℕ → List (List ℤ)) (down : Bool) (H P R : ℕ → ℝ)
    (j : ℕ) : (ℕ → ℝ) → ℕ → ℝ :=
  Spec.sigAttitude (getbit (cb 21).1 12) down (Spec.sigRot fl (cb 21).1 (V 21 j)) (H j) (P j) (R j)

/-- The instrument is not tilted by a right angle, and the matrices are what they should be. -/
def Spec.SigUpright (fl : ℤ → ℝ) (order : List ℕ) (cb : ℕ → ℕ × ℕ) (nE : ℕ) (V : ℕ → ℕ → List (List ℤ))
    (rows : List (List ℚ)) : Prop :=
  (Matrix.of fun i j : Fin rows.length => (((rows.getD i.val []).getD j.val 0 : ℚ) : ℝ)).det ≠ 0 ∧
  ∀ j < nE, if getbit (cb 21).1 12 then
      Orthonormal (Matrix.of fun a b : Fin 3 => Spec.sigRot fl (cb 21).1 (V 21 j) a b) ∧
        Spec.sigRot fl (cb 21).1 (V 21 j) 2 2 ≠ 0
    else ∀ p r, Spec.sigReading (24 ∈ order) (Spec.sigAt (V 21 j) 15 0 / 100) (Spec.sigAt (V 24 j) 15 0 / 100) p →
      Spec.sigReading (24 ∈ order) (Spec.sigAt (V 21 j) 16 0 / 100) (Spec.sigAt (V 24 j) 16 0 / 100) r →
      cosd p * cosd r ≠ 0

/-- What the dataset of a file and its rotation to the earth frame are. -/
theorem sig_earth_core (pInt : Key → Option ℤ) (cfg : List (Key × HOut)) (fl : ℤ → ℝ) (order : List ℕ) (cb : ℕ → ℕ × ℕ)
    (fs : ℕ → List AdField)
    (pre : List Spec.AdRec) (es : List (List Spec.AdRec)) (tail : List ℕ) (h : Spec.AdEnsembles order cb fs es)
    (hpre : ∀ r ∈ pre, r.ok ∧ r.id ∉ adIds) (h2 : 2 ≤ es.length) (ht : tail.length < 10)
    (hh : ∀ r ∈ pre ++ es.flatten, r.hw + (pre ++ es.flatten).length < 2 ^ 32)
    (hn : (pre ++ es.flatten).length < 2 ^ 32) (fuel : ℕ) (hf : (pre ++ es.flatten).length < fuel) (dp : Bool)
    {V : ℕ → ℕ → List (List ℤ)} (hV : Spec.SigNumbers order fs es V) {nb : ℕ} {cy : AdCy} {rows : List (List ℚ)}
    {down : Bool} (hp : Spec.SigPlan pInt cfg order cb es.length V nb cy rows down) (dec : Option ℝ)
    (hu : cy = .enu → dec ≠ none → Spec.SigUpright fl order cb es.length V rows) :
    ∃ (o : AdOpen) (ws : List AdWrite) (nt : ℕ) (d e : RDS (AdT o)) (hd : AdT o → ℝ) (H P R : ℕ → ℝ) (O : ℕ → M3),
      adOpen fuel ((pre ++ es.flatten).flatMap Spec.AdRec.bytes ++ tail) dp = some (.ok o) ∧
      adReadOpen fuel ((pre ++ es.flatten).flatMap Spec.AdRec.bytes ++ tail) o 0 none = some (.ok ws) ∧
      (nt = es.length ∨ nt + 1 = es.length) ∧
      ((∃ L, ∀ e ∈ es, Spec.sizeOf e = L) → tail = [] → nt = es.length) ∧
      adCells o 21 = (beamsCyDict (cb 21).2 21).nCells ∧ adNens o = nt ∧
      adReadEnd pInt cfg dec fl o ws = some (.ok d) ∧ d.coordSys = Spec.sigFrame cy ∧ d.declination = dec ∧
      d.heading = some hd ∧ (∀ t, hd t = H t.1.2 + dec.getD 0) ∧
      rotate2 3 .earth d = some (.ok e) ∧ e.coordSys = .earth ∧
      (∀ j < nt, Spec.sigReading (24 ∈ order) (Spec.sigAt (V 21 j) 14 0 / 100) (Spec.sigAt (V 24 j) 14 0 / 100) (H j) ∧
        Spec.sigReading (24 ∈ order) (Spec.sigAt (V 21 j) 15 0 / 100) (Spec.sigAt (V 24 j) 15 0 / 100) (P j) ∧
        Spec.sigReading (24 ∈ order) (Spec.sigAt (V 21 j) 16 0 / 100) (Spec.sigAt (V 24 j) 16 0 / 100) (R j)) ∧
      (∀ j < nt, ∀ n, n = 3 ∨ n = 4 → ∀ w, sigTurn down (O j) n w = Spec.sigTilted (Spec.sigPose fl cb V down H P R j) n w) ∧
      (∀ x ∈ e.vars, ∃ id v, Spec.SigVar order cb x.name id v ∧ x.n = Spec.sigN cb id v ∧ ∀ t, x.val t =
        turnCW (dec.getD 0) (sigToEarthBy (Spec.sigFrame cy) (adBeamMat rows) down (O t.1.2) (Spec.sigN cb id v)
          (Spec.sigRecorded fl id v (cb id).1 (Spec.sigN cb id v) (beamsCyDict (cb 21).2 21).nCells t.1.1
            (V id t.1.2)))) ∧
      (∀ name id v, Spec.SigVar order cb name id v → ∃ x ∈ e.vars, x.name = name) := by
  obtain ⟨o, ws, nt, a1, a2, a3, a4, a5⟩ := sig_read fl order cb fs pre es tail h hpre h2 ht hh hn fuel hf dp hV
  have hw : ∀ j < nt, Spec.sigAt (V 21 j) 17 0 = (cb 21).2 := by
    intro j hj
    have hje : j < es.length := by omega
    obtain ⟨e, he⟩ : ∃ e, es[j]? = some e := ⟨es[j], List.getElem?_eq_getElem hje⟩
    have hem : e ∈ es := List.mem_of_getElem? he
    obtain ⟨r, hr, hrid⟩ : ∃ r ∈ e, r.id = 21 := by
      have hid' := hp.burst
      rw [← h.data e hem] at hid'
      obtain ⟨r, hr, h21⟩ := List.mem_map.mp hid'
      exact ⟨r, (List.mem_filter.mp hr).1, h21⟩
    have hro : r.id ∈ order := by rw [hrid]; exact hp.burst
    have hE := hV j e he r hr hro
    obtain ⟨t, ht⟩ := (reader_head (h.reader r.id hro)).1 (by rw [hrid]; decide)
    rw [ht] at hE
    have hb := beam_word hE
    rw [(h.words e hem r hr hro).2, hrid] at hb
    exact hb
  have hb := sig_build a5 (by omega) a3 h.reader hw hp dec
  set dat := adDat fl o ws with hdat
  set ds := adRDS o dat .signature (Spec.sigFrame cy) down (adBeamMat rows) with hds
  have hom : ∀ j < nt, _ := fun j hj => adOmat_eq a5 hp h.reader hj
  have hreads : ∀ j < nt, ∀ {i : ℕ} {v : AdVar}, (i = 14 ∧ v = .heading ∨ i = 15 ∧ v = .pitch ∨ i = 16 ∧ v = .roll) → _ :=
    fun j hj i v hiv => adAngle_reading a5 hp h.reader hj hiv
  have hv : ∀ v ∈ ds.vars, v.n = 3 ∨ v.n = 4 := by
    intro v hvm
    obtain ⟨x, hx, rfl⟩ := List.mem_map.mp hvm
    have hx' := (sigVar_iff a5.cfg hp.types x).mp hx
    rw [adRVar_n a5 hp hx']
    exact sigN_cases hp hx'
  have hframe : ds.coordSys = .beam ∨ ds.coordSys = .inst ∨ ds.coordSys = .earth := by
    show Spec.sigFrame cy = _ ∨ Spec.sigFrame cy = _ ∨ Spec.sigFrame cy = _
    cases cy <;> simp [Spec.sigFrame]
  have hupr : ds.coordSys = .earth → dec ≠ none → (adBeamMat rows).mat.det ≠ 0 ∧
      ∀ t : AdT o, Orthonormal (adOmat o dat t.1.2) ∧ adOmat o dat t.1.2 2 2 ≠ 0 := by
    intro he hdn
    have hce : cy = .enu := by
      have he' : Spec.sigFrame cy = .earth := he
      cases cy <;> simp_all [Spec.sigFrame]
    obtain ⟨u1, u2⟩ := hu hce hdn
    refine ⟨u1, fun t => ?_⟩
    have htj : t.1.2 < nt := by rw [← a5.nens]; exact t.2.2
    have u3 := u2 t.1.2 (by omega)
    rw [hom _ htj]
    by_cases ha : getbit (cb 21).1 12 = true
    · rw [if_pos ha] at u3 ⊢
      refine ⟨?_, u3.2⟩
      have := orth_comm u3.1
      exact this
    · rw [if_neg ha] at u3 ⊢
      refine ⟨(nortek_rotation _ _ _).1, ?_⟩
      rw [nortekOrient_entries]
      exact u3 _ _ (hreads _ htj (Or.inr (Or.inl ⟨rfl, rfl⟩))) (hreads _ htj (Or.inr (Or.inr ⟨rfl, rfl⟩)))
  obtain ⟨d, e, c1, c2, c3, c4, c5, c6, c7⟩ := sig_decl_earth (ds := ds) (m := fun t => adOmat o dat t.1.2)
    (B := adBeamMat rows) rfl rfl rfl rfl rfl hv hframe dec hupr
  refine ⟨o, ws, nt, d, e, _, fun j => adAngle o dat .heading j, fun j => adAngle o dat .pitch j,
    fun j => adAngle o dat .roll j, fun j => adOmat o dat j, a1, a2, a3, a4, ?_, a5.nens, ?_, c2, c3, c4, fun t => rfl, c5, c6, ?_, ?_, ?_, ?_⟩
  · unfold adCells
    rw [a5.cfg, if_pos hp.burst]
    rfl
  · rw [hb]
    exact c1
  · intro j hj
    exact ⟨hreads j hj (Or.inl ⟨rfl, rfl⟩), hreads j hj (Or.inr (Or.inl ⟨rfl, rfl⟩)), hreads j hj (Or.inr (Or.inr ⟨rfl, rfl⟩))⟩
  · intro j hj n hn w
    simp only
    rw [hom j hj]
    unfold Spec.sigPose
    by_cases ha : getbit (cb 21).1 12 = true
    · rw [if_pos ha, ha]
      exact sigTurn_ahrs down _ _ _ _ hn w
    · rw [if_neg ha, Bool.eq_false_iff.mpr ha]
      exact sigTurn_euler down _ _ _ _ hn w
  · intro y hy
    rw [c7] at hy
    obtain ⟨x0, hx0, rfl⟩ := List.mem_map.mp hy
    obtain ⟨x, hx, rfl⟩ := List.mem_map.mp hx0
    have hx' := (sigVar_iff a5.cfg hp.types x).mp hx
    refine ⟨x.2.1, x.2.2, hx', adRVar_n a5 hp hx' dat, fun t => ?_⟩
    simp only
    rw [adRVar_n a5 hp hx', adRVar_val a5 hp h.reader hx' t]
    rfl
  · intro name id v hsv
    have hx := (sigVar_iff a5.cfg hp.types (name, id, v)).mpr hsv
    rw [c7]
    exact ⟨_, List.mem_map_of_mem (List.mem_map_of_mem hx), rfl⟩

/-- **C151.** A Signature file (AD2CP) whose ensembles all have a velocity record, and possibly bottom track, fifth beam and
echo sounder, is read and rotated to the earth frame: every velocity is the recorded one, turned with the beam matrix in the
head of the file and the orientation recorded in the same ping, then by the declination. The orientation is the recorded
matrix, or heading, pitch and roll. The vectors of the other sensors are turned in the same way, but only in files with
instrument coordinates, or with beam coordinates of four beams (`sig_sensors_enu_false`, `sig_sensors_beam3_false`). A
bottom track in beam coordinates needs as many beams as the velocities. The ping must have been recorded in the orientation
that most pings have (`sig_orient_false`). -/
theorem sig_earth_partial (pInt : Key → Option ℤ) (cfg : List (Key × HOut)) (fl : ℤ → ℝ) (order : List ℕ) (cb : ℕ → ℕ × ℕ)
    (fs : ℕ → List AdField)
    (pre : List Spec.AdRec) (es : List (List Spec.AdRec)) (tail : List ℕ) (h : Spec.AdEnsembles order cb fs es)
    (hpre : ∀ r ∈ pre, r.ok ∧ r.id ∉ adIds) (h2 : 2 ≤ es.length) (ht : tail.length < 10)
    (hh : ∀ r ∈ pre ++ es.flatten, r.hw + (pre ++ es.flatten).length < 2 ^ 32)
    (hn : (pre ++ es.flatten).length < 2 ^ 32) (fuel : ℕ) (hf : (pre ++ es.flatten).length < fuel) (dp : Bool)
    {V : ℕ → ℕ → List (List ℤ)} (hV : Spec.SigNumbers order fs es V) {nb : ℕ} {cy : AdCy} {rows : List (List ℚ)}
    {down : Bool} (hp : Spec.SigPlan pInt cfg order cb es.length V nb cy rows down) (dec : Option ℝ)
    (hu : cy = .enu → dec ≠ none → Spec.SigUpright fl order cb es.length V rows) :
    ∃ (o : AdOpen) (ws : List AdWrite) (nt : ℕ) (d e : RDS (AdT o)) (hd : AdT o → ℝ) (H P R : ℕ → ℝ),
      adOpen fuel ((pre ++ es.flatten).flatMap Spec.AdRec.bytes ++ tail) dp = some (.ok o) ∧
      adReadOpen fuel ((pre ++ es.flatten).flatMap Spec.AdRec.bytes ++ tail) o 0 none = some (.ok ws) ∧
      (nt = es.length ∨ nt + 1 = es.length) ∧
      ((∃ L, ∀ e ∈ es, Spec.sizeOf e = L) → tail = [] → nt = es.length) ∧
      adReadEnd pInt cfg dec fl o ws = some (.ok d) ∧ d.coordSys = Spec.sigFrame cy ∧ d.declination = dec ∧
      d.heading = some hd ∧ (∀ t, hd t = H t.1.2 + dec.getD 0) ∧
      rotate2 3 .earth d = some (.ok e) ∧ e.coordSys = .earth ∧
      (∀ j < nt, Spec.sigReading (24 ∈ order) (Spec.sigAt (V 21 j) 14 0 / 100) (Spec.sigAt (V 24 j) 14 0 / 100) (H j) ∧
        Spec.sigReading (24 ∈ order) (Spec.sigAt (V 21 j) 15 0 / 100) (Spec.sigAt (V 24 j) 15 0 / 100) (P j) ∧
        Spec.sigReading (24 ∈ order) (Spec.sigAt (V 21 j) 16 0 / 100) (Spec.sigAt (V 24 j) 16 0 / 100) (R j)) ∧
      (∀ name id v, Spec.SigVar order cb name id v → ∃ x ∈ e.vars, x.name = name) ∧
      ∀ x ∈ e.vars, ∃ id v, Spec.SigVar order cb x.name id v ∧ x.n = Spec.sigN cb id v ∧
        ∀ c < (beamsCyDict (cb 21).2 21).nCells, ∀ j < nt, Spec.sigDown (V 21 j) = down → ∃ t : AdT o, t.1 = (c, j) ∧
          (v = .vel → (cy = .beam → x.n = nb) → x.val t = turnCW (dec.getD 0)
            (Spec.sigVelocity cy (fun i j => (((rows.getD i []).getD j 0 : ℚ) : ℝ)) (Spec.sigPose fl cb V (Spec.sigDown (V 21 j)) H P R j) x.n
              (Spec.sigRecorded fl id v (cb id).1 x.n (beamsCyDict (cb 21).2 21).nCells c (V id j)))) ∧
          (v ≠ .vel → cy = .xyz ∨ cy = .beam ∧ nb = 4 → x.val t = turnCW (dec.getD 0)
            (Spec.sigPose fl cb V (Spec.sigDown (V 21 j)) H P R j
              (Spec.sigRecorded fl id v (cb id).1 x.n (beamsCyDict (cb 21).2 21).nCells c (V id j)))) := by
  obtain ⟨o, ws, nt, d, e, hd, H, P, R, O, a1, a2, a3, a4, a5, a6, a7, a8, a9, a10, a11, a12, a13, a14, a15, a16, a17⟩ :=
    sig_earth_core pInt cfg fl order cb fs pre es tail h hpre h2 ht hh hn fuel hf dp hV hp dec hu
  refine ⟨o, ws, nt, d, e, hd, H, P, R, a1, a2, a3, a4, a7, a8, a9, a10, a11, a12, a13, a14, a17, ?_⟩
  intro x hx
  obtain ⟨id, v, b1, b2, b3⟩ := a16 x hx
  refine ⟨id, v, b1, b2, fun c hc j hj hdn => ?_⟩
  rw [hdn]
  obtain ⟨t, ht⟩ : ∃ t : AdT o, t.1 = (c, j) := ⟨⟨(c, j), by rw [a5]; exact hc, by rw [a6]; exact hj⟩, rfl⟩
  refine ⟨t, ht, ?_, ?_⟩
  · intro hvel hb
    rw [b2] at hb
    rw [b3, b2, ht, sigToEarthBy_vel hp.known hp.square (a15 j hj _ (sigN_cases hp b1)) hb]
  · intro hvel hc
    have hn3 : Spec.sigN cb id v = 3 := by unfold Spec.sigN; rw [if_neg hvel]
    rw [b3, b2, hn3, ht]
    have hj3 := a15 j hj 3 (Or.inl rfl)
    have ht' : ∀ w, sigTurn down (O j) 3 w = Spec.sigPose fl cb V down H P R j w := by
      intro w
      rw [hj3 w]
      rfl
    rcases hc with rfl | ⟨rfl, h4⟩
    · simp only [Spec.sigFrame, sigToEarthBy]
      rw [ht']
    · simp only [Spec.sigFrame, sigToEarthBy]
      rw [if_neg, ht']
      show ¬ 3 = rows.length
      rw [hp.square, h4]
      decide

/-! ### What happens otherwise -/

/-- What the reader makes of the files of `sig_earth_partial` in all cases: the orientation is that of most pings; vectors
of other sensors are taken to be along the axes of the earth in files with earth coordinates, and along the beams in files with
beam coordinates of three beams. -/
theorem sig_earth_actual (pInt : Key → Option ℤ) (cfg : List (Key × HOut)) (fl : ℤ → ℝ) (order : List ℕ) (cb : ℕ → ℕ × ℕ)
    (fs : ℕ → List AdField)
    (pre : List Spec.AdRec) (es : List (List Spec.AdRec)) (tail : List ℕ) (h : Spec.AdEnsembles order cb fs es)
    (hpre : ∀ r ∈ pre, r.ok ∧ r.id ∉ adIds) (h2 : 2 ≤ es.length) (ht : tail.length < 10)
    (hh : ∀ r ∈ pre ++ es.flatten, r.hw + (pre ++ es.flatten).length < 2 ^ 32)
    (hn : (pre ++ es.flatten).length < 2 ^ 32) (fuel : ℕ) (hf : (pre ++ es.flatten).length < fuel) (dp : Bool)
    {V : ℕ → ℕ → List (List ℤ)} (hV : Spec.SigNumbers order fs es V) {nb : ℕ} {cy : AdCy} {rows : List (List ℚ)}
    {down : Bool} (hp : Spec.SigPlan pInt cfg order cb es.length V nb cy rows down) (dec : Option ℝ)
    (hu : cy = .enu → dec ≠ none → Spec.SigUpright fl order cb es.length V rows) :
    ∃ (o : AdOpen) (ws : List AdWrite) (nt : ℕ) (d e : RDS (AdT o)) (H P R : ℕ → ℝ),
      adOpen fuel ((pre ++ es.flatten).flatMap Spec.AdRec.bytes ++ tail) dp = some (.ok o) ∧
      adReadOpen fuel ((pre ++ es.flatten).flatMap Spec.AdRec.bytes ++ tail) o 0 none = some (.ok ws) ∧
      (nt = es.length ∨ nt + 1 = es.length) ∧
      adReadEnd pInt cfg dec fl o ws = some (.ok d) ∧ rotate2 3 .earth d = some (.ok e) ∧
      (∀ j < nt, Spec.sigReading (24 ∈ order) (Spec.sigAt (V 21 j) 14 0 / 100) (Spec.sigAt (V 24 j) 14 0 / 100) (H j) ∧
        Spec.sigReading (24 ∈ order) (Spec.sigAt (V 21 j) 15 0 / 100) (Spec.sigAt (V 24 j) 15 0 / 100) (P j) ∧
        Spec.sigReading (24 ∈ order) (Spec.sigAt (V 21 j) 16 0 / 100) (Spec.sigAt (V 24 j) 16 0 / 100) (R j)) ∧
      (∀ name id v, Spec.SigVar order cb name id v → ∃ x ∈ e.vars, x.name = name) ∧
      ∀ x ∈ e.vars, ∃ id v, Spec.SigVar order cb x.name id v ∧ x.n = Spec.sigN cb id v ∧
        ∀ c < (beamsCyDict (cb 21).2 21).nCells, ∀ j < nt, ∃ t : AdT o, t.1 = (c, j) ∧
          (v = .vel → (cy = .beam → x.n = nb) → x.val t = turnCW (dec.getD 0)
            (Spec.sigVelocity cy (fun i j => (((rows.getD i []).getD j 0 : ℚ) : ℝ)) (Spec.sigPose fl cb V down H P R j) x.n
              (Spec.sigRecorded fl id v (cb id).1 x.n (beamsCyDict (cb 21).2 21).nCells c (V id j)))) ∧
          (v ≠ .vel → cy = .enu → x.val t = turnCW (dec.getD 0)
            (Spec.sigRecorded fl id v (cb id).1 3 (beamsCyDict (cb 21).2 21).nCells c (V id j))) ∧
          (v ≠ .vel → cy = .beam ∧ nb = 3 → x.val t = turnCW (dec.getD 0)
            (Spec.sigVelocity cy (fun i j => (((rows.getD i []).getD j 0 : ℚ) : ℝ)) (Spec.sigPose fl cb V down H P R j) 3
              (Spec.sigRecorded fl id v (cb id).1 3 (beamsCyDict (cb 21).2 21).nCells c (V id j)))) := by
  obtain ⟨o, ws, nt, d, e, hd, H, P, R, O, a1, a2, a3, a4, a5, a6, a7, a8, a9, a10, a11, a12, a13, a14, a15, a16, a17⟩ :=
    sig_earth_core pInt cfg fl order cb fs pre es tail h hpre h2 ht hh hn fuel hf dp hV hp dec hu
  refine ⟨o, ws, nt, d, e, H, P, R, a1, a2, a3, a7, a12, a14, a17, ?_⟩
  intro x hx
  obtain ⟨id, v, b1, b2, b3⟩ := a16 x hx
  refine ⟨id, v, b1, b2, fun c hc j hj => ?_⟩
  obtain ⟨t, ht⟩ : ∃ t : AdT o, t.1 = (c, j) := ⟨⟨(c, j), by rw [a5]; exact hc, by rw [a6]; exact hj⟩, rfl⟩
  refine ⟨t, ht, ?_, ?_, ?_⟩
  · intro hvel hb
    rw [b2] at hb
    rw [b3, b2, ht, sigToEarthBy_vel hp.known hp.square (a15 j hj _ (sigN_cases hp b1)) hb]
  · intro hvel hce
    have hn3 : Spec.sigN cb id v = 3 := by unfold Spec.sigN; rw [if_neg hvel]
    rw [b3, hn3, ht, hce]
    rfl
  · intro hvel hcb
    have hn3 : Spec.sigN cb id v = 3 := by unfold Spec.sigN; rw [if_neg hvel]
    rw [b3, hn3, ht, sigToEarthBy_vel hp.known hp.square (a15 j hj 3 (Or.inl rfl)) (fun _ => hcb.2.symm)]

/-! ### Samples -/

/-- A velocity record with the beam word `b`, the status `st`, the velocities `vel` (mm/s), and one unit of gravity along the
x axis; heading, pitch and roll are zero. -/
def exSigVss (b st c : ℤ) (vel : List ℤ) : List (List ℤ) :=
  [[0], [0], [32], [0], [0], [0], [0], [0], [0], [0], [0], [0], [0], [0], [0], [0], [0], [b], [0], [0], [0], [0], [0],
    [0, 0, 0], [16384, 0, 0], [0], [0], [0], [-3], [0], [0], [0], [0], [0], [st], [c], vel]

def exSigFs (n : ℕ) : List AdField := adBurstHdr ++ [⟨.h, 0, n⟩]

def exSigRec (b st c : ℤ) (vel : List ℤ) : Spec.AdRec :=
  ⟨165, 10, 21, 16, [0, 0, 0, 0], Spec.encodeAll (exSigFs vel.length) (exSigVss b st c vel)⟩

/-- The status of an instrument that looks up or down. -/
def exLookUp : ℤ := 134217728
def exLookDown : ℤ := 167772160

/-- A file head with the matrix `rows`. -/
def exSigCfg (rows : List (List ℚ)) : List (Key × HOut) :=
  [("ID".toList, .raw (.one "STR=\"Signature1000\",SN=1".toList)),
   ("BEAMCFGLIST".toList, .raw (.many ["BEAM=1,THETA=25.00".toList])),
   ("BURST".toList, .items [("SR".toList, .int 8)]),
   ("XFBURST".toList, .items ([("ROWS".toList, .int rows.length), ("COLS".toList, .int rows.length)] ++
      (List.range rows.length).flatMap fun i => (List.range rows.length).map fun j =>
        ((matName i j).toList, .flt ((rows.getD i []).getD j 0))))]

theorem exSig_encodes (b st c : ℤ) (vel : List ℤ) (hb : 0 ≤ b ∧ b < 2 ^ 16) (hst : 0 ≤ st ∧ st < 2 ^ 32)
    (hc : 0 ≤ c ∧ c < 2 ^ 32) (hv : vel ≠ []) (hr : ∀ v ∈ vel, Spec.inRange .h v) :
    Spec.Encodes (exSigFs vel.length) (exSigVss b st c vel) (exSigRec b st c vel).body := by
  apply encodes_encodeAll
  obtain ⟨h1, h2⟩ := hb
  obtain ⟨h3, h4⟩ := hst
  obtain ⟨h5, h6⟩ := hc
  norm_num at h2 h4 h6
  have : 1 ≤ vel.length := List.length_pos_iff.mpr hv
  have hr' : ∀ v ∈ vel, Spec.inRange .h v := hr
  simp [exSigVss, exSigFs, adBurstHdr, Spec.inRange, AdFmt.signed, AdFmt.size, h1, h2, h3, h4, h5, h6, this] at hr' ⊢
  exact hr'

/-- The records of a sample. -/
def exSigEs (b : ℤ) (sts : List ℤ) (vel : List ℤ) : List (List Spec.AdRec) :=
  sts.mapIdx fun i st => [exSigRec b st (i + 1) vel]

/-- Its numbers. -/
def exSigV (b : ℤ) (sts : List ℤ) (vel : List ℤ) : ℕ → ℕ → List (List ℤ) := fun _ j => exSigVss b (sts.getD j 0) (j + 1) vel

theorem exSig_mem {b : ℤ} {sts vel : List ℤ} {e : List Spec.AdRec} (he : e ∈ exSigEs b sts vel) :
    ∃ (j : ℕ) (st : ℤ), sts[j]? = some st ∧ e = [exSigRec b st (j + 1) vel] := by
  obtain ⟨j, hj, rfl⟩ := List.mem_mapIdx.mp he
  exact ⟨j, sts[j], List.getElem?_eq_getElem hj, rfl⟩

theorem exSig_numbers {b : ℤ} {sts vel : List ℤ} (hb : 0 ≤ b ∧ b < 2 ^ 16)
    (hst : ∀ st ∈ sts, 0 ≤ st ∧ st < 2 ^ 32) (hl : sts.length < 2 ^ 31) (hv : vel ≠ []) (hr : ∀ v ∈ vel, Spec.inRange .h v) :
    Spec.SigNumbers [21] (fun _ => exSigFs vel.length) (exSigEs b sts vel) (exSigV b sts vel) := by
  intro j e he r hr' hro
  unfold exSigEs at he
  rw [List.getElem?_mapIdx] at he
  obtain ⟨st, hst', rfl⟩ := Option.map_eq_some_iff.mp he
  simp only [List.mem_singleton] at hr'
  subst hr'
  have hj : j < sts.length := (List.getElem?_eq_some_iff.mp hst').1
  have : sts.getD j 0 = st := by rw [List.getD_eq_getElem?_getD, hst']; rfl
  unfold exSigV
  rw [this]
  exact exSig_encodes b st (j + 1) vel hb (hst st (List.mem_of_getElem? hst')) (by omega) hv hr

theorem exSig_ens {b : ℤ} {sts vel : List ℤ} (hb : 0 ≤ b ∧ b < 2 ^ 16)
    (hst : ∀ st ∈ sts, 0 ≤ st ∧ st < 2 ^ 32) (hl : sts.length < 2 ^ 31) (hv : vel ≠ []) (hr : ∀ v ∈ vel, Spec.inRange .h v)
    (hrd : adReaderOf 21 32 b.toNat = .ok (exSigFs vel.length))
    (hok : ∀ e ∈ exSigEs b sts vel, ∀ r ∈ e, r.ok ∧ u16 r.body 2 = 32 ∧ u16 r.body 30 = b.toNat)
    (hcn : (Spec.counters 21 (exSigEs b sts vel).flatten) = (List.range sts.length).map (· + 1)) :
    Spec.AdEnsembles [21] (fun _ => (32, b.toNat)) (fun _ => exSigFs vel.length) (exSigEs b sts vel) where
  nodup := by decide
  types := by decide
  reader := by
    intro id hid
    rw [List.mem_singleton.mp hid]
    exact hrd
  data := by
    intro e he
    obtain ⟨j, st, -, rfl⟩ := exSig_mem he
    rfl
  head := by
    intro e he
    obtain ⟨j, st, -, rfl⟩ := exSig_mem he
    exact ⟨_, _, rfl, by show 21 ∈ adIds; decide⟩
  ok := by
    intro e he r hr
    have h1 := (hok e he r hr).1
    obtain ⟨j, st, -, rfl⟩ := exSig_mem he
    rw [List.mem_singleton] at hr
    subst hr
    exact ⟨h1, rfl, fun h => absurd h (by show ¬ 21 = 160; decide)⟩
  words := fun e he r hr _ => (hok e he r hr).2
  content := by
    intro e he r hr hro
    obtain ⟨j, hj⟩ := List.getElem?_of_mem he
    exact ⟨_, exSig_numbers hb hst hl hv (by assumption) j e hj r hr hro⟩
  counters := by
    intro id hid
    rw [List.mem_singleton.mp hid, hcn]
    have : (0 :: (List.range sts.length).map (· + 1)) = List.range (sts.length + 1) := by
      rw [List.range_succ_eq_map]
    rw [this]
    exact (List.pairwise_lt_range).isChain

theorem mostly_majority {n : ℕ} {f : ℕ → ℕ} {r : ℕ} (h : n < 2 * ((List.range n).map f).count r) : Spec.mostly n f r := by
  have key : ∀ (l : List ℕ) (x : ℕ), x ≠ r → l.count x + l.count r ≤ l.length := by
    intro l x hx
    induction l with
    | nil => simp
    | cons a l ih =>
      rw [List.count_cons, List.count_cons, List.length_cons]
      by_cases h1 : a = x
      · subst h1
        simp [hx]
        omega
      · simp [h1]
        split_ifs <;> omega
  intro x hx
  have := key ((List.range n).map f) x hx
  rw [List.length_map, List.length_range] at this
  omega

/-- How the head of the samples is read. -/
def exSigInt : Key → Option ℤ := fun s => if s = "25".toList then some 25 else none

theorem exSig_plan {b : ℤ} {sts vel : List ℤ} {nb up : ℕ} {cy : AdCy} {rows : List (List ℚ)}
    (hmod : adModel (exSigCfg rows) = .ok "Signature1000".toList) (hrate : headItem (exSigCfg rows) "BURST" "SR" = .ok (.int 8))
    (hmat : headMat (exSigCfg rows) "XFBURST" = .ok rows) (hth : adTheta exSigInt (exSigCfg rows) = .ok (some 25))
    (hl : rows.length = nb) (hn : nb = 3 ∨ nb = 4) (hb : beamsCyDict b.toNat 21 = ⟨1, some cy, some nb⟩)
    (hcy : cy ≠ .unset) (hup : up = 4 ∨ up = 5)
    (hst : ∀ n, n = sts.length ∨ n + 1 = sts.length →
      (n < 2 * ((List.range n).map fun j => Spec.sigStatus 28 32 (exSigV b sts vel 21 j)).count 0) ∧
      (n < 2 * ((List.range n).map fun j => Spec.sigStatus 25 28 (exSigV b sts vel 21 j)).count up) ∧
      (n < 2 * ((List.range n).map fun j => Spec.sigStatus 22 25 (exSigV b sts vel 21 j)).count 0)) :
    Spec.SigPlan exSigInt (exSigCfg rows) [21] (fun _ => (32, b.toNat)) sts.length (exSigV b sts vel) nb cy rows
      (decide (up = 5)) where
  types := by decide
  burst := by decide
  model := ⟨_, hmod, by decide +kernel⟩
  rate := ⟨_, hrate⟩
  matrix := hmat
  theta := ⟨_, hth⟩
  square := hl
  size := hn
  beams := by simp only; rw [hb]
  known := hcy
  velocity := (show getbit 32 5 = true by decide)
  track := by intro h; simp at h
  status := ⟨0, up, 0, by decide, by omega, by omega, Or.inl rfl, rfl, fun n hn =>
    ⟨mostly_majority (hst n hn).1, mostly_majority (hst n hn).2.1, mostly_majority (hst n hn).2.2⟩⟩

/-- The matrix of the samples. -/
def exRows3 : List (List ℚ) := [[2, 0, 0], [0, 2, 0], [0, 0, 2]]
def exRows4 : List (List ℚ) := [[1, 0, -1, 0], [0, 1, 0, -1], [1/2, 0, 1/2, 0], [0, 1/2, 0, 1/2]]

theorem exSig_head : adModel (exSigCfg exRows4) = .ok "Signature1000".toList ∧
    headItem (exSigCfg exRows4) "BURST" "SR" = .ok (.int 8) ∧ headMat (exSigCfg exRows4) "XFBURST" = .ok exRows4 ∧
    adTheta exSigInt (exSigCfg exRows4) = .ok (some 25) := by
  refine ⟨by decide +kernel, by decide +kernel, by decide +kernel, by decide +kernel⟩

theorem exSig_head3 : adModel (exSigCfg exRows3) = .ok "Signature1000".toList ∧
    headItem (exSigCfg exRows3) "BURST" "SR" = .ok (.int 8) ∧ headMat (exSigCfg exRows3) "XFBURST" = .ok exRows3 ∧
    adTheta exSigInt (exSigCfg exRows3) = .ok (some 25) := by
  refine ⟨by decide +kernel, by decide +kernel, by decide +kernel, by decide +kernel⟩

theorem attitude_level (v : ℕ → ℝ) : Spec.attitude 0 0 0 v 1 = v 0 ∧ Spec.attitude 0 0 0 v 2 = v 2 ∧
    Spec.attitude 0 0 (0 + 180) v 2 = -v 2 := by
  have h0 : (0 : ℝ) + 180 = 180 := by norm_num
  have c0 : cosd 0 = 1 := by simp [cosd]
  have s0 : sind 0 = 0 := by simp [sind]
  have c1 : cosd 180 = -1 := by unfold cosd; rw [show (180 : ℝ) * Real.pi / 180 = Real.pi by ring, Real.cos_pi]
  have s1 : sind 180 = 0 := by unfold sind; rw [show (180 : ℝ) * Real.pi / 180 = Real.pi by ring, Real.sin_pi]
  have c9 : cosd (0 + 90) = 0 := by rw [cosd_add_90, s0, neg_zero]
  have s9 : sind (0 + 90) = 1 := by rw [sind_add_90, c0]
  have c8 : cosd (0 - 90) = 0 := by
    unfold cosd
    rw [show ((0 : ℝ) - 90) * Real.pi / 180 = -(Real.pi / 2) by ring, Real.cos_neg, Real.cos_pi_div_two]
  rw [zero_add] at c9 s9
  rw [zero_sub] at c8
  rw [h0]
  refine ⟨?_, ?_, ?_⟩ <;> simp only [Spec.attitude, compassVec, Nat.one_lt_ofNat, dif_pos, show (2 : ℕ) < 3 from by decide] <;>
    simp [c0, s0, c1, s1]
  · rw [c8, c9]; ring
  · rw [s9, mul_one]
  · rw [s9, mul_one]

/-- What happens to the first ping of the samples. -/
theorem exSig_actual {b : ℤ} {sts vel : List ℤ} {nb : ℕ} {cy : AdCy} {rows : List (List ℚ)} {down : Bool}
    (h : Spec.AdEnsembles [21] (fun _ => (32, b.toNat)) (fun _ => exSigFs vel.length) (exSigEs b sts vel))
    (hV : Spec.SigNumbers [21] (fun _ => exSigFs vel.length) (exSigEs b sts vel) (exSigV b sts vel))
    (hp : Spec.SigPlan exSigInt (exSigCfg rows) [21] (fun _ => (32, b.toNat)) sts.length (exSigV b sts vel) nb cy rows down)
    (hb : beamsCyDict b.toNat 21 = ⟨1, some cy, some nb⟩) (hs : sts.length = 4)
    (hhw : ∀ r ∈ (exSigEs b sts vel).flatten, r.hw < 100) :
    ∃ (o : AdOpen) (ws : List AdWrite) (d e : RDS (AdT o)) (t : AdT o),
      adOpen 10 ((exSigEs b sts vel).flatten.flatMap Spec.AdRec.bytes) false = some (.ok o) ∧
      adReadOpen 10 ((exSigEs b sts vel).flatten.flatMap Spec.AdRec.bytes) o 0 none = some (.ok ws) ∧
      adReadEnd exSigInt (exSigCfg rows) none (fun _ => 0) o ws = some (.ok d) ∧ rotate2 3 .earth d = some (.ok e) ∧
      t.1 = (0, 0) ∧
      (∃ x ∈ e.vars, x.name = "vel" ∧ x.n = nb ∧ x.val t =
        Spec.sigVelocity cy (fun i j => (((rows.getD i []).getD j 0 : ℚ) : ℝ)) (Spec.attitude 0 0 (if down then 0 + 180 else 0)) nb
          (Spec.sigRecorded (fun _ => 0) 21 .vel 32 nb 1 0 (exSigV b sts vel 21 0))) ∧
      ∃ x ∈ e.vars, x.name = "accel" ∧ x.n = 3 ∧
        (cy = .enu → x.val t = Spec.sigRecorded (fun _ => 0) 21 .accel 32 3 1 0 (exSigV b sts vel 21 0)) ∧
        (cy = .beam ∧ nb = 3 → x.val t =
          Spec.sigVelocity cy (fun i j => (((rows.getD i []).getD j 0 : ℚ) : ℝ)) (Spec.attitude 0 0 (if down then 0 + 180 else 0)) 3
            (Spec.sigRecorded (fun _ => 0) 21 .accel 32 3 1 0 (exSigV b sts vel 21 0))) := by
  have hl : (exSigEs b sts vel).length = 4 := by unfold exSigEs; rw [List.length_mapIdx, hs]
  have hfl : ∀ es : List (List Spec.AdRec), (∀ e ∈ es, e.length = 1) → es.flatten.length = es.length := by
    intro es
    induction es with
    | nil => intro; rfl
    | cons e es ih =>
      intro hh
      rw [List.flatten_cons, List.length_append, hh e (by simp), ih fun e he => hh e (by simp [he]), List.length_cons]
      omega
  have hl' : ([] ++ (exSigEs b sts vel).flatten).length = 4 := by
    rw [List.nil_append, hfl _ _, hl]
    intro e he
    obtain ⟨j, st, -, rfl⟩ := exSig_mem he
    rfl
  have hw : ∀ r ∈ [] ++ (exSigEs b sts vel).flatten, r.hw + ([] ++ (exSigEs b sts vel).flatten).length < 2 ^ 32 := by
    intro r hr
    rw [hl']
    rw [List.nil_append] at hr
    have := hhw r hr
    omega
  have hp' := hp
  rw [show sts.length = (exSigEs b sts vel).length by rw [hl, hs]] at hp'
  obtain ⟨o, ws, nt, d, e, H, P, R, a1, a2, a3, a4, a5, a6, a7, a8⟩ :=
    sig_earth_actual exSigInt (exSigCfg rows) (fun _ => 0) [21] (fun _ => (32, b.toNat)) (fun _ => exSigFs vel.length) []
      (exSigEs b sts vel) [] h (by simp) (by omega) (by simp) hw (by rw [hl']; norm_num) 10 (by rw [hl']; norm_num) false hV hp'
      none (by intro _ hne; exact absurd rfl hne)
  rw [List.nil_append, List.append_nil] at a1 a2
  have h0 : 0 < nt := by omega
  obtain ⟨r1, r2, r3⟩ := a6 0 h0
  have z : ∀ x : ℝ, Spec.sigReading (24 ∈ [21]) (0 / 100) (0 / 100) x → x = 0 := by
    intro x hx
    rw [hx.1 (by decide)]
    norm_num
  have zH : H 0 = 0 := z _ (by simpa [exSigV, exSigVss, Spec.sigAt] using r1)
  have zP : P 0 = 0 := z _ (by simpa [exSigV, exSigVss, Spec.sigAt] using r2)
  have zR : R 0 = 0 := z _ (by simpa [exSigV, exSigVss, Spec.sigAt] using r3)
  have hpose : Spec.sigPose (fun _ => 0) (fun _ => (32, b.toNat)) (exSigV b sts vel) down H P R 0 =
      Spec.attitude 0 0 (if down then 0 + 180 else 0) := by
    funext v
    unfold Spec.sigPose Spec.sigAttitude
    rw [if_neg (show ¬ getbit 32 12 = true by decide), zH, zP, zR]
  obtain ⟨t, ht⟩ : ∃ t : AdT o, t.1 = (0, 0) := by
    obtain ⟨x, hx, hxn⟩ := a7 "vel" 21 .vel .vel
    obtain ⟨id, v, -, -, b3⟩ := a8 x hx
    obtain ⟨t, ht, -⟩ := b3 0 (by simp only; rw [hb]; exact Nat.one_pos) 0 h0
    exact ⟨t, ht⟩
  have huniq : ∀ t' : AdT o, t'.1 = (0, 0) → t' = t := fun t' h' => Subtype.ext (h'.trans ht.symm)
  refine ⟨o, ws, d, e, t, a1, a2, a4, a5, ht, ?_, ?_⟩
  · obtain ⟨x, hx, hxn⟩ := a7 "vel" 21 .vel .vel
    obtain ⟨id, v, b1, b2, b3⟩ := a8 x hx
    obtain ⟨t', ht', c1, -, -⟩ := b3 0 (by simp only; rw [hb]; exact Nat.one_pos) 0 h0
    rw [huniq t' ht'] at c1
    rw [hxn] at b1
    have hv : id = 21 ∧ v = .vel := by
      generalize hg : "vel" = g at b1
      cases b1 with
      | vel => exact ⟨rfl, rfl⟩
      | velBt h5 => simp at h5
      | accel id hid => rw [List.mem_singleton.mp hid] at hg; exact absurd hg (by decide)
      | mag id hid => rw [List.mem_singleton.mp hid] at hg; exact absurd hg (by decide)
      | angrt id hid => rw [List.mem_singleton.mp hid] at hg; exact absurd hg (by decide)
    obtain ⟨rfl, rfl⟩ := hv
    have hn : x.n = nb := by rw [b2]; unfold Spec.sigN; rw [if_pos rfl, hb]; rfl
    refine ⟨x, hx, hxn, hn, ?_⟩
    rw [c1 rfl (fun _ => hn), hpose, hn]
    simp only [hb, Option.getD_none, turnCW_zero]
  · obtain ⟨x, hx, hxn⟩ := a7 "accel" 21 .accel (.accel 21 (by simp))
    obtain ⟨id, v, b1, b2, b3⟩ := a8 x hx
    obtain ⟨t', ht', -, c1, c2⟩ := b3 0 (by simp only; rw [hb]; exact Nat.one_pos) 0 h0
    rw [huniq t' ht'] at c1 c2
    rw [hxn] at b1
    have hv : id = 21 ∧ v = .accel := by
      generalize hg : "accel" = g at b1
      cases b1 with
      | vel => exact absurd hg (by decide)
      | velBt h5 => simp at h5
      | accel id hid => exact ⟨List.mem_singleton.mp hid, rfl⟩
      | mag id hid => rw [List.mem_singleton.mp hid] at hg; exact absurd hg (by decide)
      | angrt id hid => rw [List.mem_singleton.mp hid] at hg; exact absurd hg (by decide)
    obtain ⟨rfl, rfl⟩ := hv
    have hn : x.n = 3 := by rw [b2]; unfold Spec.sigN; rw [if_neg (by decide)]
    refine ⟨x, hx, hxn, hn, fun hc => ?_, fun hc => ?_⟩
    · rw [c1 (by decide) hc]
      simp only [hb, Option.getD_none, turnCW_zero]
    · rw [c2 (by decide) hc, hpose]
      simp only [hb, Option.getD_none, turnCW_zero]

/-- **C151, refuted for pings that differ from most.** An instrument is turned over between the first ping and the others.
The velocity that points up in the frame of the instrument points down in the earth frame in the first ping, but the dataset
says that it points up: the orientation of the whole file is that of most pings. -/
theorem sig_orient_false : ∃ (o : AdOpen) (ws : List AdWrite) (d e : RDS (AdT o)) (t : AdT o),
    adOpen 10 ((exSigEs 17409 [exLookDown, exLookUp, exLookUp, exLookUp] [0, 0, 1000, 1000]).flatten.flatMap Spec.AdRec.bytes)
      false = some (.ok o) ∧
    adReadOpen 10 ((exSigEs 17409 [exLookDown, exLookUp, exLookUp, exLookUp] [0, 0, 1000, 1000]).flatten.flatMap Spec.AdRec.bytes)
      o 0 none = some (.ok ws) ∧
    adReadEnd exSigInt (exSigCfg exRows4) none (fun _ => 0) o ws = some (.ok d) ∧ rotate2 3 .earth d = some (.ok e) ∧
    t.1 = (0, 0) ∧ Spec.sigDown (exSigVss 17409 exLookDown 1 [0, 0, 1000, 1000]) = true ∧
    (∀ M, Spec.sigVelocity .xyz M (Spec.attitude 0 0 (0 + 180)) 4 (fun i => if i = 2 ∨ i = 3 then 1 else 0) 2 = -1) ∧
    ∃ x ∈ e.vars, x.name = "vel" ∧ x.val t 2 = 1 := by
  have hb : beamsCyDict (17409 : ℤ).toNat 21 = ⟨1, some .xyz, some 4⟩ := by decide +kernel
  have hst : ∀ st ∈ [exLookDown, exLookUp, exLookUp, exLookUp], 0 ≤ st ∧ st < 2 ^ 32 := by decide
  have hv : ∀ v ∈ [(0 : ℤ), 0, 1000, 1000], Spec.inRange .h v := by simp [Spec.inRange, AdFmt.signed, AdFmt.size]
  obtain ⟨o, ws, d, e, t, a1, a2, a3, a4, a5, ⟨x, hx, hxn, -, hxv⟩, -⟩ := exSig_actual (b := 17409)
    (sts := [exLookDown, exLookUp, exLookUp, exLookUp]) (vel := [0, 0, 1000, 1000]) (nb := 4) (cy := .xyz) (rows := exRows4)
    (exSig_ens (by decide) hst (by decide) (by decide) hv (by decide +kernel) (by unfold Spec.AdRec.ok; decide +kernel)
      (by decide +kernel))
    (exSig_numbers (by decide) hst (by decide) (by decide) hv)
    (exSig_plan (up := 4) exSig_head.1 exSig_head.2.1 exSig_head.2.2.1 exSig_head.2.2.2 rfl (by decide) hb (by decide) (by decide)
      (by rintro n (rfl | hn)
          · decide +kernel
          · obtain rfl : n = 3 := by simpa using hn
            decide +kernel)) hb rfl (by decide +kernel)
  refine ⟨o, ws, d, e, t, a1, a2, a3, a4, a5, by decide, fun M => ?_, x, hx, hxn, ?_⟩
  · simp only [Spec.sigVelocity, Spec.sigTilted, if_pos, Spec.twoThirds]
    rw [(attitude_level _).2.2]
    simp [Spec.withThird]
  · rw [hxv]
    simp only [Spec.sigVelocity, Spec.sigTilted, if_pos, Spec.twoThirds, show decide (4 = 5) = false from rfl, Bool.false_eq_true,
      if_false]
    rw [(attitude_level _).2.1]
    norm_num [Spec.withThird, Spec.sigRecorded, Spec.sigAt, exSigV, exSigVss, exLookDown]

/-- **C151, refuted for the sensors of files in earth coordinates.** The instrument is level and heads north; the
acceleration along its x axis is thus northward. The dataset is in the earth frame, but says that it is eastward: only the
velocity is in the earth frame. -/
theorem sig_sensors_enu_false : ∃ (o : AdOpen) (ws : List AdWrite) (d e : RDS (AdT o)) (t : AdT o),
    adOpen 10 ((exSigEs 16385 [exLookUp, exLookUp, exLookUp, exLookUp] [0, 0, 0, 0]).flatten.flatMap Spec.AdRec.bytes)
      false = some (.ok o) ∧
    adReadOpen 10 ((exSigEs 16385 [exLookUp, exLookUp, exLookUp, exLookUp] [0, 0, 0, 0]).flatten.flatMap Spec.AdRec.bytes)
      o 0 none = some (.ok ws) ∧
    adReadEnd exSigInt (exSigCfg exRows4) none (fun _ => 0) o ws = some (.ok d) ∧ rotate2 3 .earth d = some (.ok e) ∧
    t.1 = (0, 0) ∧ Spec.sigDown (exSigVss 16385 exLookUp 1 [0, 0, 0, 0]) = false ∧
    Spec.attitude 0 0 0 (fun i => if i = 0 then 9.81 else 0) 1 = 9.81 ∧
    ∃ x ∈ e.vars, x.name = "accel" ∧ x.val t 0 = 9.81 ∧ x.val t 1 = 0 := by
  have hb : beamsCyDict (16385 : ℤ).toNat 21 = ⟨1, some .enu, some 4⟩ := by decide +kernel
  have hst : ∀ st ∈ [exLookUp, exLookUp, exLookUp, exLookUp], 0 ≤ st ∧ st < 2 ^ 32 := by decide
  have hv : ∀ v ∈ [(0 : ℤ), 0, 0, 0], Spec.inRange .h v := by simp [Spec.inRange, AdFmt.signed, AdFmt.size]
  obtain ⟨o, ws, d, e, t, a1, a2, a3, a4, a5, -, ⟨x, hx, hxn, -, hxv, -⟩⟩ := exSig_actual (b := 16385)
    (sts := [exLookUp, exLookUp, exLookUp, exLookUp]) (vel := [0, 0, 0, 0]) (nb := 4) (cy := .enu) (rows := exRows4)
    (exSig_ens (by decide) hst (by decide) (by decide) hv (by decide +kernel) (by unfold Spec.AdRec.ok; decide +kernel)
      (by decide +kernel))
    (exSig_numbers (by decide) hst (by decide) (by decide) hv)
    (exSig_plan (up := 4) exSig_head.1 exSig_head.2.1 exSig_head.2.2.1 exSig_head.2.2.2 rfl (by decide) hb (by decide) (by decide)
      (by rintro n (rfl | hn)
          · decide +kernel
          · obtain rfl : n = 3 := by simpa using hn
            decide +kernel)) hb rfl (by decide +kernel)
  refine ⟨o, ws, d, e, t, a1, a2, a3, a4, a5, by decide, ?_, x, hx, hxn, ?_, ?_⟩
  · rw [(attitude_level _).1]
    simp
  · rw [hxv rfl]
    norm_num [Spec.sigRecorded, Spec.sigAt, exSigV, exSigVss]
  · rw [hxv rfl]
    norm_num [Spec.sigRecorded, Spec.sigAt, exSigV, exSigVss]

/-- **C151, refuted for the sensors of files with three beams in beam coordinates.** The instrument is level and heads north.
The northward acceleration of one unit of gravity becomes two units: the accelerations are multiplied with the beam matrix,
although they are not along the beams. -/
theorem sig_sensors_beam3_false : ∃ (o : AdOpen) (ws : List AdWrite) (d e : RDS (AdT o)) (t : AdT o),
    adOpen 10 ((exSigEs 14337 [exLookUp, exLookUp, exLookUp, exLookUp] [0, 0, 0]).flatten.flatMap Spec.AdRec.bytes)
      false = some (.ok o) ∧
    adReadOpen 10 ((exSigEs 14337 [exLookUp, exLookUp, exLookUp, exLookUp] [0, 0, 0]).flatten.flatMap Spec.AdRec.bytes)
      o 0 none = some (.ok ws) ∧
    adReadEnd exSigInt (exSigCfg exRows3) none (fun _ => 0) o ws = some (.ok d) ∧ rotate2 3 .earth d = some (.ok e) ∧
    t.1 = (0, 0) ∧ Spec.sigDown (exSigVss 14337 exLookUp 1 [0, 0, 0]) = false ∧
    Spec.attitude 0 0 0 (fun i => if i = 0 then 9.81 else 0) 1 = 9.81 ∧
    ∃ x ∈ e.vars, x.name = "accel" ∧ x.val t 1 = 2 * 9.81 := by
  have hb : beamsCyDict (14337 : ℤ).toNat 21 = ⟨1, some .beam, some 3⟩ := by decide +kernel
  have hst : ∀ st ∈ [exLookUp, exLookUp, exLookUp, exLookUp], 0 ≤ st ∧ st < 2 ^ 32 := by decide
  have hv : ∀ v ∈ [(0 : ℤ), 0, 0], Spec.inRange .h v := by simp [Spec.inRange, AdFmt.signed, AdFmt.size]
  obtain ⟨o, ws, d, e, t, a1, a2, a3, a4, a5, -, ⟨x, hx, hxn, -, -, hxv⟩⟩ := exSig_actual (b := 14337)
    (sts := [exLookUp, exLookUp, exLookUp, exLookUp]) (vel := [0, 0, 0]) (nb := 3) (cy := .beam) (rows := exRows3)
    (exSig_ens (by decide) hst (by decide) (by decide) hv (by decide +kernel) (by unfold Spec.AdRec.ok; decide +kernel)
      (by decide +kernel))
    (exSig_numbers (by decide) hst (by decide) (by decide) hv)
    (exSig_plan (up := 4) exSig_head3.1 exSig_head3.2.1 exSig_head3.2.2.1 exSig_head3.2.2.2 rfl (by decide) hb (by decide)
      (by decide)
      (by rintro n (rfl | hn)
          · decide +kernel
          · obtain rfl : n = 3 := by simpa using hn
            decide +kernel)) hb rfl (by decide +kernel)
  refine ⟨o, ws, d, e, t, a1, a2, a3, a4, a5, by decide, ?_, x, hx, hxn, ?_⟩
  · rw [(attitude_level _).1]
    simp
  · rw [hxv ⟨rfl, rfl⟩]
    simp only [Spec.sigVelocity, Spec.sigTilted, show ¬ 3 = 4 from by decide, if_false, show decide (4 = 5) = false from rfl,
      Bool.false_eq_true]
    rw [(attitude_level _).1]
    norm_num [Spec.sigRecorded, Spec.sigAt, exSigV, exSigVss, exRows3, Finset.sum_range_succ]

/-- A file and a plan that `sig_earth_partial` speaks about: the instrument looks up, except in the first ping. -/
example : ∃ V, Spec.AdEnsembles [21] (fun _ => (32, 17409)) (fun _ => exSigFs 4)
      (exSigEs 17409 [exLookDown, exLookUp, exLookUp, exLookUp] [0, 0, 1000, 1000]) ∧
    Spec.SigNumbers [21] (fun _ => exSigFs 4) (exSigEs 17409 [exLookDown, exLookUp, exLookUp, exLookUp] [0, 0, 1000, 1000]) V ∧
    Spec.SigPlan exSigInt (exSigCfg exRows4) [21] (fun _ => (32, 17409)) 4 V 4 .xyz exRows4 false ∧
    Spec.sigDown (V 21 1) = false := by
  have hb : beamsCyDict (17409 : ℤ).toNat 21 = ⟨1, some .xyz, some 4⟩ := by decide +kernel
  have hst : ∀ st ∈ [exLookDown, exLookUp, exLookUp, exLookUp], 0 ≤ st ∧ st < 2 ^ 32 := by decide
  have hv : ∀ v ∈ [(0 : ℤ), 0, 1000, 1000], Spec.inRange .h v := by simp [Spec.inRange, AdFmt.signed, AdFmt.size]
  exact ⟨_, exSig_ens (b := 17409) (sts := [exLookDown, exLookUp, exLookUp, exLookUp]) (vel := [0, 0, 1000, 1000])
      (by decide) hst (by decide) (by decide) hv (by decide +kernel) (by unfold Spec.AdRec.ok; decide +kernel)
      (by decide +kernel),
    exSig_numbers (by decide) hst (by decide) (by decide) hv,
    exSig_plan (b := 17409) (sts := [exLookDown, exLookUp, exLookUp, exLookUp]) (vel := [0, 0, 1000, 1000]) (nb := 4) (up := 4)
      exSig_head.1 exSig_head.2.1 exSig_head.2.2.1 exSig_head.2.2.2 rfl (by decide) hb (by decide) (by decide)
      (by rintro n (rfl | hn)
          · decide +kernel
          · obtain rfl : n = 3 := by simpa using hn
            decide +kernel), by decide⟩

end Dolfyn
