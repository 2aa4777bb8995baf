import Verif.Lemmas.RotateGaps
import Verif.Props.Rotate

/-!
C183: rotations of data with missing components. `fuel` as in `Props/Rotate.lean`.
-/

namespace Dolfyn

open Spec

variable {T : Type}

/-- C183: whatever numbers are put in place of the missing values, the rotation of the filled data fails with
the same error or succeeds likewise, and every value present after the rotation of the data with gaps is the
one obtained from the filled data. -/
theorem gap_values (fuel : ℕ) (out : Frame) (g : GDS T) (c : String → T → ℕ → ℝ) :
    sameRun within (rotate2 fuel out (filled c g)) (rotate2G fuel out g) :=
  rotate2_within fuel out (filled_within c g)

/-- C183: after a rotation a component is missing exactly if it was missing before or if it is one of the components
mixed on the way and one of those was missing; nothing but the frame name changes besides. -/
theorem gap_spread {fuel : ℕ} {out : Frame} {g g' : GDS T} {i j : ℕ} (hi : Pos g.hdr.coordSys i) (ho : Pos out j)
    (h : rotate2G fuel out g = some (.ok g')) :
    g'.hdr = { g.hdr with coordSys := out } ∧
    List.Forall₂ (fun v w => spreads (mixedPath g.hdr v.name v.n i j) v w) g.vars g'.vars := by
  unfold rotate2G at h
  cases hc : checkInst2head g.hdr with
  | error e => rw [hc] at h; cases h
  | ok b =>
    rw [hc] at h
    dsimp only at h
    split at h
    · cases h
    · rw [hi.shipAsInst, pos_iff.mp hi, pos_iff.mp ho] at h
      dsimp only at h
      unfold mixedPath
      by_cases hij : i < j
      · rw [decide_eq_false (not_not.mpr hij)] at h
        rw [min_eq_left hij.le, max_eq_right hij.le]
        exact loopG_fwd ho (j - i) i fuel hi (by omega) h
      · rw [decide_eq_true hij] at h
        rw [min_eq_right (by omega), max_eq_left (by omega)]
        exact loopG_bwd ho (i - j) fuel (by rw [show j + (i - j) = i by omega]; exact hi) h

/-- C183: rotating to any chain frame and back never changes a value that is still present; exactly the components
mixed on the way are lost where one of them was missing. -/
theorem gap_roundtrip {fuel : ℕ} (hfuel : 3 ≤ fuel) {out : Frame} {g g' g'' : GDS T} {i j : ℕ}
    (hi : Pos g.hdr.coordSys i) (ho : Pos out j) (hr : Rotatable g.hdr)
    (h : rotate2G fuel out g = some (.ok g')) (h' : rotate2G fuel g.hdr.coordSys g' = some (.ok g'')) :
    g''.hdr = g.hdr ∧
    List.Forall₂ (fun v w => spreads (mixedPath g.hdr v.name v.n i j) v w ∧
      ∀ t c, w.val t c ≠ none → w.val t c = v.val t c) g.vars g''.vars := by
  obtain ⟨a1, a2⟩ := gap_spread hi ho h
  have ho' : Pos g'.hdr.coordSys j := by rw [a1]; exact ho
  obtain ⟨b1, b2⟩ := gap_spread ho' hi h'
  refine ⟨by rw [b1, a1], ?_⟩
  have hs : List.Forall₂ (fun v w => spreads (mixedPath g.hdr v.name v.n i j) v w) g.vars g''.vars := by
    refine forall₂_through a2 b2 fun u v w huv hvw => ?_
    have e : mixedPath g'.hdr v.name v.n j i = mixedPath g.hdr u.name u.n i j := by
      unfold mixedPath
      rw [a1, mixed_frame, huv.1, huv.2.1, min_comm, max_comm]
    rw [e] at hvw
    have := spreads_trans huv hvw
    rwa [max_self] at this
  -- the values of the filled data come back
  have hv : List.Forall₂ (fun v w => ∀ t c x, w.val t c = some x → ∀ y, v.val t c = some y → x = y)
      g.vars g''.vars := by
    have hrun := gap_values fuel out g (fun _ _ _ => 0)
    rw [h] at hrun
    cases hf : rotate2 fuel out (filled (fun _ _ _ => 0) g) with
    | none => rw [hf] at hrun; exact hrun.elim
    | some x =>
      cases x with
      | error e => rw [hf] at hrun; exact hrun.elim
      | ok ds' =>
        rw [hf] at hrun
        have hback := rotate2_roundtrip (ds := filled (fun _ _ _ => 0) g) hfuel hi ho
          ⟨hr.omat, hr.tilt, hr.beam, hr.head⟩ hf
        have hrun2 := rotate2_within fuel g.hdr.coordSys hrun
        replace hback : rotate2 fuel g.hdr.coordSys ds' = _ := hback
        rw [hback, h'] at hrun2
        obtain ⟨vs, e, hvs⟩ := hrun2
        have e2 : vs = g.vars.map fun v => ⟨v.name, v.n, fun t i => (v.val t i).getD 0⟩ :=
          (congrArg RDS.vars e).symm
        rw [e2, List.forall₂_map_left_iff] at hvs
        refine hvs.imp fun v w hvw t c x hx y hy => ?_
        have := hvw.2.2 t c x hx
        dsimp only at this
        rw [this, hy]
        rfl
  have hboth : List.Forall₂ (fun v w => spreads (mixedPath g.hdr v.name v.n i j) v w ∧
      ∀ t c x, w.val t c = some x → ∀ y, v.val t c = some y → x = y) g.vars g''.vars := by
    rw [List.forall₂_iff_zip] at hs hv ⊢
    exact ⟨hs.1, fun hm => ⟨hs.2 hm, hv.2 hm⟩⟩
  refine hboth.imp fun v w hvw => ⟨hvw.1, fun t c hne => ?_⟩
  obtain ⟨x, hx⟩ := Option.ne_none_iff_exists'.mp hne
  cases hy : v.val t c with
  | none => exact absurd ((hvw.1.2.2 t c).mpr (Or.inl hy)) hne
  | some y => rw [hx, hvw.2 t c x hx y hy]

/-- C183: between instrument and earth coordinates a Nortek instrument loses the whole vector as soon as one
component is missing. -/
theorem gap_vector {fuel : ℕ} {out : Frame} {g g' : GDS T} {i j : ℕ} (hi : Pos g.hdr.coordSys i) (ho : Pos out j)
    (hcross : min i j ≤ 1 ∧ 2 ≤ max i j) (hinst : g.hdr.inst ≠ .rdi)
    (h : rotate2G fuel out g = some (.ok g')) :
    List.Forall₂ (fun v w => ∀ t, (∃ c < v.n, v.val t c = none) → ∀ c < v.n, w.val t c = none) g.vars g'.vars := by
  refine (gap_spread hi ho h).2.imp fun v w hvw t hc c hcn => ?_
  have hK : v.n ≤ mixedPath g.hdr v.name v.n i j := by
    have h1 : mixed g.hdr v.name v.n 1 = v.n := by rw [mixed_one, if_neg hinst]
    have hmem : ∀ (l : List ℕ) (x : ℕ), x ∈ l → x ≤ l.foldr max 0 := by
      intro l x hx
      induction l with
      | nil => cases hx
      | cons a l ih =>
        rw [List.foldr_cons]
        rcases List.mem_cons.mp hx with rfl | hx
        · omega
        · have := ih hx; omega
    unfold mixedPath
    refine hmem _ _ (List.mem_map.mpr ⟨1, ?_, h1⟩)
    rw [List.mem_range'_1]
    omega
  obtain ⟨d, hd, hdn⟩ := hc
  exact (hvw.2.2 t c).mpr (Or.inr ⟨by omega, d, by omega, hdn⟩)

/-- C183: between earth and principal coordinates the vertical velocity (and every further component) keeps its
values and its gaps, whatever is missing in the horizontal components. -/
theorem gap_vertical {fuel : ℕ} {out : Frame} {g g' : GDS T} (hi : g.hdr.coordSys = .earth ∨ g.hdr.coordSys = .principal)
    (ho : out = .earth ∨ out = .principal) (h : rotate2G fuel out g = some (.ok g')) :
    List.Forall₂ (fun v w => ∀ t c, 2 ≤ c → (w.val t c = none ↔ v.val t c = none)) g.vars g'.vars := by
  have hp : ∃ i, Pos g.hdr.coordSys i ∧ 2 ≤ i := by
    rcases hi with hi | hi <;> rw [hi]
    · exact ⟨2, .earth, le_rfl⟩
    · exact ⟨3, .principal, by omega⟩
  have hq : ∃ j, Pos out j ∧ 2 ≤ j := by
    rcases ho with ho | ho <;> rw [ho]
    · exact ⟨2, .earth, le_rfl⟩
    · exact ⟨3, .principal, by omega⟩
  obtain ⟨i, hi, hi2⟩ := hp
  obtain ⟨j, ho, hj2⟩ := hq
  have hi4 := hi.lt
  have hj4 := ho.lt
  refine (gap_spread hi ho h).2.imp fun v w hvw t c hc => ?_
  rw [hvw.2.2 t c]
  have hK : mixedPath g.hdr v.name v.n i j ≤ 2 := by
    unfold mixedPath
    have h2 := mixed_two g.hdr v.name v.n
    interval_cases i <;> interval_cases j <;> simp [List.range'_succ, h2]
  exact ⟨fun hh => hh.elim id fun h1 => absurd h1.1 (by omega), Or.inl⟩

/-- C183: a Teledyne RDI instrument between instrument and earth coordinates: a missing velocity component makes
the three velocity components missing; the error velocity keeps its values and its gaps, and a missing error velocity
leaves the others alone. -/
theorem gap_rdi {fuel : ℕ} {out : Frame} {g g' : GDS T} (hi : g.hdr.coordSys = .inst ∨ g.hdr.coordSys = .earth)
    (ho : out = .inst ∨ out = .earth) (hne : g.hdr.coordSys ≠ out) (hinst : g.hdr.inst = .rdi)
    (h : rotate2G fuel out g = some (.ok g')) :
    List.Forall₂ (fun v w => ∀ t, (∀ c < 3, w.val t c = none ↔ ∃ d < 3, v.val t d = none) ∧
      ∀ c, 3 ≤ c → (w.val t c = none ↔ v.val t c = none)) g.vars g'.vars := by
  have hp : ∃ i j, Pos g.hdr.coordSys i ∧ Pos out j ∧ min i j = 1 ∧ max i j = 2 := by
    rcases hi with hi | hi <;> rcases ho with ho | ho <;> rw [hi, ho] at hne ⊢
    · exact absurd rfl hne
    · exact ⟨1, 2, .inst, .earth, rfl, rfl⟩
    · exact ⟨2, 1, .earth, .inst, rfl, rfl⟩
    · exact absurd rfl hne
  obtain ⟨i, j, hi, ho, hmin, hmax⟩ := hp
  refine (gap_spread hi ho h).2.imp fun v w hvw t => ?_
  have hK : mixedPath g.hdr v.name v.n i j = 3 := by
    unfold mixedPath
    rw [hmin, hmax]
    have h1 := mixed_one g.hdr v.name v.n
    rw [if_pos hinst] at h1
    simp [List.range'_succ, h1]
  rw [hK] at hvw
  refine ⟨fun c hc => ?_, fun c hc => ?_⟩
  · rw [hvw.2.2 t c]
    exact ⟨fun hh => hh.elim (fun h1 => ⟨c, hc, h1⟩) fun h1 => h1.2, fun hh => Or.inr ⟨hc, hh⟩⟩
  · rw [hvw.2.2 t c]
    exact ⟨fun hh => hh.elim id fun h1 => absurd h1.1 (by omega), Or.inl⟩

/-- C183: one missing beam makes all beams' velocities missing in instrument coordinates. -/
theorem gap_beam {fuel : ℕ} {out : Frame} {g g' : GDS T} {j : ℕ} (hi : g.hdr.coordSys = .beam) (ho : Pos out j)
    (hj : 1 ≤ j) {B : BeamMat} (hB : g.hdr.beam2inst = some B) (h : rotate2G fuel out g = some (.ok g')) :
    List.Forall₂ (fun v w => v.n = B.n → ∀ t, (∃ c < v.n, v.val t c = none) → ∀ c < v.n, w.val t c = none)
      g.vars g'.vars := by
  have hp : Pos g.hdr.coordSys 0 := by rw [hi]; exact .beam
  refine (gap_spread hp ho h).2.imp fun v w hvw hn t hc c hcn => ?_
  have hK : v.n ≤ mixedPath g.hdr v.name v.n 0 j := by
    have h0 : mixed g.hdr v.name v.n 0 = v.n := by rw [mixed_zero, if_pos (by rw [hB, hn]; rfl)]
    unfold mixedPath
    obtain ⟨k, rfl⟩ : ∃ k, j = k + 1 := ⟨j - 1, by omega⟩
    rw [Nat.zero_min, Nat.zero_max, Nat.sub_zero, List.range'_succ, List.map_cons, List.foldr_cons, h0]
    omega
  obtain ⟨d, hd, hdn⟩ := hc
  exact (hvw.2.2 t c).mpr (Or.inr ⟨by omega, d, by omega, hdn⟩)

/-- The example dataset of `Props/Rotate.lean` with the second velocity component missing in sample 5. -/
noncomputable def exGaps (f : Frame) : GDS ℤ where
  hdr := exDS f
  vars := [⟨"vel", 3, fun t i => if t = 5 ∧ i = 1 then none else some (t + i)⟩,
    ⟨"accel", 3, fun t i => some (t * i)⟩]

/-- A dataset that can be rotated with its gaps filled can be rotated with them. -/
theorem gap_succeeds {fuel : ℕ} (hfuel : 3 ≤ fuel) {out : Frame} {g : GDS T} {i j : ℕ}
    (hi : Pos g.hdr.coordSys i) (ho : Pos out j) (hr : Rotatable g.hdr)
    (hc : Complete (filled (fun _ _ _ => 0) g)) :
    ∃ g', rotate2G fuel out g = some (.ok g') := by
  obtain ⟨ds', h, _⟩ := rotate2_succeeds (ds := filled (fun _ _ _ => 0) g) hfuel hi ho
    ⟨hr.omat, hr.tilt, hr.beam, hr.head⟩ hc
  have hrun := gap_values fuel out g (fun _ _ _ => 0)
  rw [h] at hrun
  cases hg : rotate2G fuel out g with
  | none => rw [hg] at hrun; exact hrun.elim
  | some x =>
    cases x with
    | error e => rw [hg] at hrun; exact hrun.elim
    | ok g' => exact ⟨g', rfl⟩

theorem exGaps_complete (f : Frame) : Complete (filled (fun _ _ _ => 0) (exGaps f)) := by
  refine ⟨by simp [exGaps, exDS, filled], ⟨false, rfl⟩, ⟨_, rfl⟩, Or.inl (by simp [exGaps, exDS, filled]),
    by simp [exGaps, exDS, filled], ?_, ?_⟩
  · intro v hv
    simp [exGaps, filled] at hv
    rcases hv with rfl | rfl <;> simp
  · intro h; exact absurd rfl h

/-- Non-vacuity: the example with a gap can be rotated from and to any chain frame. -/
example (f out : Frame) (i j : ℕ) (hi : Pos f i) (ho : Pos out j) :
    ∃ g', rotate2G 3 out (exGaps f) = some (.ok g') :=
  gap_succeeds le_rfl (g := exGaps f) hi ho (exDS_rotatable f) (exGaps_complete f)

/-- The same data from a Teledyne RDI instrument. -/
noncomputable def exGapsRdi (f : Frame) : GDS ℤ :=
  { exGaps f with hdr := { exDS f with inst := .rdi } }

/-- Non-vacuity of `gap_rdi`. -/
example : ∃ g', rotate2G 3 .earth (exGapsRdi .inst) = some (.ok g') := by
  refine gap_succeeds le_rfl (g := exGapsRdi .inst) (i := 1) (j := 2) Pos.inst Pos.earth
    ⟨(exDS_rotatable .inst).omat, fun h => by simp [exGapsRdi] at h, (exDS_rotatable .inst).beam,
      (exDS_rotatable .inst).head⟩ ?_
  refine ⟨by simp [exGapsRdi, filled], ⟨false, rfl⟩, ⟨_, rfl⟩, Or.inl (by simp [exGapsRdi, exDS, filled]),
    by simp [exGapsRdi, exDS, filled], ?_, ?_⟩
  · intro v hv
    simp [exGapsRdi, exGaps, filled] at hv
    rcases hv with rfl | rfl <;> simp
  · intro h; exact absurd rfl h

/-- C183 (the full claim is false): rotating to earth coordinates and back does not return the measured
components of a sample in which another component is missing. -/
theorem gap_back_false : ∃ g g' g'' : GDS ℤ, Rotatable g.hdr ∧
    rotate2G 3 .earth g = some (.ok g') ∧ rotate2G 3 .inst g' = some (.ok g'') ∧
    ∃ v w, g.vars.head? = some v ∧ g''.vars.head? = some w ∧ v.val 5 0 = some 5 ∧ w.val 5 0 = none := by
  have hc : (exGaps .inst).hdr.coordSys = .inst := rfl
  obtain ⟨g', h⟩ := gap_succeeds (fuel := 3) le_rfl (g := exGaps .inst) (out := .earth) (i := 1) (j := 2)
    Pos.inst Pos.earth (exDS_rotatable _) (exGaps_complete _)
  obtain ⟨a1, a2⟩ := gap_spread (g := exGaps .inst) (i := 1) Pos.inst Pos.earth h
  have hp' : Pos g'.hdr.coordSys 2 := by rw [a1]; exact .earth
  have hsize : ∀ w ∈ g'.vars, w.n = 3 := by
    have hall : ∀ v ∈ (exGaps .inst).vars, v.n = 3 := by
      intro v hv
      simp [exGaps] at hv
      rcases hv with rfl | rfl <;> rfl
    generalize (exGaps .inst).vars = l at a2 hall
    generalize g'.vars = m at a2
    induction a2 with
    | nil => intro w hw; cases hw
    | cons h1 _ ih =>
      intro w hw
      rcases List.mem_cons.mp hw with rfl | hw
      · rw [h1.2.1]; exact hall _ (by simp)
      · exact ih (fun v hv => hall v (by simp [hv])) w hw
  have hcomp : Complete (filled (fun _ _ _ => 0) g') := by
    refine ⟨by rw [filled, a1]; simp [exGaps, exDS], ⟨false, by rw [filled, a1]; rfl⟩, ⟨_, by rw [filled, a1]; rfl⟩,
      Or.inl (by rw [filled, a1]; simp [exGaps, exDS]), by rw [filled, a1]; simp [exGaps, exDS], ?_, ?_⟩
    · intro v hv
      obtain ⟨w, hw, rfl⟩ := List.mem_map.mp hv
      exact Or.inl (hsize w hw)
    · intro h; rw [filled, a1] at h; exact absurd rfl h
  obtain ⟨g'', h'⟩ := gap_succeeds (fuel := 3) le_rfl (g := g') (out := .inst) (i := 2) (j := 1) hp' Pos.inst
    (by rw [a1]; exact ⟨(exDS_rotatable .inst).omat, (exDS_rotatable .inst).tilt, (exDS_rotatable .inst).beam,
      (exDS_rotatable .inst).head⟩) hcomp
  obtain ⟨_, b2⟩ := gap_roundtrip (fuel := 3) le_rfl (g := exGaps .inst) (i := 1) (j := 2) Pos.inst Pos.earth
    (exDS_rotatable .inst) h h'
  refine ⟨exGaps .inst, g', g'', exDS_rotatable .inst, h, h', ?_⟩
  have hK : mixedPath (exDS .inst) "vel" 3 1 2 = 3 := by
    unfold mixedPath
    have h1 := mixed_one (exDS .inst) "vel" 3
    rw [if_neg (by simp [exDS])] at h1
    simp [List.range'_succ, h1]
  generalize g''.vars = l2 at b2 ⊢
  cases b2 with
  | cons h1 h2 =>
    refine ⟨_, _, rfl, rfl, by norm_num, ?_⟩
    refine (h1.1.2.2 5 0).mpr (Or.inr ?_)
    rw [show (exGaps .inst).hdr = exDS .inst from rfl]
    dsimp only
    rw [hK]
    exact ⟨by omega, 1, by omega, by simp⟩

end Dolfyn
