import Verif.Props.DeclGaps
import Verif.Props.RotateMore

/-!
C183 for `set_inst2head_rotmat` on data in earth and principal coordinates.
-/

namespace Dolfyn

open Spec

variable {T : Type}

/-- C183: setting the head orientation of a Vector whose data are in earth (`i = 2`) or principal (`i = 3`) coordinates
makes every variable missing in all its components where one is missing: it is taken to instrument coordinates and
back. (The two horizontal components that the principal axes mix are among them.) -/
theorem gap_head_earth {fuel : ℕ} {R : M3} {g g' : GDS T} {i : ℕ} (hp : Pos g.hdr.coordSys i) (hi : 2 ≤ i)
    (hn : ∀ v ∈ g.vars, 2 ≤ v.n) (h : setInst2headG fuel R g = some (.ok g')) :
    g'.hdr.coordSys = g.hdr.coordSys ∧ g'.hdr.inst2head = some R ∧
    List.Forall₂ (fun v w => spreads v.n v w) g.vars g'.vars := by
  have hne : g.hdr.coordSys ≠ .inst ∧ g.hdr.coordSys ≠ .beam := by
    constructor <;> intro hc <;> rw [hc] at hp <;> cases hp <;> omega
  unfold setInst2headG at h
  split at h
  · cases h
  rename_i hv
  have hv : g.hdr.inst = .vector := by by_contra hx; exact hv hx
  have hnr : g.hdr.inst ≠ .rdi := by rw [hv]; decide
  have hpath : ∀ (d : RDS T), d.inst = g.hdr.inst → ∀ nm n, 2 ≤ n →
      mixedPath d nm n i 1 = n ∧ mixedPath d nm n 1 i = n := by
    intro d hd nm n hn2
    have hi3 : i = 2 ∨ i = 3 := by
      have := hp.lt
      omega
    rcases hi3 with rfl | rfl
    · constructor <;> · unfold mixedPath; simp [List.range'_succ, mixed_one, hd, hnr]
    · constructor <;> · unfold mixedPath; simp [List.range'_succ, mixed_one, mixed_two, hd, hnr]; omega
  cases hh : g.hdr.inst2head with
  | some _ => rw [hh] at h; cases h
  | none =>
    rw [hh] at h
    dsimp only at h
    rw [if_pos hne] at h
    cases h1 : rotate2G fuel .inst g with
    | none => rw [h1] at h; cases h
    | some x =>
      cases x with
      | error e => rw [h1] at h; cases h
      | ok g1 =>
        rw [h1] at h
        dsimp only at h
        rw [if_pos hne.2] at h
        obtain ⟨a1, a2⟩ := gap_spread hp Pos.inst h1
        cases h2 : rotateInst2headG false
            ({ g1 with hdr := { g1.hdr with inst2head := some R, inst2headSet := true } } : GDS T) with
        | error e => rw [h2] at h; cases h
        | ok g3 =>
          rw [h2] at h
          dsimp only at h
          rw [if_pos hne] at h
          obtain ⟨b1, b2⟩ := headG_spread h2
          have hq : Pos g3.hdr.coordSys 1 := by
            rw [b1]
            show Pos g1.hdr.coordSys 1
            rw [a1]; exact .inst
          obtain ⟨c1, c2⟩ := gap_spread hq hp h
          refine ⟨by rw [c1], by rw [c1, b1], ?_⟩
          have hinst : g3.hdr.inst = g.hdr.inst := by rw [b1]; show g1.hdr.inst = _; rw [a1]
          have hn' : List.Forall₂ (fun v w => spreads v.n v w ∧ 2 ≤ v.n) g.vars g1.vars := by
            have := a2
            clear a1 b1 b2 c1 c2 hq hinst h1 h2 h
            generalize g1.vars = m at this
            have key : ∀ (l : List (GVar T)) (m : List (GVar T)), (∀ v ∈ l, 2 ≤ v.n) →
                List.Forall₂ (fun v w => spreads (mixedPath g.hdr v.name v.n i 1) v w) l m →
                List.Forall₂ (fun v w => spreads v.n v w ∧ 2 ≤ v.n) l m := by
              intro l m hl hf
              induction hf with
              | nil => exact .nil
              | cons hab _ ih =>
                rename_i a b l1 l2 _
                have ha : 2 ≤ a.n := hl a (by simp)
                rw [(hpath g.hdr rfl a.name a.n ha).1] at hab
                exact .cons ⟨hab, ha⟩ (ih fun v hv => hl v (by simp [hv]))
            exact key _ _ hn this
          have hm : List.Forall₂ (fun v w => spreads v.n v w ∧ 2 ≤ v.n) g.vars g3.vars := by
            refine forall₂_through hn' b2 fun u v w huv hvw => ⟨?_, huv.2⟩
            have := spreads_trans huv.1 hvw.1
            have hle : headMix ({ g1.hdr with inst2head := some R, inst2headSet := true } : RDS T) v.name ≤ u.n := by
              by_cases h3 : headMix ({ g1.hdr with inst2head := some R, inst2headSet := true } : RDS T) v.name = 3
              · rw [h3, ← hvw.2 h3, huv.1.2.1]
              · unfold headMix at h3 ⊢
                split at h3
                · exact absurd rfl h3
                · rename_i hx; rw [if_neg hx]; omega
            rw [max_eq_left hle] at this
            exact this
          refine forall₂_through hm c2 fun u v w huv hvw => ?_
          have e := (hpath g3.hdr hinst v.name v.n (by rw [huv.1.2.1]; exact huv.2)).2
          rw [e] at hvw
          have := spreads_trans huv.1 hvw
          rw [huv.1.2.1, max_self] at this
          exact this

/-- C183: the call succeeds on complete datasets, whatever is missing in the variables. -/
theorem gap_head_succeeds {fuel : ℕ} (hfuel : 3 ≤ fuel) {R : M3} {g : GDS T} {i : ℕ} (hi : Pos g.hdr.coordSys i)
    (hr : Rotatable g.hdr) (hc : Complete (filled (fun _ _ _ => 0) g)) (hv : g.hdr.inst = .vector)
    (hn : g.hdr.inst2head = none) (hR : Spec.IsRotation R) : ∃ g', setInst2headG fuel R g = some (.ok g') := by
  obtain ⟨ds', h, -⟩ := set_inst2head_succeeds (ds := filled (fun _ _ _ => 0) g) hfuel hi
    ⟨hr.omat, hr.tilt, hr.beam, hr.head⟩ hc hv hn hR
  have hrun := gap_head_values fuel R g (fun _ _ _ => 0)
  rw [h] at hrun
  cases hg : setInst2headG fuel R g with
  | none => rw [hg] at hrun; exact hrun.elim
  | some x =>
    cases x with
    | error e => rw [hg] at hrun; exact hrun.elim
    | ok g' => exact ⟨g', rfl⟩

/-- C183 (false of `set_inst2head_rotmat`): in earth coordinates even the identity loses the measured vertical velocity of
a sample whose northward velocity is missing. -/
theorem gap_head_false : ∃ g' : GDS ℤ, setInst2headG 3 1 (exGaps .earth) = some (.ok g') ∧
    ∃ v w, (exGaps .earth).vars.head? = some v ∧ g'.vars.head? = some w ∧ v.val 5 2 = some 7 ∧ w.val 5 2 = none := by
  obtain ⟨g', h⟩ := gap_head_succeeds (fuel := 3) le_rfl (R := 1) (g := exGaps .earth) (i := 2) Pos.earth
    (exDS_rotatable .earth) (exGaps_complete .earth) rfl rfl ⟨by unfold Spec.Orthonormal; simp, Matrix.det_one⟩
  refine ⟨g', h, ?_⟩
  obtain ⟨-, -, b⟩ := gap_head_earth (g := exGaps .earth) (i := 2) Pos.earth le_rfl
    (by intro v hv; simp [exGaps] at hv; rcases hv with rfl | rfl <;> simp) h
  generalize g'.vars = l2 at b ⊢
  cases b with
  | cons h1 h2 =>
    refine ⟨_, _, rfl, rfl, by norm_num, ?_⟩
    exact (h1.2.2 5 2).mpr (Or.inr ⟨by norm_num, 1, by norm_num, by simp⟩)

end Dolfyn
