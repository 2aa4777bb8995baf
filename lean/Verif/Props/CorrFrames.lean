import Verif.Model.CorrFrames
import Verif.Props.RotateGaps

/-!
C184: `correlation_filter` in every coordinate system.
-/

namespace Dolfyn

open Spec

variable {T : Type}

/-- The measurement of beam `b` at sample `t` is screened: `v` is the velocity and its correlation does not exceed the
threshold. -/
def Spec.screened (thresh : ℝ) (corr : T → ℕ → Option ℝ) (v : GVar T) (t : T) (b : ℕ) : Prop :=
  v.name = "vel" ∧ ∃ x, corr t b = some x ∧ x ≤ thresh

/-- `w` is missing at a component exactly if `v` was or the beam of that number is screened, or if this holds of one
of the first `K` components and the component is one of them. -/
def Spec.filteredTo (K : ℕ) (thresh : ℝ) (corr : T → ℕ → Option ℝ) (v w : GVar T) : Prop :=
  w.name = v.name ∧ w.n = v.n ∧ ∀ t c, w.val t c = none ↔
    ((v.val t c = none ∨ screened thresh corr v t c) ∨
      (c < K ∧ ∃ d < K, v.val t d = none ∨ screened thresh corr v t d))

theorem corrBad_iff (thresh : ℝ) (x : Option ℝ) : corrBad thresh x = true ↔ ∃ y, x = some y ∧ y ≤ thresh := by
  cases x with
  | none => simp [corrBad]
  | some y => simp [corrBad]

theorem maskCorr_name (thresh : ℝ) (corr : T → ℕ → Option ℝ) (v : GVar T) :
    (v.maskCorr thresh corr).name = v.name ∧ (v.maskCorr thresh corr).n = v.n := by
  unfold GVar.maskCorr
  split <;> exact ⟨rfl, rfl⟩

theorem maskCorr_none (thresh : ℝ) (corr : T → ℕ → Option ℝ) (v : GVar T) (t : T) (c : ℕ) :
    (v.maskCorr thresh corr).val t c = none ↔ v.val t c = none ∨ screened thresh corr v t c := by
  unfold GVar.maskCorr screened
  by_cases hn : v.name = "vel"
  · rw [if_pos hn]
    dsimp only
    unfold maskWrite
    rw [← corrBad_iff]
    by_cases hb : corrBad thresh (corr t c) = true
    · simp [hb, hn]
    · simp [hb]
  · rw [if_neg hn]
    simp [hn]

theorem maskCorr_some (thresh : ℝ) (corr : T → ℕ → Option ℝ) (v : GVar T) (t : T) (c : ℕ) (x : ℝ)
    (h : (v.maskCorr thresh corr).val t c = some x) : v.val t c = some x := by
  unfold GVar.maskCorr at h
  split at h
  · dsimp only at h
    unfold maskWrite at h
    split at h
    · simp at h
    · exact h
  · exact h

theorem within_mask {thresh : ℝ} {corr : T → ℕ → Option ℝ} {ds : RDS T} {g : GDS T} (h : within ds g) :
    within ds { g with vars := g.vars.map (GVar.maskCorr thresh corr) } := by
  obtain ⟨vs, rfl, hv⟩ := h
  refine ⟨vs, rfl, ?_⟩
  dsimp only
  rw [List.forall₂_map_right_iff]
  refine hv.imp fun a b hab => ?_
  obtain ⟨h1, h2⟩ := maskCorr_name thresh corr b
  exact ⟨by rw [h1]; exact hab.1, by rw [h2]; exact hab.2.1,
    fun t i x hx => hab.2.2 t i x (maskCorr_some thresh corr b t i x hx)⟩

theorem filtered_compose {K : ℕ} {thresh : ℝ} {corr : T → ℕ → Option ℝ} {u v w : GVar T} (h1 : spreads K u v)
    (h2 : spreads K (v.maskCorr thresh corr) w) : filteredTo K thresh corr u w := by
  obtain ⟨e1, e2⟩ := maskCorr_name thresh corr v
  have hs : ∀ t c, screened thresh corr v t c ↔ screened thresh corr u t c := by
    intro t c; unfold screened; rw [h1.1]
  refine ⟨h2.1.trans (e1.trans h1.1), h2.2.1.trans (e2.trans h1.2.1), fun t c => ?_⟩
  rw [h2.2.2 t c]
  simp only [maskCorr_none, h1.2.2, hs]
  constructor
  · rintro (((h | ⟨hc, d, hd, h⟩) | h) | ⟨hc, d, hd, ((h | ⟨_, e, he, h⟩) | h)⟩)
    · exact Or.inl (Or.inl h)
    · exact Or.inr ⟨hc, d, hd, Or.inl h⟩
    · exact Or.inl (Or.inr h)
    · exact Or.inr ⟨hc, d, hd, Or.inl h⟩
    · exact Or.inr ⟨hc, e, he, Or.inl h⟩
    · exact Or.inr ⟨hc, d, hd, Or.inr h⟩
  · rintro ((h | h) | ⟨hc, d, hd, (h | h)⟩)
    · exact Or.inl (Or.inl (Or.inl h))
    · exact Or.inl (Or.inr h)
    · exact Or.inl (Or.inl (Or.inr ⟨hc, d, hd, h⟩))
    · exact Or.inr ⟨hc, d, hd, Or.inr h⟩

/-- C184: in every coordinate system the filter changes no value it leaves, and makes missing exactly the screened
beams and the components mixed with a screened or missing one on the way to beam coordinates. -/
theorem corr_filter_frames {fuel : ℕ} (hfuel : 3 ≤ fuel) {thresh : ℝ} {corr : T → ℕ → Option ℝ} {g g' : GDS T}
    {i : ℕ} (hi : Pos g.hdr.coordSys i) (hr : Rotatable g.hdr) (h : corrFilterG fuel thresh corr g = some (.ok g')) :
    g'.hdr = g.hdr ∧
    List.Forall₂ (fun v w => filteredTo (mixedPath g.hdr v.name v.n i 0) thresh corr v w ∧
      ∀ t c, w.val t c ≠ none → w.val t c = v.val t c) g.vars g'.vars := by
  unfold corrFilterG at h
  cases hb : rotate2G fuel .beam g with
  | none => rw [hb] at h; cases h
  | some x =>
    cases x with
    | error e => rw [hb] at h; cases h
    | ok g1 =>
      rw [hb] at h
      dsimp only at h
      obtain ⟨a1, a2⟩ := gap_spread hi Pos.beam hb
      have hp : Pos ({ g1 with vars := g1.vars.map (GVar.maskCorr thresh corr) } : GDS T).hdr.coordSys 0 := by
        show Pos g1.hdr.coordSys 0
        rw [a1]; exact .beam
      obtain ⟨b1, b2⟩ := gap_spread hp hi h
      refine ⟨by rw [b1]; dsimp only; rw [a1], ?_⟩
      dsimp only at b2
      rw [List.forall₂_map_left_iff] at b2
      have hs : List.Forall₂ (fun v w => filteredTo (mixedPath g.hdr v.name v.n i 0) thresh corr v w)
          g.vars g'.vars := by
        refine forall₂_through a2 b2 fun u v w huv hvw => ?_
        obtain ⟨e1, e2⟩ := maskCorr_name thresh corr v
        have e : mixedPath g1.hdr (v.maskCorr thresh corr).name (v.maskCorr thresh corr).n 0 i =
            mixedPath g.hdr u.name u.n i 0 := by
          unfold mixedPath
          rw [a1, mixed_frame, e1, e2, huv.1, huv.2.1, min_comm, max_comm]
        rw [e] at hvw
        exact filtered_compose huv hvw
      have hv : List.Forall₂ (fun v w => ∀ t c x, w.val t c = some x → ∀ y, v.val t c = some y → x = y)
          g.vars g'.vars := by
        have hrun := gap_values fuel .beam g (fun _ _ _ => 0)
        rw [hb] at hrun
        cases hf : rotate2 fuel .beam (filled (fun _ _ _ => 0) g) with
        | none => rw [hf] at hrun; exact hrun.elim
        | some x =>
          cases x with
          | error e => rw [hf] at hrun; exact hrun.elim
          | ok ds' =>
            rw [hf] at hrun
            have hback := rotate2_roundtrip (ds := filled (fun _ _ _ => 0) g) hfuel hi Pos.beam
              ⟨hr.omat, hr.tilt, hr.beam, hr.head⟩ hf
            have hrun2 := rotate2_within fuel g.hdr.coordSys (within_mask (thresh := thresh) (corr := corr) hrun)
            replace hback : rotate2 fuel g.hdr.coordSys ds' = _ := hback
            rw [hback, h] at hrun2
            obtain ⟨vs, e, hvs⟩ := hrun2
            have e2 : vs = g.vars.map fun v => ⟨v.name, v.n, fun t i => (v.val t i).getD 0⟩ :=
              (congrArg RDS.vars e).symm
            rw [e2, List.forall₂_map_left_iff] at hvs
            refine hvs.imp fun v w hvw t c x hx y hy => ?_
            have := hvw.2.2 t c x hx
            dsimp only at this
            rw [this, hy]
            rfl
      have hboth : List.Forall₂ (fun v w => filteredTo (mixedPath g.hdr v.name v.n i 0) thresh corr v w ∧
          ∀ t c x, w.val t c = some x → ∀ y, v.val t c = some y → x = y) g.vars g'.vars := by
        rw [List.forall₂_iff_zip] at hs hv ⊢
        exact ⟨hs.1, fun hm => ⟨hs.2 hm, hv.2 hm⟩⟩
      refine hboth.imp fun v w hvw => ⟨hvw.1, fun t c hne => ?_⟩
      obtain ⟨x, hx⟩ := Option.ne_none_iff_exists'.mp hne
      cases hy : v.val t c with
      | none => exact absurd ((hvw.1.2.2 t c).mpr (Or.inl (Or.inl hy))) hne
      | some y => rw [hx, hvw.2 t c x hx y hy]

/-- C184: a complete sample with all correlations above the threshold (or unknown) keeps every component, in every
coordinate system. -/
theorem corr_filter_keeps {fuel : ℕ} (hfuel : 3 ≤ fuel) {thresh : ℝ} {corr : T → ℕ → Option ℝ} {g g' : GDS T}
    {i : ℕ} (hi : Pos g.hdr.coordSys i) (hr : Rotatable g.hdr) (h : corrFilterG fuel thresh corr g = some (.ok g')) :
    List.Forall₂ (fun v w => ∀ t, (∀ c, v.val t c ≠ none) → (∀ b x, corr t b = some x → thresh < x) →
      ∀ c, w.val t c = v.val t c) g.vars g'.vars := by
  refine (corr_filter_frames hfuel hi hr h).2.imp fun v w hvw t hc hg c => hvw.2 t c fun hn => ?_
  have hns : ∀ b, ¬ screened thresh corr v t b := by
    rintro b ⟨_, x, hx, hle⟩
    exact absurd (hg b x hx) (not_lt.mpr hle)
  rcases (hvw.1.2.2 t c).mp hn with (h1 | h1) | ⟨_, d, _, (h1 | h1)⟩
  · exact hc c h1
  · exact hns c h1
  · exact hc d h1
  · exact hns d h1

/-- C184: outside beam coordinates one screened beam makes every component of the velocity missing. -/
theorem corr_filter_blanks {fuel : ℕ} (hfuel : 3 ≤ fuel) {thresh : ℝ} {corr : T → ℕ → Option ℝ} {g g' : GDS T}
    {i : ℕ} (hi : Pos g.hdr.coordSys i) (hne : g.hdr.coordSys ≠ .beam) (hr : Rotatable g.hdr) {B : BeamMat}
    (hB : g.hdr.beam2inst = some B) (h : corrFilterG fuel thresh corr g = some (.ok g')) :
    List.Forall₂ (fun v w => v.name = "vel" → v.n = B.n → ∀ t, (∃ b < v.n, ∃ x, corr t b = some x ∧ x ≤ thresh) →
      ∀ c < v.n, w.val t c = none) g.vars g'.vars := by
  refine (corr_filter_frames hfuel hi hr h).2.imp fun v w hvw hn hsz t hb c hc => ?_
  obtain ⟨b, hbn, hbad⟩ := hb
  have hi0 : 1 ≤ i := by
    rcases Nat.eq_zero_or_pos i with h0 | h0
    · rw [h0] at hi; exact absurd (hi.inj Pos.beam) hne
    · exact h0
  have hK : v.n ≤ mixedPath g.hdr v.name v.n i 0 := by
    have h0 : mixed g.hdr v.name v.n 0 = v.n := by rw [mixed_zero, if_pos (by rw [hB, hsz]; rfl)]
    unfold mixedPath
    obtain ⟨k, rfl⟩ : ∃ k, i = k + 1 := ⟨i - 1, by omega⟩
    rw [Nat.min_zero, Nat.max_zero, Nat.sub_zero, List.range'_succ, List.map_cons, List.foldr_cons, h0]
    omega
  exact (hvw.1.2.2 t c).mpr (Or.inr ⟨by omega, b, by omega, Or.inr ⟨hn, hbad⟩⟩)

/-- C184: in beam coordinates exactly the screened beams become missing. -/
theorem corr_filter_beam {fuel : ℕ} (hfuel : 3 ≤ fuel) {thresh : ℝ} {corr : T → ℕ → Option ℝ} {g g' : GDS T}
    (hi : g.hdr.coordSys = .beam) (hr : Rotatable g.hdr) (h : corrFilterG fuel thresh corr g = some (.ok g')) :
    List.Forall₂ (fun v w => ∀ t c, (screened thresh corr v t c → w.val t c = none) ∧
      (¬ screened thresh corr v t c → w.val t c = v.val t c)) g.vars g'.vars := by
  have hp : Pos g.hdr.coordSys 0 := by rw [hi]; exact .beam
  refine (corr_filter_frames hfuel hp hr h).2.imp fun v w hvw t c => ⟨fun hs => ?_, fun hs => ?_⟩
  · exact (hvw.1.2.2 t c).mpr (Or.inl (Or.inr hs))
  · cases hw : w.val t c with
    | some x => rw [← hvw.2 t c (by rw [hw]; simp), hw]
    | none =>
      have hK : mixedPath g.hdr v.name v.n 0 0 = 0 := by simp [mixedPath]
      rcases (hvw.1.2.2 t c).mp hw with (h1 | h1) | h1
      · exact h1.symm
      · exact absurd h1 hs
      · rw [hK] at h1; exact absurd h1.1 (by omega)

/-- C184: variables other than the velocity keep their values; they lose only what rotating to beam coordinates and
back loses. -/
theorem corr_filter_rest {fuel : ℕ} (hfuel : 3 ≤ fuel) {thresh : ℝ} {corr : T → ℕ → Option ℝ} {g g' : GDS T}
    {i : ℕ} (hi : Pos g.hdr.coordSys i) (hr : Rotatable g.hdr) (h : corrFilterG fuel thresh corr g = some (.ok g')) :
    List.Forall₂ (fun v w => v.name ≠ "vel" → ∀ t, (∀ c, v.val t c ≠ none) → ∀ c, w.val t c = v.val t c)
      g.vars g'.vars := by
  refine (corr_filter_frames hfuel hi hr h).2.imp fun v w hvw hn t hc c => hvw.2 t c fun hw => ?_
  have hns : ∀ b, ¬ screened thresh corr v t b := fun b hb => hn hb.1
  rcases (hvw.1.2.2 t c).mp hw with (h1 | h1) | ⟨_, d, _, (h1 | h1)⟩
  · exact hc c h1
  · exact hns c h1
  · exact hc d h1
  · exact hns d h1

/-- C184 (false of ship coordinates): the filter raises on every dataset in the ship frame. -/
theorem corr_filter_ship_false {fuel : ℕ} (hfuel : 1 ≤ fuel) (thresh : ℝ) (corr : T → ℕ → Option ℝ) (g : GDS T)
    (hs : g.hdr.coordSys = .ship) : ∃ e, corrFilterG fuel thresh corr g = some (.error e) := by
  obtain ⟨e, he⟩ := rotate2_ship_fails hfuel (out := .beam) (filled (fun _ _ _ => 0) g) hs (Or.inr rfl)
  have hrun := gap_values fuel .beam g (fun _ _ _ => 0)
  rw [he] at hrun
  unfold corrFilterG
  cases hb : rotate2G fuel .beam g with
  | none => rw [hb] at hrun; exact hrun.elim
  | some x =>
    cases x with
    | error e' => exact ⟨e', rfl⟩
    | ok g1 => rw [hb] at hrun; exact hrun.elim

/-- Whatever can be rotated can be filtered. -/
theorem corr_filter_succeeds {fuel : ℕ} (hfuel : 3 ≤ fuel) (thresh : ℝ) (corr : T → ℕ → Option ℝ) {g : GDS T}
    {i : ℕ} (hi : Pos g.hdr.coordSys i) (hr : Rotatable g.hdr) (hc : Complete (filled (fun _ _ _ => 0) g)) :
    ∃ g', corrFilterG fuel thresh corr g = some (.ok g') := by
  obtain ⟨ds1, h1, _⟩ := rotate2_succeeds (ds := filled (fun _ _ _ => 0) g) hfuel hi Pos.beam
    ⟨hr.omat, hr.tilt, hr.beam, hr.head⟩ hc
  have hrun := gap_values fuel .beam g (fun _ _ _ => 0)
  rw [h1] at hrun
  unfold corrFilterG
  cases hb : rotate2G fuel .beam g with
  | none => rw [hb] at hrun; exact hrun.elim
  | some x =>
    cases x with
    | error e' => rw [hb] at hrun; exact hrun.elim
    | ok g1 =>
      rw [hb] at hrun
      have hback := rotate2_roundtrip (ds := filled (fun _ _ _ => 0) g) hfuel hi Pos.beam
        ⟨hr.omat, hr.tilt, hr.beam, hr.head⟩ h1
      replace hback : rotate2 fuel g.hdr.coordSys ds1 = _ := hback
      have hrun2 := rotate2_within fuel g.hdr.coordSys (within_mask (thresh := thresh) (corr := corr) hrun)
      rw [hback] at hrun2
      dsimp only
      cases hg : rotate2G fuel g.hdr.coordSys { g1 with vars := g1.vars.map (GVar.maskCorr thresh corr) } with
      | none => rw [hg] at hrun2; exact hrun2.elim
      | some y =>
        cases y with
        | error e => rw [hg] at hrun2; exact hrun2.elim
        | ok g' => exact ⟨g', rfl⟩

/-- Non-vacuity: the example with a gap can be filtered in every chain frame. -/
example (f : Frame) (i : ℕ) (hi : Pos f i) (corr : ℤ → ℕ → Option ℝ) :
    ∃ g', corrFilterG 3 50 corr (exGaps f) = some (.ok g') :=
  corr_filter_succeeds le_rfl 50 corr (g := exGaps f) hi (exDS_rotatable f) (exGaps_complete f)

/-- Non-vacuity of `corr_filter_ship_false`. -/
example : (exGaps .ship).hdr.coordSys = .ship := rfl

end Dolfyn
