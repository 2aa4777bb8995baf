import Verif.Model.CleanDs
import Mathlib.Data.List.Forall2
import Mathlib.Analysis.SpecialFunctions.Trigonometric.Basic
import Mathlib.Tactic.Linarith
import Mathlib.Tactic.NormNum

/-!
C157: `nan_beyond_surface` on whole datasets.
-/

namespace Dolfyn

/-- The beam angle in use: the one supplied, or else the attribute of the dataset in degrees. -/
noncomputable def Spec.surfAngle (supplied : Option ℝ) (ds : SurfDs) : Option ℝ :=
  match supplied with
  | some a => some a
  | none => ds.beamAngle.map fun b => b * (Real.pi / 180)

/-- A cell is beyond the surface interference: its distance from the transducers is more than the
distance of the surface times the cosine of the beam angle less one cell. -/
def Spec.BeyondSurface (ang : ℝ) (ds : SurfDs) (c t : ℕ) : Prop :=
  ∃ depth d cell, ds.depth = some depth ∧ depth t = some d ∧ ds.cellSize = some cell ∧
    (d - ds.hDeploy.getD 0) * Real.cos ang - cell < ds.range c - ds.hDeploy.getD 0

/-- An echo-sounder cell beyond the surface. -/
def Spec.EchoBeyond (ds : SurfDs) (c t : ℕ) : Prop :=
  ∃ depth d re, ds.depth = some depth ∧ depth t = some d ∧ ds.rangeEcho = some re ∧ d < re c

/-- The last two axes of the variable have `n` cells and `nt` profiles. -/
def Spec.LastAxes (n nt : ℕ) (v : ProfVar) : Prop := ∃ lead, v.shape = lead ++ [n, nt]

open Classical in
/-- `v'` is `v` with `w` written into the cells `bad c t`, for all values of the leading indices. -/
def Spec.WrittenInto (bad : ℕ → ℕ → Prop) (w : Option ℝ) (v v' : ProfVar) : Prop :=
  v'.name = v.name ∧ v'.dims = v.dims ∧ v'.shape = v.shape ∧ v'.isFloat = v.isFloat ∧
    v'.own = v.own ∧
    ∀ lead c t, v'.data (lead ++ [c, t]) = if bad c t then w else v.data (lead ++ [c, t])

/-- What blanking should make of one variable. -/
def Spec.Blanked (val : Option ℝ) (ang : ℝ) (ds : SurfDs) (v v' : ProfVar) : Prop :=
  (v.overRange = false → v' = v) ∧
  (v.overRange = true → v.name = "echo" → Spec.WrittenInto (Spec.EchoBeyond ds) val v v') ∧
  (v.overRange = true → v.name ≠ "echo" → v.isFloat = true →
    Spec.WrittenInto (Spec.BeyondSurface ang ds) val v v') ∧
  (v.overRange = true → v.name ≠ "echo" → v.isFloat = false →
    Spec.WrittenInto (Spec.BeyondSurface ang ds) (some (val.getD 0)) v v')

/-- Every variable the call goes through has the axes of the mask laid over it. -/
def Spec.MasksFit (val : Option ℝ) (ds : SurfDs) : Prop :=
  ∀ v ∈ ds.vars, v.overRange = true →
    (v.name = "echo" → Spec.LastAxes ds.nre ds.nt v ∧ ds.rangeEcho ≠ none ∧
      (v.isFloat = true ∨ val ≠ none)) ∧
    (v.name ≠ "echo" → Spec.LastAxes ds.nr ds.nt v)

theorem lastAxes_iff (n nt : ℕ) (v : ProfVar) :
    Spec.LastAxes n nt v ↔ v.shape.drop (v.shape.length - 2) = [n, nt] := by
  constructor
  · rintro ⟨lead, h⟩
    rw [h]; simp
  · intro h
    exact ⟨v.shape.take (v.shape.length - 2), by rw [← h, List.take_append_drop]⟩

theorem ellipsisSet_ok {n nt : ℕ} {v : ProfVar} (bad : ℕ → ℕ → Prop) (w : Option ℝ)
    (h : Spec.LastAxes n nt v) :
    ∃ v', ellipsisSet n nt bad w v = .ok v' ∧ Spec.WrittenInto bad w v v' := by
  unfold ellipsisSet
  rw [if_pos ((lastAxes_iff n nt v).mp h)]
  refine ⟨_, rfl, rfl, rfl, rfl, rfl, rfl, ?_⟩
  intro lead c t
  have : (lead ++ [c, t]).drop ((lead ++ [c, t]).length - 2) = [c, t] := by simp
  simp only [this]

theorem ellipsisSet_error {n nt : ℕ} {v : ProfVar} (bad : ℕ → ℕ → Prop) (w : Option ℝ)
    (h : ¬ Spec.LastAxes n nt v) : ellipsisSet n nt bad w v = .error .indexError := by
  unfold ellipsisSet
  rw [if_neg (fun h' => h ((lastAxes_iff n nt v).mpr h'))]

/-- What the loop makes of one variable. -/
def Spec.LoopStep (bad : ℕ → ℕ → Prop) (val : Option ℝ) (v v' : ProfVar) : Prop :=
  if v.overRange = true ∧ v.name ≠ "echo" then
    Spec.WrittenInto bad (if v.isFloat then val else some (val.getD 0)) v v'
  else v' = v

theorem surfLoop_ok (nr nt : ℕ) (bad : ℕ → ℕ → Prop) (val : Option ℝ) : ∀ vs : List ProfVar,
    (∀ v ∈ vs, v.overRange = true → v.name ≠ "echo" → Spec.LastAxes nr nt v) →
    ∃ vs', surfLoop nr nt bad val vs = (vs', none) ∧
      List.Forall₂ (Spec.LoopStep bad val) vs vs' := by
  intro vs
  induction vs with
  | nil => intro _; exact ⟨[], rfl, List.Forall₂.nil⟩
  | cons v vs ih =>
    intro h
    obtain ⟨vs', e, hF⟩ := ih fun u hu => h u (List.mem_cons_of_mem _ hu)
    by_cases hc : v.overRange = true ∧ v.name ≠ "echo"
    · obtain ⟨v', e1, hW⟩ := ellipsisSet_ok bad (if v.isFloat then val else some (val.getD 0))
        (h v List.mem_cons_self hc.1 hc.2)
      refine ⟨v' :: vs', ?_, List.Forall₂.cons ?_ hF⟩
      · unfold surfLoop
        rw [if_pos (by simp [hc.1, hc.2]), e1, e]
      · unfold Spec.LoopStep
        rw [if_pos hc]; exact hW
    · refine ⟨v :: vs', ?_, List.Forall₂.cons ?_ hF⟩
      · unfold surfLoop
        rw [if_neg (by simpa using hc), e]
      · unfold Spec.LoopStep
        rw [if_neg hc]

theorem surfLoop_error (nr nt : ℕ) (bad : ℕ → ℕ → Prop) (val : Option ℝ) : ∀ vs : List ProfVar,
    (∃ v ∈ vs, v.overRange = true ∧ v.name ≠ "echo" ∧ ¬ Spec.LastAxes nr nt v) →
    (surfLoop nr nt bad val vs).2 = some .indexError := by
  intro vs
  induction vs with
  | nil => rintro ⟨v, hv, _⟩; cases hv
  | cons v vs ih =>
    rintro ⟨u, hu, h1, h2, h3⟩
    unfold surfLoop
    by_cases hc : v.overRange = true ∧ v.name ≠ "echo"
    · rw [if_pos (by simp [hc.1, hc.2])]
      by_cases hf : Spec.LastAxes nr nt v
      · obtain ⟨v', e1, -⟩ := ellipsisSet_ok bad (if v.isFloat then val else some (val.getD 0)) hf
        rw [e1]
        rcases List.mem_cons.mp hu with rfl | hu'
        · exact absurd hf h3
        · exact ih ⟨u, hu', h1, h2, h3⟩
      · rw [ellipsisSet_error _ _ hf]
    · rw [if_neg (by simpa using hc)]
      rcases List.mem_cons.mp hu with rfl | hu'
      · exact absurd ⟨h1, h2⟩ hc
      · exact ih ⟨u, hu', h1, h2, h3⟩

/-- What the treatment of the echo sounder makes of one variable. -/
def Spec.EchoStep (bad : ℕ → ℕ → Prop) (val : Option ℝ) (v v' : ProfVar) : Prop :=
  if v.overRange = true ∧ v.name = "echo" then Spec.WrittenInto bad val v v' else v' = v

theorem forall₂_self_of {α : Type*} {R : α → α → Prop} : ∀ l : List α, (∀ x ∈ l, R x x) →
    List.Forall₂ R l l
  | [], _ => List.Forall₂.nil
  | x :: l, h => List.Forall₂.cons (h x List.mem_cons_self)
      (forall₂_self_of l fun y hy => h y (List.mem_cons_of_mem _ hy))

theorem surfEcho_ok (nre nt : ℕ) (re : Option (ℕ → ℝ)) (depth : ℕ → Option ℝ) (val : Option ℝ) :
    ∀ vs : List ProfVar, (vs.map ProfVar.name).Nodup →
    (∀ v ∈ vs, v.overRange = true → v.name = "echo" → Spec.LastAxes nre nt v ∧ re ≠ none ∧
      (v.isFloat = true ∨ val ≠ none)) →
    ∃ vs', surfEcho nre nt re depth val vs = .ok vs' ∧
      List.Forall₂ (Spec.EchoStep (fun c t => ∃ d r, depth t = some d ∧ re = some r ∧ d < r c) val)
        vs vs' := by
  intro vs
  induction vs with
  | nil => intro _ _; exact ⟨[], rfl, List.Forall₂.nil⟩
  | cons v vs ih =>
    intro hn h
    rw [List.map_cons, List.nodup_cons] at hn
    by_cases hc : v.overRange = true ∧ v.name = "echo"
    · obtain ⟨hf, hre, hw⟩ := h v List.mem_cons_self hc.1 hc.2
      cases re with
      | none => exact absurd rfl hre
      | some r =>
        obtain ⟨v', e1, hW⟩ := ellipsisSet_ok (fun c t => ∃ d, depth t = some d ∧ d < r c) val hf
        refine ⟨v' :: vs, ?_, List.Forall₂.cons ?_ ?_⟩
        · unfold surfEcho
          rw [if_pos (by simp [hc.1, hc.2])]
          simp only
          rw [if_neg (by rintro ⟨a, b⟩; rcases hw with hw | hw; · rw [a] at hw; cases hw
                         · exact hw b), e1]
        · unfold Spec.EchoStep
          rw [if_pos hc]
          have : (fun c t => ∃ d r', depth t = some d ∧ some r = some r' ∧ d < r' c) =
              fun c t => ∃ d, depth t = some d ∧ d < r c := by
            funext c t; apply propext
            constructor
            · rintro ⟨d, r', h1, h2, h3⟩; cases h2; exact ⟨d, h1, h3⟩
            · rintro ⟨d, h1, h3⟩; exact ⟨d, r, h1, rfl, h3⟩
          rw [this]; exact hW
        · apply forall₂_self_of
          intro u hu
          unfold Spec.EchoStep
          rw [if_neg]
          rintro ⟨-, hname⟩
          exact hn.1 (by rw [hc.2, ← hname]; exact List.mem_map_of_mem hu)
    · obtain ⟨vs', e, hF⟩ := ih hn.2 fun u hu => h u (List.mem_cons_of_mem _ hu)
      refine ⟨v :: vs', ?_, List.Forall₂.cons ?_ hF⟩
      · unfold surfEcho
        rw [if_neg (by simpa using hc), e]
      · unfold Spec.EchoStep
        rw [if_neg hc]

theorem surfaceLimit_angle {supplied : Option ℝ} {ds : SurfDs} {ang : ℝ}
    (h : Spec.surfAngle supplied ds = some ang) (d cell : ℝ) :
    surfaceLimit supplied ds.beamAngle ds.hDeploy d cell =
      .ok ((d - ds.hDeploy.getD 0) * Real.cos ang - cell + ds.hDeploy.getD 0) := by
  unfold Spec.surfAngle at h
  unfold surfaceLimit
  cases supplied with
  | some a =>
    replace h := Option.some.inj h
    subst h
    cases ds.hDeploy <;> simp
  | none =>
    cases hb : ds.beamAngle with
    | none => rw [hb] at h; simp at h
    | some b =>
      rw [hb] at h
      simp only [Option.map_some] at h
      replace h := Option.some.inj h
      subst h
      cases ds.hDeploy <;> simp

/-- C157: in a dataset whose variables over range have the axes of the masks, the call goes through
and blanks in every variable over range exactly the cells beyond the surface interference (for
`echo`, beyond the surface itself), for all beams, and leaves all else as it is. Integer variables
get 0 for NaN. -/
theorem nan_beyond_dataset (val supplied : Option ℝ) (ds : SurfDs) (ang : ℝ)
    (hang : Spec.surfAngle supplied ds = some ang) (hdep : ds.depth ≠ none)
    (hcell : ds.cellSize ≠ none) (hn : (ds.vars.map ProfVar.name).Nodup)
    (hfit : Spec.MasksFit val ds) :
    ∃ vs', surfBody val supplied ds = ({ ds with vars := vs' }, none) ∧
      List.Forall₂ (Spec.Blanked val ang ds) ds.vars vs' := by
  cases hd : ds.depth with
  | none => exact absurd hd hdep
  | some depth =>
  cases hc : ds.cellSize with
  | none => exact absurd hc hcell
  | some cell =>
  obtain ⟨vs1, e1, F1⟩ := surfEcho_ok ds.nre ds.nt ds.rangeEcho depth val ds.vars hn
    fun v hv ho he => (hfit v hv ho).1 he
  have keep : ∀ v v', Spec.EchoStep (fun c t => ∃ d r, depth t = some d ∧ ds.rangeEcho = some r ∧
      d < r c) val v v' → v'.dims = v.dims ∧ v'.name = v.name ∧ v'.shape = v.shape := by
    intro v v' h
    unfold Spec.EchoStep at h
    split at h
    · exact ⟨h.2.1, h.1, h.2.2.1⟩
    · subst h; exact ⟨rfl, rfl, rfl⟩
  obtain ⟨vs2, e2, F2⟩ := surfLoop_ok ds.nr ds.nt (fun c t => ∃ d lim, depth t = some d ∧
          surfaceLimit supplied ds.beamAngle ds.hDeploy d cell = .ok lim ∧ lim < ds.range c) val vs1
    (by
      intro u hu ho he
      obtain ⟨v, hv, hs⟩ : ∃ v, v ∈ ds.vars ∧ Spec.EchoStep (fun c t => ∃ d r,
          depth t = some d ∧ ds.rangeEcho = some r ∧ d < r c) val v u := by
        obtain ⟨hl, hg⟩ := List.forall₂_iff_get.mp F1
        obtain ⟨i, hi, rfl⟩ := List.mem_iff_getElem.mp hu
        exact ⟨ds.vars[i]'(by omega), List.getElem_mem _, hg i (by omega) hi⟩
      obtain ⟨k1, k2, k3⟩ := keep _ _ hs
      have := (hfit v hv (by unfold ProfVar.overRange at ho ⊢; rw [← k1]; exact ho)).2 (by rw [← k2]; exact he)
      obtain ⟨lead, hl⟩ := this
      exact ⟨lead, by rw [k3, hl]⟩)
  refine ⟨vs2, ?_, ?_⟩
  · unfold surfBody
    rw [hd, hc]
    simp only
    rw [surfaceLimit_angle hang, e1]
    simp only
    rw [e2]
  · have hbad : (fun c t => ∃ d lim, depth t = some d ∧
          surfaceLimit supplied ds.beamAngle ds.hDeploy d cell = .ok lim ∧ lim < ds.range c) =
        Spec.BeyondSurface ang ds := by
      funext c t; apply propext
      unfold Spec.BeyondSurface
      constructor
      · rintro ⟨d, lim, h1, h2, h3⟩
        rw [surfaceLimit_angle hang] at h2
        cases h2
        exact ⟨depth, d, cell, hd, h1, hc, by linarith⟩
      · rintro ⟨depth', d, cell', h1, h2, h3, h4⟩
        rw [hd] at h1; cases h1
        rw [hc] at h3; cases h3
        exact ⟨d, _, h2, surfaceLimit_angle hang d cell, by linarith⟩
    have hecho : (fun c t => ∃ d r, depth t = some d ∧ ds.rangeEcho = some r ∧ d < r c) =
        Spec.EchoBeyond ds := by
      funext c t; apply propext
      unfold Spec.EchoBeyond
      constructor
      · rintro ⟨d, r, h1, h2, h3⟩; exact ⟨depth, d, r, hd, h1, h2, h3⟩
      · rintro ⟨depth', d, r, h1, h2, h3, h4⟩
        rw [hd] at h1; cases h1
        exact ⟨d, r, h2, h3, h4⟩
    rw [hbad] at F2
    rw [hecho] at F1
    have hl1 := F1.length_eq
    have hl2 := F2.length_eq
    rw [List.forall₂_iff_get] at F1 F2 ⊢
    refine ⟨by omega, fun i h1 h2 => ?_⟩
    have s1 := F1.2 i h1 (by omega)
    have s2 := F2.2 i (by omega) h2
    generalize ds.vars.get ⟨i, h1⟩ = v at s1 ⊢
    generalize vs2.get ⟨i, h2⟩ = v'' at s2 ⊢
    generalize vs1.get ⟨i, _⟩ = v' at s1 s2
    unfold Spec.EchoStep at s1
    unfold Spec.LoopStep at s2
    refine ⟨?_, ?_, ?_, ?_⟩
    · intro ho
      rw [if_neg (by simp [ho])] at s1
      subst s1
      rw [if_neg (by simp [ho])] at s2
      exact s2
    · intro ho he
      rw [if_pos ⟨ho, he⟩] at s1
      rw [if_neg (by rw [s1.1]; simp [he])] at s2
      subst s2
      exact s1
    · intro ho he hf
      rw [if_neg (by simp [he])] at s1
      subst s1
      rw [if_pos ⟨ho, he⟩, hf] at s2
      exact s2
    · intro ho he hf
      rw [if_neg (by simp [he])] at s1
      subst s1
      rw [if_pos ⟨ho, he⟩, hf] at s2
      exact s2

/-- C157: without `inplace` the caller's dataset is never touched, whether the call raises or not;
with it the caller's dataset is the one the other call returns. -/
theorem nan_beyond_inplace (val supplied : Option ℝ) (ds : SurfDs) :
    (nanBeyondSurface false val supplied ds).1 = ds ∧
      (∀ out, (nanBeyondSurface false val supplied ds).2 = .ok out →
        out = some (nanBeyondSurface true val supplied ds).1 ∧
          (nanBeyondSurface true val supplied ds).2 = .ok none) ∧
      ∀ e, (nanBeyondSurface false val supplied ds).2 = .error e ↔
        (nanBeyondSurface true val supplied ds).2 = .error e := by
  unfold nanBeyondSurface
  generalize surfBody val supplied ds = r
  obtain ⟨d, e⟩ := r
  cases e with
  | none =>
    refine ⟨rfl, ?_, ?_⟩
    · intro out h
      simp only [Bool.false_eq_true, if_false] at h
      cases h
      exact ⟨rfl, rfl⟩
    · intro e; simp
  | some e =>
    refine ⟨rfl, ?_, ?_⟩
    · intro out h; simp at h
    · intro e'; simp

/-- C157 fails: a dataset with a variable over another number of cells or profiles (a fifth beam, a
surface layer, an average profile) is refused with IndexError. -/
theorem nan_beyond_refuses (inplace : Bool) (val supplied : Option ℝ) (ds : SurfDs) (ang : ℝ)
    (hang : Spec.surfAngle supplied ds = some ang) (hdep : ds.depth ≠ none)
    (hcell : ds.cellSize ≠ none) (hecho : ∀ v ∈ ds.vars, v.name ≠ "echo")
    (hv : ∃ v ∈ ds.vars, v.overRange = true ∧ ¬ Spec.LastAxes ds.nr ds.nt v) :
    (nanBeyondSurface inplace val supplied ds).2 = .error .indexError := by
  cases hd : ds.depth with
  | none => exact absurd hd hdep
  | some depth =>
  cases hc : ds.cellSize with
  | none => exact absurd hc hcell
  | some cell =>
  have e1 : ∀ vs : List ProfVar, (∀ v ∈ vs, v.name ≠ "echo") →
      surfEcho ds.nre ds.nt ds.rangeEcho depth val vs = .ok vs := by
    intro vs
    induction vs with
    | nil => intro _; rfl
    | cons v vs ih =>
      intro h
      unfold surfEcho
      rw [if_neg (by simp [h v List.mem_cons_self]), ih fun u hu => h u (List.mem_cons_of_mem _ hu)]
  have e : (surfBody val supplied ds).2 = some .indexError := by
    unfold surfBody
    rw [hd, hc]
    simp only
    rw [surfaceLimit_angle hang, e1 _ hecho]
    simp only
    apply surfLoop_error
    obtain ⟨v, hv, h1, h2⟩ := hv
    exact ⟨v, hv, h1, hecho v hv, h2⟩
  unfold nanBeyondSurface
  simp only [e]

/-- C157 fails: so is a dataset whose echo sounder has pinged another number of times than the
profiler (or has an integer variable `echo`, which cannot hold NaN). -/
theorem nan_beyond_refuses_echo (inplace : Bool) (val supplied : Option ℝ) (ds : SurfDs) (ang : ℝ)
    (v : ProfVar) (vs : List ProfVar) (hvars : ds.vars = v :: vs) (ho : v.overRange = true)
    (he : v.name = "echo") (hang : Spec.surfAngle supplied ds = some ang) (hdep : ds.depth ≠ none)
    (hcell : ds.cellSize ≠ none) :
    (ds.rangeEcho = none → nanBeyondSurface inplace val supplied ds = (ds, .error .attributeError)) ∧
    (ds.rangeEcho ≠ none → ¬ Spec.LastAxes ds.nre ds.nt v → v.isFloat = true →
      nanBeyondSurface inplace val supplied ds = (ds, .error .indexError)) ∧
    (ds.rangeEcho ≠ none → v.isFloat = false → val = none →
      nanBeyondSurface inplace val supplied ds = (ds, .error .valueError)) := by
  cases hd : ds.depth with
  | none => exact absurd hd hdep
  | some depth =>
  cases hc : ds.cellSize with
  | none => exact absurd hc hcell
  | some cell =>
  have key : ∀ e, surfEcho ds.nre ds.nt ds.rangeEcho depth val ds.vars = .error e →
      nanBeyondSurface inplace val supplied ds = (ds, .error e) := by
    intro e h
    have hb : surfBody val supplied ds = (ds, some e) := by
      unfold surfBody
      rw [hd, hc]
      simp only
      rw [surfaceLimit_angle hang, h]
    unfold nanBeyondSurface
    rw [hb]
    cases inplace <;> rfl
  refine ⟨?_, ?_, ?_⟩
  · intro hr
    apply key
    rw [hvars, hr]
    unfold surfEcho
    rw [if_pos (by simp [ho, he])]
  · intro hre hf hfl
    obtain ⟨re, hr⟩ := Option.ne_none_iff_exists'.mp hre
    apply key
    rw [hvars, hr]
    unfold surfEcho
    rw [if_pos (by simp [ho, he])]
    simp only
    rw [if_neg (by simp [hfl]), ellipsisSet_error _ _ hf]
  · intro hre hfl hval
    obtain ⟨re, hr⟩ := Option.ne_none_iff_exists'.mp hre
    apply key
    rw [hvars, hr]
    unfold surfEcho
    rw [if_pos (by simp [ho, he])]
    simp only
    rw [if_pos ⟨hfl, hval⟩]

/-- C157: without beam angle, depth or cell size the call raises and changes nothing. -/
theorem nan_beyond_needs (inplace : Bool) (val supplied : Option ℝ) (ds : SurfDs) :
    (Spec.surfAngle supplied ds = none →
      nanBeyondSurface inplace val supplied ds = (ds, .error .exception)) ∧
    (Spec.surfAngle supplied ds ≠ none → ds.depth = none ∨ ds.cellSize = none →
      nanBeyondSurface inplace val supplied ds = (ds, .error .attributeError)) := by
  have key : ∀ e, surfBody val supplied ds = (ds, some e) →
      nanBeyondSurface inplace val supplied ds = (ds, .error e) := by
    intro e h
    unfold nanBeyondSurface
    rw [h]
    cases inplace <;> rfl
  constructor
  · intro h
    apply key
    unfold Spec.surfAngle at h
    cases supplied with
    | some a => simp at h
    | none =>
      have hb : ds.beamAngle = none := by simpa using h
      unfold surfBody surfaceLimit
      rw [hb]
      cases ds.depth <;> cases ds.cellSize <;> rfl
  · intro h hdc
    apply key
    unfold Spec.surfAngle at h
    unfold surfBody
    rcases hdc with hd | hd
    · rw [hd]
      cases supplied with
      | some a => rfl
      | none =>
        cases hb : ds.beamAngle with
        | none => rw [hb] at h; simp at h
        | some b => rfl
    · rw [hd]
      cases supplied with
      | some a => cases ds.depth <;> rfl
      | none =>
        cases hb : ds.beamAngle with
        | none => rw [hb] at h; simp at h
        | some b => cases ds.depth <;> rfl

open Classical in
/-- The value of one cell after blanking. -/
noncomputable def Spec.cellAfter (val : Option ℝ) (ang : ℝ) (ds : SurfDs) (v : ProfVar)
    (lead : List ℕ) (c t : ℕ) : Option ℝ :=
  if v.overRange = false then v.data (lead ++ [c, t])
  else if v.name = "echo" then
    (if Spec.EchoBeyond ds c t then val else v.data (lead ++ [c, t]))
  else if Spec.BeyondSurface ang ds c t then (if v.isFloat then val else some (val.getD 0))
  else v.data (lead ++ [c, t])

theorem blanked_cell {val : Option ℝ} {ang : ℝ} {ds : SurfDs} {v v' : ProfVar}
    (h : Spec.Blanked val ang ds v v') (lead : List ℕ) (c t : ℕ) :
    v'.data (lead ++ [c, t]) = Spec.cellAfter val ang ds v lead c t := by
  obtain ⟨h1, h2, h3, h4⟩ := h
  unfold Spec.cellAfter
  cases ho : v.overRange with
  | false => rw [h1 ho, if_pos rfl]
  | true =>
    rw [if_neg (by simp)]
    by_cases he : v.name = "echo"
    · rw [if_pos he, (h2 ho he).2.2.2.2.2]
    · rw [if_neg he]
      cases hf : v.isFloat with
      | true => rw [(h3 ho he hf).2.2.2.2.2]; rfl
      | false => rw [(h4 ho he hf).2.2.2.2.2]; rfl

theorem blanked_same {val : Option ℝ} {ang : ℝ} {ds : SurfDs} {v v' : ProfVar}
    (h : Spec.Blanked val ang ds v v') :
    v'.name = v.name ∧ v'.dims = v.dims ∧ v'.shape = v.shape ∧ v'.isFloat = v.isFloat := by
  obtain ⟨h1, h2, h3, h4⟩ := h
  cases ho : v.overRange with
  | false => rw [h1 ho]; exact ⟨rfl, rfl, rfl, rfl⟩
  | true =>
    by_cases he : v.name = "echo"
    · have := h2 ho he; exact ⟨this.1, this.2.1, this.2.2.1, this.2.2.2.1⟩
    · cases hf : v.isFloat with
      | true => have := h3 ho he hf; exact ⟨this.1, this.2.1, this.2.2.1, by rw [this.2.2.2.1, hf]⟩
      | false => have := h4 ho he hf; exact ⟨this.1, this.2.1, this.2.2.1, by rw [this.2.2.2.1, hf]⟩

theorem blanked_fit {val : Option ℝ} {ang : ℝ} {ds : SurfDs} {vs : List ProfVar}
    (hF : List.Forall₂ (Spec.Blanked val ang ds) ds.vars vs)
    (hn : (ds.vars.map ProfVar.name).Nodup) (hfit : Spec.MasksFit val ds) :
    (vs.map ProfVar.name).Nodup ∧ Spec.MasksFit val { ds with vars := vs } := by
  have hl := hF.length_eq
  rw [List.forall₂_iff_get] at hF
  have hm : vs.map ProfVar.name = ds.vars.map ProfVar.name := by
    apply List.ext_getElem (by simp [hl])
    intro i h1 h2
    simp only [List.length_map] at h1 h2
    rw [List.getElem_map, List.getElem_map]
    exact (blanked_same (hF.2 i h2 h1)).1
  refine ⟨by rw [hm]; exact hn, ?_⟩
  intro u hu ho
  change u ∈ vs at hu
  obtain ⟨i, hi, rfl⟩ := List.mem_iff_getElem.mp hu
  obtain ⟨k1, k2, k3, k4⟩ := blanked_same (hF.2 i (by omega) hi)
  simp only [List.get_eq_getElem] at k1 k2 k3 k4
  have ho' : (ds.vars[i]'(by omega)).overRange = true := by
    unfold ProfVar.overRange at ho ⊢; rw [← k2]; exact ho
  have := hfit _ (List.getElem_mem (by omega : i < ds.vars.length)) ho'
  refine ⟨fun he => ?_, fun he => ?_⟩
  · obtain ⟨⟨lead, a⟩, b, c⟩ := this.1 (by rw [← k1]; exact he)
    exact ⟨⟨lead, by rw [k3, a]⟩, b, by rw [k4]; exact c⟩
  · obtain ⟨lead, a⟩ := this.2 (by rw [← k1]; exact he)
    exact ⟨lead, by rw [k3, a]⟩

/-- C157: blanking a second time changes no cell. -/
theorem nan_beyond_twice (val supplied : Option ℝ) (ds : SurfDs) (ang : ℝ)
    (hang : Spec.surfAngle supplied ds = some ang) (hdep : ds.depth ≠ none)
    (hcell : ds.cellSize ≠ none) (hn : (ds.vars.map ProfVar.name).Nodup)
    (hfit : Spec.MasksFit val ds) :
    ∃ vs1 vs2, surfBody val supplied ds = ({ ds with vars := vs1 }, none) ∧
      surfBody val supplied { ds with vars := vs1 } = ({ ds with vars := vs2 }, none) ∧
      List.Forall₂ (fun v v' : ProfVar => v'.name = v.name ∧
        ∀ lead c t, v'.data (lead ++ [c, t]) = v.data (lead ++ [c, t])) vs1 vs2 := by
  obtain ⟨vs1, e1, F1⟩ := nan_beyond_dataset val supplied ds ang hang hdep hcell hn hfit
  obtain ⟨hn1, hfit1⟩ := blanked_fit F1 hn hfit
  obtain ⟨vs2, e2, F2⟩ := nan_beyond_dataset val supplied { ds with vars := vs1 } ang hang hdep
    hcell hn1 hfit1
  refine ⟨vs1, vs2, e1, e2, ?_⟩
  have hl1 := F1.length_eq
  have hl2 := F2.length_eq
  simp only at F2 hl2
  rw [List.forall₂_iff_get] at F1 F2 ⊢
  refine ⟨hl2, fun i h1 h2 => ?_⟩
  have s1 := F1.2 i (by omega) h1
  have s2 := F2.2 i h1 h2
  generalize vs1.get ⟨i, h1⟩ = v' at s1 s2 ⊢
  generalize vs2.get ⟨i, h2⟩ = v'' at s2 ⊢
  generalize ds.vars.get ⟨i, _⟩ = v at s1
  refine ⟨(blanked_same s2).1, fun lead c t => ?_⟩
  obtain ⟨k1, k2, k3, k4⟩ := blanked_same s1
  have ko : v'.overRange = v.overRange := by unfold ProfVar.overRange; rw [k2]
  have hb : Spec.BeyondSurface ang { ds with vars := vs1 } c t = Spec.BeyondSurface ang ds c t := rfl
  have he : Spec.EchoBeyond { ds with vars := vs1 } c t = Spec.EchoBeyond ds c t := rfl
  rw [blanked_cell s2]
  unfold Spec.cellAfter
  rw [blanked_cell s1]
  unfold Spec.cellAfter
  rw [ko, k1, k4, hb, he]
  split_ifs <;> rfl

/-- Moving the ranges by a deployment height together with the depth moves no cell across the
limit. -/
theorem beyond_offset (h : ℝ) (ang : ℝ) (ds : SurfDs) (c t : ℕ) :
    (Spec.BeyondSurface ang { rangeOffsetDs h ds with
        depth := ds.depth.map fun f t => (f t).map (· + h) } c t ↔ Spec.BeyondSurface ang ds c t) ∧
    (Spec.EchoBeyond { rangeOffsetDs h ds with
        depth := ds.depth.map fun f t => (f t).map (· + h) } c t ↔ Spec.EchoBeyond ds c t) := by
  have hh : (rangeOffsetDs h ds).hDeploy.getD 0 = ds.hDeploy.getD 0 + h := by
    unfold rangeOffsetDs
    cases ds.hDeploy <;> simp
  constructor
  · unfold Spec.BeyondSurface
    simp only [hh]
    constructor
    · rintro ⟨depth, d, cell, h1, h2, h3, h4⟩
      cases hd : ds.depth with
      | none => rw [hd] at h1; cases h1
      | some f =>
        rw [hd] at h1
        simp only [Option.map_some, Option.some.injEq] at h1
        subst h1
        cases hf : f t with
        | none => simp only [hf] at h2; cases h2
        | some d0 =>
          simp only [hf, Option.map_some, Option.some.injEq] at h2
          subst h2
          refine ⟨f, d0, cell, rfl, hf, h3, ?_⟩
          have e : (rangeOffsetDs h ds).range c = ds.range c + h := rfl
          rw [e] at h4
          have : d0 + h - (ds.hDeploy.getD 0 + h) = d0 - ds.hDeploy.getD 0 := by ring
          rw [this] at h4
          linarith
    · rintro ⟨f, d, cell, h1, h2, h3, h4⟩
      refine ⟨_, d + h, cell, by rw [h1]; rfl, by simp [h2], h3, ?_⟩
      have e : (rangeOffsetDs h ds).range c = ds.range c + h := rfl
      rw [e]
      have : d + h - (ds.hDeploy.getD 0 + h) = d - ds.hDeploy.getD 0 := by ring
      rw [this]
      linarith
  · unfold Spec.EchoBeyond
    constructor
    · rintro ⟨depth, d, re, h1, h2, h3, h4⟩
      cases hd : ds.depth with
      | none => rw [hd] at h1; cases h1
      | some f =>
        rw [hd] at h1
        simp only [Option.map_some, Option.some.injEq] at h1
        subst h1
        cases hf : f t with
        | none => simp only [hf] at h2; cases h2
        | some d0 =>
          simp only [hf, Option.map_some, Option.some.injEq] at h2
          subst h2
          have e : (rangeOffsetDs h ds).rangeEcho = ds.rangeEcho.map fun r c => r c + h := rfl
          simp only [e] at h3
          cases hr : ds.rangeEcho with
          | none => rw [hr] at h3; cases h3
          | some r =>
            rw [hr] at h3
            simp only [Option.map_some, Option.some.injEq] at h3
            subst h3
            exact ⟨f, d0, r, rfl, hf, rfl, by linarith⟩
    · rintro ⟨f, d, r, h1, h2, h3, h4⟩
      refine ⟨_, d + h, fun c => r c + h, by rw [h1]; rfl, by simp [h2], ?_, by linarith⟩
      show ds.rangeEcho.map _ = _
      rw [h3]; rfl

/-- C157: which cells are blanked does not depend on the deployment height, when it was set before
the depth was found (so that depth and ranges are counted from the same level). -/
theorem nan_beyond_offset (val supplied : Option ℝ) (ds : SurfDs) (ang h : ℝ)
    (hang : Spec.surfAngle supplied ds = some ang) (hdep : ds.depth ≠ none)
    (hcell : ds.cellSize ≠ none) (hn : (ds.vars.map ProfVar.name).Nodup)
    (hfit : Spec.MasksFit val ds) :
    ∃ vs1 ds2, surfBody val supplied ds = ({ ds with vars := vs1 }, none) ∧
      surfBody val supplied { rangeOffsetDs h ds with
        depth := ds.depth.map fun f t => (f t).map (· + h) } = (ds2, none) ∧
      List.Forall₂ (fun v v' : ProfVar => v'.name = v.name ∧
        ∀ lead c t, v'.data (lead ++ [c, t]) = v.data (lead ++ [c, t])) vs1 ds2.vars := by
  obtain ⟨vs1, e1, F1⟩ := nan_beyond_dataset val supplied ds ang hang hdep hcell hn hfit
  set ds' : SurfDs := { rangeOffsetDs h ds with
        depth := ds.depth.map fun f t => (f t).map (· + h) } with hds'
  have hv : ds'.vars = ds.vars.map fun v => { v with own := fun c => v.own c + h } := rfl
  obtain ⟨vs2, e2, F2⟩ := nan_beyond_dataset val supplied ds' ang
    (by unfold Spec.surfAngle at hang ⊢; exact hang)
    (by rw [hds']; simpa using hdep) hcell
    (by rw [hv, List.map_map]; exact hn)
    (by
      intro u hu ho
      rw [hv] at hu
      obtain ⟨v, hv', rfl⟩ := List.mem_map.mp hu
      have := hfit v hv' ho
      refine ⟨fun he => ?_, fun he => this.2 he⟩
      obtain ⟨a, b, c⟩ := this.1 he
      refine ⟨a, ?_, c⟩
      show ds.rangeEcho.map _ ≠ none
      simpa using b)
  refine ⟨vs1, _, e1, e2, ?_⟩
  show List.Forall₂ _ vs1 vs2
  have hl1 := F1.length_eq
  have hl2 := F2.length_eq
  rw [hv, List.length_map] at hl2
  rw [List.forall₂_iff_get] at F1 F2 ⊢
  refine ⟨by omega, fun i h1 h2 => ?_⟩
  have s1 := F1.2 i (by omega) h1
  have s2 := F2.2 i (by rw [hv, List.length_map]; omega) h2
  simp only [List.get_eq_getElem] at s1 s2 ⊢
  have hvi : ds'.vars[i]'(by rw [hv, List.length_map]; omega) =
      { ds.vars[i]'(by omega) with own := fun c => (ds.vars[i]'(by omega)).own c + h } := by
    simp only [hv, List.getElem_map]
  rw [hvi] at s2
  generalize vs1[i] = v1 at s1 ⊢
  generalize vs2[i] = v2 at s2 ⊢
  generalize ds.vars[i] = v at s1 s2
  refine ⟨(blanked_same s2).1.trans (blanked_same s1).1.symm, fun lead c t => ?_⟩
  rw [blanked_cell s2, blanked_cell s1]
  have hb := propext (beyond_offset h ang ds c t).1
  have he := propext (beyond_offset h ang ds c t).2
  rw [← hds'] at hb he
  unfold Spec.cellAfter
  rw [hb, he]
  rfl

/-! ### Concrete datasets -/

/-- A variable over two cells and one profile, all ones. -/
noncomputable def surfVel (name rdim : String) (nc : ℕ) : ProfVar where
  name := name
  dims := ["dir", rdim, "time"]
  shape := [3, nc, 1]
  isFloat := true
  data := fun _ => some 1
  own := fun c => c + 1

/-- Two cells at 1 and 2 m, the surface at `d`. -/
noncomputable def surfDs (vars : List ProfVar) (d : ℝ) : SurfDs where
  vars := vars
  nr := 2
  nt := 1
  nre := 0
  range := fun c => c + 1
  rangeEcho := none
  depth := some fun _ => some d
  beamAngle := some 0
  hDeploy := none
  cellSize := some 0

theorem surfDs_angle (vars : List ProfVar) (d : ℝ) :
    Spec.surfAngle none (surfDs vars d) = some 0 := by
  unfold Spec.surfAngle surfDs
  simp

theorem surfVel_range (name : String) (nc : ℕ) :
    (surfVel name "range" nc).overRange = true ∧ (surfVel name "range_sl" nc).overRange = true ∧
      (surfVel name "range_b5" nc).overRange = true := by
  refine ⟨?_, ?_, ?_⟩ <;>
  · show List.any ["dir", _, "time"] (strIn "range") = true
    decide +kernel

theorem surfDs_beyond (vars : List ProfVar) (d : ℝ) (c t : ℕ) :
    Spec.BeyondSurface 0 (surfDs vars d) c t ↔ d < c + 1 := by
  unfold Spec.BeyondSurface surfDs
  constructor
  · rintro ⟨f, x, cell, h1, h2, h3, h4⟩
    cases h1; cases h2; cases h3
    simpa using h4
  · intro h
    exact ⟨_, d, 0, rfl, rfl, rfl, by simpa using h⟩

/-- `nan_beyond_dataset` applies: of two cells the one beyond the surface is blanked. -/
example : ∃ vs', surfBody none none (surfDs [surfVel "vel" "range" 2] (3 / 2)) =
      ({ surfDs [surfVel "vel" "range" 2] (3 / 2) with vars := vs' }, none) ∧
      ∃ v', vs' = [v'] ∧ v'.data [0, 0, 0] = some 1 ∧ v'.data [0, 1, 0] = none := by
  obtain ⟨vs', e, hF⟩ := nan_beyond_dataset none none (surfDs [surfVel "vel" "range" 2] (3 / 2)) 0
    (surfDs_angle _ _) (by simp [surfDs]) (by simp [surfDs]) (by simp [surfDs])
    (by
      intro v hv ho
      simp only [surfDs, List.mem_singleton] at hv
      subst hv
      exact ⟨fun he => by simp [surfVel] at he, fun _ => ⟨[3], rfl⟩⟩)
  refine ⟨vs', e, ?_⟩
  have hF' : List.Forall₂ (Spec.Blanked none 0 (surfDs [surfVel "vel" "range" 2] (3 / 2)))
    [surfVel "vel" "range" 2] vs' := hF
  cases hF' with
  | cons h hnil =>
    cases hnil
    have key : ∀ c t, _ := fun c t => blanked_cell h [0] c t
    unfold Spec.cellAfter at key
    simp only [(surfVel_range "vel" 2).1, surfDs_beyond] at key
    refine ⟨_, rfl, ?_, ?_⟩
    · have := key 0 0
      simp only [List.cons_append, List.nil_append] at this
      rw [this, if_neg (by simp), if_neg (by simp [surfVel]), if_neg (by norm_num)]
      rfl
    · have := key 1 0
      simp only [List.cons_append, List.nil_append] at this
      rw [this, if_neg (by simp), if_neg (by simp [surfVel]), if_pos (by norm_num)]
      rfl

/-- C157 fails: a profile with a surface layer of one cell is refused, and the call in place leaves
the dataset half done: the velocity is blanked already. -/
theorem nan_beyond_half_done_false :
    (nanBeyondSurface true none none
      (surfDs [surfVel "vel" "range" 2, surfVel "vel_sl" "range_sl" 1] (3 / 2))).2 =
        .error .indexError ∧
    ((nanBeyondSurface true none none
      (surfDs [surfVel "vel" "range" 2, surfVel "vel_sl" "range_sl" 1] (3 / 2))).1.vars.map
        fun v => v.data [0, 1, 0]) = [none, some 1] := by
  have hsl : ¬ Spec.LastAxes 2 1 (surfVel "vel_sl" "range_sl" 1) := by
    rw [lastAxes_iff]; simp [surfVel]
  have hvel : Spec.LastAxes 2 1 (surfVel "vel" "range" 2) := ⟨[3], rfl⟩
  have herr := nan_beyond_refuses true none none
    (surfDs [surfVel "vel" "range" 2, surfVel "vel_sl" "range_sl" 1] (3 / 2)) 0
    (surfDs_angle _ _) (by simp [surfDs]) (by simp [surfDs])
    (by intro v hv; simp only [surfDs, List.mem_cons, List.not_mem_nil, or_false] at hv
        rcases hv with rfl | rfl <;> simp [surfVel])
    ⟨surfVel "vel_sl" "range_sl" 1, by simp [surfDs], (surfVel_range _ _).2.1, hsl⟩
  refine ⟨herr, ?_⟩
  set ds := surfDs [surfVel "vel" "range" 2, surfVel "vel_sl" "range_sl" 1] (3 / 2) with hds
  have hang : Spec.surfAngle none ds = some 0 := surfDs_angle _ _
  have e1 : surfEcho ds.nre ds.nt ds.rangeEcho (fun _ => some (3 / 2)) none ds.vars = .ok ds.vars := by
    rw [hds]
    simp [surfDs, surfEcho, surfVel]
  have eb : surfBody none none ds = ({ ds with vars := (surfLoop 2 1 (fun c t => ∃ d lim,
      (fun _ : ℕ => some ((3 : ℝ) / 2)) t = some d ∧
      surfaceLimit none ds.beamAngle ds.hDeploy d 0 = .ok lim ∧ lim < ds.range c) none ds.vars).1 },
      (surfLoop 2 1 (fun c t => ∃ d lim,
      (fun _ : ℕ => some ((3 : ℝ) / 2)) t = some d ∧
      surfaceLimit none ds.beamAngle ds.hDeploy d 0 = .ok lim ∧ lim < ds.range c) none ds.vars).2) := by
    have h1 : ds.depth = some (fun _ => some (3 / 2)) := rfl
    have h2 : ds.cellSize = some 0 := rfl
    unfold surfBody
    rw [h1, h2]
    simp only
    rw [surfaceLimit_angle hang, e1]
    rfl
  obtain ⟨v', ev, hW⟩ := ellipsisSet_ok (fun c t => ∃ d lim,
      (fun _ : ℕ => some ((3 : ℝ) / 2)) t = some d ∧
      surfaceLimit none ds.beamAngle ds.hDeploy d 0 = .ok lim ∧ lim < ds.range c)
      (if (surfVel "vel" "range" 2).isFloat then (none : Option ℝ) else some ((none : Option ℝ).getD 0)) hvel
  have el : (surfLoop 2 1 (fun c t => ∃ d lim,
      (fun _ : ℕ => some ((3 : ℝ) / 2)) t = some d ∧
      surfaceLimit none ds.beamAngle ds.hDeploy d 0 = .ok lim ∧ lim < ds.range c) none ds.vars) =
      ([v', surfVel "vel_sl" "range_sl" 1], some .indexError) := by
    show surfLoop _ _ _ _ [surfVel "vel" "range" 2, surfVel "vel_sl" "range_sl" 1] = _
    unfold surfLoop
    rw [if_pos (by rw [(surfVel_range _ _).1]; decide +kernel), ev]
    simp only
    unfold surfLoop
    rw [if_pos (by rw [(surfVel_range _ _).2.1]; decide +kernel), ellipsisSet_error _ _ hsl]
  unfold nanBeyondSurface
  rw [eb, el]
  simp only [if_true, List.map_cons, List.map_nil]
  have h0 := hW.2.2.2.2.2 [0] 1 0
  simp only [List.cons_append, List.nil_append] at h0
  rw [h0, if_pos]
  · rfl
  · refine ⟨3 / 2, _, rfl, surfaceLimit_angle hang _ _, ?_⟩
    show ((3 : ℝ) / 2 - (none : Option ℝ).getD 0) * Real.cos 0 - 0 + (none : Option ℝ).getD 0 < ((1 : ℕ) : ℝ) + 1
    norm_num

/-- C157 fails: a fifth beam with as many cells is blanked by the ranges of the other beams, not by
its own; here its second cell is at 1.2 m, the surface at 1.5 m, and the cell is lost. -/
theorem nan_beyond_own_range_false :
    ∃ v v' : ProfVar, v.overRange = true ∧ v.own 1 = 6 / 5 ∧ v.data [0, 1, 0] = some 1 ∧
      surfBody none none (surfDs [v] (3 / 2)) = ({ surfDs [v] (3 / 2) with vars := [v'] }, none) ∧
      v'.data [0, 1, 0] = none := by
  set v : ProfVar := { surfVel "vel_b5" "range_b5" 2 with own := fun c => (c : ℝ) / 5 + 1 } with hv
  have ho : v.overRange = true := (surfVel_range "vel_b5" 2).2.2
  obtain ⟨vs', e, hF⟩ := nan_beyond_dataset none none (surfDs [v] (3 / 2)) 0
    (surfDs_angle _ _) (by simp [surfDs]) (by simp [surfDs]) (by simp [surfDs])
    (by
      intro u hu _
      simp only [surfDs, List.mem_singleton] at hu
      subst hu
      exact ⟨fun he => by simp [hv, surfVel] at he, fun _ => ⟨[3], rfl⟩⟩)
  have hF' : List.Forall₂ (Spec.Blanked none 0 (surfDs [v] (3 / 2))) [v] vs' := hF
  cases hF' with
  | cons h hnil =>
    cases hnil
    refine ⟨v, _, ho, by rw [hv]; norm_num, rfl, e, ?_⟩
    have key := blanked_cell h [0] 1 0
    unfold Spec.cellAfter at key
    simp only [List.cons_append, List.nil_append, surfDs_beyond] at key
    rw [key, if_neg (by simp [ho]), if_neg (by simp [hv, surfVel]), if_pos (by norm_num)]
    rfl

/-- C157 fails when the deployment height is set after the depth was found: the surface is taken to
be nearer by that height, and good cells between are blanked. -/
theorem nan_beyond_late_offset_false :
    ¬ Spec.BeyondSurface 0 (surfDs [] 3) 1 0 ∧
      Spec.BeyondSurface 0 (rangeOffsetDs 2 (surfDs [] 3)) 1 0 := by
  constructor
  · rw [surfDs_beyond]; norm_num
  · refine ⟨_, 3, 0, rfl, rfl, rfl, ?_⟩
    show ((3 : ℝ) - (some ((2 : ℝ))).getD 0) * Real.cos 0 - 0 <
      (((1 : ℕ) : ℝ) + 1 + 2) - (some ((2 : ℝ))).getD 0
    norm_num

end Dolfyn
