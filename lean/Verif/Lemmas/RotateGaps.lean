import Verif.Spec.RotateGaps
import Verif.Props.AdpClean
import Verif.Lemmas.RotatePath

/-! Helper lemmas for rotations of data with missing components (C183). -/

namespace Dolfyn

open Spec

variable {T : Type}

theorem applyG_none {n : ℕ} (M : Matrix (Fin n) (Fin n) ℝ) (v : ℕ → Option ℝ) (i : ℕ) :
    applyG M v i = none ↔ (v i = none ∨ (i < n ∧ ∃ j < n, v j = none)) := by
  unfold applyG
  split
  · rename_i h
    constructor
    · intro h0
      right
      refine ⟨h, ?_⟩
      by_contra hc
      push Not at hc
      have : ∀ j : Fin n, ∃ x, v j = some x := fun j => Option.ne_none_iff_exists'.mp (hc j j.2)
      choose u hu using this
      have e : (fun j : Fin n => v j) = fun j => some (u j) := funext hu
      rw [e, nanMulVec_some] at h0
      cases h0
    · rintro (h0 | ⟨_, j, hj, h0⟩)
      · exact nanMulVec_none M _ ⟨i, h⟩ h0 _
      · exact nanMulVec_none M _ ⟨j, hj⟩ h0 _
  · rename_i h
    exact ⟨Or.inl, fun h0 => h0.elim id fun h1 => absurd h1.1 h⟩

theorem applyG_some {n : ℕ} (M : Matrix (Fin n) (Fin n) ℝ) (v : ℕ → Option ℝ) (u : ℕ → ℝ)
    (hu : ∀ j x, v j = some x → x = u j) (i : ℕ) (x : ℝ) (h : applyG M v i = some x) :
    x = applyM M u i := by
  by_cases hi : i < n
  · have hs : ∀ j : Fin n, v j = some (u j) := by
      intro j
      cases hv : v j with
      | none =>
        have := (applyG_none M v i).mpr (Or.inr ⟨hi, j, j.2, hv⟩)
        rw [this] at h; cases h
      | some y => rw [hu j y hv]
    have e : (fun j : Fin n => v j) = fun j : Fin n => some (u j) := funext hs
    unfold applyG at h
    rw [dif_pos hi, e, nanMulVec_some] at h
    rw [← Option.some.inj h]
    unfold applyM
    rw [dif_pos hi]
    rfl
  · unfold applyG at h
    rw [dif_neg hi] at h
    unfold applyM
    rw [dif_neg hi]
    exact hu i x h

theorem agrees_rot {n : ℕ} {v : RVar T} {w : GVar T} (h : agrees v w)
    (M : T → Matrix (Fin n) (Fin n) ℝ) : agrees (v.rot M) (w.rot M) :=
  ⟨h.1, h.2.1, fun t i x hx => applyG_some (M t) _ _ (fun j y hy => h.2.2 t j y hy) i x hx⟩

theorem spreads_rot {n : ℕ} (v : GVar T) (M : T → Matrix (Fin n) (Fin n) ℝ) : spreads n v (v.rot M) :=
  ⟨rfl, rfl, fun t i => applyG_none (M t) (v.val t) i⟩

theorem spreads_refl (v : GVar T) : spreads 0 v v :=
  ⟨rfl, rfl, fun t i => ⟨Or.inl, fun h => h.elim id fun h1 => absurd h1.1 (by omega)⟩⟩

theorem spreads_trans {K L : ℕ} {u v w : GVar T} (h1 : spreads K u v) (h2 : spreads L v w) :
    spreads (max K L) u w := by
  refine ⟨h2.1.trans h1.1, h2.2.1.trans h1.2.1, fun t i => ?_⟩
  rw [h2.2.2 t i, h1.2.2 t i]
  constructor
  · rintro ((h | ⟨hi, j, hj, h⟩) | ⟨hi, j, hj, h⟩)
    · exact Or.inl h
    · exact Or.inr ⟨by omega, j, by omega, h⟩
    · rcases (h1.2.2 t j).mp h with h | ⟨hj', m, hm, h⟩
      · exact Or.inr ⟨by omega, j, by omega, h⟩
      · exact Or.inr ⟨by omega, m, by omega, h⟩
  · rintro (h | ⟨hi, j, hj, h⟩)
    · exact Or.inl (Or.inl h)
    · rcases le_total K L with hKL | hKL
      · exact Or.inr ⟨by omega, j, by omega, (h1.2.2 t j).mpr (Or.inl h)⟩
      · exact Or.inl (Or.inr ⟨by omega, j, by omega, h⟩)

theorem outcome_bind {α β γ δ : Type} {R : α → β → Prop} {S : γ → δ → Prop} {x : Except Err α}
    {y : Except Err β} {f : α → Except Err γ} {g : β → Except Err δ} (h : sameOutcome R x y)
    (hf : ∀ a b, R a b → sameOutcome S (f a) (g b)) : sameOutcome S (x >>= f) (y >>= g) := by
  cases x <;> cases y
  · exact h
  · exact h.elim
  · exact h.elim
  · exact hf _ _ h

theorem outcome_mapM {α β γ δ : Type} {R : α → β → Prop} {S : γ → δ → Prop} {f : α → Except Err γ}
    {g : β → Except Err δ} {l : List α} {m : List β} (h : List.Forall₂ R l m)
    (hf : ∀ a b, R a b → sameOutcome S (f a) (g b)) :
    sameOutcome (List.Forall₂ S) (l.mapM f) (m.mapM g) := by
  induction h with
  | nil => exact List.Forall₂.nil
  | cons hab _ ih =>
    rw [List.mapM_cons, List.mapM_cons]
    refine outcome_bind (hf _ _ hab) fun a b h1 => outcome_bind ih fun as bs h2 => ?_
    exact List.Forall₂.cons h1 h2

theorem outcome_map {α β γ δ : Type} {R : α → β → Prop} {S : γ → δ → Prop} {x : Except Err α}
    {y : Except Err β} {f : α → γ} {g : β → δ} (h : sameOutcome R x y)
    (hf : ∀ a b, R a b → S (f a) (g b)) : sameOutcome S (x.map f) (y.map g) := by
  cases x <;> cases y
  · exact h
  · exact h.elim
  · exact h.elim
  · exact hf _ _ h

theorem outcome_refl {α : Type} (x : Except Err α) : sameOutcome Eq x x := by
  cases x <;> rfl

theorem mapM_pairs {α β : Type} {f : α → Except Err β} {l : List α} {l' : List β}
    (h : l.mapM f = .ok l') : List.Forall₂ (fun a b => f a = .ok b) l l' := by
  induction l generalizing l' with
  | nil => rw [List.mapM_nil] at h; cases h; exact .nil
  | cons a l ih =>
    rw [List.mapM_cons] at h
    cases hfa : f a with
    | error e => rw [hfa] at h; cases h
    | ok b =>
      rw [hfa] at h
      cases hfl : l.mapM f with
      | error e => rw [hfl] at h; cases h
      | ok bs =>
        rw [hfl] at h
        cases h
        exact .cons hfa (ih hfl)

theorem within_put {g : GDS T} {vs : List (RVar T)} {ws : List (GVar T)} (h : List.Forall₂ agrees vs ws)
    (f : Frame) : within { g.hdr with vars := vs, coordSys := f } (g.put ws f) :=
  ⟨vs, rfl, h⟩

/-! ### The same control flow and the same values -/

theorem head_within (r : Bool) {ds : RDS T} {g : GDS T} (h : within ds g) :
    sameOutcome within (rotateInst2head r ds) (rotateInst2headG r g) := by
  obtain ⟨vs, rfl, hv⟩ := h
  have hc : checkInst2head { g.hdr with vars := vs } = checkInst2head g.hdr := rfl
  unfold rotateInst2head rotateInst2headG
  rw [hc]
  dsimp only
  cases checkInst2head g.hdr with
  | error e => rfl
  | ok b =>
    cases b with
    | false => exact ⟨vs, rfl, hv⟩
    | true =>
      cases hR : g.hdr.inst2head with
      | none => exact ⟨vs, by simp [hR], hv⟩
      | some R =>
        refine outcome_map (outcome_mapM (S := agrees) hv ?_) ?_
        · intro a b hab
          rw [hab.1, hab.2.1]
          split
          · split
            · exact agrees_rot hab _
            · rfl
          · exact hab
        · intro as bs hs
          exact ⟨as, by simp [hR], hs⟩

theorem base_within (r : Bool) {ds : RDS T} {g : GDS T} (h : within ds g) :
    sameOutcome within (beam2instBase r ds) (beam2instBaseG r g) := by
  obtain ⟨vs, rfl, hv⟩ := h
  unfold beam2instBase beam2instBaseG
  dsimp only
  split
  · rfl
  · split
    · rfl
    · cases hB : g.hdr.beam2inst with
      | none => rfl
      | some B =>
        dsimp only
        split
        · rfl
        · refine ⟨vs.map fun v => if v.n = B.n then v.rot (fun _ => if r then B.mat⁻¹ else B.mat) else v, ?_, ?_⟩
          · simp [GDS.put, hB]
          · dsimp only [GDS.put]
            rw [List.forall₂_map_left_iff, List.forall₂_map_right_iff]
            refine hv.imp fun a b hab => ?_
            rw [hab.2.1]
            split
            · exact agrees_rot hab _
            · exact hab

theorem beam_within (r : Bool) {ds : RDS T} {g : GDS T} (h : within ds g) :
    sameOutcome within (beam2inst r ds) (beam2instG r g) := by
  have hi : ds.inst = g.hdr.inst := by obtain ⟨vs, rfl, hv⟩ := h; rfl
  unfold beam2inst beam2instG
  rw [hi]
  cases g.hdr.inst
  · cases r
    · exact outcome_bind (base_within false h) fun a b hab => head_within false hab
    · exact outcome_bind (head_within true h) fun a b hab => base_within true hab
  all_goals exact base_within r h

theorem nortek_within (r : Bool) {ds : RDS T} {g : GDS T} (h : within ds g) :
    sameOutcome within (inst2earthNortek r ds) (inst2earthNortekG r g) := by
  obtain ⟨vs, rfl, hv⟩ := h
  have ho : effOmat { g.hdr with vars := vs } = effOmat g.hdr := rfl
  unfold inst2earthNortek inst2earthNortekG
  rw [ho]
  dsimp only
  by_cases hcs : g.hdr.coordSys ≠ (if r = true then Frame.earth else Frame.inst)
  · rw [if_pos hcs, if_pos hcs]
    rfl
  · rw [if_neg hcs, if_neg hcs]
    refine outcome_bind (outcome_refl _) ?_
    rintro m _ rfl
    refine outcome_bind (outcome_mapM (S := agrees) hv ?_) fun as bs hs => ?_
    · intro a b hab
      rw [hab.2.1]
      split
      · rfl
      · exact agrees_rot hab _
    · exact ⟨as, rfl, hs⟩

theorem sig_within (r : Bool) {ds : RDS T} {g : GDS T} (h : within ds g) :
    sameOutcome within (inst2earthSig r ds) (inst2earthSigG r g) := by
  obtain ⟨vs, rfl, hv⟩ := h
  have ho : effOmat { g.hdr with vars := vs } = effOmat g.hdr := rfl
  unfold inst2earthSig inst2earthSigG
  rw [ho]
  dsimp only
  by_cases hcs : g.hdr.coordSys ≠ (if r = true then Frame.earth else Frame.inst)
  · rw [if_pos hcs, if_pos hcs]
    rfl
  · rw [if_neg hcs, if_neg hcs]
    refine outcome_bind (outcome_refl _) ?_
    rintro m _ rfl
    by_cases hd : r = true ∧ ∃ t, (ext4 (m t).transpose).det = 0
    · rw [if_pos hd, if_pos hd]
      rfl
    · rw [if_neg hd, if_neg hd]
      refine outcome_bind (outcome_mapM (S := agrees) hv ?_) fun as bs hs => ?_
      · intro a b hab
        rw [hab.2.1]
        split
        · exact agrees_rot hab _
        · split
          · exact agrees_rot hab _
          · rfl
      · exact ⟨as, rfl, hs⟩

theorem rdi_within (r : Bool) {ds : RDS T} {g : GDS T} (h : within ds g) :
    sameOutcome within (inst2earthRdi r ds) (inst2earthRdiG r g) := by
  obtain ⟨vs, rfl, hv⟩ := h
  have ho : effOmat { g.hdr with vars := vs } = effOmat g.hdr := rfl
  unfold inst2earthRdi inst2earthRdiG
  rw [ho]
  dsimp only
  split
  · rfl
  · split
    · rfl
    · refine outcome_bind (outcome_refl _) ?_
      rintro m _ rfl
      refine outcome_bind (outcome_mapM (S := agrees) hv ?_) fun as bs hs => ?_
      · intro a b hab
        rw [hab.2.1]
        split
        · rfl
        · exact agrees_rot hab _
      · exact ⟨as, rfl, hs⟩

theorem earth_within (r : Bool) {ds : RDS T} {g : GDS T} (h : within ds g) :
    sameOutcome within (inst2earth r ds) (inst2earthG r g) := by
  have hi : ds.inst = g.hdr.inst := by obtain ⟨vs, rfl, hv⟩ := h; rfl
  unfold inst2earth inst2earthG
  rw [hi]
  cases g.hdr.inst
  · exact nortek_within r h
  · exact nortek_within r h
  · exact sig_within r h
  · exact rdi_within r h
  · rfl

theorem principal_within (r : Bool) {ds : RDS T} {g : GDS T} (h : within ds g) :
    sameOutcome within (earth2principal r ds) (earth2principalG r g) := by
  obtain ⟨vs, rfl, hv⟩ := h
  unfold earth2principal earth2principalG
  dsimp only
  cases hp : g.hdr.principalHeading with
  | none => rfl
  | some ph =>
    dsimp only
    by_cases hcs : g.hdr.coordSys ≠ (if r = true then Frame.principal else Frame.earth)
    · rw [if_pos hcs, if_pos hcs]
      rfl
    · rw [if_neg hcs, if_neg hcs]
      refine outcome_bind (outcome_mapM (S := agrees) hv ?_) fun as bs hs => ?_
      · intro a b hab
        rw [hab.2.1]
        split
        · rfl
        · exact agrees_rot hab _
      · exact ⟨as, by simp [GDS.put, hp], hs⟩

theorem link_within (i : ℤ) (r : Bool) {ds : RDS T} {g : GDS T} (h : within ds g) :
    sameOutcome within (linkFun i r ds) (linkFunG i r g) := by
  unfold linkFun linkFunG
  split
  · exact beam_within r h
  · split
    · exact earth_within r h
    · split
      · exact principal_within r h
      · split <;> rfl

theorem loop_within (r : Bool) (out : Frame) (fuel : ℕ) {ds : RDS T} {g : GDS T} (h : within ds g) :
    sameRun within (rotateLoop r out fuel ds) (rotateLoopG r out fuel g) := by
  induction fuel generalizing ds g with
  | zero =>
    have hc : ds.coordSys = g.hdr.coordSys := by obtain ⟨vs, rfl, hv⟩ := h; rfl
    unfold rotateLoop rotateLoopG
    rw [hc]
    split
    · exact h
    · trivial
  | succ fuel ih =>
    have hc : ds.coordSys = g.hdr.coordSys := by obtain ⟨vs, rfl, hv⟩ := h; rfl
    unfold rotateLoop rotateLoopG
    rw [hc]
    split
    · exact h
    · cases chainIndex (shipAsInst g.hdr.coordSys) with
      | none => rfl
      | some k =>
        dsimp only
        have hl := link_within (if r then (k : ℤ) - 1 else k) r h
        generalize linkFun (if r = true then (k : ℤ) - 1 else k) r ds = x at hl ⊢
        generalize linkFunG (if r = true then (k : ℤ) - 1 else k) r g = y at hl ⊢
        cases x <;> cases y
        · exact hl
        · exact hl.elim
        · exact hl.elim
        · exact ih hl

theorem rotate2_within (fuel : ℕ) (out : Frame) {ds : RDS T} {g : GDS T} (h : within ds g) :
    sameRun within (rotate2 fuel out ds) (rotate2G fuel out g) := by
  have hc : ds.coordSys = g.hdr.coordSys := by obtain ⟨vs, rfl, hv⟩ := h; rfl
  have hi : ds.inst = g.hdr.inst := by obtain ⟨vs, rfl, hv⟩ := h; rfl
  have hk : checkInst2head ds = checkInst2head g.hdr := by obtain ⟨vs, rfl, hv⟩ := h; rfl
  unfold rotate2 rotate2G
  rw [hc, hi, hk]
  cases checkInst2head g.hdr with
  | error e => rfl
  | ok b =>
    dsimp only
    split
    · rfl
    · cases chainIndex (shipAsInst g.hdr.coordSys) with
      | none => rfl
      | some k =>
        cases chainIndex out with
        | none => rfl
        | some m => exact loop_within _ out fuel h

theorem filled_within (c : String → T → ℕ → ℝ) (g : GDS T) : within (filled c g) g := by
  refine ⟨_, rfl, ?_⟩
  rw [List.forall₂_map_left_iff, List.forall₂_same]
  intro v _
  refine ⟨rfl, rfl, fun t i x hx => ?_⟩
  dsimp only
  rw [hx]
  rfl


/-! ### Where missing values spread -/

theorem forall₂_through {α β γ : Type} {R : α → β → Prop} {S : β → γ → Prop} {P : α → γ → Prop} {l : List α}
    {m : List β} {n : List γ} (h1 : List.Forall₂ R l m) (h2 : List.Forall₂ S m n)
    (h : ∀ a b c, R a b → S b c → P a c) : List.Forall₂ P l n := by
  induction h1 generalizing n with
  | nil => cases h2; exact .nil
  | cons hab _ ih =>
    cases h2 with
    | cons hbc hs => exact .cons (h _ _ _ hab hbc) (ih hs)

/-- Components mixed by the head rotation of a Vector (helper). -/
noncomputable def headMix (ds : RDS T) (name : String) : ℕ :=
  if ds.inst2head ≠ none ∧ name = "vel" then 3 else 0

/-- Components mixed by the beam matrix (helper). -/
noncomputable def beamMix (ds : RDS T) (n : ℕ) : ℕ :=
  if ds.beam2inst.map (·.n) = some n then n else 0

theorem mixed_zero (ds : RDS T) (nm : String) (n : ℕ) : mixed ds nm n 0 =
    if ds.beam2inst.map (·.n) = some n then n
    else if ds.inst = .vector ∧ ds.inst2head ≠ none ∧ nm = "vel" then 3 else 0 := rfl

theorem mixed_one (ds : RDS T) (nm : String) (n : ℕ) : mixed ds nm n 1 = if ds.inst = .rdi then 3 else n := rfl

theorem mixed_two (ds : RDS T) (nm : String) (n : ℕ) : mixed ds nm n 2 = 2 := rfl

theorem headG_spread {r : Bool} {g g' : GDS T} (h : rotateInst2headG r g = .ok g') :
    g'.hdr = g.hdr ∧ List.Forall₂ (fun v w => spreads (headMix g.hdr v.name) v w ∧
      (headMix g.hdr v.name = 3 → v.n = 3)) g.vars g'.vars := by
  unfold rotateInst2headG at h
  cases hR : g.hdr.inst2head with
  | none =>
    have hc : checkInst2head g.hdr = .ok false := by unfold checkInst2head; rw [hR]
    rw [hc, hR] at h
    cases h
    refine ⟨rfl, ?_⟩
    rw [List.forall₂_same]
    intro v _
    have : headMix g.hdr v.name = 0 := by unfold headMix; rw [hR]; simp
    rw [this]
    exact ⟨spreads_refl v, by omega⟩
  | some R =>
    rw [hR] at h
    cases hc : checkInst2head g.hdr with
    | error e => rw [hc] at h; cases h
    | ok b =>
      have hb : b = true := by
        unfold checkInst2head at hc
        rw [hR] at hc
        dsimp only at hc
        split at hc
        · cases hc
        · split at hc
          · cases hc
          · exact (Except.ok.inj hc).symm
      rw [hc, hb] at h
      dsimp only at h
      cases hm : (g.vars.mapM fun (v : GVar T) =>
          if v.name = "vel" then
            if v.n = 3 then Except.ok (v.rot fun _ => if r then R.transpose else R)
            else Except.error Err.valueError
          else Except.ok v) with
      | error e => rw [hm] at h; cases h
      | ok ws =>
        rw [hm] at h
        cases h
        refine ⟨rfl, (mapM_pairs hm).imp fun v w hvw => ?_⟩
        unfold headMix
        by_cases hn : v.name = "vel"
        · rw [if_pos hn] at hvw
          rw [if_pos ⟨by rw [hR]; simp, hn⟩]
          split at hvw
          · rename_i h3
            cases hvw
            exact ⟨spreads_rot v _, fun _ => h3⟩
          · cases hvw
        · rw [if_neg hn] at hvw
          cases hvw
          rw [if_neg (fun hh => hn hh.2)]
          exact ⟨spreads_refl v, by omega⟩

theorem baseG_spread {r : Bool} {g g' : GDS T} (h : beam2instBaseG r g = .ok g') :
    g'.hdr = { g.hdr with coordSys := if r then .beam else .inst } ∧
    List.Forall₂ (fun v w => spreads (beamMix g.hdr v.n) v w) g.vars g'.vars := by
  unfold beam2instBaseG at h
  dsimp only at h
  split at h
  · cases h
  · split at h
    · cases h
    · cases hB : g.hdr.beam2inst with
      | none => rw [hB] at h; cases h
      | some B =>
        rw [hB] at h
        dsimp only at h
        split at h
        · cases h
        · cases h
          refine ⟨rfl, ?_⟩
          unfold GDS.put
          dsimp only
          rw [List.forall₂_map_right_iff, List.forall₂_same]
          intro v _
          unfold beamMix
          rw [hB]
          by_cases hn : v.n = B.n
          · rw [if_pos hn, if_pos (by rw [hn]; rfl), hn]
            exact spreads_rot v _
          · rw [if_neg hn, if_neg (by intro hh; exact hn (Option.some.inj hh).symm)]
            exact spreads_refl v

theorem beamG_spread {r : Bool} {g g' : GDS T} (h : beam2instG r g = .ok g') :
    g'.hdr = { g.hdr with coordSys := if r then .beam else .inst } ∧
    List.Forall₂ (fun v w => spreads (mixed g.hdr v.name v.n 0) v w) g.vars g'.vars := by
  unfold beam2instG at h
  have hother : ∀ g' : GDS T, g.hdr.inst ≠ .vector → beam2instBaseG r g = .ok g' →
      g'.hdr = { g.hdr with coordSys := if r then .beam else .inst } ∧
      List.Forall₂ (fun v w => spreads (mixed g.hdr v.name v.n 0) v w) g.vars g'.vars := by
    intro g' hi h
    obtain ⟨h1, h2⟩ := baseG_spread h
    refine ⟨h1, h2.imp fun v w hvw => ?_⟩
    have e : mixed g.hdr v.name v.n 0 = beamMix g.hdr v.n := by
      rw [mixed_zero]
      unfold beamMix
      simp only [hi, false_and, if_false]
    rw [e]
    exact hvw
  have hmix : ∀ (name : String) (n : ℕ), g.hdr.inst = .vector → (headMix g.hdr name = 3 → n = 3) →
      max (beamMix g.hdr n) (headMix g.hdr name) = mixed g.hdr name n 0 := by
    intro name n hi h3
    rw [mixed_zero]
    unfold beamMix
    by_cases hb : g.hdr.beam2inst.map (·.n) = some n
    · rw [if_pos hb, if_pos hb]
      by_cases hh : headMix g.hdr name = 3
      · rw [hh, h3 hh]; rfl
      · have : headMix g.hdr name = 0 := by
          unfold headMix at hh ⊢
          split
          · rename_i hc; rw [if_pos hc] at hh; exact absurd rfl hh
          · rfl
        rw [this]; omega
    · rw [if_neg hb, if_neg hb]
      unfold headMix
      simp only [hi, true_and]
      omega
  cases hi : g.hdr.inst with
  | vector =>
    rw [hi] at h
    dsimp only at h
    cases r with
    | false =>
      rw [if_neg (by simp)] at h
      cases hb : beam2instBaseG false g with
      | error e => rw [hb] at h; cases h
      | ok g1 =>
        rw [hb] at h
        obtain ⟨a1, a2⟩ := baseG_spread hb
        replace h : rotateInst2headG false g1 = .ok g' := h
        obtain ⟨b1, b2⟩ := headG_spread h
        refine ⟨by rw [b1, a1], forall₂_through a2 b2 fun u v w huv hvw => ?_⟩
        have e : ∀ nm, headMix g1.hdr nm = headMix g.hdr nm := fun nm => by rw [a1]; rfl
        rw [e, huv.1, huv.2.1] at hvw
        rw [← hmix u.name u.n hi hvw.2]
        exact spreads_trans huv hvw.1
    | true =>
      rw [if_pos rfl] at h
      cases hb : rotateInst2headG true g with
      | error e => rw [hb] at h; cases h
      | ok g1 =>
        rw [hb] at h
        obtain ⟨a1, a2⟩ := headG_spread hb
        replace h : beam2instBaseG true g1 = .ok g' := h
        obtain ⟨b1, b2⟩ := baseG_spread h
        refine ⟨by rw [b1, a1], forall₂_through a2 b2 fun u v w huv hvw => ?_⟩
        rw [a1, huv.1.2.1] at hvw
        rw [← hmix u.name u.n hi huv.2, max_comm]
        exact spreads_trans huv.1 hvw
  | awac => rw [hi] at h; exact hother g' (by rw [hi]; decide) h
  | signature => rw [hi] at h; exact hother g' (by rw [hi]; decide) h
  | rdi => rw [hi] at h; exact hother g' (by rw [hi]; decide) h
  | unknown => rw [hi] at h; exact hother g' (by rw [hi]; decide) h

theorem bind_ok {α β : Type} {x : Except Err α} {f : α → Except Err β} {b : β} (h : x >>= f = .ok b) :
    ∃ a, x = .ok a ∧ f a = .ok b := by
  cases x with
  | error e => cases h
  | ok a => exact ⟨a, rfl, h⟩

theorem earthG_spread {r : Bool} {g g' : GDS T} (h : inst2earthG r g = .ok g') :
    g'.hdr = { g.hdr with coordSys := if r then .inst else .earth } ∧
    List.Forall₂ (fun v w => spreads (mixed g.hdr v.name v.n 1) v w) g.vars g'.vars := by
  unfold inst2earthG at h
  have hN : ∀ g' : GDS T, g.hdr.inst ≠ .rdi → inst2earthNortekG r g = .ok g' →
      g'.hdr = { g.hdr with coordSys := if r then .inst else .earth } ∧
      List.Forall₂ (fun v w => spreads (mixed g.hdr v.name v.n 1) v w) g.vars g'.vars := by
    intro g' hi h
    unfold inst2earthNortekG at h
    by_cases hcs : g.hdr.coordSys ≠ (if r = true then Frame.earth else Frame.inst)
    · rw [if_pos hcs] at h; cases h
    · rw [if_neg hcs] at h
      obtain ⟨m, hm, h⟩ := bind_ok h
      obtain ⟨ws, hws, h⟩ := bind_ok h
      cases h
      refine ⟨rfl, (mapM_pairs hws).imp fun v w hvw => ?_⟩
      rw [mixed_one]
      rw [if_neg hi]
      split at hvw
      · cases hvw
      · rename_i h3
        push Not at h3
        cases hvw
        rw [h3]
        exact spreads_rot v _
  cases hi : g.hdr.inst with
  | vector => rw [hi] at h; exact hN g' (by rw [hi]; decide) h
  | awac => rw [hi] at h; exact hN g' (by rw [hi]; decide) h
  | signature =>
    rw [hi] at h
    dsimp only at h
    unfold inst2earthSigG at h
    by_cases hcs : g.hdr.coordSys ≠ (if r = true then Frame.earth else Frame.inst)
    · rw [if_pos hcs] at h; cases h
    · rw [if_neg hcs] at h
      obtain ⟨m, hm, h⟩ := bind_ok h
      by_cases hd : r = true ∧ ∃ t, (ext4 (m t).transpose).det = 0
      · rw [if_pos hd] at h; cases h
      · rw [if_neg hd] at h
        obtain ⟨ws, hws, h⟩ := bind_ok h
        cases h
        refine ⟨rfl, (mapM_pairs hws).imp fun v w hvw => ?_⟩
        rw [mixed_one]
        rw [if_neg (by rw [hi]; decide)]
        split at hvw
        · rename_i h3
          cases hvw
          rw [h3]
          exact spreads_rot v _
        · split at hvw
          · rename_i h4
            cases hvw
            rw [h4]
            exact spreads_rot v _
          · cases hvw
  | rdi =>
    rw [hi] at h
    dsimp only at h
    unfold inst2earthRdiG at h
    dsimp only at h
    split at h
    · cases h
    · split at h
      · cases h
      · obtain ⟨m, hm, h⟩ := bind_ok h
        obtain ⟨ws, hws, h⟩ := bind_ok h
        cases h
        refine ⟨rfl, (mapM_pairs hws).imp fun v w hvw => ?_⟩
        rw [mixed_one]
        rw [if_pos hi]
        split at hvw
        · cases hvw
        · cases hvw
          exact spreads_rot v _
  | unknown => rw [hi] at h; cases h

theorem principalG_spread {r : Bool} {g g' : GDS T} (h : earth2principalG r g = .ok g') :
    g'.hdr = { g.hdr with coordSys := if r then .earth else .principal } ∧
    List.Forall₂ (fun v w => spreads (mixed g.hdr v.name v.n 2) v w) g.vars g'.vars := by
  unfold earth2principalG at h
  cases hp : g.hdr.principalHeading with
  | none => rw [hp] at h; cases h
  | some ph =>
    rw [hp] at h
    dsimp only at h
    by_cases hcs : g.hdr.coordSys ≠ (if r = true then Frame.principal else Frame.earth)
    · rw [if_pos hcs] at h; cases h
    · rw [if_neg hcs] at h
      obtain ⟨ws, hws, h⟩ := bind_ok h
      cases h
      refine ⟨rfl, (mapM_pairs hws).imp fun v w hvw => ?_⟩
      rw [mixed_two]
      split at hvw
      · cases hvw
      · cases hvw
        exact spreads_rot v _

theorem linkG_spread {k : ℕ} {r : Bool} {g g' : GDS T} (h : linkFunG (k : ℤ) r g = .ok g') :
    Pos g'.hdr.coordSys (if r then k else k + 1) ∧ (∃ f, g'.hdr = { g.hdr with coordSys := f }) ∧
    List.Forall₂ (fun v w => spreads (mixed g.hdr v.name v.n k) v w) g.vars g'.vars := by
  match k with
  | 0 =>
    obtain ⟨a, b⟩ := beamG_spread h
    refine ⟨?_, ⟨_, a⟩, b⟩
    rw [a]; cases r
    · exact .inst
    · exact .beam
  | 1 =>
    obtain ⟨a, b⟩ := earthG_spread h
    refine ⟨?_, ⟨_, a⟩, b⟩
    rw [a]; cases r
    · exact .earth
    · exact .inst
  | 2 =>
    obtain ⟨a, b⟩ := principalG_spread h
    refine ⟨?_, ⟨_, a⟩, b⟩
    rw [a]; cases r
    · exact .principal
    · exact .earth
  | k + 3 =>
    unfold linkFunG at h
    rw [if_neg (by push_cast; omega), if_neg (by push_cast; omega), if_neg (by push_cast; omega),
      if_neg (by push_cast; omega)] at h
    cases h

theorem mixed_frame (ds : RDS T) (f : Frame) : mixed { ds with coordSys := f } = mixed ds := by
  funext nm n k
  match k with
  | 0 => rfl
  | 1 => rfl
  | 2 => rfl
  | k + 3 => rfl

theorem loopG_fwd {out : Frame} {j : ℕ} (ho : Pos out j) (n i fuel : ℕ) {g g' : GDS T}
    (hi : Pos g.hdr.coordSys i) (hn : i + n = j) (h : rotateLoopG false out fuel g = some (.ok g')) :
    g'.hdr = { g.hdr with coordSys := out } ∧
    List.Forall₂ (fun v w => spreads (((List.range' i n).map (mixed g.hdr v.name v.n)).foldr max 0) v w)
      g.vars g'.vars := by
  induction n generalizing i fuel g with
  | zero =>
    have hc : g.hdr.coordSys = out := by apply Pos.inj hi; rw [← hn] at ho; exact ho
    have hg : g = g' := by
      cases fuel <;> · unfold rotateLoopG at h; rw [if_pos hc] at h; cases h; rfl
    rw [← hg]
    refine ⟨by rw [← hc], ?_⟩
    rw [List.forall₂_same]
    intro v _
    exact spreads_refl v
  | succ n ih =>
    have hne : g.hdr.coordSys ≠ out := by
      intro hh; rw [hh] at hi; have := hi.fn ho; omega
    cases fuel with
    | zero => unfold rotateLoopG at h; rw [if_neg hne] at h; cases h
    | succ fuel =>
      unfold rotateLoopG at h
      rw [if_neg hne, hi.shipAsInst, pos_iff.mp hi] at h
      simp only [Bool.false_eq_true, if_false] at h
      cases hl : linkFunG (i : ℤ) false g with
      | error e => rw [hl] at h; cases h
      | ok g1 =>
        rw [hl] at h
        obtain ⟨a, ⟨f, b⟩, c⟩ := linkG_spread hl
        obtain ⟨d, e⟩ := ih (i + 1) fuel a (by omega) h
        refine ⟨by rw [d, b], forall₂_through c e fun u v w huv hvw => ?_⟩
        rw [b, mixed_frame, huv.1, huv.2.1] at hvw
        rw [List.range'_succ]
        exact spreads_trans huv hvw

theorem foldr_max_concat (l : List ℕ) (x : ℕ) : (l ++ [x]).foldr max 0 = max x (l.foldr max 0) := by
  induction l with
  | nil => rfl
  | cons a l ih =>
    rw [List.cons_append, List.foldr_cons, ih, List.foldr_cons]
    omega

theorem loopG_bwd {out : Frame} {j : ℕ} (ho : Pos out j) (n fuel : ℕ) {g g' : GDS T}
    (hi : Pos g.hdr.coordSys (j + n)) (h : rotateLoopG true out fuel g = some (.ok g')) :
    g'.hdr = { g.hdr with coordSys := out } ∧
    List.Forall₂ (fun v w => spreads (((List.range' j n).map (mixed g.hdr v.name v.n)).foldr max 0) v w)
      g.vars g'.vars := by
  induction n generalizing fuel g with
  | zero =>
    have hc : g.hdr.coordSys = out := Pos.inj hi ho
    have hg : g = g' := by
      cases fuel <;> · unfold rotateLoopG at h; rw [if_pos hc] at h; cases h; rfl
    rw [← hg]
    refine ⟨by rw [← hc], ?_⟩
    rw [List.forall₂_same]
    intro v _
    exact spreads_refl v
  | succ n ih =>
    have hne : g.hdr.coordSys ≠ out := by
      intro hh; rw [hh] at hi; have := hi.fn ho; omega
    cases fuel with
    | zero => unfold rotateLoopG at h; rw [if_neg hne] at h; cases h
    | succ fuel =>
      unfold rotateLoopG at h
      rw [if_neg hne, hi.shipAsInst, pos_iff.mp hi] at h
      simp only [if_true] at h
      rw [show ((j + (n + 1) : ℕ) : ℤ) - 1 = ((j + n : ℕ) : ℤ) by push_cast; ring] at h
      cases hl : linkFunG ((j + n : ℕ) : ℤ) true g with
      | error e => rw [hl] at h; cases h
      | ok g1 =>
        rw [hl] at h
        obtain ⟨a, ⟨f, b⟩, c⟩ := linkG_spread hl
        obtain ⟨d, e⟩ := ih fuel a h
        refine ⟨by rw [d, b], forall₂_through c e fun u v w huv hvw => ?_⟩
        rw [b, mixed_frame, huv.1, huv.2.1] at hvw
        rw [List.range'_concat, List.map_append, List.map_singleton, foldr_max_concat, one_mul]
        exact spreads_trans huv hvw

end Dolfyn
