import Verif.Props.RotNames

/-!
C178: the velocity of a corrected dataset is the sum of the raw velocity and the two motion velocities, in whatever
frame the dataset is turned to.
-/

namespace Dolfyn

noncomputable section

/-- The velocity is the raw velocity plus the rotational and the translational velocity. -/
def Spec.MotionSum (ds : NDs) : Prop :=
  ∃ u r a b, ds.vars "vel" = some (3, u) ∧ ds.vars "vel_raw" = some (3, r) ∧ ds.vars "velrot" = some (3, a) ∧
    ds.vars "velacc" = some (3, b) ∧ ∀ t i, u t i = r t i + (a t i + b t i)

theorem val_of {ds : NDs} {nm : String} {v : ℕ → Fin 3 → ℝ} (h : ds.vars nm = some (3, v)) : ds.val nm = v := by
  simp [NDs.val, h]

theorem motionAdd_sum (names : List String) (ds : NDs) (h : Spec.Has ds ["vel", "velrot", "velacc"]) :
    Spec.MotionSum (motionAdd names ds).2 := by
  obtain ⟨u, hu⟩ := h "vel" (by simp)
  obtain ⟨a, ha⟩ := h "velrot" (by simp)
  obtain ⟨b, hb⟩ := h "velacc" (by simp)
  have hu' : (ds.put "vel_raw" u).vars "vel" = some (3, u) := by rw [put_other _ _ _ _ (by decide)]; exact hu
  have ha' : (ds.put "vel_raw" u).vars "velrot" = some (3, a) := by rw [put_other _ _ _ _ (by decide)]; exact ha
  have hb' : (ds.put "vel_raw" u).vars "velacc" = some (3, b) := by rw [put_other _ _ _ _ (by decide)]; exact hb
  have e : (motionAdd names ds).2 = (ds.put "vel_raw" u).put "vel" (addSeries u (addSeries a b)) := by
    simp only [motionAdd, val_of hu, val_of hu', val_of ha', val_of hb']
  rw [e]
  refine ⟨_, u, a, b, put_same _ _ _, ?_, ?_, ?_, fun t i => rfl⟩
  · rw [put_other _ _ _ _ (by decide), put_same]
  · rw [put_other _ _ _ _ (by decide)]; exact ha'
  · rw [put_other _ _ _ _ (by decide)]; exact hb'

/-- A correction that ends without an error ends with `motionAdd`. -/
theorem motionCall_end (toEarth : Bool) (omat : ℕ → M3) (terms : NDs → NTerms) (names : List String) (ds : NDs)
    (h : (motionCall toEarth omat terms names ds).2.2 = none) :
    ∃ ds3, (motionCall toEarth omat terms names ds).2.1
      = (motionAdd (names ++ ["velrot", "velacc", "acclow"]) ds3).2 ∧
      ∃ l ds2, Spec.Has ds2 ["velrot", "velacc"] ∧ (∀ nm, Spec.Has ds [nm] → Spec.Has ds2 [nm]) ∧
        ∃ rm, ds3.vars = (rotNames rm l ds2).1.vars := by
  have turn : ∀ (k : NTerms) (l : List String) (d d3 : NDs), motionTurn toEarth omat k l d = (d3, none) →
      ∃ rm l' d', d3.vars = (rotNames rm l' d').1.vars ∧ ∀ nms, Spec.Has d nms → Spec.Has d' nms := by
    intro k l d d3 e
    unfold motionTurn at e
    cases toEarth with
    | true =>
      rw [if_pos rfl] at e
      unfold inst2earthN at e
      split at e
      · exact ⟨fun _ => 1, [], d.put "accel" k.accel, by rw [← (Prod.mk.inj e).1]; rfl, fun _ hh => has_put hh _ _⟩
      · split at e
        · exact absurd (Prod.mk.inj e).2 (by simp)
        · split at e
          · rename_i d' hr
            exact ⟨instMat false omat, l.filter fun e => !(["accel", "acclow", "velacc"].contains e),
              d.put "accel" k.accel, by rw [hr, ← (Prod.mk.inj e).1], fun _ hh => has_put hh _ _⟩
          · exact absurd (Prod.mk.inj e).2 (by simp)
    | false =>
      rw [if_neg (by simp)] at e
      exact ⟨_, _, d, by rw [e], fun _ hh => hh⟩
  have keep : ∀ (d1 : NDs), (if ds.frame = .inst then (ds, none) else inst2earthN true omat names ds) = (d1, none) →
      ∀ nms, Spec.Has ds nms → Spec.Has d1 nms := by
    intro d1 e nms hh
    split at e
    · rw [← (Prod.mk.inj e).1]; exact hh
    · unfold inst2earthN at e
      split at e
      · rw [← (Prod.mk.inj e).1]; exact hh
      · split at e
        · exact absurd (Prod.mk.inj e).2 (by simp)
        · split at e
          · rename_i d' hr
            have h1 := rotNames_keeps (instMat true omat) names ds nms hh
            rw [hr] at h1
            rw [← (Prod.mk.inj e).1]; exact h1
          · exact absurd (Prod.mk.inj e).2 (by simp)
  unfold motionCall at h ⊢
  split at h
  · exact absurd h (by simp)
  · rename_i hv
    rw [if_neg hv]
    split at h
    · exact absurd h (by simp)
    · rename_i d1 e1
      beta_reduce at h
      simp only at h
      split at h
      · exact absurd h (by simp)
      · rename_i d3 e3
        simp only [e3]
        obtain ⟨rm, l', d', hv3, hk⟩ := turn _ _ _ _ e3
        refine ⟨d3, rfl, l', d', ?_, ?_, rm, hv3⟩
        · apply hk
          intro nm hnm
          have := has_add3 (names := []) (ds := d1) (by intro k hk'; simp at hk') (terms d1).velacc (terms d1).acclow
            (terms d1).velrot
          refine this nm ?_
          simp only [List.nil_append, List.mem_cons, List.not_mem_nil, or_false] at hnm ⊢
          tauto
        · intro nm hnm
          apply hk
          exact has_put (has_put (has_put (keep d1 e1 _ hnm) _ _) _ _) _ _

/-- C178. After a correction the velocity is the raw velocity plus the two velocities of the motion, as they are in
the dataset, whether the result is asked for in the earth frame or not. -/
theorem motion_sum (toEarth : Bool) (omat : ℕ → M3) (terms : NDs → NTerms) (names : List String) (ds : NDs)
    (hu : Spec.Has ds ["vel"]) (h : (motionCall toEarth omat terms names ds).2.2 = none) :
    Spec.MotionSum (motionCall toEarth omat terms names ds).2.1 := by
  obtain ⟨d3, e, l, d2, h2, hk, rm, hv⟩ := motionCall_end toEarth omat terms names ds h
  rw [e]
  apply motionAdd_sum
  have h3 : Spec.Has (rotNames rm l d2).1 ["vel", "velrot", "velacc"] := by
    apply rotNames_keeps
    intro nm hnm
    rcases List.mem_cons.1 hnm with rfl | hm
    · exact hk "vel" hu "vel" (by simp)
    · exact h2 nm hm
  intro nm hnm
  rw [hv]
  exact h3 nm hnm

/-- One rotation of all listed variables keeps the sum, whatever the matrices are. -/
theorem sum_rotates (rm : ℕ → M3) (names : List String) (ds : NDs) (h : Spec.MotionSum ds) (hd : names.Nodup)
    (hn : ∀ nm ∈ ["vel", "vel_raw", "velrot", "velacc"], nm ∈ names) (hh : Spec.Has ds names) :
    (rotNames rm names ds).2 = none ∧ Spec.MotionSum (rotNames rm names ds).1 ∧
      Spec.Has (rotNames rm names ds).1 names := by
  obtain ⟨u, r, a, b, hu, hr, ha, hb, hs⟩ := h
  obtain ⟨ds', e, _, hin, _⟩ := rotNames_run rm names [] ds hh hd
  rw [List.append_nil] at e
  have e' : rotNames rm names ds = (ds', none) := e
  refine ⟨rotNames_ok rm names ds hh, ?_, rotNames_keeps rm names ds names hh⟩
  rw [e']
  refine ⟨_, _, _, _, hin "vel" (hn _ (by simp)) u hu, hin "vel_raw" (hn _ (by simp)) r hr,
    hin "velrot" (hn _ (by simp)) a ha, hin "velacc" (hn _ (by simp)) b hb, ?_⟩
  intro t i
  have : u t = r t + (a t + b t) := funext fun j => hs t j
  rw [this, Matrix.mulVec_add, Matrix.mulVec_add]
  rfl

/-- Rotations one after the other, over the same list of names; an error ends them. -/
def rotSeq (names : List String) : List (ℕ → M3) → NDs → NDs × Option Err
  | [], ds => (ds, none)
  | rm :: l, ds =>
    match rotNames rm names ds with
    | (ds', none) => rotSeq names l ds'
    | (ds', some e) => (ds', some e)

/-- C178. The sum holds in every frame: after a correction and any number of rotations with any matrices, none of
which fails. -/
theorem motion_sum_any_frame (toEarth : Bool) (omat : ℕ → M3) (terms : NDs → NTerms) (names : List String) (ds : NDs)
    (hr : Spec.Ready names ds) (hu : "vel" ∈ names) (hd : names.Nodup)
    (hn : ∀ nm ∈ ["velrot", "velacc", "acclow", "vel_raw"], nm ∉ names) (turns : List (ℕ → M3)) :
    (rotSeq (motionCall toEarth omat terms names ds).1 turns (motionCall toEarth omat terms names ds).2.1).2 = none ∧
    Spec.MotionSum
      (rotSeq (motionCall toEarth omat terms names ds).1 turns (motionCall toEarth omat terms names ds).2.1).1 := by
  obtain ⟨out, e, ho, _⟩ := motion_names toEarth omat terms names ds hr
  have hs := motion_sum toEarth omat terms names ds
    (fun nm hnm => by have : nm = "vel" := by simpa using hnm
                      rw [this]; exact hr.has _ hu) (by rw [e])
  rw [e] at hs ⊢
  have hd' : (names ++ ["velrot", "velacc", "acclow"] ++ ["vel_raw"]).Nodup := by
    rw [List.append_assoc, List.nodup_append]
    refine ⟨hd, by decide, ?_⟩
    intro a ha b hb e'
    subst e'
    exact hn a (by simpa using hb) ha
  have hmem : ∀ nm ∈ ["vel", "vel_raw", "velrot", "velacc"],
      nm ∈ names ++ ["velrot", "velacc", "acclow"] ++ ["vel_raw"] := by
    intro nm hnm
    simp only [List.mem_cons, List.not_mem_nil, or_false] at hnm
    rcases hnm with rfl | rfl | rfl | rfl <;> simp [hu]
  clear e hr
  have gen : ∀ (turns : List (ℕ → M3)) (d : NDs), Spec.MotionSum d →
      Spec.Has d (names ++ ["velrot", "velacc", "acclow"] ++ ["vel_raw"]) →
      (rotSeq (names ++ ["velrot", "velacc", "acclow"] ++ ["vel_raw"]) turns d).2 = none ∧
      Spec.MotionSum (rotSeq (names ++ ["velrot", "velacc", "acclow"] ++ ["vel_raw"]) turns d).1 := by
    intro turns
    induction turns with
    | nil => intro d h1 _; exact ⟨rfl, h1⟩
    | cons rm l ih =>
      intro d h1 h2
      obtain ⟨k1, k2, k3⟩ := sum_rotates rm _ d h1 hd' hmem h2
      have e : rotNames rm (names ++ ["velrot", "velacc", "acclow"] ++ ["vel_raw"]) d
          = ((rotNames rm (names ++ ["velrot", "velacc", "acclow"] ++ ["vel_raw"]) d).1, none) := by
        rw [← k1]
      rw [rotSeq, e]
      exact ih _ k2 k3
  exact gen turns out hs ho

example : Spec.Ready ["vel", "accel", "angrt", "mag"] exMoving ∧ "vel" ∈ ["vel", "accel", "angrt", "mag"] ∧
    Spec.Has exMoving ["vel"] :=
  ⟨exMoving_ready, by decide, fun nm h => exMoving_ready.has nm (by
    have : nm = "vel" := by simpa using h
    rw [this]; decide)⟩

/-- A dataset with the list of names in which the motion variables occur twice, as after two corrections through
copies that share the list. -/
def exTwiceNames : List String :=
  ["vel", "velrot", "velacc", "acclow", "vel_raw", "velrot", "velacc", "acclow", "vel_raw"]

/-- A corrected dataset: the velocity 1 along x is the raw velocity 1 and no motion. -/
def exSummed : NDs where
  vars := fun nm =>
    if nm = "vel" ∨ nm = "vel_raw" then some (3, fun _ i => if i = 0 then 1 else 0)
    else if nm ∈ exTwiceNames then some (3, fun _ _ => 0) else none
  frame := .inst

/-- A list with the names twice does not have the property: the raw velocity is turned twice, the velocity once. So
the list must not be extended twice. -/
theorem sum_twice_false : Spec.MotionSum exSummed ∧ Spec.Has exSummed exTwiceNames ∧
    ¬ Spec.MotionSum (rotNames (fun _ => -1) exTwiceNames exSummed).1 := by
  have q : ∀ nm, nm ∈ exTwiceNames → nm ≠ "vel" → nm ≠ "vel_raw" → exSummed.vars nm = some (3, fun _ _ => 0) := by
    intro nm h1 h2 h3
    simp only [exSummed]
    rw [if_neg (by tauto), if_pos h1]
  refine ⟨⟨fun _ i => if i = 0 then 1 else 0, fun _ i => if i = 0 then 1 else 0, _, _, by simp [exSummed],
    by simp [exSummed], q "velrot" (by decide) (by decide) (by decide),
    q "velacc" (by decide) (by decide) (by decide), fun t i => by simp⟩, ?_, ?_⟩
  · intro nm h
    by_cases h1 : nm = "vel" ∨ nm = "vel_raw"
    · exact ⟨_, if_pos h1⟩
    · exact ⟨_, q nm h (by tauto) (by tauto)⟩
  · rintro ⟨u, r, a, b, hu, hr, ha, hb, hs⟩
    have := hs 0 0
    simp [exTwiceNames, rotNames, rotOne, NDs.put, exSummed] at hu hr ha hb
    rw [← hu, ← hr, ← ha, ← hb] at this
    simp [Matrix.neg_mulVec] at this
    norm_num at this

end

end Dolfyn
