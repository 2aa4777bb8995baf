import Verif.Model.RotNames

/-!
C177: averages that were made before the raw data is corrected for motion.
-/

namespace Dolfyn

noncomputable section

/-- The dataset has every one of the variables, as vectors of three components. -/
def Spec.Has (ds : NDs) (names : List String) : Prop := ∀ nm ∈ names, ∃ v, ds.vars nm = some (3, v)

theorem put_same (ds : NDs) (nm : String) (v : ℕ → Fin 3 → ℝ) : (ds.put nm v).vars nm = some (3, v) := by
  simp [NDs.put]

theorem put_other (ds : NDs) (nm k : String) (v : ℕ → Fin 3 → ℝ) (h : k ≠ nm) :
    (ds.put nm v).vars k = ds.vars k := by
  simp [NDs.put, h]

theorem has_put {ds : NDs} {names : List String} (h : Spec.Has ds names) (nm : String) (v : ℕ → Fin 3 → ℝ) :
    Spec.Has (ds.put nm v) names := by
  intro k hk
  by_cases e : k = nm
  · exact ⟨v, by rw [e]; exact put_same ds nm v⟩
  · rw [put_other ds nm k v e]; exact h k hk

theorem rotOne_has (rm : ℕ → M3) (nm : String) (ds : NDs) (v : ℕ → Fin 3 → ℝ) (h : ds.vars nm = some (3, v)) :
    rotOne rm nm ds = (ds.put nm fun t => (rm t).mulVec (v t), none) := by
  simp [rotOne, h]

/-- The loop over the names runs through a first part of the list whose variables exist, and goes on with the rest. -/
theorem rotNames_run (rm : ℕ → M3) (l m : List String) (ds : NDs) (h : Spec.Has ds l) (hd : l.Nodup) :
    ∃ ds', rotNames rm (l ++ m) ds = rotNames rm m ds' ∧ ds'.frame = ds.frame ∧
      (∀ nm ∈ l, ∀ v, ds.vars nm = some (3, v) → ds'.vars nm = some (3, fun t => (rm t).mulVec (v t))) ∧
      (∀ nm, nm ∉ l → ds'.vars nm = ds.vars nm) := by
  induction l generalizing ds with
  | nil => exact ⟨ds, rfl, rfl, by simp, fun _ _ => rfl⟩
  | cons a l ih =>
    obtain ⟨va, hva⟩ := h a (by simp)
    have hd' := List.nodup_cons.1 hd
    obtain ⟨ds', e, hf, hin, hout⟩ := ih (ds.put a fun t => (rm t).mulVec (va t))
      (has_put (fun nm hnm => h nm (by simp [hnm])) _ _) hd'.2
    refine ⟨ds', ?_, hf, ?_, ?_⟩
    · rw [← e]; show rotNames rm (a :: (l ++ m)) ds = _
      rw [rotNames, rotOne_has rm a ds va hva]
    · intro nm hnm v hv
      rcases List.mem_cons.1 hnm with e' | hm
      · subst e'
        rw [hout nm hd'.1, put_same]
        rw [hva] at hv
        have : va = v := by simpa using hv
        rw [this]
      · have hne : nm ≠ a := fun e' : nm = a => hd'.1 (e' ▸ hm)
        exact hin nm hm v (by rw [put_other _ _ _ _ hne]; exact hv)
    · intro nm hnm
      have h1 : nm ≠ a := fun e' : nm = a => hnm (by simp [e'])
      have h2 : nm ∉ l := fun e' => hnm (by simp [e'])
      rw [hout nm h2, put_other _ _ _ _ h1]

theorem rotNames_keeps (rm : ℕ → M3) (l : List String) (ds : NDs) (names : List String) (h : Spec.Has ds names) :
    Spec.Has (rotNames rm l ds).1 names := by
  induction l generalizing ds with
  | nil => exact h
  | cons a l ih =>
    rw [rotNames]
    rcases hv : ds.vars a with _ | ⟨n, v⟩
    · simp only [rotOne, hv]; exact h
    · by_cases hn : n = 3
      · subst hn; rw [rotOne_has rm a ds v hv]; exact ih _ (has_put h _ _)
      · have e : rotOne rm a ds = (ds, some .exception) := by simp [rotOne, hv, hn]
        rw [e]; exact h

theorem rotNames_ok (rm : ℕ → M3) (l : List String) (ds : NDs) (h : Spec.Has ds l) :
    (rotNames rm l ds).2 = none := by
  induction l generalizing ds with
  | nil => rfl
  | cons a l ih =>
    obtain ⟨va, hva⟩ := h a (by simp)
    rw [rotNames, rotOne_has rm a ds va hva]
    exact ih _ (has_put (fun nm hnm => h nm (by simp [hnm])) _ _)

/-- C177. Averages rotate as they should as long as the list of names is the list of their variables: every listed
variable is turned once, the others are untouched, and the frame is the new one. -/
theorem avg_rotates (reverse : Bool) (omat : ℕ → M3) (names : List String) (avg : NDs) (h : Spec.Has avg names)
    (hd : names.Nodup) (hf : avg.frame = (instFrames reverse).1) :
    ∃ out, inst2earthN reverse omat names avg = (out, none) ∧ out.frame = (instFrames reverse).2 ∧
      (∀ nm ∈ names, ∀ v, avg.vars nm = some (3, v) →
        out.vars nm = some (3, fun t => (instMat reverse omat t).mulVec (v t))) ∧
      (∀ nm, nm ∉ names → out.vars nm = avg.vars nm) := by
  obtain ⟨ds', e, hf', hin, hout⟩ := rotNames_run (instMat reverse omat) names [] avg h hd
  have hne : (instFrames reverse).1 ≠ (instFrames reverse).2 := by cases reverse <;> decide
  refine ⟨{ ds' with frame := (instFrames reverse).2 }, ?_, rfl, hin, hout⟩
  rw [List.append_nil] at e
  unfold inst2earthN
  rw [if_neg (by rw [hf]; exact hne), if_neg (by rw [hf]; simp), e]
  rfl

/-- C177. With a name in the list that the averages do not have, the rotation stops there: the error is a missing
key, everything listed before is already turned, and the frame is still the old one. -/
theorem avg_half (reverse : Bool) (omat : ℕ → M3) (names rest : List String) (x : String) (avg : NDs)
    (h : Spec.Has avg names) (hd : names.Nodup) (hx : avg.vars x = none)
    (hf : avg.frame = (instFrames reverse).1) :
    ∃ out, inst2earthN reverse omat (names ++ x :: rest) avg = (out, some .keyError) ∧ out.frame = avg.frame ∧
      (∀ nm ∈ names, ∀ v, avg.vars nm = some (3, v) →
        out.vars nm = some (3, fun t => (instMat reverse omat t).mulVec (v t))) := by
  obtain ⟨ds', e, hf', hin, hout⟩ := rotNames_run (instMat reverse omat) names (x :: rest) avg h hd
  have hne : (instFrames reverse).1 ≠ (instFrames reverse).2 := by cases reverse <;> decide
  have hxn : x ∉ names := by
    intro hm
    obtain ⟨v, hv⟩ := h x hm
    rw [hx] at hv; exact absurd hv (by simp)
  refine ⟨ds', ?_, hf', hin⟩
  have e2 : rotNames (instMat reverse omat) (x :: rest) ds' = (ds', some .keyError) := by
    rw [rotNames]; simp [rotOne, hout x hxn, hx]
  unfold inst2earthN
  rw [if_neg (by rw [hf]; exact hne), if_neg (by rw [hf]; simp), e, e2]

/-- What `correct_motion` needs: data in the instrument or the earth frame with every listed variable, the velocity,
and none of the variables it adds. -/
structure Spec.Ready (names : List String) (ds : NDs) : Prop where
  has : Spec.Has ds names
  frame : ds.frame = .inst ∨ ds.frame = .earth
  fresh : ds.vars "velrot" = none

theorem put_frame (ds : NDs) (nm : String) (v : ℕ → Fin 3 → ℝ) : (ds.put nm v).frame = ds.frame := rfl

theorem rotNames_frame (rm : ℕ → M3) (l : List String) (ds : NDs) : (rotNames rm l ds).1.frame = ds.frame := by
  induction l generalizing ds with
  | nil => rfl
  | cons a l ih =>
    rw [rotNames]
    rcases hv : ds.vars a with _ | ⟨n, v⟩
    · simp only [rotOne, hv]
    · by_cases hn : n = 3
      · subst hn; rw [rotOne_has rm a ds v hv]; exact ih _
      · have e : rotOne rm a ds = (ds, some .exception) := by simp [rotOne, hv, hn]
        rw [e]

/-- The rotation over names that all exist succeeds, keeps the variables, and sets the frame. -/
theorem inst2earthN_ok (reverse : Bool) (omat : ℕ → M3) (l names : List String) (ds : NDs) (h : Spec.Has ds l)
    (hn : Spec.Has ds names) (hf : ds.frame = (instFrames reverse).1) :
    ∃ out, inst2earthN reverse omat l ds = (out, none) ∧ Spec.Has out names ∧
      out.frame = (instFrames reverse).2 := by
  have hne : (instFrames reverse).1 ≠ (instFrames reverse).2 := by cases reverse <;> decide
  have e : rotNames (instMat reverse omat) l ds = ((rotNames (instMat reverse omat) l ds).1, none) := by
    rw [← rotNames_ok (instMat reverse omat) l ds h]
  refine ⟨{ (rotNames (instMat reverse omat) l ds).1 with frame := (instFrames reverse).2 }, ?_,
    rotNames_keeps _ _ _ _ hn, rfl⟩
  unfold inst2earthN
  rw [if_neg (by rw [hf]; exact hne), if_neg (by rw [hf]; simp), e]

theorem has_add3 {ds : NDs} {names : List String} (h : Spec.Has ds names) (a b c : ℕ → Fin 3 → ℝ) :
    Spec.Has (((ds.put "velacc" a).put "acclow" b).put "velrot" c) (names ++ ["velrot", "velacc", "acclow"]) := by
  intro k hk
  rcases List.mem_append.1 hk with hk | hk
  · exact has_put (has_put (has_put h _ _) _ _) _ _ k hk
  · simp only [List.mem_cons, List.not_mem_nil, or_false] at hk
    rcases hk with rfl | rfl | rfl
    · exact ⟨c, put_same _ _ _⟩
    · exact ⟨a, by rw [put_other _ _ _ _ (by decide), put_other _ _ _ _ (by decide), put_same]⟩
    · exact ⟨b, by rw [put_other _ _ _ _ (by decide), put_same]⟩

/-- C177. The correction of data that is ready for it succeeds, adds four names to the list, and leaves a dataset
that has every variable of the longer list, in the frame that was asked for. -/
theorem motion_names (toEarth : Bool) (omat : ℕ → M3) (terms : NDs → NTerms) (names : List String) (ds : NDs)
    (h : Spec.Ready names ds) :
    ∃ out, motionCall toEarth omat terms names ds
        = (names ++ ["velrot", "velacc", "acclow"] ++ ["vel_raw"], out, none) ∧
      Spec.Has out (names ++ ["velrot", "velacc", "acclow"] ++ ["vel_raw"]) ∧
      out.frame = if toEarth then .earth else .inst := by
  have key : ∀ ds1 : NDs, Spec.Has ds1 names → ds1.frame = .inst →
      ∃ out, (let k := terms ds1
        let ds2 := ((ds1.put "velacc" k.velacc).put "acclow" k.acclow).put "velrot" k.velrot
        let names' := names ++ ["velrot", "velacc", "acclow"]
        match motionTurn toEarth omat k names' ds2 with
        | (ds3, some e) => (names', ds3, some e)
        | (ds3, none) => ((motionAdd names' ds3).1, (motionAdd names' ds3).2, none))
        = (names ++ ["velrot", "velacc", "acclow"] ++ ["vel_raw"], out, none) ∧
      Spec.Has out (names ++ ["velrot", "velacc", "acclow"] ++ ["vel_raw"]) ∧
      out.frame = if toEarth then .earth else .inst := by
    intro ds1 h1 hf1
    have h2 := has_add3 h1 (terms ds1).velacc (terms ds1).acclow (terms ds1).velrot
    have fin : ∀ ds3 : NDs, Spec.Has ds3 (names ++ ["velrot", "velacc", "acclow"]) →
        Spec.Has (motionAdd (names ++ ["velrot", "velacc", "acclow"]) ds3).2
          (names ++ ["velrot", "velacc", "acclow"] ++ ["vel_raw"]) := by
      intro ds3 h3 k hk
      rcases List.mem_append.1 hk with hk | hk
      · exact has_put (has_put h3 _ _) _ _ k hk
      · have : k = "vel_raw" := by simpa using hk
        subst this
        exact ⟨_, by
          show (NDs.put _ "vel" _).vars "vel_raw" = _
          rw [put_other _ _ _ _ (by decide), put_same]⟩
    cases toEarth with
    | true =>
      obtain ⟨ds3, e3, h3, hf3⟩ := inst2earthN_ok false omat
        ((names ++ ["velrot", "velacc", "acclow"]).filter fun e => !(["accel", "acclow", "velacc"].contains e))
        (names ++ ["velrot", "velacc", "acclow"])
        ((((ds1.put "velacc" (terms ds1).velacc).put "acclow" (terms ds1).acclow).put "velrot"
          (terms ds1).velrot).put "accel" (terms ds1).accel)
        (fun nm hnm => has_put h2 _ _ nm (List.mem_filter.1 hnm).1) (has_put h2 _ _) hf1
      refine ⟨(motionAdd (names ++ ["velrot", "velacc", "acclow"]) ds3).2, ?_, fin ds3 h3, ?_⟩
      · simp only [motionTurn, if_true, e3]; rfl
      · show ds3.frame = _
        rw [hf3]; rfl
    | false =>
      have h4 : Spec.Has (((ds1.put "velacc" (terms ds1).velacc).put "acclow" (terms ds1).acclow).put "velrot"
          (terms ds1).velrot) ["acclow", "velacc"] := by
        intro k hk
        refine h2 k (List.mem_append.2 (Or.inr ?_))
        simp only [List.mem_cons, List.not_mem_nil, or_false] at hk ⊢
        tauto
      have e3 := rotNames_ok (instMat true omat) ["acclow", "velacc"] _ h4
      have k3 := rotNames_keeps (instMat true omat) ["acclow", "velacc"] _ _ h2
      have f3 := rotNames_frame (instMat true omat) ["acclow", "velacc"]
        (((ds1.put "velacc" (terms ds1).velacc).put "acclow" (terms ds1).acclow).put "velrot" (terms ds1).velrot)
      rcases hr : rotNames (instMat true omat) ["acclow", "velacc"]
        (((ds1.put "velacc" (terms ds1).velacc).put "acclow" (terms ds1).acclow).put "velrot"
          (terms ds1).velrot) with ⟨ds3, o⟩
      rw [hr] at e3 k3 f3
      have eo : o = none := e3
      subst eo
      refine ⟨(motionAdd (names ++ ["velrot", "velacc", "acclow"]) ds3).2, ?_, fin ds3 k3, ?_⟩
      · simp only [motionTurn, Bool.false_eq_true, if_false, hr]; rfl
      · show ds3.frame = _
        have : ds3.frame = ds1.frame := f3
        rw [this, hf1]; rfl
  unfold motionCall
  rw [if_neg (by rw [h.fresh]; simp)]
  rcases h.frame with hf | hf
  · rw [if_pos hf]; exact key ds h.has hf
  · obtain ⟨ds1, e1, h1, hf1⟩ := inst2earthN_ok true omat names names ds h.has h.has hf
    rw [if_neg (by rw [hf]; decide), e1]
    exact key ds1 h1 hf1

/-- C177. Averages made before the correction: they share the list, so afterwards every rotation of them between the
instrument and the earth frame fails with a missing key, and leaves all their vectors turned under the old label. -/
theorem avg_then_motion (toEarth reverse : Bool) (omat omatA : ℕ → M3) (terms : NDs → NTerms) (names : List String)
    (raw avg : NDs) (h : Spec.Ready names raw) (ha : Spec.Has avg names) (hd : names.Nodup)
    (hx : avg.vars "velrot" = none) (hf : avg.frame = (instFrames reverse).1) :
    ∃ out, inst2earthN reverse omatA (motionCall toEarth omat terms names raw).1 avg = (out, some .keyError) ∧
      out.frame = avg.frame ∧
      (∀ nm ∈ names, ∀ v, avg.vars nm = some (3, v) →
        out.vars nm = some (3, fun t => (instMat reverse omatA t).mulVec (v t))) := by
  obtain ⟨_, e, _, _⟩ := motion_names toEarth omat terms names raw h
  rw [e]
  have := avg_half reverse omatA names (["velacc", "acclow"] ++ ["vel_raw"]) "velrot" avg ha hd hx hf
  simpa using this

/-- C177. Averages made after the correction have the variables of the longer list, and rotate. -/
theorem motion_then_avg (toEarth reverse : Bool) (omat omatA : ℕ → M3) (terms : NDs → NTerms) (names : List String)
    (raw avg : NDs) (h : Spec.Ready names raw) (hd : names.Nodup)
    (hn : ∀ nm ∈ ["velrot", "velacc", "acclow", "vel_raw"], nm ∉ names)
    (hs : ∀ nm, Spec.Has (motionCall toEarth omat terms names raw).2.1 [nm] → Spec.Has avg [nm])
    (hf : avg.frame = (instFrames reverse).1) :
    ∃ out, inst2earthN reverse omatA (motionCall toEarth omat terms names raw).1 avg = (out, none) ∧
      out.frame = (instFrames reverse).2 ∧
      (∀ nm ∈ names ++ ["velrot", "velacc", "acclow"] ++ ["vel_raw"], ∀ v, avg.vars nm = some (3, v) →
        out.vars nm = some (3, fun t => (instMat reverse omatA t).mulVec (v t))) := by
  obtain ⟨o, e, ho, _⟩ := motion_names toEarth omat terms names raw h
  rw [e] at hs ⊢
  have ha : Spec.Has avg (names ++ ["velrot", "velacc", "acclow"] ++ ["vel_raw"]) := by
    intro nm hnm
    refine hs nm ?_ nm (by simp)
    intro k hk
    have : k = nm := by simpa using hk
    subst this
    exact ho k hnm
  have hd' : (names ++ ["velrot", "velacc", "acclow"] ++ ["vel_raw"]).Nodup := by
    rw [List.append_assoc, List.nodup_append]
    refine ⟨hd, by decide, ?_⟩
    intro a ha b hb e'
    subst e'
    exact hn a (by simpa using hb) ha
  obtain ⟨out, e1, e2, e3, _⟩ := avg_rotates reverse omatA _ avg ha hd' hf
  exact ⟨out, e1, e2, e3⟩

/-- A raw dataset of a Vector with a motion sensor: velocity, acceleration, angular rate and magnetometer, with
different samples. -/
def exMoving : NDs where
  vars := fun nm => if nm ∈ ["vel", "accel", "angrt", "mag"] then some (3, fun t i => (t : ℝ) + i.val) else none
  frame := .inst

theorem exMoving_ready : Spec.Ready ["vel", "accel", "angrt", "mag"] exMoving where
  has := fun nm h => ⟨_, if_pos h⟩
  frame := Or.inl rfl
  fresh := by simp [exMoving]

example : Spec.Has exMoving ["vel", "accel", "angrt", "mag"] ∧ (["vel", "accel", "angrt", "mag"] : List String).Nodup ∧
    exMoving.vars "velrot" = none ∧ exMoving.frame = (instFrames false).1 ∧
    ∀ nm ∈ ["velrot", "velacc", "acclow", "vel_raw"], nm ∉ ["vel", "accel", "angrt", "mag"] :=
  ⟨exMoving_ready.has, by decide, exMoving_ready.fresh, rfl, by decide⟩

/-- C177 in full: whatever is done to the raw data, averages made before can be rotated. -/
def Spec.avgUsable : Prop :=
  ∀ (toEarth reverse : Bool) (omat omatA : ℕ → M3) (terms : NDs → NTerms) (names : List String) (raw avg : NDs),
    Spec.Ready names raw → Spec.Has avg names → names.Nodup → avg.frame = (instFrames reverse).1 →
    (inst2earthN reverse omatA (motionCall toEarth omat terms names raw).1 avg).2 = none

/-- C177 is false: the averages of a Vector cannot be rotated once the raw data is corrected for motion. -/
theorem avg_usable_false : ¬ Spec.avgUsable := by
  intro h
  have h1 := h true false (fun _ => 1) (fun _ => 1) (fun _ => ⟨fun _ _ => 0, fun _ _ => 0, fun _ _ => 0, fun _ _ => 0⟩)
    _ exMoving exMoving exMoving_ready exMoving_ready.has (by decide) rfl
  obtain ⟨out, e, _, _⟩ := avg_then_motion true false (fun _ => 1) (fun _ => 1)
    (fun _ => ⟨fun _ _ => 0, fun _ _ => 0, fun _ _ => 0, fun _ _ => 0⟩)
    _ exMoving exMoving exMoving_ready exMoving_ready.has (by decide) exMoving_ready.fresh rfl
  rw [e] at h1
  exact absurd h1 (by simp)

end

end Dolfyn
