import Verif.Props.CreateDs

/-!
C97, continued: two-dimensional variables, with one row per beam or with three rows.
-/

namespace Dolfyn

/-- The time axis of a variable with one row per beam: that of the bottom track if the name says so and the reader has
such an axis. -/
def Spec.beamTime (key : Key) (timeBt : Bool) : Key :=
  if "bt".toList <:+: key ∧ timeBt = true then "time_bt".toList else "time".toList

/-- The first axis: beams for amplitudes, correlations, distances and percentages, directions for velocities. -/
def Spec.beamAxis (key : Key) : Key :=
  if ∃ s ∈ ["amp", "corr", "dist", "prcnt_gd"], key.takeWhile (· != '_') <:+: String.toList s then "beam".toList
  else "dir".toList

theorem dim0of2_spec (key : Key) : dim0of2 key = Spec.beamAxis key := by
  unfold dim0of2 Spec.beamAxis firstPart
  simp only [List.any_eq_true, decide_eq_true_eq]

/-- **C97** (vectors of a point or of the bottom). A variable with one row per beam, whose name has no tag of averaged,
fifth-beam or echosounder data, is put on the axis of its kind and on the time axis of the bottom track or of the
pings; shape and values are unchanged, whatever came before. -/
theorem beam_dims {α : Type*} (fst : α → α) (nBeams : ℕ) (timeBt : Bool) (tg : Option Key) (key : Key) (n : ℕ) (x : α)
    (hk : Spec.ordinary key) (ht : ∀ t ∈ ["_avg", "_b5", "_echo"], ¬ String.toList t <:+: key)
    (he : key ≠ "echo".toList) (ha : key ≠ "samp_altraw".toList) :
    ∃ tg', createVar fst nBeams timeBt tg ⟨key, [nBeams, n], x⟩ =
      .ok (tg', some ⟨key, [Spec.beamAxis key, Spec.beamTime key timeBt], [nBeams, n], x⟩) := by
  have haa : key ≠ "samp_altraw_avg".toList := by
    intro e
    exact ht "_avg" (by simp) (by rw [e]; decide)
  have hnot : ¬ ((dsTags.take 3).any fun t => keyIn t key) = true := by
    rw [List.any_eq_true]
    rintro ⟨t, htm, hin⟩
    have htm' : t ∈ ["_avg", "_b5", "_echo"] := htm
    exact ht t htm' (by unfold keyIn at hin; exact of_decide_eq_true hin)
  refine ⟨some (if keyIn "bt" key ∧ timeBt then "_bt".toList else []), ?_⟩
  unfold createVar
  simp only [keyIn_false hk.1, keyIn_false hk.2, Bool.false_eq_true, if_false, if_neg he, if_neg ha, if_neg haa]
  rw [if_pos ⟨trivial, hnot⟩, dim0of2_spec]
  have e : timeDim (if keyIn "bt" key = true ∧ timeBt = true then "_bt".toList else []) =
      Spec.beamTime key timeBt := by
    unfold Spec.beamTime
    by_cases h : "bt".toList <:+: key ∧ timeBt = true
    · rw [if_pos h, if_pos ⟨keyIn_true h.1, h.2⟩]; decide
    · rw [if_neg h, if_neg (fun hh => h ⟨by have := hh.1; unfold keyIn at this; exact of_decide_eq_true this, hh.2⟩)]
      decide
  rw [e]

/-- **C97** (inertial sensors). A variable with three rows on an instrument with more beams is put on the axis of the
sensor and the time axis of the pings, or of the record type in its name. -/
theorem imu_dims {α : Type*} (fst : α → α) (nBeams : ℕ) (hn : nBeams ≠ 3) (timeBt : Bool) (tg : Option Key)
    (key : Key) (n : ℕ) (x : α) (hk : Spec.ordinary key) (he : key ≠ "echo".toList) (ha : key ≠ "samp_altraw".toList)
    (haa : key ≠ "samp_altraw_avg".toList) :
    (hasTag key = false → ∃ tg', createVar fst nBeams timeBt tg ⟨key, [3, n], x⟩ =
      .ok (tg', some ⟨key, ["dirIMU".toList, "time".toList], [3, n], x⟩)) ∧
    (∀ t ∈ dsTags, t.toList <:+: key → (∀ u ∈ dsTags, u.toList <:+: key → u = t) →
      ∃ tg', createVar fst nBeams timeBt tg ⟨key, [3, n], x⟩ =
        .ok (tg', some ⟨key, ["dirIMU".toList, "time".toList ++ t.toList], [3, n], x⟩)) := by
  have step : createVar fst nBeams timeBt tg ⟨key, [3, n], x⟩ =
      .ok (some (imuTag key), some ⟨key, ["dirIMU".toList, timeDim (imuTag key)], [3, n], x⟩) := by
    unfold createVar
    simp only [keyIn_false hk.1, keyIn_false hk.2, Bool.false_eq_true, if_false, if_neg he, if_neg ha, if_neg haa]
    rw [if_neg (fun h => hn h.1.symm), if_pos trivial]
  refine ⟨fun h => ⟨some (imuTag key), ?_⟩, fun t ht hin hu => ⟨some (imuTag key), ?_⟩⟩
  · rw [step]
    have : imuTag key = [] := by
      unfold imuTag
      rw [List.find?_eq_none.2]
      intro u hu
      unfold hasTag at h
      rw [List.any_eq_false] at h
      exact h u hu
    rw [this]; rfl
  · rw [step]
    have : imuTag key = t.toList := by
      unfold imuTag
      rcases hf : dsTags.find? fun t => keyIn t key with _ | u
      · rw [List.find?_eq_none] at hf
        exact absurd (keyIn_true hin) (hf t ht)
      · have h1 := List.find?_some hf
        have h2 := List.mem_of_find?_eq_some hf
        rw [hu u h2 (by unfold keyIn at h1; exact of_decide_eq_true h1)]
    rw [this]; rfl

/- The bottom track of a TRDI file, which has no time axis of its own, and of a Signature file, which has one; and an
accelerometer of averaged data. -/
example : Spec.beamTime "vel_bt".toList true = "time_bt".toList ∧ Spec.beamTime "vel_bt".toList false = "time".toList ∧
    Spec.beamTime "vel".toList true = "time".toList := by decide

example : Spec.beamAxis "vel_bt".toList = "dir".toList ∧ Spec.beamAxis "dist_bt".toList = "beam".toList ∧
    Spec.beamAxis "prcnt_gd_bt".toList = "beam".toList := by decide

example : Spec.ordinary "vel_bt".toList ∧ (∀ t ∈ ["_avg", "_b5", "_echo"], ¬ String.toList t <:+: "vel_bt".toList) ∧
    (∀ u ∈ dsTags, u.toList <:+: "accel_avg".toList → u = "_avg") := by
  refine ⟨?_, by decide, by decide⟩
  unfold Spec.ordinary; decide

end Dolfyn
