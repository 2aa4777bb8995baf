import Verif.Model.StressCall
import Verif.Props.Rotate
import Verif.Props.BeamStress

/-! Property C133: the stress functions called on a dataset. -/

namespace Dolfyn

open Spec

/-- Preparing rotated data or the original beam data gives the same. -/
theorem stressPrepare_frame {fuel : ℕ} (hfuel : 3 ≤ fuel) (a : StressArgs)
    {ds d1 : RDS (ℕ × ℕ)} {f : Frame} {j : ℕ} (hb : ds.coordSys = .beam) (ho : Pos f j)
    (hr : Rotatable ds) (h : rotate2 fuel f ds = some (.ok d1)) (hang : a.angle ≠ none) :
    stressPrepare fuel a d1 = stressPrepare fuel a ds := by
  have hi : Pos ds.coordSys 0 := hb ▸ Pos.beam
  have hback := rotate2_roundtrip hfuel hi ho hr h
  rw [hb] at hback
  cases hx : a.angle with
  | none => exact absurd hx hang
  | some x =>
    unfold stressPrepare
    rw [hx]
    simp only [hb, if_true]
    by_cases hd : d1.coordSys = .beam
    · have : rotate2 fuel .beam d1 = some (.ok d1) := by
        obtain ⟨hu, c, hc⟩ := rotate2_ok_checks hback
        rw [rotate2_eq (i := 0) (j := 0) fuel d1 (hd ▸ Pos.beam) Pos.beam hfuel hu hc]
        rfl
      rw [this] at hback
      have := Except.ok.inj (Option.some.inj hback)
      rw [this, hb]
      simp
    · rw [if_neg hd, hback]

/-- **C133.** Handing over beam data, or the same data rotated to any other frame, gives the same four-beam
stresses and leaves the same dataset. -/
theorem stress4_any_frame {fuel : ℕ} (hfuel : 3 ≤ fuel) (b : Binner) (a : StressArgs) (len cell : ℕ)
    {ds d1 : RDS (ℕ × ℕ)} {f : Frame} {j : ℕ} (hb : ds.coordSys = .beam) (ho : Pos f j)
    (hr : Rotatable ds) (h : rotate2 fuel f ds = some (.ok d1)) (hang : a.angle ≠ none) :
    stress4Call fuel b a len cell d1 = stress4Call fuel b a len cell ds := by
  unfold stress4Call
  rw [stressPrepare_frame hfuel a hb ho hr h hang]

/-- **C133.** The same for the five-beam stresses and turbulent energy. -/
theorem stress5_any_frame {fuel : ℕ} (hfuel : 3 ≤ fuel) (b : Binner) (a : StressArgs) (len cell : ℕ)
    (pitch roll : ℕ → Option ℝ) (vel5 : ℕ → Option ℝ)
    {ds d1 : RDS (ℕ × ℕ)} {f : Frame} {j : ℕ} (hb : ds.coordSys = .beam) (ho : Pos f j)
    (hr : Rotatable ds) (h : rotate2 fuel f ds = some (.ok d1)) (hang : a.angle ≠ none) :
    stress5Call fuel b a len cell pitch roll (some vel5) d1 =
      stress5Call fuel b a len cell pitch roll (some vel5) ds := by
  unfold stress5Call
  rw [stressPrepare_frame hfuel a hb ho hr h hang]

/-- **C133, end to end.** For an upward-facing Signature whose four beams see the same flow, the call returns
the covariances of the velocity components, in whichever frame the data is handed over. -/
theorem stress4_call_signature {fuel : ℕ} (hfuel : 3 ≤ fuel) (b : Binner) (n len cell : ℕ)
    (hn : b.nBin = n) (hn0 : 0 < n) (hlen : n ≤ len) (a : StressArgs) (ang : ℝ)
    (hang : a.angle = some ang) (hface : a.facing = .up) (u v w : ℕ → ℝ)
    (hs : Real.sin (deg2rad ang) ≠ 0) (hc : Real.cos (deg2rad ang) ≠ 0)
    {ds d1 : RDS (ℕ × ℕ)} {f : Frame} {j : ℕ} (hb : ds.coordSys = .beam) (ho : Pos f j)
    (hsig : ds.inst = .signature)
    (hvel : cellVel ds cell =
      some fun i t => some (Spec.sigBeam (deg2rad ang) (u t) (v t) (w t) i))
    (hr : Rotatable ds) (h : rotate2 fuel f ds = some (.ok d1)) :
    stress4Call fuel b a len cell d1 =
      some (ds, .ok ((List.range (len / n)).map fun r => some (Spec.binCov n u w r),
        (List.range (len / n)).map fun r => some (Spec.binCov n v w r))) := by
  rw [stress4_any_frame hfuel b a len cell hb ho hr h (by rw [hang]; simp)]
  unfold stress4Call stressPrepare
  rw [hang]
  simp only [hb, if_true, hvel, hsig, adpMake, hface]
  rw [stress4_signature_up b n len hn hn0 hlen ang _ u v w hs hc]

/-- **C133 is false for "the data handed over is not changed".** Data in any frame but beam is in the beam frame
after the call, whatever the result is. -/
theorem stress4_changes_caller_false {fuel : ℕ} (hfuel : 3 ≤ fuel) (b : Binner) (a : StressArgs)
    (len cell : ℕ) {ds : RDS (ℕ × ℕ)} {i : ℕ} (hi : Pos ds.coordSys i) (hr : Rotatable ds)
    (hc : Complete ds) (hang : a.angle ≠ none) (hne : ds.coordSys ≠ .beam) :
    ∃ d r, stress4Call fuel b a len cell ds = some (d, r) ∧ d.coordSys = .beam ∧ d ≠ ds := by
  obtain ⟨d, hd, hd2⟩ := rotate2_succeeds hfuel hi Pos.beam hr hc
  cases hx : a.angle with
  | none => exact absurd hx hang
  | some x =>
    unfold stress4Call stressPrepare
    rw [hx]
    simp only [if_neg hne, hd]
    cases hv : cellVel d cell with
    | none => exact ⟨d, _, rfl, hd2, fun e => hne (e ▸ hd2)⟩
    | some vel => exact ⟨d, _, rfl, hd2, fun e => hne (e ▸ hd2)⟩

/-- **C133.** Whatever frame it came in, the dataset is in the instrument frame after a five-beam call that
returns. -/
theorem stress5_changes_caller_false {fuel : ℕ} (hfuel : 3 ≤ fuel) (b : Binner) (a : StressArgs)
    (len cell : ℕ) (pitch roll : ℕ → Option ℝ) (vel5 : Option (ℕ → Option ℝ))
    {ds d : RDS (ℕ × ℕ)} {i : ℕ} {x : List (Option Five)} (hi : Pos ds.coordSys i)
    (h : stress5Call fuel b a len cell pitch roll vel5 ds = some (d, .ok x)) :
    d.coordSys = .inst := by
  unfold stress5Call at h
  cases vel5 with
  | none => simp at h
  | some x5 =>
    simp only at h
    cases hp : stressPrepare fuel a ds with
    | none => rw [hp] at h; cases h
    | some p =>
      obtain ⟨d1, r⟩ := p
      rw [hp] at h
      cases r with
      | error e => simp at h
      | ok q =>
        have hd1 : d1.coordSys = .beam := by
          unfold stressPrepare at hp
          cases hx : a.angle with
          | none => rw [hx] at hp; simp at hp
          | some y =>
            rw [hx] at hp
            simp only at hp
            split at hp
            · rename_i hb
              have := Option.some.inj hp
              rw [← (Prod.mk.inj this).1]; exact hb
            · cases hrt : rotate2 fuel .beam ds with
              | none => rw [hrt] at hp; cases hp
              | some z =>
                rw [hrt] at hp
                cases z with
                | error e => simp at hp
                | ok z =>
                  have := Option.some.inj hp
                  rw [← (Prod.mk.inj this).1]
                  exact (rotate2_reaches hfuel hi Pos.beam hrt).1
        simp only at h
        cases hv : cellVel d1 cell with
        | none => rw [hv] at h; simp at h
        | some vel =>
          rw [hv] at h
          cases hrt : rotate2 fuel .inst d1 with
          | none => rw [hrt] at h; cases h
          | some z =>
            rw [hrt] at h
            cases z with
            | error e => simp at h
            | ok z =>
              have hz := (rotate2_reaches hfuel (hd1 ▸ Pos.beam) Pos.inst hrt).1
              simp only at h
              cases hv2 : cellVel z cell with
              | none => rw [hv2] at h; simp at h
              | some uv =>
                rw [hv2] at h
                have := Option.some.inj h
                rw [← (Prod.mk.inj this).1]; exact hz

/-- **C133 is false for the argument `beam_angle`.** With a beam angle in the dataset the argument has no effect. -/
theorem stress_angle_argument_false (fuel : ℕ) (b : Binner) (a : StressArgs) (len cell : ℕ)
    (ds : RDS (ℕ × ℕ)) (x : ℝ) (hx : a.angleAttr = some x) (y : Option ℝ) :
    stress4Call fuel b { a with angleArg := y } len cell ds = stress4Call fuel b a len cell ds := by
  unfold stress4Call stressPrepare StressArgs.angle StressArgs.facing
  simp only [hx]

/-- **C133 is false for the noise of the binner.** The noise level that the binner was created with is never
used; without the argument no noise is removed. -/
theorem stress_binner_noise_false (fuel : ℕ) (b : Binner) (a : StressArgs) (len cell : ℕ)
    (ds : RDS (ℕ × ℕ)) (hn : a.noiseArg = none) (y : Option ℝ) :
    stress4Call fuel b { a with noiseBinner := y } len cell ds =
      stress4Call fuel b { a with noiseArg := some 0 } len cell ds := by
  unfold stress4Call stressPrepare StressArgs.angle StressArgs.facing
  simp only [hn, Option.getD_none, Option.getD_some]

/-- **C133.** An orientation given in the call counts before that of the dataset, and this one before that of
the binner. -/
theorem stress_orientation (a : StressArgs) (o : Facing) :
    (a.facingArg = some o → a.facing = o) ∧
    (a.facingArg = none → a.facingAttr = some o → a.facing = o) ∧
    (a.facingArg = none → a.facingAttr = none → a.facing = a.facingBinner) := by
  unfold StressArgs.facing
  refine ⟨fun h => by rw [h], fun h h2 => by rw [h, h2], fun h h2 => by rw [h, h2]⟩

/-- **C133.** Without a beam angle the call raises and leaves the dataset alone; data in the ship frame cannot
be used at all. -/
theorem stress4_refuses {fuel : ℕ} (hfuel : 3 ≤ fuel) (b : Binner) (a : StressArgs) (len cell : ℕ)
    (ds : RDS (ℕ × ℕ)) :
    (a.angle = none → stress4Call fuel b a len cell ds = some (ds, .error .exception)) ∧
    (ds.coordSys = .ship → ∃ e, stress4Call fuel b a len cell ds = some (ds, .error e)) := by
  constructor
  · intro h
    unfold stress4Call stressPrepare
    rw [h]
  · intro h
    unfold stress4Call stressPrepare
    cases hx : a.angle with
    | none => exact ⟨.exception, rfl⟩
    | some x =>
      obtain ⟨e, he⟩ := rotate2_ship_fails (fuel := fuel) (by omega) ds h (Or.inr rfl)
      refine ⟨e, ?_⟩
      simp only [h]
      rw [if_neg (by decide), he]

/-! ### The hypotheses can be met -/

/-- An upward-facing Signature with one cell, beams at 45 degrees that see a growing flow, and an orientation
that turns by 90 degrees. -/
noncomputable def exSigUp : RDS (ℕ × ℕ) where
  inst := .signature
  coordSys := .beam
  vars := [⟨"vel", 4, fun ct i =>
    if h : i < 4 then Spec.sigBeam (deg2rad 45) ct.2 (2 * ct.2 ^ 2) (3 * ct.2) ⟨i, h⟩ else 0⟩]
  beam2inst := some ⟨4, Matrix.diagonal ![2, 3, 1, 1]⟩
  orientmat := some fun _ => !![0, 1, 0; -1, 0, 0; 0, 0, 1]
  calcOmat := fun _ => .error .unboundLocal
  down := false
  principalHeading := some 30
  declination := some 10
  heading := none
  inst2head := none
  inst2headSet := false

theorem exSigUp_rotatable : Rotatable exSigUp := by
  refine ⟨?_, ?_, ?_, ?_⟩
  · rintro m (h | ⟨h, _⟩)
    · intro t
      cases h
      unfold Orthonormal
      ext i j
      fin_cases i <;> fin_cases j <;> simp [Matrix.mul_apply, Fin.sum_univ_three]
    · cases h
  · rintro _ m (h | ⟨h, _⟩)
    · intro t
      cases h
      simp
    · cases h
  · intro B h
    cases h
    simp [Matrix.det_diagonal, Fin.prod_univ_four]
  · intro R h; cases h

theorem exSigUp_complete : Complete exSigUp := by
  refine ⟨by simp [exSigUp], ⟨false, rfl⟩, ⟨_, rfl⟩, Or.inl (by simp [exSigUp]), by simp [exSigUp], ?_, ?_⟩
  · intro v hv
    simp [exSigUp] at hv
    rcases hv with rfl
    simp [exSigUp]
  · intro h; exact absurd rfl h

/-- The example rotated to the earth frame gives the true covariances in bins of ten samples. -/
example : ∃ d1, rotate2 3 .earth exSigUp = some (.ok d1) ∧
    ∀ a : StressArgs, a.angle = some 45 → a.facing = .up → ∀ b : Binner, b.nBin = (10 : ℕ) →
    stress4Call 3 b a 100 0 d1 =
      some (exSigUp, .ok ((List.range 10).map fun r =>
          some (Spec.binCov 10 (fun t => (t : ℝ)) (fun t => 3 * (t : ℝ)) r),
        (List.range 10).map fun r =>
          some (Spec.binCov 10 (fun t => 2 * (t : ℝ) ^ 2) (fun t => 3 * (t : ℝ)) r))) := by
  obtain ⟨d1, h, _⟩ := rotate2_succeeds (fuel := 3) le_rfl (ds := exSigUp) Pos.beam Pos.earth
    exSigUp_rotatable exSigUp_complete
  refine ⟨d1, h, fun a ha hf b hb => ?_⟩
  have h45 : deg2rad 45 = Real.pi / 4 := by unfold deg2rad; ring
  refine stress4_call_signature le_rfl b 10 100 0 hb (by norm_num) (by norm_num) a 45 ha hf _ _ _
    ?_ ?_ rfl Pos.earth rfl ?_ exSigUp_rotatable h
  · rw [h45, Real.sin_pi_div_four]; positivity
  · rw [h45, Real.cos_pi_div_four]; positivity
  · unfold cellVel exSigUp
    simp

end Dolfyn
