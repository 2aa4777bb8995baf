import Verif.Props.Turb
import Verif.Props.Orient

/-!
C59, C60: Reynolds stresses and variances from the variances of along-beam velocities.
-/

namespace Dolfyn

open Finset

/-- Mean over `n` samples. -/
noncomputable def Spec.mean (n : ℕ) (p : ℕ → ℝ) : ℝ := (∑ j ∈ range n, p j) / n

/-- Covariance over `n` samples. -/
noncomputable def Spec.cov (n : ℕ) (p q : ℕ → ℝ) : ℝ :=
  (∑ j ∈ range n, (p j - Spec.mean n p) * (q j - Spec.mean n q)) / n

theorem mean_lin (n : ℕ) (a b : ℝ) (p q : ℕ → ℝ) :
    Spec.mean n (fun j => a * p j + b * q j) = a * Spec.mean n p + b * Spec.mean n q := by
  unfold Spec.mean
  rw [sum_add_distrib, ← mul_sum, ← mul_sum]
  ring

theorem cov_self_lin (n : ℕ) (a b : ℝ) (p q : ℕ → ℝ) :
    Spec.cov n (fun j => a * p j + b * q j) (fun j => a * p j + b * q j) =
      a ^ 2 * Spec.cov n p p + 2 * a * b * Spec.cov n p q + b ^ 2 * Spec.cov n q q := by
  unfold Spec.cov
  rw [mean_lin]
  have : ∀ j, (a * p j + b * q j - (a * Spec.mean n p + b * Spec.mean n q)) *
      (a * p j + b * q j - (a * Spec.mean n p + b * Spec.mean n q)) =
      a ^ 2 * ((p j - Spec.mean n p) * (p j - Spec.mean n p)) +
      2 * a * b * ((p j - Spec.mean n p) * (q j - Spec.mean n q)) +
      b ^ 2 * ((q j - Spec.mean n q) * (q j - Spec.mean n q)) := fun j => by ring
  simp only [this, sum_add_distrib, ← mul_sum]
  ring

/-- Binned beam variance of a complete record. -/
theorem beamVar_complete (b : Binner) (n len : ℕ) (hb : b.nBin = n) (hn : 0 < n) (hlen : n ≤ len)
    (noise : ℝ) (x : ℕ → ℝ) :
    beamVar b noise len (fun i => some (x i)) = .ok ((List.range (len / n)).map fun r =>
      some (Spec.cov n (fun j => x (r * n + j)) (fun j => x (r * n + j)) - noise ^ 2)) := by
  obtain ⟨m, h1, h2, h3⟩ := row_eq_samples (some 0) len (fun i => some (x i)) n hn hlen
  unfold beamVar binVar parseNbin subNoise
  simp only [Option.getD_none, hb, h1, Except.map, h2, List.map_map]
  congr 1
  apply List.map_congr_left
  intro r hr
  have hr' := List.mem_range.mp hr
  simp only [Function.comp_apply, h3 r hr', nanvar, Spec.binSamples]
  have e : ((List.range n).map fun j => some (x (r * n + j))).reduceOption =
      (List.range n).map fun j => x (r * n + j) := reduceOption_vals n fun j => x (r * n + j)
  have hne : ((List.range n).map fun j => x (r * n + j)) ≠ [] := by
    intro h
    have := congrArg List.length h
    simp at this
    omega
  rw [e, if_neg hne]
  simp only [Option.map_some, Spec.cov, Spec.mean, List.map_map, List.length_map,
    List.length_range]
  rw [sum_list_range, sum_list_range]
  rfl

/-- Along-beam velocities of a Nortek Signature (positive away from the head): X from beam 3 to
beam 1, Y from beam 2 to beam 4, Z along the axis. -/
noncomputable def Spec.sigBeam (θ X Y Z : ℝ) : Fin 4 → ℝ :=
  ![Real.sin θ * X + Real.cos θ * Z, -Real.sin θ * Y + Real.cos θ * Z,
    -Real.sin θ * X + Real.cos θ * Z, Real.sin θ * Y + Real.cos θ * Z]

/-- Along-beam velocities of a convex four-beam RDI instrument. -/
noncomputable def Spec.rdiBeam (θ X Y Z : ℝ) : Fin 4 → ℝ :=
  ![Real.sin θ * X + Real.cos θ * Z, -Real.sin θ * X + Real.cos θ * Z,
    -Real.sin θ * Y + Real.cos θ * Z, Real.sin θ * Y + Real.cos θ * Z]

/-- `Spec.rdiBeam` is the inverse of the package's own beam-to-instrument matrix. -/
theorem rdiBeam_recovers (θ X Y Z : ℝ) (hs : Real.sin θ ≠ 0) (hc : Real.cos θ ≠ 0) :
    (rdiBeamMat θ 1 false).mulVec (Spec.rdiBeam θ X Y Z) = ![X, Y, Z, 0] := by
  unfold rdiBeamMat
  funext i
  fin_cases i <;> simp [Spec.rdiBeam, Matrix.mulVec, dotProduct, Fin.sum_univ_four] <;>
    field_simp <;> ring

theorem zip2_range (f : ℝ → ℝ → ℝ) (k : ℕ) (x y : ℕ → ℝ) :
    zip2 f ((List.range k).map fun r => some (x r)) ((List.range k).map fun r => some (y r)) =
      (List.range k).map fun r => some (f (x r) (y r)) := by
  unfold zip2
  rw [List.zipWith_map_left, List.zipWith_map_right, List.zipWith_self]
  rfl

/-- The difference of the variances of an opposite beam pair, for any noise level. -/
theorem pair_diff (n : ℕ) (s c noise : ℝ) (p q : ℕ → ℝ) (hs : s ≠ 0) (hc : c ≠ 0) :
    (Spec.cov n (fun j => s * p j + c * q j) (fun j => s * p j + c * q j) - noise ^ 2 -
      (Spec.cov n (fun j => -s * p j + c * q j) (fun j => -s * p j + c * q j) - noise ^ 2)) /
      (4 * s * c) = Spec.cov n p q := by
  rw [cov_self_lin, cov_self_lin]
  field_simp
  ring

theorem pair_diff' (n : ℕ) (s c noise : ℝ) (p q : ℕ → ℝ) (hs : s ≠ 0) (hc : c ≠ 0) :
    (Spec.cov n (fun j => -s * p j + c * q j) (fun j => -s * p j + c * q j) - noise ^ 2 -
      (Spec.cov n (fun j => s * p j + c * q j) (fun j => s * p j + c * q j) - noise ^ 2)) /
      (4 * s * c) = -Spec.cov n p q := by
  rw [cov_self_lin, cov_self_lin]
  field_simp
  ring

/-- Covariance of two velocity components in bin `r`. -/
noncomputable def Spec.binCov (n : ℕ) (p q : ℕ → ℝ) (r : ℕ) : ℝ :=
  Spec.cov n (fun j => p (r * n + j)) fun j => q (r * n + j)

/-- C59 for upward-facing Signatures: with beams that see the same flow, the reported stresses are
the covariances of the instrument-frame velocity components in every bin, for every beam angle
and noise level. -/
theorem stress4_signature_up (b : Binner) (n len : ℕ) (hb : b.nBin = n) (hn : 0 < n)
    (hlen : n ≤ len) (ang : ℝ) (noise : Option ℝ) (u v w : ℕ → ℝ)
    (hs : Real.sin (deg2rad ang) ≠ 0) (hc : Real.cos (deg2rad ang) ≠ 0) :
    calcStress4 b .signature .up (some ang) noise len
      (fun i t => some (Spec.sigBeam (deg2rad ang) (u t) (v t) (w t) i)) =
      .ok ((List.range (len / n)).map fun r => some (Spec.binCov n u w r),
        (List.range (len / n)).map fun r => some (Spec.binCov n v w r)) := by
  unfold calcStress4 beamOrder
  simp only [Spec.sigBeam, Matrix.cons_val_zero, Matrix.cons_val_one, Matrix.cons_val,
    beamVar_complete b n len hb hn hlen, bind, Except.bind, pure, Except.pure, zip2_range,
    pair_diff n _ _ _ _ _ hs hc]
  rfl

/-- C59 for downward-facing Signatures: the components refer to the axes turned by 180° about X,
(X, -Y, -Z), so that the vertical axis points up again. -/
theorem stress4_signature_down (b : Binner) (n len : ℕ) (hb : b.nBin = n) (hn : 0 < n)
    (hlen : n ≤ len) (ang : ℝ) (noise : Option ℝ) (u v w : ℕ → ℝ)
    (hs : Real.sin (deg2rad ang) ≠ 0) (hc : Real.cos (deg2rad ang) ≠ 0) :
    calcStress4 b .signature .down (some ang) noise len
      (fun i t => some (Spec.sigBeam (deg2rad ang) (u t) (-v t) (-w t) i)) =
      .ok ((List.range (len / n)).map fun r => some (Spec.binCov n u w r),
        (List.range (len / n)).map fun r => some (Spec.binCov n v w r)) := by
  have neg1 : ∀ p q : ℕ → ℝ, Spec.cov n p (fun j => -q j) = -Spec.cov n p q := by
    intro p q
    have hm : Spec.mean n (fun j => -q j) = -Spec.mean n q := by
      simp [Spec.mean, sum_neg_distrib, neg_div]
    unfold Spec.cov
    rw [hm, ← neg_div, ← sum_neg_distrib]
    congr 1
    apply sum_congr rfl
    intros
    ring
  have neg2 : ∀ p q : ℕ → ℝ, Spec.cov n (fun j => -p j) q = -Spec.cov n p q := by
    intro p q
    have hm : ∀ q : ℕ → ℝ, Spec.mean n (fun j => -q j) = -Spec.mean n q := by
      intro q
      simp [Spec.mean, sum_neg_distrib, neg_div]
    unfold Spec.cov
    rw [hm, ← neg_div, ← sum_neg_distrib]
    congr 1
    apply sum_congr rfl
    intros
    ring
  unfold calcStress4 beamOrder
  simp only [Spec.sigBeam, Matrix.cons_val_zero, Matrix.cons_val_one, Matrix.cons_val,
    beamVar_complete b n len hb hn hlen, bind, Except.bind, pure, Except.pure, zip2_range,
    pair_diff n _ _ _ _ _ hs hc, pair_diff' n _ _ _ _ _ hs hc, neg1, neg2, neg_neg, Spec.binCov]

/-- C59 for RDI instruments: `u'w'` is the covariance in the package's own instrument frame for both
orientations; `v'w'` is the covariance for the 'up' beam order and **minus the covariance** for the
'down' beam order. -/
theorem stress4_rdi (b : Binner) (n len : ℕ) (hb : b.nBin = n) (hn : 0 < n)
    (hlen : n ≤ len) (ang : ℝ) (noise : Option ℝ) (u v w : ℕ → ℝ)
    (hs : Real.sin (deg2rad ang) ≠ 0) (hc : Real.cos (deg2rad ang) ≠ 0) :
    calcStress4 b .trdi .up (some ang) noise len
      (fun i t => some (Spec.rdiBeam (deg2rad ang) (u t) (v t) (w t) i)) =
      .ok ((List.range (len / n)).map fun r => some (Spec.binCov n u w r),
        (List.range (len / n)).map fun r => some (Spec.binCov n v w r)) ∧
    calcStress4 b .trdi .down (some ang) noise len
      (fun i t => some (Spec.rdiBeam (deg2rad ang) (u t) (v t) (w t) i)) =
      .ok ((List.range (len / n)).map fun r => some (Spec.binCov n u w r),
        (List.range (len / n)).map fun r => some (-Spec.binCov n v w r)) := by
  constructor
  · unfold calcStress4 beamOrder
    simp only [Spec.rdiBeam, Matrix.cons_val_zero, Matrix.cons_val_one, Matrix.cons_val,
      beamVar_complete b n len hb hn hlen, bind, Except.bind, pure, Except.pure, zip2_range,
      pair_diff n _ _ _ _ _ hs hc]
    rfl
  · unfold calcStress4 beamOrder
    simp only [Spec.rdiBeam, Matrix.cons_val_zero, Matrix.cons_val_one, Matrix.cons_val,
      beamVar_complete b n len hb hn hlen, bind, Except.bind, pure, Except.pure, zip2_range,
      pair_diff n _ _ _ _ _ hs hc, pair_diff' n _ _ _ _ _ hs hc]
    rfl

/-- Without a beam angle, or for an unknown instrument or orientation, the function raises. -/
theorem stress4_errors (b : Binner) (noise : Option ℝ) (len : ℕ) (vel : Fin 4 → ℕ → Option ℝ)
    (ang : ℝ) (make : AdpMake) (o : Facing) :
    calcStress4 b make o none noise len vel = .error .exception ∧
    calcStress4 b .other o (some ang) noise len vel = .error .unboundLocal ∧
    calcStress4 b .trdi .neither (some ang) noise len vel = .error .exception ∧
    calcStress4 b .signature .neither (some ang) noise len vel = .error .exception :=
  ⟨rfl, rfl, rfl, rfl⟩

/-! ### C60 -/

/-- Along-beam variances of five beams in code order `(+x, -x, +y, -y, axis)` given the second
moments of the velocity in one bin. -/
noncomputable def Spec.fiveVars (th uu vv ww uw vw : ℝ) : Fin 5 → ℝ :=
  let s := Real.sin th
  let c := Real.cos th
  ![s ^ 2 * uu + 2 * s * c * uw + c ^ 2 * ww, s ^ 2 * uu - 2 * s * c * uw + c ^ 2 * ww,
    s ^ 2 * vv + 2 * s * c * vw + c ^ 2 * ww, s ^ 2 * vv - 2 * s * c * vw + c ^ 2 * ww, ww]

/-- `Spec.fiveVars` are the variances of the beams of an upward-facing Signature, in code order. -/
theorem fiveVars_spec (n : ℕ) (th : ℝ) (u v w : ℕ → ℝ) (i : Fin 4) :
    Spec.cov n (fun j => Spec.sigBeam th (u j) (v j) (w j) ((![0, 2, 3, 1] : Fin 4 → Fin 4) i))
      (fun j => Spec.sigBeam th (u j) (v j) (w j) ((![0, 2, 3, 1] : Fin 4 → Fin 4) i)) =
      Spec.fiveVars th (Spec.cov n u u) (Spec.cov n v v) (Spec.cov n w w) (Spec.cov n u w)
        (Spec.cov n v w) i.castSucc := by
  fin_cases i <;> simp [Spec.sigBeam, Spec.fiveVars] <;>
    simp only [← neg_mul, cov_self_lin] <;> ring

/-- C60 (partial: `u'u'`, `u'w'` and `v'w'` only): at zero tilt these three are exact for every
beam angle and all velocity statistics. -/
theorem five_beam_zero_tilt_partial (th uu vv ww uw vw uv : ℝ) (hs : Real.sin th ≠ 0)
    (hc : Real.cos th ≠ 0) :
    let r := fiveBeam th 0 0 uv (Spec.fiveVars th uu vv ww uw vw)
    r.upup = uu ∧ r.upwp = uw ∧ r.vpwp = vw := by
  simp only [fiveBeam, Spec.fiveVars, Matrix.cons_val_zero, Matrix.cons_val_one, Matrix.cons_val]
  refine ⟨?_, ?_, ?_⟩ <;> field_simp <;> ring

theorem getD_range_some (k r : ℕ) (hr : r < k) (f : ℕ → ℝ) :
    ((List.range k).map fun i => some (f i)).getD r none = some (f r) := by
  rw [List.getD_eq_getElem?_getD, List.getElem?_map, List.getElem?_range hr]
  rfl

/-- C60 (partial, whole function): for an upward-facing Signature with level mounting (pitch and
roll zero), no noise correction and at least two samples per bin, `calc_stress_5beam` returns one
result per bin, with `u'u'`, `u'w'` and `v'w'` equal to the (co)variances of that bin. -/
theorem stress5_level_partial (b : Binner) (n len : ℕ) (hb : b.nBin = n) (hn : 2 ≤ n)
    (hlen : n ≤ len) (ang : ℝ) (u v w : ℕ → ℝ)
    (hs : Real.sin (deg2rad ang) ≠ 0) (hc : Real.cos (deg2rad ang) ≠ 0) :
    ∃ out, calcStress5 b .signature .up (some ang) none len (fun _ => some 0) (fun _ => some 0)
        (fun i t => some (Spec.sigBeam (deg2rad ang) (u t) (v t) (w t) i))
        (some fun t => some (w t)) (fun t => some (u t)) (fun t => some (v t)) = .ok out ∧
      out.length = len / n ∧ ∀ r < len / n, ∃ f, out[r]? = some (some f) ∧
        f.upup = Spec.binCov n u u r ∧ f.upwp = Spec.binCov n u w r ∧
        f.vpwp = Spec.binCov n v w r := by
  have hn0 : 0 < n := by omega
  obtain ⟨mz, z1, _, z3⟩ := bin_mean_complete b len (fun _ => 0) none n (Or.inr ⟨rfl, hb⟩) hn0 hlen
  have fl : ∀ x : ℕ → ℝ, ∃ m, fluct b true len (fun i => some (x i)) = .ok m ∧ m.rows = len / n ∧
      m.cols = n ∧ ∀ r < len / n, ∀ j < n, ∃ y, m.at_ r j = some y := by
    intro x
    obtain ⟨m, h1, h2, h3, h4⟩ := reshape_no_pad (some 0) len (fun i => some (x i)) n hn0 hlen
    unfold fluct
    rw [hb, h1]
    refine ⟨_, rfl, h2, h3, fun r hr j hj => ?_⟩
    simp only [if_true, h3]
    obtain ⟨g, hg⟩ : ∃ g : ℕ → ℝ, ∀ j < n, m.at_ r j = some (g j) :=
      ⟨fun j => x (r * n + j), fun j hj => h4 r j (by omega) hj⟩
    have e := detrend_isSome_congr n (m.at_ r) (fun j => some (g j))
      (fun i hi => by rw [hg i hi]) j hj
    obtain ⟨y, hy⟩ : ∃ y, detrend n (fun j => some (g j)) j = some y :=
      ⟨_, detrend_some n hn g j⟩
    rw [hy] at e
    exact Option.isSome_iff_exists.mp e
  obtain ⟨fu, u1, u2, u3, u4⟩ := fl u
  obtain ⟨fv, v1, v2, v3, v4⟩ := fl v
  have huv : ∀ r < len / n, ∃ c, (rowProd fu fv).getD r none = some c := by
    intro r hr
    rw [List.getD_eq_getElem?_getD, rowProd_get fu fv r (by rw [u2]; exact hr), Option.getD_some,
      nanmean_vals, u3]
    have : (range n).filter (fun j => (opt2 (· * ·) (fu.at_ r j) (fv.at_ r j)).isSome) = range n := by
      rw [filter_eq_self]
      intro j hj
      obtain ⟨y, hy⟩ := u4 r hr j (mem_range.mp hj)
      obtain ⟨y', hy'⟩ := v4 r hr j (mem_range.mp hj)
      rw [hy, hy']
      rfl
    rw [this, card_range, if_neg (by omega)]
    exact ⟨_, rfl⟩
  unfold calcStress5 beamOrder tiltAngles
  simp only [Spec.sigBeam, Matrix.cons_val_zero, Matrix.cons_val_one, Matrix.cons_val,
    beamVar_complete b n len hb hn0 hlen, bind, Except.bind, pure, Except.pure, z1, u1, v1]
  refine ⟨_, rfl, by simp, fun r hr => ?_⟩
  have hr' : r < (List.map (fun r => some (Spec.cov n
      (fun j => Real.sin (deg2rad ang) * u (r * n + j) + Real.cos (deg2rad ang) * w (r * n + j))
      (fun j => Real.sin (deg2rad ang) * u (r * n + j) + Real.cos (deg2rad ang) * w (r * n + j)) -
      none.getD 0 ^ 2)) (List.range (len / n))).length := by simpa using hr
  obtain ⟨c, hc'⟩ := huv r hr
  have hz : mz[r]? = some (some 0) := by rw [z3 r hr]; simp
  rw [List.getElem?_map, List.getElem?_range hr', Option.map_some]
  simp only [getD_range_some _ r hr, hc', List.getD_eq_getElem?_getD, List.getElem?_map, hz,
    Option.map_some, Option.getD_some, Option.getD_none, fiveOpt, Matrix.cons_val_zero,
    Matrix.cons_val_one, Matrix.cons_val, deg2rad, zero_mul, neg_zero]
  refine ⟨_, rfl, ?_⟩
  have key := five_beam_zero_tilt_partial (deg2rad ang) (Spec.binCov n u u r) (Spec.binCov n v v r)
    (Spec.binCov n w w r) (Spec.binCov n u w r) (Spec.binCov n v w r) c hs hc
  have e5 : (![Spec.cov n
      (fun j => Real.sin (ang * (Real.pi / 180)) * u (r * n + j) +
        Real.cos (ang * (Real.pi / 180)) * w (r * n + j))
      (fun j => Real.sin (ang * (Real.pi / 180)) * u (r * n + j) +
        Real.cos (ang * (Real.pi / 180)) * w (r * n + j)) - 0 ^ 2,
      Spec.cov n
      (fun j => -Real.sin (ang * (Real.pi / 180)) * u (r * n + j) +
        Real.cos (ang * (Real.pi / 180)) * w (r * n + j))
      (fun j => -Real.sin (ang * (Real.pi / 180)) * u (r * n + j) +
        Real.cos (ang * (Real.pi / 180)) * w (r * n + j)) - 0 ^ 2,
      Spec.cov n
      (fun j => Real.sin (ang * (Real.pi / 180)) * v (r * n + j) +
        Real.cos (ang * (Real.pi / 180)) * w (r * n + j))
      (fun j => Real.sin (ang * (Real.pi / 180)) * v (r * n + j) +
        Real.cos (ang * (Real.pi / 180)) * w (r * n + j)) - 0 ^ 2,
      Spec.cov n
      (fun j => -Real.sin (ang * (Real.pi / 180)) * v (r * n + j) +
        Real.cos (ang * (Real.pi / 180)) * w (r * n + j))
      (fun j => -Real.sin (ang * (Real.pi / 180)) * v (r * n + j) +
        Real.cos (ang * (Real.pi / 180)) * w (r * n + j)) - 0 ^ 2,
      Spec.cov n (fun j => w (r * n + j)) (fun j => w (r * n + j)) - 0 ^ 2] : Fin 5 → ℝ) =
      Spec.fiveVars (deg2rad ang) (Spec.binCov n u u r) (Spec.binCov n v v r)
        (Spec.binCov n w w r) (Spec.binCov n u w r) (Spec.binCov n v w r) := by
    funext i
    fin_cases i <;> simp [Spec.fiveVars, Spec.binCov, deg2rad] <;>
      simp only [← neg_mul, cov_self_lin] <;> ring
  rw [e5]
  exact key

/-- C60 is false for `v'v'`: at zero tilt the code returns the average of `u'u'` and `v'v'` plus
cross terms (it uses beam 1 in place of the second y-beam). -/
theorem five_beam_vpvp (th uu vv ww uw vw uv : ℝ) (hs : Real.sin th ≠ 0) (hc : Real.cos th ≠ 0) :
    (fiveBeam th 0 0 uv (Spec.fiveVars th uu vv ww uw vw)).vpvp =
      (uu + vv) / 2 + Real.cos th / Real.sin th * (uw - vw) := by
  simp only [fiveBeam, Spec.fiveVars, Matrix.cons_val_zero, Matrix.cons_val_one, Matrix.cons_val]
  field_simp
  ring

/-- C60 is false for `w'w'`: at zero tilt the code returns a combination that is negative whenever
`u'w'` is zero and `w'w'` positive (a misplaced parenthesis). -/
theorem five_beam_wpwp (th uu vv ww uw vw uv : ℝ) (hs : Real.sin th ≠ 0) (hc : Real.cos th ≠ 0) :
    (fiveBeam th 0 0 uv (Spec.fiveVars th uu vv ww uw vw)).wpwp =
      -2 * uw - 2 * Real.sin th ^ 5 * Real.cos th * ww := by
  simp only [fiveBeam, Spec.fiveVars, Matrix.cons_val_zero, Matrix.cons_val_one, Matrix.cons_val]
  field_simp
  ring

/-- Witness for both failures at a beam angle of 30°: isotropic-like statistics with unequal
variances. -/
theorem five_beam_false : ∃ th uu vv ww uw vw uv : ℝ, 0 < uu ∧ 0 < vv ∧ 0 < ww ∧
    (fiveBeam th 0 0 uv (Spec.fiveVars th uu vv ww uw vw)).vpvp ≠ vv ∧
    (fiveBeam th 0 0 uv (Spec.fiveVars th uu vv ww uw vw)).wpwp < 0 := by
  have h1 : Real.sin (Real.pi / 6) ≠ 0 := by rw [Real.sin_pi_div_six]; norm_num
  have h2 : 0 < Real.cos (Real.pi / 6) := by rw [Real.cos_pi_div_six]; positivity
  refine ⟨Real.pi / 6, 2, 1, 1, 0, 0, 0, by norm_num, by norm_num, by norm_num, ?_, ?_⟩
  · rw [five_beam_vpvp _ _ _ _ _ _ _ h1 h2.ne']
    norm_num
  · rw [five_beam_wpwp _ _ _ _ _ _ _ h1 h2.ne', Real.sin_pi_div_six]
    nlinarith

example : Real.sin (deg2rad 25) ≠ 0 ∧ Real.cos (deg2rad 25) ≠ 0 := by
  have := Real.pi_pos
  unfold deg2rad
  exact ⟨(Real.sin_pos_of_pos_of_lt_pi (by linarith) (by linarith)).ne',
    (Real.cos_pos_of_mem_Ioo ⟨by linarith, by linarith⟩).ne'⟩

end Dolfyn
