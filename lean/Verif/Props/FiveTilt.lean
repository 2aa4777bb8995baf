import Verif.Props.BeamStress
import Verif.Props.PsdNan
import Mathlib.Analysis.SpecialFunctions.Trigonometric.Deriv
import Mathlib.Analysis.SpecialFunctions.Trigonometric.ArctanDeriv

/-! C138: the tilt correction of the five-beam stresses. -/

namespace Dolfyn

open Finset

/-! ### The formulas for any record -/

/-- Angle of rotation of the instrument about its x axis as the code takes it: mean pitch for TRDI
instruments, mean roll for Signatures. -/
noncomputable def Spec.tiltX : AdpMake → ℝ → ℝ → ℝ
  | .trdi, p, _ => deg2rad p
  | .signature, _, r => deg2rad r
  | .other, _, _ => 0

/-- Angle about the y axis: mean roll for TRDI instruments, minus mean pitch for Signatures. -/
noncomputable def Spec.tiltY : AdpMake → ℝ → ℝ → ℝ
  | .trdi, _, r => deg2rad r
  | .signature, p, _ => -deg2rad p
  | .other, _, _ => 0

/-- Record without its least-squares line. -/
noncomputable def Spec.noTrend (n : ℕ) (v : ℕ → ℝ) (i : ℕ) : ℝ :=
  v i - Spec.mean n v -
    (∑ j ∈ range n, ((j : ℝ) - Spec.mean n fun k => (k : ℝ)) * (v j - Spec.mean n v)) /
      (∑ j ∈ range n, ((j : ℝ) - Spec.mean n fun k => (k : ℝ)) * (j - Spec.mean n fun k => (k : ℝ))) *
      (i - Spec.mean n fun k => (k : ℝ))

/-- Covariance of two records in bin `r` after removal of their trends. -/
noncomputable def Spec.trendCov (n : ℕ) (p q : ℕ → ℝ) (r : ℕ) : ℝ :=
  (∑ j ∈ range n, Spec.noTrend n (fun i => p (r * n + i)) j *
    Spec.noTrend n (fun i => q (r * n + i)) j) / n

/-- Fluctuations of a complete record. -/
theorem fluct_complete (b : Binner) (n len : ℕ) (hb : b.nBin = n) (hn : 2 ≤ n) (hlen : n ≤ len)
    (x : ℕ → ℝ) : ∃ m, fluct b true len (fun i => some (x i)) = .ok m ∧ m.rows = len / n ∧
      m.cols = n ∧ ∀ r < len / n, ∀ j < n,
        m.at_ r j = some (Spec.noTrend n (fun i => x (r * n + i)) j) := by
  have hn0 : 0 < n := by omega
  obtain ⟨m, h1, h2, h3, h4⟩ := reshape_no_pad (some 0) len (fun i => some (x i)) n hn0 hlen
  unfold fluct
  rw [hb, h1]
  refine ⟨_, rfl, h2, h3, fun r hr j hj => ?_⟩
  simp only [if_true, h3]
  have e := detrend_congr n (m.at_ r) (fun j => some (x (r * n + j)))
    (fun i hi => h4 r i (by omega) hi) j hj
  rw [e]
  exact detrend_some n hn (fun i => x (r * n + i)) j

/-- The stress of two complete records. -/
theorem rowProd_complete {k n : ℕ} (hn : 0 < n) {fu fv : Mat2 (Option ℝ)} {x y : ℕ → ℕ → ℝ}
    (u2 : fu.rows = k) (u3 : fu.cols = n) (u4 : ∀ r < k, ∀ j < n, fu.at_ r j = some (x r j))
    (v4 : ∀ r < k, ∀ j < n, fv.at_ r j = some (y r j)) (r : ℕ) (hr : r < k) :
    (rowProd fu fv).getD r none = some ((∑ j ∈ range n, x r j * y r j) / n) := by
  rw [List.getD_eq_getElem?_getD, rowProd_get fu fv r (by rw [u2]; exact hr), Option.getD_some, u3]
  have : vals n (fun j => opt2 (· * ·) (fu.at_ r j) (fv.at_ r j)) =
      vals n fun j => some (x r j * y r j) := by
    unfold vals
    apply List.map_congr_left
    intro j hj
    rw [u4 r hr j (List.mem_range.mp hj), v4 r hr j (List.mem_range.mp hj)]
    rfl
  rw [this, nanmean_some n hn]

/-- **C138, the formulas.** For complete records and at least two samples per bin the five-beam
function returns one result per bin; it evaluates the formulas with the variances of the beams of
that bin less the squared noise, and the mean tilt of that bin and the covariance of the
detrended horizontal components, for both makes and both orientations. -/
theorem stress5_formula (b : Binner) (n len : ℕ) (hb : b.nBin = n) (hn : 2 ≤ n) (hlen : n ≤ len)
    (make : AdpMake) (o : Facing) (ord : Fin 4 → Fin 4) (hord : beamOrder make o = .ok ord)
    (ang : ℝ) (noise : Option ℝ) (pitch roll : ℕ → ℝ) (beam : Fin 4 → ℕ → ℝ) (ax u v : ℕ → ℝ) :
    ∃ out, calcStress5 b make o (some ang) noise len (fun t => some (pitch t))
        (fun t => some (roll t)) (fun i t => some (beam i t)) (some fun t => some (ax t))
        (fun t => some (u t)) (fun t => some (v t)) = .ok out ∧
      out.length = len / n ∧ ∀ r < len / n, out[r]? = some (some
        (fiveBeam (deg2rad ang)
          (Spec.tiltX make (Spec.mean n fun j => pitch (r * n + j))
            (Spec.mean n fun j => roll (r * n + j)))
          (Spec.tiltY make (Spec.mean n fun j => pitch (r * n + j))
            (Spec.mean n fun j => roll (r * n + j))) (Spec.trendCov n u v r)
          ![Spec.binCov n (beam (ord 0)) (beam (ord 0)) r - noise.getD 0 ^ 2,
            Spec.binCov n (beam (ord 1)) (beam (ord 1)) r - noise.getD 0 ^ 2,
            Spec.binCov n (beam (ord 2)) (beam (ord 2)) r - noise.getD 0 ^ 2,
            Spec.binCov n (beam (ord 3)) (beam (ord 3)) r - noise.getD 0 ^ 2,
            Spec.binCov n ax ax r - noise.getD 0 ^ 2])) := by
  have hn0 : 0 < n := by omega
  obtain ⟨mp, p1, _, p3⟩ := bin_mean_complete b len pitch none n (Or.inr ⟨rfl, hb⟩) hn0 hlen
  obtain ⟨mr, r1, _, r3⟩ := bin_mean_complete b len roll none n (Or.inr ⟨rfl, hb⟩) hn0 hlen
  obtain ⟨fu, u1, u2, u3, u4⟩ := fluct_complete b n len hb hn hlen u
  obtain ⟨fv, v1, v2, v3, v4⟩ := fluct_complete b n len hb hn hlen v
  have huv := rowProd_complete hn0 u2 u3 u4 v4
  have ht : tiltAngles b make len (fun t => some (pitch t)) (fun t => some (roll t)) =
      match make with
      | .trdi => .ok (mp.map (Option.map deg2rad), mr.map (Option.map deg2rad))
      | .signature => .ok (mr.map (Option.map deg2rad),
          (mp.map (Option.map deg2rad)).map (Option.map fun x => -x))
      | .other => .error .unboundLocal := by
    unfold tiltAngles
    rw [p1, r1]
    cases make <;> rfl
  obtain ⟨t2, t3, ht', hg⟩ : ∃ t2 t3, tiltAngles b make len (fun t => some (pitch t))
      (fun t => some (roll t)) = .ok (t2, t3) ∧ ∀ r < len / n,
      t2.getD r none = some (Spec.tiltX make (Spec.mean n fun j => pitch (r * n + j))
            (Spec.mean n fun j => roll (r * n + j))) ∧
      t3.getD r none = some (Spec.tiltY make (Spec.mean n fun j => pitch (r * n + j))
            (Spec.mean n fun j => roll (r * n + j))) := by
    rw [ht]
    cases make with
    | trdi =>
      refine ⟨_, _, rfl, fun r hr => ?_⟩
      simp only [List.getD_eq_getElem?_getD, List.getElem?_map, p3 r hr, r3 r hr, Option.map_some,
        Option.getD_some]
      exact ⟨rfl, rfl⟩
    | signature =>
      refine ⟨_, _, rfl, fun r hr => ?_⟩
      simp only [List.getD_eq_getElem?_getD, List.getElem?_map, p3 r hr, r3 r hr, Option.map_some,
        Option.getD_some]
      exact ⟨rfl, rfl⟩
    | other => cases o <;> cases hord
  unfold calcStress5
  simp only [hord, ht', beamVar_complete b n len hb hn0 hlen, bind, Except.bind, pure, Except.pure,
    u1, v1]
  refine ⟨_, rfl, by simp, fun r hr => ?_⟩
  have hc' := huv r hr
  obtain ⟨g2, g3⟩ := hg r hr
  rw [List.getElem?_map, List.getElem?_range (by simpa using hr), Option.map_some]
  simp only [getD_range_some _ r hr, hc', g2, g3, fiveOpt, Matrix.cons_val_zero,
    Matrix.cons_val_one, Matrix.cons_val]
  rfl

/-! ### Small tilts -/

/-- Closed form of the results in terms of the second moments in the frame of the instrument. -/
theorem five_beam_closed (th phi2 phi3 uv uu vv ww uw vw : ℝ) (hs : Real.sin th ≠ 0)
    (hc : Real.cos th ≠ 0) :
    let r := fiveBeam th phi2 phi3 uv (Spec.fiveVars th uu vv ww uw vw)
    r.upup = uu + 2 * phi3 * uw ∧
    r.upwp = uw - 2 / Real.cos th * phi3 * (uu - ww) + 2 / Real.cos th * phi2 * uv ∧
    r.vpwp = vw + 2 / Real.cos th * phi2 * (vv - ww) - 2 / Real.cos th * phi3 * uv := by
  have h2 : Real.cos th ^ 2 = 1 - Real.sin th ^ 2 := by
    have := Real.sin_sq_add_cos_sq th
    linarith
  simp only [fiveBeam, Spec.fiveVars, Matrix.cons_val_zero, Matrix.cons_val_one, Matrix.cons_val]
  refine ⟨?_, ?_, ?_⟩
  · field_simp
    ring
  · field_simp
    rw [show Real.cos th ^ 2 = 1 - Real.sin th ^ 2 from h2]
    ring
  · field_simp
    rw [show Real.cos th ^ 2 = 1 - Real.sin th ^ 2 from h2]
    ring

/-- Second moments after turning the frame. -/
noncomputable def Spec.turned (O C : M3) : M3 := O * C * O.transpose

/-- Velocity of the frame turned by the small angles `a2` about x and `a3` about y, per unit tilt. -/
def Spec.gen (a2 a3 : ℝ) : M3 := !![0, 0, -a3; 0, 0, a2; a3, -a2, 0]

theorem turned_deriv (O : ℝ → M3) (C : M3) (hC : C.transpose = C) (a2 a3 : ℝ) (h0 : O 0 = 1)
    (hO : ∀ i j, HasDerivAt (fun t => O t i j) (Spec.gen a2 a3 i j) 0) (i j : Fin 3) :
    HasDerivAt (fun t => Spec.turned (O t) C i j)
      ((Spec.gen a2 a3 * C) i j + (Spec.gen a2 a3 * C) j i) 0 := by
  have hsum : ∀ t, Spec.turned (O t) C i j = ∑ l, (∑ k, O t i k * C k l) * O t j l := by
    intro t
    simp [Spec.turned, Matrix.mul_apply]
  simp only [hsum]
  have h1 : ∀ l, HasDerivAt (fun t => (∑ k, O t i k * C k l) * O t j l)
      ((∑ k, Spec.gen a2 a3 i k * C k l) * O 0 j l + (∑ k, O 0 i k * C k l) * Spec.gen a2 a3 j l)
      0 := by
    intro l
    refine HasDerivAt.mul ?_ (hO j l)
    exact HasDerivAt.fun_sum fun k _ => (hO i k).mul_const _
  refine (HasDerivAt.fun_sum fun l _ => h1 l).congr_deriv ?_
  have hC' : ∀ a b, C a b = C b a := fun a b => by
    conv_lhs => rw [← hC]
    rfl
  rw [h0, Finset.sum_add_distrib]
  congr 1
  · simp [Matrix.one_apply, Matrix.mul_apply]
  · simp only [Matrix.one_apply, ite_mul, one_mul, zero_mul, Finset.sum_ite_eq, Finset.mem_univ,
      if_true, Matrix.mul_apply]
    apply Finset.sum_congr rfl
    intro l _
    rw [hC' i l, mul_comm]

/-- Rates of change of the results with the tilt: `a2`, `a3` the actual rates of turning, `d2`, `d3`
the rates of the reported angles, `c` the covariance of the horizontal components. -/
theorem five_tilt_rates (th a2 a3 d2 d3 : ℝ) (hs : Real.sin th ≠ 0) (hc : Real.cos th ≠ 0)
    (O : ℝ → M3) (C : M3) (hC : C.transpose = C) (h0 : O 0 = 1)
    (hO : ∀ i j, HasDerivAt (fun t => O t i j) (Spec.gen a2 a3 i j) 0) (phi2 phi3 c : ℝ → ℝ)
    (h2 : HasDerivAt phi2 d2 0) (h20 : phi2 0 = 0) (h3 : HasDerivAt phi3 d3 0) (h30 : phi3 0 = 0)
    (e : ℝ) (hcc : HasDerivAt c e 0) :
    let T := fun t => Spec.turned (O t) C
    let f := fun t => fiveBeam th (phi2 t) (phi3 t) (c t)
      (Spec.fiveVars th (T t 0 0) (T t 1 1) (T t 2 2) (T t 0 2) (T t 1 2))
    HasDerivAt (fun t => (f t).upup) (2 * (d3 - a3) * C 0 2) 0 ∧
    HasDerivAt (fun t => (f t).upwp) ((a3 - 2 / Real.cos th * d3) * (C 0 0 - C 2 2) -
      (a2 * C 0 1 - 2 / Real.cos th * d2 * c 0)) 0 ∧
    HasDerivAt (fun t => (f t).vpwp) ((2 / Real.cos th * d2 - a2) * (C 1 1 - C 2 2) +
      (a3 * C 0 1 - 2 / Real.cos th * d3 * c 0)) 0 := by
  intro T f
  have hT := turned_deriv O C hC a2 a3 h0 hO
  have hC' : ∀ a b, C a b = C b a := fun a b => by
    conv_lhs => rw [← hC]
    rfl
  have hT0 : ∀ i j, Spec.turned (O 0) C i j = C i j := by
    intro i j
    rw [h0, Spec.turned]
    simp
  have hcl := fun t => five_beam_closed th (phi2 t) (phi3 t) (c t) (T t 0 0) (T t 1 1) (T t 2 2)
    (T t 0 2) (T t 1 2) hs hc
  refine ⟨?_, ?_, ?_⟩
  · have e1 : (fun t => (f t).upup) = fun t => T t 0 0 + 2 * phi3 t * T t 0 2 :=
      funext fun t => (hcl t).1
    rw [e1]
    refine ((hT 0 0).add ((h3.const_mul 2).mul (hT 0 2))).congr_deriv ?_
    simp only [h30, hT0, Spec.gen, Matrix.mul_apply, Fin.sum_univ_three]
    simp
    rw [hC' 2 0]
    ring
  · have e1 : (fun t => (f t).upwp) = fun t => T t 0 2 - 2 / Real.cos th * phi3 t *
        (T t 0 0 - T t 2 2) + 2 / Real.cos th * phi2 t * c t := funext fun t => (hcl t).2.1
    rw [e1]
    refine (((hT 0 2).sub ((h3.const_mul (2 / Real.cos th)).mul ((hT 0 0).sub (hT 2 2)))).add
      ((h2.const_mul (2 / Real.cos th)).mul hcc)).congr_deriv ?_
    simp only [h20, h30, hT0, Spec.gen, Matrix.mul_apply, Fin.sum_univ_three]
    simp only [hC' 1 0, hC' 2 0, hC' 2 1]
    simp [hT0]
    ring
  · have e1 : (fun t => (f t).vpwp) = fun t => T t 1 2 + 2 / Real.cos th * phi2 t *
        (T t 1 1 - T t 2 2) - 2 / Real.cos th * phi3 t * c t := funext fun t => (hcl t).2.2
    rw [e1]
    refine (((hT 1 2).add ((h2.const_mul (2 / Real.cos th)).mul ((hT 1 1).sub (hT 2 2)))).sub
      ((h3.const_mul (2 / Real.cos th)).mul hcc)).congr_deriv ?_
    simp only [h20, h30, hT0, Spec.gen, Matrix.mul_apply, Fin.sum_univ_three]
    simp only [hC' 1 0, hC' 2 0, hC' 2 1]
    simp [hT0]
    ring

/-- Orientation of a Signature relative to the level instrument with the same heading, from the
orientation matrix of the package. -/
noncomputable def Spec.sigTilt (h p r : ℝ) : M3 :=
  nortekOrient h p r * (nortekOrient h 0 0).transpose

theorem sigTilt_eq (h p r : ℝ) : Spec.sigTilt h p r = nortekOrient 90 p r := by
  have e : Real.pi / 2 - deg2rad 90 = 0 := by unfold deg2rad; ring
  have e0 : deg2rad 0 = 0 := by simp [deg2rad]
  have hp := Real.sin_sq_add_cos_sq (Real.pi / 2 - deg2rad h)
  unfold Spec.sigTilt nortekOrient
  simp only [e, e0, Real.cos_zero, Real.sin_zero]
  generalize Real.pi / 2 - deg2rad h = y at hp
  ext i j
  fin_cases i <;> fin_cases j <;>
    simp [Matrix.mul_apply, Fin.sum_univ_three] <;> grind

theorem deriv_sin_mul (a : ℝ) : HasDerivAt (fun t => Real.sin (deg2rad (t * a))) (deg2rad a) 0 := by
  have h1 : HasDerivAt (fun t => deg2rad (t * a)) (deg2rad a) 0 := by
    unfold deg2rad
    simpa using ((hasDerivAt_id (0 : ℝ)).mul_const a).mul_const (Real.pi / 180)
  refine h1.sin.congr_deriv ?_
  simp [deg2rad]

theorem deriv_cos_mul (a : ℝ) : HasDerivAt (fun t => Real.cos (deg2rad (t * a))) 0 0 := by
  have h1 : HasDerivAt (fun t => deg2rad (t * a)) (deg2rad a) 0 := by
    unfold deg2rad
    simpa using ((hasDerivAt_id (0 : ℝ)).mul_const a).mul_const (Real.pi / 180)
  refine h1.cos.congr_deriv ?_
  simp [deg2rad]

/-- A Signature tilted by a small pitch and roll turns by the roll about x and by minus the pitch
about y. -/
theorem sigTilt_deriv (h p r : ℝ) (i j : Fin 3) :
    HasDerivAt (fun t => Spec.sigTilt h (t * p) (t * r) i j)
      (Spec.gen (deg2rad r) (-deg2rad p) i j) 0 := by
  have e : Real.pi / 2 - deg2rad 90 = 0 := by unfold deg2rad; ring
  have e0 : deg2rad 0 = 0 := by simp [deg2rad]
  simp only [sigTilt_eq, nortekOrient, e, Real.cos_zero, Real.sin_zero]
  have sp := deriv_sin_mul p
  have cp := deriv_cos_mul p
  have sr := deriv_sin_mul r
  have cr := deriv_cos_mul r
  fin_cases i <;> fin_cases j <;> simp [Spec.gen]
  · exact cp
  · exact hasDerivAt_const _ _
  · exact sp
  · exact (sp.mul sr).neg.congr_deriv (by simp [e0])
  · exact cr
  · exact (sr.mul cp).congr_deriv (by simp [e0])
  · exact (cr.mul sp).neg.congr_deriv (by simp [e0])
  · exact sr.neg
  · exact (cp.mul cr).congr_deriv (by simp [e0])

theorem mean_sum3 (n : ℕ) (a : Fin 3 → ℝ) (x : Fin 3 → ℕ → ℝ) :
    Spec.mean n (fun j => ∑ k, a k * x k j) = ∑ k, a k * Spec.mean n (x k) := by
  unfold Spec.mean
  simp only [Fin.sum_univ_three, sum_add_distrib, ← mul_sum]
  ring

theorem prod_sum3 (n : ℕ) (a b : Fin 3 → ℝ) (x y : Fin 3 → ℕ → ℝ) :
    (∑ j ∈ range n, (∑ k, a k * x k j) * ∑ l, b l * y l j) / n =
      ∑ k, ∑ l, a k * b l * ((∑ j ∈ range n, x k j * y l j) / n) := by
  have e : ∀ j, (∑ k, a k * x k j) * (∑ l, b l * y l j) =
      ∑ k, ∑ l, a k * b l * (x k j * y l j) := by
    intro j
    simp only [Fin.sum_univ_three]
    ring
  simp only [e]
  rw [sum_comm, sum_div]
  apply Finset.sum_congr rfl
  intro k _
  rw [sum_comm, sum_div]
  apply Finset.sum_congr rfl
  intro l _
  rw [← mul_sum]
  ring

/-- Components in a turned frame. -/
noncomputable def Spec.tilted (O : M3) (x : Fin 3 → ℕ → ℝ) (i : Fin 3) (t : ℕ) : ℝ :=
  ∑ k, O i k * x k t

/-- Second moments of the components in bin `q`. -/
noncomputable def Spec.moments (n : ℕ) (x : Fin 3 → ℕ → ℝ) (q : ℕ) : M3 :=
  Matrix.of fun k l => Spec.binCov n (x k) (x l) q

theorem moments_symm (n : ℕ) (x : Fin 3 → ℕ → ℝ) (q : ℕ) :
    (Spec.moments n x q).transpose = Spec.moments n x q := by
  ext k l
  simp only [Spec.moments, Matrix.transpose_apply, Matrix.of_apply, Spec.binCov, Spec.cov]
  congr 1
  apply Finset.sum_congr rfl
  intros
  ring

/-- Second moments turn with the frame. -/
theorem tilted_moments (n : ℕ) (O : M3) (x : Fin 3 → ℕ → ℝ) (q : ℕ) (i j : Fin 3) :
    Spec.binCov n (Spec.tilted O x i) (Spec.tilted O x j) q =
      Spec.turned O (Spec.moments n x q) i j := by
  unfold Spec.binCov Spec.cov Spec.tilted
  rw [mean_sum3 n (O i) (fun k m => x k (q * n + m)), mean_sum3 n (O j) (fun k m => x k (q * n + m))]
  simp only [← Finset.sum_sub_distrib, ← mul_sub]
  rw [prod_sum3 n (O i) (O j) (fun k m => x k (q * n + m) - Spec.mean n fun m => x k (q * n + m))
    (fun k m => x k (q * n + m) - Spec.mean n fun m => x k (q * n + m))]
  simp only [Spec.turned, Matrix.mul_apply, Matrix.transpose_apply, Spec.moments, Matrix.of_apply,
    Spec.binCov, Spec.cov, Fin.sum_univ_three]
  ring

theorem noTrend_sum3 (n : ℕ) (a : Fin 3 → ℝ) (x : Fin 3 → ℕ → ℝ) (i : ℕ) :
    Spec.noTrend n (fun j => ∑ k, a k * x k j) i = ∑ k, a k * Spec.noTrend n (x k) i := by
  unfold Spec.noTrend
  rw [mean_sum3]
  have e : ∀ j : ℕ, ((j : ℝ) - Spec.mean n fun k => (k : ℝ)) *
      (∑ k, a k * x k j - ∑ k, a k * Spec.mean n (x k)) =
      a 0 * (((j : ℝ) - Spec.mean n fun k => (k : ℝ)) * (x 0 j - Spec.mean n (x 0))) +
      a 1 * (((j : ℝ) - Spec.mean n fun k => (k : ℝ)) * (x 1 j - Spec.mean n (x 1))) +
      a 2 * (((j : ℝ) - Spec.mean n fun k => (k : ℝ)) * (x 2 j - Spec.mean n (x 2))) := by
    intro j
    simp only [Fin.sum_univ_three]
    ring
  rw [sum_congr rfl fun j _ => e j, sum_add_distrib, sum_add_distrib, ← mul_sum, ← mul_sum,
    ← mul_sum]
  simp only [Fin.sum_univ_three]
  generalize (∑ j ∈ range n, ((j : ℝ) - Spec.mean n fun k => (k : ℝ)) *
    (j - Spec.mean n fun k => (k : ℝ))) = d
  generalize (∑ j ∈ range n, ((j : ℝ) - Spec.mean n fun k => (k : ℝ)) *
    (x 0 j - Spec.mean n (x 0))) = s0
  generalize (∑ j ∈ range n, ((j : ℝ) - Spec.mean n fun k => (k : ℝ)) *
    (x 1 j - Spec.mean n (x 1))) = s1
  generalize (∑ j ∈ range n, ((j : ℝ) - Spec.mean n fun k => (k : ℝ)) *
    (x 2 j - Spec.mean n (x 2))) = s2
  ring

/-- So do the moments of the detrended components. -/
theorem tilted_trendCov (n : ℕ) (O : M3) (x : Fin 3 → ℕ → ℝ) (q : ℕ) (i j : Fin 3) :
    Spec.trendCov n (Spec.tilted O x i) (Spec.tilted O x j) q =
      ∑ k, ∑ l, O i k * O j l * Spec.trendCov n (x k) (x l) q := by
  unfold Spec.trendCov Spec.tilted
  simp only [noTrend_sum3 n (O i) (fun k m => x k (q * n + m)),
    noTrend_sum3 n (O j) (fun k m => x k (q * n + m))]
  rw [prod_sum3]

theorem mean_const (n : ℕ) (hn : 0 < n) (a : ℝ) : Spec.mean n (fun _ => a) = a := by
  unfold Spec.mean
  rw [sum_const, card_range, nsmul_eq_mul]
  field_simp

/-- Beams in code order: the variances of the five beams of an instrument whose beams `ord` are
`(+x, -x, +y, -y)`. -/
structure Spec.Arranged (th : ℝ) (beam : ℝ → ℝ → ℝ → Fin 4 → ℝ) (ord : Fin 4 → Fin 4) : Prop where
  b0 : ∀ X Y Z, beam X Y Z (ord 0) = Real.sin th * X + Real.cos th * Z
  b1 : ∀ X Y Z, beam X Y Z (ord 1) = -Real.sin th * X + Real.cos th * Z
  b2 : ∀ X Y Z, beam X Y Z (ord 2) = Real.sin th * Y + Real.cos th * Z
  b3 : ∀ X Y Z, beam X Y Z (ord 3) = -Real.sin th * Y + Real.cos th * Z

/-- Variances of the beams of an instrument in terms of the moments of the velocity. -/
theorem arranged_vars {th : ℝ} {beam : ℝ → ℝ → ℝ → Fin 4 → ℝ} {ord : Fin 4 → Fin 4}
    (h : Spec.Arranged th beam ord) (n : ℕ) (X Y Z : ℕ → ℝ) (q : ℕ) :
    ![Spec.binCov n (fun t => beam (X t) (Y t) (Z t) (ord 0))
        (fun t => beam (X t) (Y t) (Z t) (ord 0)) q - 0 ^ 2,
      Spec.binCov n (fun t => beam (X t) (Y t) (Z t) (ord 1))
        (fun t => beam (X t) (Y t) (Z t) (ord 1)) q - 0 ^ 2,
      Spec.binCov n (fun t => beam (X t) (Y t) (Z t) (ord 2))
        (fun t => beam (X t) (Y t) (Z t) (ord 2)) q - 0 ^ 2,
      Spec.binCov n (fun t => beam (X t) (Y t) (Z t) (ord 3))
        (fun t => beam (X t) (Y t) (Z t) (ord 3)) q - 0 ^ 2, Spec.binCov n Z Z q - 0 ^ 2] =
      Spec.fiveVars th (Spec.binCov n X X q) (Spec.binCov n Y Y q) (Spec.binCov n Z Z q)
        (Spec.binCov n X Z q) (Spec.binCov n Y Z q) := by
  unfold Spec.binCov
  simp only [h.b0, h.b1, h.b2, h.b3, cov_self_lin, Spec.fiveVars]
  funext i
  fin_cases i <;> simp <;> ring

/-- An instrument with a fifth beam that is tilted by `t` times a given pitch and roll: in every bin the
results are those of the formulas, and their rates of change with `t` at zero tilt are known. -/
theorem stress5_rates (b : Binner) (n len : ℕ) (hb : b.nBin = n) (hn : 2 ≤ n) (hlen : n ≤ len)
    (make : AdpMake) (o : Facing) (ord : Fin 4 → Fin 4) (hord : beamOrder make o = .ok ord)
    (ang : ℝ) (hs : Real.sin (deg2rad ang) ≠ 0) (hc : Real.cos (deg2rad ang) ≠ 0)
    (beam : ℝ → ℝ → ℝ → Fin 4 → ℝ) (harr : Spec.Arranged (deg2rad ang) beam ord)
    (p r a2 a3 : ℝ) (O : ℝ → M3) (h0 : O 0 = 1)
    (hO : ∀ i j, HasDerivAt (fun t => O t i j) (Spec.gen a2 a3 i j) 0) (x : Fin 3 → ℕ → ℝ) :
    ∃ f : ℕ → ℝ → Five, (∀ t, ∃ out, calcStress5 b make o (some ang) none len
        (fun _ => some (t * p)) (fun _ => some (t * r))
        (fun i m => some (beam (Spec.tilted (O t) x 0 m) (Spec.tilted (O t) x 1 m)
          (Spec.tilted (O t) x 2 m) i)) (some fun m => some (Spec.tilted (O t) x 2 m))
        (fun m => some (Spec.tilted (O t) x 0 m)) (fun m => some (Spec.tilted (O t) x 1 m)) =
          .ok out ∧ out.length = len / n ∧ ∀ q < len / n, out[q]? = some (some (f q t))) ∧
      ∀ q, (f q 0).upup = Spec.binCov n (x 0) (x 0) q ∧
        (f q 0).upwp = Spec.binCov n (x 0) (x 2) q ∧ (f q 0).vpwp = Spec.binCov n (x 1) (x 2) q ∧
        HasDerivAt (fun t => (f q t).upup)
          (2 * (Spec.tiltY make p r - a3) * Spec.binCov n (x 0) (x 2) q) 0 ∧
        HasDerivAt (fun t => (f q t).upwp)
          ((a3 - 2 / Real.cos (deg2rad ang) * Spec.tiltY make p r) *
            (Spec.binCov n (x 0) (x 0) q - Spec.binCov n (x 2) (x 2) q) -
          (a2 * Spec.binCov n (x 0) (x 1) q - 2 / Real.cos (deg2rad ang) * Spec.tiltX make p r *
            Spec.trendCov n (x 0) (x 1) q)) 0 ∧
        HasDerivAt (fun t => (f q t).vpwp)
          ((2 / Real.cos (deg2rad ang) * Spec.tiltX make p r - a2) *
            (Spec.binCov n (x 1) (x 1) q - Spec.binCov n (x 2) (x 2) q) +
          (a3 * Spec.binCov n (x 0) (x 1) q - 2 / Real.cos (deg2rad ang) * Spec.tiltY make p r *
            Spec.trendCov n (x 0) (x 1) q)) 0 := by
  have hn0 : 0 < n := by omega
  have hmul : ∀ a t : ℝ, deg2rad (t * a) = t * deg2rad a := fun a t => by unfold deg2rad; ring
  have tX : ∀ t, Spec.tiltX make (t * p) (t * r) = t * Spec.tiltX make p r := by
    intro t
    cases make <;> simp [Spec.tiltX, hmul]
  have tY : ∀ t, Spec.tiltY make (t * p) (t * r) = t * Spec.tiltY make p r := by
    intro t
    cases make <;> simp [Spec.tiltY, hmul]
  have lin : ∀ a : ℝ, HasDerivAt (fun t : ℝ => t * a) a 0 := fun a => by
    simpa using (hasDerivAt_id (0 : ℝ)).mul_const a
  let T : ℕ → ℝ → M3 := fun q t => Spec.turned (O t) (Spec.moments n x q)
  let c : ℕ → ℝ → ℝ := fun q t => ∑ k, ∑ l, O t 0 k * O t 1 l * Spec.trendCov n (x k) (x l) q
  refine ⟨fun q t => fiveBeam (deg2rad ang) (t * Spec.tiltX make p r) (t * Spec.tiltY make p r)
    (c q t) (Spec.fiveVars (deg2rad ang) (T q t 0 0) (T q t 1 1) (T q t 2 2) (T q t 0 2)
      (T q t 1 2)), fun t => ?_, fun q => ?_⟩
  · obtain ⟨out, h1, h2, h3⟩ := stress5_formula b n len hb hn hlen make o ord hord ang none
      (fun _ => t * p) (fun _ => t * r)
      (fun i m => beam (Spec.tilted (O t) x 0 m) (Spec.tilted (O t) x 1 m)
          (Spec.tilted (O t) x 2 m) i) (Spec.tilted (O t) x 2) (Spec.tilted (O t) x 0)
      (Spec.tilted (O t) x 1)
    refine ⟨out, h1, h2, fun q hq => ?_⟩
    rw [h3 q hq, mean_const n hn0, mean_const n hn0, tX, tY, tilted_trendCov]
    simp only [Option.getD_none]
    rw [arranged_vars harr]
    simp only [tilted_moments]
    rfl
  · have hcd : HasDerivAt (c q) (∑ k, ∑ l, (Spec.gen a2 a3 0 k * O 0 1 l + O 0 0 k *
        Spec.gen a2 a3 1 l) * Spec.trendCov n (x k) (x l) q) 0 :=
      HasDerivAt.fun_sum fun k _ => HasDerivAt.fun_sum fun l _ =>
        ((hO 0 k).mul (hO 1 l)).mul_const _
    have hc0 : c q 0 = Spec.trendCov n (x 0) (x 1) q := by
      simp only [c, h0, Fin.sum_univ_three]
      simp
    have main := five_tilt_rates (deg2rad ang) a2 a3 (Spec.tiltX make p r) (Spec.tiltY make p r)
      hs hc O (Spec.moments n x q) (moments_symm n x q) h0 hO (fun t => t * Spec.tiltX make p r)
      (fun t => t * Spec.tiltY make p r) (c q) (lin _) (zero_mul _) (lin _) (zero_mul _) _ hcd
    rw [hc0] at main
    have z := five_beam_closed (deg2rad ang) (0 * Spec.tiltX make p r) (0 * Spec.tiltY make p r)
      (c q 0) (T q 0 0 0) (T q 0 1 1) (T q 0 2 2) (T q 0 0 2) (T q 0 1 2) hs hc
    have hT0 : ∀ i j, T q 0 i j = Spec.binCov n (x i) (x j) q := by
      intro i j
      simp only [T, h0, Spec.turned]
      simp [Spec.moments]
    obtain ⟨z1, z2, z3⟩ := z
    refine ⟨z1.trans ?_, z2.trans ?_, z3.trans ?_, main⟩ <;> simp only [hT0] <;> ring

/-- The beams of an upward-facing Signature are taken in the order `(+x, -x, +y, -y)`. -/
theorem sig_arranged (th : ℝ) : Spec.Arranged th (Spec.sigBeam th) ![0, 2, 3, 1] := by
  constructor <;> intros <;> rfl

/-- **C138** (partial: the variance along x). For an upward-facing Signature with any heading and any
small constant tilt, the reported `u'u'` of every bin is the variance in the frame of the level
instrument up to second order in the tilt. Pitch and roll are those of the orientation matrix of
the package. -/
theorem stress5_tilt_signature_partial (b : Binner) (n len : ℕ) (hb : b.nBin = n) (hn : 2 ≤ n)
    (hlen : n ≤ len) (ang : ℝ) (hs : Real.sin (deg2rad ang) ≠ 0)
    (hc : Real.cos (deg2rad ang) ≠ 0) (h p r : ℝ) (x : Fin 3 → ℕ → ℝ) :
    ∃ f : ℕ → ℝ → Five, (∀ t, ∃ out,
        let O := Spec.sigTilt h (t * p) (t * r)
        calcStress5 b .signature .up (some ang) none len
          (fun _ => some (t * p)) (fun _ => some (t * r))
          (fun i m => some (Spec.sigBeam (deg2rad ang) (Spec.tilted O x 0 m) (Spec.tilted O x 1 m)
            (Spec.tilted O x 2 m) i)) (some fun m => some (Spec.tilted O x 2 m))
          (fun m => some (Spec.tilted O x 0 m)) (fun m => some (Spec.tilted O x 1 m)) =
            .ok out ∧ out.length = len / n ∧ ∀ q < len / n, out[q]? = some (some (f q t))) ∧
      ∀ q, (f q 0).upup = Spec.binCov n (x 0) (x 0) q ∧
        HasDerivAt (fun t => (f q t).upup) 0 0 := by
  have hz : Spec.sigTilt h (0 * p) (0 * r) = 1 := by
    have e : Real.pi / 2 - deg2rad 90 = 0 := by unfold deg2rad; ring
    have e0 : deg2rad 0 = 0 := by simp [deg2rad]
    rw [sigTilt_eq]
    ext i j
    fin_cases i <;> fin_cases j <;> simp [nortekOrient, e, e0]
  obtain ⟨f, h1, h2⟩ := stress5_rates b n len hb hn hlen .signature .up ![0, 2, 3, 1] rfl ang hs hc
    (Spec.sigBeam (deg2rad ang)) (sig_arranged _) p r (deg2rad r) (-deg2rad p)
    (fun t => Spec.sigTilt h (t * p) (t * r)) hz (sigTilt_deriv h p r) x
  refine ⟨f, h1, fun q => ⟨(h2 q).1, (h2 q).2.2.2.1.congr_deriv ?_⟩⟩
  simp [Spec.tiltY]

/-- C138, rates of the stresses of a Signature: the correction of `u'w'` and `v'w'` for the tilt is
too large by the factor `2 / cos θ`, for the code has `cos(θ)*2` in place of `cos(θ)**2`. -/
theorem stress5_tilt_rate (b : Binner) (n len : ℕ) (hb : b.nBin = n) (hn : 2 ≤ n)
    (hlen : n ≤ len) (ang : ℝ) (hs : Real.sin (deg2rad ang) ≠ 0)
    (hc : Real.cos (deg2rad ang) ≠ 0) (h p r : ℝ) (x : Fin 3 → ℕ → ℝ) :
    ∃ f : ℕ → ℝ → Five, (∀ t, ∃ out,
        let O := Spec.sigTilt h (t * p) (t * r)
        calcStress5 b .signature .up (some ang) none len
          (fun _ => some (t * p)) (fun _ => some (t * r))
          (fun i m => some (Spec.sigBeam (deg2rad ang) (Spec.tilted O x 0 m) (Spec.tilted O x 1 m)
            (Spec.tilted O x 2 m) i)) (some fun m => some (Spec.tilted O x 2 m))
          (fun m => some (Spec.tilted O x 0 m)) (fun m => some (Spec.tilted O x 1 m)) =
            .ok out ∧ out.length = len / n ∧ ∀ q < len / n, out[q]? = some (some (f q t))) ∧
      ∀ q, (f q 0).upwp = Spec.binCov n (x 0) (x 2) q ∧
        (f q 0).vpwp = Spec.binCov n (x 1) (x 2) q ∧
        HasDerivAt (fun t => (f q t).upwp)
          ((2 / Real.cos (deg2rad ang) - 1) * deg2rad p *
            (Spec.binCov n (x 0) (x 0) q - Spec.binCov n (x 2) (x 2) q) +
          deg2rad r * (2 / Real.cos (deg2rad ang) * Spec.trendCov n (x 0) (x 1) q -
            Spec.binCov n (x 0) (x 1) q)) 0 ∧
        HasDerivAt (fun t => (f q t).vpwp)
          ((2 / Real.cos (deg2rad ang) - 1) * deg2rad r *
            (Spec.binCov n (x 1) (x 1) q - Spec.binCov n (x 2) (x 2) q) +
          deg2rad p * (2 / Real.cos (deg2rad ang) * Spec.trendCov n (x 0) (x 1) q -
            Spec.binCov n (x 0) (x 1) q)) 0 := by
  have hz : Spec.sigTilt h (0 * p) (0 * r) = 1 := by
    have e : Real.pi / 2 - deg2rad 90 = 0 := by unfold deg2rad; ring
    have e0 : deg2rad 0 = 0 := by simp [deg2rad]
    rw [sigTilt_eq]
    ext i j
    fin_cases i <;> fin_cases j <;> simp [nortekOrient, e, e0]
  obtain ⟨f, h1, h2⟩ := stress5_rates b n len hb hn hlen .signature .up ![0, 2, 3, 1] rfl ang hs hc
    (Spec.sigBeam (deg2rad ang)) (sig_arranged _) p r (deg2rad r) (-deg2rad p)
    (fun t => Spec.sigTilt h (t * p) (t * r)) hz (sigTilt_deriv h p r) x
  refine ⟨f, h1, fun q => ⟨(h2 q).2.1, (h2 q).2.2.1, (h2 q).2.2.2.2.1.congr_deriv ?_,
    (h2 q).2.2.2.2.2.congr_deriv ?_⟩⟩
  · simp only [Spec.tiltX, Spec.tiltY]
    ring
  · simp only [Spec.tiltX, Spec.tiltY]
    ring

/-- With the exponent of the paper the correction is exact to first order. -/
noncomputable def Spec.fixedUw (th phi2 phi3 uv : ℝ) (bp : Fin 5 → ℝ) : ℝ :=
  (Real.sin th ^ 5 * Real.cos th * (bp 1 - bp 0) +
    2 * Real.sin th ^ 4 * Real.cos th ^ 2 * phi3 * (bp 1 + bp 0) -
    4 * Real.sin th ^ 4 * Real.cos th ^ 2 * phi3 * bp 4 -
    4 * Real.sin th ^ 6 * Real.cos th ^ 2 * phi2 * uv) / (-4 * Real.sin th ^ 6 * Real.cos th ^ 2)

theorem fixed_uw_exact (th p r : ℝ) (hs : Real.sin th ≠ 0) (hc : Real.cos th ≠ 0) (h : ℝ) (C : M3)
    (hC : C.transpose = C) :
    HasDerivAt (fun t =>
      let T := Spec.turned (Spec.sigTilt h (t * p) (t * r)) C
      Spec.fixedUw th (deg2rad (t * r)) (-deg2rad (t * p)) (T 0 1)
        (Spec.fiveVars th (T 0 0) (T 1 1) (T 2 2) (T 0 2) (T 1 2))) 0 0 := by
  have hz : Spec.sigTilt h (0 * p) (0 * r) = 1 := by
    have e : Real.pi / 2 - deg2rad 90 = 0 := by unfold deg2rad; ring
    have e0 : deg2rad 0 = 0 := by simp [deg2rad]
    rw [sigTilt_eq]
    ext i j
    fin_cases i <;> fin_cases j <;> simp [nortekOrient, e, e0]
  have hT := turned_deriv (fun t => Spec.sigTilt h (t * p) (t * r)) C hC _ _ hz (sigTilt_deriv h p r)
  have h2 : Real.cos th ^ 2 = 1 - Real.sin th ^ 2 := by
    have := Real.sin_sq_add_cos_sq th
    linarith
  have cl : ∀ phi2 phi3 uv uu vv ww uw vw : ℝ,
      Spec.fixedUw th phi2 phi3 uv (Spec.fiveVars th uu vv ww uw vw) =
        uw - phi3 * (uu - ww) + phi2 * uv := by
    intro phi2 phi3 uv uu vv ww uw vw
    simp only [Spec.fixedUw, Spec.fiveVars, Matrix.cons_val_zero, Matrix.cons_val_one,
      Matrix.cons_val]
    field_simp
    rw [show Real.cos th ^ 2 = 1 - Real.sin th ^ 2 from h2]
    ring
  simp only [cl]
  have hp : ∀ a : ℝ, HasDerivAt (fun t => deg2rad (t * a)) (deg2rad a) 0 := by
    intro a
    unfold deg2rad
    simpa using ((hasDerivAt_id (0 : ℝ)).mul_const a).mul_const (Real.pi / 180)
  have hC' : ∀ a b, C a b = C b a := fun a b => by
    conv_lhs => rw [← hC]
    rfl
  have hT0 : ∀ i j, Spec.turned (Spec.sigTilt h (0 * p) (0 * r)) C i j = C i j := by
    intro i j
    rw [hz, Spec.turned]
    simp
  refine (((hT 0 2).sub ((hp p).neg.mul ((hT 0 0).sub (hT 2 2)))).add ((hp r).mul
    (hT 0 1))).congr_deriv ?_
  have e0 : deg2rad 0 = 0 := by simp [deg2rad]
  simp only [Spec.gen, Matrix.mul_apply, Fin.sum_univ_three]
  simp only [hC' 1 0, hC' 2 0, hC' 2 1]
  simp [e0]
  have z : ∀ i j, Spec.turned (Spec.sigTilt h 0 0) C i j = C i j := by simpa using hT0
  simp only [z]
  ring

/-! ### TRDI instruments -/

/-- Orientation of a TRDI instrument relative to the level one with the same heading, from the
orientation matrix of the package. -/
noncomputable def Spec.rdiTilt (up : Bool) (h p r : ℝ) : M3 :=
  rdiOrient true up false h p r * (rdiOrient true up false h 0 0).transpose

/-- Pitch of the platform from the raw pitch and roll. -/
noncomputable def Spec.gimbal (p r : ℝ) : ℝ :=
  Real.arctan (Real.tan (deg2rad p) * Real.cos (deg2rad r))

theorem rdiTilt_eq (up : Bool) (h p r : ℝ) :
    let sp := (if up then -1 else 1) * Real.sin (Spec.gimbal p r)
    let cp := Real.cos (Spec.gimbal p r)
    let sr := Real.sin (deg2rad r)
    let cr := Real.cos (deg2rad r)
    Spec.rdiTilt up h p r = !![cr, sp * sr, -cp * sr; 0, cp, sp; sr, -sp * cr, cp * cr] := by
  have e0 : deg2rad 0 = 0 := by simp [deg2rad]
  have hp := Real.sin_sq_add_cos_sq (deg2rad h)
  intro sp cp sr cr
  unfold Spec.rdiTilt rdiOrient
  simp only [e0, Real.tan_zero, zero_mul, Real.arctan_zero, Real.cos_zero, Real.sin_zero,
    Bool.and_false, Bool.false_eq_true, if_false, Bool.true_and, sp, cp, sr, cr, Spec.gimbal]
  generalize Real.arctan (Real.tan (deg2rad p) * Real.cos (deg2rad r)) = q
  generalize deg2rad h = y at hp
  cases up
  · ext i j
    fin_cases i <;> fin_cases j <;>
      simp [Matrix.mul_apply, Fin.sum_univ_three] <;> grind
  · ext i j
    fin_cases i <;> fin_cases j <;>
      simp [Matrix.mul_apply, Fin.sum_univ_three, Real.sin_add, Real.cos_add] <;> grind

theorem gimbal_zero (r : ℝ) : Spec.gimbal 0 r = 0 := by simp [Spec.gimbal, deg2rad]

theorem gimbal_deriv (p r : ℝ) :
    HasDerivAt (fun t => Spec.gimbal (t * p) (t * r)) (deg2rad p) 0 := by
  have e0 : deg2rad 0 = 0 := by simp [deg2rad]
  have h1 : HasDerivAt (fun t => deg2rad (t * p)) (deg2rad p) 0 := by
    unfold deg2rad
    simpa using ((hasDerivAt_id (0 : ℝ)).mul_const p).mul_const (Real.pi / 180)
  have ht : HasDerivAt Real.tan (1 / Real.cos (deg2rad (0 * p)) ^ 2) (deg2rad (0 * p)) :=
    Real.hasDerivAt_tan (by simp [e0])
  have h2 : HasDerivAt (fun t => Real.tan (deg2rad (t * p))) (deg2rad p) 0 := by
    refine (ht.comp (0 : ℝ) h1).congr_deriv ?_
    simp [e0]
  refine ((h2.mul (deriv_cos_mul r)).arctan).congr_deriv ?_
  simp [e0]

/-- A TRDI instrument tilted by a small pitch and roll turns by the roll about y, and about x by the
pitch when it looks down but by minus the pitch when it looks up. -/
theorem rdiTilt_deriv (up : Bool) (h p r : ℝ) (i j : Fin 3) :
    HasDerivAt (fun t => Spec.rdiTilt up h (t * p) (t * r) i j)
      (Spec.gen ((if up then -1 else 1) * deg2rad p) (deg2rad r) i j) 0 := by
  have e0 : deg2rad 0 = 0 := by simp [deg2rad]
  simp only [rdiTilt_eq]
  generalize (if up = true then (-1 : ℝ) else 1) = σ
  have g := gimbal_deriv p r
  have sp0 : HasDerivAt (fun t => Real.sin (Spec.gimbal (t * p) (t * r))) (deg2rad p) 0 :=
    g.sin.congr_deriv (by simp [gimbal_zero])
  have sp := sp0.const_mul σ
  have cp : HasDerivAt (fun t => Real.cos (Spec.gimbal (t * p) (t * r))) 0 0 :=
    g.cos.congr_deriv (by simp [gimbal_zero])
  have sr := deriv_sin_mul r
  have cr := deriv_cos_mul r
  fin_cases i <;> fin_cases j <;> simp [Spec.gen]
  · exact cr
  · exact (sp.mul sr).congr_deriv (by simp [e0, gimbal_zero])
  · exact (cp.mul sr).neg.congr_deriv (by simp [e0, gimbal_zero])
  · exact hasDerivAt_const _ _
  · exact cp
  · exact sp
  · exact sr
  · exact (sp.mul cr).neg.congr_deriv (by simp [e0])
  · exact (cp.mul cr).congr_deriv (by simp [e0, gimbal_zero])

theorem rdiTilt_zero (up : Bool) (h p r : ℝ) : Spec.rdiTilt up h (0 * p) (0 * r) = 1 := by
  rw [rdiTilt_eq]
  ext i j
  fin_cases i <;> fin_cases j <;> simp [gimbal_zero, deg2rad]

/-- The beams of an upward-facing TRDI instrument are taken in the order `(+x, -x, +y, -y)`. -/
theorem rdi_arranged (th : ℝ) : Spec.Arranged th (Spec.rdiBeam th) ![0, 1, 3, 2] := by
  constructor <;> intros <;> rfl

/-- The variance along x does not use the covariance of the horizontal components. -/
theorem upup_uv (th phi2 phi3 c c' : ℝ) (bp : Fin 5 → ℝ) :
    (fiveBeam th phi2 phi3 c bp).upup = (fiveBeam th phi2 phi3 c' bp).upup := rfl

/-- **C138** (partial: the variance along x). The same for TRDI instruments in both orientations. -/
theorem stress5_tilt_trdi_partial (b : Binner) (n len : ℕ) (hb : b.nBin = n) (hn : 2 ≤ n)
    (hlen : n ≤ len) (ang : ℝ) (hs : Real.sin (deg2rad ang) ≠ 0)
    (hc : Real.cos (deg2rad ang) ≠ 0) (up : Bool) (h p r : ℝ) (x : Fin 3 → ℕ → ℝ) :
    ∃ f : ℕ → ℝ → Five, (∀ t, ∃ out,
        let O := Spec.rdiTilt up h (t * p) (t * r)
        calcStress5 b .trdi (if up then .up else .down) (some ang) none len
          (fun _ => some (t * p)) (fun _ => some (t * r))
          (fun i m => some (Spec.rdiBeam (deg2rad ang) (Spec.tilted O x 0 m) (Spec.tilted O x 1 m)
            (Spec.tilted O x 2 m) i)) (some fun m => some (Spec.tilted O x 2 m))
          (fun m => some (Spec.tilted O x 0 m)) (fun m => some (Spec.tilted O x 1 m)) =
            .ok out ∧ out.length = len / n ∧ ∀ q < len / n, out[q]? = some (some (f q t))) ∧
      ∀ q, (f q 0).upup = Spec.binCov n (x 0) (x 0) q ∧
        HasDerivAt (fun t => (f q t).upup) 0 0 := by
  cases up
  · -- looking down: the y beams come in the opposite order, which `u'u'` does not see
    obtain ⟨g, g1, g2⟩ := stress5_rates b n len hb hn hlen .trdi .up ![0, 1, 3, 2] rfl ang hs hc
      (Spec.rdiBeam (deg2rad ang)) (rdi_arranged _) p r _ (deg2rad r)
      (fun t => Spec.rdiTilt false h (t * p) (t * r)) (rdiTilt_zero false h p r)
      (rdiTilt_deriv false h p r) x
    have hf : ∀ t, ∃ F : ℕ → Five, ∃ out,
        let O := Spec.rdiTilt false h (t * p) (t * r)
        calcStress5 b .trdi .down (some ang) none len
          (fun _ => some (t * p)) (fun _ => some (t * r))
          (fun i m => some (Spec.rdiBeam (deg2rad ang) (Spec.tilted O x 0 m) (Spec.tilted O x 1 m)
            (Spec.tilted O x 2 m) i)) (some fun m => some (Spec.tilted O x 2 m))
          (fun m => some (Spec.tilted O x 0 m)) (fun m => some (Spec.tilted O x 1 m)) =
            .ok out ∧ out.length = len / n ∧ ∀ q, (q < len / n → out[q]? = some (some (F q)) ∧
              (F q).upup = (g q t).upup) ∧ (¬ q < len / n → F q = g q t) := by
      intro t
      obtain ⟨o1, e1, _, e3⟩ := g1 t
      set O := Spec.rdiTilt false h (t * p) (t * r) with hO
      have hu := stress5_formula b n len hb hn hlen .trdi .up ![0, 1, 3, 2] rfl ang none
        (fun _ => t * p) (fun _ => t * r)
        (fun i m => Spec.rdiBeam (deg2rad ang) (Spec.tilted O x 0 m) (Spec.tilted O x 1 m)
            (Spec.tilted O x 2 m) i) (Spec.tilted O x 2) (Spec.tilted O x 0) (Spec.tilted O x 1)
      have hd := stress5_formula b n len hb hn hlen .trdi .down ![0, 1, 2, 3] rfl ang none
        (fun _ => t * p) (fun _ => t * r)
        (fun i m => Spec.rdiBeam (deg2rad ang) (Spec.tilted O x 0 m) (Spec.tilted O x 1 m)
            (Spec.tilted O x 2 m) i) (Spec.tilted O x 2) (Spec.tilted O x 0) (Spec.tilted O x 1)
      obtain ⟨o2, u1, _, u3⟩ := hu
      obtain ⟨o3, d1, d2, d3⟩ := hd
      rw [u1] at e1
      replace e1 := Except.ok.inj e1
      subst e1
      refine ⟨fun q => if q < len / n then (o3[q]?).join.getD (g q t) else g q t, o3, d1, d2,
        fun q => ⟨fun hq => ?_, fun hq => if_neg hq⟩⟩
      simp only [if_pos hq]
      rw [d3 q hq]
      refine ⟨rfl, ?_⟩
      have := (u3 q hq).symm.trans (e3 q hq)
      rw [← Option.some.inj (Option.some.inj this)]
      rfl
    choose F out hF using hf
    refine ⟨fun q t => F t q, fun t => ⟨out t, (hF t).1, (hF t).2.1, fun q hq =>
      (((hF t).2.2 q).1 hq).1⟩, fun q => ?_⟩
    have e : ∀ t, (F t q).upup = (g q t).upup := by
      intro t
      by_cases hq : q < len / n
      · exact (((hF t).2.2 q).1 hq).2
      · rw [((hF t).2.2 q).2 hq]
    simp only [e]
    refine ⟨(g2 q).1, (g2 q).2.2.2.1.congr_deriv ?_⟩
    simp [Spec.tiltY]
  · obtain ⟨g, g1, g2⟩ := stress5_rates b n len hb hn hlen .trdi .up ![0, 1, 3, 2] rfl ang hs hc
      (Spec.rdiBeam (deg2rad ang)) (rdi_arranged _) p r _ (deg2rad r)
      (fun t => Spec.rdiTilt true h (t * p) (t * r)) (rdiTilt_zero true h p r)
      (rdiTilt_deriv true h p r) x
    refine ⟨g, g1, fun q => ⟨(g2 q).1, (g2 q).2.2.2.1.congr_deriv ?_⟩⟩
    simp [Spec.tiltY]

/-- C138 is false for the stresses: an upward-facing Signature with pitch only in a flow with
fluctuations along x only. The true stress `u'w'` is zero, the reported one changes with the tilt
to first order. -/
theorem stress5_tilt_false : ∃ (b : Binner) (x : Fin 3 → ℕ → ℝ) (f : ℝ → Five),
    (∀ t, ∃ out,
        let O := Spec.sigTilt 0 (t * 1) (t * 0)
        calcStress5 b .signature .up (some 25) none 2
          (fun _ => some (t * 1)) (fun _ => some (t * 0))
          (fun i m => some (Spec.sigBeam (deg2rad 25) (Spec.tilted O x 0 m) (Spec.tilted O x 1 m)
            (Spec.tilted O x 2 m) i)) (some fun m => some (Spec.tilted O x 2 m))
          (fun m => some (Spec.tilted O x 0 m)) (fun m => some (Spec.tilted O x 1 m)) =
            .ok out ∧ out[0]? = some (some (f t))) ∧
      Spec.binCov 2 (x 0) (x 2) 0 = 0 ∧ (f 0).upwp = 0 ∧
      ∃ d, 0 < d ∧ HasDerivAt (fun t => (f t).upwp) d 0 := by
  have hpi := Real.pi_pos
  have hs : 0 < Real.sin (deg2rad 25) := by
    unfold deg2rad
    exact Real.sin_pos_of_pos_of_lt_pi (by linarith) (by linarith)
  have hc : 0 < Real.cos (deg2rad 25) := by
    unfold deg2rad
    exact Real.cos_pos_of_mem_Ioo ⟨by linarith, by linarith⟩
  let x : Fin 3 → ℕ → ℝ := fun k j => if k = 0 then (j : ℝ) else 0
  obtain ⟨f, h1, h2⟩ := stress5_tilt_rate ⟨2, 1, 2, 2⟩ 2 2 rfl le_rfl le_rfl 25 hs.ne' hc.ne' 0 1 0 x
  have c0 : ∀ k l : Fin 3, Spec.binCov 2 (x k) (x l) 0 = if k = 0 ∧ l = 0 then 1 / 4 else 0 := by
    intro k l
    simp only [Spec.binCov, Spec.cov, Spec.mean, sum_range_succ, sum_range_zero, x]
    by_cases hk : k = 0 <;> by_cases hl : l = 0 <;> simp [hk, hl] <;> norm_num
  refine ⟨⟨2, 1, 2, 2⟩, x, f 0, fun t => ?_, ?_, ?_, _, ?_, (h2 0).2.2.1⟩
  · obtain ⟨out, e1, _, e3⟩ := h1 t
    exact ⟨out, e1, e3 0 (by norm_num)⟩
  · rw [c0]; simp
  · rw [(h2 0).1, c0]; simp
  · simp only [c0]
    have : Real.cos (deg2rad 25) ≤ 1 := Real.cos_le_one _
    have h3 : 1 < 2 / Real.cos (deg2rad 25) := by
      rw [lt_div_iff₀ hc]
      linarith
    have h4 : 0 < deg2rad 1 := by unfold deg2rad; positivity
    have h5 : deg2rad 0 = 0 := by simp [deg2rad]
    simp [h5]
    nlinarith [mul_pos (sub_pos.mpr h3) h4]

/-- C138, the stresses of an upward-facing TRDI instrument: besides the factor `2 / cos θ` the pitch
enters `v'w'` with the wrong sign, so that the correction adds to the error. -/
theorem stress5_tilt_trdi_rate (b : Binner) (n len : ℕ) (hb : b.nBin = n) (hn : 2 ≤ n)
    (hlen : n ≤ len) (ang : ℝ) (hs : Real.sin (deg2rad ang) ≠ 0)
    (hc : Real.cos (deg2rad ang) ≠ 0) (h p r : ℝ) (x : Fin 3 → ℕ → ℝ) :
    ∃ f : ℕ → ℝ → Five, (∀ t, ∃ out,
        let O := Spec.rdiTilt true h (t * p) (t * r)
        calcStress5 b .trdi .up (some ang) none len
          (fun _ => some (t * p)) (fun _ => some (t * r))
          (fun i m => some (Spec.rdiBeam (deg2rad ang) (Spec.tilted O x 0 m) (Spec.tilted O x 1 m)
            (Spec.tilted O x 2 m) i)) (some fun m => some (Spec.tilted O x 2 m))
          (fun m => some (Spec.tilted O x 0 m)) (fun m => some (Spec.tilted O x 1 m)) =
            .ok out ∧ out.length = len / n ∧ ∀ q < len / n, out[q]? = some (some (f q t))) ∧
      ∀ q, (f q 0).upwp = Spec.binCov n (x 0) (x 2) q ∧
        (f q 0).vpwp = Spec.binCov n (x 1) (x 2) q ∧
        HasDerivAt (fun t => (f q t).upwp)
          ((1 - 2 / Real.cos (deg2rad ang)) * deg2rad r *
            (Spec.binCov n (x 0) (x 0) q - Spec.binCov n (x 2) (x 2) q) +
          deg2rad p * (Spec.binCov n (x 0) (x 1) q +
            2 / Real.cos (deg2rad ang) * Spec.trendCov n (x 0) (x 1) q)) 0 ∧
        HasDerivAt (fun t => (f q t).vpwp)
          ((2 / Real.cos (deg2rad ang) + 1) * deg2rad p *
            (Spec.binCov n (x 1) (x 1) q - Spec.binCov n (x 2) (x 2) q) +
          deg2rad r * (Spec.binCov n (x 0) (x 1) q -
            2 / Real.cos (deg2rad ang) * Spec.trendCov n (x 0) (x 1) q)) 0 := by
  obtain ⟨f, h1, h2⟩ := stress5_rates b n len hb hn hlen .trdi .up ![0, 1, 3, 2] rfl ang hs hc
    (Spec.rdiBeam (deg2rad ang)) (rdi_arranged _) p r _ (deg2rad r)
    (fun t => Spec.rdiTilt true h (t * p) (t * r)) (rdiTilt_zero true h p r)
    (rdiTilt_deriv true h p r) x
  refine ⟨f, h1, fun q => ⟨(h2 q).2.1, (h2 q).2.2.1, (h2 q).2.2.2.2.1.congr_deriv ?_,
    (h2 q).2.2.2.2.2.congr_deriv ?_⟩⟩
  · simp only [Spec.tiltX, Spec.tiltY, if_true]
    ring
  · simp only [Spec.tiltX, Spec.tiltY, if_true]
    ring

example : ∃ b : Binner, b.nBin = (2 : ℕ) ∧ (2 : ℕ) ≤ 5 ∧
    beamOrder .trdi .up = .ok ![0, 1, 3, 2] ∧ beamOrder .signature .up = .ok ![0, 2, 3, 1] :=
  ⟨⟨2, 1, 2, 2⟩, rfl, by norm_num, rfl, rfl⟩

end Dolfyn
