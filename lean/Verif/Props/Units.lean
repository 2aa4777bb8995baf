import Verif.Props.AdvDissip
import Verif.Props.Turb

/-!
C179: results of the turbulence functions follow the units of their inputs. The unit of velocity and the unit of length
are made `c` times smaller together (m/s and m to cm/s and cm for `c = 100`), so that velocities and lengths become `c`
times larger, spectra, stresses, covariances and structure functions `c²` times. Dissipation rates then have to become
`c²` times larger, friction velocity, noise level and length scale `c` times, and shear has to stay.
-/

namespace Dolfyn

/-- A positive factor can be taken out of a power, whatever the sign of the base. -/
theorem pos_mul_rpow (a x y : ℝ) (ha : 0 < a) : (a * x) ^ y = a ^ y * x ^ y := by
  rcases le_or_gt 0 x with hx | hx
  · exact Real.mul_rpow ha.le hx
  · have h1 : a * x < 0 := mul_neg_of_pos_of_neg ha hx
    rw [Real.rpow_def_of_neg h1, Real.rpow_def_of_neg hx, Real.rpow_def_of_pos ha,
      Real.log_mul ha.ne' hx.ne, add_mul, Real.exp_add]
    ring

theorem sq_rpow_three_half (c : ℝ) (hc : 0 < c) : (c ^ 2) ^ (3 / 2 : ℝ) = c ^ 3 := by
  rw [← Real.rpow_natCast c 2, ← Real.rpow_mul hc.le, ← Real.rpow_natCast c 3]
  norm_num

theorem foldl_min_scale (a : ℝ) (ha : 0 < a) (l : List ℝ) (x : ℝ) :
    (l.map (a * ·)).foldl min (a * x) = a * l.foldl min x := by
  induction l generalizing x with
  | nil => rfl
  | cons y l ih =>
    simp only [List.map_cons, List.foldl_cons]
    rw [← mul_min_of_nonneg x y ha.le, ih]

theorem min_scale (a : ℝ) (ha : 0 < a) (l : List ℝ) : (l.map (a * ·)).min? = l.min?.map (a * ·) := by
  cases l with
  | nil => rfl
  | cons x l =>
    simp only [List.map_cons, List.min?_cons', Option.map_some]
    rw [foldl_min_scale a ha]

theorem floorPsd_scale (a mn x : ℝ) (ha : 0 < a) : floorPsd (a * mn) (a * x) = a * floorPsd mn x := by
  unfold floorPsd
  by_cases h : x > 0
  · rw [if_pos h, if_pos (mul_pos ha h)]
  · rw [if_neg h, if_neg (by push Not at h ⊢; exact mul_nonpos_of_nonneg_of_nonpos ha.le h)]; ring

theorem sum_scale {α : Type} (a : ℝ) (f g : α → ℝ) (l : List α) (h : ∀ k, g k = a * f k) :
    (l.map g).sum = a * (l.map f).sum := by
  induction l with
  | nil => simp
  | cons x l ih => simp only [List.map_cons, List.sum_cons, ih, h]; ring

/-- A spectrum, its noise and the mean speed in a unit of velocity that is `c` times smaller. -/
def SpecRow.inUnits (c : ℝ) (r : SpecRow) : SpecRow := ⟨c * r.noise, c * r.U, fun k => c ^ 2 * r.S k⟩

theorem lt83_value (c : ℝ) (hc : 0 < c) (V X L : ℝ) :
    (if c * V = 0 then none else some ((c ^ 2 * X / L) ^ (3 / 2 : ℝ) / (c * V))) =
      (if V = 0 then none else some ((X / L) ^ (3 / 2 : ℝ) / V)).map fun x => c ^ 2 * x := by
  have hk : (0 : ℝ) < c ^ 2 := by positivity
  by_cases h0 : V = 0
  · rw [if_pos h0, if_pos (by rw [h0, mul_zero])]; rfl
  · rw [if_neg h0, if_neg (mul_ne_zero hc.ne' h0)]
    simp only [Option.map_some]
    congr 1
    rw [mul_div_assoc, pos_mul_rpow _ _ _ hk, sq_rpow_three_half c hc]
    field_simp

/-- C179. LT83. -/
theorem lt83_scale (c : ℝ) (hc : 0 < c) (fs : ℝ) (units : FreqUnits) (n : ℕ) (f : ℕ → ℝ) (lo hi : ℝ)
    (rows : List SpecRow) :
    lt83 fs units n f lo hi (rows.map (SpecRow.inUnits c)) =
      (lt83 fs units n f lo hi rows).map fun l => l.map fun e => e.map fun x => c ^ 2 * x := by
  have hk : (0 : ℝ) < c ^ 2 := by positivity
  have hsub : ∀ (r : SpecRow) (k : ℕ), (SpecRow.inUnits c r).S k - (SpecRow.inUnits c r).noise ^ 2 / (fs / 2) =
      c ^ 2 * (r.S k - r.noise ^ 2 / (fs / 2)) := by
    intro r k; simp only [SpecRow.inUnits]; ring
  unfold lt83
  simp only
  have hall : (rows.map (SpecRow.inUnits c)).flatMap (fun r => (List.range n).map fun k =>
      |r.S k - r.noise ^ 2 / (fs / 2)|) =
      (rows.flatMap fun r => (List.range n).map fun k => |r.S k - r.noise ^ 2 / (fs / 2)|).map (c ^ 2 * ·) := by
    rw [List.flatMap_map, List.map_flatMap]
    congr 1
    funext r
    rw [List.map_map]
    apply List.map_congr_left
    intro k _
    simp only [Function.comp_apply]
    rw [hsub, abs_mul, abs_of_pos hk]
  rw [hall, min_scale _ hk]
  rcases hm : (rows.flatMap fun r => (List.range n).map fun k => |r.S k - r.noise ^ 2 / (fs / 2)|).min? with _ | mn
  · rw [hm]; rfl
  · rw [hm]
    simp only [Option.map_some, Except.map]
    congr 1
    rw [List.map_map, List.map_map]
    apply List.map_congr_left
    intro r _
    simp only [Function.comp_apply]
    by_cases h1 : freqIdx n f lo hi = []
    · rw [if_pos h1, if_pos h1]; rfl
    · rw [if_neg h1, if_neg h1]
      have hS : ((freqIdx n f lo hi).map fun k => floorPsd (c ^ 2 * mn)
          ((SpecRow.inUnits c r).S k - (SpecRow.inUnits c r).noise ^ 2 / (fs / 2)) * f k ^ (5 / 3 : ℝ) / 0.5).sum =
          c ^ 2 * ((freqIdx n f lo hi).map fun k => floorPsd mn
          (r.S k - r.noise ^ 2 / (fs / 2)) * f k ^ (5 / 3 : ℝ) / 0.5).sum := by
        apply sum_scale
        intro k
        rw [hsub, floorPsd_scale _ _ _ hk]; ring
      rw [hS]
      generalize ((freqIdx n f lo hi).map fun k => floorPsd mn
          (r.S k - r.noise ^ 2 / (fs / 2)) * f k ^ (5 / 3 : ℝ) / 0.5).sum = X
      cases units
      · have h := lt83_value c hc (r.U / (2 * Real.pi)) X ((freqIdx n f lo hi).length : ℝ)
        rw [← mul_div_assoc c r.U] at h
        exact h
      · exact lt83_value c hc r.U X ((freqIdx n f lo hi).length : ℝ)

theorem compMean_scale (a : ℝ) (idx : List ℕ) (f S : ℕ → ℝ) :
    compMean idx f (fun k => a * S k) = a * compMean idx f S := by
  unfold compMean
  rw [sum_scale a (fun k => S k * f k ^ (5 / 3 : ℝ)) _ idx (fun k => by ring)]
  ring

/-- C179. TE01; the integral depends on the turbulence intensity and an angle only. -/
theorem te01_scale (c : ℝ) (hc : 0 < c) (n : ℕ) (f : ℕ → ℝ) (lo hi : ℝ) (Su Sv Sw : ℕ → ℝ) (U I : ℝ) :
    te01 n f lo hi (fun k => c ^ 2 * Su k) (fun k => c ^ 2 * Sv k) (fun k => c ^ 2 * Sw k) (c * U) I =
      (te01 n f lo hi Su Sv Sw U I).map fun x => c ^ 2 * x := by
  have hk : (0 : ℝ) < c ^ 2 := by positivity
  unfold te01
  simp only
  by_cases h1 : freqIdx n f lo hi = []
  · rw [if_pos h1, if_pos h1]; rfl
  · rw [if_neg h1, if_neg h1]
    by_cases h0 : U = 0
    · rw [if_pos h0, if_pos (by rw [h0, mul_zero])]; rfl
    · rw [if_neg h0, if_neg (mul_ne_zero hc.ne' h0)]
      simp only [Option.map_some]
      congr 1
      have e : (fun k => c ^ 2 * Su k + c ^ 2 * Sv k) = fun k => c ^ 2 * (Su k + Sv k) := by funext k; ring
      rw [e, compMean_scale, compMean_scale, mul_div_assoc, mul_div_assoc, pos_mul_rpow _ _ _ hk,
        pos_mul_rpow _ _ _ hk, sq_rpow_three_half c hc]
      field_simp

theorem sfBin_speed (fs f0 f1 : ℚ) (n : ℕ) (up : ℕ → Option ℝ) (U c : ℝ) (hc : 0 < c) :
    sfBin fs f0 f1 n up (c * U) = (sfBin fs f0 f1 n up U).map fun e => e.map fun x => c⁻¹ * x := by
  unfold sfBin
  rcases hd : sfDaa n up (sfLags fs f0 f1) with e | daa
  · rfl
  · simp only [Except.map, bind, Except.bind]
    by_cases h0 : U = 0
    · rw [if_pos h0, if_pos (by rw [h0, mul_zero])]; rfl
    · rw [if_neg h0, if_neg (mul_ne_zero hc.ne' h0)]
      simp only [pure, Except.pure]
      congr 1
      have hk : 0 < (c ^ (2 / 3 : ℝ))⁻¹ := inv_pos.2 (Real.rpow_pos_of_pos hc _)
      have e : (daa.filterMap fun p => p.2.map fun d => d / (c * U / fs * (p.1 : ℝ)) ^ (2 / 3 : ℝ)) =
          (daa.filterMap fun p => p.2.map fun d => d / (U / fs * (p.1 : ℝ)) ^ (2 / 3 : ℝ)).map
            fun x => (c ^ (2 / 3 : ℝ))⁻¹ * x := by
        rw [List.map_filterMap]
        apply List.filterMap_congr
        intro p _
        rcases p.2 with _ | d
        · rfl
        · simp only [Option.map_some]
          congr 1
          rw [show c * U / (fs : ℝ) * (p.1 : ℝ) = c * (U / fs * p.1) by ring, pos_mul_rpow _ _ _ hc]
          rw [div_eq_mul_inv, div_eq_mul_inv, mul_inv]; ring
      rw [e, npMedian_scale _ hk]
      generalize npMedian (daa.filterMap fun p => p.2.map fun d => d / (U / fs * (p.1 : ℝ)) ^ (2 / 3 : ℝ)) = M
      rcases M with _ | m
      · rfl
      · simp only [Option.map_some]
        congr 1
        rw [mul_div_assoc, pos_mul_rpow _ _ _ hk]
        congr 1
        rw [Real.inv_rpow (Real.rpow_nonneg hc.le _), ← Real.rpow_mul hc.le]
        norm_num

/-- C179. Structure function of a point velocimeter. -/
theorem sf_units (c : ℝ) (hc : 0 < c) (fs f0 f1 : ℚ) (n : ℕ) (up : ℕ → Option ℝ) (U : ℝ) (hU : 0 ≤ U)
    (hfs : 0 < fs) :
    sfBin fs f0 f1 n (fun i => (up i).map fun x => c * x) (c * U) =
      (sfBin fs f0 f1 n up U).map fun e => e.map fun x => c ^ 2 * x := by
  rw [sfBin_speed _ _ _ _ _ _ _ hc, sf_scale _ _ _ _ _ _ _ hc.ne' hU hfs]
  rcases sfBin fs f0 f1 n up U with e | o
  · rfl
  · rcases o with _ | x
    · rfl
    · simp only [Except.map, Option.map_some]
      rw [abs_of_pos hc]
      congr 2
      field_simp

/-- C179. Integral length scale. -/
theorem lint_units (c : ℝ) (hc : 0 < c) (fs U : ℝ) (n : ℕ) (acov : ℕ → ℝ) :
    lInt fs (c * U) n (fun i => c ^ 2 * acov i) = c * lInt fs U n acov := by
  have : lintScale n (fun i => c ^ 2 * acov i) = lintScale n acov := by
    unfold lintScale
    congr 2
    funext i
    rw [mul_div_mul_left _ _ (by positivity : c ^ 2 ≠ 0)]
  unfold lInt
  rw [this]; ring

theorem npSqrt_scale (c x : ℝ) (hc : 0 < c) : npSqrt (c ^ 2 * x) = (npSqrt x).map (c * ·) := by
  have hk : (0 : ℝ) < c ^ 2 := by positivity
  unfold npSqrt
  by_cases h : x < 0
  · rw [if_pos h, if_pos (mul_neg_of_pos_of_neg hk h)]; rfl
  · rw [if_neg h, if_neg (by push Not at h ⊢; positivity)]
    simp only [Option.map_some]
    rw [Real.sqrt_mul hk.le, Real.sqrt_sq hc.le]

/-- C179. Friction velocity. -/
theorem ustar_units (c : ℝ) (hc : 0 < c) (idx : List ℕ) (z : ℕ → ℝ) (H : ℝ) (uw : ℕ → ℝ) :
    ustarFit idx (fun i => c * z i) (c * H) (fun i => c ^ 2 * uw i) = (ustarFit idx z H uw).map (c * ·) := by
  have hk : (0 : ℝ) < c ^ 2 := by positivity
  unfold ustarFit
  by_cases h : idx = []
  · rw [if_pos h, if_pos h]; rfl
  · rw [if_neg h, if_neg h]
    simp only
    have hs : (idx.map fun i => (SignType.sign (c ^ 2 * uw i) : ℝ)) = idx.map fun i => (SignType.sign (uw i) : ℝ) := by
      apply List.map_congr_left
      intro i _
      rw [sign_mul, sign_pos hk, one_mul]
    rw [hs, ← npSqrt_scale _ _ hc]
    generalize (idx.map fun i => (SignType.sign (uw i) : ℝ)).sum / idx.length = s
    rw [sum_scale (c ^ 2) (fun i => s * uw i / (1 - z i / H)) _ idx (fun i => by
      rw [mul_div_mul_left _ _ hc.ne']; ring), mul_div_assoc]

/-- C179. Doppler noise. -/
theorem noise_units (c : ℝ) (hc : 0 < c) (fs pct : ℝ) (units : FreqUnits) (n : ℕ) (f S : ℕ → ℝ) :
    dopplerNoise fs pct units n f (fun i => c ^ 2 * S i) = (dopplerNoise fs pct units n f S).map (c * ·) := by
  unfold dopplerNoise
  simp only
  by_cases h : noiseBand fs pct units n f = []
  · rw [if_pos h, if_pos h]; rfl
  · rw [if_neg h, if_neg h, ← npSqrt_scale _ _ hc,
      sum_scale (c ^ 2) (fun i => S i * f i) _ _ (fun i => by ring), mul_div_assoc]

/-- Shear of velocities and heights in other units is the same shear: the quotients. -/
theorem npDiv_scale (c : ℝ) (hc : c ≠ 0) (a b : Option ℝ) (z : ℝ) :
    npDiv (opt2 (· - ·) (a.map (c * ·)) (b.map (c * ·))) (some (c * z)) = npDiv (opt2 (· - ·) a b) (some z) := by
  rcases a with _ | a <;> rcases b with _ | b <;> simp [npDiv, opt2, hc]
  · by_cases hz : z = 0
    · simp [hz]
    · simp only [hz, if_false]
      rw [← mul_sub, mul_div_mul_left _ _ hc]

theorem diffzFirst_units (c : ℝ) (hc : c ≠ 0) (n : ℕ) (dat : ℕ → Option ℝ) (z : ℕ → ℝ) :
    diffzFirst n (fun i => (dat i).map (c * ·)) (fun i => c * z i) = diffzFirst n dat z := by
  unfold diffzFirst
  apply List.map_congr_left
  intro i _
  rw [← mul_sub, npDiv_scale c hc]

theorem diffzCentered_units (c : ℝ) (hc : c ≠ 0) (n : ℕ) (dat : ℕ → Option ℝ) (z : ℕ → ℝ) :
    diffzCentered n (fun i => (dat i).map (c * ·)) (fun i => c * z i) = diffzCentered n dat z := by
  unfold diffzCentered
  apply List.map_congr_left
  intro i _
  rw [← mul_sub, show 2 * (c * (z (i + 2) - z (i + 1))) = c * (2 * (z (i + 2) - z (i + 1))) by ring,
    npDiv_scale c hc]

theorem vals_units (c : ℝ) (n : ℕ) (z : ℕ → ℝ) : vals n (fun i => c * z i) = (vals n z).map (c * ·) := by
  unfold vals
  rw [List.map_map]; rfl

theorem diffFunc_units (c : ℝ) (hc : c ≠ 0) (style : DiffStyle) (n : ℕ) (dat : ℕ → Option ℝ) (z : ℕ → ℝ) :
    diffFunc style n (fun i => (dat i).map (c * ·)) (fun i => c * z i) =
      (diffFunc style n dat z).map fun p => (p.1, p.2.map (c * ·)) := by
  cases style with
  | first => simp only [diffFunc, diffzFirst_units c hc, vals_units, Option.map_some, List.map_drop]
  | centered =>
    simp only [diffFunc, diffzCentered_units c hc, vals_units, Option.map_some, List.map_drop, List.map_take]
  | centeredExtended =>
    simp only [diffFunc, diffzExt, diffzFirst_units c hc, diffzCentered_units c hc, vals_units, Option.map_some]
  | other => rfl

/-- C179. The shear does not change with the unit of length, the heights it stands at do. -/
theorem dvdz_units (c : ℝ) (hc : c ≠ 0) (style : DiffStyle) (n : ℕ) (dat : ℕ → Option ℝ) (z : ℕ → ℝ) :
    calcDvdz style n (fun i => (dat i).map (c * ·)) (fun i => c * z i) =
      (calcDvdz style n dat z).map fun p => (p.1, p.2.map (c * ·)) := by
  unfold calcDvdz
  rw [diffFunc_units c hc]
  rcases diffFunc style n dat z with _ | ⟨d, r⟩
  · rfl
  · simp only [Option.map_some, shearArray, List.length_map]
    split <;> rfl

theorem dudz_units (c : ℝ) (hc : c ≠ 0) (style : DiffStyle) (down : Bool) (n : ℕ) (dat : ℕ → Option ℝ)
    (z : ℕ → ℝ) :
    calcDudz style down n (fun i => (dat i).map (c * ·)) (fun i => c * z i) =
      (calcDudz style down n dat z).map fun p => (p.1, p.2.map (c * ·)) := by
  unfold calcDudz
  rw [diffFunc_units c hc]
  rcases diffFunc style n dat z with _ | ⟨d, r⟩
  · rfl
  · cases down
    · simp only [Option.map_some, shearArray, List.length_map, Bool.false_eq_true, if_false]
      split <;> rfl
    · rfl

/-- C179. Squared shear. -/
theorem shear2_units (c : ℝ) (hc : c ≠ 0) (style : DiffStyle) (down : Bool) (n : ℕ) (u v : ℕ → Option ℝ)
    (z : ℕ → ℝ) :
    calcShear2 style down n (fun i => (u i).map (c * ·)) (fun i => (v i).map (c * ·)) (fun i => c * z i) =
      calcShear2 style down n u v z := by
  unfold calcShear2
  rw [dudz_units c hc, dvdz_units c hc]
  rcases calcDudz style down n u z with e | du
  · rfl
  · rcases calcDvdz style n v z with e | dv <;> rfl

theorem zip_units (a b xm ym : ℝ) (x y : List ℝ) :
    ((x.map (a * ·)).zipWith (fun t s => (t - a * xm) * (s - b * ym)) (y.map (b * ·))).sum =
      a * b * (x.zipWith (fun t s => (t - xm) * (s - ym)) y).sum := by
  induction x generalizing y with
  | nil => simp
  | cons t x ih =>
    cases y with
    | nil => simp
    | cons s y =>
      simp only [List.map_cons, List.zipWith_cons_cons, List.sum_cons, ih]
      ring

theorem polyfit1_units (a b : ℝ) (ha : a ≠ 0) (x y : List ℝ) :
    polyfit1 (x.map (a * ·)) (y.map (b * ·)) =
      (polyfit1 x y).map fun p => (b / a * p.1, b * p.2) := by
  unfold polyfit1
  have sx : (x.map (a * ·)).sum = a * x.sum := by
    have := sum_scale a (fun t : ℝ => t) (a * ·) x (fun _ => rfl); simpa using this
  have sy : (y.map (b * ·)).sum = b * y.sum := by
    have := sum_scale b (fun t : ℝ => t) (b * ·) y (fun _ => rfl); simpa using this
  simp only [List.length_map, sx, sy, List.map_map]
  have h1 : (x.map ((fun t => (t - a * x.sum / (x.length : ℝ)) ^ 2) ∘ (a * ·))).sum =
      a ^ 2 * (x.map fun t => (t - x.sum / (x.length : ℝ)) ^ 2).sum := by
    apply sum_scale
    intro k
    simp only [Function.comp_apply]; ring
  have h2 : ((x.map (a * ·)).zipWith (fun t s => (t - a * x.sum / (x.length : ℝ)) * (s - b * y.sum / (x.length : ℝ)))
      (y.map (b * ·))).sum = a * b * (x.zipWith (fun t s => (t - x.sum / (x.length : ℝ)) *
        (s - y.sum / (x.length : ℝ))) y).sum := by
    rw [mul_div_assoc, mul_div_assoc]
    exact zip_units a b _ _ x y
  rw [h1, h2]
  by_cases h : (x.map fun t => (t - x.sum / (x.length : ℝ)) ^ 2).sum = 0
  · rw [if_pos h, if_pos (by rw [h, mul_zero])]; rfl
  · rw [if_neg h, if_neg (mul_ne_zero (by positivity) h)]
    simp only [Option.map_some]
    congr 2
    · field_simp
    · field_simp

/-- C179. Structure function of a profiler: the code fits a parabola, so that the estimate does not change at all
when velocities and lengths are given in other units. -/
theorem sf_fit_units (c : ℝ) (hc : 0 < c) (bin : ℝ) (R m : ℕ) (D : ℕ → ℝ) :
    sfFit (c * bin) R m (fun k => c ^ 2 * D k) = (sfFit bin R m D).map fun p => (p.1, c ^ 2 * p.2) := by
  unfold sfFit
  simp only
  have hx : (((List.range m).drop R).map fun k : ℕ => (((k + 1 : ℕ) : ℝ) * (c * bin)) ^ 2 / 3) =
      (((List.range m).drop R).map fun k : ℕ => (((k + 1 : ℕ) : ℝ) * bin) ^ 2 / 3).map (c ^ 2 * ·) := by
    rw [List.map_map]
    apply List.map_congr_left
    intro k _
    simp only [Function.comp_apply]; ring
  have hy : (((List.range m).drop R).map fun k => c ^ 2 * D k) = (((List.range m).drop R).map D).map (c ^ 2 * ·) := by
    rw [List.map_map]; rfl
  have hk : (c : ℝ) ^ 2 ≠ 0 := by positivity
  rw [hx, hy, polyfit1_units _ _ hk, Option.map_map, Option.map_map]
  congr 1
  funext p
  simp only [Function.comp_apply]
  rw [div_self hk, one_mul]

/-- The structure function of a profiler in units of a metre: cells of 1 m, two separations. -/
theorem exSfFit : sfFit 1 0 2 (fun k => ((k + 1 : ℕ) : ℝ) ^ 2 * 0.7) = some (1, 0) := by
  have e : (List.range 2).drop 0 = [0, 1] := rfl
  simp only [sfFit, polyfit1, e, List.map_cons, List.map_nil, List.length_cons, List.length_nil, List.sum_cons,
    List.sum_nil, List.zipWith_cons_cons, List.zipWith_nil_left]
  norm_num

/-- C179 for the structure function of a profiler: the dissipation has to follow the units. -/
def Spec.sfUnits : Prop :=
  ∀ (c bin : ℝ), 0 < c → 0 < bin → ∀ (R m : ℕ) (D : ℕ → ℝ),
    sfFit (c * bin) R m (fun k => c ^ 2 * D k) = (sfFit bin R m D).map fun p => (c ^ 2 * p.1, c ^ 2 * p.2)

/-- C179 is false of the structure function of a profiler: in centimetres the number that comes out is the one that
comes out in metres. -/
theorem sf_units_false : ¬ Spec.sfUnits := by
  intro h
  have h1 := h 100 1 (by norm_num) one_pos 0 2 (fun k => ((k + 1 : ℕ) : ℝ) ^ 2 * 0.7)
  rw [sf_fit_units 100 (by norm_num), exSfFit] at h1
  simp only [Option.map_some, Option.some.injEq, Prod.mk.injEq] at h1
  norm_num at h1

/- The cases are not empty: a spectrum at one frequency gives a number, and so do a stress profile and a structure
function with lags. -/
example : (lt83 2 .rad 1 (fun _ => 1) 0 2 [⟨0, 1, fun _ => 1⟩]).toOption ≠ none ∧
    ustarFit [0] (fun _ => 0) 1 (fun _ => 1) = some 1 ∧ lInt 1 2 2 (fun i => if i = 0 then 1 else 0) = 2 := by
  refine ⟨?_, ?_, ?_⟩
  · simp [lt83, Except.toOption]
  · simp [ustarFit, npSqrt]
  · have h : lintScale 2 (fun i => if i = 0 then (1 : ℝ) else 0) = 1 := by
      have h1 : (Real.exp 1)⁻¹ < 1 := inv_lt_one_of_one_lt₀ (Real.one_lt_exp_iff.2 one_pos)
      have h2 : 0 ≤ Real.exp 1 := (Real.exp_pos 1).le
      simp [lintScale, List.range_succ, h1, h2]
    simp [lInt, h]

end Dolfyn
