import Verif.Model.Clean
import Mathlib.Analysis.Real.Pi.Irrational
import Mathlib.Analysis.SpecialFunctions.Trigonometric.Complex
import Mathlib.Data.List.FinRange
import Mathlib.Algebra.BigOperators.Fin
import Mathlib.Tactic.Ring
import Mathlib.Tactic.Linarith
import Mathlib.Tactic.LinearCombination
import Mathlib.Tactic.FieldSimp
import Mathlib.Tactic.Positivity
import Mathlib.Tactic.NormNum

/-!
C38 (threshold masks), C39 (nan_beyond_surface), C40 (depth from pressure, range offset),
C70 (find_surface), C72 (medfiltnan).
-/

namespace Dolfyn

/-! ### C38 -/

section thresh
variable {K : Type*} [Field K] [LinearOrder K] [IsStrictOrderedRing K]

/-- C38: `val_exceeds_thresh` replaces exactly the values beyond the threshold. -/
theorem val_exceeds_spec (thresh : K) (val : Option K) (x : K) :
    valExceeds thresh val (some x) = if thresh < |x| then val else some x := rfl

theorem val_exceeds_nan (thresh : K) (val : Option K) : valExceeds thresh val none = none := rfl

/-- C38: applying it twice changes nothing more. -/
theorem val_exceeds_twice (thresh : K) (val old : Option K) :
    valExceeds thresh val (valExceeds thresh val old) = valExceeds thresh val old := by
  cases old with
  | none => rfl
  | some x =>
    by_cases h : thresh < |x|
    · simp only [val_exceeds_spec, if_pos h]
      cases val with
      | none => rfl
      | some v => rw [val_exceeds_spec]; split_ifs <;> rfl
    · simp only [val_exceeds_spec, if_neg h]

/-- C38: in beam coordinates `correlation_filter` blanks exactly the velocities whose correlation
is at or below the threshold. -/
theorem corr_filter_vel (thresh : K) (fc fa : Bool) (c : CorrCell K) (b : ℕ) :
    (∀ x, c.corr b = some x → x ≤ thresh → (corrMask thresh true fc fa c).vel b = none) ∧
      ((∀ x, c.corr b = some x → thresh < x) → (corrMask thresh true fc fa c).vel b = c.vel b) := by
  constructor
  · intro x h1 h2
    simp [corrMask, maskWrite, corrBad, h1, h2]
  · intro h
    unfold corrMask maskWrite corrBad
    simp only
    cases hc : c.corr b with
    | none => simp
    | some x => simp [h x hc]

/-- C127: it blanks the correlation and the amplitude of those beams as well (integer arrays get 0), and
nothing else. -/
theorem corr_filter_others (thresh : K) (fv fc fa : Bool) (c : CorrCell K) (b : ℕ) :
    (∀ x, c.corr b = some x → x ≤ thresh → (corrMask thresh fv fc fa c).corr b = if fc then none else some 0) ∧
    (∀ x, c.corr b = some x → x ≤ thresh → (corrMask thresh fv fc fa c).amp b = if fa then none else some 0) ∧
      ((∀ x, c.corr b = some x → thresh < x) →
        (corrMask thresh fv fc fa c).corr b = c.corr b ∧ (corrMask thresh fv fc fa c).amp b = c.amp b) := by
  refine ⟨?_, ?_, ?_⟩
  · intro x h1 h2
    simp [corrMask, maskWrite, corrBad, h1, h2]
  · intro x h1 h2
    simp [corrMask, maskWrite, corrBad, h1, h2]
  · intro h
    unfold corrMask maskWrite corrBad
    simp only
    cases hc : c.corr b with
    | none => simp
    | some x => simp [h x hc]

/-- C127 (refuted): although documented not to edit correlation or amplitude, `correlation_filter` blanks
them: a beam of correlation 40 and amplitude 9 at threshold 50, byte arrays. -/
theorem corr_filter_keeps_false : ∃ c : CorrCell ℚ, (corrMask 50 true false false c).corr 0 ≠ c.corr 0 ∧
    (corrMask 50 true false false c).amp 0 ≠ c.amp 0 := by
  refine ⟨⟨fun _ => some 1, fun _ => some 40, fun _ => some 9⟩, ?_, ?_⟩ <;>
    norm_num [corrMask, maskWrite, corrBad]

/-- C38: applying `correlation_filter` twice changes nothing more, for float and integer
arrays. -/
theorem corr_filter_twice (thresh : K) (fv fc fa : Bool) (c : CorrCell K) :
    corrMask thresh fv fc fa (corrMask thresh fv fc fa c) = corrMask thresh fv fc fa c := by
  unfold corrMask maskWrite corrBad
  simp only
  congr 1
  all_goals
    funext b
    cases hc : c.corr b with
    | none => simp
    | some x =>
      by_cases h : x ≤ thresh
      · simp only [h, decide_true, if_true]
        cases fc <;> cases fv <;> cases fa <;> simp
      · simp [h]

example : (corrMask (50 : ℚ) true false false ⟨fun _ => some 1, fun b => some (40 + 20 * b), fun _ => some 9⟩).vel 0 = none ∧
    (corrMask (50 : ℚ) true false false ⟨fun _ => some 1, fun b => some (40 + 20 * b), fun _ => some 9⟩).vel 1 = some 1 := by
  constructor <;> simp [corrMask, maskWrite, corrBad] <;> norm_num

theorem foldl_none {n : ℕ} (L : List (Option K)) : L.foldl (opt2 (· + ·)) none = none := by
  induction L with
  | nil => rfl
  | cons a L ih => simpa [opt2] using ih

theorem foldl_opt2_some (L : List K) (a : K) :
    (L.map some).foldl (opt2 (· + ·)) (some a) = some (a + L.sum) := by
  induction L generalizing a with
  | nil => simp
  | cons x L ih =>
    simp only [List.map_cons, List.foldl_cons, List.sum_cons]
    rw [show opt2 (· + ·) (some a) (some x) = some (a + x) from rfl, ih]
    congr 1; ring

theorem foldl_mem_none (L : List (Option K)) (s : Option K) (h : none ∈ L) :
    L.foldl (opt2 (· + ·)) s = none := by
  induction L generalizing s with
  | nil => cases h
  | cons a L ih =>
    rw [List.foldl_cons]
    rcases List.mem_cons.mp h with h1 | h1
    · rw [← h1]
      have : opt2 (· + ·) s (none : Option K) = none := by cases s <;> rfl
      rw [this]; exact foldl_none (n := 0) L
    · exact ih _ h1

theorem nanMulVec_some {n : ℕ} (M : Matrix (Fin n) (Fin n) K) (v : Fin n → K) :
    nanMulVec M (fun j => some (v j)) = fun i => some (M.mulVec v i) := by
  funext i
  unfold nanMulVec
  have : (List.finRange n).map (fun j => opt2 (· * ·) (some (M i j)) (some (v j))) =
      ((List.finRange n).map fun j => M i j * v j).map some := by
    rw [List.map_map]; rfl
  rw [this, foldl_opt2_some, zero_add]
  rw [Matrix.mulVec, dotProduct, ← List.sum_ofFn, List.ofFn_eq_map]

theorem nanMulVec_none {n : ℕ} (M : Matrix (Fin n) (Fin n) K) (v : Fin n → Option K) (j : Fin n)
    (h : v j = none) (i : Fin n) : nanMulVec M v i = none := by
  unfold nanMulVec
  apply foldl_mem_none
  rw [List.mem_map]
  exact ⟨j, List.mem_finRange j, by rw [h]; rfl⟩

/-- C38: outside beam coordinates, a cell with every beam above the threshold is unchanged and a
cell with any beam at or below it is blanked in all its components. -/
theorem corr_filter_rotated {n : ℕ} (M Minv : Matrix (Fin n) (Fin n) K) (hM : M * Minv = 1)
    (thresh : K) (corr : Fin n → Option K) (vel : Fin n → K) :
    ((∀ b x, corr b = some x → thresh < x) →
      corrFilterRotated M Minv thresh corr (fun j => some (vel j)) = fun j => some (vel j)) ∧
    ((∃ b x, corr b = some x ∧ x ≤ thresh) →
      ∀ i, corrFilterRotated M Minv thresh corr (fun j => some (vel j)) i = none) := by
  constructor
  · intro h
    unfold corrFilterRotated
    have e : (fun b => maskWrite true none
        (corrBad thresh (corr b) = true)
        (nanMulVec Minv (fun j => some (vel j)) b)) = fun b => some (Minv.mulVec vel b) := by
      funext b
      rw [nanMulVec_some]
      unfold maskWrite corrBad
      cases hc : corr b with
      | none => simp
      | some x => simp [h b x hc]
    rw [e, nanMulVec_some, Matrix.mulVec_mulVec, hM, Matrix.one_mulVec]
  · rintro ⟨b, x, hb, hx⟩ i
    unfold corrFilterRotated
    apply nanMulVec_none _ _ b
    simp [maskWrite, corrBad, hb, hx]

end thresh

/-! ### C39 -/

/-- C39: with the beam angle from the dataset, a cell is blanked exactly when its distance from
the transducer exceeds (distance to the surface) * cos(beam angle) - cell size. -/
theorem nan_beyond_partial (val : Option ℝ) (deg cell depth range : ℝ) (hd : Option ℝ)
    (old : Option ℝ) :
    nanBeyond true val none (some deg) hd cell (some depth) range old = .ok
      (if (depth - hd.getD 0) * Real.cos (deg * (Real.pi / 180)) - cell < range - hd.getD 0
        then val else old) := by
  unfold nanBeyond surfaceLimit
  simp only [Option.getD_some]
  congr 1
  unfold maskWrite
  cases hd with
  | none => simp
  | some h =>
    have : (depth - h) * Real.cos (deg * (Real.pi / 180)) - cell + h < range ↔
        (depth - h) * Real.cos (deg * (Real.pi / 180)) - cell < range - h := by
      constructor <;> intro h' <;> linarith
    simp [this]

/-- C39: integer variables get 0 (they cannot hold NaN). -/
theorem nan_beyond_int (deg cell depth range : ℝ) (hd : Option ℝ) (old : Option ℝ) :
    nanBeyond false none none (some deg) hd cell (some depth) range old = .ok
      (if (depth - hd.getD 0) * Real.cos (deg * (Real.pi / 180)) - cell < range - hd.getD 0
        then some 0 else old) := by
  unfold nanBeyond surfaceLimit
  simp only [Option.getD_some]
  congr 1
  unfold maskWrite
  cases hd with
  | none => simp
  | some h =>
    have : (depth - h) * Real.cos (deg * (Real.pi / 180)) - cell + h < range ↔
        (depth - h) * Real.cos (deg * (Real.pi / 180)) - cell < range - h := by
      constructor <;> intro h' <;> linarith
    simp [this]

/-- C39: where the depth is missing nothing is blanked. -/
theorem nan_beyond_no_depth (isFloat : Bool) (val : Option ℝ) (deg cell range : ℝ) (hd old : Option ℝ) :
    nanBeyond isFloat val none (some deg) hd cell none range old = .ok old := by
  unfold nanBeyond surfaceLimit maskWrite
  simp

/-- C39: without a beam angle the call raises. -/
theorem nan_beyond_no_angle (isFloat : Bool) (val : Option ℝ) (cell range : ℝ) (hd depth old : Option ℝ) :
    nanBeyond isFloat val none none hd cell depth range old = .error .exception := rfl

/-- A non-zero rational number of degrees never has the same cosine as that number of radians. -/
theorem cos_deg_ne (b : ℚ) (hb : b ≠ 0) : Real.cos b ≠ Real.cos (b * (Real.pi / 180)) := by
  intro h
  have hpi : Irrational Real.pi := irrational_pi
  obtain ⟨k, hk⟩ := Real.cos_eq_cos_iff.mp h
  have hbr : (b : ℝ) ≠ 0 := by exact_mod_cast hb
  have key : ∀ c : ℚ, Real.pi * c = b → False := by
    intro c hc
    have hc0 : (c : ℝ) ≠ 0 := by
      intro h0; rw [h0, mul_zero] at hc; exact hbr hc.symm
    apply hpi
    refine ⟨b / c, ?_⟩
    push_cast
    rw [← hc]; field_simp
  rcases hk with hk | hk
  · -- b π/180 = 2 k π + b
    exact key (b / 180 - 2 * k) (by push_cast; linear_combination hk)
  · exact key (2 * k - b / 180) (by push_cast; linear_combination -hk)

/-- C39 fails: for every non-zero rational beam angle given by the user in degrees there is a
profile and a cell which the call treats differently from the same angle in the dataset. -/
theorem nan_beyond_supplied_wrong (b : ℚ) (hb : b ≠ 0) :
    ∃ depth range : ℝ, 0 < depth ∧
      nanBeyond true none (some (b : ℝ)) none none 0 (some depth) range (some 1) ≠
        nanBeyond true none none (some (b : ℝ)) none 0 (some depth) range (some 1) := by
  have hne := cos_deg_ne b hb
  refine ⟨1, (Real.cos b + Real.cos (b * (Real.pi / 180))) / 2, one_pos, ?_⟩
  unfold nanBeyond surfaceLimit maskWrite
  simp only [Option.getD_some, one_mul, sub_zero]
  rcases lt_or_gt_of_ne hne with h | h
  · have h1 : Real.cos b < (Real.cos b + Real.cos (b * (Real.pi / 180))) / 2 := by linarith
    have h2 : ¬ Real.cos (b * (Real.pi / 180)) < (Real.cos b + Real.cos (b * (Real.pi / 180))) / 2 := by linarith
    simp [h1, not_lt.mp h2]
  · have h1 : ¬ Real.cos b < (Real.cos b + Real.cos (b * (Real.pi / 180))) / 2 := by linarith
    have h2 : Real.cos (b * (Real.pi / 180)) < (Real.cos b + Real.cos (b * (Real.pi / 180))) / 2 := by linarith
    simp [h2, not_lt.mp h1]

/-- C39: echo-sounder cells are blanked exactly beyond the surface. -/
theorem nan_beyond_echo (val old : Option ℝ) (depth range : ℝ) :
    nanBeyondEcho val (some depth) range old = if depth < range then val else old := rfl

/-! ### C40 -/

section depth
variable {K : Type*} [Field K] [LinearOrder K] [IsStrictOrderedRing K]

/-- C40: the documented formulas; the deployment height is added exactly once. -/
theorem surface_from_P_spec (P T S : K) (hd : Option K) :
    (surfaceFromP P T S hd).1 = 1027 - 15 / 100 * (T - 10) + 78 / 100 * (S - 35) + 45 / 10000 * P ∧
      (surfaceFromP P T S hd).2 = P * 10000 / (981 / 100 * (surfaceFromP P T S hd).1) + hd.getD 0 := by
  unfold surfaceFromP waterDensity
  cases hd <;> simp

/-- C40: depth grows strictly with pressure (for water denser than nothing at the surface). -/
theorem surface_from_P_mono (P P' T S : K) (hd : Option K) (h0 : 0 ≤ P) (h : P < P')
    (hr : 0 < waterDensity 0 T S) : (surfaceFromP P T S hd).2 < (surfaceFromP P' T S hd).2 := by
  have e : ∀ P : K, waterDensity P T S = waterDensity 0 T S + 45 / 10000 * P := by
    intro P; unfold waterDensity; ring
  have key : P * 10000 / (981 / 100 * waterDensity P T S) < P' * 10000 / (981 / 100 * waterDensity P' T S) := by
    rw [e P, e P']
    set c := waterDensity 0 T S
    have h1 : 0 < c + 45 / 10000 * P := by positivity
    have h2 : 0 < c + 45 / 10000 * P' := by
      have : 0 ≤ P' := h0.trans h.le
      positivity
    rw [div_lt_div_iff₀ (by positivity) (by positivity)]
    nlinarith [mul_lt_mul_of_pos_right h hr]
  unfold surfaceFromP
  cases hd with
  | none => exact key
  | some x => simp only; linarith

example : 0 < waterDensity (0 : ℚ) 10 35 := by unfold waterDensity; norm_num

/-- C40: at zero pressure the depth is the deployment height. -/
theorem surface_from_P_zero (T S : K) (hd : Option K) : (surfaceFromP 0 T S hd).2 = hd.getD 0 := by
  unfold surfaceFromP; cases hd <;> simp

/-- C40: two range offsets add up, in the coordinates and in the attribute. -/
theorem range_offset_add (ranges : List (List K)) (hd : Option K) (h h' : K) :
    setRangeOffset (setRangeOffset ranges hd h).1 (setRangeOffset ranges hd h).2 h' =
      setRangeOffset ranges hd (h + h') := by
  unfold setRangeOffset
  simp only [List.map_map]
  congr 1
  · apply List.map_congr_left
    intro r _
    simp only [Function.comp, List.map_map]
    apply List.map_congr_left
    intro x _
    simp only [Function.comp]; ring
  · cases hd <;> simp [add_assoc]

/-- C40: the offset `-h` undoes the offset `h` on the coordinates. -/
theorem range_offset_undo (ranges : List (List K)) (hd : Option K) (h : K) :
    (setRangeOffset (setRangeOffset ranges hd h).1 (setRangeOffset ranges hd h).2 (-h)).1 = ranges := by
  rw [range_offset_add]
  unfold setRangeOffset
  simp

/-! ### C70: find_surface -/

theorem argmaxN_lt (f : ℕ → ℚ) (n : ℕ) (hn : 0 < n) : argmaxN f n < n := by
  induction n with
  | zero => omega
  | succ n ih =>
    unfold argmaxN
    split_ifs
    · exact Nat.lt_succ_self n
    · rcases Nat.eq_zero_or_pos n with rfl | h
      · simp [argmaxN]
      · exact Nat.lt_succ_of_lt (ih h)

/-- C70: the first candidate is the first cell of maximal echo. -/
theorem argmaxN_spec (f : ℕ → ℚ) (n : ℕ) (hn : 0 < n) :
    (∀ c < n, f c ≤ f (argmaxN f n)) ∧ ∀ c < argmaxN f n, f c < f (argmaxN f n) := by
  induction n with
  | zero => omega
  | succ n ih =>
    rcases Nat.eq_zero_or_pos n with rfl | h
    · have : argmaxN f 1 = 0 := by simp [argmaxN]
      rw [this]
      exact ⟨fun c hc => by rw [Nat.lt_one_iff.mp hc], fun c hc => absurd hc (Nat.not_lt_zero c)⟩
    · obtain ⟨h1, h2⟩ := ih h
      unfold argmaxN
      split_ifs with hc
      · refine ⟨fun c hcn => ?_, fun c hcn => lt_of_le_of_lt (h1 c hcn) hc⟩
        rcases Nat.lt_succ_iff_lt_or_eq.mp hcn with h3 | rfl
        · exact (h1 c h3).trans hc.le
        · exact le_rfl
      · refine ⟨fun c hcn => ?_, h2⟩
        rcases Nat.lt_succ_iff_lt_or_eq.mp hcn with h3 | rfl
        · exact h1 c h3
        · exact not_lt.mp hc

/-- C70: with at most 256 differences the second candidate is a valid cell and from it on the echo
never decreases; the echo decreases into it unless it never decreases after the first cell. -/
theorem lastDrop_spec (amp : ℕ → ℤ) (n : ℕ) (hn : n ≤ 256) :
    (0 < n → lastDrop amp n + 1 ≤ n) ∧
      (∀ c, lastDrop amp n + 1 ≤ c → c < n → amp c ≤ amp (c + 1)) ∧
      (lastDrop amp n ≠ 0 → amp (lastDrop amp n + 1) < amp (lastDrop amp n)) := by
  induction n with
  | zero => exact ⟨fun h => absurd h (lt_irrefl 0), fun c _ h => absurd h (Nat.not_lt_zero c), fun h => absurd rfl h⟩
  | succ n ih =>
    obtain ⟨h1, h2, h3⟩ := ih (by omega)
    unfold lastDrop
    have hle : lastDrop amp n ≤ n := by
      rcases Nat.eq_zero_or_pos n with rfl | h
      · simp [lastDrop]
      · have := h1 h; omega
    split_ifs with hc
    · rw [Nat.mod_eq_of_lt (by omega), max_eq_right hle]
      exact ⟨fun _ => le_rfl, fun c h4 h5 => by omega, fun _ => by omega⟩
    · refine ⟨fun _ => by omega, fun c h4 h5 => ?_, h3⟩
      rcases Nat.lt_succ_iff_lt_or_eq.mp h5 with h6 | rfl
      · exact h2 c h4 h6
      · omega

theorem min_le_mem_getD (L : List ℕ) (m : ℕ) (hL : L ≠ []) (h : ∀ x ∈ L, m ≤ x) : m ≤ L.min?.getD 0 := by
  cases hm : L.min? with
  | none => exact absurd (List.min?_eq_none_iff.mp hm) hL
  | some a => exact h a (List.min?_mem hm)

/-- C70 fails: when every beam has its strongest echo at a cell whose index is at least the number
of beams, the depth is missing whatever the amplitudes and the threshold. -/
theorem find_surface_lost (median : List K → K) (nb nr nt : ℕ) (hnb : 0 < nb) (hnt : nr ≤ nt)
    (amp : ℕ → ℕ → ℕ → ℚ) (range : ℕ → K) (thresh : ℤ) (t : ℕ) (ht : t < nr)
    (hpeak : ∀ b < nb, nb ≤ argmaxN (fun c => amp b c t) nr) :
    ∃ d, findSurface median nb nr nt amp range thresh = .ok d ∧ d t = none := by
  refine ⟨_, by unfold findSurface; simp only; rw [if_neg (by omega)], ?_⟩
  beta_reduce
  rw [if_pos]
  refine ⟨ht, fun b hb hle => ?_⟩
  exfalso
  have := min_le_mem_getD ((List.range nb).map fun b => argmaxN (fun c => amp b c t) nr) nb
    (by simp; omega) (by
      intro x hx
      obtain ⟨b', hb', rfl⟩ := List.mem_map.mp hx
      exact hpeak b' (List.mem_range.mp hb'))
  omega

/-- C70 fails: profiles with an index beyond the number of cells are never tested against the
threshold. -/
theorem find_surface_untested (median : List K → K) (nb nr nt : ℕ) (hnt : nr ≤ nt)
    (amp : ℕ → ℕ → ℕ → ℚ) (range : ℕ → K) (thresh : ℤ) (t : ℕ) (ht : nr ≤ t) :
    ∃ d, findSurface median nb nr nt amp range thresh = .ok d ∧ ∃ x, d t = some x := by
  refine ⟨_, by unfold findSurface; simp only; rw [if_neg (by omega)], ?_⟩
  beta_reduce
  rw [if_neg fun h => by omega]
  exact ⟨_, rfl⟩

/-- C70 fails: a record with fewer profiles than cells raises IndexError. -/
theorem find_surface_short (median : List K → K) (nb nr nt : ℕ) (hnt : nt < nr)
    (amp : ℕ → ℕ → ℕ → ℚ) (range : ℕ → K) (thresh : ℤ) :
    findSurface median nb nr nt amp range thresh = .error .indexError := by
  unfold findSurface; simp only; rw [if_pos hnt]

/-- C70: in profiles of at most 256 cells a depth that is reported is the median of the two candidate
ranges of every beam, all of them ranges of existing cells; the second is looked for in whole counts. -/
theorem find_surface_median_partial (median : List K → K) (nb nr nt : ℕ) (hnr : 2 ≤ nr)
    (hnr' : nr ≤ 256)
    (amp : ℕ → ℕ → ℕ → ℚ) (range : ℕ → K) (thresh : ℤ) (d : ℕ → Option K)
    (h : findSurface median nb nr nt amp range thresh = .ok d) (t : ℕ) (x : K) (hx : d t = some x) :
    ∃ c1 c2 : ℕ → ℕ, (∀ b, c1 b < nr ∧ c2 b < nr) ∧
      (∀ b, ∀ c < nr, amp b c t ≤ amp b (c1 b) t) ∧
      (∀ b c, c2 b ≤ c → c + 1 < nr → truncAmp (amp b c t) ≤ truncAmp (amp b (c + 1) t)) ∧
      (∀ b, c2 b ≠ 1 → truncAmp (amp b (c2 b) t) < truncAmp (amp b (c2 b - 1) t)) ∧
      x = median (((List.range nb).map fun b => range (c1 b)) ++ ((List.range nb).map fun b => range (c2 b))) := by
  unfold findSurface at h
  simp only at h
  split_ifs at h with hlt
  have h' := Except.ok.inj h
  have hmod : ∀ b, (lastDrop (fun c => truncAmp (amp b c t)) (nr - 1) + 1) % 256 =
      lastDrop (fun c => truncAmp (amp b c t)) (nr - 1) + 1 := by
    intro b
    have := (lastDrop_spec (fun c => truncAmp (amp b c t)) (nr - 1) (by omega)).1 (by omega)
    exact Nat.mod_eq_of_lt (by omega)
  refine ⟨fun b => argmaxN (fun c => amp b c t) nr,
    fun b => lastDrop (fun c => truncAmp (amp b c t)) (nr - 1) + 1,
    fun b => ⟨argmaxN_lt _ _ (by omega), ?_⟩, fun b c hc => (argmaxN_spec (fun c => amp b c t) nr (by omega)).1 c hc,
    fun b c h1 h2 => (lastDrop_spec (fun c => truncAmp (amp b c t)) (nr - 1) (by omega)).2.1 c h1 (by omega),
    fun b hb => ?_, ?_⟩
  · have := (lastDrop_spec (fun c => truncAmp (amp b c t)) (nr - 1) (by omega)).1 (by omega)
    simp only at this ⊢; omega
  · simp only at hb ⊢
    rw [Nat.add_sub_cancel]
    exact (lastDrop_spec (fun c => truncAmp (amp b c t)) (nr - 1) (by omega)).2.2 (by omega)
  · rw [← h'] at hx
    beta_reduce at hx
    split_ifs at hx
    simp only [hmod] at hx
    exact (Option.some.inj hx).symm

theorem lastDrop_single (amp : ℕ → ℤ) (k : ℕ) (hk : amp (k + 1) < amp k)
    (hup : ∀ c, c ≠ k → amp c ≤ amp (c + 1)) : ∀ n, lastDrop amp n = if k < n then k % 256 else 0
  | 0 => by simp [lastDrop]
  | n + 1 => by
    unfold lastDrop
    rw [lastDrop_single amp k hk hup n]
    rcases Nat.lt_trichotomy k n with h | h | h
    · rw [if_neg (by have := hup n (by omega); omega), if_pos h, if_pos (by omega)]
    · subst h
      rw [if_pos (by omega), if_neg (by omega), if_pos (by omega)]
      simp
    · rw [if_neg (by have := hup n (by omega); omega), if_neg (by omega), if_neg (by omega)]

/-- C70 fails in profiles of more than 256 cells: the index of the last decrease wraps around. If the
echo decreases only from cell 256 to 257, the second candidate is cell 1 for every beam. -/
theorem find_surface_wrap_false (median : List K → K) (nb nr nt : ℕ) (hnr : 258 ≤ nr)
    (amp : ℕ → ℕ → ℕ → ℚ) (range : ℕ → K) (thresh : ℤ) (d : ℕ → Option K)
    (h : findSurface median nb nr nt amp range thresh = .ok d) (t : ℕ) (x : K) (hx : d t = some x)
    (hdrop : ∀ b, truncAmp (amp b 257 t) < truncAmp (amp b 256 t))
    (hup : ∀ b c, c ≠ 256 → truncAmp (amp b c t) ≤ truncAmp (amp b (c + 1) t)) :
    ∃ c1 : ℕ → ℕ, x = median (((List.range nb).map fun b => range (c1 b)) ++
      ((List.range nb).map fun _ => range 1)) := by
  unfold findSurface at h
  simp only at h
  split_ifs at h with hlt
  have h' := Except.ok.inj h
  have hmod : ∀ b, (lastDrop (fun c => truncAmp (amp b c t)) (nr - 1) + 1) % 256 = 1 := by
    intro b
    rw [lastDrop_single _ 256 (hdrop b) (hup b), if_pos (by omega)]
  refine ⟨fun b => argmaxN (fun c => amp b c t) nr, ?_⟩
  rw [← h'] at hx
  beta_reduce at hx
  split_ifs at hx
  simp only [hmod] at hx
  exact (Option.some.inj hx).symm

/-- The hypotheses of `find_surface_wrap_false` are met. -/
example : ∃ d x, findSurface (K := ℚ) (fun l => l.sum) 4 300 301
      (fun _ c _ => if c ≤ 256 then 1 else 0) (fun c => c) 10 = .ok d ∧ d 300 = some x ∧
    ∃ c1 : ℕ → ℕ, x = (((List.range 4).map fun b => (c1 b : ℚ)) ++
      ((List.range 4).map fun _ => ((1 : ℕ) : ℚ))).sum := by
  obtain ⟨d, h, x, hx⟩ := find_surface_untested (K := ℚ) (fun l => l.sum) 4 300 301 (by norm_num)
    (fun _ c _ => if c ≤ 256 then 1 else 0) (fun c => c) 10 300 (by norm_num)
  refine ⟨d, x, h, hx, find_surface_wrap_false _ 4 300 301 (by norm_num) _ (fun c => (c : ℚ)) 10 d h 300 x hx ?_ ?_⟩
  · intro b; norm_num [truncAmp]
  · intro b c hc
    rcases Nat.lt_or_ge c 256 with h1 | h1
    · rw [if_pos (by omega), if_pos (by omega)]
    · rw [if_neg (by omega), if_neg (by omega)]

/-- The failure in numbers: one profile-rich record, four beams, a strong surface echo (a jump of
200 counts with threshold 10) at cell 6, and no depth. -/
example : ∃ d, findSurface (K := ℚ) (fun l => l.sum) 4 8 8 (fun _ c _ => if c = 6 then 250 else 50)
    (fun c => c) 10 = .ok d ∧ d 0 = none := by
  apply find_surface_lost _ _ _ _ (by norm_num) le_rfl _ _ _ _ (by norm_num)
  intro b _
  decide +kernel

/-! ### C72: medfiltnan -/

theorem window_card (n i k : ℕ) (hodd : k % 2 = 1) (p : ℕ → Bool) :
    ((List.range n).filter fun j => decide (j ≤ i + k / 2 ∧ i ≤ j + k / 2) && p j).length ≤ k := by
  have hsub : ((List.range n).filter fun j => decide (j ≤ i + k / 2 ∧ i ≤ j + k / 2) && p j).Sublist
      ((List.range n).filter fun j => decide (j ≤ i + k / 2 ∧ i ≤ j + k / 2)) := by
    rw [← List.filter_filter]
    have := List.filter_sublist (l := (List.range n).filter fun j => decide (j ≤ i + k / 2 ∧ i ≤ j + k / 2)) (p := p)
    rw [List.filter_filter] at this ⊢
    simpa [Bool.and_comm] using this
  have hnd : ((List.range n).filter fun j => decide (j ≤ i + k / 2 ∧ i ≤ j + k / 2)).Nodup :=
    List.nodup_range.filter _
  have hmem : ∀ j ∈ (List.range n).filter (fun j => decide (j ≤ i + k / 2 ∧ i ≤ j + k / 2)),
      j ∈ (List.range k).map (fun m => i + m - k / 2) := by
    intro j hj
    rw [List.mem_filter, decide_eq_true_eq] at hj
    rw [List.mem_map]
    refine ⟨j + k / 2 - i, List.mem_range.mpr (by omega), by omega⟩
  calc _ ≤ _ := hsub.length_le
    _ ≤ ((List.range k).map (fun m => i + m - k / 2)).length := (List.subperm_of_subset hnd hmem).length_le
    _ = k := by simp

/-- C72 fails: the threshold is compared with a fraction, so any threshold of one sample or more
never blanks anything. -/
theorem medfiltnan_never (n k : ℕ) (hk : 0 < k) (hodd : k % 2 = 1) (thresh : K) (ht : 1 ≤ thresh)
    (a med : ℕ → Option K) (i : ℕ) : medfiltnan n k thresh a med i = med i := by
  unfold medfiltnan
  simp only
  rw [if_neg]
  rintro ⟨-, h⟩
  have hc := window_card n i k hodd fun j => (a j).isNone
  have hkK : (0 : K) < k := by exact_mod_cast hk
  rw [lt_div_iff₀ hkK] at h
  have h2 : (((List.range n).filter fun j => decide (j ≤ i + k / 2 ∧ i ≤ j + k / 2) && (a j).isNone).length : K) ≤ k := by
    exact_mod_cast hc
  nlinarith

/-- C72: for a threshold between 0 and 1 exactly the windows with a larger fraction of missing
samples are blanked. -/
theorem medfiltnan_fraction_partial (n k : ℕ) (thresh : K) (ht : 0 < thresh) (a med : ℕ → Option K)
    (i : ℕ) (x : K) (hm : med i = some x) : medfiltnan n k thresh a med i = none ↔
      thresh < (((List.range n).filter fun j =>
        decide (j ≤ i + k / 2 ∧ i ≤ j + k / 2) && (a j).isNone).length : K) / k := by
  unfold medfiltnan
  simp only [hm]
  split_ifs with h
  · exact ⟨fun _ => h.2, fun _ => rfl⟩
  · simp only [reduceCtorEq, false_iff]
    exact fun h' => h ⟨ht, h'⟩

/-- All five samples of the window missing, maximum gap 4, and still not blanked. -/
example : medfiltnan 5 5 (4 : ℚ) (fun _ => none) (fun _ => some 7) 2 = some 7 :=
  medfiltnan_never 5 5 (by norm_num) (by norm_num) 4 (by norm_num) _ _ 2

end depth

end Dolfyn
