import Verif.Model.VarBin
import Verif.Props.TimeBin

/-!
C165: variances of bins in single precision.
-/

namespace Dolfyn

theorem fl32_nonneg {x : ℚ} (h : 0 ≤ x) : 0 ≤ fl32 x := by
  have := fl32_err x
  rw [abs_of_nonneg h, abs_le] at this
  have h1 := this.1
  norm_num at h1
  linarith

/-- The error of a sum of float32 numbers of any sign. -/
theorem fls_leaves (x : ℕ → ℚ) : ∀ (o : SumTree),
    |o.fls x - (o.leaves.map x).sum| ≤ ((1 + 1 / 2 ^ 24) ^ o.depth - 1) * (o.leaves.map fun i => |x i|).sum := by
  intro o
  induction o with
  | leaf i =>
    simp only [SumTree.leaves, SumTree.fls, SumTree.depth, List.map_cons, List.map_nil, List.sum_cons, List.sum_nil, add_zero,
      sub_self, abs_zero, pow_zero, zero_mul, le_refl]
  | node a b iha ihb =>
    have sa : 0 ≤ (a.leaves.map fun i => |x i|).sum := List.sum_nonneg (by
      intro y hy
      obtain ⟨i, hi, rfl⟩ := List.mem_map.mp hy
      exact abs_nonneg _)
    have sb : 0 ≤ (b.leaves.map fun i => |x i|).sum := List.sum_nonneg (by
      intro y hy
      obtain ⟨i, hi, rfl⟩ := List.mem_map.mp hy
      exact abs_nonneg _)
    have ta : |(a.leaves.map x).sum| ≤ (a.leaves.map fun i => |x i|).sum := by
      generalize a.leaves = l
      induction l with
      | nil => simp
      | cons y l ih => simp only [List.map_cons, List.sum_cons]; exact (abs_add_le _ _).trans (by linarith)
    have tb : |(b.leaves.map x).sum| ≤ (b.leaves.map fun i => |x i|).sum := by
      generalize b.leaves = l
      induction l with
      | nil => simp
      | cons y l ih => simp only [List.map_cons, List.sum_cons]; exact (abs_add_le _ _).trans (by linarith)
    simp only [SumTree.leaves, SumTree.fls, SumTree.depth, List.map_append, List.sum_append]
    set A := (a.leaves.map x).sum
    set B := (b.leaves.map x).sum
    set A' := (a.leaves.map fun i => |x i|).sum
    set B' := (b.leaves.map fun i => |x i|).sum
    set e : ℚ := (1 + 1 / 2 ^ 24) ^ max a.depth b.depth - 1 with he
    have ha : (1 + 1 / 2 ^ 24 : ℚ) ^ a.depth - 1 ≤ e := by
      have := pow_le_pow_right₀ (by norm_num : (1 : ℚ) ≤ 1 + 1 / 2 ^ 24) (le_max_left a.depth b.depth)
      linarith
    have hb : (1 + 1 / 2 ^ 24 : ℚ) ^ b.depth - 1 ≤ e := by
      have := pow_le_pow_right₀ (by norm_num : (1 : ℚ) ≤ 1 + 1 / 2 ^ 24) (le_max_right a.depth b.depth)
      linarith
    have h1 : |(a.fls x + b.fls x) - (A + B)| ≤ e * (A' + B') := by
      rw [show (a.fls x + b.fls x) - (A + B) = (a.fls x - A) + (b.fls x - B) by ring]
      have k1 := mul_le_mul_of_nonneg_right ha sa
      have k2 := mul_le_mul_of_nonneg_right hb sb
      have := abs_add_le (a.fls x - A) (b.fls x - B)
      linarith
    have h2 := rel32 (a.fls x + b.fls x)
    have h3 : |a.fls x + b.fls x| ≤ (e + 1) * (A' + B') := by
      have e1 : a.fls x + b.fls x = ((a.fls x + b.fls x) - (A + B)) + (A + B) := by ring
      have e2 := abs_add_le ((a.fls x + b.fls x) - (A + B)) (A + B)
      have e3 := abs_add_le A B
      rw [← e1] at e2
      linarith
    have h4 : fl32 (a.fls x + b.fls x) - (A + B) = (fl32 (a.fls x + b.fls x) - (a.fls x + b.fls x)) +
        ((a.fls x + b.fls x) - (A + B)) := by ring
    rw [h4]
    refine (abs_add_le _ _).trans ?_
    have h5 := mul_le_mul_of_nonneg_left h3 (by norm_num : (0 : ℚ) ≤ 1 / 2 ^ 24)
    have h6 : ((1 + 1 / 2 ^ 24 : ℚ) ^ (max a.depth b.depth + 1) - 1) = e + 1 / 2 ^ 24 * (e + 1) := by
      rw [he, pow_succ]; ring
    rw [h6]
    linarith

/-- The mean in single precision of numbers of any sign. -/
theorem meanSingle_near (o : SumTree) (n c : ℕ) (hc : 0 < c) (ho : Spec.AddsOnce o n 40) (x : ℕ → ℚ) :
    |meanSingle o c x - (∑ j ∈ Finset.range n, x j) / c| ≤ 43 / 2 ^ 24 * ((∑ j ∈ Finset.range n, |x j|) / c) := by
  have hcq : (0 : ℚ) < c := by exact_mod_cast hc
  have f1 := fls_leaves x o
  rw [sum_leaves _ ho, sum_leaves _ ho] at f1
  set S := ∑ j ∈ Finset.range n, x j with hS
  set T := ∑ j ∈ Finset.range n, |x j| with hT
  have hT0 : 0 ≤ T := Finset.sum_nonneg fun _ _ => abs_nonneg _
  have hST : |S| ≤ T := Finset.abs_sum_le_sum_abs _ _
  have hpow : ((1 + 1 / 2 ^ 24 : ℚ) ^ o.depth - 1) ≤ 41 / 2 ^ 24 := by
    have := pow_le_pow_right₀ (by norm_num : (1 : ℚ) ≤ 1 + 1 / 2 ^ 24) ho.depth
    have h2 : (1 + 1 / 2 ^ 24 : ℚ) ^ 40 ≤ 1 + 41 / 2 ^ 24 := by norm_num
    linarith
  have f2 : |o.fls x - S| ≤ 41 / 2 ^ 24 * T := f1.trans (mul_le_mul_of_nonneg_right hpow hT0)
  unfold meanSingle
  set f := o.fls x
  have g1 : |f / c - S / c| ≤ 41 / 2 ^ 24 * (T / c) := by
    rw [← sub_div, abs_div, abs_of_pos hcq, ← mul_div_assoc]
    exact div_le_div_of_nonneg_right f2 hcq.le
  have g2 : |S / c| ≤ T / c := by
    rw [abs_div, abs_of_pos hcq]
    exact div_le_div_of_nonneg_right hST hcq.le
  set A := T / c
  have hA : 0 ≤ A := div_nonneg hT0 hcq.le
  have g3 : |f / c| ≤ (1 + 41 / 2 ^ 24) * A := by
    have := abs_add_le (f / c - S / c) (S / c)
    rw [sub_add_cancel] at this
    linarith
  have g4 := rel64 (f / c)
  have g5 := rel32 (fl64 (f / c))
  have g6 : |fl64 (f / c)| ≤ (1 + 42 / 2 ^ 24) * A := by
    have := abs_add_le (fl64 (f / c) - f / c) (f / c)
    rw [sub_add_cancel] at this
    norm_num at g3 g4 this ⊢
    linarith
  have g7 : fl32 (fl64 (f / c)) - S / c = (fl32 (fl64 (f / c)) - fl64 (f / c)) + (fl64 (f / c) - f / c) + (f / c - S / c) := by
    ring
  rw [g7]
  have g8 := abs_add_three (fl32 (fl64 (f / c)) - fl64 (f / c)) (fl64 (f / c) - f / c) (f / c - S / c)
  norm_num at g1 g3 g4 g5 g6 g8 ⊢
  linarith

/-- The samples of a bin that are not missing. -/
def Spec.present (n : ℕ) (x : ℕ → Option ℚ) : Finset ℕ := (Finset.range n).filter fun i => (x i).isSome

/-- The value of a sample that is not missing. -/
def Spec.val (x : ℕ → Option ℚ) (i : ℕ) : ℚ := (x i).getD 0

/-- The mean of the samples that are not missing. -/
def Spec.presentAvg (n : ℕ) (x : ℕ → Option ℚ) : ℚ := (∑ i ∈ Spec.present n x, Spec.val x i) / (Spec.present n x).card

/-- The mean of their absolute values. -/
def Spec.binAbs (n : ℕ) (x : ℕ → Option ℚ) : ℚ := (∑ i ∈ Spec.present n x, |Spec.val x i|) / (Spec.present n x).card

/-- Their population variance. -/
def Spec.binVariance (n : ℕ) (x : ℕ → Option ℚ) : ℚ :=
  (∑ i ∈ Spec.present n x, (Spec.val x i - Spec.presentAvg n x) ^ 2) / (Spec.present n x).card

theorem countValid_card (n : ℕ) (x : ℕ → Option ℚ) : countValid n x = (Spec.present n x).card := by
  unfold countValid Spec.present
  rw [← List.toFinset_card_of_nodup ((List.nodup_range).filter _)]
  congr 1
  ext i
  simp

theorem sum_present (n : ℕ) (x : ℕ → Option ℚ) (f : ℕ → ℚ) (hf : ∀ i, x i = none → f i = 0) :
    ∑ i ∈ Finset.range n, f i = ∑ i ∈ Spec.present n x, f i := by
  unfold Spec.present
  rw [Finset.sum_filter]
  apply Finset.sum_congr rfl
  intro i _
  rcases h : x i with _ | v
  · simp [hf i h]
  · simp

/-- **C165.** The variance of one bin: never smaller than the true one by more than 47/2²⁴ of it, and larger at most by that
and the square of 43/2²⁴ of the mean absolute value. -/
theorem var_single_near (o : SumTree) (n : ℕ) (ho : Spec.AddsOnce o n 40) (x : ℕ → Option ℚ) (h : ∃ i < n, x i ≠ none) :
    ∃ v, varSingle o n x = some v ∧ (1 - 47 / 2 ^ 24) * Spec.binVariance n x ≤ v ∧
      v ≤ (1 + 47 / 2 ^ 24) * (Spec.binVariance n x + (43 / 2 ^ 24 * Spec.binAbs n x) ^ 2) := by
  obtain ⟨i0, hi0, hx0⟩ := h
  have hcard : 0 < (Spec.present n x).card := Finset.card_pos.mpr ⟨i0, by
    simp only [Spec.present, Finset.mem_filter, Finset.mem_range]
    exact ⟨hi0, Option.isSome_iff_ne_none.mpr hx0⟩⟩
  unfold varSingle
  simp only [countValid_card]
  rw [if_neg hcard.ne']
  refine ⟨_, rfl, ?_⟩
  set c := (Spec.present n x).card with hc
  have hcq : (0 : ℚ) < c := by exact_mod_cast hcard
  have e1 := meanSingle_near o n c hcard ho fun i => (x i).getD 0
  rw [sum_present n x (fun i => (x i).getD 0) (fun i hi => by simp [hi]),
    sum_present n x (fun i => |(x i).getD 0|) (fun i hi => by simp [hi])] at e1
  set m := meanSingle o c fun i => (x i).getD 0 with hm
  change |m - Spec.presentAvg n x| ≤ 43 / 2 ^ 24 * Spec.binAbs n x at e1
  set μ := Spec.presentAvg n x with hμ
  set A := Spec.binAbs n x
  have hA : 0 ≤ A := div_nonneg (Finset.sum_nonneg fun _ _ => abs_nonneg _) hcq.le
  -- the squares
  set y : ℕ → ℚ := fun i => ((x i).map fun v => fl32 (fl32 (v - m) * fl32 (v - m))).getD 0 with hy
  have hy0 : ∀ i, 0 ≤ y i := by
    intro i
    rcases hxi : x i with _ | v
    · simp [hy, hxi]
    · simp only [hy, hxi, Option.map_some, Option.getD_some]
      exact fl32_nonneg (mul_self_nonneg _)
  have e2 := meanSingle_near o n c hcard ho y
  have habs : ∑ j ∈ Finset.range n, |y j| = ∑ j ∈ Finset.range n, y j :=
    Finset.sum_congr rfl fun j _ => abs_of_nonneg (hy0 j)
  rw [habs, sum_present n x y (fun i hi => by simp [hy, hi])] at e2
  have hyi : ∀ i ∈ Spec.present n x, |y i - (Spec.val x i - m) ^ 2| ≤ 301 / 100 / 2 ^ 24 * (Spec.val x i - m) ^ 2 := by
    intro i hi
    obtain ⟨v, hv⟩ := Option.isSome_iff_exists.mp (Finset.mem_filter.mp hi).2
    have ey : y i = fl32 (fl32 (v - m) * fl32 (v - m)) := by simp [hy, hv]
    have ev : Spec.val x i = v := by simp [Spec.val, hv]
    rw [ey, ev]
    set d := v - m
    have r1 := rel32 d
    have r2 := rel32 (fl32 d * fl32 d)
    have r3 : |fl32 d * fl32 d - d ^ 2| ≤ (2 / 2 ^ 24 + 1 / 2 ^ 48) * |d ^ 2| := by
      rw [show fl32 d * fl32 d - d ^ 2 = (fl32 d - d) * ((fl32 d - d) + 2 * d) by ring, abs_mul]
      have k1 : |(fl32 d - d) + 2 * d| ≤ (1 / 2 ^ 24 + 2) * |d| := by
        refine (abs_add_le _ _).trans ?_
        rw [abs_mul, abs_of_pos (by norm_num : (0 : ℚ) < 2)]
        linarith
      refine (mul_le_mul r1 k1 (abs_nonneg _) (by positivity)).trans (le_of_eq ?_)
      rw [abs_pow]; ring
    have r4 := rel_trans r3 r2 (by norm_num)
    rw [abs_of_nonneg (sq_nonneg d)] at r4
    refine r4.trans (mul_le_mul_of_nonneg_right (by norm_num) (sq_nonneg d))
  set Q := ∑ i ∈ Spec.present n x, (Spec.val x i - m) ^ 2 with hQ
  have hQ0 : 0 ≤ Q := Finset.sum_nonneg fun _ _ => sq_nonneg _
  set Y := ∑ i ∈ Spec.present n x, y i with hY
  have e3 : |Y - Q| ≤ 301 / 100 / 2 ^ 24 * Q := by
    rw [hY, hQ, ← Finset.sum_sub_distrib, Finset.mul_sum]
    exact (Finset.abs_sum_le_sum_abs _ _).trans (Finset.sum_le_sum hyi)
  have e4 : Q / c = Spec.binVariance n x + (m - μ) ^ 2 := by
    unfold Spec.binVariance
    rw [← hc, div_add' _ _ _ hcq.ne']
    congr 1
    have hs : ∑ i ∈ Spec.present n x, (Spec.val x i - μ) = 0 := by
      rw [Finset.sum_sub_distrib, Finset.sum_const, nsmul_eq_mul, ← hc, hμ, Spec.presentAvg, ← hc]
      field_simp
      ring
    have hexp : ∀ i, (Spec.val x i - m) ^ 2 = (Spec.val x i - μ) ^ 2 + (2 * (μ - m)) * (Spec.val x i - μ) + (m - μ) ^ 2 := by
      intro i; ring
    rw [hQ]
    simp only [hexp]
    rw [Finset.sum_add_distrib, Finset.sum_add_distrib, ← Finset.mul_sum, hs, mul_zero, add_zero, Finset.sum_const,
      nsmul_eq_mul, ← hc]
    ring
  have e5 : |Y / c - Q / c| ≤ 301 / 100 / 2 ^ 24 * (Q / c) := by
    rw [← sub_div, abs_div, abs_of_pos hcq, ← mul_div_assoc]
    exact div_le_div_of_nonneg_right e3 hcq.le
  have hV0 : 0 ≤ Spec.binVariance n x := div_nonneg (Finset.sum_nonneg fun _ _ => sq_nonneg _) hcq.le
  have e6 : (m - μ) ^ 2 ≤ (43 / 2 ^ 24 * A) ^ 2 := by
    rw [← sq_abs]
    exact pow_le_pow_left₀ (abs_nonneg _) e1 2
  have e7 := sq_nonneg (m - μ)
  rw [e4] at e5
  set V := Spec.binVariance n x
  set D := (m - μ) ^ 2
  set E := (43 / 2 ^ 24 * A) ^ 2
  set M := meanSingle o c y
  set Z := Y / c
  rw [abs_le] at e2 e5
  norm_num at e2 e5 ⊢
  constructor <;> linarith [e2.1, e2.2, e5.1, e5.2]

theorem fls_congr {x y : ℕ → ℚ} : ∀ (o : SumTree), (∀ i ∈ o.leaves, x i = y i) → o.fls x = o.fls y := by
  intro o
  induction o with
  | leaf i => intro h; exact h i (by simp [SumTree.leaves])
  | node p q ihp ihq =>
    intro h
    simp only [SumTree.fls]
    rw [ihp (fun i hi => h i (by simp [SumTree.leaves, hi])), ihq (fun i hi => h i (by simp [SumTree.leaves, hi]))]

theorem varSingle_congr {o : SumTree} {n d : ℕ} (ho : Spec.AddsOnce o n d) {x y : ℕ → Option ℚ} (h : ∀ i < n, x i = y i) :
    varSingle o n x = varSingle o n y := by
  have hlt : ∀ i ∈ o.leaves, i < n := fun i hi => List.mem_range.mp (ho.perm.mem_iff.mp hi)
  have hc : countValid n x = countValid n y := by
    unfold countValid
    congr 1
    apply List.filter_congr
    intro i hi
    rw [h i (List.mem_range.mp hi)]
  unfold varSingle
  simp only [hc]
  have hm : (meanSingle o (countValid n y) fun i => (x i).getD 0) = meanSingle o (countValid n y) fun i => (y i).getD 0 := by
    unfold meanSingle
    rw [fls_congr o fun i hi => by rw [h i (hlt i hi)]]
  rw [hm]
  split
  · rfl
  · congr 1
    generalize (meanSingle o (countValid n y) fun i => (y i).getD 0) = m
    unfold meanSingle
    rw [fls_congr o fun i hi => by rw [h i (hlt i hi)]]

/-- **C165.** The variances of all bins of a record: one per bin, each near that of the samples of its bin that are not
missing; missing for a bin without samples. -/
theorem bin_var_single (o : SumTree) (b : Binner) (nBin : Option ℚ) (n len : ℕ) (hu : parseNbin b nBin = n) (hn : 0 < n)
    (hlen : n ≤ len) (ho : Spec.AddsOnce o n 40) (x : ℕ → Option ℚ) :
    ∃ out, binVarSingle o b len x nBin = .ok out ∧ out.length = len / n ∧ ∀ r < len / n,
      ((∀ j < n, x (r * n + j) = none) ∧ out[r]? = some none) ∨
      ((∃ j < n, x (r * n + j) ≠ none) ∧ ∃ v, out[r]? = some (some v) ∧
        (1 - 47 / 2 ^ 24) * Spec.binVariance n (fun j => x (r * n + j)) ≤ v ∧
        v ≤ (1 + 47 / 2 ^ 24) * (Spec.binVariance n (fun j => x (r * n + j)) +
          (43 / 2 ^ 24 * Spec.binAbs n (fun j => x (r * n + j))) ^ 2)) := by
  obtain ⟨m, h1, h2, h3, h4⟩ := reshape_no_pad (some (0 : ℚ)) len x n hn hlen
  unfold binVarSingle
  rw [hu]
  have h1' : reshape (some (0 : ℚ)) len x (n : ℚ) 0 = .ok m := by exact_mod_cast h1
  rw [h1']
  refine ⟨_, rfl, by simp [h2], fun r hr => ?_⟩
  rw [List.getElem?_map, List.getElem?_range (by omega)]
  have e : varSingle o m.cols (m.at_ r) = varSingle o n (fun j => x (r * n + j)) := by
    rw [h3]
    exact varSingle_congr ho fun j hj => h4 r j (by omega) hj
  simp only [Option.map_some, e]
  by_cases hx : ∃ j < n, x (r * n + j) ≠ none
  · obtain ⟨v, hv, k1, k2⟩ := var_single_near o n ho (fun j => x (r * n + j)) hx
    exact Or.inr ⟨hx, v, by rw [hv], k1, k2⟩
  · push Not at hx
    refine Or.inl ⟨hx, ?_⟩
    have : countValid n (fun j => x (r * n + j)) = 0 := by
      unfold countValid
      rw [List.length_eq_zero_iff, List.filter_eq_nil_iff]
      intro j hj
      beta_reduce
      rw [hx j (List.mem_range.mp hj)]
      simp
    unfold varSingle
    rw [if_pos this]

/-- A value with at most 24 binary digits is a float32. -/
theorem fl32_exact (m : ℤ) (e : ℤ) (hm : |m| < 2 ^ 24) : fl32 (m * 2 ^ e) = m * 2 ^ e := by
  rcases eq_or_ne m 0 with rfl | h0
  · simp [fl32_zero]
  have hp : (0 : ℚ) < 2 ^ e := zpow_pos (by norm_num) _
  have hx : |((m : ℚ) * 2 ^ e)| = |(m : ℚ)| * 2 ^ e := by rw [abs_mul, abs_of_pos hp]
  have hm0 : (0 : ℚ) < |(m : ℚ)| := abs_pos.mpr (by exact_mod_cast h0)
  set x : ℚ := m * 2 ^ e with hxe
  have hx0 : 0 < |x| := by rw [hx]; positivity
  have hlt : |x| < ((2 : ℕ) : ℚ) ^ (e + 24) := by
    rw [hx]
    push_cast
    rw [zpow_add₀ (by norm_num), mul_comm]
    have : |(m : ℚ)| < 2 ^ (24 : ℕ) := by exact_mod_cast hm
    have h2 : ((2 : ℚ) ^ (24 : ℤ)) = 2 ^ (24 : ℕ) := by norm_cast
    rw [h2]
    exact mul_lt_mul_of_pos_left this hp
  have hlog : Int.log 2 |x| < e + 24 := (Int.lt_zpow_iff_log_lt (b := 2) (by norm_num) hx0).mp hlt
  obtain ⟨d, hd⟩ : ∃ d : ℕ, e - (Int.log 2 |x| - 23) = d := ⟨(e - (Int.log 2 |x| - 23)).toNat, by omega⟩
  have key : x / 2 ^ (Int.log 2 |x| - 23) = ((m * 2 ^ d : ℤ) : ℚ) := by
    rw [hxe, mul_div_assoc, ← zpow_sub₀ (by norm_num), ← hxe, hd]
    push_cast
    norm_cast
  unfold fl32
  simp only
  rw [key, pyRound_intCast, ← key]
  have : (0 : ℚ) < 2 ^ (Int.log 2 |x| - 23) := zpow_pos (by norm_num) _
  field_simp

theorem fls_const (k e : ℤ) (n : ℕ) (hk : (n : ℤ) * |k| < 2 ^ 24) : ∀ (o : SumTree), o.leaves.length ≤ n →
    o.fls (fun _ => (k : ℚ) * 2 ^ e) = o.leaves.length * (k * 2 ^ e) := by
  intro o
  induction o with
  | leaf i => intro _; simp [SumTree.fls, SumTree.leaves]
  | node a b iha ihb =>
    intro h
    simp only [SumTree.leaves, List.length_append] at h ⊢
    simp only [SumTree.fls]
    rw [iha (by omega), ihb (by omega)]
    have e1 : (a.leaves.length : ℚ) * (k * 2 ^ e) + b.leaves.length * (k * 2 ^ e) =
        ((((a.leaves.length + b.leaves.length : ℕ) : ℤ) * k : ℤ) : ℚ) * 2 ^ e := by push_cast; ring
    rw [e1, fl32_exact]
    · push_cast; ring
    · rw [abs_mul, Nat.abs_cast]
      refine lt_of_le_of_lt (mul_le_mul_of_nonneg_right ?_ (abs_nonneg k)) hk
      exact_mod_cast h

/-- **C165.** A constant record has the variance 0 if its value has so few binary digits that `n` times it is still exact. -/
theorem var_single_const (o : SumTree) (n d : ℕ) (hn : 0 < n) (ho : Spec.AddsOnce o n d) (k e : ℤ)
    (hk : (n : ℤ) * |k| < 2 ^ 24) : varSingle o n (fun _ => some ((k : ℚ) * 2 ^ e)) = some 0 := by
  have hlen : o.leaves.length = n := by rw [ho.perm.length_eq, List.length_range]
  have hc : countValid n (fun _ => some ((k : ℚ) * 2 ^ e)) = n := by simp [countValid]
  have hnq : (n : ℚ) ≠ 0 := by exact_mod_cast hn.ne'
  have hkn : |k| < 2 ^ 24 := by
    have : (1 : ℤ) * |k| ≤ n * |k| := mul_le_mul_of_nonneg_right (by exact_mod_cast hn) (abs_nonneg k)
    linarith
  have hm : meanSingle o n (fun _ => (k : ℚ) * 2 ^ e) = k * 2 ^ e := by
    unfold meanSingle
    rw [fls_const k e n hk o hlen.le, hlen, mul_div_cancel_left₀ _ hnq, fl64_exact k e (by norm_num at hkn ⊢; omega), fl32_exact k e hkn]
  have hz : meanSingle o n (fun _ => 0) = 0 := by
    have := fls_const 0 0 n (by norm_num) o hlen.le
    simp only [Int.cast_zero, zero_mul, mul_zero] at this
    unfold meanSingle
    rw [this, zero_div, fl64_zero, fl32_zero]
  unfold varSingle
  simp only [hc]
  rw [if_neg hn.ne']
  simp only [Option.getD_some, Option.map_some, hm, sub_self, fl32_zero, mul_zero, hz]

/-- **C165** is false of the code for constant records in general: three samples of 3 mm/s, as they are stored. -/
theorem var_constant_false : ¬ ∀ (o : SumTree) (n : ℕ) (c : ℚ), 0 < n → Spec.AddsOnce o n 40 → fl32 c = c →
    varSingle o n (fun _ => some c) = some 0 := by
  intro h
  have := h (Spec.inOrder 2) 3 (storeLin (1 / 1000) 0 3) (by norm_num) (inOrder_once 2 40 (by norm_num)) (by decide +kernel)
  revert this
  decide +kernel

/-- The variance of ten samples with a scatter, one missing. -/
example : ∃ v, varSingle (Spec.inOrder 9) 10 (fun i => if i = 4 then none else some (i / 4)) = some v ∧
    (1 - 47 / 2 ^ 24) * Spec.binVariance 10 (fun i => if i = 4 then none else some (i / 4)) ≤ v :=
  have ⟨v, h1, h2, _⟩ := var_single_near (Spec.inOrder 9) 10 (inOrder_once 9 40 (by norm_num))
    (fun i => if i = 4 then none else some (i / 4)) ⟨0, by norm_num, by simp⟩
  ⟨v, h1, h2⟩

/-- A hundred samples of 0.25. -/
example : varSingle (Spec.inOrder 99) 100 (fun _ => some (1 * 2 ^ (-2 : ℤ))) = some 0 := by
  have := var_single_const (Spec.inOrder 99) 100 99 (by norm_num) (inOrder_once 99 99 le_rfl) 1 (-2) (by norm_num)
  simpa using this

end Dolfyn
