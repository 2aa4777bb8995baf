import Verif.Model.TimeBin
import Verif.Props.TimeF
import Verif.Props.Single
import Verif.Props.BinStats

/-!
C163: the times of averaged data in double precision.
-/

namespace Dolfyn

/-- An order of additions that adds each of the first `n` samples once, none through more than `d` additions. -/
structure Spec.AddsOnce (o : SumTree) (n d : ℕ) : Prop where
  perm : o.leaves.Perm (List.range n)
  depth : o.depth ≤ d

/-- The relative error of a sum of non-negative doubles. -/
theorem fl_leaves (x : ℕ → ℚ) : ∀ (o : SumTree), (∀ i ∈ o.leaves, 0 ≤ x i) →
    0 ≤ o.fl x ∧ |o.fl x - (o.leaves.map x).sum| ≤ ((1 + 1 / 2 ^ 53) ^ o.depth - 1) * (o.leaves.map x).sum := by
  intro o
  induction o with
  | leaf i =>
    intro h
    simp only [SumTree.leaves, SumTree.fl, SumTree.depth, List.map_cons, List.map_nil, List.sum_cons, List.sum_nil, add_zero,
      sub_self, abs_zero, pow_zero, zero_mul, le_refl, and_true]
    exact h i (by simp [SumTree.leaves])
  | node a b iha ihb =>
    intro h
    obtain ⟨a0, a1⟩ := iha (fun i hi => h i (by simp [SumTree.leaves, hi]))
    obtain ⟨b0, b1⟩ := ihb (fun i hi => h i (by simp [SumTree.leaves, hi]))
    have sa : 0 ≤ (a.leaves.map x).sum := List.sum_nonneg (by
      intro y hy
      obtain ⟨i, hi, rfl⟩ := List.mem_map.mp hy
      exact h i (by simp [SumTree.leaves, hi]))
    have sb : 0 ≤ (b.leaves.map x).sum := List.sum_nonneg (by
      intro y hy
      obtain ⟨i, hi, rfl⟩ := List.mem_map.mp hy
      exact h i (by simp [SumTree.leaves, hi]))
    simp only [SumTree.leaves, SumTree.fl, SumTree.depth, List.map_append, List.sum_append]
    refine ⟨fl64_nonneg (by linarith), ?_⟩
    set A := (a.leaves.map x).sum
    set B := (b.leaves.map x).sum
    set e : ℚ := (1 + 1 / 2 ^ 53) ^ max a.depth b.depth - 1 with he
    have ha : (1 + 1 / 2 ^ 53 : ℚ) ^ a.depth - 1 ≤ e := by
      have := pow_le_pow_right₀ (by norm_num : (1 : ℚ) ≤ 1 + 1 / 2 ^ 53) (le_max_left a.depth b.depth)
      linarith
    have hb : (1 + 1 / 2 ^ 53 : ℚ) ^ b.depth - 1 ≤ e := by
      have := pow_le_pow_right₀ (by norm_num : (1 : ℚ) ≤ 1 + 1 / 2 ^ 53) (le_max_right a.depth b.depth)
      linarith
    have h1 : |(a.fl x + b.fl x) - (A + B)| ≤ e * |A + B| := by
      rw [abs_of_nonneg (by linarith : 0 ≤ A + B), show (a.fl x + b.fl x) - (A + B) = (a.fl x - A) + (b.fl x - B) by ring]
      have k1 := mul_le_mul_of_nonneg_right ha sa
      have k2 := mul_le_mul_of_nonneg_right hb sb
      have := abs_add_le (a.fl x - A) (b.fl x - B)
      linarith
    have h2 := rel_trans h1 (rel64 _) (by norm_num)
    rw [abs_of_nonneg (by linarith : 0 ≤ A + B)] at h2
    refine h2.trans (le_of_eq ?_)
    rw [he, pow_succ]
    ring

theorem sum_leaves (x : ℕ → ℚ) {o : SumTree} {n d : ℕ} (h : Spec.AddsOnce o n d) :
    (o.leaves.map x).sum = ∑ j ∈ Finset.range n, x j := by
  rw [(h.perm.map x).sum_eq]
  rfl

/-- The mean of `n` times, in nanoseconds. -/
def Spec.meanNs (n : ℕ) (x : ℕ → ℤ) : ℚ := (∑ j ∈ Finset.range n, (x j : ℚ)) / n

/-- **C163.** One bin: whatever the order of the additions. -/
theorem bin_time_near (o : SumTree) (n : ℕ) (hn : 0 < n) (ho : Spec.AddsOnce o n 40) (x : ℕ → ℤ)
    (hx : ∀ j < n, 0 ≤ x j ∧ x j < Spec.ns2106) :
    |(epoch2dt64F (fl64 (o.fl (fun j => dt642epochF (x j)) / n)) : ℚ) - Spec.meanNs n x| ≤ 21000 := by
  have hnq : (0 : ℚ) < n := by exact_mod_cast hn
  have hlt : ∀ i ∈ o.leaves, i < n := fun i hi => List.mem_range.mp (ho.perm.mem_iff.mp hi)
  obtain ⟨f0, f1⟩ := fl_leaves (fun j => dt642epochF (x j)) o
    (fun i hi => (dt642epochF_near _ (hx i (hlt i hi)).1 (hx i (hlt i hi)).2).1)
  rw [sum_leaves _ ho] at f1
  set S := ∑ j ∈ Finset.range n, dt642epochF (x j) with hS
  set f := o.fl (fun j => dt642epochF (x j))
  have hS1 : |S * 1000000000 - ∑ j ∈ Finset.range n, (x j : ℚ)| ≤ n * 494.5 := by
    rw [hS, Finset.sum_mul, ← Finset.sum_sub_distrib]
    refine (Finset.abs_sum_le_sum_abs _ _).trans ?_
    refine (Finset.sum_le_sum (g := fun _ => (494.5 : ℚ)) fun j hj => ?_).trans (by simp)
    exact (dt642epochF_near _ (hx j (Finset.mem_range.mp hj)).1 (hx j (Finset.mem_range.mp hj)).2).2
  have hX : ∑ j ∈ Finset.range n, (x j : ℚ) ≤ n * 4294967296000000000 := by
    refine (Finset.sum_le_sum (g := fun _ => (4294967296000000000 : ℚ)) fun j hj => ?_).trans (by simp)
    have := (hx j (Finset.mem_range.mp hj)).2
    have : (x j : ℚ) < 4294967296 * 1000000000 := by exact_mod_cast this
    linarith
  have hX0 : 0 ≤ ∑ j ∈ Finset.range n, (x j : ℚ) :=
    Finset.sum_nonneg fun j hj => by exact_mod_cast (hx j (Finset.mem_range.mp hj)).1
  have hS0 : 0 ≤ S := Finset.sum_nonneg fun j hj =>
    (dt642epochF_near _ (hx j (Finset.mem_range.mp hj)).1 (hx j (Finset.mem_range.mp hj)).2).1
  have hpow : ((1 + 1 / 2 ^ 53 : ℚ) ^ o.depth - 1) ≤ 41 / 2 ^ 53 := by
    have := pow_le_pow_right₀ (by norm_num : (1 : ℚ) ≤ 1 + 1 / 2 ^ 53) ho.depth
    have h2 : (1 + 1 / 2 ^ 53 : ℚ) ^ 40 ≤ 1 + 41 / 2 ^ 53 := by norm_num
    linarith
  have g1 : |f / n - S / n| ≤ (41 / 2 ^ 53) * |S / n| := by
    rw [← sub_div, abs_div, abs_of_pos hnq, abs_of_nonneg (by positivity : 0 ≤ S / n), ← mul_div_assoc]
    apply div_le_div_of_nonneg_right _ hnq.le
    exact f1.trans (mul_le_mul_of_nonneg_right hpow hS0)
  have g2 := rel_trans g1 (rel64 _) (by norm_num)
  rw [abs_of_nonneg (by positivity : 0 ≤ S / n)] at g2
  have hSn : S / n ≤ 4294967297 := by
    rw [div_le_iff₀ hnq]
    have := (abs_le.mp hS1).2
    nlinarith
  have g3 : |fl64 (f / n) - S / n| ≤ (43 / 2 ^ 53) * 4294967297 := by
    refine g2.trans ?_
    refine (mul_le_mul_of_nonneg_right (by norm_num : (41 / 2 ^ 53 + 1 / 2 ^ 53 + 41 / 2 ^ 53 * (1 / 2 ^ 53) : ℚ) ≤ 43 / 2 ^ 53)
      (by positivity : 0 ≤ S / n)).trans ?_
    exact mul_le_mul_of_nonneg_left hSn (by norm_num)
  have hf0 : 0 ≤ fl64 (f / n) := fl64_nonneg (by positivity)
  have g4 := epoch2dt64F_near _ hf0
  have g5 : |S / n * 1000000000 - Spec.meanNs n x| ≤ 494.5 := by
    unfold Spec.meanNs
    rw [div_mul_eq_mul_div, ← sub_div, abs_div, abs_of_pos hnq, div_le_iff₀ hnq]
    linarith
  rw [abs_le] at g3 g5 ⊢
  norm_num at g3 g4 g5 ⊢
  constructor <;> linarith [g3.1, g3.2, g4.1, g4.2, g5.1, g5.2]

/-- **C163.** The time coordinate of averaged data: one time per bin, within 21 microseconds of the mean time of the samples
of the bin. -/
theorem mean_times_near (o : SumTree) (b : Binner) (nBin : Option ℚ) (n len : ℕ) (hu : parseNbin b nBin = n) (hn : 0 < n)
    (hlen : n ≤ len) (ho : Spec.AddsOnce o n 40) (times : ℕ → ℤ) (hx : ∀ j < len, 0 ≤ times j ∧ times j < Spec.ns2106) :
    ∃ out, meanTimesF o b len times nBin = .ok out ∧ out.length = len / n ∧ ∀ r < len / n, ∃ t : ℤ, out[r]? = some t ∧
      |(t : ℚ) - Spec.meanNs n (fun j => times (r * n + j))| ≤ 21000 := by
  obtain ⟨m, h1, h2, h3, h4⟩ := reshape_no_pad (0 : ℚ) len (fun i => dt642epochF (times i)) n hn hlen
  unfold meanTimesF
  rw [hu]
  have h1' : reshape (0 : ℚ) len (fun i => dt642epochF (times i)) (n : ℚ) 0 = .ok m := by exact_mod_cast h1
  rw [h1']
  refine ⟨_, rfl, by simp [h2], fun r hr => ?_⟩
  rw [List.getElem?_map, List.getElem?_range (by omega)]
  refine ⟨_, rfl, ?_⟩
  have hrow : ∀ j < n, r * n + j < len := by
    intro j hj
    have : (r + 1) * n ≤ len / n * n := Nat.mul_le_mul_right n hr
    have := Nat.div_mul_le_self len n
    nlinarith
  have hfl : o.fl (m.at_ r) = o.fl (fun j => dt642epochF (times (r * n + j))) := by
    have hlt : ∀ i ∈ o.leaves, i < n := fun i hi => List.mem_range.mp (ho.perm.mem_iff.mp hi)
    clear ho
    induction o with
    | leaf i => exact h4 r i (by omega) (hlt i (by simp [SumTree.leaves]))
    | node p q ihp ihq =>
      simp only [SumTree.fl]
      rw [ihp (fun i hi => hlt i (by simp [SumTree.leaves, hi])), ihq (fun i hi => hlt i (by simp [SumTree.leaves, hi]))]
  beta_reduce
  rw [hfl, h3]
  exact bin_time_near o n hn ho (fun j => times (r * n + j)) (fun j hj => hx _ (hrow j hj))

/-- **C163.** For a clock that ticks evenly the time of a bin is the middle of the bin, to within 21 microseconds. -/
theorem mean_times_regular (o : SumTree) (b : Binner) (nBin : Option ℚ) (n len : ℕ) (hu : parseNbin b nBin = n) (hn : 0 < n)
    (hlen : n ≤ len) (ho : Spec.AddsOnce o n 40) (t0 dt : ℤ) (h0 : 0 ≤ t0) (hdt : 0 ≤ dt)
    (h1 : t0 + (len : ℤ) * dt < Spec.ns2106) :
    ∃ out, meanTimesF o b len (fun i => t0 + i * dt) nBin = .ok out ∧ out.length = len / n ∧
      ∀ r < len / n, ∃ t : ℤ, out[r]? = some t ∧
        |(t : ℚ) - (t0 + (r * n + ((n : ℚ) - 1) / 2) * dt)| ≤ 21000 := by
  obtain ⟨out, e1, e2, e3⟩ := mean_times_near o b nBin n len hu hn hlen ho (fun i => t0 + i * dt) (by
    intro j hj
    have hj' : (j : ℤ) * dt ≤ (len : ℤ) * dt := mul_le_mul_of_nonneg_right (by exact_mod_cast hj.le) hdt
    have : 0 ≤ (j : ℤ) * dt := by positivity
    constructor <;> omega)
  refine ⟨out, e1, e2, fun r hr => ?_⟩
  obtain ⟨t, e4, e5⟩ := e3 r hr
  refine ⟨t, e4, ?_⟩
  have hnq : (n : ℚ) ≠ 0 := by positivity
  have key : Spec.meanNs n (fun j => t0 + ((r * n + j : ℕ) : ℤ) * dt) = t0 + (r * n + ((n : ℚ) - 1) / 2) * dt := by
    unfold Spec.meanNs
    rw [div_eq_iff hnq]
    have hs : ∀ k : ℕ, (∑ j ∈ Finset.range k, (((t0 + ((r * n + j : ℕ) : ℤ) * dt : ℤ)) : ℚ)) =
        (t0 + (r * n + ((k : ℚ) - 1) / 2) * dt) * k := by
      intro k
      induction k with
      | zero => simp
      | succ k ih =>
        rw [Finset.sum_range_succ, ih]
        push_cast
        ring
    exact hs n
  rw [key] at e5
  exact e5

/-- **C163.** Times of bins increase strictly as soon as the times of the samples do, by more than 42 microseconds from one
bin to the next. -/
theorem mean_times_increasing (o : SumTree) (b : Binner) (nBin : Option ℚ) (n len : ℕ) (hu : parseNbin b nBin = n) (hn : 0 < n)
    (hlen : n ≤ len) (ho : Spec.AddsOnce o n 40) (times : ℕ → ℤ) (hx : ∀ j < len, 0 ≤ times j ∧ times j < Spec.ns2106)
    (hinc : ∀ j, j + n < len → times j + 42000 < times (j + n)) (out : List ℤ)
    (h : meanTimesF o b len times nBin = .ok out) (r : ℕ) (t t' : ℤ) (h1 : out[r]? = some t) (h2 : out[r + 1]? = some t') :
    t < t' := by
  obtain ⟨out', e1, e2, e3⟩ := mean_times_near o b nBin n len hu hn hlen ho times hx
  obtain rfl : out' = out := by rw [e1] at h; exact Except.ok.inj h
  have hr : r + 1 < len / n := by rw [← e2]; exact (List.getElem?_eq_some_iff.mp h2).1
  obtain ⟨s, f1, f2⟩ := e3 r (by omega)
  obtain ⟨s', g1, g2⟩ := e3 (r + 1) hr
  obtain rfl : s = t := by rw [f1] at h1; exact Option.some.inj h1
  obtain rfl : s' = t' := by rw [g1] at h2; exact Option.some.inj h2
  have hnq : (0 : ℚ) < n := by exact_mod_cast hn
  have hd : Spec.meanNs n (fun j => times (r * n + j)) + 42000 < Spec.meanNs n (fun j => times ((r + 1) * n + j)) := by
    unfold Spec.meanNs
    rw [div_add' _ _ _ hnq.ne', div_lt_div_iff_of_pos_right hnq]
    have hc : (42000 : ℚ) * n = ∑ j ∈ Finset.range n, (42000 : ℚ) := by simp [mul_comm]
    rw [hc, ← Finset.sum_add_distrib]
    apply Finset.sum_lt_sum_of_nonempty ⟨0, Finset.mem_range.mpr hn⟩
    intro j hj
    have hj' := Finset.mem_range.mp hj
    have hb : (r + 2) * n ≤ len := (Nat.mul_le_mul_right n (by omega : r + 2 ≤ len / n)).trans (Nat.div_mul_le_self len n)
    have e : (r + 1) * n + j = r * n + j + n := by ring
    beta_reduce
    rw [e]
    have := hinc (r * n + j) (by nlinarith)
    exact_mod_cast this
  rw [abs_le] at f2 g2
  have : (s : ℚ) < s' := by linarith [f2.2, g2.1]
  exact_mod_cast this

/-- One sample after the other. -/
def Spec.inOrder : ℕ → SumTree
  | 0 => .leaf 0
  | k + 1 => .node (Spec.inOrder k) (.leaf (k + 1))

theorem inOrder_once (k d : ℕ) (h : k ≤ d) : Spec.AddsOnce (Spec.inOrder k) (k + 1) d := by
  have hl : (Spec.inOrder k).leaves = List.range (k + 1) := by
    clear h
    induction k with
    | zero => rfl
    | succ k ih => rw [Spec.inOrder, SumTree.leaves, ih, SumTree.leaves, ← List.range_succ]
  have hd : (Spec.inOrder k).depth = k := by
    clear h hl
    induction k with
    | zero => rfl
    | succ k ih => simp [Spec.inOrder, SumTree.depth, ih]
  exact ⟨by rw [hl], by rw [hd]; exact h⟩

/-- Five minutes of data at 8 Hz in bins of 16 from 1 June 2020: all theorems apply. -/
example : ∃ out, meanTimesF (Spec.inOrder 15) (mkBinner 16 8 none none) 2400 (fun i => 1590969600000000000 + i * 125000000) none =
    .ok out ∧ out.length = 150 ∧ ∃ t : ℤ, out[1]? = some t ∧
      |(t : ℚ) - (1590969600000000000 + (1 * 16 + (16 - 1) / 2) * 125000000)| ≤ 21000 := by
  obtain ⟨out, h1, h2, h3⟩ := mean_times_regular (Spec.inOrder 15) (mkBinner 16 8 none none) none 16 2400 (by rfl) (by norm_num)
    (by norm_num) (inOrder_once 15 40 (by norm_num)) 1590969600000000000 125000000 (by norm_num) (by norm_num) (by norm_num)
  obtain ⟨t, h4, h5⟩ := h3 1 (by norm_num)
  exact ⟨out, h1, h2, t, h4, by exact_mod_cast h5⟩

/-- Refuted: the mean is not kept to the nanosecond. Ten samples at 10 Hz. -/
theorem mean_times_false : ¬ ∀ (o : SumTree) (n : ℕ), Spec.AddsOnce o n 40 → ∀ x : ℕ → ℤ,
    (∀ j < n, 0 ≤ x j ∧ x j < Spec.ns2106) →
    (epoch2dt64F (fl64 (o.fl (fun j => dt642epochF (x j)) / n)) : ℚ) = Spec.meanNs n x := by
  intro h
  have := h (Spec.inOrder 9) 10 (inOrder_once 9 40 (by norm_num)) (fun j => 1591012800000000000 + j * 100000000) (by
    intro j hj
    simp only [Spec.ns2106]
    constructor <;> omega)
  revert this
  unfold Spec.meanNs
  decide +kernel

end Dolfyn
