import Verif.Model.Gaps
import Mathlib.Algebra.BigOperators.Group.Finset.Basic
import Mathlib.Algebra.BigOperators.Ring.Finset
import Mathlib.Algebra.Order.BigOperators.Ring.Finset
import Mathlib.Algebra.BigOperators.Field
import Mathlib.Algebra.Order.Field.Basic
import Mathlib.Tactic.Ring
import Mathlib.Tactic.Linarith
import Mathlib.Tactic.FieldSimp
import Mathlib.Tactic.LinearCombination
import Mathlib.Tactic.NormNum

/-!
C20: `detrend` returns the residual of the least-squares straight line.
-/

namespace Dolfyn
open Finset

variable {F : Type*} [Field F] [LinearOrder F] [IsStrictOrderedRing F]

theorem sum_list_range (n : ℕ) (v : ℕ → F) : ((List.range n).map v).sum = ∑ i ∈ range n, v i := by
  induction n with
  | zero => simp
  | succ n ih => rw [List.range_succ, List.map_append, List.sum_append, ih, Finset.sum_range_succ]; simp

theorem reduceOption_vals {K : Type*} (n : ℕ) (v : ℕ → K) :
    (vals n fun i => some (v i)).reduceOption = (List.range n).map v := by
  unfold vals
  induction List.range n with
  | nil => rfl
  | cons a l ih => rw [List.map_cons, List.map_cons, ← ih]; rfl

theorem nanmean_some (n : ℕ) (hn : 0 < n) (v : ℕ → F) :
    nanmean (vals n fun i => some (v i)) = some ((∑ i ∈ range n, v i) / n) := by
  unfold nanmean
  simp only [reduceOption_vals]
  rw [if_neg (by simp; omega), sum_list_range]
  simp

theorem centred_pos (n : ℕ) (hn : 2 ≤ n) (c : F) : 0 < ∑ i ∈ range n, ((i : F) - c) * (i - c) := by
  apply lt_of_le_of_ne
  · exact Finset.sum_nonneg fun i _ => mul_self_nonneg _
  · intro h
    have h' := (Finset.sum_eq_zero_iff_of_nonneg fun (i : ℕ) _ => mul_self_nonneg ((i : F) - c)).mp h.symm
    have h0 := mul_self_eq_zero.mp (h' 0 (by simp; omega))
    have h1 := mul_self_eq_zero.mp (h' 1 (by simp; omega))
    push_cast at h0 h1
    linarith

/-- The closed form of `detrend` on gap-free data. -/
theorem detrend_some (n : ℕ) (hn : 2 ≤ n) (v : ℕ → F) (i : ℕ) :
    let xm : F := (∑ j ∈ range n, (j : F)) / n
    let am := (∑ j ∈ range n, v j) / n
    let b := (∑ j ∈ range n, ((j : F) - xm) * (v j - am)) / ∑ j ∈ range n, ((j : F) - xm) * (j - xm)
    detrend n (fun i => some (v i)) i = some (v i - am - b * (i - xm)) := by
  intro xm am b
  have hn0 : (n : F) ≠ 0 := by exact_mod_cast (by omega : n ≠ 0)
  unfold detrend
  simp only [nanmean_some n (by omega), opt2, npDiv]
  have hp := centred_pos n hn xm
  rw [if_neg (div_ne_zero hp.ne' hn0)]
  simp only [Option.some.injEq]
  congr 2
  simp only [b]
  rw [div_div_div_cancel_right₀ hn0]

/-- C20: on gap-free data of length at least two, `detrend` subtracts a straight line and what
is left has zero mean and zero slope (the normal equations). -/
theorem detrend_normal (n : ℕ) (hn : 2 ≤ n) (v : ℕ → F) :
    ∃ α β : F, ∃ r : ℕ → F, (∀ i, detrend n (fun i => some (v i)) i = some (r i)) ∧
      (∀ i, r i = v i - (α + β * i)) ∧ ∑ i ∈ range n, r i = 0 ∧
      ∑ i ∈ range n, (i : F) * r i = 0 := by
  have hn0 : (n : F) ≠ 0 := by exact_mod_cast (by omega : n ≠ 0)
  have h := detrend_some n hn v
  simp only at h
  set xm : F := (∑ j ∈ range n, (j : F)) / n with hxm
  set am := (∑ j ∈ range n, v j) / n with ham
  set D := ∑ j ∈ range n, ((j : F) - xm) * (j - xm) with hD
  set N := ∑ j ∈ range n, ((j : F) - xm) * (v j - am) with hN
  have hp : 0 < D := centred_pos n hn xm
  have hsx : ∑ j ∈ range n, ((j : F) - xm) = 0 := by
    rw [Finset.sum_sub_distrib, Finset.sum_const, Finset.card_range, nsmul_eq_mul, hxm]
    field_simp; ring
  have hsa : ∑ j ∈ range n, (v j - am) = 0 := by
    rw [Finset.sum_sub_distrib, Finset.sum_const, Finset.card_range, nsmul_eq_mul, ham]
    field_simp; ring
  have hr0 : ∑ i ∈ range n, (v i - am - N / D * (i - xm)) = 0 := by
    rw [Finset.sum_sub_distrib, hsa, ← Finset.mul_sum, hsx]; ring
  refine ⟨am - N / D * xm, N / D, fun i => v i - am - N / D * (i - xm), h, ?_, hr0, ?_⟩
  · intro i; ring
  · have : ∀ i ∈ range n, (i : F) * (v i - am - N / D * (i - xm)) =
        ((i - xm) * (v i - am) - N / D * ((i - xm) * (i - xm))) +
          xm * (v i - am - N / D * (i - xm)) := by intro i _; ring
    rw [Finset.sum_congr rfl this, Finset.sum_add_distrib, ← Finset.mul_sum, hr0,
      Finset.sum_sub_distrib, ← Finset.mul_sum, ← hN, ← hD, div_mul_cancel₀ _ hp.ne']
    ring

/-- A residual with zero mean and zero slope is smaller than that of any other line. -/
theorem normal_optimal (n : ℕ) (v r : ℕ → F) (α β : F) (hr : ∀ i, r i = v i - (α + β * i))
    (h0 : ∑ i ∈ range n, r i = 0) (h1 : ∑ i ∈ range n, (i : F) * r i = 0) (α' β' : F) :
    ∑ i ∈ range n, r i ^ 2 ≤ ∑ i ∈ range n, (v i - (α' + β' * i)) ^ 2 := by
  have e : ∀ i ∈ range n, (v i - (α' + β' * i)) ^ 2 =
      r i ^ 2 + ((α - α') + (β - β') * i) ^ 2 + (2 * (α - α') * r i + 2 * (β - β') * (i * r i)) := by
    intro i _
    have : v i = r i + (α + β * i) := by rw [hr i]; ring
    rw [this]; ring
  rw [Finset.sum_congr rfl e, Finset.sum_add_distrib, Finset.sum_add_distrib,
    Finset.sum_add_distrib, ← Finset.mul_sum, ← Finset.mul_sum, h0, h1]
  have : 0 ≤ ∑ i ∈ range n, ((α - α') + (β - β') * i) ^ 2 :=
    Finset.sum_nonneg fun i _ => sq_nonneg _
  linarith

/-- C20: no straight line leaves a smaller sum of squares. -/
theorem detrend_optimal (n : ℕ) (hn : 2 ≤ n) (v r : ℕ → F)
    (h : ∀ i, detrend n (fun i => some (v i)) i = some (r i)) (α' β' : F) :
    ∑ i ∈ range n, r i ^ 2 ≤ ∑ i ∈ range n, (v i - (α' + β' * i)) ^ 2 := by
  obtain ⟨α, β, r', hr', h1, h2, h3⟩ := detrend_normal n hn v
  obtain rfl : r = r' := by
    funext i
    have := h i
    rw [hr' i] at this
    exact (Option.some.inj this).symm
  exact normal_optimal n v r α β h1 h2 h3 α' β'

/-- C20: the line is determined, so adding any straight line to the data does not change the
result. -/
theorem detrend_add_line (n : ℕ) (hn : 2 ≤ n) (v : ℕ → F) (a b : F) (i : ℕ) :
    detrend n (fun i => some (v i + (a + b * i))) i = detrend n (fun i => some (v i)) i := by
  have hn0 : (n : F) ≠ 0 := by exact_mod_cast (by omega : n ≠ 0)
  have h := detrend_some n hn v i
  have h' := detrend_some n hn (fun i => v i + (a + b * i)) i
  simp only at h h'
  rw [h, h']
  set xm : F := (∑ j ∈ range n, (j : F)) / n with hxm
  set am := (∑ j ∈ range n, v j) / n with ham
  set D := ∑ j ∈ range n, ((j : F) - xm) * (j - xm) with hD
  have hp : 0 < D := centred_pos n hn xm
  have e1 : (∑ j ∈ range n, (v j + (a + b * j))) / n = am + a + b * xm := by
    rw [Finset.sum_add_distrib, Finset.sum_add_distrib, Finset.sum_const, Finset.card_range,
      nsmul_eq_mul, ← Finset.mul_sum, ham, hxm]
    field_simp
    ring
  rw [e1]
  have e2 : ∑ j ∈ range n, ((j : F) - xm) * (v j + (a + b * j) - (am + a + b * xm)) =
      ∑ j ∈ range n, ((j : F) - xm) * (v j - am) + b * D := by
    rw [hD, Finset.mul_sum, ← Finset.sum_add_distrib]
    apply Finset.sum_congr rfl
    intro j _; ring
  rw [e2, add_div, mul_div_assoc, div_self hp.ne']
  congr 1; ring

/-- C20: straight lines map to zero. -/
theorem detrend_line (n : ℕ) (hn : 2 ≤ n) (a b : F) (i : ℕ) :
    detrend n (fun i => some (a + b * (i : F))) i = some 0 := by
  have h := detrend_add_line n hn (fun _ => (0 : F)) a b i
  simp only [zero_add] at h
  rw [h, (detrend_some n hn (fun _ => (0 : F)) i)]
  simp

/-- C20: detrending twice equals detrending once. -/
theorem detrend_twice (n : ℕ) (hn : 2 ≤ n) (v : ℕ → F) (i : ℕ) :
    detrend n (detrend n fun i => some (v i)) i = detrend n (fun i => some (v i)) i := by
  obtain ⟨α, β, r, hr, h1, -, -⟩ := detrend_normal n hn v
  have e : (detrend n fun i => some (v i)) = fun i => some (r i) := funext hr
  rw [e]
  have e' : r = fun i => v i + ((-α) + (-β) * (i : F)) := by funext i; rw [h1 i]; ring
  have h2 := detrend_add_line n hn v (-α) (-β) i
  rw [← e, ← h2, e]
  simp only [e']

example : (detrend 3 (fun i => some ((i : ℚ) ^ 2))) 1 = some (-2 / 3) := by
  have := detrend_some (F := ℚ) 3 (by norm_num) (fun i => (i : ℚ) ^ 2) 1
  simp only [Finset.sum_range_succ, Finset.sum_range_zero] at this
  rw [this]
  norm_num

/-- C20 fails with missing samples: the straight line `0, 1, 2` with its first sample missing is
not mapped to zero, because the abscissae are centred over all positions. -/
theorem detrend_gap_wrong :
    detrend 3 (fun i => if i = 0 then none else some (i : ℚ)) 1 ≠ some 0 := by
  have h : detrend 3 (fun i => if i = 0 then none else some (i : ℚ)) 1 = some (-1 / 2) := by
    decide +kernel
  rw [h]
  simp

/-- C20: a record of one sample gives NaN. -/
theorem detrend_short (v : ℕ → F) (i : ℕ) : detrend 1 (fun i => some (v i)) i = none := by
  unfold detrend
  simp only [nanmean_some 1 (by norm_num), opt2, npDiv]
  simp

end Dolfyn
