import Verif.Model.Psd
import Verif.Props.Detrend
import Mathlib.Algebra.Field.GeomSum
import Mathlib.Tactic.Ring
import Mathlib.Tactic.LinearCombination
import Mathlib.Tactic.Positivity
import Mathlib.Tactic.FieldSimp

/-! Helper lemmas about segments, detrending and the discrete Fourier transform. -/

namespace Dolfyn
open Finset

/-! ### Segments -/

theorem two_div_lb (l n : ℕ) (hn : 0 < n) (h : n < l) : 2 ≤ 2 * l / n := by
  rw [Nat.le_div_iff_mul_le hn]; omega

theorem stepsize_default (l n : ℕ) (hn : 0 < n) (h : n < l) :
    stepsize l n none none = .ok ⟨(l - n) / (2 * l / n - 1), 2 * l / n, n⟩ := by
  have h2 := two_div_lb l n hn h
  unfold stepsize
  simp only
  rw [if_neg (by omega : ¬ l < n), if_neg (by omega : ¬ l = n), if_neg (by omega : ¬ n = 0),
    if_neg (by omega : ¬ 2 * l / n = 1)]

theorem stepsize_single (l n : ℕ) (h : l ≤ n) : stepsize l n none none = .ok ⟨0, 1, l⟩ := by
  unfold stepsize
  simp only
  by_cases h' : l < n
  · rw [if_pos h', if_pos rfl]
  · obtain rfl : l = n := by omega
    simp

theorem stepsize_step (l n s : ℕ) (hs : 0 < s) :
    stepsize l n none (some s) = .ok ⟨s, (l - min l n) / s + 1, min l n⟩ := by
  unfold stepsize
  simp only
  rw [if_neg (by omega : ¬ s = 0)]
  have : (if l < n then l else n) = min l n := by
    by_cases h : l < n
    · rw [if_pos h, min_eq_left h.le]
    · rw [if_neg h, min_eq_right (by omega)]
  rw [this]

/-- Two consecutive segments share at least half of their samples. -/
theorem step_le_half (l n : ℕ) (hn : 0 < n) (h : n < l) : 2 * ((l - n) / (2 * l / n - 1)) ≤ n := by
  have h2 := two_div_lb l n hn h
  have h3 : 2 * l < n * (2 * l / n + 1) := Nat.lt_mul_div_succ (2 * l) hn
  set e := 2 * l / n with he
  obtain ⟨d, hd⟩ : ∃ d, e = d + 1 := ⟨e - 1, by omega⟩
  have hd1 : 1 ≤ d := by omega
  rw [hd] at h3 ⊢
  simp only [Nat.add_sub_cancel]
  have h4 : (l - n) / d * d ≤ l - n := Nat.div_mul_le_self _ _
  by_contra hc
  have hc' : n + 1 ≤ 2 * ((l - n) / d) := by omega
  have : (n + 1) * d ≤ 2 * ((l - n) / d) * d := Nat.mul_le_mul_right _ hc'
  have e1 : n * (d + 1 + 1) = n * d + 2 * n := by ring
  have e2 : 2 * ((l - n) / d) * d = 2 * ((l - n) / d * d) := by ring
  have e3 : (n + 1) * d = n * d + d := by ring
  omega

/-- For FFT lengths of at least three the default step is positive. -/
theorem step_pos (l n : ℕ) (hn : 3 ≤ n) (h : n < l) : 0 < (l - n) / (2 * l / n - 1) := by
  have h2 := two_div_lb l n (by omega) h
  apply Nat.div_pos _ (by omega)
  obtain ⟨m, rfl⟩ : ∃ m, l = n + m := ⟨l - n, by omega⟩
  have e : 2 * (n + m) / n = 2 + 2 * m / n := by
    rw [Nat.mul_add, Nat.mul_comm 2 n, Nat.mul_add_div (by omega)]
  rw [e]
  have : 2 * m / n ≤ 2 * m / 3 := Nat.div_le_div_left hn (by norm_num)
  omega

theorem step_zero (l n : ℕ) (hn : 0 < n) (hn2 : n ≤ 2) (h : n < l) :
    (l - n) / (2 * l / n - 1) = 0 := by
  apply Nat.div_eq_of_lt
  obtain rfl | rfl : n = 1 ∨ n = 2 := by omega
  · omega
  · omega

theorem pyRange_mul (m s : ℕ) (hs : 0 < s) :
    pyRange s (m + 1) s = .ok ((List.range (m / s)).map fun i => s + s * i) := by
  unfold pyRange
  rw [if_neg (by omega : ¬ s = 0)]
  congr 3
  by_cases h : m + 1 ≤ s
  · rw [Nat.sub_eq_zero_of_le h, Nat.div_eq_of_lt (by omega), Nat.div_eq_of_lt (by omega)]
  · congr 1; omega

/-- The list of segment starts: all multiples of the step that leave room for a segment. -/
def multiples (m s : ℕ) : List ℕ := (List.range (m / s + 1)).map fun i => s * i

theorem segStarts_many (l : ℕ) (s : Steps) (hs : 0 < s.step) (hn : s.nens ≠ 1) :
    segStarts l s = .ok (multiples (l - s.nfft) s.step) := by
  unfold segStarts
  rw [if_neg hn, pyRange_mul _ _ hs]
  simp only [multiples]
  rw [List.range_succ_eq_map, List.map_cons, List.map_map]
  congr 2
  apply List.map_congr_left
  intro i _
  simp [Nat.mul_succ, Nat.add_comm]

theorem segStarts_one (l : ℕ) (s : Steps) (hn : s.nens = 1) : segStarts l s = .ok [0] := by
  unfold segStarts; rw [if_pos hn]

theorem segStarts_explicit (l n s : ℕ) (hs : 0 < s) :
    segStarts l ⟨s, (l - min l n) / s + 1, min l n⟩ = .ok (multiples (l - min l n) s) := by
  by_cases h : (l - min l n) / s = 0
  · rw [segStarts_one _ _ (by simp [h])]
    simp [multiples, h]
  · exact segStarts_many _ _ hs (by simpa using h)

/-! ### Detrending a segment -/

theorem detrendR_eq (n : ℕ) (hn : 2 ≤ n) (v : ℕ → ℝ) :
    ∃ α β : ℝ, (∀ i, detrendR n v i = v i - (α + β * i)) ∧ ∑ i ∈ range n, detrendR n v i = 0 ∧
      ∑ i ∈ range n, (i : ℝ) * detrendR n v i = 0 := by
  obtain ⟨α, β, r, h, h1, h2, h3⟩ := detrend_normal n hn v
  have e : detrendR n v = r := by
    funext i; unfold detrendR; rw [h i]; rfl
  rw [e]
  exact ⟨α, β, h1, h2, h3⟩

/-- A line orthogonal to 1 and i is zero. -/
theorem line_zero (n : ℕ) (hn : 2 ≤ n) (α β : ℝ) (h0 : ∑ i ∈ range n, (α + β * i) = 0)
    (h1 : ∑ i ∈ range n, (i : ℝ) * (α + β * i) = 0) : α = 0 ∧ β = 0 := by
  have hs : ∑ i ∈ range n, (α + β * i) ^ 2 = 0 := by
    have : ∀ i ∈ range n, (α + β * (i : ℝ)) ^ 2 = α * (α + β * i) + β * ((i : ℝ) * (α + β * i)) := by
      intro i _; ring
    rw [sum_congr rfl this, sum_add_distrib, ← mul_sum, ← mul_sum, h0, h1]; ring
  have := (sum_eq_zero_iff_of_nonneg fun (i : ℕ) _ => sq_nonneg (α + β * (i : ℝ))).mp hs
  have a0 := pow_eq_zero_iff (two_ne_zero) |>.mp (this 0 (by simp; omega))
  have a1 := pow_eq_zero_iff (two_ne_zero) |>.mp (this 1 (by simp; omega))
  push_cast at a0 a1
  constructor <;> linarith

/-- The least-squares residual is determined by its two normal equations. -/
theorem detrendR_unique (n : ℕ) (hn : 2 ≤ n) (v r : ℕ → ℝ) (α β : ℝ)
    (hr : ∀ i, r i = v i - (α + β * i)) (h0 : ∑ i ∈ range n, r i = 0)
    (h1 : ∑ i ∈ range n, (i : ℝ) * r i = 0) : detrendR n v = r := by
  obtain ⟨α', β', g, g0, g1⟩ := detrendR_eq n hn v
  have e : ∀ i, r i - detrendR n v i = (α' - α) + (β' - β) * i := by
    intro i; rw [hr i, g i]; ring
  have := line_zero n hn (α' - α) (β' - β)
    (by rw [← sum_congr rfl fun i _ => e i, sum_sub_distrib, h0, g0]; ring)
    (by
      have : ∀ i ∈ range n, (i : ℝ) * ((α' - α) + (β' - β) * i) = i * r i - i * detrendR n v i := by
        intro i _; rw [← e i]; ring
      rw [sum_congr rfl this, sum_sub_distrib, h1, g1]; ring)
  funext i
  have := e i
  rw [‹α' - α = 0 ∧ _›.1, ‹_ ∧ β' - β = 0›.2] at this
  linarith

theorem detrendR_add (n : ℕ) (hn : 2 ≤ n) (u v : ℕ → ℝ) (c d : ℝ) (i : ℕ) :
    detrendR n (fun i => c * u i + d * v i) i = c * detrendR n u i + d * detrendR n v i := by
  obtain ⟨α, β, g, g0, g1⟩ := detrendR_eq n hn u
  obtain ⟨α', β', g', g0', g1'⟩ := detrendR_eq n hn v
  rw [detrendR_unique n hn _ (fun i => c * detrendR n u i + d * detrendR n v i)
    (c * α + d * α') (c * β + d * β')]
  · intro i; rw [g i, g' i]; ring
  · rw [sum_add_distrib, ← mul_sum, ← mul_sum, g0, g0']; ring
  · have : ∀ i ∈ range n, (i : ℝ) * (c * detrendR n u i + d * detrendR n v i) =
        c * (i * detrendR n u i) + d * (i * detrendR n v i) := by intro i _; ring
    rw [sum_congr rfl this, sum_add_distrib, ← mul_sum, ← mul_sum, g1, g1']; ring

theorem detrendR_line (n : ℕ) (hn : 2 ≤ n) (v : ℕ → ℝ) (p q : ℝ) (i : ℕ) :
    detrendR n (fun i => v i + (p + q * i)) i = detrendR n v i := by
  unfold detrendR
  rw [detrend_add_line n hn v p q i]

/-! ### Fourier transform -/

theorem dft_lin (n : ℕ) (u v : ℕ → ℝ) (c d : ℝ) (k : ℕ) :
    dft n (fun t => c * u t + d * v t) k = c * dft n u k + d * dft n v k := by
  unfold dft
  rw [mul_sum, mul_sum, ← sum_add_distrib]
  apply sum_congr rfl
  intro t _
  push_cast; ring

theorem dft_congr (n : ℕ) (u v : ℕ → ℝ) (k : ℕ) (h : ∀ t < n, u t = v t) : dft n u k = dft n v k := by
  unfold dft
  apply sum_congr rfl
  intro t ht
  rw [h t (mem_range.mp ht)]

theorem segFft_lin (u v : ℕ → ℝ) (c d : ℝ) (i n : ℕ) (hn : 2 ≤ n) (w : ℕ → ℝ) (k : ℕ) :
    segFft (fun j => c * u j + d * v j) i n w k = c * segFft u i n w k + d * segFft v i n w k := by
  unfold segFft
  rw [← dft_lin]
  apply dft_congr
  intro t _
  rw [detrendR_add n hn (fun j => u (i + j)) (fun j => v (i + j)) c d t]
  ring

theorem segFft_line (v : ℕ → ℝ) (p q : ℝ) (i n : ℕ) (hn : 2 ≤ n) (w : ℕ → ℝ) (k : ℕ) :
    segFft (fun j => v j + (p + q * j)) i n w k = segFft v i n w k := by
  unfold segFft
  apply dft_congr
  intro t _
  have e : (fun j : ℕ => v (i + j) + (p + q * ((i + j : ℕ) : ℝ))) =
      fun j : ℕ => v (i + j) + ((p + q * i) + q * (j : ℝ)) := by
    funext j; push_cast; ring
  simp only [e]
  rw [detrendR_line n hn (fun j => v (i + j))]

open Complex

theorem kernel_conj (n k t : ℕ) : (starRingEnd ℂ) (exp (-(2 * Real.pi * I * k * t / n))) =
    exp (2 * Real.pi * I * k * t / n) := by
  rw [← Complex.exp_conj]
  congr 1
  have h2 : (starRingEnd ℂ) 2 = 2 := map_ofNat _ 2
  simp [h2]
  ring

/-- Orthogonality of the Fourier modes. -/
theorem modes_orthogonal (n s t : ℕ) (hs : s < n) (ht : t < n) :
    ∑ k ∈ range n, exp (-(2 * Real.pi * I * k * s / n)) * exp (2 * Real.pi * I * k * t / n) =
      if s = t then (n : ℂ) else 0 := by
  have hn : (n : ℂ) ≠ 0 := by exact_mod_cast (by omega : n ≠ 0)
  set r := exp (2 * Real.pi * I * ((t : ℂ) - s) / n) with hr
  have e : ∀ k ∈ range n, exp (-(2 * Real.pi * I * k * s / n)) * exp (2 * Real.pi * I * k * t / n) =
      r ^ k := by
    intro k _
    rw [← exp_add, hr, ← exp_nat_mul]
    congr 1; ring
  rw [sum_congr rfl e]
  by_cases h : s = t
  · rw [if_pos h, hr, h]
    simp
  · rw [if_neg h]
    have hr1 : r ≠ 1 := by
      rw [hr, Ne, exp_eq_one_iff]
      rintro ⟨m, hm⟩
      have hpi : (2 * Real.pi * I : ℂ) ≠ 0 := by simp [Real.pi_ne_zero]
      have h1 : ((t : ℂ) - s) = m * n := by
        field_simp at hm
        have := mul_left_cancel₀ hpi (a := (2 * Real.pi * I : ℂ)) (b := (t : ℂ) - s) (c := m * n)
          (by linear_combination (2 * Real.pi * I) * hm)
        exact this
      have h2 : (t : ℤ) - s = m * n := by exact_mod_cast h1
      have h3 : m = 0 := by
        by_contra hm0
        have : (n : ℤ) ≤ |m * n| := by
          rw [abs_mul, Nat.abs_cast]
          have : 1 ≤ |m| := Int.one_le_abs hm0
          nlinarith [Int.natCast_nonneg n]
        rw [← h2] at this
        have h4 : |(t : ℤ) - s| < n := by rw [abs_lt]; constructor <;> omega
        omega
      rw [h3] at h2
      apply h; omega
    rw [geom_sum_eq hr1]
    have : r ^ n = 1 := by
      rw [hr, ← exp_nat_mul, exp_eq_one_iff]
      exact ⟨(t : ℤ) - s, by push_cast; field_simp⟩
    rw [this]; simp

/-- Parseval's identity for the discrete Fourier transform. -/
theorem parseval (n : ℕ) (y : ℕ → ℝ) :
    ∑ k ∈ range n, ‖dft n y k‖ ^ 2 = n * ∑ t ∈ range n, y t ^ 2 := by
  have key : (∑ k ∈ range n, dft n y k * (starRingEnd ℂ) (dft n y k)) =
      (n : ℂ) * ∑ t ∈ range n, (y t : ℂ) ^ 2 := by
    have e : ∀ k ∈ range n, dft n y k * (starRingEnd ℂ) (dft n y k) =
        ∑ s ∈ range n, ∑ t ∈ range n, (y s * y t : ℂ) *
          (exp (-(2 * Real.pi * I * k * s / n)) * exp (2 * Real.pi * I * k * t / n)) := by
      intro k _
      unfold dft
      rw [map_sum, sum_mul_sum]
      apply sum_congr rfl
      intro s _
      apply sum_congr rfl
      intro t _
      rw [map_mul, kernel_conj, conj_ofReal]
      ring
    rw [sum_congr rfl e, sum_comm, mul_sum]
    apply sum_congr rfl
    intro s hs
    rw [sum_comm]
    have e2 : ∀ t ∈ range n, (∑ k ∈ range n, (y s * y t : ℂ) *
        (exp (-(2 * Real.pi * I * k * s / n)) * exp (2 * Real.pi * I * k * t / n))) =
        if s = t then (n : ℂ) * (y s : ℂ) ^ 2 else 0 := by
      intro t ht
      rw [← mul_sum, modes_orthogonal n s t (mem_range.mp hs) (mem_range.mp ht)]
      split_ifs with h
      · rw [h]; ring
      · ring
    rw [sum_congr rfl e2]
    simp [mem_range.mp hs]
  have h2 : ((∑ k ∈ range n, ‖dft n y k‖ ^ 2 : ℝ) : ℂ) = ((n * ∑ t ∈ range n, y t ^ 2 : ℝ) : ℂ) := by
    push_cast
    rw [← key]
    apply sum_congr rfl
    intro k _
    rw [mul_conj, normSq_eq_norm_sq]
    push_cast; rfl
  exact_mod_cast h2

/-- A real record has a symmetric amplitude spectrum. -/
theorem dft_symm (n : ℕ) (y : ℕ → ℝ) (k : ℕ) (hk : k ≤ n) (hn : 0 < n) :
    ‖dft n y (n - k)‖ = ‖dft n y k‖ := by
  have hn0 : (n : ℂ) ≠ 0 := by exact_mod_cast (by omega : n ≠ 0)
  have : dft n y (n - k) = (starRingEnd ℂ) (dft n y k) := by
    unfold dft
    rw [map_sum]
    apply sum_congr rfl
    intro t _
    rw [map_mul, kernel_conj, conj_ofReal]
    congr 1
    rw [exp_eq_exp_iff_exists_int]
    refine ⟨-(t : ℤ), ?_⟩
    rw [Nat.cast_sub hk]
    push_cast
    field_simp
    ring
  rw [this, norm_conj]

theorem dft_zero (n : ℕ) (y : ℕ → ℝ) : dft n y 0 = ((∑ t ∈ range n, y t : ℝ) : ℂ) := by
  unfold dft
  push_cast
  apply sum_congr rfl
  intro t _
  simp

end Dolfyn
