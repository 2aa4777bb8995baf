import Verif.Model.PsdQuasi
import Verif.Props.PsdMore

/-!
C27 (debiased coherence, noise levels), C125 (cross spectra of records of different lengths).
-/

namespace Dolfyn
open Finset

/-! ### C27 -/

/-- C27: debiasing maps the coherence `c` of `nens` ensembles to `c - (1 - c) / nens`: 1 stays 1, 0 becomes
`-1 / nens`. -/
theorem coherence_debias (auto : Bool) (l n : ℕ) (hn : 0 < n) (h : n < l) (a b : ℕ → ℝ) (window : WinArg)
    (noise : ℝ × ℝ) :
    coherence auto l a b n window true noise =
      (coherence auto l a b n window false noise).map fun r => r.map fun c : ℝ => c - (1 - c) / ((2 * l / n : ℕ) : ℝ) := by
  unfold coherence
  rw [stepsize_default l n hn h]
  simp only
  have h2 := two_div_lb l n hn h
  have : stepsize l n (some (2 * l / n)) none = .ok ⟨(l - n) / (2 * l / n - 1), 2 * l / n, n⟩ := by
    unfold stepsize
    simp only
    rw [if_neg (by omega : ¬ l < n), if_neg (by omega : ¬ 2 * l / n = 1), if_neg (by omega : ¬ 2 * l / n = 0)]
  rw [this]
  simp only
  by_cases h3 : 2 * l / n ≤ 2
  · rw [if_pos h3, if_pos h3]; rfl
  rw [if_neg h3, if_neg h3]
  cases cpsd auto l a b n 1 window none with
  | error e => rfl
  | ok c =>
    cases psd l a n 1 window (some ((l - n) / (2 * l / n - 1))) with
    | error e => rfl
    | ok pa =>
      cases psd l b n 1 window (some ((l - n) / (2 * l / n - 1))) with
      | error e => rfl
      | ok pb =>
        simp only [Except.map, List.map_map, Bool.false_eq_true, if_false, if_true]
        congr 1
        apply List.map_congr_left
        intro p _
        simp only [Function.comp]
        ring

theorem zip_swap_map {A B : Type*} (F : ℂ × A × B → ℝ) (G : ℂ × B × A → ℝ) (g : ℂ → ℂ)
    (hFG : ∀ c x y, G (g c, y, x) = F (c, x, y)) : ∀ (c : List ℂ) (p : List A) (q : List B),
    ((c.map g).zip (q.zip p)).map G = (c.zip (p.zip q)).map F
  | [], _, _ => rfl
  | _ :: _, [], [] => rfl
  | _ :: _, [], _ :: _ => rfl
  | _ :: _, _ :: _, [] => rfl
  | c :: cs, x :: xs, y :: ys => by
    simp only [List.map_cons, List.zip_cons_cons, hFG, zip_swap_map F G g hFG cs xs ys]

/-- **C27.** The coherence of two records of equal length does not depend on their order. -/
theorem coherence_symm (l n : ℕ) (hn : 0 < n) (h : n < l) (a b : ℕ → ℝ) (window : WinArg) (debias : Bool)
    (na nb : ℝ) :
    (∃ e, coherence false l b a n window debias (nb, na) = .error e ∧
      ∃ e', coherence false l a b n window debias (na, nb) = .error e') ∨
    coherence false l b a n window debias (nb, na) = coherence false l a b n window debias (na, nb) := by
  unfold coherence
  rw [stepsize_default l n hn h]
  simp only
  have h2 := two_div_lb l n hn h
  have : stepsize l n (some (2 * l / n)) none = .ok ⟨(l - n) / (2 * l / n - 1), 2 * l / n, n⟩ := by
    unfold stepsize
    simp only
    rw [if_neg (by omega : ¬ l < n), if_neg (by omega : ¬ 2 * l / n = 1), if_neg (by omega : ¬ 2 * l / n = 0)]
  rw [this]
  simp only
  by_cases h3 : 2 * l / n ≤ 2
  · rw [if_pos h3, if_pos h3]; exact Or.inr rfl
  rw [if_neg h3, if_neg h3, cpsd_swap l a b]
  cases hc : cpsd false l a b n 1 window none with
  | error e => exact Or.inl ⟨e, rfl, e, rfl⟩
  | ok c =>
    cases psd l a n 1 window (some ((l - n) / (2 * l / n - 1))) with
    | error e =>
      cases psd l b n 1 window (some ((l - n) / (2 * l / n - 1))) with
      | error e' => exact Or.inl ⟨e', rfl, e, rfl⟩
      | ok pb => exact Or.inl ⟨e, rfl, e, rfl⟩
    | ok pa =>
      cases psd l b n 1 window (some ((l - n) / (2 * l / n - 1))) with
      | error e => exact Or.inl ⟨e, rfl, e, rfl⟩
      | ok pb =>
        right
        simp only [Except.map]
        congr 1
        apply zip_swap_map
        intro c x y
        simp only [Complex.norm_conj]
        rw [mul_comm (y - _) (x - _)]

/-! ### C125 -/

theorem zip_multiples (A B s t : ℕ) : (multiples A s).zip (multiples B t) =
    (List.range (min (A / s + 1) (B / t + 1))).map fun i => (s * i, t * i) := by
  unfold multiples
  apply List.ext_getElem
  · simp
  · intro i h1 h2
    simp

theorem sum_map_range (f : ℕ → ℂ) (m : ℕ) : ((List.range m).map f).sum = ∑ i ∈ range m, f i := by
  induction m with
  | zero => simp
  | succ m ih => rw [List.range_succ, List.map_append, List.sum_append, ih, sum_range_succ]; simp

/-- C125: the pairs of segments of two records of different lengths: `2·la/n` or more segments of `n` samples
at equal steps through each record, spread over the whole of both (to less than one step), segment `i` of one
with segment `i` of the other; their averaged cross spectrum, first argument times the conjugate of the
second. -/
theorem quasi_pairs (la lb n : ℕ) (hn : 3 ≤ n) (ha : n < la) (hab : la < lb) (a b : ℕ → ℝ) (fs : ℝ)
    (window : WinArg) (w : ℕ → ℝ) (hw : getWindow window n = .ok w) :
    ∃ (m s t : ℕ), 2 * la / n ≤ m ∧ 0 < s ∧ 0 < t ∧
      s = (la - n) / (2 * la / n - 1) ∧ t = (lb - n) / (2 * la / n - 1) ∧
      (∀ i < m, i * s + n ≤ la ∧ i * t + n ≤ lb) ∧ (la < m * s + n ∨ lb < m * t + n) ∧
      cpsdQuasisync false la lb a b n fs window = .ok ((List.range (n / 2)).map fun k0 =>
        (∑ i ∈ range m, segFft a (i * s) n w (k0 + 1) * (starRingEnd ℂ) (segFft b (i * t) n w (k0 + 1))) *
          ((2 / (∑ j ∈ range n, w j ^ 2) / (2 * la / n : ℕ) / fs : ℝ) : ℂ)) := by
  set e := 2 * la / n with he
  have h2 : 2 ≤ e := two_div_lb la n (by omega) ha
  have hs : 0 < (la - n) / (e - 1) := step_pos la n hn ha
  have ht : 0 < (lb - n) / (e - 1) := lt_of_lt_of_le hs (Nat.div_le_div_right (by omega))
  set s := (la - n) / (e - 1)
  set t := (lb - n) / (e - 1)
  have hst1 : stepsize la n none none = .ok ⟨s, e, n⟩ := stepsize_default la n (by omega) ha
  have hst2 : stepsize lb n (some e) none = .ok ⟨t, e, n⟩ := by
    unfold stepsize
    simp only
    rw [if_neg (by omega : ¬ lb < n), if_neg (by omega : ¬ e = 1), if_neg (by omega : ¬ e = 0)]
  have hr1 : segStarts la ⟨s, e, n⟩ = .ok (multiples (la - n) s) := segStarts_many la ⟨s, e, n⟩ hs (by simp; omega)
  have hr2 : segStarts lb ⟨t, e, n⟩ = .ok (multiples (lb - n) t) := segStarts_many lb ⟨t, e, n⟩ ht (by simp; omega)
  have hc1 : e ≤ (la - n) / s + 1 := by
    have : e - 1 ≤ (la - n) / s := by
      rw [Nat.le_div_iff_mul_le hs, mul_comm]
      exact Nat.div_mul_le_self _ _
    omega
  have hc2 : e ≤ (lb - n) / t + 1 := by
    have : e - 1 ≤ (lb - n) / t := by
      rw [Nat.le_div_iff_mul_le ht, mul_comm]
      exact Nat.div_mul_le_self _ _
    omega
  refine ⟨min ((la - n) / s + 1) ((lb - n) / t + 1), s, t, le_min hc1 hc2, hs, ht, rfl, rfl, ?_, ?_, ?_⟩
  · intro i hi
    have i1 : i ≤ (la - n) / s := by omega
    have i2 : i ≤ (lb - n) / t := by omega
    rw [Nat.le_div_iff_mul_le hs] at i1
    rw [Nat.le_div_iff_mul_le ht] at i2
    omega
  · rcases Nat.le_total ((la - n) / s + 1) ((lb - n) / t + 1) with hle | hle
    · left
      rw [min_eq_left hle]
      have := Nat.lt_mul_div_succ (la - n) hs
      rw [mul_comm] at this
      omega
    · right
      rw [min_eq_right hle]
      have := Nat.lt_mul_div_succ (lb - n) ht
      rw [mul_comm] at this
      omega
  · unfold cpsdQuasisync
    rw [if_neg (by omega), if_neg (by omega)]
    unfold cpsdQuasi
    rw [hst1]
    simp only [hst2, hw, hr1, hr2]
    congr 1
    apply List.map_congr_left
    intro k0 _
    unfold psdScale
    congr 1
    rw [zip_multiples, List.map_map, sum_map_range]
    simp only [Function.comp, mul_comm s, mul_comm t]

/-- C125 (refuted): the order of the arguments is lost when the lengths differ; for equal lengths exchanging
them conjugates the result (`cpsd_swap`). -/
theorem quasi_order_false (auto : Bool) (la lb n : ℕ) (h : la ≠ lb) (a b : ℕ → ℝ) (fs : ℝ) (window : WinArg) :
    cpsdQuasisync auto la lb a b n fs window = cpsdQuasisync auto lb la b a n fs window := by
  unfold cpsdQuasisync
  rw [if_neg h, if_neg (Ne.symm h)]
  by_cases h1 : lb < la
  · rw [if_pos h1, if_neg (by omega)]
  · rw [if_neg h1, if_pos (by omega)]

theorem dft_one (y : ℕ → ℝ) : dft 4 y 1 = ((y 0 - y 2 : ℝ) : ℂ) - ((y 1 - y 3 : ℝ) : ℂ) * Complex.I := by
  unfold dft
  rw [sum_range_succ, sum_range_succ, sum_range_succ, sum_range_succ, sum_range_zero]
  have e1 : Complex.exp (-(2 * Real.pi * Complex.I * (1 : ℕ) * (1 : ℕ) / (4 : ℕ))) = -Complex.I := by
    rw [show -(2 * Real.pi * Complex.I * (1 : ℕ) * (1 : ℕ) / (4 : ℕ)) = -(Real.pi / 2 * Complex.I) by push_cast; ring,
      Complex.exp_neg, Complex.exp_pi_div_two_mul_I, Complex.inv_I]
  have e2 : Complex.exp (-(2 * Real.pi * Complex.I * (1 : ℕ) * (2 : ℕ) / (4 : ℕ))) = -1 := by
    rw [← Complex.exp_neg_pi_mul_I]; congr 1; push_cast; ring
  have e3 : Complex.exp (-(2 * Real.pi * Complex.I * (1 : ℕ) * (3 : ℕ) / (4 : ℕ))) = Complex.I := by
    rw [show -(2 * Real.pi * Complex.I * (1 : ℕ) * (3 : ℕ) / (4 : ℕ)) =
      -(Real.pi * Complex.I) + -(Real.pi / 2 * Complex.I) by push_cast; ring, Complex.exp_add,
      Complex.exp_neg_pi_mul_I, Complex.exp_neg, Complex.exp_pi_div_two_mul_I, Complex.inv_I]
    ring
  rw [e1, e2, e3]
  simp
  ring

/-- Two records without mean and trend, a quarter period apart. -/
def exX : ℕ → ℝ
  | 0 => 1
  | 1 => -1
  | 2 => -1
  | 3 => 1
  | _ => 0

/-- The second one. -/
def exY : ℕ → ℝ
  | 0 => 1
  | 1 => -3
  | 2 => 3
  | 3 => -1
  | _ => 0

/-- C125 (refuted) at a concrete pair of records of 5 and 4 samples: the documented result, first argument
times the conjugate of the second, has a negative imaginary part at the first frequency; the function returns a
positive one. -/
theorem quasi_sign_false : ∃ (a b : ℕ → ℝ) (z : ℂ), cpsdQuasisync false 5 4 a b 4 1 .none = .ok (z :: [0]) ∧
    0 < z.im ∧ (segFft a 0 4 (fun _ => 1) 1 * (starRingEnd ℂ) (segFft b 0 4 (fun _ => 1) 1)).im < 0 := by
  have dx : ∀ i, detrendR 4 (fun j => exX (0 + j)) i = exX i - 0 * (i - 3 / 2) := by
    intro i
    unfold detrendR
    rw [detrend_some 4 (by norm_num)]
    simp only [sum_range_succ, sum_range_zero, exX]
    norm_num
  have dy : ∀ i, detrendR 4 (fun j => exY (0 + j)) i = exY i - 0 * (i - 3 / 2) := by
    intro i
    unfold detrendR
    rw [detrend_some 4 (by norm_num)]
    simp only [sum_range_succ, sum_range_zero, exY]
    norm_num
  have x1 : segFft exX 0 4 (fun _ => 1) 1 = 2 + 2 * Complex.I := by
    unfold segFft
    rw [dft_one]
    simp only [dx]
    simp only [exX]
    norm_num
  have y1 : segFft exY 0 4 (fun _ => 1) 1 = -2 + 2 * Complex.I := by
    unfold segFft
    rw [dft_one]
    simp only [dy]
    simp only [exY]
    norm_num
  have x2 : segFft exX 0 4 (fun _ => 1) 2 = 0 := by
    unfold segFft
    rw [dft_even]
    simp only [dx]
    simp only [exX]
    norm_num
  refine ⟨exX, exY, 4 * Complex.I, ?_, by simp, ?_⟩
  · have s1 : stepsize 4 4 none none = .ok ⟨0, 1, 4⟩ := by decide
    have s2 : stepsize 5 4 (some 1) none = .ok ⟨0, 1, 4⟩ := by decide
    have r1 : segStarts 4 ⟨0, 1, 4⟩ = .ok [0] := by decide
    have r2 : segStarts 5 ⟨0, 1, 4⟩ = .ok [0] := by decide
    unfold cpsdQuasisync
    rw [if_neg (by decide), if_pos (by decide)]
    unfold cpsdQuasi
    rw [s1]
    simp only [s2, r1, r2, getWindow]
    simp only [psdScale, List.zip_cons_cons, List.zip_nil_right, List.map_cons, List.map_nil, List.sum_cons,
      List.sum_nil, List.range_succ, List.range_zero, show 4 / 2 = 2 from rfl, List.nil_append, List.cons_append,
      zero_add, x1, y1, show 1 + 1 = 2 from rfl, x2]
    rw [map_zero, mul_zero, zero_add, zero_mul]
    congr 2
    apply Complex.ext <;> simp <;> norm_num
  · rw [x1, y1]
    simp

/-- C27, C125 (refuted): with records of different lengths the noise levels go to the shorter and the longer
record, not to the first and the second. -/
theorem coherence_noise_false (auto : Bool) (la lb n : ℕ) (h : la ≠ lb) (a b : ℕ → ℝ) (window : WinArg)
    (debias : Bool) (na nb : ℝ) :
    coherenceAny auto la lb a b n window debias (na, nb) = coherenceAny auto lb la b a n window debias (na, nb) := by
  unfold coherenceAny
  rw [if_neg h, if_neg (Ne.symm h)]
  by_cases h1 : lb < la
  · rw [if_pos h1, if_neg (by omega)]
  · rw [if_neg h1, if_pos (by omega)]

/-- The hypotheses of `quasi_pairs` and of the debiasing hold for records of 20 and 30 samples. -/
example : ∃ m, 8 ≤ m ∧ (∀ i < m, i * 2 + 5 ≤ 20 ∧ i * 3 + 5 ≤ 30) := by
  obtain ⟨m, s, t, h1, -, -, h2, h3, h4, -⟩ := quasi_pairs 20 30 5 (by decide) (by decide) (by decide) exX exY 1 .none
    (fun _ => 1) rfl
  subst h2 h3
  exact ⟨m, h1, h4⟩

end Dolfyn
