import Verif.Props.Psd
import Mathlib.Analysis.InnerProductSpace.Basic
import Mathlib.Algebra.Order.BigOperators.Ring.Finset

/-!
C26 (Parseval), C27 (coherence), C28 (phase angle).
-/

namespace Dolfyn
open Finset

/-! ### C26 -/

theorem core_single (l nfft : ℕ) (fs : ℝ) (h : l ≤ nfft) :
    core l nfft fs .none none = .ok (l, fun _ => 1, [0], 2 / l / fs) := by
  unfold core
  rw [stepsize_single l nfft h]
  simp only [getWindow, segStarts_one l ⟨0, 1, l⟩ rfl, psdScale]
  simp

/-- Summing the amplitudes over `1 .. n-1` by pairs. -/
theorem paired_sum (n : ℕ) (f : ℕ → ℝ) (hf : ∀ k, 0 < k → k < n → f (n - k) = f k) :
    2 * ∑ k ∈ range (n / 2), f (k + 1) =
      (∑ k ∈ range (n - 1), f (k + 1)) + if 2 ∣ n then (if n = 0 then 0 else f (n / 2)) else 0 := by
  have refl : ∀ m, m ≤ n - 1 → ∑ k ∈ range m, f (n - 1 - k) = ∑ k ∈ range m, f (k + 1) := by
    intro m hm
    apply sum_congr rfl
    intro k hk
    rw [mem_range] at hk
    rw [← hf (k + 1) (by omega) (by omega)]
    congr 1; omega
  have split : ∀ m, m ≤ n - 1 → ∑ k ∈ range (n - 1), f (k + 1) =
      ∑ k ∈ range (n - 1 - m), f (k + 1) + ∑ k ∈ range m, f (k + 1) := by
    intro m hm
    rw [← refl m hm]
    conv_lhs => rw [show n - 1 = (n - 1 - m) + m by omega, sum_range_add]
    congr 1
    rw [← sum_range_reflect]
    apply sum_congr rfl
    intro k hk
    rw [mem_range] at hk
    congr 1; omega
  rcases Nat.eq_zero_or_pos n with rfl | hn
  · simp
  by_cases h2 : 2 ∣ n
  · rw [if_pos h2, if_neg (by omega)]
    obtain ⟨m, rfl⟩ := h2
    have e : 2 * m / 2 = m := by omega
    rw [e, split (m - 1) (by omega), show 2 * m - 1 - (m - 1) = m by omega]
    have : ∑ k ∈ range m, f (k + 1) = ∑ k ∈ range (m - 1), f (k + 1) + f m := by
      conv_lhs => rw [show m = (m - 1) + 1 by omega, sum_range_succ]
      congr 2; omega
    rw [two_mul]; linarith
  · rw [if_neg h2, split (n / 2) (by omega), show n - 1 - n / 2 = n / 2 by omega]
    ring

/-- Sum over the positive frequencies of a detrended record. -/
theorem half_energy (n : ℕ) (hn : 2 ≤ n) (r : ℕ → ℝ) (h0 : ∑ t ∈ range n, r t = 0) :
    2 * ∑ k ∈ range (n / 2), ‖dft n r (k + 1)‖ ^ 2 =
      n * ∑ t ∈ range n, r t ^ 2 + if 2 ∣ n then ‖dft n r (n / 2)‖ ^ 2 else 0 := by
  have hz : dft n r 0 = 0 := by rw [dft_zero, h0]; simp
  have hp := parseval n r
  rw [show n = (n - 1) + 1 by omega, sum_range_succ', ← show n = (n - 1) + 1 by omega, hz] at hp
  have := paired_sum n (fun k => ‖dft n r k‖ ^ 2) (by
    intro k _ hk
    rw [dft_symm n r k hk.le (by omega)])
  rw [this, if_neg (by omega : ¬ n = 0), ← hp]
  simp

/-- C26: for one segment with the boxcar window, the sum of `psd` times the frequency spacing is
the mean square of the detrended record, plus, for an even length, half of the contribution of
the Nyquist frequency (the last entry). -/
theorem psd_parseval (l nfft : ℕ) (hl : 2 ≤ l) (h : l ≤ nfft) (a : ℕ → ℝ) (fs : ℝ) (hfs : 0 < fs) :
    ∃ P : List ℝ, psd l a nfft fs .none none = .ok P ∧ P.length = l / 2 ∧
      P.sum * (fs / l) = (∑ t ∈ range l, detrendR l a t ^ 2) / l +
        if 2 ∣ l then (P.getLastD 0 * (fs / l)) / 2 else 0 := by
  have hl0 : (l : ℝ) ≠ 0 := by exact_mod_cast (by omega : l ≠ 0)
  obtain ⟨α, β, -, g0, -⟩ := detrendR_eq l hl a
  have he := half_energy l hl (detrendR l a) g0
  have hseg : ∀ k, segFft a 0 l (fun _ => 1) k = dft l (detrendR l a) k := by
    intro k; unfold segFft; simp
  refine ⟨_, by rw [psd_eq_core _ _ _ _ hfs, core_single l nfft fs h]; rfl, by simp, ?_⟩
  simp only [List.map_cons, List.map_nil, List.sum_cons, List.sum_nil, add_zero, hseg]
  rw [sum_list_range (F := ℝ), ← sum_mul]
  set S := ∑ i ∈ range (l / 2), ‖dft l (detrendR l a) (i + 1)‖ ^ 2
  by_cases h2 : 2 ∣ l
  · rw [if_pos h2] at he ⊢
    have hlast : (List.map (fun k0 => ‖dft l (detrendR l a) (k0 + 1)‖ ^ 2 * (2 / (l : ℝ) / fs))
        (List.range (l / 2))).getLastD 0 = ‖dft l (detrendR l a) (l / 2)‖ ^ 2 * (2 / (l : ℝ) / fs) := by
      obtain ⟨m, hm⟩ : ∃ m, l / 2 = m + 1 := ⟨l / 2 - 1, by omega⟩
      rw [hm, List.range_succ, List.map_append]
      simp
    rw [hlast]
    field_simp
    linear_combination he
  · rw [if_neg h2] at he ⊢
    field_simp
    linear_combination he

example : ∃ P : List ℝ, psd 3 (fun i => (i : ℝ) ^ 2) 4 8 .none none = .ok P ∧ P.length = 1 ∧
    P.sum * (8 / 3) = (∑ t ∈ range 3, detrendR 3 (fun i => (i : ℝ) ^ 2) t ^ 2) / 3 := by
  obtain ⟨P, h1, h2, h3⟩ := psd_parseval 3 4 (by norm_num) (by norm_num) (fun i => (i : ℝ) ^ 2) 8 (by norm_num)
  refine ⟨P, h1, by rw [h2], ?_⟩
  rw [if_neg (by norm_num), add_zero] at h3
  exact_mod_cast h3

/-! ### C27 -/

/-- Cauchy–Schwarz for finite sums of complex numbers. -/
theorem cauchy_list (L : List ℕ) (x y : ℕ → ℂ) :
    ‖(L.map fun i => x i * (starRingEnd ℂ) (y i)).sum‖ ^ 2 ≤
      (L.map fun i => ‖x i‖ ^ 2).sum * (L.map fun i => ‖y i‖ ^ 2).sum := by
  have h1 : ‖(L.map fun i => x i * (starRingEnd ℂ) (y i)).sum‖ ≤ (L.map fun i => ‖x i‖ * ‖y i‖).sum := by
    induction L with
    | nil => simp
    | cons a L ih =>
      simp only [List.map_cons, List.sum_cons]
      refine (norm_add_le _ _).trans ?_
      rw [norm_mul, Complex.norm_conj]
      linarith
  have h2 : (L.map fun i => ‖x i‖ * ‖y i‖).sum ^ 2 ≤
      (L.map fun i => ‖x i‖ ^ 2).sum * (L.map fun i => ‖y i‖ ^ 2).sum := by
    have := Finset.sum_mul_sq_le_sq_mul_sq (univ : Finset (Fin L.length))
      (fun i => ‖x L[i]‖) (fun i => ‖y L[i]‖)
    have e : ∀ f : ℕ → ℝ, (L.map f).sum = ∑ i : Fin L.length, f L[i] := by
      intro f
      rw [← List.sum_ofFn]
      congr 1
      apply List.ext_getElem <;> simp
    rw [e, e, e]
    exact this
  calc _ ≤ _ := pow_le_pow_left₀ (norm_nonneg _) h1 2
    _ ≤ _ := h2

/-- The squared coherence of the two records over a set of segments. -/
noncomputable def Spec.msc (starts : List ℕ) (a b : ℕ → ℝ) (n : ℕ) (w : ℕ → ℝ) (k : ℕ) : ℝ :=
  ‖(starts.map fun i => segFft a i n w k * (starRingEnd ℂ) (segFft b i n w k)).sum‖ ^ 2 /
    ((starts.map fun i => ‖segFft a i n w k‖ ^ 2).sum * (starts.map fun i => ‖segFft b i n w k‖ ^ 2).sum)

theorem msc_mem (L : List ℕ) (a b : ℕ → ℝ) (n : ℕ) (w : ℕ → ℝ) (k : ℕ) :
    0 ≤ Spec.msc L a b n w k ∧ Spec.msc L a b n w k ≤ 1 := by
  unfold Spec.msc
  have h1 := sum_sq_nonneg L fun i => ‖segFft a i n w k‖
  have h2 := sum_sq_nonneg L fun i => ‖segFft b i n w k‖
  exact ⟨by positivity, div_le_one_of_le₀ (cauchy_list _ _ _) (mul_nonneg h1 h2)⟩

theorem zip_map_range (N : ℕ) (f : ℕ → ℂ) (g h : ℕ → ℝ) (F : ℂ × ℝ × ℝ → ℝ) :
    (((List.range N).map f).zip (((List.range N).map g).zip ((List.range N).map h))).map F =
      (List.range N).map fun k => F (f k, g k, h k) := by
  rw [List.zip_map', List.zip_map', List.map_map]
  rfl

/-- C27: what `coherence` returns (no noise, no debias): the squared coherence over the segments
times the square of (number of segments) / nens. The list lists the frequencies `1 .. nfft//2`. -/
theorem coherence_code (auto : Bool) (l n : ℕ) (hn : 3 ≤ n) (h : n < l) (he : 2 < 2 * l / n)
    (a b : ℕ → ℝ) (hab : auto = true → a = b) (window : WinArg) (w : ℕ → ℝ)
    (hw : getWindow window n = .ok w) (hW : ∑ t ∈ range n, w t ^ 2 ≠ 0) :
    ∃ starts : List ℕ, (∀ i, i ∈ starts ↔ ((l - n) / (2 * l / n - 1) ∣ i ∧ i + n ≤ l)) ∧
      starts.length = (l - n) / ((l - n) / (2 * l / n - 1)) + 1 ∧
      coherence auto l a b n window false (0, 0) = .ok ((List.range (n / 2)).map fun k0 =>
        ((starts.length : ℝ) / (2 * l / n : ℕ)) ^ 2 * Spec.msc starts a b n w (k0 + 1)) := by
  obtain ⟨s, st, h1, h2, h3, h4, -, h6, h7, -, h9, -⟩ := segments_default l n hn h
  have hs := stepsize_default l n (by omega) h
  rw [h1] at hs
  have hs' := Except.ok.inj hs
  have hstep : s.step = (l - n) / (2 * l / n - 1) := by rw [hs']
  refine ⟨st, by rw [← hstep]; exact h7, by rw [h9, hstep], ?_⟩
  have hst2 : stepsize l n (some s.nens) none = .ok s := by
    unfold stepsize
    simp only
    rw [if_neg (by omega : ¬ l < n), if_neg (by omega : ¬ s.nens = 1),
      if_neg (by omega : ¬ s.nens = 0), hs']
  have hmin : min l n = n := min_eq_right h.le
  have hst3 : stepsize l n none (some s.step) = .ok ⟨s.step, (l - n) / s.step + 1, n⟩ := by
    rw [stepsize_step l n s.step h4, hmin]
  have hseg3 : segStarts l ⟨s.step, (l - n) / s.step + 1, n⟩ = .ok st := by
    have := segStarts_explicit l n s.step h4
    rw [hmin] at this
    rw [this]
    have h2' := segStarts_many l s h4 (by omega)
    rw [h2, h3] at h2'
    exact h2'.symm
  have hst : s.nens ≠ 0 := by omega
  have hc1 : core l n 1 window none = .ok (n, w, st, psdScale s w 1) := by
    unfold core
    rw [h1]; simp only [h3, hw, h2]
  have hc2 : core l n 1 window (some s.step) = .ok (n, w, st, psdScale ⟨s.step, (l - n) / s.step + 1, n⟩ w 1) := by
    unfold core
    rw [hst3]; simp only [hw, hseg3]
  unfold coherence
  rw [h1]
  simp only [h3, hst2]
  rw [if_neg (by omega : ¬ s.nens ≤ 2), cpsd_eq_core, psd_eq_core _ _ _ _ one_pos,
    psd_eq_core _ _ _ _ one_pos, hc1, hc2]
  simp only [Except.map]
  rw [zip_map_range]
  congr 1
  apply List.map_congr_left
  intro k0 _
  simp only [Bool.false_eq_true, if_false]
  have hcross : ‖cpsdAt auto a b n w st (psdScale s w 1) (k0 + 1)‖ =
      ‖(st.map fun i => segFft a i n w (k0 + 1) * (starRingEnd ℂ) (segFft b i n w (k0 + 1))).sum‖ *
        psdScale s w 1 := by
    have e : cpsdAt auto a b n w st (psdScale s w 1) (k0 + 1) =
        cpsdAt false a b n w st (psdScale s w 1) (k0 + 1) := by
      cases auto
      · rfl
      · rw [hab rfl, cpsdAt_self false]
    rw [e]
    unfold cpsdAt
    simp only [Bool.false_eq_true, if_false]
    rw [norm_mul, Complex.norm_real, Real.norm_eq_abs, abs_of_nonneg (psdScale_nonneg s w 1 one_pos)]
  rw [hcross, ← h6]
  unfold Spec.msc psdScale
  simp only [h3]
  rw [← h9]
  have hc : (st.length : ℝ) ≠ 0 := by
    have : st.length ≠ 0 := by rw [h9]; exact Nat.succ_ne_zero _
    exact_mod_cast this
  have hnn : (s.nens : ℝ) ≠ 0 := by exact_mod_cast hst
  set W := ∑ t ∈ range n, w t ^ 2
  set X := ‖(st.map fun i => segFft a i n w (k0 + 1) * (starRingEnd ℂ) (segFft b i n w (k0 + 1))).sum‖
  set A := (st.map fun i => ‖segFft a i n w (k0 + 1)‖ ^ 2).sum
  set B := (st.map fun i => ‖segFft b i n w (k0 + 1)‖ ^ 2).sum
  by_cases hA : A * B = 0
  · have e0 : (A * (2 / W / ↑st.length / 1) - 0 ^ 2 / Real.pi) *
        (B * (2 / W / ↑st.length / 1) - 0 ^ 2 / Real.pi) = 0 := by
      have : (A * (2 / W / ↑st.length / 1) - 0 ^ 2 / Real.pi) *
        (B * (2 / W / ↑st.length / 1) - 0 ^ 2 / Real.pi) = A * B * (2 / W / st.length) ^ 2 := by ring
      rw [this, hA, zero_mul]
    rw [e0, hA]; simp
  · have hA' : A ≠ 0 := left_ne_zero_of_mul hA
    have hB' : B ≠ 0 := right_ne_zero_of_mul hA
    have e0 : (0 : ℝ) ^ 2 / Real.pi = 0 := by simp
    rw [e0, sub_zero, sub_zero]
    field_simp

/-- C27: where the segment count is right the coherence lies in `[0, 1]`. -/
theorem coherence_mem_partial (auto : Bool) (l n : ℕ) (hn : 3 ≤ n) (h : n < l) (he : 2 < 2 * l / n)
    (hcount : (l - n) / ((l - n) / (2 * l / n - 1)) + 1 = 2 * l / n)
    (a b : ℕ → ℝ) (hab : auto = true → a = b) (window : WinArg) (w : ℕ → ℝ)
    (hw : getWindow window n = .ok w) (hW : ∑ t ∈ range n, w t ^ 2 ≠ 0) :
    ∃ C : List ℝ, coherence auto l a b n window false (0, 0) = .ok C ∧ C.length = n / 2 ∧
      ∀ x ∈ C, 0 ≤ x ∧ x ≤ 1 := by
  obtain ⟨st, -, hl, hC⟩ := coherence_code auto l n hn h he a b hab window w hw hW
  refine ⟨_, hC, by simp, ?_⟩
  intro x hx
  obtain ⟨k, -, rfl⟩ := List.mem_map.mp hx
  have : (st.length : ℝ) / (2 * l / n : ℕ) = 1 := by
    rw [hl, hcount]
    apply div_self
    exact_mod_cast (by omega : 2 * l / n ≠ 0)
  rw [this, one_pow, one_mul]
  exact msc_mem _ _ _ _ _ _

/-- The hypotheses are met, for instance, by 20 samples and FFT length 5. -/
example : 2 < 2 * 20 / 5 ∧ (20 - 5) / ((20 - 5) / (2 * 20 / 5 - 1)) + 1 = 2 * 20 / 5 := by decide

/-- C27: `coherence(a, a)` is the square of (number of segments) / nens wherever the spectrum is
not zero; this is 1 exactly when the count is right. -/
theorem coherence_self (auto : Bool) (l n : ℕ) (hn : 3 ≤ n) (h : n < l) (he : 2 < 2 * l / n)
    (a : ℕ → ℝ) (window : WinArg) (w : ℕ → ℝ)
    (hw : getWindow window n = .ok w) (hW : ∑ t ∈ range n, w t ^ 2 ≠ 0) :
    ∃ C : List ℝ, coherence auto l a a n window false (0, 0) = .ok C ∧ C.length = n / 2 ∧
      ∀ k, k < n / 2 → (∃ i, (l - n) / (2 * l / n - 1) ∣ i ∧ i + n ≤ l ∧ segFft a i n w (k + 1) ≠ 0) →
        C.getD k 0 = (((l - n) / ((l - n) / (2 * l / n - 1)) + 1 : ℕ) / (2 * l / n : ℕ) : ℝ) ^ 2 := by
  obtain ⟨st, hm, hl, hC⟩ := coherence_code auto l n hn h he a a (fun _ => rfl) window w hw hW
  refine ⟨_, hC, by simp, ?_⟩
  rintro k hk ⟨i, hi1, hi2, hi3⟩
  simp only [List.getD_eq_getElem?_getD, List.getElem?_map, List.getElem?_range hk, Option.map_some,
    Option.getD_some]
  have hpos : 0 < (st.map fun i => ‖segFft a i n w (k + 1)‖ ^ 2).sum := by
    have hmem := (hm i).mpr ⟨hi1, hi2⟩
    have hx : 0 < ‖segFft a i n w (k + 1)‖ ^ 2 := by positivity
    refine lt_of_lt_of_le hx (List.single_le_sum ?_ _ (List.mem_map.mpr ⟨i, hmem, rfl⟩))
    intro y hy
    obtain ⟨j, -, rfl⟩ := List.mem_map.mp hy
    positivity
  have hmsc : Spec.msc st a a n w (k + 1) = 1 := by
    unfold Spec.msc
    have e : (st.map fun i => segFft a i n w (k + 1) * (starRingEnd ℂ) (segFft a i n w (k + 1))).sum =
        (((st.map fun i => ‖segFft a i n w (k + 1)‖ ^ 2).sum : ℝ) : ℂ) := by
      rw [← norm_sum_ofReal]
      congr 2
      funext i
      rw [Complex.mul_conj, Complex.normSq_eq_norm_sq]
    rw [e, Complex.norm_real, Real.norm_eq_abs, abs_of_pos hpos]
    field_simp
  rw [hmsc, mul_one, hl]

theorem dft_even (y : ℕ → ℝ) : dft 4 y 2 = ((y 0 - y 1 + y 2 - y 3 : ℝ) : ℂ) := by
  unfold dft
  rw [sum_range_succ, sum_range_succ, sum_range_succ, sum_range_succ, sum_range_zero]
  have e1 : Complex.exp (-(2 * Real.pi * Complex.I * (2 : ℕ) * (1 : ℕ) / (4 : ℕ))) = -1 := by
    rw [← Complex.exp_neg_pi_mul_I]; congr 1; push_cast; ring
  have e2 : Complex.exp (-(2 * Real.pi * Complex.I * (2 : ℕ) * (2 : ℕ) / (4 : ℕ))) = 1 := by
    have := Complex.exp_two_pi_mul_I
    rw [show -(2 * Real.pi * Complex.I * (2 : ℕ) * (2 : ℕ) / (4 : ℕ)) = -(2 * Real.pi * Complex.I) by push_cast; ring,
      Complex.exp_neg, this, inv_one]
  have e3 : Complex.exp (-(2 * Real.pi * Complex.I * (2 : ℕ) * (3 : ℕ) / (4 : ℕ))) = -1 := by
    rw [show -(2 * Real.pi * Complex.I * (2 : ℕ) * (3 : ℕ) / (4 : ℕ)) =
      -(2 * Real.pi * Complex.I) + -(Real.pi * Complex.I) by push_cast; ring, Complex.exp_add,
      Complex.exp_neg, Complex.exp_two_pi_mul_I, Complex.exp_neg_pi_mul_I]
    simp
  rw [e1, e2, e3]
  simp
  ring

/-- C27 fails: the coherence of a record of nine samples with itself (FFT length 4, boxcar) is
9/4 at the Nyquist frequency. -/
theorem coherence_exceeds_one :
    ∃ (a : ℕ → ℝ) (C : List ℝ), coherence true 9 a a 4 .none false (0, 0) = .ok C ∧
      C.getD 1 0 = 9 / 4 := by
  obtain ⟨C, h1, -, h3⟩ := coherence_self true 9 4 (by norm_num) (by norm_num) (by norm_num)
    (fun i => if i = 0 then 1 else 0) .none (fun _ => 1) rfl (by simp)
  refine ⟨_, C, h1, ?_⟩
  rw [h3 1 (by norm_num) ⟨0, by simp, by norm_num, ?_⟩]
  · norm_num
  · unfold segFft
    simp only [mul_one, zero_add]
    rw [dft_even]
    have hd : ∀ i, detrendR 4 (fun j => if j = 0 then (1 : ℝ) else 0) i =
        (if i = 0 then (1 : ℝ) else 0) - 1 / 4 - (-3 / 10) * (i - 3 / 2) := by
      intro i
      unfold detrendR
      rw [detrend_some 4 (by norm_num)]
      simp only [sum_range_succ, sum_range_zero]
      norm_num
    rw [hd, hd, hd, hd]
    norm_num

/-- C27: with two ensembles or fewer `coherence` refuses. -/
theorem coherence_few (auto : Bool) (l n : ℕ) (hn : 0 < n) (h : 2 * l / n ≤ 2) (a b : ℕ → ℝ)
    (window : WinArg) (debias : Bool) (noise : ℝ × ℝ) :
    coherence auto l a b n window debias noise = .error .exception := by
  unfold coherence
  by_cases hl : l ≤ n
  · rw [stepsize_single l n hl]
    simp only
    have : stepsize l l (some 1) none = .ok ⟨0, 1, l⟩ := by
      unfold stepsize; simp
    rw [this]
    simp
  · have h2 := two_div_lb l n hn (by omega)
    rw [stepsize_default l n hn (by omega)]
    simp only
    have : stepsize l n (some (2 * l / n)) none = .ok ⟨(l - n) / (2 * l / n - 1), 2 * l / n, n⟩ := by
      unfold stepsize
      simp only
      rw [if_neg (by omega : ¬ l < n), if_neg (by omega : ¬ 2 * l / n = 1),
        if_neg (by omega : ¬ 2 * l / n = 0)]
    rw [this]
    simp only
    rw [if_pos h]

/-! ### C28 -/

theorem segFft_first (b b' : ℕ → ℝ) (nfft : ℕ) (hn : 2 ≤ nfft) (h : ∀ i < nfft, b i = b' i)
    (w : ℕ → ℝ) (k : ℕ) : segFft b 0 nfft w k = segFft b' 0 nfft w k := by
  unfold segFft
  apply dft_congr
  intro t ht
  have : detrendR nfft (fun j => b (0 + j)) t = detrendR nfft (fun j => b' (0 + j)) t := by
    unfold detrendR
    rw [detrend_some nfft hn, detrend_some nfft hn]
    simp only [Option.getD_some, zero_add]
    rw [sum_congr rfl fun j hj => h j (mem_range.mp hj), h t ht]
    congr 3
    apply sum_congr rfl
    intro j hj
    rw [h j (mem_range.mp hj)]
  rw [this]

/-- C28: the result depends on the second record only through its first `nfft` samples. -/
theorem phase_angle_ignores (l : ℕ) (a b b' : ℕ → ℝ) (nfft : ℕ) (window : WinArg) (step : Option ℕ)
    (h : ∀ i < nfft, b i = b' i) :
    phaseAngle l a b nfft window step = phaseAngle l a b' nfft window step := by
  unfold phaseAngle
  cases getWindow window nfft with
  | error _ => rfl
  | ok w =>
    simp only
    by_cases hl : l < nfft
    · rw [if_pos hl, if_pos hl]
    rw [if_neg hl, if_neg hl]
    cases stepsize l nfft none step with
    | error _ => rfl
    | ok s =>
      simp only
      cases segStarts l s with
      | error _ => rfl
      | ok st =>
        simp only
        congr 1
        apply List.map_congr_left
        intro k hk
        rw [segFft_first b b' nfft (half_mem hk) h w (k + 1)]

theorem unit_div (x y : ℂ) (hx : x ≠ 0) :
    y / (‖y‖ : ℂ) / (x / (‖x‖ : ℂ)) = (starRingEnd ℂ) x * y / ((‖x‖ * ‖y‖ : ℝ) : ℂ) := by
  have h1 : ((‖x‖ : ℝ) : ℂ) ≠ 0 := by exact_mod_cast norm_ne_zero_iff.mpr hx
  by_cases hy : y = 0
  · simp [hy]
  have h2 : ((‖y‖ : ℝ) : ℂ) ≠ 0 := by exact_mod_cast norm_ne_zero_iff.mpr hy
  have h3 : (starRingEnd ℂ) x * x = (‖x‖ : ℂ) ^ 2 := by
    rw [mul_comm, Complex.mul_conj, Complex.normSq_eq_norm_sq]; push_cast; rfl
  push_cast
  field_simp
  linear_combination -h3

/-- C28: for a record of exactly one segment the phase angle is the unit phasor of the cross
spectrum. -/
theorem phase_angle_single_partial (n : ℕ) (a b : ℕ → ℝ) (window : WinArg) (w : ℕ → ℝ)
    (hw : getWindow window n = .ok w) (ha : ∀ k, 0 < k → k ≤ n / 2 → segFft a 0 n w k ≠ 0) :
    phaseAngle n a b n window none = .ok ((List.range (n / 2)).map fun k0 =>
      Spec.meanPhase [0] a b n w (k0 + 1)) := by
  unfold phaseAngle
  rw [hw]
  simp only
  rw [if_neg (lt_irrefl n), stepsize_single n n le_rfl]
  simp only [segStarts_one n ⟨0, 1, n⟩ rfl]
  congr 1
  apply List.map_congr_left
  intro k hk
  rw [List.mem_range] at hk
  unfold Spec.meanPhase
  simp only [List.map_cons, List.map_nil, List.sum_cons, List.sum_nil, List.drop_one, List.tail_cons,
    List.length_singleton]
  rw [unit_div _ _ (ha (k + 1) (by omega) (by omega))]

theorem seg3_ne (a : ℕ → ℝ) (i : ℕ) (h : a i - 2 * a (i + 1) + a (i + 2) ≠ 0) :
    segFft a i 3 (fun _ => 1) 1 ≠ 0 := by
  unfold segFft
  have hd : ∀ t, t < 3 → detrendR 3 (fun j => a (i + j)) t =
      (a i - 2 * a (i + 1) + a (i + 2)) / 6 * (if t = 1 then -2 else 1) := by
    intro t ht
    unfold detrendR
    rw [detrend_some 3 (by norm_num)]
    simp only [sum_range_succ, sum_range_zero, Option.getD_some]
    obtain rfl | rfl | rfl : t = 0 ∨ t = 1 ∨ t = 2 := by omega
    all_goals norm_num; ring
  set c := (a i - 2 * a (i + 1) + a (i + 2)) / 6 with hc
  have hc0 : c ≠ 0 := div_ne_zero h (by norm_num)
  have e : dft 3 (fun t => detrendR 3 (fun j => a (i + j)) t * 1) 1 =
      c * dft 3 (fun t => if t = 1 then -2 else 1) 1 + (0 : ℝ) * dft 3 (fun _ => 0) 1 := by
    rw [← dft_lin]
    apply dft_congr
    intro t ht
    rw [hd t ht]; ring
  rw [e]
  have horth := modes_orthogonal 3 1 0 (by norm_num) (by norm_num)
  have hz : dft 3 (fun _ => 1) 1 = 0 := by
    unfold dft
    rw [if_neg (by norm_num)] at horth
    rw [← horth]
    apply sum_congr rfl
    intro t _
    simp
  have e2 : dft 3 (fun t => if t = 1 then -2 else 1) 1 =
      (1 : ℝ) * dft 3 (fun _ => 1) 1 + (-3 : ℝ) * dft 3 (fun t => if t = 1 then 1 else 0) 1 := by
    rw [← dft_lin]
    apply dft_congr
    intro t _
    by_cases h : t = 1 <;> simp [h]; norm_num
  rw [e2, hz]
  have e3 : dft 3 (fun t => if t = 1 then 1 else 0) 1 =
      Complex.exp (-(2 * Real.pi * Complex.I * (1 : ℕ) * (1 : ℕ) / (3 : ℕ))) := by
    unfold dft
    simp [sum_range_succ]
  rw [e3]
  simp [hc0, Complex.exp_ne_zero]

/-- C28 fails: two segments of opposite phase. The average of the phasors of `a` and `b` is not
what the code returns: `b` and `b'` differ only after the first segment, the code returns the same
for both, but the averages differ. -/
theorem phase_angle_wrong :
    ∃ (a b b' : ℕ → ℝ), (∀ b₀ ∈ [a, b, b'], ∀ i ∈ [0, 3], segFft b₀ i 3 (fun _ => 1) 1 ≠ 0) ∧
      phaseAngle 6 a b 3 .none (some 3) = phaseAngle 6 a b' 3 .none (some 3) ∧
      segStarts 6 ⟨3, 2, 3⟩ = .ok [0, 3] ∧
      Spec.meanPhase [0, 3] a b 3 (fun _ => 1) 1 ≠ Spec.meanPhase [0, 3] a b' 3 (fun _ => 1) 1 := by
  let a : ℕ → ℝ := fun i => if i = 1 ∨ i = 4 then 1 else 0
  let b' : ℕ → ℝ := fun i => if i = 1 then 1 else if i = 4 then -1 else 0
  have ha : ∀ i ∈ [0, 3], segFft a i 3 (fun _ => 1) 1 ≠ 0 := by
    intro i hi
    apply seg3_ne
    simp only [List.mem_cons, List.not_mem_nil, or_false] at hi
    rcases hi with rfl | rfl <;> simp [a]
  have hb3 : segFft b' 3 3 (fun _ => 1) 1 = -segFft a 3 3 (fun _ => 1) 1 := by
    have := segFft_lin a a (-1) 0 3 3 (by norm_num) (fun _ => 1) 1
    simp only [Complex.ofReal_zero, zero_mul, add_zero, Complex.ofReal_neg, Complex.ofReal_one, neg_mul, one_mul] at this
    rw [← this]
    unfold segFft
    congr 1
    funext t
    have e : (fun j => b' (3 + j)) = fun j => -a (3 + j) := by
      funext j
      simp only [a, b']
      by_cases h : 3 + j = 4
      · simp [h]
      · have h1 : ¬ (3 + j = 1) := by omega
        simp [h, h1]
    rw [e]
  have hb0 : segFft b' 0 3 (fun _ => 1) 1 = segFft a 0 3 (fun _ => 1) 1 := by
    apply segFft_first _ _ 3 (by norm_num)
    intro t ht
    obtain rfl | rfl | rfl : t = 0 ∨ t = 1 ∨ t = 2 := by omega
    all_goals simp [a, b']
  refine ⟨a, a, b', ?_, ?_, by decide, ?_⟩
  · intro b₀ hb₀
    simp only [List.mem_cons, List.not_mem_nil, or_false] at hb₀
    rcases hb₀ with rfl | rfl | rfl
    · exact ha
    · exact ha
    · intro i hi
      simp only [List.mem_cons, List.not_mem_nil, or_false] at hi
      rcases hi with rfl | rfl
      · rw [hb0]; exact ha 0 (by simp)
      · rw [hb3]; exact neg_ne_zero.mpr (ha 3 (by simp))
  · apply phase_angle_ignores
    intro i hi
    obtain rfl | rfl | rfl : i = 0 ∨ i = 1 ∨ i = 2 := by omega
    all_goals simp [a, b']
  · unfold Spec.meanPhase
    simp only [List.map_cons, List.map_nil, List.sum_cons, List.sum_nil, hb0, hb3, norm_neg]
    have key : ∀ x : ℂ, x ≠ 0 → (starRingEnd ℂ) x * x / ((‖x‖ * ‖x‖ : ℝ) : ℂ) = 1 := by
      intro x hx
      have h1 : ((‖x‖ : ℝ) : ℂ) ≠ 0 := by exact_mod_cast norm_ne_zero_iff.mpr hx
      rw [mul_comm, Complex.mul_conj, Complex.normSq_eq_norm_sq]
      push_cast
      field_simp
    have k0 := key _ (ha 0 (by simp))
    have k3 := key _ (ha 3 (by simp))
    rw [mul_neg, neg_div, k0, k3]
    norm_num

end Dolfyn
