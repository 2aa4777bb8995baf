import Verif.Lemmas.Psd
import Verif.Spec.Psd
import Mathlib.Tactic.NormNum

/-!
C23 (segments), C24 (frequencies), C25 (power spectra), C29 (cross spectra).
-/

namespace Dolfyn
open Finset

/-! ### C23 -/

/-- C23: with the default step and an FFT length of at least three, the segments start at all
multiples of a positive step, they lie inside the record, consecutive ones overlap by at least
half, there is no room for another one, and at least `nens` of them are used. -/
theorem segments_default (l n : ℕ) (hn : 3 ≤ n) (h : n < l) :
    ∃ (s : Steps) (starts : List ℕ), stepsize l n none none = .ok s ∧ segStarts l s = .ok starts ∧
      s.nfft = n ∧ 0 < s.step ∧ 2 * s.step ≤ n ∧ s.nens = 2 * l / n ∧
      (∀ i, i ∈ starts ↔ (s.step ∣ i ∧ i + n ≤ l)) ∧ starts.Nodup ∧
      starts.length = (l - n) / s.step + 1 ∧ s.nens ≤ starts.length := by
  have h2 := two_div_lb l n (by omega) h
  have hp := step_pos l n hn h
  refine ⟨_, _, stepsize_default l n (by omega) h, segStarts_many _ _ hp (by simp only; omega), rfl, hp,
    step_le_half l n (by omega) h, rfl, ?_, ?_, by simp [multiples], ?_⟩
  · intro i
    set s := (l - n) / (2 * l / n - 1) with hs
    simp only [multiples, List.mem_map, List.mem_range]
    constructor
    · rintro ⟨j, hj, rfl⟩
      refine ⟨Dvd.intro _ rfl, ?_⟩
      have : j * s ≤ l - n := (Nat.le_div_iff_mul_le hp).mp (by omega)
      rw [Nat.mul_comm]; omega
    · rintro ⟨⟨j, rfl⟩, hi⟩
      refine ⟨j, ?_, rfl⟩
      have : j ≤ (l - n) / s := (Nat.le_div_iff_mul_le hp).mpr (by rw [Nat.mul_comm]; omega)
      omega
  · simp only [multiples]
    apply List.Nodup.map _ List.nodup_range
    intro x y hxy
    exact Nat.eq_of_mul_eq_mul_left hp hxy
  · simp only [multiples, List.length_map, List.length_range]
    have : 2 * l / n - 1 ≤ (l - n) / ((l - n) / (2 * l / n - 1)) := by
      rw [Nat.le_div_iff_mul_le hp, Nat.mul_comm]
      exact Nat.div_mul_le_self _ _
    omega

example : stepsize 20 5 none none = .ok ⟨2, 8, 5⟩ ∧
    segStarts 20 ⟨2, 8, 5⟩ = .ok [0, 2, 4, 6, 8, 10, 12, 14] := by decide

/-- C23: a record no longer than the FFT length is one segment, divided by one. -/
theorem segments_single (l n : ℕ) (h : l ≤ n) :
    stepsize l n none none = .ok ⟨0, 1, l⟩ ∧ segStarts l ⟨0, 1, l⟩ = .ok [0] :=
  ⟨stepsize_single l n h, segStarts_one _ _ rfl⟩

/-- C23: with an explicit step the divisor is the number of segments. -/
theorem segments_explicit (l n s : ℕ) (hs : 0 < s) :
    ∃ (t : Steps) (starts : List ℕ), stepsize l n none (some s) = .ok t ∧ segStarts l t = .ok starts ∧
      t.nens = starts.length ∧ ∀ i, i ∈ starts ↔ (s ∣ i ∧ i + min l n ≤ l) := by
  refine ⟨_, _, stepsize_step l n s hs, segStarts_explicit l n s hs, by simp [multiples], ?_⟩
  intro i
  simp only [multiples, List.mem_map, List.mem_range]
  have hm : min l n ≤ l := min_le_left _ _
  constructor
  · rintro ⟨j, hj, rfl⟩
    refine ⟨Dvd.intro _ rfl, ?_⟩
    have : j * s ≤ l - min l n := (Nat.le_div_iff_mul_le hs).mp (by omega)
    rw [Nat.mul_comm]; omega
  · rintro ⟨⟨j, rfl⟩, hi⟩
    refine ⟨j, ?_, rfl⟩
    have : j ≤ (l - min l n) / s := (Nat.le_div_iff_mul_le hs).mpr (by rw [Nat.mul_comm]; omega)
    omega

/-- C23 fails: for FFT lengths 1 and 2 and any longer record the default step is zero and
`cpsd` raises ValueError. -/
theorem segments_tiny_error (auto : Bool) (l n : ℕ) (hn : 0 < n) (hn2 : n ≤ 2) (h : n < l)
    (a b : ℕ → ℝ) (fs : ℝ) : cpsd auto l a b n fs .none none = .error .valueError := by
  have h2 := two_div_lb l n hn h
  unfold cpsd
  rw [stepsize_default l n hn h, step_zero l n hn hn2 h]
  simp only [getWindow, segStarts]
  rw [if_neg (by omega : ¬ 2 * l / n = 1)]
  rfl

/-- C23 fails: nine samples with FFT length four give six segments, divided by four. -/
theorem segments_count_wrong :
    ∃ (s : Steps) (starts : List ℕ), stepsize 9 4 none none = .ok s ∧ segStarts 9 s = .ok starts ∧
      starts.length = 6 ∧ s.nens = 4 := ⟨⟨1, 4, 4⟩, [0, 1, 2, 3, 4, 5], by decide, by decide, rfl, rfl⟩

/-- What `cpsd` computes from: FFT length, window, segment starts and scale factor. -/
noncomputable def core (l nfft : ℕ) (fs : ℝ) (window : WinArg) (step : Option ℕ) :
    Except Err (ℕ × (ℕ → ℝ) × List ℕ × ℝ) :=
  match stepsize l nfft none step with
  | .error e => .error e
  | .ok s =>
    match getWindow window s.nfft with
    | .error e => .error e
    | .ok w =>
      match segStarts l s with
      | .error e => .error e
      | .ok starts => .ok (s.nfft, w, starts, psdScale s w fs)

/-- One frequency of `cpsd`. -/
noncomputable def cpsdAt (auto : Bool) (a b : ℕ → ℝ) (n : ℕ) (w : ℕ → ℝ) (starts : List ℕ) (sc : ℝ)
    (k : ℕ) : ℂ :=
  (starts.map fun i => if auto then ((‖segFft a i n w k‖ ^ 2 : ℝ) : ℂ)
    else segFft a i n w k * (starRingEnd ℂ) (segFft b i n w k)).sum * (sc : ℂ)

theorem cpsd_eq_core (auto : Bool) (l : ℕ) (a b : ℕ → ℝ) (nfft : ℕ) (fs : ℝ) (window : WinArg)
    (step : Option ℕ) : cpsd auto l a b nfft fs window step =
      (core l nfft fs window step).map fun p => (List.range (p.1 / 2)).map fun k0 =>
        cpsdAt auto a b p.1 p.2.1 p.2.2.1 p.2.2.2 (k0 + 1) := by
  unfold cpsd core
  cases stepsize l nfft none step with
  | error e => rfl
  | ok s =>
    simp only
    cases getWindow window s.nfft with
    | error e => rfl
    | ok w =>
      simp only
      cases segStarts l s with
      | error e => rfl
      | ok st => rfl

theorem sum_map_mul (L : List ℕ) (f : ℕ → ℂ) (c : ℂ) : (L.map fun i => f i * c).sum = (L.map f).sum * c := by
  rw [List.sum_map_mul_right]

/-- C23: what the code returns is the average over the segments times
`(number of segments) / nens`; the factor is 1 exactly when the count is right. -/
theorem cpsd_is_welch_partial (l n : ℕ) (hn : 3 ≤ n) (h : n < l) (a b : ℕ → ℝ) (fs : ℝ)
    (window : WinArg) (w : ℕ → ℝ) (hw : getWindow window n = .ok w) :
    ∃ starts : List ℕ, (∀ i, i ∈ starts ↔ ((l - n) / (2 * l / n - 1) ∣ i ∧ i + n ≤ l)) ∧
      cpsd false l a b n fs window none = .ok ((List.range (n / 2)).map fun k0 =>
        ((starts.length : ℂ) / (2 * l / n : ℕ)) * Spec.welch starts a b n w fs (k0 + 1)) := by
  obtain ⟨s, st, h1, h2, h3, -, -, h6, h7, -, h9, -⟩ := segments_default l n hn h
  have hs : s.step = (l - n) / (2 * l / n - 1) := by
    rw [stepsize_default l n (by omega) h] at h1
    have := Except.ok.inj h1
    rw [← this]
  refine ⟨st, by rw [← hs]; exact h7, ?_⟩
  rw [cpsd_eq_core]
  unfold core
  rw [h1]
  simp only [h3, hw, h2]
  simp only [Except.map]
  congr 1
  apply List.map_congr_left
  intro k0 _
  have hl : (st.length : ℂ) ≠ 0 := by
    have : st.length ≠ 0 := by rw [h9]; exact Nat.succ_ne_zero _
    exact_mod_cast this
  unfold cpsdAt Spec.welch psdScale
  rw [h3, h6]
  simp only [Bool.false_eq_true, if_false]
  have e : (fun i => 2 * (segFft a i n w (k0 + 1) * (starRingEnd ℂ) (segFft b i n w (k0 + 1))) /
      ((fs * ∑ t ∈ Finset.range n, w t ^ 2 : ℝ) : ℂ)) =
      fun i => segFft a i n w (k0 + 1) * (starRingEnd ℂ) (segFft b i n w (k0 + 1)) *
        (2 / ((fs * ∑ t ∈ Finset.range n, w t ^ 2 : ℝ) : ℂ)) := by
    funext i; ring
  rw [e, sum_map_mul]
  push_cast
  set S := (st.map fun i => segFft a i n w (k0 + 1) * (starRingEnd ℂ) (segFft b i n w (k0 + 1))).sum
  set W : ℂ := ∑ t ∈ range n, (w t : ℂ) ^ 2
  set N : ℂ := ((2 * l / n : ℕ) : ℂ)
  have : (st.length : ℂ) / N * (S * (2 / (fs * W)) / st.length) = (st.length / st.length) * (S * (2 / (fs * W)) / N) := by
    ring
  rw [this, div_self hl, one_mul]
  rw [div_div, div_div, mul_div_assoc, div_div]
  congr 2
  ring

/-- C23: a window given as an array must have exactly the FFT length, and is then used as given. -/
theorem window_array (l : List ℝ) (n : ℕ) (w : ℕ → ℝ) :
    getWindow (.arr l) n = .ok w ↔ l.length = n ∧ w = fun t => l.getD t 0 := by
  unfold getWindow
  simp only
  split_ifs with h
  · exact ⟨fun h' => (by cases h'), fun h' => absurd h'.1 h⟩
  · push Not at h
    exact ⟨fun h' => ⟨h, (Except.ok.inj h').symm⟩, fun h' => by rw [h'.2]⟩

/-! ### C24 -/

/-- C24: the frequencies are `k fs / nfft` for `k = 1 .. nfft // 2`. -/
theorem psd_freq_spec (n : ℕ) (fs : ℝ) (hfs : 0 < fs) :
    psdFreq n fs = (List.range (n / 2)).map fun k : ℕ => ((k + 1 : ℕ) : ℝ) * fs / n := by
  rcases Nat.eq_zero_or_pos n with rfl | hn
  · simp [psdFreq, fftfreq]
  have hn0 : (n : ℝ) ≠ 0 := by exact_mod_cast (by omega : n ≠ 0)
  have hnp : (0 : ℝ) < n := by exact_mod_cast hn
  unfold psdFreq fftfreq
  apply List.ext_getElem
  · simp
  intro i h1 h2
  simp only [List.length_map, List.length_range] at h2
  simp only [List.getElem_map, List.getElem_drop, List.getElem_take, List.getElem_range]
  by_cases hi : 1 + i < (n - 1) / 2 + 1
  · rw [List.getElem_append_left (by simpa using hi)]
    simp only [List.getElem_map, List.getElem_range]
    rw [abs_of_nonneg (by positivity)]
    push_cast; ring
  · rw [List.getElem_append_right (by simp; omega)]
    simp only [List.getElem_map, List.getElem_range, List.length_map, List.length_range]
    have e : 1 + i - ((n - 1) / 2 + 1) = 0 := by omega
    have e2 : n / 2 = i + 1 := by omega
    rw [e, e2, abs_mul, abs_of_nonneg (by positivity : 0 ≤ fs / (n : ℝ))]
    simp only [Nat.cast_zero, zero_sub, abs_neg, Nat.abs_cast]
    push_cast; ring

/-- C24: they are positive, strictly increasing and at most the Nyquist frequency. -/
theorem psd_freq_bounds (n : ℕ) (fs : ℝ) (hfs : 0 < fs) :
    (psdFreq n fs).Pairwise (· < ·) ∧ ∀ f ∈ psdFreq n fs, 0 < f ∧ f ≤ fs / 2 := by
  rw [psd_freq_spec n fs hfs]
  rcases Nat.eq_zero_or_pos n with rfl | hn
  · simp
  have hnp : (0 : ℝ) < n := by exact_mod_cast hn
  constructor
  · rw [List.pairwise_map]
    apply List.pairwise_lt_range.imp
    intro i j hij
    apply div_lt_div_of_pos_right _ hnp
    apply mul_lt_mul_of_pos_right _ hfs
    exact_mod_cast (by omega : i + 1 < j + 1)
  · intro f hf
    simp only [List.mem_map, List.mem_range] at hf
    obtain ⟨k, hk, rfl⟩ := hf
    refine ⟨by positivity, ?_⟩
    rw [div_le_div_iff₀ hnp (by norm_num)]
    have : ((k + 1 : ℕ) : ℝ) * 2 ≤ n := by exact_mod_cast (by omega : (k + 1) * 2 ≤ n)
    nlinarith

/-- C24: the Nyquist frequency is among them exactly for even positive `nfft`. -/
theorem psd_freq_nyquist (n : ℕ) (hn : 0 < n) (fs : ℝ) (hfs : 0 < fs) :
    fs / 2 ∈ psdFreq n fs ↔ 2 ∣ n := by
  have hnp : (0 : ℝ) < n := by exact_mod_cast hn
  rw [psd_freq_spec n fs hfs]
  simp only [List.mem_map, List.mem_range]
  constructor
  · rintro ⟨k, hk, h⟩
    rw [div_eq_div_iff hnp.ne' (by norm_num)] at h
    have : ((k + 1 : ℕ) : ℝ) * 2 = n := by
      apply mul_left_cancel₀ hfs.ne'; linarith
    have : (k + 1) * 2 = n := by exact_mod_cast this
    omega
  · rintro ⟨m, rfl⟩
    refine ⟨m - 1, by omega, ?_⟩
    have : ((m - 1 + 1 : ℕ) : ℝ) = m := by congr 1; omega
    rw [this]
    have hm : (m : ℝ) ≠ 0 := by exact_mod_cast (by omega : m ≠ 0)
    push_cast
    field_simp

example : psdFreq 4 8 = [2, 4] := by
  rw [psd_freq_spec 4 8 (by norm_num)]
  simp [List.range_succ]; norm_num

/-! ### C25 -/

/-- C25: a power spectrum is non-negative. -/
theorem psd_nonneg (l : ℕ) (a : ℕ → ℝ) (nfft : ℕ) (fs : ℝ) (window : WinArg) (step : Option ℕ)
    (r : List ℝ) (h : psd l a nfft fs window step = .ok r) : ∀ x ∈ r, 0 ≤ x := by
  unfold psd at h
  cases hc : cpsd true l a a nfft fs window step with
  | error e => rw [hc] at h; cases h
  | ok c =>
    rw [hc] at h
    have := Except.ok.inj h
    rw [← this]
    intro x hx
    obtain ⟨z, -, rfl⟩ := List.mem_map.mp hx
    exact norm_nonneg _

theorem psdScale_nonneg (s : Steps) (w : ℕ → ℝ) (fs : ℝ) (h : 0 < fs) : 0 ≤ psdScale s w fs := by
  unfold psdScale; positivity

theorem core_scale_nonneg {l nfft : ℕ} {fs : ℝ} {window : WinArg} {step : Option ℕ}
    {p : ℕ × (ℕ → ℝ) × List ℕ × ℝ} (h : core l nfft fs window step = .ok p) (hfs : 0 < fs) :
    0 ≤ p.2.2.2 := by
  unfold core at h
  cases h1 : stepsize l nfft none step with
  | error e => rw [h1] at h; cases h
  | ok s =>
    simp only [h1] at h
    cases h2 : getWindow window s.nfft with
    | error e => rw [h2] at h; cases h
    | ok w =>
      simp only [h2] at h
      cases h3 : segStarts l s with
      | error e => rw [h3] at h; cases h
      | ok st =>
        simp only [h3] at h
        rw [← Except.ok.inj h]
        exact psdScale_nonneg s w fs hfs

theorem norm_sum_ofReal (L : List ℕ) (f : ℕ → ℝ) :
    (L.map fun i => ((f i : ℝ) : ℂ)).sum = (((L.map f).sum : ℝ) : ℂ) := by
  induction L with
  | nil => simp
  | cons x L ih => simp [ih]

theorem cpsdAt_auto (a b : ℕ → ℝ) (n : ℕ) (w : ℕ → ℝ) (L : List ℕ) (sc : ℝ) (k : ℕ) :
    cpsdAt true a b n w L sc k = (((L.map fun i => ‖segFft a i n w k‖ ^ 2).sum * sc : ℝ) : ℂ) := by
  unfold cpsdAt
  simp only [if_true]
  rw [norm_sum_ofReal]
  push_cast; rfl

theorem cpsdAt_self (auto : Bool) (a : ℕ → ℝ) (n : ℕ) (w : ℕ → ℝ) (L : List ℕ) (sc : ℝ) (k : ℕ) :
    cpsdAt auto a a n w L sc k = cpsdAt true a a n w L sc k := by
  cases auto
  · unfold cpsdAt
    simp only [Bool.false_eq_true, if_false, if_true]
    congr 3
    funext i
    rw [Complex.mul_conj, Complex.normSq_eq_norm_sq]
  · rfl

theorem sum_sq_nonneg (L : List ℕ) (f : ℕ → ℝ) : 0 ≤ (L.map fun i => f i ^ 2).sum := by
  apply List.sum_nonneg
  intro x hx
  obtain ⟨i, -, rfl⟩ := List.mem_map.mp hx
  positivity

/-- The value of `psd` at each frequency. -/
theorem psd_eq_core (l : ℕ) (a : ℕ → ℝ) (nfft : ℕ) (fs : ℝ) (hfs : 0 < fs) (window : WinArg)
    (step : Option ℕ) : psd l a nfft fs window step =
      (core l nfft fs window step).map fun p => (List.range (p.1 / 2)).map fun k0 =>
        (p.2.2.1.map fun i => ‖segFft a i p.1 p.2.1 (k0 + 1)‖ ^ 2).sum * p.2.2.2 := by
  unfold psd
  rw [cpsd_eq_core]
  cases hc : core l nfft fs window step with
  | error e => rfl
  | ok p =>
    simp only [Except.map, List.map_map]
    congr 1
    apply List.map_congr_left
    intro k _
    simp only [Function.comp]
    rw [cpsdAt_auto, Complex.norm_real, Real.norm_eq_abs, abs_of_nonneg]
    exact mul_nonneg (sum_sq_nonneg _ _) (core_scale_nonneg hc hfs)

/-- C25: `psd(a)` equals `cpsd(a, a)`, whether or not the two arguments are the same object. -/
theorem psd_eq_cpsd (auto : Bool) (l : ℕ) (a : ℕ → ℝ) (nfft : ℕ) (fs : ℝ) (hfs : 0 < fs)
    (window : WinArg) (step : Option ℕ) :
    cpsd auto l a a nfft fs window step =
      (psd l a nfft fs window step).map fun r => r.map fun x : ℝ => (x : ℂ) := by
  rw [psd_eq_core _ _ _ _ hfs, cpsd_eq_core]
  cases hc : core l nfft fs window step with
  | error e => rfl
  | ok p =>
    simp only [Except.map, List.map_map]
    congr 1
    apply List.map_congr_left
    intro k _
    simp only [Function.comp]
    rw [cpsdAt_self, cpsdAt_auto]

theorem half_mem {n k : ℕ} (h : k ∈ List.range (n / 2)) : 2 ≤ n := by
  rw [List.mem_range] at h; omega

/-- C25: multiplying the record by `c` multiplies the power spectrum by `c²`. -/
theorem psd_scale (l : ℕ) (a : ℕ → ℝ) (c : ℝ) (nfft : ℕ) (fs : ℝ) (hfs : 0 < fs)
    (window : WinArg) (step : Option ℕ) :
    psd l (fun i => c * a i) nfft fs window step =
      (psd l a nfft fs window step).map fun r => r.map fun x => c ^ 2 * x := by
  rw [psd_eq_core _ _ _ _ hfs, psd_eq_core _ _ _ _ hfs]
  cases hc : core l nfft fs window step with
  | error e => rfl
  | ok p =>
    simp only [Except.map, List.map_map]
    congr 1
    apply List.map_congr_left
    intro k hk
    simp only [Function.comp]
    have e : ∀ i, ‖segFft (fun j => c * a j) i p.1 p.2.1 (k + 1)‖ ^ 2 =
        c ^ 2 * ‖segFft a i p.1 p.2.1 (k + 1)‖ ^ 2 := by
      intro i
      have := segFft_lin a a c 0 i p.1 (half_mem hk) p.2.1 (k + 1)
      simp only [zero_mul, add_zero, Complex.ofReal_zero] at this
      rw [this, norm_mul, Complex.norm_real, mul_pow, Real.norm_eq_abs, sq_abs]
    simp only [e]
    rw [List.sum_map_mul_left]
    ring

/-- C25: adding any straight line to the record does not change the power spectrum. -/
theorem psd_line (l : ℕ) (a : ℕ → ℝ) (p q : ℝ) (nfft : ℕ) (fs : ℝ) (hfs : 0 < fs)
    (window : WinArg) (step : Option ℕ) :
    psd l (fun i => a i + (p + q * i)) nfft fs window step = psd l a nfft fs window step := by
  rw [psd_eq_core _ _ _ _ hfs, psd_eq_core _ _ _ _ hfs]
  cases hc : core l nfft fs window step with
  | error e => rfl
  | ok P =>
    simp only [Except.map]
    congr 1
    apply List.map_congr_left
    intro k hk
    have e : ∀ i, segFft (fun j => a j + (p + q * j)) i P.1 P.2.1 (k + 1) =
        segFft a i P.1 P.2.1 (k + 1) := fun i => segFft_line a p q i P.1 (half_mem hk) P.2.1 (k + 1)
    simp only [e]

/-- The hypotheses are met: this call succeeds and returns two frequencies. -/
example (a : ℕ → ℝ) : ∃ r, psd 20 a 5 1 (.str "hann") none = .ok r ∧ r.length = 2 := by
  rw [psd_eq_core _ _ _ _ one_pos]
  unfold core
  rw [show stepsize 20 5 none none = .ok ⟨2, 8, 5⟩ by decide]
  simp only [getWindow]
  rw [if_pos (by decide), show segStarts 20 ⟨2, 8, 5⟩ = .ok [0, 2, 4, 6, 8, 10, 12, 14] by decide]
  simp only [Except.map]
  exact ⟨_, rfl, by simp⟩

/-! ### C29 -/

theorem sum_conj (L : List ℕ) (f : ℕ → ℂ) :
    (starRingEnd ℂ) (L.map f).sum = (L.map fun i => (starRingEnd ℂ) (f i)).sum := by
  induction L with
  | nil => simp
  | cons x L ih => simp [ih]

/-- C29: swapping the arguments conjugates the cross spectrum. -/
theorem cpsd_swap (l : ℕ) (a b : ℕ → ℝ) (nfft : ℕ) (fs : ℝ) (window : WinArg) (step : Option ℕ) :
    cpsd false l b a nfft fs window step =
      (cpsd false l a b nfft fs window step).map fun r => r.map (starRingEnd ℂ) := by
  rw [cpsd_eq_core, cpsd_eq_core]
  cases hc : core l nfft fs window step with
  | error e => rfl
  | ok p =>
    simp only [Except.map, List.map_map]
    congr 1
    apply List.map_congr_left
    intro k _
    simp only [Function.comp]
    unfold cpsdAt
    simp only [Bool.false_eq_true, if_false]
    rw [map_mul, sum_conj, Complex.conj_ofReal]
    congr 3
    funext i
    rw [map_mul, Complex.conj_conj, mul_comm]

/-- C29: the cross spectrum is linear in its first argument. -/
theorem cpsd_linear (l : ℕ) (u v b : ℕ → ℝ) (c d : ℝ) (nfft : ℕ) (fs : ℝ) (window : WinArg)
    (step : Option ℕ) (r r' : List ℂ) (hu : cpsd false l u b nfft fs window step = .ok r)
    (hv : cpsd false l v b nfft fs window step = .ok r') :
    cpsd false l (fun i => c * u i + d * v i) b nfft fs window step =
      .ok (List.zipWith (fun x y => c * x + d * y) r r') := by
  rw [cpsd_eq_core] at hu hv ⊢
  cases hc : core l nfft fs window step with
  | error e => rw [hc] at hu; cases hu
  | ok p =>
    rw [hc] at hu hv
    simp only [Except.map] at hu hv ⊢
    rw [← Except.ok.inj hu, ← Except.ok.inj hv, List.zipWith_map, List.zipWith_self]
    congr 1
    apply List.map_congr_left
    intro k hk
    unfold cpsdAt
    simp only [Bool.false_eq_true, if_false]
    have e : ∀ i, segFft (fun j => c * u j + d * v j) i p.1 p.2.1 (k + 1) *
        (starRingEnd ℂ) (segFft b i p.1 p.2.1 (k + 1)) =
        c * (segFft u i p.1 p.2.1 (k + 1) * (starRingEnd ℂ) (segFft b i p.1 p.2.1 (k + 1))) +
        d * (segFft v i p.1 p.2.1 (k + 1) * (starRingEnd ℂ) (segFft b i p.1 p.2.1 (k + 1))) := by
      intro i
      rw [segFft_lin u v c d i p.1 (half_mem hk)]
      ring
    simp only [e]
    rw [List.sum_map_add, List.sum_map_mul_left, List.sum_map_mul_left]
    ring

end Dolfyn
