import Verif.Model.Binned
import Mathlib.Tactic.Ring
import Mathlib.Tactic.Linarith
import Mathlib.Tactic.Positivity
import Mathlib.Tactic.NormNum
import Mathlib.Tactic.FieldSimp

/-!
C17 (reshape), C18 (fractional bins), C21 (FFT length clamps), C22 (bin override), C30 (noise).
-/

namespace Dolfyn

/-! ### C17 -/

theorem pyInt_natCast (n : ℕ) : pyInt (n : ℚ) = n := by
  unfold pyInt
  rw [if_pos (by positivity)]
  simp

/-- The padded window: entry `(b, j)` is the sample `b*n + j - npd0` of the binned range, or zero
when there is none. -/
theorem fillBins_apply {α : Type*} (z : α) (x : ℕ → α) (rows n pad b j : ℕ)
    (hpad : pad ≤ 2 * n) (hb : b < rows) (hj : j < n + pad) :
    fillBins z x (fun k => k) rows n pad b j =
      if pad / 2 ≤ b * n + j ∧ b * n + j - pad / 2 < rows * n then x (b * n + j - pad / 2)
      else z := by
  have hmul : (b + 1) * n ≤ rows * n := Nat.mul_le_mul_right n hb
  rw [Nat.succ_mul] at hmul
  -- rows after `b`
  have hmul2 : b + 1 < rows → (b + 2) * n ≤ rows * n := fun h => Nat.mul_le_mul_right n h
  have e2 : (b + 2) * n = b * n + n + n := by ring
  have hb1 : 1 ≤ b → (b - 1) * n + n = b * n := by
    intro h
    rw [← Nat.succ_mul]; congr 1; omega
  have hb1' : 1 ≤ b → n ≤ b * n := fun h => by have := hb1 h; omega
  have hlast : ¬ b + 1 < rows → rows * n = b * n + n := by
    intro h
    obtain rfl : rows = b + 1 := by omega
    rw [Nat.succ_mul]
  unfold fillBins
  simp only
  by_cases h0 : pad = 0
  · subst h0
    simp only [ne_eq, not_true_eq_false, if_false]
    rw [if_pos (by omega), if_pos (by omega)]
    congr 1
  · rw [if_pos h0]
    unfold padRight padLeft
    beta_reduce
    have hp1 : (pad + 1) / 2 + pad / 2 = pad := by omega
    by_cases hr : n + pad / 2 ≤ j
    · by_cases hb2 : b + 1 < rows
      · rw [if_pos ⟨hb2, hr, by omega⟩, if_neg (by omega), if_pos (by omega),
          if_pos (by have := hmul2 hb2; omega)]
        congr 1
        rw [Nat.succ_mul]; omega
      · rw [if_neg (by simp [hb2]), if_neg (by omega), if_neg (by omega),
          if_neg (by have := hlast hb2; omega)]
    · rw [if_neg (by omega)]
      by_cases hl : j < pad / 2
      · by_cases hb2 : 1 ≤ b
        · rw [if_pos ⟨hb2, hl⟩, if_pos (by omega), if_pos (by have := hb1 hb2; omega)]
          congr 1
          have := hb1 hb2; omega
        · obtain rfl : b = 0 := by omega
          rw [if_neg (by omega), if_neg (by omega), if_neg (by omega)]
      · rw [if_neg (by omega), if_pos (by omega), if_pos (by omega)]
        congr 1; omega

/-- C17: with an integer bin length, `reshape` gives `floor(len / n_bin)` bins of width
`n_bin + n_pad`; entry `j` of bin `b` is the sample at `b*n_bin + j - floor(n_pad/2)` when that
lies in the binned range, and zero otherwise. -/
theorem reshape_spec {α : Type*} (z : α) (len : ℕ) (x : ℕ → α) (n pad : ℕ) (hn : 0 < n)
    (hlen : n ≤ len) (hpad : pad ≤ 2 * n) :
    ∃ m, reshape z len x n pad = .ok m ∧ m.rows = len / n ∧ m.cols = n + pad ∧
      ∀ b j, b < m.rows → j < m.cols →
        m.at_ b j = if pad / 2 ≤ b * n + j ∧ b * n + j - pad / 2 < len / n * n
          then x (b * n + j - pad / 2) else z := by
  have h1 : ¬ (len : ℚ) < (n : ℚ) := by
    rw [not_lt]; exact_mod_cast hlen
  have h2 : ¬ pyInt (n : ℚ) = 0 := by rw [pyInt_natCast]; omega
  have h3 : ¬ (n : ℚ) < 0 := by rw [not_lt]; positivity
  unfold reshape
  rw [if_neg h1, if_neg h2, if_neg h3, pyInt_natCast]
  simp only [Int.toNat_natCast]
  rw [if_neg (by omega), if_pos trivial]
  refine ⟨_, rfl, rfl, rfl, ?_⟩
  intro b j hb hj
  exact fillBins_apply z x _ n pad b j hpad hb hj

/-- C17: every sample the window refers to is inside the array. -/
theorem reshape_in_range (len n pad b j : ℕ) (h : b * n + j - pad / 2 < len / n * n) :
    b * n + j - pad / 2 < len := lt_of_lt_of_le h (Nat.div_mul_le_self len n)

/-- C17: without padding the bins are consecutive blocks. -/
theorem reshape_no_pad {α : Type*} (z : α) (len : ℕ) (x : ℕ → α) (n : ℕ) (hn : 0 < n)
    (hlen : n ≤ len) :
    ∃ m, reshape z len x n 0 = .ok m ∧ m.rows = len / n ∧ m.cols = n ∧
      ∀ b j, b < m.rows → j < n → m.at_ b j = x (b * n + j) := by
  obtain ⟨m, h1, h2, h3, h4⟩ := reshape_spec z len x n 0 hn hlen (by omega)
  refine ⟨m, by simpa using h1, h2, by simpa using h3, fun b j hb hj => ?_⟩
  rw [h4 b j hb (by omega), if_pos]
  · simp
  · have hmul : (b + 1) * n ≤ len / n * n := Nat.mul_le_mul_right n (by omega)
    rw [Nat.succ_mul] at hmul
    omega

/-- C17: arrays shorter than a bin raise. -/
theorem reshape_short {α : Type*} (z : α) (len : ℕ) (x : ℕ → α) (nBin : ℚ) (pad : ℤ)
    (h : (len : ℚ) < nBin) : reshape z len x nBin pad = .error .exception := by
  unfold reshape; rw [if_pos h]

example : ∃ m, reshape 0 7 (fun i => i + 1) (3 : ℕ) (2 : ℕ) = .ok m ∧ m.rows = 2 ∧ m.cols = 5 ∧
    m.row 0 = [0, 1, 2, 3, 4] ∧ m.row 1 = [3, 4, 5, 6, 0] := by
  obtain ⟨m, h1, h2, h3, h4⟩ := reshape_spec 0 7 (fun i => i + 1) 3 2 (by norm_num) (by norm_num)
    (by norm_num)
  have h2' : m.rows = 2 := h2
  have h3' : m.cols = 5 := h3
  refine ⟨m, h1, h2', h3', ?_, ?_⟩ <;>
  · unfold Mat2.row
    rw [h3']
    simp only [List.range_succ, List.range_zero, List.map_append, List.map_cons, List.map_nil,
      List.nil_append, List.cons_append]
    rw [h4 _ 0 (by omega) (by omega), h4 _ 1 (by omega) (by omega), h4 _ 2 (by omega) (by omega),
      h4 _ 3 (by omega) (by omega), h4 _ 4 (by omega) (by omega)]
    rfl

/-! ### C18 -/

/-- Index of sample `k` of the fractional binning. -/
def Spec.fracIdx (nBin : ℚ) (n k : ℕ) : ℕ := (⌊(k : ℚ) * nBin / n⌋).toNat

theorem fracIdx_mono {nBin : ℚ} (h : 0 ≤ nBin) (n : ℕ) {k l : ℕ} (hkl : k ≤ l) :
    Spec.fracIdx nBin n k ≤ Spec.fracIdx nBin n l := by
  unfold Spec.fracIdx
  apply Int.toNat_le_toNat
  apply Int.floor_le_floor
  apply div_le_div_of_nonneg_right _ (by positivity)
  apply mul_le_mul_of_nonneg_right _ h
  exact_mod_cast hkl

/-- The first sample of bin `b` is at `floor(b * n_bin)`, as documented. -/
theorem fracIdx_start (nBin : ℚ) (n b : ℕ) (hn : 0 < n) :
    Spec.fracIdx nBin n (b * n) = (⌊(b : ℚ) * nBin⌋).toNat := by
  unfold Spec.fracIdx
  congr 2
  have : (n : ℚ) ≠ 0 := by exact_mod_cast hn.ne'
  push_cast
  field_simp

/-- C18 (the part that holds): for a non-integer bin length with integer part `n`, `reshape`
succeeds exactly when dropping at most one bin brings all indices inside the array, and then bin
`b` holds the samples `floor((b*n+j)*n_bin/n)`; otherwise it raises IndexError.
Missing for the full claim: lengths for which more than one bin has to be dropped (the call
fails, `reshape_frac_fails`). -/
theorem reshape_frac_partial {α : Type*} (z : α) (len : ℕ) (x : ℕ → α) (nBin : ℚ) (n : ℕ)
    (hn : 0 < n) (hfloor : ⌊nBin⌋ = n) (hfrac : (n : ℚ) ≠ nBin) (hlen : nBin ≤ len) :
    let rows := if Spec.fracIdx nBin n (len / n * n - 1) ≥ len then len / n - 1 else len / n
    (Spec.fracIdx nBin n (rows * n - 1) < len →
      ∃ m, reshape z len x nBin 0 = .ok m ∧ m.rows = rows ∧ m.cols = n ∧
        ∀ b j, b < m.rows → j < n → m.at_ b j = x (Spec.fracIdx nBin n (b * n + j)) ∧
          Spec.fracIdx nBin n (b * n + j) < len) ∧
    (0 < rows → len ≤ Spec.fracIdx nBin n (rows * n - 1) →
      reshape z len x nBin 0 = .error .indexError) := by
  intro rows
  have hpos : 0 ≤ nBin := by
    have : (n : ℚ) ≤ nBin := by
      have := Int.floor_le nBin
      rw [hfloor] at this
      exact_mod_cast this
    exact le_trans (by positivity) this
  have hpy : pyInt nBin = n := by unfold pyInt; rw [if_pos hpos, hfloor]
  have h1 : ¬ (len : ℚ) < nBin := not_lt.mpr hlen
  have hred : reshape z len x nBin 0 =
      if (List.range (rows * n)).all fun k => decide (Spec.fracIdx nBin n k < len) then
        .ok ⟨rows, n, fillBins z x (Spec.fracIdx nBin n) rows n 0⟩
      else .error .indexError := by
    unfold reshape
    rw [if_neg h1, hpy, if_neg (by omega), if_neg (not_lt.mpr hpos)]
    simp only [Int.toNat_natCast, lt_irrefl, if_false, if_neg hfrac]
    rfl
  constructor
  · intro hlast
    have hall : ∀ k < rows * n, Spec.fracIdx nBin n k < len := fun k hk =>
      lt_of_le_of_lt (fracIdx_mono hpos n (by omega)) hlast
    rw [hred, if_pos (by simpa using hall)]
    refine ⟨_, rfl, rfl, rfl, ?_⟩
    intro b j hb hj
    have hmul : (b + 1) * n ≤ rows * n := Nat.mul_le_mul_right n hb
    rw [Nat.succ_mul] at hmul
    refine ⟨?_, hall _ (by omega)⟩
    unfold fillBins
    simp only [ne_eq, not_true_eq_false, if_false, Nat.zero_div, zero_le, true_and, add_zero,
      tsub_zero]
    rw [if_pos hj]
  · intro hr hlast
    rw [hred, if_neg]
    have : 0 < rows * n := Nat.mul_pos hr hn
    simp only [List.all_eq_true, List.mem_range, decide_eq_true_eq, not_forall]
    exact ⟨rows * n - 1, by omega, by omega⟩

/-- C18 fails: 100 samples in bins of 2.9 raise IndexError. -/
theorem reshape_frac_fails (x : ℕ → ℚ) : reshape 0 100 x (29 / 10) 0 = .error .indexError := by
  have hfl : ⌊(29 / 10 : ℚ)⌋ = ((2 : ℕ) : ℤ) := by rw [Int.floor_eq_iff]; norm_num
  have h := (reshape_frac_partial 0 100 x (29 / 10) 2 (by norm_num) hfl (by norm_num)
    (by norm_num)).2
  have e1 : Spec.fracIdx (29 / 10) 2 99 = 143 := by
    unfold Spec.fracIdx
    have : ⌊((99 : ℕ) : ℚ) * (29 / 10) / (2 : ℕ)⌋ = 143 := by rw [Int.floor_eq_iff]; norm_num
    rw [this]; rfl
  have e2 : Spec.fracIdx (29 / 10) 2 97 = 140 := by
    unfold Spec.fracIdx
    have : ⌊((97 : ℕ) : ℚ) * (29 / 10) / (2 : ℕ)⌋ = 140 := by rw [Int.floor_eq_iff]; norm_num
    rw [this]; rfl
  simp only [show 100 / 2 * 2 - 1 = 99 from rfl, e1, show 143 ≥ 100 by norm_num, if_true,
    show 100 / 2 - 1 = 49 from rfl, show 49 * 2 - 1 = 97 from rfl, e2] at h
  exact h (by norm_num) (by norm_num)

/-- A working case: 10 samples in bins of 2.2 (four bins, starting at 0, 2, 4, 6). -/
example (x : ℕ → ℚ) : ∃ m, reshape 0 10 x (11 / 5) 0 = .ok m ∧ m.rows = 5 := by
  have hfl : ⌊(11 / 5 : ℚ)⌋ = ((2 : ℕ) : ℤ) := by rw [Int.floor_eq_iff]; norm_num
  have h := (reshape_frac_partial 0 10 x (11 / 5) 2 (by norm_num) hfl (by norm_num)
    (by norm_num)).1
  have e1 : Spec.fracIdx (11 / 5) 2 9 = 9 := by
    unfold Spec.fracIdx
    have : ⌊((9 : ℕ) : ℚ) * (11 / 5) / (2 : ℕ)⌋ = 9 := by rw [Int.floor_eq_iff]; norm_num
    rw [this]; rfl
  simp only [show 10 / 2 * 2 - 1 = 9 from rfl, e1, show ¬ 9 ≥ 10 by norm_num, if_false,
    show 10 / 2 = 5 from rfl, show 5 * 2 - 1 = 9 from rfl] at h
  obtain ⟨m, h1, h2, -⟩ := h (by norm_num)
  exact ⟨m, h1, h2⟩

/-! ### C21 -/

theorem pyInt_le {q : ℚ} (h : 0 ≤ q) : (pyInt q : ℚ) ≤ q := by
  unfold pyInt; rw [if_pos h]; exact Int.floor_le q

theorem pyInt_mono_le {q r : ℚ} (h : 0 ≤ r) (hqr : q ≤ r) : (pyInt q : ℚ) ≤ r := by
  unfold pyInt
  split
  · exact (Int.floor_le q).trans hqr
  · rename_i hneg
    have : ⌈q⌉ ≤ 0 := Int.ceil_le.mpr (by push_cast; linarith)
    have : ((⌈q⌉ : ℤ) : ℚ) ≤ 0 := by exact_mod_cast this
    linarith

/-- C21: whatever is passed to the constructor, the FFT lengths never exceed the bin length, and
a smaller requested FFT length is kept. -/
theorem binner_nfft_le (nBin fs : ℚ) (hn : 0 ≤ nBin) (nFft nFftCoh : Option ℚ) :
    let b := mkBinner nBin fs nFft nFftCoh
    b.nBin = nBin ∧ b.nFft ≤ b.nBin ∧ b.nFftCoh ≤ b.nBin ∧
    (∀ q, nFft = some q → q ≤ nBin → b.nFft = q) ∧
    (∀ q, nFftCoh = some q → q ≤ nBin → b.nFftCoh = q) ∧
    (nFft = none → b.nFft = nBin) := by
  intro b
  have hnf : b.nFft ≤ nBin := by
    simp only [b, mkBinner]
    cases nFft with
    | none => exact le_rfl
    | some q => simp only; split <;> linarith
  refine ⟨rfl, hnf, ?_, ?_, ?_, ?_⟩
  · cases nFftCoh with
    | none => exact pyInt_mono_le hn hnf
    | some q =>
      show (if q > nBin then (pyInt nBin : ℚ) else q) ≤ nBin
      split
      · exact pyInt_le hn
      · linarith
  · rintro q rfl hq
    simp only [b, mkBinner, if_neg (not_lt.mpr hq)]
  · rintro q rfl hq
    simp only [b, mkBinner, if_neg (not_lt.mpr hq)]
  · rintro rfl; rfl

/-- C21: the same for the lengths given per call. -/
theorem parse_nfft_le (nBin fs : ℚ) (hn : 0 ≤ nBin) (nFft nFftCoh o : Option ℚ) :
    let b := mkBinner nBin fs nFft nFftCoh
    parseNfft b o ≤ b.nBin ∧ parseNfftCoh b o ≤ b.nBin ∧
    (∀ q, o = some q → q ≤ nBin → parseNfft b o = q ∧ parseNfftCoh b o = q) := by
  intro b
  obtain ⟨h1, h2, h3, -⟩ := binner_nfft_le nBin fs hn nFft nFftCoh
  refine ⟨?_, ?_, ?_⟩
  · cases o with
    | none => exact h2
    | some q =>
      show (if q > b.nBin then b.nBin else q) ≤ b.nBin
      split <;> linarith
  · cases o with
    | none => exact h3
    | some q =>
      show (if q > b.nBin then (pyInt b.nBin : ℚ) else q) ≤ b.nBin
      split
      · exact pyInt_le hn
      · linarith
  · rintro q rfl hq
    exact ⟨if_neg (not_lt.mpr hq), if_neg (not_lt.mpr hq)⟩

example : (mkBinner 100 8 (some 256) none).nFft = 100 ∧
    (mkBinner 100 8 (some 64) (some 128)).nFftCoh = 100 := by
  constructor
  · norm_num [mkBinner]
  · have : pyInt (100 : ℚ) = 100 := by exact_mod_cast pyInt_natCast 100
    norm_num [mkBinner, this]

/-! ### C22 -/

theorem fftRows_nat (len n : ℕ) : fftRows len (n : ℚ) = len / n := by
  unfold fftRows
  rw [Rat.floor_natCast_div_natCast]
  exact Int.toNat_natCast (len / n)

/-- The padding `calc_psd_base` chooses by default is never negative and never larger than the
bin, so every bin is padded with real neighbours. -/
theorem psd_default_pad (n nf : ℕ) (h : nf ≤ n) :
    ∃ p : ℕ, pyInt (min ((n : ℚ) - nf) nf) = p ∧ p = min (n - nf) nf ∧ p ≤ 2 * n := by
  refine ⟨min (n - nf) nf, ?_, rfl, by omega⟩
  have : min ((n : ℚ) - nf) nf = ((min (n - nf) nf : ℕ) : ℚ) := by
    rw [Nat.cast_min, Nat.cast_sub h]
  rw [this, pyInt_natCast]

/-- C22 (the part that holds): without an override (or with an override equal to the binner's own
bin length) `calc_psd` returns one spectrum per bin, each computed from the padded bin.
Missing for the full claim: other overrides, for which the claim is false (`psd_override_*`). -/
theorem psd_bins_partial {α β : Type*} (z : α) (psd : List α → ℚ → β) (n nf : ℕ) (fs : ℚ)
    (len : ℕ) (x : ℕ → α) (hn : 0 < n) (hnf : nf ≤ n) (hlen : n ≤ len) (o : Option ℚ)
    (ho : o = none ∨ o = some (n : ℚ)) :
    ∃ m, reshape z len x n (min (n - nf) nf : ℕ) = .ok m ∧ m.rows = len / n ∧
      calcPsdBase z psd (mkBinner n fs (some nf) none) len x o none none =
        .ok ((List.range (len / n)).map fun r => some (psd (m.row r) nf)) := by
  obtain ⟨p, hp1, hp2, hp3⟩ := psd_default_pad n nf hnf
  obtain ⟨m, h1, h2, -⟩ := reshape_spec z len x n p hn hlen hp3
  have hnfq : (nf : ℚ) ≤ n := by exact_mod_cast hnf
  have hb : (mkBinner n fs (some nf) none).nFft = nf := by
    simp only [mkBinner, if_neg (not_lt.mpr hnfq)]
  have hbn : (mkBinner n fs (some nf) none).nBin = n := rfl
  have ho' : parseNbin (mkBinner n fs (some nf) none) o = n := by
    rcases ho with rfl | rfl <;> rfl
  refine ⟨m, by rw [← hp2]; exact_mod_cast h1, h2, ?_⟩
  unfold calcPsdBase
  simp only [ho', parseNfft, hb, hp1, Option.getD_none, hbn]
  rw [h1]
  simp only [fftRows_nat, h2, lt_irrefl, if_false]
  congr 1
  apply List.map_congr_left
  intro r hr
  rw [if_pos (List.mem_range.mp hr)]

/-- C22 fails: an override larger than the binner's bin length that changes the number of bins
raises IndexError ... -/
theorem psd_override_larger {α β : Type*} (z : α) (psd : List α → ℚ → β) (n n' nf : ℕ) (fs : ℚ)
    (len : ℕ) (x : ℕ → α) (hn : 0 < n) (hlen : n ≤ len)
    (hrows : len / n' < len / n) :
    calcPsdBase z psd (mkBinner n fs (some nf) none) len x (some (n' : ℚ)) none (some 0) =
      .error .indexError := by
  obtain ⟨m, h1, h2, -⟩ := reshape_spec z len x n 0 hn hlen (by omega)
  unfold calcPsdBase
  have hbn : (mkBinner n fs (some nf) none).nBin = n := rfl
  simp only [parseNbin, Option.getD_some, fftRows_nat, hbn]
  have h1' : reshape z len x n 0 = .ok m := by exact_mod_cast h1
  rw [h1']
  simp only [h2, hrows, if_true]

/-- ... and a smaller override returns rows that were never written. -/
theorem psd_override_smaller {α β : Type*} (z : α) (psd : List α → ℚ → β) (n n' nf : ℕ) (fs : ℚ)
    (len : ℕ) (x : ℕ → α) (hn : 0 < n) (hlen : n ≤ len)
    (hrows : len / n < len / n') :
    ∃ out, calcPsdBase z psd (mkBinner n fs (some nf) none) len x (some (n' : ℚ)) none (some 0) =
      .ok out ∧ out.length = len / n' ∧ ∀ r, len / n ≤ r → r < len / n' → out[r]? = some none := by
  obtain ⟨m, h1, h2, -⟩ := reshape_spec z len x n 0 hn hlen (by omega)
  unfold calcPsdBase
  have hbn : (mkBinner n fs (some nf) none).nBin = n := rfl
  simp only [parseNbin, Option.getD_some, fftRows_nat, hbn]
  have h1' : reshape z len x n 0 = .ok m := by exact_mod_cast h1
  rw [h1']
  simp only [h2]
  rw [if_neg (by omega)]
  refine ⟨_, rfl, by simp, ?_⟩
  intro r h3 h4
  rw [List.getElem?_map, List.getElem?_range h4]
  simp only [Option.map_some]
  rw [if_neg (by omega)]

/-- C22 fails silently for every other override: when the number of bins happens to be the same, the call returns what it
returns without the override, the spectra of the bins of the binner's own length. -/
theorem psd_override_ignored {α β : Type*} (z : α) (psd : List α → ℚ → β) (n n' nf : ℕ) (fs : ℚ)
    (len : ℕ) (x : ℕ → α) (nFft : Option ℚ) (pad : ℤ) (hrows : len / n' = len / n) :
    calcPsdBase z psd (mkBinner n fs (some nf) none) len x (some (n' : ℚ)) nFft (some pad) =
      calcPsdBase z psd (mkBinner n fs (some nf) none) len x none nFft (some pad) := by
  have hbn : (mkBinner n fs (some nf) none).nBin = n := rfl
  unfold calcPsdBase
  simp only [parseNbin, Option.getD_some, Option.getD_none, fftRows_nat, hbn, hrows]

/-- 100 samples in bins of 40: an override of 45 is ignored. -/
example (x : ℕ → ℝ) (psd : List ℝ → ℚ → ℝ) :
    calcPsdBase 0 psd (mkBinner 40 1 (some 8) none) 100 x (some 45) none (some 0) =
      calcPsdBase 0 psd (mkBinner 40 1 (some 8) none) 100 x none none (some 0) := by
  exact_mod_cast psd_override_ignored 0 psd 40 45 8 1 100 x none 0 (by norm_num)

/-- 100 samples, bins of 20: an override of 50 raises, an override of 10 leaves rows 5 to 9
uninitialised. -/
example (x : ℕ → ℝ) (psd : List ℝ → ℚ → ℝ) :
    calcPsdBase 0 psd (mkBinner 20 1 (some 8) none) 100 x (some 50) none (some 0) =
      .error .indexError ∧
    ∃ out, calcPsdBase 0 psd (mkBinner 20 1 (some 8) none) 100 x (some 10) none (some 0) = .ok out ∧
      out.length = 10 ∧ out[5]? = some none := by
  constructor
  · exact_mod_cast psd_override_larger 0 psd 20 50 8 1 100 x (by norm_num) (by norm_num)
      (by norm_num)
  · obtain ⟨out, h1, h2, h3⟩ := psd_override_smaller 0 psd 20 10 8 1 100 x (by norm_num)
      (by norm_num) (by norm_num)
    exact ⟨out, by exact_mod_cast h1, h2, h3 5 (by norm_num) (by norm_num)⟩

/-! ### C30 -/

/-- C30: the corrected spectrum has no negative entry; entries that stay non-negative are the
uncorrected value minus `noise²/(fs/2)`; all others become one hundredth of the smallest
absolute corrected value. -/
theorem noise_correct_spec (out : List ℝ) (noise fs : ℝ) (hn : noise ≠ 0) (hne : out ≠ []) :
    ∃ res m, noiseCorrect out noise fs = .ok res ∧ res.length = out.length ∧
      (∃ s ∈ out, m = |s - noise ^ 2 / (fs / 2)|) ∧ (∀ s ∈ out, m ≤ |s - noise ^ 2 / (fs / 2)|) ∧
      (∀ r ∈ res, 0 ≤ r) ∧
      ∀ i (h : i < out.length),
        (0 ≤ out[i] - noise ^ 2 / (fs / 2) → res[i]? = some (out[i] - noise ^ 2 / (fs / 2))) ∧
        (out[i] - noise ^ 2 / (fs / 2) < 0 → res[i]? = some (m / 100)) := by
  unfold noiseCorrect
  rw [if_neg hn]
  simp only [List.map_map]
  cases hm : (out.map ((fun s => |s|) ∘ fun s => s - noise ^ 2 / (fs / 2))).min? with
  | none => simp [hne] at hm
  | some m =>
    have hmin := List.min?_eq_some_iff.mp hm
    obtain ⟨s, hs, hsm⟩ := List.mem_map.mp hmin.1
    have hm0 : 0 ≤ m := by rw [← hsm]; exact abs_nonneg _
    refine ⟨_, m, rfl, by simp, ⟨s, hs, hsm.symm⟩, ?_, ?_, ?_⟩
    · intro t ht
      exact hmin.2 _ (List.mem_map.mpr ⟨t, ht, rfl⟩)
    · intro r hr
      obtain ⟨t, -, rfl⟩ := List.mem_map.mp hr
      simp only [Function.comp_apply]
      split
      · positivity
      · linarith
    · intro i hi
      constructor
      · intro h
        simp only [List.getElem?_map, List.getElem?_eq_getElem hi, Option.map_some,
          Function.comp_apply, if_neg (not_lt.mpr h)]
      · intro h
        simp only [List.getElem?_map, List.getElem?_eq_getElem hi, Option.map_some,
          Function.comp_apply, if_pos h]

/-- C30: without noise the spectrum is returned unchanged. -/
theorem noise_zero (out : List ℝ) (fs : ℝ) : noiseCorrect out 0 fs = .ok out := by
  simp [noiseCorrect]

/-- C30: a spectrum value equal to the noise level gives exactly zero everywhere a value is
negative: the floor is not strictly positive. -/
theorem noise_floor_zero : noiseCorrect [2, 1] 1 1 = .ok [0, 0] := by
  unfold noiseCorrect
  norm_num [List.min?]

end Dolfyn
