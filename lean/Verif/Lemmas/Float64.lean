import Verif.Model.Float64
import Verif.Lemmas.Time
import Mathlib.Tactic.Linarith
import Mathlib.Tactic.Positivity
import Mathlib.Tactic.Ring
import Mathlib.Tactic.NormNum
import Mathlib.Tactic.FieldSimp

/-!
Lemmas about double-precision rounding.
-/

namespace Dolfyn

theorem fl64_zero : fl64 0 = 0 := by
  unfold fl64
  have : pyRound (0 : ℚ) = 0 := by simpa using pyRound_intCast 0
  simp [this]

/-- Half a unit in the last place: the relative error of one operation is at most 2⁻⁵³. -/
theorem fl64_err (x : ℚ) : |fl64 x - x| ≤ |x| / 2 ^ 53 := by
  rcases eq_or_ne x 0 with rfl | hx
  · simp [fl64_zero]
  unfold fl64
  simp only
  have hu : (0 : ℚ) < 2 ^ (Int.log 2 |x| - 52) := zpow_pos (by norm_num) _
  have hl : ((2 : ℕ) : ℚ) ^ Int.log 2 |x| ≤ |x| := Int.zpow_log_le_self (by norm_num) (abs_pos.mpr hx)
  set u : ℚ := 2 ^ (Int.log 2 |x| - 52) with hue
  have h := pyRound_spec (x / u)
  have e : (pyRound (x / u) : ℚ) * u - x = -((x / u - pyRound (x / u)) * u) := by field_simp; ring
  rw [e, abs_neg, abs_mul, abs_of_pos hu]
  have hu2 : u * 2 ^ 52 ≤ |x| := by
    rw [hue, zpow_sub₀ (by norm_num)]
    push_cast at hl
    norm_num at hl ⊢
    linarith
  have := mul_le_mul_of_nonneg_right h hu.le
  linarith

/-- A value with at most 53 binary digits is kept. -/
theorem fl64_exact (m : ℤ) (e : ℤ) (hm : |m| ≤ 2 ^ 53) : fl64 (m * 2 ^ e) = m * 2 ^ e := by
  rcases eq_or_ne m 0 with rfl | h0
  · simp [fl64_zero]
  have hp : (0 : ℚ) < 2 ^ e := zpow_pos (by norm_num) _
  have hx : |((m : ℚ) * 2 ^ e)| = |(m : ℚ)| * 2 ^ e := by rw [abs_mul, abs_of_pos hp]
  have hm0 : (0 : ℚ) < |(m : ℚ)| := abs_pos.mpr (by exact_mod_cast h0)
  set x : ℚ := m * 2 ^ e with hxe
  have hx0 : 0 < |x| := by rw [hx]; positivity
  have hl : ((2 : ℕ) : ℚ) ^ Int.log 2 |x| ≤ |x| := Int.zpow_log_le_self (by norm_num) hx0
  have key : ∃ k : ℤ, x / 2 ^ (Int.log 2 |x| - 52) = k := by
    have hle : |x| ≤ 2 ^ (e + 53) := by
      rw [hx, zpow_add₀ (by norm_num), mul_comm]
      have : |(m : ℚ)| ≤ 2 ^ (53 : ℕ) := by exact_mod_cast hm
      have h2 : ((2 : ℚ) ^ (53 : ℤ)) = 2 ^ (53 : ℕ) := by norm_cast
      rw [h2]
      exact mul_le_mul_of_nonneg_left this hp.le
    have hlog : Int.log 2 |x| ≤ e + 53 := by
      have : ((2 : ℕ) : ℚ) ^ Int.log 2 |x| ≤ ((2 : ℕ) : ℚ) ^ (e + 53) := by push_cast; push_cast at hl; linarith
      exact (zpow_le_zpow_iff_right₀ (by norm_num)).mp this
    rcases lt_or_eq_of_le hlog with hlt | heq
    · obtain ⟨d, hd⟩ : ∃ d : ℕ, e - (Int.log 2 |x| - 52) = d := ⟨(e - (Int.log 2 |x| - 52)).toNat, by omega⟩
      refine ⟨m * 2 ^ d, ?_⟩
      rw [hxe, mul_div_assoc, ← zpow_sub₀ (by norm_num), ← hxe, hd]
      push_cast
      norm_cast
    · refine ⟨m / 2, ?_⟩
      have h1 : |(m : ℚ)| * 2 ^ e = 2 ^ (e + 53) := by
        rw [← hx]
        apply le_antisymm hle
        rw [← heq]; push_cast at hl; exact hl
      have h2 : |(m : ℚ)| = 2 ^ (53 : ℕ) := by
        rw [zpow_add₀ (by norm_num), mul_comm] at h1
        have := mul_left_cancel₀ hp.ne' h1
        rw [this]; norm_cast
      have h3 : |m| = 2 ^ 53 := by exact_mod_cast h2
      have h4 : (2 : ℤ) ∣ m := (dvd_abs 2 m).mp (by rw [h3]; norm_num)
      obtain ⟨q, rfl⟩ := h4
      rw [heq, show e + 53 - 52 = e + 1 by ring, hxe, zpow_add₀ (by norm_num), Int.mul_ediv_cancel_left _ (by norm_num)]
      push_cast
      field_simp
  obtain ⟨k, hk⟩ := key
  unfold fl64
  simp only
  rw [hk, pyRound_intCast, ← hk]
  field_simp

theorem fl64_natCast (n : ℕ) (h : n ≤ 2 ^ 53) : fl64 n = n := by
  have := fl64_exact (n : ℤ) 0 (by rw [abs_of_nonneg (by positivity)]; exact_mod_cast h)
  simpa using this

/-- Where the value lies between two doubles of its binade, the nearer one is returned. -/
theorem fl64_near (m : ℤ) (e : ℤ) (x : ℚ) (h1 : (2 : ℚ) ^ (e + 52) ≤ x) (h2 : x < 2 ^ (e + 53))
    (h : |x - m * 2 ^ e| < 2 ^ e / 2) : fl64 x = m * 2 ^ e := by
  have hp : (0 : ℚ) < 2 ^ e := zpow_pos (by norm_num) _
  have hx0 : 0 < x := lt_of_lt_of_le (zpow_pos (by norm_num) _) h1
  have hlog : Int.log 2 |x| = e + 52 := by
    rw [abs_of_pos hx0]
    apply le_antisymm
    · have := (Int.lt_zpow_iff_log_lt (b := 2) (by norm_num) hx0 (x := e + 53)).mp (by push_cast; exact h2)
      omega
    · exact (Int.zpow_le_iff_le_log (b := 2) (by norm_num) hx0).mp (by push_cast; exact h1)
  unfold fl64
  simp only
  rw [hlog, show e + 52 - 52 = e by ring]
  congr 2
  have e1 := pyRound_spec (x / 2 ^ e)
  have e2 : |x / 2 ^ e - m| < 1 / 2 := by
    have : x / 2 ^ e - m = (x - m * 2 ^ e) / 2 ^ e := by field_simp
    rw [this, abs_div, abs_of_pos hp, div_lt_iff₀ hp]
    linarith
  have h3 : |((pyRound (x / 2 ^ e) : ℤ) : ℚ) - m| < 1 := by
    rw [abs_le] at e1
    rw [abs_lt] at e2 ⊢
    constructor <;> linarith
  have h4 : |pyRound (x / 2 ^ e) - m| < 1 := by exact_mod_cast h3
  have := Int.abs_lt_one_iff.mp h4
  omega

/-- `int(a / b)` of integers below 2⁵³ is the integer quotient. -/
theorem fl64_floor_div (a b : ℕ) (hb : 0 < b) (ha : a < 2 ^ 53) : ⌊fl64 ((a : ℚ) / b)⌋ = ((a / b : ℕ) : ℤ) := by
  have hbq : (0 : ℚ) < b := by exact_mod_cast hb
  have haq : (a : ℚ) < 2 ^ 53 := by exact_mod_cast ha
  have h := fl64_err ((a : ℚ) / b)
  rw [abs_of_nonneg (by positivity : (0 : ℚ) ≤ (a : ℚ) / b)] at h
  have hd : (a : ℚ) / b / 2 ^ 53 < 1 / b := by
    rw [div_div, div_lt_div_iff₀ (by positivity) hbq]
    nlinarith
  have e := Nat.div_add_mod a b
  have hm := Nat.mod_lt a hb
  have eq : (a : ℚ) / b = ((a / b : ℕ) : ℚ) + ((a % b : ℕ) : ℚ) / b := by
    have : (b : ℚ) * ((a / b : ℕ) : ℚ) + ((a % b : ℕ) : ℚ) = a := by exact_mod_cast e
    rw [div_eq_iff hbq.ne', add_mul, div_mul_cancel₀ _ hbq.ne']
    linarith
  rcases Nat.eq_zero_or_pos (a % b) with h0 | hpos
  · rw [h0] at eq
    simp only [Nat.cast_zero, zero_div, add_zero] at eq
    rw [eq, fl64_natCast _ (le_trans (Nat.div_le_self _ _) ha.le)]
    exact Int.floor_natCast _
  · rw [Int.floor_eq_iff]
    rw [abs_le] at h
    have h1 : (1 : ℚ) / b ≤ ((a % b : ℕ) : ℚ) / b := by
      apply div_le_div_of_nonneg_right _ hbq.le
      exact_mod_cast hpos
    have h2 : ((a % b : ℕ) : ℚ) / b + 1 / b ≤ 1 := by
      rw [← add_div, div_le_one hbq]
      exact_mod_cast hm
    rw [Int.cast_natCast]
    constructor <;> linarith [h.1, h.2]

theorem pairBin_of_exact (c len n : ℕ) (hl : 0 < len) (hn : 0 < n) (hc : c * n < 2 ^ 53)
    (h : fl64 ((len : ℚ) / n) = len / n) : pairBin (c * len) len n = c * n := by
  unfold pairBin
  have hlq : (len : ℚ) ≠ 0 := by positivity
  have hnq : (n : ℚ) ≠ 0 := by positivity
  rw [h, show (((c * len : ℕ) : ℚ) / ((len : ℚ) / n)) = ((c * n : ℕ) : ℚ) by push_cast; field_simp,
    fl64_natCast _ hc.le, Int.floor_natCast, Int.toNat_natCast]

/-- Bins that fill the record. -/
theorem pairBin_dvd (c len n : ℕ) (hl : 0 < len) (hn : 0 < n) (hc : c * n < 2 ^ 53) (hl2 : len < 2 ^ 53) (h : n ∣ len) :
    pairBin (c * len) len n = c * n := by
  apply pairBin_of_exact c len n hl hn hc
  obtain ⟨q, rfl⟩ := h
  have hnq : (n : ℚ) ≠ 0 := by positivity
  have hq : q ≤ n * q := Nat.le_mul_of_pos_left q hn
  rw [show (((n * q : ℕ) : ℚ) / n) = q by push_cast; field_simp]
  exact fl64_natCast q (by omega)

/-- Bins of 2^k samples. -/
theorem pairBin_pow (c len k : ℕ) (hl : 0 < len) (hc : c * 2 ^ k < 2 ^ 53) (hl2 : len < 2 ^ 53) :
    pairBin (c * len) len (2 ^ k) = c * 2 ^ k := by
  apply pairBin_of_exact c len _ hl (by positivity) hc
  have := fl64_exact (len : ℤ) (-(k : ℤ)) (by rw [abs_of_nonneg (by positivity)]; exact_mod_cast hl2.le)
  rw [zpow_neg, zpow_natCast] at this
  push_cast at this ⊢
  rw [div_eq_mul_inv]
  exact this

/-- Otherwise the bin may come out one sample short. -/
theorem pairBin_near (c len n : ℕ) (hl : 0 < len) (hn : 0 < n) (hc : 0 < c) (hcn : c * n < 2 ^ 51) :
    pairBin (c * len) len n = c * n ∨ pairBin (c * len) len n + 1 = c * n := by
  have hlq : (0 : ℚ) < len := by exact_mod_cast hl
  have hnq : (0 : ℚ) < n := by exact_mod_cast hn
  have hcq : (0 : ℚ) < c := by exact_mod_cast hc
  have hN : ((c * n : ℕ) : ℚ) < 2 ^ 51 := by exact_mod_cast hcn
  have hN1 : (1 : ℚ) ≤ ((c * n : ℕ) : ℚ) := by exact_mod_cast Nat.mul_pos hc hn
  unfold pairBin
  have h1 := fl64_err ((len : ℚ) / n)
  have hq : (0 : ℚ) < len / n := by positivity
  rw [abs_of_pos hq] at h1
  set f := fl64 ((len : ℚ) / n) with hf
  rw [abs_le] at h1
  have hfpos : 0 < f := by nlinarith [h1.1]
  have h2 := fl64_err (((c * len : ℕ) : ℚ) / f)
  have hy : (0 : ℚ) < ((c * len : ℕ) : ℚ) / f := by push_cast; positivity
  rw [abs_of_pos hy] at h2
  set g := fl64 (((c * len : ℕ) : ℚ) / f) with hg
  set y := ((c * len : ℕ) : ℚ) / f with hye
  rw [abs_le] at h2
  have e : y * f = ((c * n : ℕ) : ℚ) * (len / n) := by
    rw [hye, div_mul_cancel₀ _ hfpos.ne']
    push_cast
    field_simp
  set N := ((c * n : ℕ) : ℚ) with hNe
  set q := (len : ℚ) / n with hqe
  have hy1 : y * (1 - 1 / 2 ^ 53) ≤ N := by
    have : y * (q * (1 - 1 / 2 ^ 53)) ≤ N * q := by
      rw [← e]; apply mul_le_mul_of_nonneg_left _ hy.le; linarith [h1.1]
    nlinarith
  have hy2 : N ≤ y * (1 + 1 / 2 ^ 53) := by
    have : N * q ≤ y * (q * (1 + 1 / 2 ^ 53)) := by
      rw [← e]; apply mul_le_mul_of_nonneg_left _ hy.le; linarith [h1.2]
    nlinarith
  have g1 : N - 1 ≤ g := by nlinarith [h2.1]
  have g2 : g < N + 1 := by nlinarith [h2.2]
  have b1 : ((c * n : ℕ) : ℤ) - 1 ≤ ⌊g⌋ := by rw [Int.le_floor]; push_cast; push_cast at hNe; rw [← hNe]; exact g1
  have b2 : ⌊g⌋ < ((c * n : ℕ) : ℤ) + 1 := by rw [Int.floor_lt]; push_cast; push_cast at hNe; rw [← hNe]; exact g2
  omega

/-- A record of 80 minutes at 20 Hz, bins of 75 s. -/
theorem pairBin_short : pairBin 96006 96006 1500 = 1499 := by
  unfold pairBin
  have h1 : fl64 (((96006 : ℕ) : ℚ) / (1500 : ℕ)) = (4503881102347207 : ℤ) * 2 ^ (-46 : ℤ) := by
    apply fl64_near <;> norm_num [abs_lt, zpow_neg]
  rw [h1]
  have h2 : fl64 (((96006 : ℕ) : ℚ) / ((4503881102347207 : ℤ) * 2 ^ (-46 : ℤ))) = (6597069766655999 : ℤ) * 2 ^ (-42 : ℤ) := by
    apply fl64_near <;> norm_num [abs_lt, zpow_neg]
  rw [h2]
  have h3 : ⌊(((6597069766655999 : ℤ) : ℚ) * 2 ^ (-42 : ℤ))⌋ = 1499 := by
    rw [Int.floor_eq_iff]
    norm_num [zpow_neg]
  rw [h3]
  rfl

theorem pairBin_rate (c len n : ℕ) (hn : 0 < n) (hlen : n ≤ len) (hc : 0 < c) (hl : c * len < 2 ^ 53)
    (h : n ∣ len ∨ ∃ k, n = 2 ^ k) : pairBin (c * len) len n = c * n := by
  have h1 : c * n ≤ c * len := Nat.mul_le_mul_left _ hlen
  have h2 : len ≤ c * len := Nat.le_mul_of_pos_left _ hc
  rcases h with h | ⟨k, rfl⟩
  · exact pairBin_dvd c len n (by omega) hn (by omega) (by omega) h
  · exact pairBin_pow c len k (by omega) (by omega) (by omega)

/-- Two series of one length whose bins fill the record or have 2^k samples. -/
theorem pairBin_self (len n : ℕ) (hn : 0 < n) (hlen : n ≤ len) (hl : len < 2 ^ 53) (h : n ∣ len ∨ ∃ k, n = 2 ^ k) :
    pairBin len len n = n := by
  rcases h with h | ⟨k, rfl⟩
  · simpa using pairBin_dvd 1 len n (by omega) hn (by omega) hl h
  · simpa using pairBin_pow 1 len k (by omega) (by omega) hl

/-- In any case it is positive, at most `c·n` and gives no fewer bins. -/
theorem pairBin_rows (c len n : ℕ) (hn : 0 < n) (hlen : n ≤ len) (hc : 0 < c) (hcn : c * n < 2 ^ 51)
    (hl : len < 2 ^ 53) :
    0 < pairBin (c * len) len n ∧ pairBin (c * len) len n ≤ c * n ∧ c * n ≤ pairBin (c * len) len n + 1 ∧
      c * n ≤ 2 * pairBin (c * len) len n ∧ len / n ≤ c * len / pairBin (c * len) len n := by
  have hpos : 0 < pairBin (c * len) len n := by
    rcases pairBin_near c len n (by omega) hn hc hcn with h | h
    · rw [h]; exact Nat.mul_pos hc hn
    · rcases Nat.eq_zero_or_pos (pairBin (c * len) len n) with h0 | h0
      · rw [h0] at h
        have h1 : n = 1 := Nat.eq_one_of_mul_eq_one_left h.symm
        have h2 := pairBin_of_exact c len n (by omega) hn (by omega) (by
          rw [h1]; simpa using fl64_natCast len hl.le)
        omega
      · exact h0
  refine ⟨hpos, ?_, ?_, ?_, ?_⟩
  · rcases pairBin_near c len n (by omega) hn hc hcn with h | h <;> omega
  · rcases pairBin_near c len n (by omega) hn hc hcn with h | h <;> omega
  · rcases pairBin_near c len n (by omega) hn hc hcn with h | h <;> omega
  · rw [← Nat.mul_div_mul_left len n hc]
    apply Nat.div_le_div_left _ hpos
    rcases pairBin_near c len n (by omega) hn hc hcn with h | h <;> omega

/-! ### Single precision -/

theorem fl32_zero : fl32 0 = 0 := by
  unfold fl32
  have : pyRound (0 : ℚ) = 0 := by simpa using pyRound_intCast 0
  simp [this]

/-- The relative error of a float32 is at most 2⁻²⁴. -/
theorem fl32_err (x : ℚ) : |fl32 x - x| ≤ |x| / 2 ^ 24 := by
  rcases eq_or_ne x 0 with rfl | hx
  · simp [fl32_zero]
  unfold fl32
  simp only
  have hu : (0 : ℚ) < 2 ^ (Int.log 2 |x| - 23) := zpow_pos (by norm_num) _
  have hl : ((2 : ℕ) : ℚ) ^ Int.log 2 |x| ≤ |x| := Int.zpow_log_le_self (by norm_num) (abs_pos.mpr hx)
  set u : ℚ := 2 ^ (Int.log 2 |x| - 23) with hue
  have h := pyRound_spec (x / u)
  have e : (pyRound (x / u) : ℚ) * u - x = -((x / u - pyRound (x / u)) * u) := by field_simp; ring
  rw [e, abs_neg, abs_mul, abs_of_pos hu]
  have hu2 : u * 2 ^ 23 ≤ |x| := by
    rw [hue, zpow_sub₀ (by norm_num)]
    push_cast at hl
    norm_num at hl ⊢
    linarith
  have := mul_le_mul_of_nonneg_right h hu.le
  linarith

theorem fl32_ne_zero {x : ℚ} (h : x ≠ 0) : fl32 x ≠ 0 := by
  intro h0
  have := fl32_err x
  rw [h0, zero_sub, abs_neg] at this
  have hp := abs_pos.mpr h
  norm_num at this
  linarith

end Dolfyn
