import Verif.Lemmas.Float64
import Verif.Model.SfCall
import Verif.Props.TimeF

/-! Separations of the structure function in double precision (helper lemmas for C141). -/

namespace Dolfyn

/-- Rounding a double changes nothing. -/
theorem fl64_idem (x : ℚ) : fl64 (fl64 x) = fl64 x := by
  rcases eq_or_ne x 0 with rfl | hx
  · rw [fl64_zero, fl64_zero]
  have hu : (0 : ℚ) < 2 ^ (Int.log 2 |x| - 52) := zpow_pos (by norm_num) _
  have hlt : |x| < ((2 : ℕ) : ℚ) ^ (Int.log 2 |x| + 1) := Int.lt_zpow_succ_log_self (by norm_num) _
  have e : fl64 x = (pyRound (x / 2 ^ (Int.log 2 |x| - 52)) : ℤ) * 2 ^ (Int.log 2 |x| - 52) := rfl
  rw [e]
  apply fl64_exact
  have h := pyRound_spec (x / 2 ^ (Int.log 2 |x| - 52))
  have hq : |x / 2 ^ (Int.log 2 |x| - 52)| < 2 ^ 53 := by
    rw [abs_div, abs_of_pos hu, div_lt_iff₀ hu]
    have : ((2 : ℕ) : ℚ) ^ (Int.log 2 |x| + 1) = 2 ^ 53 * 2 ^ (Int.log 2 |x| - 52) := by
      rw [show Int.log 2 |x| + 1 = 53 + (Int.log 2 |x| - 52) by ring, zpow_add₀ (by norm_num)]
      norm_num
    linarith
  have h2 : |((pyRound (x / 2 ^ (Int.log 2 |x| - 52)) : ℤ) : ℚ)| < 2 ^ 53 + 1 := by
    rw [abs_lt] at hq ⊢
    rw [abs_le] at h
    constructor <;> linarith [h.1, h.2, hq.1, hq.2]
  have h3 : |pyRound (x / 2 ^ (Int.log 2 |x| - 52))| < 2 ^ 53 + 1 := by exact_mod_cast h2
  omega

/-- Rounding commutes with the change of binade. -/
theorem fl64_scale (x : ℚ) (j : ℤ) : fl64 (x * 2 ^ j) = fl64 x * 2 ^ j := by
  rcases eq_or_ne x 0 with rfl | hx
  · rw [zero_mul, fl64_zero, zero_mul]
  have hp : (0 : ℚ) < 2 ^ j := zpow_pos (by norm_num) _
  have hl : Int.log 2 |x * 2 ^ j| = Int.log 2 |x| + j := by
    rw [abs_mul, abs_of_pos hp]
    have h1 : ((2 : ℕ) : ℚ) ^ Int.log 2 |x| ≤ |x| := Int.zpow_log_le_self (by norm_num) (abs_pos.mpr hx)
    have h2 : |x| < ((2 : ℕ) : ℚ) ^ (Int.log 2 |x| + 1) := Int.lt_zpow_succ_log_self (by norm_num) _
    have h0 : 0 < |x| * 2 ^ j := mul_pos (abs_pos.mpr hx) hp
    apply le_antisymm
    · have h3 : |x| * 2 ^ j < ((2 : ℕ) : ℚ) ^ (Int.log 2 |x| + j + 1) := by
        have := mul_lt_mul_of_pos_right h2 hp
        rw [show Int.log 2 |x| + j + 1 = (Int.log 2 |x| + 1) + j by ring, zpow_add₀ (by norm_num)]
        exact_mod_cast this
      have := (Int.lt_zpow_iff_log_lt (b := 2) (by norm_num) h0).mp h3
      omega
    · apply (Int.zpow_le_iff_le_log (b := 2) (by norm_num) h0).mp
      have := mul_le_mul_of_nonneg_right h1 hp.le
      rw [zpow_add₀ (by norm_num)]
      exact_mod_cast this
  unfold fl64
  simp only [hl]
  have hu : (0 : ℚ) < 2 ^ (Int.log 2 |x| - 52) := zpow_pos (by norm_num) _
  have e : (2 : ℚ) ^ (Int.log 2 |x| + j - 52) = 2 ^ (Int.log 2 |x| - 52) * 2 ^ j := by
    rw [← zpow_add₀ (by norm_num)]
    congr 1
    ring
  rw [e, mul_div_mul_right _ _ hp.ne', mul_assoc]

theorem sfSep_scale (b : ℚ) (j : ℤ) (k : ℕ) : sfSep (b * 2 ^ j) k = sfSep b k * 2 ^ j := by
  unfold sfSep
  rw [← mul_assoc, fl64_scale, ← add_mul, fl64_scale]

theorem sfIdx_scale (b : ℚ) (j : ℤ) (k : ℕ) : sfIdx (b * 2 ^ j) k = sfIdx b k := by
  unfold sfIdx
  rw [sfSep_scale, mul_div_mul_right _ _ (zpow_pos (by norm_num : (0 : ℚ) < 2) j).ne']

/-- A separation is off by at most two units in the 53rd binary digit. -/
theorem sfSep_near (b : ℚ) (hb : 0 < b) (k : ℕ) (hk : k < 2 ^ 50) :
    |sfSep b k - ((k + 1 : ℕ) : ℚ) * b| ≤ ((k + 1 : ℕ) : ℚ) * b / 2 ^ 52 := by
  have hkq : (k : ℚ) < 2 ^ 50 := by exact_mod_cast hk
  have hk0 : (0 : ℚ) ≤ k := by positivity
  have hkb : 0 ≤ (k : ℚ) * b := by positivity
  have e1 := fl64_err ((k : ℚ) * b)
  rw [abs_of_nonneg hkb] at e1
  have hf := fl64_nonneg hkb
  have e2 := fl64_err (b + fl64 ((k : ℚ) * b))
  rw [abs_of_nonneg (by linarith : 0 ≤ b + fl64 ((k : ℚ) * b))] at e2
  have hkb2 : (k : ℚ) * b ≤ 2 ^ 50 * b := mul_le_mul_of_nonneg_right hkq.le hb.le
  unfold sfSep
  push_cast
  rw [abs_le] at e1 e2 ⊢
  norm_num at e1 e2 hkb2 ⊢
  constructor <;> linarith [e1.1, e1.2, e2.1, e2.2]

theorem sfSep_pos (b : ℚ) (hb : 0 < b) (k : ℕ) (hk : k < 2 ^ 50) : 0 < sfSep b k := by
  have h := sfSep_near b hb k hk
  have hp : 0 < ((k + 1 : ℕ) : ℚ) * b := by positivity
  rw [abs_le] at h
  norm_num at h
  push_cast at hp
  linarith [h.1]

/-- Separations increase. -/
theorem sfSep_lt (b : ℚ) (hb : 0 < b) (k : ℕ) (hk : k + 1 < 2 ^ 50) : sfSep b k < sfSep b (k + 1) := by
  have h1 := sfSep_near b hb k (by omega)
  have h2 := sfSep_near b hb (k + 1) hk
  have hkq : (k : ℚ) + 1 < 2 ^ 50 := by exact_mod_cast hk
  have hkb : ((k : ℚ) + 1) * b < 2 ^ 50 * b := mul_lt_mul_of_pos_right hkq hb
  push_cast at h1 h2
  rw [abs_le] at h1 h2
  norm_num at h1 h2 hkb
  linarith [h1.2, h2.1]

/-- The number of a separation is right or one too small. -/
theorem sfIdx_range (b : ℚ) (hb : 0 < b) (k : ℕ) (hk : k + 1 < 2 ^ 50) : sfIdx b k = k ∨ sfIdx b k = k + 1 := by
  have hkq : (k : ℚ) + 1 < 2 ^ 50 := by exact_mod_cast hk
  have hs := sfSep_near b hb k (by omega)
  have hp := sfSep_pos b hb k (by omega)
  have hq : 0 < sfSep b k / b := div_pos hp hb
  have e : |sfSep b k / b - ((k : ℚ) + 1)| ≤ ((k : ℚ) + 1) / 2 ^ 52 := by
    have : sfSep b k / b - ((k : ℚ) + 1) = (sfSep b k - ((k + 1 : ℕ) : ℚ) * b) / b := by
      push_cast
      field_simp
    rw [this, abs_div, abs_of_pos hb, div_le_iff₀ hb]
    push_cast at hs ⊢
    linarith
  have e2 := fl64_err (sfSep b k / b)
  rw [abs_of_pos hq] at e2
  have hf := fl64_nonneg hq.le
  unfold sfIdx
  rw [pyInt_nonneg hf]
  set f := fl64 (sfSep b k / b) with hfd
  have h1 : (k : ℚ) ≤ f := by
    rw [abs_le] at e e2
    norm_num at e e2 hkq
    linarith [e.1, e2.1]
  have h2 : f < (k : ℚ) + 2 := by
    rw [abs_le] at e e2
    norm_num at e e2 hkq
    linarith [e.2, e2.2]
  have h3 : (k : ℤ) ≤ ⌊f⌋ := Int.le_floor.mpr (by exact_mod_cast h1)
  have h4 : ⌊f⌋ < (k : ℤ) + 2 := Int.floor_lt.mpr (by exact_mod_cast h2)
  omega

theorem sfIdx_le (b : ℚ) (hb : 0 < b) (k : ℕ) (hk : k + 1 < 2 ^ 50) : sfIdx b k ≤ k + 1 := by
  rcases sfIdx_range b hb k hk with h | h <;> omega

/-- One cell is always found. -/
theorem sfIdx_zero (b : ℚ) (hb : 0 < b) (hd : fl64 b = b) : sfIdx b 0 = 1 := by
  have h : sfSep b 0 = b := by
    unfold sfSep
    simp [fl64_zero, hd]
  have h1 : fl64 1 = 1 := by simpa using fl64_natCast 1 (by norm_num)
  unfold sfIdx
  rw [h, div_self hb.ne', h1]
  have := pyInt_intCast 1
  push_cast at this
  rw [this]
  rfl

/-- So are two cells. -/
theorem sfIdx_one (b : ℚ) (hb : 0 < b) (hd : fl64 b = b) : sfIdx b 1 = 2 := by
  have h : sfSep b 1 = 2 * b := by
    unfold sfSep
    rw [Nat.cast_one, one_mul, hd]
    have := fl64_scale b 1
    rw [hd] at this
    norm_num at this
    rw [← two_mul, mul_comm, this]
  have h1 : fl64 2 = 2 := by simpa using fl64_natCast 2 (by norm_num)
  unfold sfIdx
  rw [h, mul_div_assoc, div_self hb.ne', mul_one, h1]
  have := pyInt_intCast 2
  push_cast at this
  rw [this]
  rfl

/-- Cell sizes with few binary digits: separations are exact. -/
theorem sfSep_exact (p : ℕ) (e : ℤ) (k : ℕ) (h : (k + 1) * p ≤ 2 ^ 53) :
    sfSep (p * 2 ^ e) k = ((k + 1 : ℕ) : ℚ) * (p * 2 ^ e) := by
  have h1 : fl64 ((k : ℚ) * (p * 2 ^ e)) = (k : ℚ) * (p * 2 ^ e) := by
    have := fl64_exact ((k * p : ℕ) : ℤ) e (by
      rw [abs_of_nonneg (by positivity)]
      have : k * p ≤ (k + 1) * p := Nat.mul_le_mul_right _ (by omega)
      exact_mod_cast this.trans h)
    push_cast at this
    rw [← mul_assoc, this]
  have h2 := fl64_exact (((k + 1) * p : ℕ) : ℤ) e (by
      rw [abs_of_nonneg (by positivity)]
      exact_mod_cast h)
  unfold sfSep
  rw [h1]
  push_cast at h2 ⊢
  rw [show (p : ℚ) * 2 ^ e + k * (p * 2 ^ e) = ((k : ℚ) + 1) * p * 2 ^ e by ring, h2]
  ring

theorem sfIdx_exact (p : ℕ) (hp : 0 < p) (e : ℤ) (k : ℕ) (h : (k + 1) * p ≤ 2 ^ 53) :
    sfIdx (p * 2 ^ e) k = k + 1 := by
  have hb : (0 : ℚ) < p * 2 ^ e := mul_pos (by exact_mod_cast hp) (zpow_pos (by norm_num) _)
  unfold sfIdx
  rw [sfSep_exact p e k h, mul_div_assoc, div_self hb.ne', mul_one, fl64_natCast]
  · have := pyInt_intCast ((k + 1 : ℕ) : ℤ)
    rw [Int.cast_natCast] at this
    rw [this]
    rfl
  · exact le_trans (Nat.le_mul_of_pos_right _ hp) h

/-- Half-way below an even last digit the value is rounded up. -/
theorem fl64_tie (m : ℤ) (e : ℤ) (x : ℚ) (h1 : (2 : ℚ) ^ (e + 52) ≤ x) (h2 : x < 2 ^ (e + 53)) (hm : m % 2 = 0)
    (h : x = (m - 1 / 2) * 2 ^ e) : fl64 x = m * 2 ^ e := by
  have hp : (0 : ℚ) < 2 ^ e := zpow_pos (by norm_num) _
  have hx0 : 0 < x := lt_of_lt_of_le (zpow_pos (by norm_num) _) h1
  have hlog : Int.log 2 |x| = e + 52 := by
    rw [abs_of_pos hx0]
    apply le_antisymm
    · have := (Int.lt_zpow_iff_log_lt (b := 2) (by norm_num) hx0 (x := e + 53)).mp (by push_cast; exact h2)
      omega
    · exact (Int.zpow_le_iff_le_log (b := 2) (by norm_num) hx0).mp (by push_cast; exact h1)
  unfold fl64
  simp only
  rw [hlog, show e + 52 - 52 = e by ring]
  congr 2
  have hd : x / 2 ^ e = m - 1 / 2 := by rw [h]; field_simp
  have hf : ⌊(m : ℚ) - 1 / 2⌋ = m - 1 := by
    rw [Int.floor_eq_iff]
    push_cast
    constructor <;> linarith
  rw [hd]
  unfold pyRound
  simp only [hf]
  rw [if_neg (by push_cast; linarith), if_neg (by push_cast; linarith), if_neg (by omega)]
  ring

theorem fl64_fifth : fl64 (1 / 5) = (7205759403792794 : ℤ) * 2 ^ (-55 : ℤ) := by
  apply fl64_near <;> norm_num [abs_lt, zpow_neg]

/-- Cells of 20 cm: the sixth separation counts as the fifth, the seventh is right. -/
theorem sfIdx_fifth : sfIdx (fl64 (1 / 5)) 5 = 5 ∧ sfIdx (fl64 (1 / 5)) 6 = 7 := by
  rw [fl64_fifth]
  constructor
  · have h1 : fl64 (((5 : ℕ) : ℚ) * ((7205759403792794 : ℤ) * 2 ^ (-55 : ℤ))) = (4503599627370496 : ℤ) * 2 ^ (-52 : ℤ) := by
      apply fl64_near <;> norm_num [abs_lt, zpow_neg]
    have h2 : fl64 ((7205759403792794 : ℤ) * 2 ^ (-55 : ℤ) + (4503599627370496 : ℤ) * 2 ^ (-52 : ℤ)) =
        (5404319552844595 : ℤ) * 2 ^ (-52 : ℤ) := by
      apply fl64_near <;> norm_num [abs_lt, zpow_neg]
    have h3 : fl64 ((5404319552844595 : ℤ) * 2 ^ (-52 : ℤ) / ((7205759403792794 : ℤ) * 2 ^ (-55 : ℤ))) =
        (6755399441055743 : ℤ) * 2 ^ (-50 : ℤ) := by
      apply fl64_near <;> norm_num [abs_lt, zpow_neg]
    have h4 : ⌊((6755399441055743 : ℤ) : ℚ) * 2 ^ (-50 : ℤ)⌋ = 5 := by
      rw [Int.floor_eq_iff]
      norm_num [zpow_neg]
    unfold sfIdx sfSep
    rw [h1, h2, h3, pyInt_nonneg (by norm_num [zpow_neg]), h4]
    rfl
  · have h1 : fl64 (((6 : ℕ) : ℚ) * ((7205759403792794 : ℤ) * 2 ^ (-55 : ℤ))) = (5404319552844596 : ℤ) * 2 ^ (-52 : ℤ) := by
      apply fl64_tie <;> norm_num [zpow_neg]
    have h2 : fl64 ((7205759403792794 : ℤ) * 2 ^ (-55 : ℤ) + (5404319552844596 : ℤ) * 2 ^ (-52 : ℤ)) =
        (6305039478318695 : ℤ) * 2 ^ (-52 : ℤ) := by
      apply fl64_near <;> norm_num [abs_lt, zpow_neg]
    have h3 : fl64 ((6305039478318695 : ℤ) * 2 ^ (-52 : ℤ) / ((7205759403792794 : ℤ) * 2 ^ (-55 : ℤ))) =
        (7881299347898368 : ℤ) * 2 ^ (-50 : ℤ) := by
      apply fl64_near <;> norm_num [abs_lt, zpow_neg]
    have h4 : ⌊((7881299347898368 : ℤ) : ℚ) * 2 ^ (-50 : ℤ)⌋ = 7 := by
      rw [Int.floor_eq_iff]
      norm_num [zpow_neg]
    unfold sfIdx sfSep
    rw [h1, h2, h3, pyInt_nonneg (by norm_num [zpow_neg]), h4]
    rfl

theorem sfHit_iff (b : ℚ) (m i : ℕ) : sfHit b m i = true ↔ ∃ k < m, sfIdx b k = i := by
  unfold sfHit
  simp only [List.any_eq_true, List.mem_range, beq_iff_eq]

/-- Cells of 5, 10, 20, 40 or 80 cm (and all other sizes `0.2·2^j`): no separation counts as six cells. -/
theorem sfHit_fifth (j : ℤ) (m : ℕ) (hm : m < 2 ^ 50) : sfHit (fl64 (1 / 5) * 2 ^ j) m 6 = false := by
  rw [Bool.eq_false_iff]
  intro h
  obtain ⟨k, hk, h6⟩ := (sfHit_iff _ _ _).mp h
  rw [sfIdx_scale] at h6
  have hb : 0 < fl64 (1 / 5) := by rw [fl64_fifth]; norm_num [zpow_neg]
  rcases sfIdx_range _ hb k (by omega) with e | e
  · have : k = 6 := by omega
    subst this
    rw [sfIdx_fifth.2] at h6
    omega
  · have : k = 5 := by omega
    subst this
    rw [sfIdx_fifth.1] at h6
    omega

/-- Doubles a whole number of millimetres apart, but for rounding. -/
theorem sfCell_mm (rng : ℕ → ℚ) (K : ℕ) (hK : K ≤ 100000) (h : |rng 1 - rng 0 - (K : ℚ) / 1000| ≤ 4 / 10000) :
    sfCell rng = fl64 ((K : ℚ) / 1000) := by
  have hKq : (K : ℚ) ≤ 100000 := by exact_mod_cast hK
  have hK0 : (0 : ℚ) ≤ K := by positivity
  unfold sfCell
  have e1 := fl64_err (rng 1 - rng 0)
  have e2 := fl64_err (fl64 (rng 1 - rng 0) * 1000)
  have ha : |rng 1 - rng 0| ≤ 101 := by
    rw [abs_le] at h ⊢
    constructor <;> linarith [h.1, h.2]
  have e1' : |fl64 (rng 1 - rng 0) - (rng 1 - rng 0)| ≤ 1 / 10 ^ 10 := by
    refine e1.trans ?_
    norm_num
    linarith
  have hb : |fl64 (rng 1 - rng 0) * 1000| ≤ 102000 := by
    rw [abs_mul, abs_of_pos (by norm_num : (0 : ℚ) < 1000)]
    have := abs_sub_abs_le_abs_sub (fl64 (rng 1 - rng 0)) (rng 1 - rng 0)
    norm_num at e1'
    linarith
  have e2' : |fl64 (fl64 (rng 1 - rng 0) * 1000) - fl64 (rng 1 - rng 0) * 1000| ≤ 1 / 10 ^ 10 := by
    refine (e2.trans (div_le_div_of_nonneg_right hb (by positivity))).trans ?_
    norm_num
  rw [pyRound_eq_of_lt _ (K : ℤ)]
  · simp
  · rw [abs_le] at h e1' e2'
    rw [abs_lt]
    norm_num at h e1' e2' ⊢
    constructor <;> linarith [h.1, h.2, e1'.1, e1'.2, e2'.1, e2'.2]

theorem sfCell_double (rng : ℕ → ℚ) : fl64 (sfCell rng) = sfCell rng := fl64_idem _

end Dolfyn
