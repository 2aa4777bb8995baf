import Verif.Model.Clock
import Verif.Props.Time
import Mathlib.Tactic.IntervalCases

/-! C03: instrument clock bytes. -/

namespace Dolfyn

/-- Binary coded decimal of a number below 100: one decimal digit per four bits. -/
def Spec.toBCD (n : ℕ) : ℕ := 16 * (n / 10) + n % 10

/-- **C03.** Every two-digit BCD byte decodes to the number it encodes. -/
theorem bcd_roundtrip (n : ℕ) (h : n < 100) : bcd2char (Spec.toBCD n) = n := by
  interval_cases n <;> decide

/-- **C03.** Whatever the byte (valid BCD or not), decoding stays below 106; up to the largest
BCD byte `0x99` and for every larger byte value it is at most 105. -/
theorem bcd_bounded (c : ℕ) : bcd2char c ≤ 105 := by
  unfold bcd2char
  have h : min c 153 ≤ 153 := min_le_right _ _
  generalize min c 153 = d at h
  interval_cases d <;> decide

/-- **C03.** A byte whose two nibbles are decimal digits decodes to at most 99. -/
theorem bcd_valid_le (hi lo : ℕ) (h1 : hi < 10) (h2 : lo < 10) : bcd2char (16 * hi + lo) = 10 * hi + lo := by
  interval_cases hi <;> interval_cases lo <;> decide

/-- **C03.** Bytes above `0x99` are read as 99. -/
theorem bcd_clamped (c : ℕ) (h : 153 ≤ c) : bcd2char c = 99 := by
  unfold bcd2char
  rw [min_eq_right h]; decide

/-- **C03.** The clock record written for any valid time between 1990 and 2089 is read back as that
time, whatever follows the six bytes. -/
theorem rd_time_roundtrip (t : CivilTime) (hv : t.valid) (h0 : 1990 ≤ t.year) (h1 : t.year ≤ 2089)
    (rest : List ℕ) :
    rdTime ([Spec.toBCD t.minute, Spec.toBCD t.second, Spec.toBCD t.day, Spec.toBCD t.hour,
      Spec.toBCD (t.year % 100).toNat, Spec.toBCD t.month] ++ rest) = .ok t := by
  obtain ⟨y, mo, d, ho, mi, se⟩ := t
  obtain ⟨a1, a2, a3, a4, a5, a6, a7, a8, a9⟩ := id hv
  simp only at a1 a2 a3 a4 a5 a6 a7 a8 a9 h0 h1
  have hd : d < 100 := by
    have : daysInMonth y mo ≤ 31 := by unfold daysInMonth; split_ifs <;> omega
    omega
  have hy : fullyear (bcd2char (Spec.toBCD (y % 100).toNat) : ℕ) = y := by
    rw [bcd_roundtrip _ (by omega)]
    apply fullyear_unique _ _ (by omega) (by omega) ⟨h0, h1⟩
    omega
  unfold rdTime
  simp only [List.cons_append, List.nil_append, List.take_succ_cons, List.take_zero]
  rw [hy, bcd_roundtrip mo (by omega), bcd_roundtrip d hd, bcd_roundtrip ho (by omega),
    bcd_roundtrip mi (by omega), bcd_roundtrip se (by omega)]
  exact if_pos hv

example : rdTime [0x59, 0x07, 0x29, 0x23, 0x12, 0x02] = .ok ⟨2012, 2, 29, 23, 59, 7⟩ := by decide

end Dolfyn
