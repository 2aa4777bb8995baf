import Verif.Model.Ad2cpMore
import Verif.Lemmas.Time
import Mathlib.Tactic.Linarith
import Mathlib.Tactic.IntervalCases
import Mathlib.Algebra.Order.BigOperators.Group.List

/-!
Properties of the clock of AD2CP pings and of the calendar it rests on: C92.
-/

namespace Dolfyn

/-! ### The calendar -/

theorem daysBeforeMonth_succ (y : ℤ) (m : ℕ) (h : 1 ≤ m) :
    daysBeforeMonth y (m + 1) = daysBeforeMonth y m + daysInMonth y m := by
  obtain ⟨k, rfl⟩ : ∃ k, m = k + 1 := ⟨m - 1, by omega⟩
  simp [daysBeforeMonth, List.range_succ]

theorem daysBeforeMonth_mono (y : ℤ) (m n : ℕ) (h1 : 1 ≤ m) (h : m ≤ n) :
    daysBeforeMonth y m ≤ daysBeforeMonth y n := by
  induction n, h using Nat.le_induction with
  | base => exact le_refl _
  | succ n hn ih => rw [daysBeforeMonth_succ y n (by omega)]; omega

theorem isLeap_iff (y : ℤ) : isLeap y = true ↔ y % 4 = 0 ∧ (y % 100 ≠ 0 ∨ y % 400 = 0) := by
  simp [isLeap]

theorem daysInYear (y : ℤ) : daysBeforeMonth y 13 = 365 + if isLeap y then 1 else 0 := by
  simp [daysBeforeMonth, List.range_succ, daysInMonth]
  split <;> rfl

/-- **C92** (calendar). Within a month the day number grows by one per day, the first of a month follows
the last day of the month before, the first of January follows the 31st of December, and day 719163 is
the first of January 1970: the day number counts the days of the Gregorian calendar. -/
theorem ordinal_counts_days :
    dateOrdinal 1970 1 1 = 719163 ∧
    (∀ y m d, dateOrdinal y m (d + 1) = dateOrdinal y m d + 1) ∧
    (∀ y m, 1 ≤ m → m < 12 → dateOrdinal y (m + 1) 1 = dateOrdinal y m (daysInMonth y m) + 1) ∧
    (∀ y, dateOrdinal (y + 1) 1 1 = dateOrdinal y 12 31 + 1) := by
  refine ⟨by decide, fun y m d => by unfold dateOrdinal; push_cast; ring, fun y m h1 _ => ?_, fun y => ?_⟩
  · unfold dateOrdinal
    rw [daysBeforeMonth_succ y m h1]; push_cast; ring
  · have h13 := daysInYear y
    rw [daysBeforeMonth_succ y 12 (by omega)] at h13
    have h12 : daysInMonth y 12 = 31 := by simp [daysInMonth]
    rw [h12] at h13
    have h0 : daysBeforeMonth (y + 1) 1 = 0 := by simp [daysBeforeMonth]
    unfold dateOrdinal
    rw [h0]
    have hl := isLeap_iff y
    rw [add_sub_cancel_right]
    have q4 : (y - 1) / 4 = if y % 4 = 0 then y / 4 - 1 else y / 4 := by split <;> omega
    have q100 : (y - 1) / 100 = if y % 100 = 0 then y / 100 - 1 else y / 100 := by split <;> omega
    have q400 : (y - 1) / 400 = if y % 400 = 0 then y / 400 - 1 else y / 400 := by split <;> omega
    have w4 : y % 100 = 0 → y % 4 = 0 := by omega
    have w100 : y % 400 = 0 → y % 100 = 0 := by omega
    rw [q4, q100, q400]
    clear q4 q100 q400
    by_cases hy : isLeap y = true
    · rw [if_pos hy] at h13
      obtain ⟨a4, a100⟩ := hl.mp hy
      rw [if_pos a4]
      push_cast
      rcases a100 with a | a
      · rw [if_neg a, if_neg (fun h => a (w100 h))]; omega
      · rw [if_pos a, if_pos (w100 a)]; omega
    · rw [if_neg hy] at h13
      have hn := fun h => hy (hl.mpr h)
      push_cast
      by_cases a4 : y % 4 = 0
      · have a100 : y % 100 = 0 := by
          by_contra h; exact hn ⟨a4, .inl h⟩
        have a400 : ¬ y % 400 = 0 := fun h => hn ⟨a4, .inr h⟩
        rw [if_pos a4, if_pos a100, if_neg a400]; omega
      · rw [if_neg a4, if_neg (fun h => a4 (w4 h)), if_neg (fun h => a4 (w4 (w100 h)))]; omega

/-- The number of days before a year. -/
theorem ordinal_year_mono (y z : ℤ) (h : y < z) : dateOrdinal y 12 31 < dateOrdinal z 1 1 := by
  have hy := (ordinal_counts_days.2.2.2 y)
  have : dateOrdinal (y + 1) 1 1 ≤ dateOrdinal z 1 1 := by
    have h0 : ∀ w, daysBeforeMonth w 1 = 0 := by intro w; simp [daysBeforeMonth]
    unfold dateOrdinal
    rw [h0, h0]
    push_cast
    omega
  omega

/-- The day number of a valid date lies within its year. -/
theorem ordinal_in_year (y : ℤ) (m d : ℕ) (h1 : 1 ≤ m) (h2 : m ≤ 12) (h3 : 1 ≤ d) (h4 : d ≤ daysInMonth y m) :
    dateOrdinal y 1 1 ≤ dateOrdinal y m d ∧ dateOrdinal y m d ≤ dateOrdinal y 12 31 := by
  have e := daysBeforeMonth_succ y m h1
  have a := daysBeforeMonth_mono y 1 m (le_refl _) h1
  have b := daysBeforeMonth_mono y (m + 1) 13 (by omega) (by omega)
  have c := daysBeforeMonth_succ y 12 (by omega)
  have h12 : daysInMonth y 12 = 31 := by simp [daysInMonth]
  rw [h12] at c
  norm_num at c
  unfold dateOrdinal
  constructor <;> omega

/-- Later dates have larger day numbers. -/
theorem ordinal_lt (y z : ℤ) (m n d e : ℕ) (h1 : 1 ≤ m) (h2 : m ≤ 12) (h3 : 1 ≤ d) (h4 : d ≤ daysInMonth y m)
    (g1 : 1 ≤ n) (g2 : n ≤ 12) (g3 : 1 ≤ e) (g4 : e ≤ daysInMonth z n)
    (h : y < z ∨ (y = z ∧ (m < n ∨ (m = n ∧ d < e)))) : dateOrdinal y m d < dateOrdinal z n e := by
  rcases h with h | ⟨rfl, h | ⟨rfl, h⟩⟩
  · have := ordinal_year_mono y z h
    have := ordinal_in_year y m d h1 h2 h3 h4
    have := ordinal_in_year z n e g1 g2 g3 g4
    omega
  · have s := daysBeforeMonth_succ y m h1
    have t := daysBeforeMonth_mono y (m + 1) n (by omega) (by omega)
    unfold dateOrdinal
    omega
  · unfold dateOrdinal; omega

/-! ### The clock -/

/-- A legal clock reading: two-digit-style year byte from 1970 on, zero-based month, and so on; not the
very start of 1970. -/
structure Spec.PingClock where
  y : ℕ
  mo : ℕ
  d : ℕ
  h : ℕ
  mi : ℕ
  s : ℕ
  us : ℕ

/-- A real date and time of day from 1970 on. -/
def Spec.PingClock.legal (c : Spec.PingClock) : Prop :=
  70 ≤ c.y ∧ c.y < 256 ∧ c.mo < 12 ∧ 1 ≤ c.d ∧ c.d ≤ daysInMonth (c.y + 1900 : ℕ) (c.mo + 1) ∧ c.h < 24 ∧
    c.mi < 60 ∧ c.s < 60 ∧ c.us < 10000

/-- The fields, most significant first. -/
def Spec.PingClock.key (c : Spec.PingClock) : List ℕ := [c.y, c.mo, c.d, c.h, c.mi, c.s, c.us]

/-- The time coordinate computed for it. -/
def Spec.PingClock.time (c : Spec.PingClock) : Option ℚ := adPingTime c.y c.mo c.d c.h c.mi c.s c.us

/-- Hundreds of microseconds since the start of 1970. -/
def Spec.PingClock.ticks (c : Spec.PingClock) : ℤ :=
  ((dateOrdinal (c.y + 1900 : ℕ) (c.mo + 1) c.d - dateOrdinal 1970 1 1) * 86400
    + c.h * 3600 + c.mi * 60 + c.s) * 10000 + c.us

theorem ticks_nonneg (c : Spec.PingClock) (hc : c.legal) : 0 ≤ c.ticks := by
  obtain ⟨h1, h2, h3, h4, h5, h6, h7, h8, h9⟩ := hc
  have a := (ordinal_in_year (c.y + 1900 : ℕ) (c.mo + 1) c.d (by omega) (by omega) h4 h5).1
  have : dateOrdinal 1970 1 1 ≤ dateOrdinal (c.y + 1900 : ℕ) 1 1 := by
    have h0 : ∀ w, daysBeforeMonth w 1 = 0 := by intro w; simp [daysBeforeMonth]
    unfold dateOrdinal
    rw [h0, h0]
    push_cast
    omega
  unfold Spec.PingClock.ticks
  generalize dateOrdinal (c.y + 1900 : ℕ) (c.mo + 1) c.d = A at *
  generalize dateOrdinal 1970 1 1 = B at *
  omega

theorem legal_valid (c : Spec.PingClock) (hc : c.legal) :
    (⟨(c.y + 1900 : ℤ), c.mo + 1, c.d, c.h, c.mi, c.s⟩ : CivilTime).valid ∧ c.us * 100 < 1000000 := by
  obtain ⟨h1, h2, h3, h4, h5, h6, h7, h8, h9⟩ := hc
  push_cast at h5
  refine ⟨⟨?_, ?_, ?_, ?_, ?_, h5, ?_, ?_, ?_⟩, ?_⟩ <;> (try simp only) <;> omega

/-- **C92**. A legal clock reading after the first instant of 1970 gives exactly that time, in seconds
since 1970 with the resolution of the clock. -/
theorem ping_time_exact (c : Spec.PingClock) (hc : c.legal) (h0 : c.ticks ≠ 0) :
    c.time = some ((c.ticks : ℚ) / 10000) ∧ epoch2dt64 ((c.ticks : ℚ) / 10000) = c.ticks * 100000 := by
  obtain ⟨hv, hu⟩ := legal_valid c hc
  have hd : c.d ≠ 0 := by have := hc.2.2.2.1; omega
  constructor
  · have hval : date2epoch ⟨(c.y + 1900 : ℤ), c.mo + 1, c.d, c.h, c.mi, c.s⟩ (c.us * 100) =
        (c.ticks : ℚ) / 10000 := by
      unfold date2epoch Spec.PingClock.ticks
      rw [ordinal_counts_days.1]
      push_cast
      generalize dateOrdinal _ _ _ = A
      ring
    unfold Spec.PingClock.time adPingTime adCalcTime
    rw [if_neg (fun h => hd h.2.1), if_pos ⟨hv, hu⟩]
    simp only [hval]
    rw [if_neg (by simpa using h0)]
  · have hn := ticks_nonneg c hc
    have e : (c.ticks : ℚ) / 10000 = dt642epoch (c.ticks * 100000) := by
      unfold dt642epoch; push_cast; ring
    rw [e]
    unfold epoch2dt64
    have hq : (0 : ℚ) ≤ dt642epoch (c.ticks * 100000) := by
      unfold dt642epoch; positivity
    rw [pyInt_nonneg hq]
    unfold dt642epoch
    rw [floor_ns, fract_ns]
    rw [pyInt_intCast]
    omega

/-- **C92** (order). Of two legal readings, the one that is later field by field (year, then month, then
day, …) gets the later time. -/
theorem ping_time_order (c e : Spec.PingClock) (hc : c.legal) (he : e.legal) (h : c.key < e.key) :
    c.ticks < e.ticks := by
  obtain ⟨h1, h2, h3, h4, h5, h6, h7, h8, h9⟩ := hc
  obtain ⟨g1, g2, g3, g4, g5, g6, g7, g8, g9⟩ := he
  have key : c.y < e.y ∨ (c.y = e.y ∧ (c.mo < e.mo ∨ (c.mo = e.mo ∧ (c.d < e.d ∨ (c.d = e.d ∧
      (c.h < e.h ∨ (c.h = e.h ∧ (c.mi < e.mi ∨ (c.mi = e.mi ∧ (c.s < e.s ∨ (c.s = e.s ∧ c.us < e.us)))))))))))  := by
    simpa [Spec.PingClock.key, List.cons_lt_cons_iff] using h
  unfold Spec.PingClock.ticks
  have ord : ∀ (_ : c.y < e.y ∨ (c.y = e.y ∧ (c.mo < e.mo ∨ (c.mo = e.mo ∧ c.d < e.d)))),
      dateOrdinal (c.y + 1900 : ℕ) (c.mo + 1) c.d < dateOrdinal (e.y + 1900 : ℕ) (e.mo + 1) e.d := by
    intro hh
    apply ordinal_lt _ _ _ _ _ _ (by omega) (by omega) h4 h5 (by omega) (by omega) g4 g5
    rcases hh with hh | ⟨hy, hh | ⟨hm, hh⟩⟩
    · left; exact_mod_cast (by omega : c.y + 1900 < e.y + 1900)
    · right; exact ⟨by rw [hy], .inl (by omega)⟩
    · right; exact ⟨by rw [hy], .inr ⟨by omega, hh⟩⟩
  by_cases hh : c.y < e.y ∨ (c.y = e.y ∧ (c.mo < e.mo ∨ (c.mo = e.mo ∧ c.d < e.d)))
  · have := ord hh
    omega
  · have hy : c.y = e.y := by omega
    have hm : c.mo = e.mo := by omega
    have hd : c.d = e.d := by omega
    rw [hy, hm, hd]
    omega

/-- **C92** (bad readings). A reading that is not a date and time of day becomes missing; so does the
all-zero reading. -/
theorem ping_time_bad (y mo d h mi s us : ℕ)
    (hbad : 12 ≤ mo ∨ d = 0 ∨ daysInMonth (y + 1900) (mo + 1) < d ∨ 24 ≤ h ∨ 60 ≤ mi ∨ 60 ≤ s ∨ 10000 ≤ us) :
    adPingTime y mo d h mi s us = none := by
  unfold adPingTime adCalcTime
  by_cases hz : mo = 0 ∧ d = 0 ∧ h = 0 ∧ mi = 0 ∧ s = 0 ∧ us * 100 = 0
  · rw [if_pos hz]; simp
  · rw [if_neg hz]
    simp only
    rw [if_neg]
    rintro ⟨⟨-, -, a1, a2, a3, a4, a5, a6, a7⟩, a8⟩
    simp only at a1 a2 a3 a4 a5 a6 a7
    rcases hbad with h | h | h | h | h | h | h <;> omega

/-- **C92** (false part). The first instant of 1970 is a legal time that is taken for a missing one. -/
theorem ping_time_1970_false :
    (⟨70, 0, 1, 0, 0, 0, 0⟩ : Spec.PingClock).legal ∧ (⟨70, 0, 1, 0, 0, 0, 0⟩ : Spec.PingClock).time = none := by
  refine ⟨?_, ?_⟩
  · refine ⟨?_, ?_, ?_, ?_, ?_, ?_, ?_, ?_, ?_⟩ <;> decide
  · unfold Spec.PingClock.time adPingTime adCalcTime
    rw [if_neg (by simp)]
    simp only
    rw [if_pos (by decide)]
    simp only
    rw [if_pos]
    unfold date2epoch
    have h : dateOrdinal ((70 : ℕ) + 1900 : ℤ) (0 + 1) 1 = 719163 := by decide
    simp only [h]
    norm_num

/-- 29 February 2024, 12:34:56.7891. -/
example : (⟨124, 1, 29, 12, 34, 56, 7891⟩ : Spec.PingClock).legal ∧
    (⟨124, 1, 29, 12, 34, 56, 7891⟩ : Spec.PingClock).ticks = 17092100967891 := by
  constructor
  · refine ⟨?_, ?_, ?_, ?_, ?_, ?_, ?_, ?_, ?_⟩ <;> decide
  · decide

end Dolfyn
