import Verif.Lemmas.Time
import Verif.Spec.Time
import Mathlib.Tactic.Linarith
import Mathlib.Tactic.Ring
import Mathlib.Tactic.FieldSimp
import Mathlib.Tactic.NormNum
import Mathlib.Tactic.Push

/-!
C01 (epoch ↔ datetime64), C02 (MATLAB datenum) and the year part of C03.
-/

namespace Dolfyn

/-- **C01, exact behaviour.** For every nanosecond timestamp the conversion to epoch time and back
returns the timestamp, except that non-integer seconds before 1970 come back one second late. -/
theorem epoch_roundtrip_exact (n : ℤ) :
    epoch2dt64 (dt642epoch n)
      = if n < 0 ∧ ¬ (1000000000 ∣ n) then n + 1000000000 else n := by
  unfold epoch2dt64 dt642epoch
  rw [fract_ns, pyInt_intCast]
  have h1 := Int.emod_add_mul_ediv n 1000000000
  by_cases hn : 0 ≤ n
  · have : (0 : ℚ) ≤ (n : ℚ) / 1000000000 := by positivity
    rw [pyInt_nonneg this, floor_ns, if_neg (by omega)]
    omega
  · have hneg : ¬ (0 : ℚ) ≤ (n : ℚ) / 1000000000 := by
      rw [not_le]
      apply div_neg_of_neg_of_pos _ (by norm_num)
      exact_mod_cast (by omega : n < 0)
    have hc : ⌈(n : ℚ) / 1000000000⌉ = -((-n) / 1000000000) := by
      rw [← floor_ns, ← Int.ceil_neg]; push_cast; congr 1; ring
    unfold pyInt
    rw [if_neg hneg, hc]
    split <;> omega

/-- **C01 (partial).** Round trip is the identity for every timestamp from 1970 on and for every
whole-second timestamp before. Missing: non-integer seconds before 1970, where the code is wrong
(`epoch_roundtrip_fails`). -/
theorem epoch_roundtrip_partial (n : ℤ) (h : 0 ≤ n ∨ (1000000000 ∣ n)) :
    epoch2dt64 (dt642epoch n) = n := by
  rw [epoch_roundtrip_exact, if_neg]
  rintro ⟨h1, h2⟩
  rcases h with h | h
  · omega
  · exact h2 h

example : (0 : ℤ) ≤ 1600000000123456789 ∨ ((1000000000 : ℤ) ∣ 1600000000123456789) :=
  Or.inl (by norm_num)

/-- **C01 fails as stated**: half a second before 1970 comes back as half a second after. -/
theorem epoch_roundtrip_fails : ¬ ∀ n : ℤ, epoch2dt64 (dt642epoch n) = n := by
  intro h
  have := h (-500000000)
  rw [epoch_roundtrip_exact] at this
  norm_num at this

/-- **C01, other direction.** An epoch time from 1970 on that is a whole number `n` of nanoseconds
survives the conversion to datetime64 and back. -/
theorem epoch_roundtrip_from_epoch_partial (s : ℚ) (n : ℤ) (h0 : 0 ≤ s)
    (hs : s * 1000000000 = n) : dt642epoch (epoch2dt64 s) = s := by
  have hsn : s = dt642epoch n := by
    unfold dt642epoch; rw [← hs]; field_simp
  have hn : 0 ≤ n := by
    have : (0 : ℚ) ≤ n := by rw [← hs]; positivity
    exact_mod_cast this
  rw [hsn, epoch_roundtrip_partial n (Or.inl hn)]

example : (1600000000123 / 1000 : ℚ) * 1000000000 = (1600000000123000000 : ℤ) := by norm_num

/-- C01: order is preserved, so sorted time vectors stay sorted (times from 1970 on). -/
theorem epoch2dt64_mono {s t : ℚ} (h0 : 0 ≤ s) (h : s ≤ t) : epoch2dt64 s ≤ epoch2dt64 t := by
  have key : ∀ u : ℚ, 0 ≤ u → epoch2dt64 u = ⌊u * 1000000000⌋ := by
    intro u hu
    unfold epoch2dt64
    rw [pyInt_nonneg hu, pyInt_nonneg (mul_nonneg (Int.fract_nonneg u) (by norm_num))]
    have : u * 1000000000 = Int.fract u * 1000000000 + ((⌊u⌋ * 1000000000 : ℤ) : ℚ) := by
      push_cast; rw [← add_mul, Int.fract_add_floor]
    rw [this, Int.floor_add_intCast]; ring
  rw [key s h0, key t (h0.trans h)]
  exact Int.floor_le_floor (by linarith)

/-! ### C02 -/

/-- **C02.** Any datetime whose datenum exists (366 days below Python's last date) comes back from
MATLAB format as the datetime rounded (half to even) to 100 µs. -/
theorem matlab_roundtrip (t : ℤ) (h0 : validDate t) (h1 : validDate (t + 366 * usDay)) :
    (date2matlab t >>= matlab2date) = .ok (100 * pyRound ((t : ℚ) / 100)) := by
  have hv0 := h0
  have hv1 := h1
  simp only [validDate, usDay] at h0 h1
  have hd := Int.emod_add_mul_ediv t 86400000000
  have hr0 := Int.emod_nonneg t (b := 86400000000) (by norm_num)
  have hr1 := Int.emod_lt_of_pos t (b := 86400000000) (by norm_num)
  have hday : (t + 366 * 86400000000) / 86400000000 = t / 86400000000 + 366 := by omega
  -- the datenum is (t + 366 D) / D exactly
  have hdn : (((t + 366 * 86400000000) / 86400000000 : ℤ) : ℚ)
      + (((t % 86400000000) / 1000000 : ℤ) : ℚ) / 86400
      + ((t % 1000000 : ℤ) : ℚ) / 86400000000
      = ((t / 86400000000 + 366 : ℤ) : ℚ) + ((t % 86400000000 : ℤ) : ℚ) / 86400000000 := by
    rw [hday]
    have hmm : t % 1000000 = (t % 86400000000) % 1000000 := by
      rw [Int.emod_emod_of_dvd t (by norm_num)]
    have hs := Int.emod_add_mul_ediv (t % 86400000000) 1000000
    rw [hmm]
    have hs' : ((t % 86400000000 : ℤ) : ℚ) = (((t % 86400000000) % 1000000 : ℤ) : ℚ)
        + 1000000 * (((t % 86400000000) / 1000000 : ℤ) : ℚ) := by exact_mod_cast hs.symm
    rw [hs']
    ring
  generalize hr : t % 86400000000 = r at *
  generalize hdd : t / 86400000000 = d at *
  have hrq0 : (0 : ℚ) ≤ (r : ℚ) / 86400000000 := by
    have : (0 : ℚ) ≤ r := by exact_mod_cast hr0
    positivity
  have hrq1 : (r : ℚ) / 86400000000 < 1 := by
    rw [div_lt_one (by norm_num)]
    exact_mod_cast hr1
  have hdpos : 1 ≤ d := by omega
  have hdn0 : (0 : ℚ) ≤ ((d + 366 : ℤ) : ℚ) + (r : ℚ) / 86400000000 := by
    have : (0 : ℚ) ≤ ((d + 366 : ℤ) : ℚ) := by exact_mod_cast (by omega : (0 : ℤ) ≤ d + 366)
    linarith
  have hfloor : ⌊((d + 366 : ℤ) : ℚ) + (r : ℚ) / 86400000000⌋ = d + 366 := by
    rw [Int.floor_intCast_add, Int.floor_eq_zero_iff.mpr ⟨hrq0, hrq1⟩]; ring
  have hfr : Int.fract (((d + 366 : ℤ) : ℚ) + (r : ℚ) / 86400000000) * ((86400000000 : ℤ) : ℚ)
      = (r : ℤ) := by
    rw [Int.fract, hfloor]; push_cast; ring
  unfold date2matlab
  simp only [usDay]
  rw [if_pos hv1, hr, hdn]
  change matlab2date _ = _
  unfold matlab2date
  simp only [pyInt_nonneg hdn0, hfloor, usDay]
  rw [hfr, pyRound_intCast]
  rw [if_neg (by omega)]
  have ht : (d + 366) * 86400000000 + (r - 366 * 86400000000) = t := by omega
  rw [ht, if_pos hv0]
  -- rounding of the microsecond field equals rounding of the whole count
  have hm := Int.emod_add_mul_ediv t 1000000
  have hround : pyRound ((t : ℚ) / 100)
      = pyRound (((t % 1000000 : ℤ) : ℚ) / 100) + 10000 * (t / 1000000) := by
    have : (t : ℚ) / 100 = ((t % 1000000 : ℤ) : ℚ) / 100 + ((2 * (5000 * (t / 1000000)) : ℤ) : ℚ) := by
      have : (t : ℚ) = ((t % 1000000 : ℤ) : ℚ) + 1000000 * ((t / 1000000 : ℤ) : ℚ) := by
        exact_mod_cast hm.symm
      rw [this]; push_cast; ring
    rw [this, pyRound_add_even]; ring
  have hres : t + (pyRound (((t % 1000000 : ℤ) : ℚ) / 100) * 100 - t % 1000000)
      = 100 * pyRound ((t : ℚ) / 100) := by
    rw [hround]; linarith
  rw [hres]
  have hb := pyRound_spec ((t : ℚ) / 100)
  rw [abs_le] at hb
  have hb1 : -50 ≤ t - 100 * pyRound ((t : ℚ) / 100) := by
    have : (-50 : ℚ) ≤ t - 100 * pyRound ((t : ℚ) / 100) := by linarith [hb.1]
    exact_mod_cast this
  have hb2 : t - 100 * pyRound ((t : ℚ) / 100) ≤ 50 := by
    have : (t : ℚ) - 100 * pyRound ((t : ℚ) / 100) ≤ 50 := by linarith [hb.2]
    exact_mod_cast this
  rw [if_pos]
  generalize pyRound ((t : ℚ) / 100) = z at *
  simp only [validDate, usDay]
  omega

/-- C02: the value returned is a multiple of 100 µs nearest to the original datetime. -/
theorem matlab_roundtrip_nearest (t : ℤ) (h0 : validDate t) (h1 : validDate (t + 366 * usDay)) :
    ∃ t', (date2matlab t >>= matlab2date) = .ok t' ∧ Spec.NearestMultiple 100 t t' := by
  refine ⟨_, matlab_roundtrip t h0 h1, Dvd.intro _ rfl, ?_⟩
  rintro _ ⟨k, rfl⟩
  have hb := pyRound_spec ((t : ℚ) / 100)
  rw [abs_le] at hb
  have hb1 : -50 ≤ t - 100 * pyRound ((t : ℚ) / 100) := by
    have : (-50 : ℚ) ≤ t - 100 * pyRound ((t : ℚ) / 100) := by linarith [hb.1]
    exact_mod_cast this
  have hb2 : t - 100 * pyRound ((t : ℚ) / 100) ≤ 50 := by
    have : (t : ℚ) - 100 * pyRound ((t : ℚ) / 100) ≤ 50 := by linarith [hb.2]
    exact_mod_cast this
  generalize pyRound ((t : ℚ) / 100) = z at *
  rcases abs_cases (t - 100 * z) with h | h <;> rcases abs_cases (t - 100 * k) with h' | h' <;> omega

/-- C02: the round trip is the identity exactly for datetimes on the 100 µs grid. -/
theorem matlab_roundtrip_id_iff (t : ℤ) (h0 : validDate t) (h1 : validDate (t + 366 * usDay)) :
    (date2matlab t >>= matlab2date) = .ok t ↔ 100 ∣ t := by
  rw [matlab_roundtrip t h0 h1, Except.ok.injEq]
  constructor
  · intro h; exact ⟨_, h.symm⟩
  · rintro ⟨k, rfl⟩
    have : (((100 * k : ℤ) : ℚ)) / 100 = (k : ℤ) := by push_cast; ring
    rw [this, pyRound_intCast]

/-- Beyond Python's date range the conversion raises rather than wrapping. -/
theorem date2matlab_overflow (t : ℤ) (h1 : ¬ validDate (t + 366 * usDay)) :
    date2matlab t = .error .overflowError := by
  unfold date2matlab
  simp only [if_neg h1]

-- 2021-03-04T05:06:07.000850 (ordinal 737853) meets the hypotheses; it is on no 100 µs boundary
-- and is rounded to an even multiple.
example : validDate (737853 * usDay + 18367000850)
    ∧ validDate (737853 * usDay + 18367000850 + 366 * usDay)
    ∧ ¬ (100 ∣ (737853 * usDay + 18367000850)) := by
  simp only [validDate, usDay]; norm_num

/-! ### C03, year part -/

/-- C03: two-digit years land in 1990..2089 and keep their last two digits; the map is injective
on two-digit years; years above 100 are unchanged. -/
theorem fullyear_spec (y : ℤ) (h0 : 0 ≤ y) (h1 : y < 100) :
    1990 ≤ fullyear y ∧ fullyear y ≤ 2089 ∧ fullyear y % 100 = y := by
  unfold fullyear; split_ifs <;> omega

theorem fullyear_unique (y z : ℤ) (h0 : 0 ≤ y) (h1 : y < 100) (hz : 1990 ≤ z ∧ z ≤ 2089)
    (hd : z % 100 = y) : fullyear y = z := by
  unfold fullyear; split_ifs <;> omega

theorem fullyear_four_digits (y : ℤ) (h : 100 < y) : fullyear y = y := by
  unfold fullyear; split_ifs <;> omega

/-- The boundaries of the three ranges. -/
theorem fullyear_boundaries (y : ℤ) :
    fullyear y = if 100 < y then y else if y < 90 then y + 2000 else y + 1900 := by
  unfold fullyear; split_ifs <;> omega

/-- The year after 99 continues the count: 100 means 2000. -/
theorem fullyear_hundred : fullyear 99 = 1999 ∧ fullyear 100 = 2000 ∧ fullyear 101 = 101 := by decide

example : fullyear 21 = 2021 ∧ fullyear 95 = 1995 ∧ fullyear 2013 = 2013 := by decide

end Dolfyn
