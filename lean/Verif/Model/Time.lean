import Verif.Model.Py

/-!
Model of `dolfyn/time.py` (conversions; `_fill_time_gaps` is in `Model/Gaps.lean`).
Times as floats are exact rationals; `datetime64[ns]` values are integer nanosecond counts.
-/

namespace Dolfyn

/-- `_fullyear` (dolfyn/time.py:6-10). -/
def fullyear (year : ℤ) : ℤ :=
  if year > 100 then year
  else year + (1900 + 100 * (if year < 90 then 1 else 0))

/-- `epoch2dt64` (dolfyn/time.py:13-31) on one element: `astype('int')` truncates,
`% 1` is floor-mod, `astype('timedelta64[ns]')` truncates. Result in nanoseconds. -/
def epoch2dt64 (t : ℚ) : ℤ :=
  pyInt t * 1000000000 + pyInt (Int.fract t * 1000000000)

/-- `dt642epoch` (dolfyn/time.py:34-49) on one element given in nanoseconds. -/
def dt642epoch (n : ℤ) : ℚ := (n : ℚ) / 1000000000

/-- Microseconds per day. -/
abbrev usDay : ℤ := 86400000000

/-- A `datetime.datetime` is its number of microseconds since the (fictitious) ordinal day 0.
Python only allows ordinals 1 .. 3652059 (0001-01-01 .. 9999-12-31). -/
abbrev validDate (t : ℤ) : Prop := usDay ≤ t ∧ t < 3652060 * usDay

/-- `date2matlab` (dolfyn/time.py:186-208) on one element. `dt + timedelta(366)` overflows
outside Python's date range; `.toordinal()` is the day number, `(dt - midnight).seconds` the
whole seconds of the day, `.microsecond` the remainder. -/
def date2matlab (t : ℤ) : Except Err ℚ :=
  let mdn := t + 366 * usDay
  if validDate mdn then
    .ok (((mdn / usDay : ℤ) : ℚ) + (((t % usDay) / 1000000 : ℤ) : ℚ) / 86400
      + ((t % 1000000 : ℤ) : ℚ) / 86400000000)
  else .error .overflowError

/-- `matlab2date` (dolfyn/time.py:211-236) on one element: `fromordinal(int(dn))`, plus
`timedelta(days=dn % 1)` (rounded to whole microseconds, half to even) minus 366 days, then the
microsecond field is rounded to a multiple of 100. -/
def matlab2date (dn : ℚ) : Except Err ℤ :=
  let d := pyInt dn
  if d < 1 ∨ 3652059 < d then .error .valueError
  else
    let t := d * usDay + (pyRound (Int.fract dn * usDay) - 366 * usDay)
    if validDate t then
      let m := t % 1000000
      let us := pyRound ((m : ℚ) / 100) * 100
      let t' := t + (us - m)
      if validDate t' then .ok t' else .error .overflowError
    else .error .overflowError

end Dolfyn
