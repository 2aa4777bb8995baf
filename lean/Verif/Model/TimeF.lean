import Verif.Model.TimeMore
import Verif.Model.Float64

/-!
The time conversions of `dolfyn/time.py` in double precision: every arithmetic operation of the code and of the
`datetime` module returns the double nearest to its exact result. Arguments are doubles; `datetime64[ns]` values are
integer nanosecond counts, `datetime`s microsecond counts as in `Model/Time.lean`.
-/

namespace Dolfyn

/-- `dt642epoch` (dolfyn/time.py:34-49) on one element: the count is converted to a double, then divided. -/
def dt642epochF (n : ℤ) : ℚ := fl64 (fl64 n / 1000000000)

/-- `epoch2dt64` (dolfyn/time.py:13-31) on one element. -/
def epoch2dt64F (t : ℚ) : ℤ :=
  pyInt t * 1000000000 + pyInt (fl64 (fl64 (Int.fract t) * 1000000000))

/-- `date2epoch` (dolfyn/time.py:166-183) on one element: `timestamp` divides the whole number of microseconds by
10⁶. -/
def date2epochF (d : ℤ) : ℚ := fl64 (((d - usEpoch : ℤ) : ℚ) / 1000000)

/-- `datetime.utcfromtimestamp(t)`: the fraction of `modf`, times 10⁶, is rounded half-even. -/
def utcfromtimestampF (t : ℚ) : Except Err ℤ :=
  let u := usEpoch + (pyInt t * 1000000 + pyRound (fl64 ((t - pyInt t) * 1000000)))
  if validDate u then .ok u else .error .valueError

/-- `dt642date` (dolfyn/time.py:69-83) on one element. -/
def dt642dateF (n : ℤ) : Except Err ℤ := utcfromtimestampF (dt642epochF n)

/-- `date2matlab` (dolfyn/time.py:186-208) on one element. -/
def date2matlabF (t : ℤ) : Except Err ℚ :=
  let mdn := t + 366 * usDay
  if validDate mdn then
    .ok (fl64 (fl64 (((mdn / usDay : ℤ) : ℚ) + fl64 ((((t % usDay) / 1000000 : ℤ) : ℚ) / 86400))
      + fl64 (((t % 1000000 : ℤ) : ℚ) / 86400000000)))
  else .error .overflowError

/-- `matlab2date` (dolfyn/time.py:211-236) on one element. -/
def matlab2dateF (dn : ℚ) : Except Err ℤ :=
  let d := pyInt dn
  if d < 1 ∨ 3652059 < d then .error .valueError
  else
    let t := d * usDay + (pyRound (fl64 (fl64 (Int.fract dn) * usDay)) - 366 * usDay)
    if validDate t then
      let m := t % 1000000
      let us := pyRound (fl64 ((m : ℚ) / 100)) * 100
      let t' := t + (us - m)
      if validDate t' then .ok t' else .error .overflowError
    else .error .overflowError

end Dolfyn
