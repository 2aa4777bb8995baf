import Verif.Model.Time
import Verif.Model.Clock

/-!
Model of the `datetime` conversions of `dolfyn/time.py`. A `datetime` is its number of microseconds since
the (fictitious) ordinal day 0, as in `Model/Time.lean`.
-/

namespace Dolfyn

/-- 1970-01-01 in microseconds (`date(1970, 1, 1).toordinal() = 719163`). -/
abbrev usEpoch : ℤ := 719163 * usDay

/-- `datetime.utcfromtimestamp(t)`: rounds half-even to whole microseconds; a year outside 1..9999 raises. -/
def utcfromtimestamp (t : ℚ) : Except Err ℤ :=
  let u := usEpoch + pyRound (t * 1000000)
  if validDate u then .ok u else .error .valueError

/-- `timedelta(hours=h)` in microseconds. -/
def timedeltaHours (h : ℚ) : ℤ := pyRound (h * 3600000000)

/-- `epoch2date(ep_time, offset_hr)` (dolfyn/time.py:86-137) on a list of times. `datetime + timedelta` raises
OverflowError outside the years 1..9999. -/
def epoch2date (ts : List ℚ) (offsetHr : ℚ) : Except Err (List ℤ) :=
  if offsetHr ≠ 0 then
    ts.mapM fun t => do
      let u ← utcfromtimestamp t
      let v := u + timedeltaHours offsetHr
      if validDate v then pure v else .error .overflowError
  else ts.mapM utcfromtimestamp

/-- `date2dt64` (dolfyn/time.py:52-66) on one element, in nanoseconds since 1970. Dates outside the years
1678-2262, which a 64-bit count cannot hold, are not modelled. -/
def date2dt64 (d : ℤ) : ℤ := (d - usEpoch) * 1000

/-- `dt642date` (dolfyn/time.py:69-83). -/
def dt642date (ns : List ℤ) : Except Err (List ℤ) := epoch2date (ns.map dt642epoch) 0

/-- The decimal digits of `n`, at least `w` of them (`'{:0wd}'`, most significant first). -/
def padDigits : ℕ → ℕ → List Char
  | 0, _ => []
  | w + 1, n => padDigits w (n / 10) ++ [Nat.digitChar (n % 10)]

/-- `date2str` with its default format `'%Y-%m-%d %H:%M:%S.%f'` (dolfyn/time.py:140-163) on one element,
for years from 1000 on (`strftime` does not pad earlier years on Linux). -/
def date2str (t : CivilTime) (us : ℕ) : List Char :=
  padDigits 4 t.year.toNat ++ ['-'] ++ padDigits 2 t.month ++ ['-'] ++ padDigits 2 t.day ++ [' '] ++
    padDigits 2 t.hour ++ [':'] ++ padDigits 2 t.minute ++ [':'] ++ padDigits 2 t.second ++ ['.'] ++
    padDigits 6 us

end Dolfyn
