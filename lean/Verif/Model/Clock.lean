import Verif.Model.Time
import Mathlib.Data.Nat.Bitwise

/-! Model of the Nortek clock record: `_bcd2char` and `rd_time` (dolfyn/io/nortek.py). -/

namespace Dolfyn

/-- `_bcd2char` (dolfyn/io/nortek.py:115-122). -/
def bcd2char (c : ℕ) : ℕ :=
  let c := min c 153
  (c &&& 15) + 10 * (c >>> 4)

/-- The fields of a `datetime`. -/
structure CivilTime where
  year : ℤ
  month : ℕ
  day : ℕ
  hour : ℕ
  minute : ℕ
  second : ℕ
deriving DecidableEq

/-- Gregorian leap year (Python's `datetime` library). -/
def isLeap (y : ℤ) : Bool := y % 4 = 0 && (y % 100 ≠ 0 || y % 400 = 0)

/-- Days in a month (Python's `datetime` library). -/
def daysInMonth (y : ℤ) (m : ℕ) : ℕ :=
  if m = 2 then (if isLeap y then 29 else 28)
  else if m = 4 ∨ m = 6 ∨ m = 9 ∨ m = 11 then 30 else 31

/-- The argument checks of the `datetime` constructor (ValueError otherwise). -/
def CivilTime.valid (t : CivilTime) : Prop :=
  1 ≤ t.year ∧ t.year ≤ 9999 ∧ 1 ≤ t.month ∧ t.month ≤ 12 ∧ 1 ≤ t.day ∧ t.day ≤ daysInMonth t.year t.month ∧
    t.hour ≤ 23 ∧ t.minute ≤ 59 ∧ t.second ≤ 59

instance (t : CivilTime) : Decidable t.valid := by unfold CivilTime.valid; infer_instance

/-- `rd_time` (dolfyn/io/nortek.py:620-629) up to the conversion of the `datetime` to an epoch number: the six bytes are
minute, second, day, hour, year, month. Fewer than six bytes raise `struct.error`. -/
def rdTime (bytes : List ℕ) : Except Err CivilTime :=
  match bytes.take 6 with
  | [mi, se, da, ho, ye, mo] =>
    let t : CivilTime := ⟨fullyear (bcd2char ye), bcd2char mo, bcd2char da, bcd2char ho, bcd2char mi, bcd2char se⟩
    if t.valid then .ok t else .error .valueError
  | _ => .error .structError

end Dolfyn
