import Mathlib.Data.Rat.Floor
import Mathlib.Algebra.Order.Floor.Ring

/-!
Python primitives used by several models.
-/

namespace Dolfyn

/-- The exceptions the modelled code can raise (explicitly or through a primitive).
`exception` is a bare `raise Exception(...)`. -/
inductive Err
  | valueError | indexError | keyError | typeError | attributeError | exception
  | ioError | structError | unboundLocal | runtimeError | overflowError
  | zeroDivision | fileNotFound | nameError | linAlgError
  deriving DecidableEq, Repr

/-- `int(x)` of a Python float, and `ndarray.astype('int')`: truncation towards zero.
Floats are exact rationals in this model. -/
def pyInt (q : ℚ) : ℤ := if 0 ≤ q then ⌊q⌋ else ⌈q⌉

/-- Python's `round(x, 0)` and the rounding done by `datetime.timedelta`:
round half to even. -/
def pyRound (q : ℚ) : ℤ :=
  let f := ⌊q⌋
  if q - f < 1 / 2 then f
  else if 1 / 2 < q - f then f + 1
  else if f % 2 = 0 then f else f + 1

end Dolfyn
