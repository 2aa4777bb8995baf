import Verif.Model.Py
import Mathlib.Data.Int.Log
import Mathlib.Data.Rat.Floor

/-!
Double-precision arithmetic, for the few places where a rounded quotient decides an integer, and single-precision
storage where it loses recorded values.
-/

namespace Dolfyn

/-- The IEEE 754 double nearest to an exact value (ties to even), which Python and numpy return for one arithmetic
operation on doubles. Overflow and subnormal results are left out. -/
def fl64 (x : ℚ) : ℚ :=
  let u : ℚ := 2 ^ (Int.log 2 |x| - 52)
  pyRound (x / u) * u

/-- The single-precision number nearest to an exact value, as stored in a float32 array; likewise. -/
def fl32 (x : ℚ) : ℚ :=
  let u : ℚ := 2 ^ (Int.log 2 |x| - 23)
  pyRound (x / u) * u

/-- The bin size of the first of two series, `int(dat1.shape[-1]/(dat2.shape[-1]/n_bin2))`
(dolfyn/binned.py:451, dolfyn/velocity.py:686, 762, 888), for positive sizes below 2⁵³. -/
def pairBin (len1 len2 n2 : ℕ) : ℕ := ⌊fl64 ((len1 : ℚ) / fl64 ((len2 : ℚ) / n2))⌋.toNat

end Dolfyn
