import Mathlib.Data.Rat.Defs
import Mathlib.Algebra.Order.Ring.Rat

/-!
Specification vocabulary for times, independent of the model.
-/

namespace Dolfyn.Spec

/-- `m` is a multiple of `g` nearest to `t`. -/
def NearestMultiple (g t m : ℤ) : Prop := g ∣ m ∧ ∀ m' : ℤ, g ∣ m' → |t - m| ≤ |t - m'|

end Dolfyn.Spec
