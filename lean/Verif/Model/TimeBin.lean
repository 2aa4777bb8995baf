import Verif.Model.TimeF
import Verif.Model.Binned

/-!
The time of a bin in double precision. `np.nanmean` adds the samples in an order of its own (blocks and pairs), which is a
parameter here: any binary tree of additions over the samples.
-/

namespace Dolfyn

/-- An order of additions: which sample, or which two partial sums. -/
inductive SumTree
  | leaf (i : ℕ)
  | node (a b : SumTree)

/-- The samples added. -/
def SumTree.leaves : SumTree → List ℕ
  | .leaf i => [i]
  | .node a b => a.leaves ++ b.leaves

/-- The largest number of additions a sample goes through. -/
def SumTree.depth : SumTree → ℕ
  | .leaf _ => 0
  | .node a b => max a.depth b.depth + 1

/-- The sum, every addition rounded to a double. -/
def SumTree.fl (x : ℕ → ℚ) : SumTree → ℚ
  | .leaf i => x i
  | .node a b => fl64 (a.fl x + b.fl x)

/-- `mean` (dolfyn/binned.py:285-311) of `datetime64` times: the epoch times are cut into bins, added, divided by their
number and turned back. -/
def meanTimesF (order : SumTree) (b : Binner) (len : ℕ) (times : ℕ → ℤ) (nBin : Option ℚ) : Except Err (List ℤ) :=
  match reshape 0 len (fun i => dt642epochF (times i)) (parseNbin b nBin) 0 with
  | .error e => .error e
  | .ok m => .ok ((List.range m.rows).map fun r => epoch2dt64F (fl64 (order.fl (m.at_ r) / m.cols)))

end Dolfyn
