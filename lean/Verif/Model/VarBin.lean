import Verif.Model.TimeBin

/-!
The variance of a bin in single precision: `np.nanvar(..., dtype=np.float32)` of float32 data. The
order in which `np.sum` adds is a parameter (any binary tree of additions), and the same for both sums. Numbers that are too
large or too small for the exponent of a float32 are not modelled.
-/

namespace Dolfyn

/-- The sum, every addition rounded to single precision. -/
def SumTree.fls (x : ℕ → ℚ) : SumTree → ℚ
  | .leaf i => x i
  | .node a b => fl32 (a.fls x + b.fls x)

/-- `np.sum(..., dtype=np.float32)` divided by the number of samples, an integer array: the quotient is a double and stored
as float32 (`_divide_by_count` of numpy). -/
def meanSingle (o : SumTree) (n : ℕ) (x : ℕ → ℚ) : ℚ := fl32 (fl64 (o.fls x / n))

/-- The number of samples that are not missing. -/
def countValid (n : ℕ) (x : ℕ → Option ℚ) : ℕ := ((List.range n).filter fun i => (x i).isSome).length

/-- `np.nanvar(..., dtype=np.float32)` (dolfyn/binned.py:332) of one bin of `n` samples: mean, deviations, squares, mean of the
squares. Missing samples count as 0 in both sums (`_replace_nan` and `_copyto` of numpy). -/
def varSingle (o : SumTree) (n : ℕ) (x : ℕ → Option ℚ) : Option ℚ :=
  let cnt := countValid n x
  if cnt = 0 then none
  else
    let m := meanSingle o cnt fun i => (x i).getD 0
    some (meanSingle o cnt fun i => ((x i).map fun v => fl32 (fl32 (v - m) * fl32 (v - m))).getD 0)

/-- `TimeBinner.var` (dolfyn/binned.py:314-332) along the last axis, in single precision. -/
def binVarSingle (o : SumTree) (b : Binner) (len : ℕ) (x : ℕ → Option ℚ) (nBin : Option ℚ) :
    Except Err (List (Option ℚ)) :=
  match reshape (some 0) len x (parseNbin b nBin) 0 with
  | .error e => .error e
  | .ok m => .ok ((List.range m.rows).map fun r => varSingle o m.cols (m.at_ r))

end Dolfyn
