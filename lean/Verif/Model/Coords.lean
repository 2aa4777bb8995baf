import Verif.Model.Binned
import Verif.Model.CreateDs

/-!
Coordinates of binned results: `_new_coords` (dolfyn/binned.py:144-161), used by the coherence, phase and
covariance functions, and the loops over dimensions in `calc_ti` and `calc_tke`.
-/

namespace Dolfyn

/-- An array with named dimensions and the coordinates it carries (length and values). Every dimension of
the arrays made by the readers has a coordinate of the same name. -/
structure CArr where
  dims : List Key
  coords : Key → Option (ℕ × (ℕ → Option ℝ))

/-- The coordinate of one dimension of the result: binned if its name contains `time`, else unchanged; `src`
is the name of the coordinate that is read for times. -/
noncomputable def coordOf (b : Binner) (a : CArr) (src : Key) (missing : Err) (d : Key) :
    Except Err (Key × List (Option ℝ)) :=
  if keyIn "time" d then
    match a.coords src with
    | none => .error missing
    | some (n, x) => (binMean b n x none).map fun l => (d, l)
  else
    match a.coords d with
    | none => .error .keyError
    | some (n, x) => .ok (d, vals n x)

/-- `_new_coords` (dolfyn/binned.py:144-161): times are always taken from `array.time`. Dropping the scalar
coordinate `dir` has no effect on the result. -/
noncomputable def newCoords (b : Binner) (a : CArr) : Except Err (List (Key × List (Option ℝ))) :=
  a.dims.mapM (coordOf b a "time".toList .attributeError)

/-- The loop in `calc_ti` (dolfyn/velocity.py:954-960) and, for data without a `dir` dimension, in
`calc_tke` (dolfyn/velocity.py:1032-1037). -/
noncomputable def ownCoords (b : Binner) (a : CArr) : Except Err (List (Key × List (Option ℝ))) :=
  a.dims.mapM fun d => coordOf b a d .keyError d

end Dolfyn
