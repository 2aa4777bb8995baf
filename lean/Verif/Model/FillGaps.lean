import Verif.Model.CreateDs

/-!
Model of `fillgaps_time` and `fillgaps_depth` (dolfyn/adp/clean.py:377-432). The work is done by
`xarray.DataArray.interpolate_na`; the interpolator (scipy) is a parameter, the treatment of `limit` follows
xarray's `_get_valid_fill_mask`: NaN are counted in the window of `limit + 1` samples that ends at the sample,
with nothing counted before the first sample, and the sample is filled if there are at most `limit`.
-/

namespace Dolfyn

variable {α : Type*}

/-- The dimension to fill along: `[t for t in var.dims if 'time' in t][0]` (dolfyn/adp/clean.py:398, 427). -/
def gapDim (s : String) (dims : List Key) : Except Err Key :=
  match dims.filter fun d => keyIn s d with
  | [] => .error .indexError
  | d :: _ => .ok d

/-- The number of NaN among the `limit + 1` samples that end at `i`. -/
def nanWindow (limit : ℕ) (u : ℕ → Option α) (i : ℕ) : ℕ :=
  ((List.range (limit + 1)).filter fun j => decide (j ≤ i) && (u (i - j)).isNone).length

/-- `var.interpolate_na(dim, method, limit=maxgap)` along one line of data. -/
def fillGaps (interp : (ℕ → Option α) → ℕ → Option α) (maxgap : Option ℕ) (u : ℕ → Option α) (i : ℕ) : Option α :=
  if (u i).isSome then u i
  else match maxgap with
    | none => interp u i
    | some limit => if nanWindow limit u i ≤ limit then interp u i else none

end Dolfyn
