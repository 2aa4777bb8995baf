import Verif.Model.Binned

/-!
The `axis` argument of `TimeBinner.mean`, `var`, `std`, `demean` and `detrend` (dolfyn/binned.py:231-352), for arrays with two
axes. `Mat2` is an array of `rows × cols`. Errors depend on the shape only, so that of the first row decides.
-/

namespace Dolfyn

/-- An array with three axes. -/
structure Arr3 (α : Type*) where
  d0 : ℕ
  d1 : ℕ
  d2 : ℕ
  at_ : ℕ → ℕ → ℕ → α

/-- `TimeBinner.reshape` (dolfyn/binned.py:163-228) of an array with two axes: each row is cut into bins. -/
def reshape2 (arr : Mat2 (Option ℝ)) (nBin : ℚ) : Except Err (Arr3 (Option ℝ)) :=
  match reshape (some 0) arr.cols (arr.at_ 0) nBin 0 with
  | .error e => .error e
  | .ok m => .ok ⟨arr.rows, m.rows, m.cols, fun c r j =>
      match reshape (some 0) arr.cols (arr.at_ c) nBin 0 with
      | .error _ => some 0
      | .ok m' => m'.at_ r j⟩

/-- `np.swapaxes(arr, axis, -1)` (dolfyn/binned.py:308-309); an axis that is not there raises `AxisError`, a `ValueError`. -/
def swapLast (arr : Mat2 (Option ℝ)) (axis : ℤ) : Except Err (Mat2 (Option ℝ)) :=
  if axis = -1 ∨ axis = 1 then .ok arr
  else if axis = 0 ∨ axis = -2 then .ok ⟨arr.cols, arr.rows, fun i j => arr.at_ j i⟩
  else .error .valueError

/-- A statistic of numpy along one axis of an array with three axes. -/
def along (f : List (Option ℝ) → Option ℝ) (t : Arr3 (Option ℝ)) (axis : ℤ) : Except Err (Mat2 (Option ℝ)) :=
  if axis = -1 ∨ axis = 2 then .ok ⟨t.d0, t.d1, fun c r => f ((List.range t.d2).map fun j => t.at_ c r j)⟩
  else if axis = 1 ∨ axis = -2 then .ok ⟨t.d0, t.d2, fun c j => f ((List.range t.d1).map fun r => t.at_ c r j)⟩
  else if axis = 0 ∨ axis = -3 then .ok ⟨t.d1, t.d2, fun r j => f ((List.range t.d0).map fun c => t.at_ c r j)⟩
  else .error .valueError

/-- `TimeBinner.mean` (dolfyn/binned.py:286-312) with its `axis`. -/
noncomputable def meanAxis (b : Binner) (arr : Mat2 (Option ℝ)) (axis : ℤ) (nBin : Option ℚ) :
    Except Err (Mat2 (Option ℝ)) :=
  match swapLast arr axis with
  | .error e => .error e
  | .ok a =>
    match reshape2 a (parseNbin b nBin) with
    | .error e => .error e
    | .ok t => along nanmean t (-1)

/-- `TimeBinner.var` (dolfyn/binned.py:314-332) with its `axis`, which is that of the array of bins. -/
noncomputable def varAxis (b : Binner) (arr : Mat2 (Option ℝ)) (axis : ℤ) (nBin : Option ℚ) :
    Except Err (Mat2 (Option ℝ)) :=
  match reshape2 arr (parseNbin b nBin) with
  | .error e => .error e
  | .ok t => along nanvar t axis

/-- `TimeBinner.std` (dolfyn/binned.py:334-353) with its `axis`. -/
noncomputable def stdAxis (b : Binner) (arr : Mat2 (Option ℝ)) (axis : ℤ) (nBin : Option ℚ) :
    Except Err (Mat2 (Option ℝ)) :=
  match reshape2 arr (parseNbin b nBin) with
  | .error e => .error e
  | .ok t => along nanstd t axis

/-- `dt - np.nanmean(dt, axis)[..., None]` (dolfyn/binned.py:284-285): a column of `a × b` means subtracted from `d0 × d1 × d2`
numbers. Axes that differ and are not 1 raise `ValueError`; the other two shapes are not followed when they are 1. -/
noncomputable def demeanAxis (b : Binner) (arr : Mat2 (Option ℝ)) (axis : ℤ) (nBin : Option ℚ) :
    Except Err (Arr3 (Option ℝ)) :=
  match reshape2 arr (parseNbin b nBin) with
  | .error e => .error e
  | .ok t =>
    match along nanmean t axis with
    | .error e => .error e
    | .ok m =>
      let i : ℕ → ℕ := fun c => if m.rows = 1 then 0 else c
      let j : ℕ → ℕ := fun r => if m.cols = 1 then 0 else r
      let i' : ℕ → ℕ := fun c => if t.d0 = 1 then 0 else c
      let j' : ℕ → ℕ := fun r => if t.d1 = 1 then 0 else r
      if (m.rows ≠ t.d0 ∧ m.rows ≠ 1 ∧ t.d0 ≠ 1) ∨ (m.cols ≠ t.d1 ∧ m.cols ≠ 1 ∧ t.d1 ≠ 1) then .error .valueError
      else .ok ⟨max m.rows t.d0, max m.cols t.d1, t.d2, fun c r k =>
        match t.at_ (i' c) (j' r) k, m.at_ (i c) (j r) with
        | some x, some y => some (x - y)
        | _, _ => none⟩

end Dolfyn
