import Verif.Model.Turb

/-!
Model of `calc_tke` (dolfyn/velocity.py:971-1045) for data without a `dir` dimension: one beam of a profiler, with cells
or as a single series. The result is a float32 array; the rounding is not modelled.
`noise` is a number or an array; a plain list, which has no square, is not modelled.
-/

namespace Dolfyn

/-- The argument `noise`: missing, a number, or an array with one or two axes. -/
inductive NoiseArg
  | missing
  | number (x : ℝ)
  | one (n : ℕ) (x : ℕ → ℝ)
  | two (r c : ℕ) (x : ℕ → ℕ → ℝ)

/-- `np.shape(noise)`. -/
def NoiseArg.shape : NoiseArg → List ℕ
  | .missing => []
  | .number _ => []
  | .one n _ => [n]
  | .two r c _ => [r, c]

/-- `a > b` for tuples of Python: the first entries that differ decide, and a longer tuple is larger than its
beginning. -/
def tupleGt : List ℕ → List ℕ → Bool
  | [], _ => false
  | _ :: _, [] => true
  | a :: l, b :: m => if a = b then tupleGt l m else decide (a > b)

/-- `out -= noise ** 2` in place for `out` with `rows` cells and `cols` bins (dolfyn/velocity.py:1029): numpy stretches
axes of length one of `noise`, and an array with one axis runs along the bins. -/
noncomputable def noiseSub (nz : NoiseArg) (m : Mat2 (Option ℝ)) : Except Err (Mat2 (Option ℝ)) :=
  match nz with
  | .missing => .ok m
  | .number x => .ok ⟨m.rows, m.cols, fun i j => (m.at_ i j).map fun s => s - x ^ 2⟩
  | .one n x =>
    if n = m.cols ∨ n = 1 then
      .ok ⟨m.rows, m.cols, fun i j => (m.at_ i j).map fun s => s - x (if n = m.cols then j else 0) ^ 2⟩
    else .error .valueError
  | .two r c x =>
    if (r = m.rows ∨ r = 1) ∧ (c = m.cols ∨ c = 1) then
      .ok ⟨m.rows, m.cols, fun i j => (m.at_ i j).map fun s =>
        s - x (if r = m.rows then i else 0) (if c = m.cols then j else 0) ^ 2⟩
    else .error .valueError

/-- `np.nanmean(self.detrend(vel) ** 2, axis=-1)` of one bin, or the same with `demean`. -/
noncomputable def binPower (f : Mat2 (Option ℝ)) (r : ℕ) : Option ℝ :=
  nanmean (vals f.cols fun j => opt2 (· * ·) (f.at_ r j) (f.at_ r j))

/-- The variance of bin `r` of one cell. -/
noncomputable def cellBin (b : Binner) (dt : Bool) (len : ℕ) (x : ℕ → Option ℝ) (r : ℕ) : Option ℝ :=
  match fluct b dt len x with
  | .error _ => none
  | .ok f => binPower f r

/-- The variances of all cells; all cells have the same number of samples, so they fail or succeed together. -/
noncomputable def cellPower (b : Binner) (dt : Bool) (cells len : ℕ) (vel : ℕ → ℕ → Option ℝ) :
    Except Err (Mat2 (Option ℝ)) :=
  match fluct b dt len (vel 0) with
  | .error e => .error e
  | .ok f0 => .ok ⟨cells, f0.rows, fun i r => cellBin b dt len (vel i) r⟩

/-- `calc_tke` for one beam with `cells` cells and `len` pings. -/
noncomputable def tkeBeam (b : Binner) (isXr : Bool) (nz : NoiseArg) (dt : Bool) (cells len : ℕ)
    (vel : ℕ → ℕ → Option ℝ) : Except Err (Mat2 (Option ℝ)) :=
  if isXr = false then .error .unboundLocal
  else
    match cellPower b dt cells len vel with
    | .error e => .error e
    | .ok m => if tupleGt nz.shape [cells, len] then .error .exception else noiseSub nz m

end Dolfyn
