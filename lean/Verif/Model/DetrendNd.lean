import Verif.Model.Gaps
import Mathlib.Data.Real.Basic

/-!
Model of `detrend` (dolfyn/tools/misc.py:25-55) for arrays with any number of axes, along any axis, in place or not. The
model of one line is `detrend` in `Model/Gaps.lean`. Numbers are exact; an array of integers (or booleans) differs from
one of floats only in that `arr -= m` with a float `m` raises TypeError. numpy < 2 (`np.float_`).
-/

namespace Dolfyn

noncomputable section

/-- A numpy array: its shape, and the entry at each tuple of indices (`none` is NaN). -/
structure NdArr where
  shape : List ℕ
  at_ : List ℕ → Option ℝ

/-- Broadcasting: where an array read at `idx` is really read; axes of length one are stretched. -/
def bcIdx (shape idx : List ℕ) : List ℕ := List.zipWith (fun s i => if s = 1 then 0 else i) shape idx

/-- Broadcasting: two shapes (of the same number of axes, as all in `detrend` are) fit together. -/
def bcFits (s t : List ℕ) : Bool := s.length == t.length && (s.zip t).all fun p => p.1 == p.2 || p.1 == 1 || p.2 == 1

/-- A binary operation of numpy with broadcasting. -/
def NdArr.bin (f : Option ℝ → Option ℝ → Option ℝ) (a b : NdArr) : Except Err NdArr :=
  if bcFits a.shape b.shape then
    .ok ⟨List.zipWith (fun s t => if s = 1 then t else s) a.shape b.shape,
      fun idx => f (a.at_ (bcIdx a.shape idx)) (b.at_ (bcIdx b.shape idx))⟩
  else .error .valueError

/-- `a -= b` with floats `b`: integers cannot hold the result, and the result must have the shape of `a`. -/
def NdArr.isub (isInt : Bool) (a b : NdArr) : Except Err NdArr :=
  if isInt then .error .typeError
  else match a.bin (opt2 (· - ·)) b with
    | .error e => .error e
    | .ok c => if c.shape = a.shape then .ok c else .error .valueError

/-- `np.nanmean(a, axis=k, keepdims=True)`. -/
def NdArr.mean (k : ℕ) (a : NdArr) : NdArr :=
  ⟨a.shape.set k 1, fun idx => nanmean (vals (a.shape.getD k 0) fun j => a.at_ (idx.set k j))⟩

/-- An axis number of Python for `nd` axes; `none` is IndexError. -/
def normAxis (nd : ℕ) (axis : ℤ) : Option ℕ :=
  if 0 ≤ axis ∧ axis < nd then some axis.toNat
  else if -nd ≤ axis ∧ axis < 0 then some (axis + nd).toNat
  else none

/-- `np.arange(sz[axis], dtype=np.float_).reshape(sz)` (dolfyn/tools/misc.py:47-49). -/
def detrendX (nd k n : ℕ) : NdArr := ⟨(List.replicate nd 1).set k n, fun idx => some ((idx.getD k 0 : ℕ) : ℝ)⟩

/-- `detrend` (dolfyn/tools/misc.py:25-55): the returned array. -/
def detrendNd (isInt : Bool) (axis : ℤ) (a : NdArr) : Except Err NdArr :=
  match normAxis a.shape.length axis with
  | none => .error .indexError
  | some k =>
    let x0 := detrendX a.shape.length k (a.shape.getD k 0)
    match x0.isub false (x0.mean k) with
    | .error e => .error e
    | .ok x =>
      match a.isub isInt (a.mean k) with
      | .error e => .error e
      | .ok arr =>
        match x.bin (opt2 (· * ·)) arr, x.bin (opt2 (· * ·)) x with
        | .error e, _ => .error e
        | _, .error e => .error e
        | .ok p, .ok q =>
          match (p.mean k).bin npDiv (q.mean k) with
          | .error e => .error e
          | .ok b =>
            match b.bin (opt2 (· * ·)) x with
            | .error e => .error e
            | .ok t => arr.isub isInt t

/-- The call as seen by the caller: the returned array, and the argument afterwards. `isArr` says whether the argument is
a numpy array (`np.asarray` makes a new array of anything else). Every exception is raised before the argument is
written to: bad axes at line 48, integers at the first subtraction from `arr`. -/
def detrendCall (inPlace isArr isInt : Bool) (axis : ℤ) (a : NdArr) : Except Err NdArr × NdArr :=
  match detrendNd isInt axis a with
  | .error e => (.error e, a)
  | .ok r => (.ok r, if inPlace && isArr then r else a)

end

end Dolfyn
