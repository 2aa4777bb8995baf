import Verif.Model.Py
import Mathlib.Algebra.Field.Basic
import Mathlib.Algebra.BigOperators.Group.List.Basic

/-!
Model of the 1-D array helpers of `dolfyn/tools/misc.py` and of `_fill_time_gaps` of
`dolfyn/time.py`.

A 1-D array of length `n` is a function on `ℕ` read and written at positions `< n` only.
NaN is `none`. `K` is any field (exact arithmetic instead of floats).
-/

namespace Dolfyn

variable {K : Type*} [Field K]

/-- `np.nanmean` of a 1-D array: mean of the entries that are not NaN, NaN when there are none. -/
def nanmean (l : List (Option K)) : Option K :=
  let v := l.reduceOption
  if v = [] then none else some (v.sum / v.length)

/-- The values of an array as a list. -/
def vals {α : Type*} (n : ℕ) (a : ℕ → α) : List α := (List.range n).map a

/-- numpy division: `x / 0` is NaN or infinite, neither of which is a number. -/
def npDiv [DecidableEq K] (a b : Option K) : Option K :=
  match a, b with
  | some x, some y => if y = 0 then none else some (x / y)
  | _, _ => none

/-- Elementwise arithmetic with NaN: any operand NaN gives NaN. -/
def opt2 {α : Type*} (f : α → α → α) (a b : Option α) : Option α :=
  match a, b with
  | some x, some y => some (f x y)
  | _, _ => none

/-- `detrend` (dolfyn/tools/misc.py:25-55) on one 1-D slice.
`x` is centred over *all* positions, the data over the positions that are not NaN. -/
def detrend [DecidableEq K] (n : ℕ) (a : ℕ → Option K) : ℕ → Option K :=
  let x0 : ℕ → Option K := fun i => some (i : K)
  let xm := nanmean (vals n x0)
  let x := fun i => opt2 (· - ·) (x0 i) xm
  let am := nanmean (vals n a)
  let arr := fun i => opt2 (· - ·) (a i) am
  let b := npDiv (nanmean (vals n fun i => opt2 (· * ·) (x i) (arr i)))
    (nanmean (vals n fun i => opt2 (· * ·) (x i) (x i)))
  fun i => opt2 (· - ·) (arr i) (opt2 (· * ·) b (x i))

/-- `group` (dolfyn/tools/misc.py:58-103). Returns the slices `(start, stop)`.
`ups`/`dns` are the positions where the mask rises/falls; for a mask that starts with `True` the
code prepends 0 and **appends `len(ups)`** instead of keeping `ups` (line 90). -/
def group (n : ℕ) (bl : ℕ → Bool) (minLength : ℤ) : List (ℕ × ℕ) :=
  if (List.range n).any bl = false then []
  else
    let ups := ((List.range (n - 1)).filter fun i => !bl i && bl (i + 1)).map (· + 1)
    let dns := ((List.range (n - 1)).filter fun i => bl i && !bl (i + 1)).map (· + 1)
    let ups := if bl 0 then (if ups = [] then [0] else [0, ups.length]) else ups
    let dns := if bl (n - 1) then (if dns = [] then [n] else dns ++ [n]) else dns
    (ups.zip dns).filter fun p => !decide ((p.2 : ℤ) - p.1 < minLength)

/-- Carry step of `slice1d_along_axis` (dolfyn/tools/misc.py:142-146) on the *reversed* index
list: while the current digit is `>=` its dimension and is not the first one, reset it and
increment the next. -/
def carry : List ℕ → List ℕ → List ℕ
  | x :: y :: rest, d :: ds => if d ≤ x then 0 :: carry ((y + 1) :: rest) ds else x :: y :: rest
  | ind, _ => ind
termination_by ind _ => ind.length

/-- `ind[-1] += 1` (dolfyn/tools/misc.py:149) on the reversed index list. -/
def incr : List ℕ → List ℕ
  | [] => []
  | x :: xs => (x + 1) :: xs

/-- The `while k < Ntot` loop (dolfyn/tools/misc.py:140-150); yields the (reversed) index lists. -/
def odometer (rdims : List ℕ) : ℕ → List ℕ → List (List ℕ)
  | 0, _ => []
  | k + 1, ind => let ind' := carry ind rdims; ind' :: odometer rdims k (incr ind')

/-- `slice1d_along_axis` (dolfyn/tools/misc.py:106-150). A yielded tuple is a list with `none` for
the full slice. With one dimension `ind` is empty and `ind[n]` raises IndexError; an axis out of
range makes `indlist.remove` raise ValueError. -/
def slice1d (shape : List ℕ) (axis : ℤ) : Except Err (List (List (Option ℕ))) :=
  let nd := shape.length
  let axis := if axis < 0 then axis + nd else axis
  if axis < 0 ∨ (nd : ℤ) ≤ axis then .error .valueError
  else
    let ax := axis.toNat
    let dims := shape.eraseIdx ax
    if dims = [] then .error .indexError
    else
      let ind := List.replicate (nd - 1) 0
      .ok ((odometer dims.reverse dims.prod ind).map fun r =>
        (r.reverse.map some).insertIdx ax none)

/-- `x <= maxgap + k` where `maxgap = none` is `np.inf`. -/
def gapLe (x : ℕ) (maxgap : Option ℚ) (k : ℕ) : Bool :=
  match maxgap with
  | none => true
  | some q => decide ((x : ℚ) ≤ q + k)

/-- `np.nonzero(~np.isnan(a))[0]`. -/
def goodIdx {α : Type*} (n : ℕ) (a : ℕ → Option α) : List ℕ :=
  (List.range n).filter fun i => (a i).isSome

/-- Assign the same value to a range of positions `lo ≤ i < hi`. -/
def setRange {α : Type*} (a : ℕ → α) (lo hi : ℕ) (v : α) : ℕ → α :=
  fun i => if lo ≤ i ∧ i < hi then v else a i

/-- The extrapolation of the ends (dolfyn/tools/misc.py:202-206 and 253-257). -/
def extrapEnds {α : Type*} (n : ℕ) (a : ℕ → Option α) (maxgap : Option ℚ) (flg : Bool) :
    ℕ → Option α :=
  match goodIdx n a with
  | [] => a
  | g :: gs =>
    if flg then
      let a := if g ≠ 0 ∧ gapLe g maxgap 0 then setRange a 0 g (a g) else a
      let e := (g :: gs).getLast (by simp)
      if e ≠ n ∧ gapLe (n - (e + 1)) maxgap 0 then setRange a e n (a e) else a
    else a

/-- Consecutive good positions at most `maxgap + 1` apart
(dolfyn/tools/misc.py:210, 261-262). -/
def gapPairs {α : Type*} (n : ℕ) (a : ℕ → Option α) (maxgap : Option ℚ) : List (ℕ × ℕ) :=
  let gd := goodIdx n a
  (gd.zip gd.tail).filter fun p => decide (1 < p.2 - p.1) && gapLe (p.2 - p.1) maxgap 1

/-- One pass of the main loop of `fillgaps` (dolfyn/tools/misc.py:211-215). -/
def fillStep (a : ℕ → Option K) (p : ℕ × ℕ) : ℕ → Option K :=
  let len := p.2 - p.1 - 1
  fun i => if p.1 < i ∧ i < p.2 then
      match a p.1, a p.2 with
      | some u, some v => some ((v - u) * ((i - (p.1 + 1) : ℕ) + 1) / (len + 1) + u)
      | _, _ => none
    else a i

/-- `fillgaps` (dolfyn/tools/misc.py:155-217) on a 1-D array. -/
def fillgaps (n : ℕ) (a : ℕ → Option K) (maxgap : Option ℚ) (flg : Bool) : ℕ → Option K :=
  (gapPairs n a maxgap).foldl fillStep (extrapEnds n a maxgap flg)

/-- One pass of the main loop of `interpgaps` (dolfyn/tools/misc.py:263-268); `t` is the
coordinate array, of the same length. -/
def interpStep [DecidableEq K] (t : ℕ → K) (a : ℕ → Option K) (p : ℕ × ℕ) : ℕ → Option K :=
  fun i => if p.1 < i ∧ i < p.2 then
      match a p.1, a p.2, npDiv (some (t i - t p.1)) (some (t p.2 - t p.1)) with
      | some u, some v, some w => some ((v - u) * w + u)
      | _, _, _ => none
    else a i

/-- `interpgaps` (dolfyn/tools/misc.py:222-271) on a 1-D array. -/
def interpgaps [DecidableEq K] (n : ℕ) (a : ℕ → Option K) (t : ℕ → K) (maxgap : Option ℚ)
    (flg : Bool) : ℕ → Option K :=
  (gapPairs n a maxgap).foldl (interpStep t) (extrapEnds n a maxgap flg)

/-- The backward extrapolation of `_fill_time_gaps` (dolfyn/time.py:248-251). -/
def timeStart (n : ℕ) (ep : ℕ → Option K) (dt : K) : Except Err (ℕ → Option K) :=
  if (ep 0).isNone then
    match goodIdx n ep with
    | [] => .error .indexError
    | i0 :: _ => .ok fun i => if i < i0 then (ep i0).map fun e => e + ((i : K) - i0) * dt else ep i
  else .ok ep

/-- The forward extrapolation of `_fill_time_gaps` (dolfyn/time.py:252-256). The negative index
`ie` counted from the end is written as the position `e = n + ie`. -/
def timeEnd (n : ℕ) (ep : ℕ → Option K) (dt : K) : Except Err (ℕ → Option K) :=
  if (ep (n - 1)).isNone then
    match (goodIdx n ep).reverse with
    | [] => .error .indexError
    | e :: _ =>
      .ok fun i => if e < i ∧ i < n then (ep e).map fun x => x + ((i - e : ℕ) : K) * dt else ep i
  else .ok ep

/-- `_fill_time_gaps` (dolfyn/time.py:239-258). With no valid time `[0][0]` raises IndexError,
and so does `epoch[0]` for an empty record. -/
def fillTimeGaps (n : ℕ) (epoch : ℕ → Option K) (fs : K) : Except Err (ℕ → Option K) :=
  if n = 0 then .error .indexError
  else
    let dt := 1 / fs
    let ep := fillgaps n epoch none false
    match timeStart n ep dt with
    | .error e => .error e
    | .ok ep => timeEnd n ep dt

end Dolfyn
