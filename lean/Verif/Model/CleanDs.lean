import Verif.Model.Clean
import Verif.Model.Psd

/-!
`nan_beyond_surface` on a whole dataset (dolfyn/adp/clean.py:181-246): which variables it goes
through, how the mask is laid over their last two axes, and what is left of the caller's dataset
when it raises.
-/

namespace Dolfyn

/-- One variable of a profiler dataset. `data` is indexed by the list of the indices along the axes
of `shape`. `own` holds the distances of the range dimension the variable runs over (the code does
not look at them except for `range` and `range_echo`). -/
structure ProfVar where
  name : String
  dims : List String
  shape : List ℕ
  isFloat : Bool
  data : List ℕ → Option ℝ
  own : ℕ → ℝ

/-- `any(s for s in ds[h].dims if 'range' in s)` (dolfyn/adp/clean.py:210). -/
def ProfVar.overRange (v : ProfVar) : Bool := v.dims.any (strIn "range")

open Classical in
/-- `a[..., mask] = w` for a mask of shape `(nr, nt)`: numpy wants the last two axes to have the
shape of the mask and raises IndexError otherwise. -/
noncomputable def ellipsisSet (nr nt : ℕ) (bad : ℕ → ℕ → Prop) (w : Option ℝ)
    (v : ProfVar) : Except Err ProfVar :=
  if v.shape.drop (v.shape.length - 2) = [nr, nt] then
    .ok { v with data := fun ix =>
            match ix.drop (ix.length - 2) with
            | [c, t] => if bad c t then w else v.data ix
            | _ => v.data ix }
  else .error .indexError

/-- The dataset as `nan_beyond_surface` sees it: its variables in order, the coordinates `range`
(`nr` cells), `range_echo` (`nre` cells) and `time` (`nt` profiles), the variable `depth` and the
attributes. -/
structure SurfDs where
  vars : List ProfVar
  nr : ℕ
  nt : ℕ
  nre : ℕ
  range : ℕ → ℝ
  rangeEcho : Option (ℕ → ℝ)
  depth : Option (ℕ → Option ℝ)
  beamAngle : Option ℝ
  hDeploy : Option ℝ
  cellSize : Option ℝ

open Classical in
/-- The loop over the variables other than `echo` (dolfyn/adp/clean.py:237-243). It writes into the
dataset as it goes; at the first variable the mask does not fit it raises (the `except` branch
raises the same IndexError), and the variables before it stay changed. -/
noncomputable def surfLoop (nr nt : ℕ) (bad : ℕ → ℕ → Prop) (val : Option ℝ) :
    List ProfVar → List ProfVar × Option Err
  | [] => ([], none)
  | v :: vs =>
    if v.overRange && v.name != "echo" then
      match ellipsisSet nr nt bad (if v.isFloat then val else some (val.getD 0)) v with
      | .error e => (v :: vs, some e)
      | .ok v' => let r := surfLoop nr nt bad val vs; (v' :: r.1, r.2)
    else let r := surfLoop nr nt bad val vs; (v :: r.1, r.2)

open Classical in
/-- The variable `echo` (dolfyn/adp/clean.py:232-234): cut at the surface itself, outside of the
`try`, so that NaN into an integer array raises ValueError. -/
noncomputable def surfEcho (nre nt : ℕ) (rangeEcho : Option (ℕ → ℝ)) (depth : ℕ → Option ℝ)
    (val : Option ℝ) : List ProfVar → Except Err (List ProfVar)
  | [] => .ok []
  | v :: vs =>
    if v.overRange && v.name == "echo" then
      match rangeEcho with
      | none => .error .attributeError
      | some re =>
        if v.isFloat = false ∧ val = none then .error .valueError
        else match ellipsisSet nre nt (fun c t => ∃ d, depth t = some d ∧ d < re c) val v with
          | .error e => .error e
          | .ok v' => .ok (v' :: vs)
    else match surfEcho nre nt rangeEcho depth val vs with
      | .error e => .error e
      | .ok vs' => .ok (v :: vs')

/-- The body of `nan_beyond_surface` (dolfyn/adp/clean.py:209-243): the dataset worked on after the
call, and the exception if there is one. -/
noncomputable def surfBody (val supplied : Option ℝ) (ds : SurfDs) : SurfDs × Option Err :=
  match ds.depth, ds.cellSize with
  | some depth, some cell =>
    match surfaceLimit supplied ds.beamAngle ds.hDeploy 0 cell with
    | .error e => (ds, some e)
    | .ok _ =>
      match surfEcho ds.nre ds.nt ds.rangeEcho depth val ds.vars with
      | .error e => (ds, some e)
      | .ok vs =>
        let r := surfLoop ds.nr ds.nt (fun c t => ∃ d lim, depth t = some d ∧
          surfaceLimit supplied ds.beamAngle ds.hDeploy d cell = .ok lim ∧ lim < ds.range c) val vs
        ({ ds with vars := r.1 }, r.2)
  | _, _ =>
    match supplied, ds.beamAngle with
    | none, none => (ds, some .exception)
    | _, _ => (ds, some .attributeError)

/-- A call of `nan_beyond_surface` (dolfyn/adp/clean.py:181-246): the caller's dataset afterwards,
and what is returned or raised. -/
noncomputable def nanBeyondSurface (inplace : Bool) (val supplied : Option ℝ) (ds : SurfDs) :
    SurfDs × Except Err (Option SurfDs) :=
  let r := surfBody val supplied ds
  match r.2 with
  | some e => (if inplace then r.1 else ds, .error e)
  | none => if inplace then (r.1, .ok none) else (ds, .ok (some r.1))

/-- `set_range_offset` on such a dataset (dolfyn/adp/clean.py:43-50). -/
noncomputable def rangeOffsetDs (h : ℝ) (ds : SurfDs) : SurfDs :=
  { ds with
    range := fun c => ds.range c + h
    rangeEcho := ds.rangeEcho.map fun r c => r c + h
    vars := ds.vars.map fun v => { v with own := fun c => v.own c + h }
    hDeploy := some (match ds.hDeploy with | some x => x + h | none => h) }

end Dolfyn
