import Verif.Model.Rotate

/-!
`rotate2` on a dataset whose attribute `rotate_vars` is missing. `_check_rotate_vars` (dolfyn/rotate/base.py:28-37) warns
and takes `['vel']`; it is called by all functions between instrument, earth and principal coordinates
(vector.py:82, 160, signature.py:44, rdi.py:47), but not by `_beam2inst`, which reads the attribute itself
(base.py:130-131). The field `vars` of the dataset holds the variables of the default list, that is `vel`; no other
variable is touched.
-/

namespace Dolfyn

noncomputable section

variable {T : Type}

/-- `base._beam2inst` (dolfyn/rotate/base.py:99-144) without the attribute: the frame is checked, the matrix fetched, and
`dat.rotate_vars` raises. -/
def beam2instBaseNoList (reverse : Bool) (ds : RDS T) : Except Err (RDS T) := do
  if reverse = false ∧ ds.coordSys ≠ .beam then throw .valueError
  if reverse = true ∧ ds.coordSys ≠ .inst then throw .valueError
  match ds.beam2inst with
  | none => throw .keyError
  | some _ => throw .attributeError

/-- `_beam2inst` of each instrument module (vector.py:7-26; awac.py:2, signature.py:2, rdi.py:4) without the attribute. -/
def beam2instNoList (reverse : Bool) (ds : RDS T) : Except Err (RDS T) :=
  match ds.inst with
  | .vector =>
    if reverse then do
      let ds ← rotateInst2head true ds
      beam2instBaseNoList true ds
    else do
      let ds ← beam2instBaseNoList false ds
      rotateInst2head false ds
  | _ => beam2instBaseNoList reverse ds

/-- The module function of one link (dolfyn/rotate/api.py:112-115) without the attribute. -/
def linkFunNoList (i : ℤ) (reverse : Bool) (ds : RDS T) : Except Err (RDS T) :=
  if i = 0 then beam2instNoList reverse ds else linkFun i reverse ds

/-- The `while` loop of `rotate2` (dolfyn/rotate/api.py:107-116) without the attribute. -/
def rotateLoopNoList (reverse : Bool) (out : Frame) : ℕ → RDS T → Option (Except Err (RDS T))
  | 0, ds => if ds.coordSys = out then some (.ok ds) else none
  | fuel + 1, ds =>
    if ds.coordSys = out then some (.ok ds)
    else match chainIndex (shipAsInst ds.coordSys) with
      | none => some (.error .valueError)
      | some inow =>
        match linkFunNoList (if reverse then (inow : ℤ) - 1 else inow) reverse ds with
        | .error e => some (.error e)
        | .ok ds' => rotateLoopNoList reverse out fuel ds'

/-- `rotate2` (dolfyn/rotate/api.py:25-119) without the attribute. -/
def rotate2NoList (fuel : ℕ) (out : Frame) (ds : RDS T) : Option (Except Err (RDS T)) :=
  match checkInst2head ds with
  | .error e => some (.error e)
  | .ok _ =>
    if ds.inst = .unknown then some (.error .valueError)
    else match chainIndex (shipAsInst ds.coordSys) with
      | none => some (.error .exception)
      | some iin =>
        match chainIndex out with
        | none => some (.error .exception)
        | some iout => rotateLoopNoList (decide (¬ iin < iout)) out fuel ds

end

end Dolfyn
