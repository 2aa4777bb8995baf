import Verif.Model.CreateDs

/-! Model of `_set_coords` (dolfyn/rotate/base.py:40-96): the labels of the `dir` dimension. -/

namespace Dolfyn

/-- The make and model string tests of `_set_coords` (dolfyn/rotate/base.py:54-70). -/
inductive LbMake
  | rdi
  | nortek4
  | nortek3
  | other
  deriving DecidableEq, Repr

/-- `'rdi' in make`, `'nortek' in make`, `'signature' in make or ...` (dolfyn/rotate/base.py:54-67); the argument is
the lower-case make and model string of `_make_model` (:8-13). -/
def lbMake (make : Key) : LbMake :=
  if keyIn "rdi" make then .rdi
  else if keyIn "nortek" make then
    if keyIn "signature" make || keyIn "ad2cp" make || keyIn "vectrino" make then .nortek4 else .nortek3
  else .other

/-- Labels of the components in the frames `inst`, `earth` and `principal` (dolfyn/rotate/base.py:48-67). For other
makes the names are unbound. -/
def lbLabels : LbMake → Except Err (List String × List String × List String)
  | .rdi => .ok (["X", "Y", "Z", "err"], ["E", "N", "U", "err"], ["streamwise", "x-stream", "vert", "err"])
  | .nortek4 => .ok (["X", "Y", "Z1", "Z2"], ["E", "N", "U1", "U2"], ["streamwise", "x-stream", "vert1", "vert2"])
  | .nortek3 => .ok (["X", "Y", "Z"], ["E", "N", "U"], ["streamwise", "x-stream", "vert"])
  | .other => .error .unboundLocal

/-- The `dir` labels, the `dirIMU` labels and `attrs['coord_sys']` after `_set_coords(ds, ref_frame, forced)`. `nb` is
the length of the `dir` and `beam` dimensions; labels of another length are refused by xarray (ValueError). -/
def setCoords (make : Key) (nb : ℕ) (frame : String) (forced : Bool) :
    Except Err (List String × List String × String) := do
  let (inst, earth, princ) ← lbLabels (lbMake make)
  let beam := (List.range nb).map fun i : ℕ => toString (i + 1)
  let key := if forced then frame ++ "-forced" else frame
  let dir ← if key = "beam" then .ok beam else if key = "inst" then .ok inst else if key = "ship" then .ok inst
    else if key = "earth" then .ok earth else if key = "principal" then .ok princ
    else .error .keyError
  let imu := if key = "earth" then ["E", "N", "U"]
    else if key = "principal" then ["streamwise", "x-stream", "vert"] else ["X", "Y", "Z"]
  if dir.length ≠ nb then .error .valueError else .ok (dir, imu, key)

end Dolfyn
