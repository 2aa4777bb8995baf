import Verif.Model.CreateDs
import Mathlib.Data.Rat.Defs

/-!
Model of the userdata file: `_find_userdata`, `_read_userdata` (dolfyn/io/base.py:42-77) and its use in
`read_nortek` (dolfyn/io/nortek.py:79-88), `read_signature` (dolfyn/io/nortek2.py:89-95) and `read_rdi`
(dolfyn/io/rdi.py:66-71).

Simplifications: a file holds a JSON object with distinct names; `json.load` is trusted.
-/

namespace Dolfyn

/-- Values in the userdata file; `eye` and `array` are what `_read_userdata` makes of matrices. -/
inductive JVal
  | str (s : Key)
  | num (q : ℚ)
  | list (l : List JVal)
  | eye
  | array (v : JVal)

/-- A dictionary. -/
abbrev JDict := List (Key × JVal)

/-- `d[k]`. -/
def JDict.get (d : JDict) (k : Key) : Option JVal := (d.find? fun p => p.1 = k).map Prod.snd

/-- `d.pop(k)`. -/
def JDict.del (d : JDict) (k : Key) : JDict := d.filter fun p => p.1 ≠ k

/-- `d[k] = v`. -/
def JDict.set (d : JDict) (k : Key) (v : JVal) : JDict :=
  if d.any fun p => p.1 = k then d.map fun p => if p.1 = k then (k, v) else p else d ++ [(k, v)]

/-- The renaming of a deprecated name (dolfyn/io/base.py:62-68): `'inst' + nm[4:]`. -/
def renameKey (d : JDict) (nm : String) : JDict :=
  match d.get nm.toList with
  | none => d
  | some v => (d.del nm.toList).set ("inst".toList ++ nm.toList.drop 4) v

/-- `data['inst2head_rotmat'] in ['identity', 'eye', 1, 1.]`. -/
def isIdentity : JVal → Bool
  | .str s => decide (s = "identity".toList ∨ s = "eye".toList)
  | .num q => decide (q = 1)
  | _ => false

/-- `list(v)`. -/
def toListVal : JVal → Except Err JVal
  | .str s => .ok (.list (s.map fun c => .str [c]))
  | .list l => .ok (.list l)
  | _ => .error .typeError

/-- The rotation matrix (dolfyn/io/base.py:69-73). -/
def fixRotmat (d : JDict) : JDict :=
  match d.get "inst2head_rotmat".toList with
  | none => d
  | some v => d.set "inst2head_rotmat".toList (if isIdentity v then .eye else .array v)

/-- `_read_userdata` on the contents of the file (dolfyn/io/base.py:60-77). -/
def readUserdata (d0 : JDict) : Except Err JDict :=
  let d2 := fixRotmat (renameKey (renameKey d0 "body2head_rotmat") "body2head_vec")
  match d2.get "inst2head_vec".toList with
  | none => .ok d2
  | some (.list _) => .ok d2
  | some v =>
    match toListVal v with
    | .error e => .error e
    | .ok l => .ok (d2.set "inst2head_vec".toList l)

/-- The `userdata` argument. -/
inductive UArg
  | none | bool (b : Bool) | path (p : Key)

/-- `bool(userdata)`. -/
def UArg.truthy : UArg → Bool
  | .none => false
  | .bool b => b
  | .path p => decide (p ≠ [])

/-- `filename.rsplit('.', 1)[0]`. -/
def dropExt (f : Key) : Key :=
  if '.' ∈ f then f.take (f.length - (afterLast '.' f).length - 1) else f

/-- `open(fname)` and `json.load`; `files` are the files there are. -/
def openUserdata (files : Key → Option JDict) (p : Key) : Except Err JDict :=
  match files p with
  | none => .error .fileNotFound
  | some d => readUserdata d

/-- `_find_userdata` (dolfyn/io/base.py:42-53). -/
def findUserdata (files : Key → Option JDict) (filename : Key) (arg : UArg) : Except Err JDict :=
  if arg.truthy then
    match files (dropExt filename ++ ".userdata.json".toList) with
    | some d => readUserdata d
    | none =>
      match files (filename ++ ".userdata.json".toList) with
      | some d => readUserdata d
      | none => .ok []
  else match arg with
    | .path p => openUserdata files p
    | _ => .ok []

/-- What the reader does with the userdata: the rotation matrix and the declination to apply, and the new
attributes. -/
structure UserUse where
  rotmat : Option JVal
  declin : Option JVal
  attrs : JDict

/-- One entry in `read_nortek` (dolfyn/io/nortek.py:82-88). -/
def useNortek (u : UserUse) (p : Key × JVal) : UserUse :=
  if keyIn "rotmat" p.1 then { u with rotmat := some p.2 }
  else if keyIn "dec" p.1 then { u with declin := some p.2 }
  else { u with attrs := u.attrs.set p.1 p.2 }

/-- One entry in `read_signature` (dolfyn/io/nortek2.py:91-95). -/
def useSignature (u : UserUse) (p : Key × JVal) : UserUse :=
  if keyIn "dec" p.1 then { u with declin := some p.2 }
  else { u with attrs := u.attrs.set p.1 p.2 }

/-- The loop over the userdata. -/
def applyUserdata (step : UserUse → Key × JVal → UserUse) (attrs : JDict) (d : JDict) : UserUse :=
  d.foldl step ⟨none, none, attrs⟩

end Dolfyn
