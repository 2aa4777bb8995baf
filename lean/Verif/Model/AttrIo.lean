import Verif.Model.Py
import Mathlib.Data.Rat.Init

/-!
Model of the attributes of a dataset through `save` and `load` (dolfyn/io/api.py:198-235) and of the loops over
`rotate_vars` (dolfyn/rotate/vector.py:113).

The netCDF library is trusted to store attributes as it does: numbers and texts unchanged, arrays with two or more
numbers as arrays, lists of two or more texts as lists, and anything with one element as that element. An empty list
comes back as an empty array. `complex_vars` is the subject of `Model/IoBase.lean`.
-/

namespace Dolfyn

/-- The value of an attribute: number, text, list of numbers, list of texts, numpy array. -/
inductive AttrVal
  | num (x : ℚ)
  | text (s : String)
  | nums (l : List ℚ)
  | texts (l : List String)
  | arr (l : List ℚ)
  deriving DecidableEq

/-- What the netCDF library gives back for an attribute. -/
def ncStored : AttrVal → AttrVal
  | .num x => .num x
  | .text s => .text s
  | .nums [x] => .num x
  | .nums l => .arr l
  | .texts [s] => .text s
  | .texts [] => .arr []
  | .texts l => .texts l
  | .arr [x] => .num x
  | .arr l => .arr l

/-- One pass of the loop of `load` over the attributes (dolfyn/io/api.py:230-234). -/
def loadAttr (nm : String) (v : AttrVal) : AttrVal :=
  match v with
  | .arr l => if l.length > 1 then .nums l else .arr l
  | .text s => if nm ∈ ["rotate_vars"] then .texts [s] else .text s
  | v => v

/-- The attribute after saving and loading. -/
def attrLoaded (nm : String) (v : AttrVal) : AttrVal := loadAttr nm (ncStored v)

/-- The names that `for nm in rotate_vars` runs through; a text gives its letters, and a number or an array of numbers
gives no names (`TypeError` for a number, numbers that are not names for an array). -/
def attrNames : AttrVal → Except Err (List String)
  | .texts l => .ok l
  | .text s => .ok (s.toList.map fun ch => String.ofList [ch])
  | .arr [] => .ok []
  | .nums [] => .ok []
  | .num _ => .error .typeError
  | _ => .error .keyError

end Dolfyn
