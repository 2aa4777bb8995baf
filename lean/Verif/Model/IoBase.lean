import Verif.Model.Py
import Mathlib.Data.Complex.Basic
import Mathlib.Data.List.Infix

/-!
Model of `dolfyn/io/base.py` (file type detection, trimming of trailing NaN) and of the file-name and
complex-variable handling of `dolfyn/io/api.py`.
-/

namespace Dolfyn

/-! ### File types -/

/-- Results of `_get_filetype`. -/
inductive FileType
  | rdi | signature | nortek | lfsPointer
  deriving DecidableEq, Repr

/-- `b'version https://git-lfs.github.com/spec/'`. -/
def lfsMagic : List ℕ := ("version https://git-lfs.github.com/spec/".toList).map Char.toNat

/-- `_get_filetype` (dolfyn/io/base.py:12-39) on the content of the file; bytes are numbers below 256. -/
def getFiletype (file : List ℕ) : Option FileType :=
  let bytes := file.take 40
  let code := bytes.take 2
  if code = [0x7f, 0x79] ∨ code = [0x7f, 0x7f] then some .rdi
  else if code = [0xa5, 0x0a] then some .signature
  else if code = [0xa5, 0x05] then some .nortek
  else if bytes = lfsMagic then some .lfsPointer
  else none

/-- The reader chosen by `read` (dolfyn/io/api.py:66-103). -/
def readDispatch (file : List ℕ) : Except Err FileType :=
  match getFiletype file with
  | some .lfsPointer => .error .ioError
  | none => .error .ioError
  | some t => .ok t

/-! ### File names -/

/-- `s.rsplit(c)[-1]`: what follows the last occurrence of `c`. -/
def afterLast (c : Char) (s : List Char) : List Char :=
  (s.reverse.takeWhile fun x => x != c).reverse

/-- `_check_file_ext` (dolfyn/io/api.py:13-23). -/
def checkFileExt (path ext : List Char) : Except Err (List Char) :=
  let filename := afterLast '/' (path.map fun c => if c = '\\' then '/' else c)
  let fileExt := afterLast '.' filename
  if '.' ∈ filename then
    if fileExt ≠ ext then .error .ioError else .ok path
  else .ok (path ++ '.' :: ext)

/-! ### Trailing NaN -/

/-- A data variable in the reader's dictionary: leading dimensions, length of the last dimension and
the values, with the leading dimensions flattened. -/
structure NVar where
  name : String
  lead : List ℕ
  len : ℕ
  row : ℕ → ℕ → Option ℝ

/-- `val in key` for the names `accel`, `angrt`, `mag`. -/
def isImuName (name : String) : Bool :=
  ["accel", "angrt", "mag"].any fun v => decide (v.toList <:+: name.toList)

/-- The samples a variable marks as bad in `_handle_nan` (dolfyn/io/base.py:92-103): only variables of
the length of `time` and with one or two dimensions; of the latter only the last row. -/
def nanMark (l : ℕ) (v : NVar) (t : ℕ) : Bool :=
  if isImuName v.name = true ∧ v.len = l then
    match v.lead with
    | [] => (v.row 0 t).isNone
    | [k] => (v.row (k - 1) t).isNone
    | _ => false
  else false

/-- The mask `nan` accumulated by `_handle_nan`. -/
def nanMask (l : ℕ) (time : ℕ → Option ℝ) (vars : List NVar) (t : ℕ) : Bool :=
  (time t).isNone || vars.any fun v => nanMark l v t

/-- `np.cumsum(nan)[-1]`: the number of marked samples. -/
def nanCount (l : ℕ) (time : ℕ → Option ℝ) (vars : List NVar) : ℕ :=
  (List.range l).countP fun t => nanMask l time vars t

/-- `_handle_nan` (dolfyn/io/base.py:80-110): the new length of `time` and the variables. -/
def handleNan (l : ℕ) (time : ℕ → Option ℝ) (vars : List NVar) : Except Err (ℕ × List NVar) :=
  if l = 0 then .error .indexError
  else
    let k := nanCount l time vars
    .ok (l - k, vars.map fun v => if v.len = l then { v with len := v.len - k } else v)

/-! ### Complex variables in netCDF files -/

/-- Array contents by kind; `T` indexes the elements. -/
inductive Arr (T : Type)
  | f64 (x : T → ℝ)
  | f32 (x : T → ℝ)
  | cplx (z : T → ℂ)

/-- The contents as complex numbers. -/
noncomputable def Arr.toC {T : Type} : Arr T → T → ℂ
  | .f64 x => fun t => (x t : ℂ)
  | .f32 x => fun t => (x t : ℂ)
  | .cplx z => z

/-- Data variables in order. -/
abbrev Vars (T : Type) := List (String × Arr T)

variable {T : Type}

/-- `ds[k] = v`. -/
def Vars.set (l : Vars T) (k : String) (v : Arr T) : Vars T :=
  if k ∈ l.map Prod.fst then l.map fun p => if p.1 = k then (k, v) else p else l ++ [(k, v)]

/-- `ds.drop_vars(k)`. -/
def Vars.drop (l : Vars T) (k : String) : Vars T := l.filter fun p => p.1 ≠ k

/-- `ds[k]`. -/
def Vars.get (l : Vars T) (k : String) : Option (Arr T) := (l.find? fun p => p.1 = k).map Prod.snd

/-- One pass of the loop of `save` (dolfyn/io/api.py:165-177). The loop runs over the variables of the
dataset as it was given; `r32` is the rounding to float32. -/
noncomputable def saveStep (r32 : ℝ → ℝ) (s : Vars T × List String) (var : String) :
    Vars T × List String :=
  match s.1.get var with
  | some (.cplx z) =>
    (((s.1.set (var ++ "_real") (.f64 fun t => (z t).re)).set
      (var ++ "_imag") (.f64 fun t => (z t).im)).drop var, s.2 ++ [var])
  | some (.f64 x) => (s.1.set var (.f32 fun t => r32 (x t)), s.2)
  | _ => s

/-- The value of the attribute `complex_vars` after a netCDF round trip: a list with one string comes
back as that string. -/
inductive NcAttr
  | str (s : String)
  | list (l : List String)

/-- A list of strings as netCDF attribute. -/
def ncAttr : List String → NcAttr
  | [s] => .str s
  | l => .list l

/-- `save` (dolfyn/io/api.py:136-204), the variables and the attribute `complex_vars` in the file. The
netCDF library is trusted to store arrays unchanged. -/
noncomputable def saveNc (r32 : ℝ → ℝ) (ds : Vars T) : Vars T × NcAttr :=
  let s := (ds.map Prod.fst).foldl (saveStep r32) (ds, [])
  (s.1, ncAttr s.2)

/-- One pass of the loop of `load` (dolfyn/io/api.py:243-245). -/
noncomputable def loadStep (s : Vars T) (var : String) : Except Err (Vars T) :=
  match s.get (var ++ "_real"), s.get (var ++ "_imag") with
  | some a, some b =>
    .ok (((s.set var (.cplx fun t => a.toC t + b.toC t * Complex.I)).drop (var ++ "_real")).drop
      (var ++ "_imag"))
  | _, _ => .error .keyError

/-- `load` (dolfyn/io/api.py:207-249). For a list attribute whose first name has one letter the list is
wrapped in another list, and concatenating a list with a string raises TypeError. The test
`len(complex_vars)` of an empty string is false as well. -/
noncomputable def loadNc (f : Vars T × NcAttr) : Except Err (Vars T) :=
  match f.2 with
  | .str s => if s.length = 0 then .ok f.1 else loadStep f.1 s
  | .list [] => .ok f.1
  | .list (a :: l) =>
    if a.length = 1 then .error .typeError
    else (a :: l).foldlM loadStep f.1

end Dolfyn
