import Verif.Model.CreateDs
import Mathlib.Data.Rat.Defs

/-!
Model of the file header of AD2CP files: `_read_filehead_config_string` (dolfyn/io/nortek2.py:177-210), and of
the settings taken from it by `_reduce` (dolfyn/io/nortek2.py:593-663).

Simplifications: the text is given as its lines (`decode` and `splitlines` are trusted); `int(text)` and
`float(text)` are parameters that give `none` where Python raises `ValueError`. In `_reduce`, the averaging of
the beam-5 variables is in Model/Ad2cp.lean; here only the coordinates and settings are modelled.
-/

namespace Dolfyn

/-- `d[k]` of an insertion-ordered dictionary. -/
def pget {α : Type*} (d : List (Key × α)) (k : Key) : Option α := (d.find? fun p => p.1 = k).map Prod.snd

/-- `d[k] = v` of an insertion-ordered dictionary. -/
def pset {α : Type*} (d : List (Key × α)) (k : Key) (v : α) : List (Key × α) :=
  if d.any fun p => p.1 = k then d.map fun p => if p.1 = k then (k, v) else p else d ++ [(k, v)]

/-- `s.split(c, 1)` where `c` occurs; otherwise `none` (the unpacking raises `ValueError`). -/
def splitFirst (c : Char) : Key → Option (Key × Key)
  | [] => none
  | x :: r => if x = c then some ([], r) else (splitFirst c r).map fun p => (x :: p.1, p.2)

/-- `s.split(c)`. -/
def splitAll (c : Char) : Key → List Key
  | [] => [[]]
  | x :: r =>
    if x = c then [] :: splitAll c r
    else match splitAll c r with
      | [] => [[x]]
      | h :: t => (x :: h) :: t

/-- The text after a command: a single one, or all of them when the command is repeated. -/
inductive HRaw
  | one (s : Key)
  | many (l : List Key)
  deriving DecidableEq

/-- The value of an item. -/
inductive HVal
  | int (z : ℤ)
  | flt (q : ℚ)
  | text (s : Key)
  deriving DecidableEq

/-- An entry of the result. -/
inductive HOut
  | raw (r : HRaw)
  | items (l : List (Key × HVal))
  deriving DecidableEq

/-- One line (dolfyn/io/nortek2.py:183-191). -/
def hdLine (out : List (Key × HRaw)) (ln : Key) : Except Err (List (Key × HRaw)) :=
  match splitFirst ',' ln with
  | none => .error .valueError
  | some (ky, val) =>
    match pget out ky with
    | none => .ok (pset out ky (.one val))
    | some (.one t) => .ok (pset out ky (.many [t, val]))
    | some (.many l) => .ok (pset out ky (.many (l ++ [val])))

/-- All lines. -/
def hdLines : List (Key × HRaw) → List Key → Except Err (List (Key × HRaw))
  | out, [] => .ok out
  | out, ln :: r =>
    match hdLine out ln with
    | .error e => .error e
    | .ok out' => hdLines out' r

/-- The value of an item: an integer, else a float, else the text (dolfyn/io/nortek2.py:200-206). -/
def hdVal (pInt : Key → Option ℤ) (pFloat : Key → Option ℚ) (v : Key) : HVal :=
  match pInt v with
  | some z => .int z
  | none => match pFloat v with
    | some q => .flt q
    | none => .text v

/-- The items of one command (dolfyn/io/nortek2.py:198-207). -/
def hdItems (pInt : Key → Option ℤ) (pFloat : Key → Option ℚ) :
    List (Key × HVal) → List Key → Except Err (List (Key × HVal))
  | d, [] => .ok d
  | d, itm :: r =>
    match splitAll '=' itm with
    | [k, v] => hdItems pInt pFloat (pset d k (hdVal pInt pFloat v)) r
    | _ => .error .valueError

/-- `ky.startswith('GET')`. -/
def isGet (ky : Key) : Bool := "GET".toList.isPrefixOf ky

/-- `ky.lstrip('GET')`: all leading letters among `G`, `E`, `T` are removed. -/
def lstripGet (ky : Key) : Key := ky.dropWhile fun c => c = 'G' || c = 'E' || c = 'T'

/-- One entry of the second loop (dolfyn/io/nortek2.py:194-209). A list has no `split`. -/
def hdEntry (pInt : Key → Option ℤ) (pFloat : Key → Option ℚ) (ky : Key) (v : HRaw) :
    Except Err (Key × HOut) :=
  if isGet ky then
    match v with
    | .many _ => .error .attributeError
    | .one dat =>
      match hdItems pInt pFloat [] (splitAll ',' dat) with
      | .error e => .error e
      | .ok d => .ok (lstripGet ky, .items d)
  else .ok (ky, .raw v)

/-- The second loop. -/
def hdOut (pInt : Key → Option ℤ) (pFloat : Key → Option ℚ) :
    List (Key × HOut) → List (Key × HRaw) → Except Err (List (Key × HOut))
  | out2, [] => .ok out2
  | out2, (ky, v) :: r =>
    match hdEntry pInt pFloat ky v with
    | .error e => .error e
    | .ok (k2, o) => hdOut pInt pFloat (pset out2 k2 o) r

/-- `_read_filehead_config_string` (dolfyn/io/nortek2.py:177-210). -/
def readHead (pInt : Key → Option ℤ) (pFloat : Key → Option ℚ) (lines : List Key) :
    Except Err (List (Key × HOut)) :=
  match hdLines [] lines with
  | .error e => .error e
  | .ok out => hdOut pInt pFloat [] out

/-! ### Settings -/

/-- `(np.arange(n) + 1) * cell_size + blank_dist` (dolfyn/io/nortek2.py:614-616). -/
def adRange (n : ℕ) (cell blank : ℚ) : List ℚ := (List.range n).map fun i : ℕ => ((i : ℚ) + 1) * cell + blank

/-- `cfg[cmd][itm]`. A missing command or item raises `KeyError`; indexing text with a name `TypeError`. -/
def headItem (cfg : List (Key × HOut)) (cmd itm : String) : Except Err HVal :=
  match pget cfg cmd.toList with
  | none => .error .keyError
  | some (.raw _) => .error .typeError
  | some (.items d) =>
    match pget d itm.toList with
    | none => .error .keyError
    | some v => .ok v

/-- A number as `numpy` stores it in a float array. -/
def HVal.num : HVal → Except Err ℚ
  | .int z => .ok z
  | .flt q => .ok q
  | .text _ => .error .valueError

/-- A count for `np.zeros`, `range`. -/
def HVal.count : HVal → Except Err ℕ
  | .int z => if 0 ≤ z then .ok z.toNat else .error .valueError
  | _ => .error .typeError

/-- `'M' + str(irow + 1) + str(icol + 1)`. -/
def matName (i j : ℕ) : String := "M" ++ toString (i + 1) ++ toString (j + 1)

/-- The beam matrix (dolfyn/io/nortek2.py:652-656). -/
def headMat (cfg : List (Key × HOut)) (cmd : String) : Except Err (List (List ℚ)) := do
  let r ← headItem cfg cmd "ROWS" >>= HVal.count
  let c ← headItem cfg cmd "COLS" >>= HVal.count
  (List.range r).mapM fun i => (List.range c).mapM fun j => headItem cfg cmd (matName i j) >>= HVal.num

/-- The data that `_reduce` looks at: number of cells, cell size and blanking distance of burst, averaged,
fifth-beam and echo profiles. -/
structure AdProfiles where
  burst : Option (ℕ × ℚ × ℚ)
  avg : Option (ℕ × ℚ × ℚ)
  b5 : Option (ℕ × ℚ × ℚ)
  echo : Option (ℕ × ℚ × ℚ)

/-- The coordinates and settings. -/
structure AdSettings where
  range : Option (List ℚ)
  rangeAvg : Option (List ℚ)
  rangeB5 : Option (List ℚ)
  rangeEcho : Option (List ℚ)
  fs : HVal
  beam2inst : List (List ℚ)

/-- The burst plan (dolfyn/io/nortek2.py:613-618): rate and command with the matrix. -/
def burstPlan (cfg : List (Key × HOut)) (p : AdProfiles) : Except Err (Option (HVal × String)) :=
  match p.burst with
  | none => .ok none
  | some _ => do
    let sr ← headItem cfg "BURST" "SR"
    match pget cfg "XFBURST".toList with
    | none => .error .keyError
    | some _ => pure (some (sr, "XFBURST"))

/-- The averaging plan (dolfyn/io/nortek2.py:619-628). -/
def avgPlan (cfg : List (Key × HOut)) (p : AdProfiles) (prev : Option (HVal × String)) :
    Except Err (Option (HVal × String)) :=
  match p.avg with
  | none => .ok prev
  | some _ =>
    match pget cfg "XFAVG".toList with
    | none => .error .keyError
    | some _ => do
      let fs ← headItem cfg "PLAN" "MIAVG"
      let _ ← headItem cfg "AVG" "AI"
      let _ ← headItem cfg "AVG" "BW"
      pure (some (fs, "XFAVG"))

/-- The coordinates and settings made by `_reduce` (dolfyn/io/nortek2.py:613-656). Without burst and averaged
profiles the matrix is never bound. -/
def adReduce (cfg : List (Key × HOut)) (p : AdProfiles) : Except Err AdSettings := do
  let a ← burstPlan cfg p
  let b ← avgPlan cfg p a
  match b with
  | none => .error .unboundLocal
  | some (fs, cmd) =>
    let tm ← headMat cfg cmd
    pure { range := p.burst.map fun q => adRange q.1 q.2.1 q.2.2
           rangeAvg := p.avg.map fun q => adRange q.1 q.2.1 q.2.2
           rangeB5 := p.b5.map fun q => adRange q.1 q.2.1 q.2.2
           rangeEcho := p.echo.map fun q => adRange q.1 q.2.1 q.2.2
           fs := fs
           beam2inst := tm }

end Dolfyn
