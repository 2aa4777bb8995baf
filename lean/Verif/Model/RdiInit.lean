import Verif.Model.Rdi
import Mathlib.Algebra.Order.Floor.Ring
import Mathlib.Data.Rat.Floor

/-!
Model of `_RDIReader.__init__` (dolfyn/io/rdi.py:193-254): the first header, the data types in it, and the
estimate of the number of ensembles in the file.
-/

namespace Dolfyn

/-- Outcome of `read_hdr` (dolfyn/io/rdi.py:256-277): an exception, `False` at the end of the file, or a
header; always with `_pos`, and with the position of the file where it matters. -/
inductive RdHdrOut
  | err (e : Err) (hpos : ℤ)
  | eof (pos hpos : ℤ)
  | found (pos hpos : ℤ) (ndat : ℕ) (offs : List ℤ)
  deriving DecidableEq, Repr

/-- `read_hdr` at position `p` with `_pos = hpos`; `none` if the fuel does not suffice. -/
def rdReadHdr (bs : List ℕ) (fuel : ℕ) (p hpos : ℤ) : Option RdHdrOut :=
  match rdBytes bs p 2 with
  | .error e => some (.err e hpos)
  | .ok none => some (.err .typeError hpos)
  | .ok (some c) =>
    match rdHdrLoop bs fuel (c.getD 0 0) (c.getD 1 0) (p + 2) with
    | none => none
    | some (.error e) => some (.err e hpos)
    | some (.ok (false, q)) => some (.eof q hpos)
    | some (.ok (true, q)) =>
      match rdHdrRaw bs q with
      | .error e => some (.err e (q - 2))
      | .ok (_, ndat, offs, q') => some (.found q' (q - 2) ndat offs)

/-- The loop of `code_spacing` (dolfyn/io/rdi.py:241-246): up to `k` further headers; the result is `_pos`
and the last value of `i`. Every exception ends the loop; `False` does not. -/
def rdSpacingLoop (bs : List ℕ) (fuel : ℕ) : ℕ → ℕ → ℤ → ℤ → Option (ℤ × ℕ)
  | 0, i, _, hpos => some (hpos, i - 1)
  | k + 1, i, p, hpos =>
    match rdReadHdr bs fuel p hpos with
    | none => none
    | some (.err _ hp) => some (hp, i)
    | some (.eof q hp) => rdSpacingLoop bs fuel k (i + 1) q hp
    | some (.found q hp _ _) => rdSpacingLoop bs fuel k (i + 1) q hp

/-- `size = (self._pos - p0) / (i+1) * 0.995` with `p0 = 0` (dolfyn/io/rdi.py:248). -/
def rdSize (hpos : ℤ) (i : ℕ) : ℚ := (hpos : ℚ) / (i + 1) * (995 / 1000)

/-- `self._npings = int(self._filesize / (space + 2))` (dolfyn/io/rdi.py:209). -/
def rdNpings (filesize : ℕ) (space : ℚ) : ℤ := ⌊(filesize : ℚ) / (space + 2)⌋

/-- `self.id_positions[id] = offset`. -/
def dictPut (id : ℕ) (o : ℤ) : List (ℕ × ℤ) → List (ℕ × ℤ)
  | [] => [(id, o)]
  | (i, x) :: r => if i = id then (i, o) :: r else (i, x) :: dictPut id o r

/-- The loop of `check_for_double_buffer` (dolfyn/io/rdi.py:290-306); the Boolean is `found`. `d` is
`pos - dat_offsets[0]`. Simplification: an identifier behind the end of the file raises. -/
def rdDoubleLoop (bs : List ℕ) (d : ℤ) : List ℤ → Bool → RdState → Except Err (Bool × RdState)
  | [], fnd, s => .ok (fnd, s)
  | o :: os, fnd, s =>
    if o + d < 0 then .error .ioError
    else
      match rdNeed bs (o + d) 2 with
      | .error e => .error e
      | .ok c =>
        let id := leNat c
        let s1 := { s with pos := o + d + 2, idPos := dictPut id o s.idPos }
        if id = 1 then
          match rdFixed bs true s1 with
          | .error e => .error e
          | .ok s2 => rdDoubleLoop bs d os true s2
        else if id = 0 then
          match rdFixed bs false s1 with
          | .error e => .error e
          | .ok s2 => rdDoubleLoop bs d os fnd s2
        else if id = 16 then
          match rdFixedSl bs s1 with
          | .error e => .error e
          | .ok s2 => rdDoubleLoop bs d os fnd s2
        else if id = 8192 then rdDoubleLoop bs d os fnd { s1 with vmdasSearch := true }
        else rdDoubleLoop bs d os fnd s1

/-- The reader before the first header. -/
def rdBlank : RdState :=
  ⟨0, 0, 0, false, 0, false, false, none, none, none, none, none, none, 0, []⟩

/-- Making the ensembles and going back to the start (dolfyn/io/rdi.py:214-221). -/
def rdMake (fnd : Bool) (s : RdState) : Except Err RdState :=
  match s.cfg with
  | none => .error .keyError
  | some f =>
    if fnd then
      match s.cfgbb with
      | none => .error .keyError
      | some g => .ok { s with pos := 0, ens := some (f.nCells, -1), ensBB := some (g.nCells, -1) }
    else .ok { s with pos := 0, ens := some (f.nCells, -1) }

/-- `_RDIReader.__init__` (dolfyn/io/rdi.py:193-229) with the default options: the reader and
`_npings`. -/
def rdInit (bs : List ℕ) (fuel : ℕ) : Option (Except Err (RdState × ℤ)) :=
  match rdReadHdr bs fuel 0 0 with
  | none => none
  | some (.err e _) => some (.error e)
  | some (.eof _ _) => some (.error .runtimeError)
  | some (.found q hp ndat offs) =>
    if ndat < 2 ∨ offs = [] then some (.error .typeError)
    else
      match rdDoubleLoop bs (q - offs.headD 0) offs false rdBlank with
      | .error e => some (.error e)
      | .ok (fnd, s) =>
        match rdSpacingLoop bs fuel 50 0 s.pos hp with
        | none => none
        | some (hp', i) =>
          match rdMake fnd s with
          | .error e => some (.error e)
          | .ok s' => some (.ok (s', rdNpings bs.length (rdSize hp' i)))

/-- `read_rdi` up to the number of ensembles filled (`load_data(nens=None)`, dolfyn/io/rdi.py:312-330):
`_nens = int(_npings / 1)`. -/
def rdReadAll (env : RdEnv) (bs : List ℕ) (fuel : ℕ) : Option (Except Err ℕ) :=
  match rdInit bs fuel with
  | none => none
  | some (.error e) => some (.error e)
  | some (.ok (s, np)) =>
    match rdLoad env bs fuel np.toNat s with
    | none => none
    | some (.error e) => some (.error e)
    | some (.ok (m, _)) => some (.ok m)

end Dolfyn
