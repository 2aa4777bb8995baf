import Verif.Model.Py
import Mathlib.Data.Rat.Floor
import Mathlib.Algebra.Order.Floor.Ring

/-!
Model of how many samples the Nortek reader makes room for: `findnextid`, `code_spacing`
(dolfyn/io/nortek.py:442-472), `init_ADV`, `init_AWAC` (dolfyn/io/nortek.py:284-335).

Simplification: the file is a sequence of whole records with valid sync bytes; a record is its identifier and its
size in bytes.
-/

namespace Dolfyn

/-- A record: identifier and size. -/
structure NkBlock where
  id : ℕ
  size : ℕ
  deriving DecidableEq

/-- Number of bytes of a list of records. -/
def recBytes (l : List NkBlock) : ℕ := (l.map NkBlock.size).sum

/-- `findnextid` (dolfyn/io/nortek.py:442-456): the records after the next one with this identifier, and the
position there; `none` is `EOFError`. -/
def findId (id : ℕ) : List NkBlock → ℕ → Option (List NkBlock × ℕ)
  | [], _ => none
  | r :: rs, pos => if r.id = id then some (rs, pos + r.size) else findId id rs (pos + r.size)

/-- The loop of `code_spacing` (dolfyn/io/nortek.py:464-468): the final position and the final `i`. -/
def spacingLoop (id : ℕ) : ℕ → List NkBlock → ℕ → ℕ → ℕ × ℕ
  | 0, _, pos, i => (pos, i - 1)
  | k + 1, recs, pos, i =>
    match findId id recs pos with
    | none => (pos + recBytes recs, i)
    | some (recs', pos') => spacingLoop id k recs' pos' (i + 1)

/-- `code_spacing` (dolfyn/io/nortek.py:458-472) for `iternum = 50` on the records after the configuration, which
ends at `pos`. -/
def codeSpacing (id : ℕ) (recs : List NkBlock) (pos : ℕ) : Except Err ℚ :=
  match findId id recs pos with
  | none => .error .exception
  | some (recs', p0) =>
    let q := spacingLoop id 50 recs' p0 0
    .ok (((q.1 : ℚ) - p0) / ((q.2 : ℚ) + 1))

/-- `n_samp_guess` of a Vector (dolfyn/io/nortek.py:302-305). -/
def roomVector (fs : ℚ) (recs : List NkBlock) (pos : ℕ) : Except Err ℤ := do
  let d ← codeSpacing 17 recs pos
  if d = 0 then throw .zeroDivision
  return pyInt (((pos + recBytes recs : ℕ) : ℚ) / d + 1) * pyInt fs

/-- `n_samp_guess` of an AWAC (dolfyn/io/nortek.py:325-330). -/
def roomAwac (recs : List NkBlock) (pos : ℕ) : Except Err ℤ := do
  let d ← codeSpacing 32 recs pos
  if d = 0 then return 1
  return pyInt (((pos + recBytes recs : ℕ) : ℚ) / d + 1)

end Dolfyn
