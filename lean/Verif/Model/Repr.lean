import Verif.Model.Py

/-!
Model of the printed summary of a dataset, `Velocity.__repr__` (dolfyn/velocity.py:169-240).

Simplification: times are exact numbers of seconds since 1970; the text is kept as its parts (the rounding to
two digits and the formatting of the date are not modelled; for the conversion of the date see C12).
-/

namespace Dolfyn

/-- A unit of the duration. -/
inductive ReprUnit
  | days
  | hours
  | minutes
  | seconds
  deriving DecidableEq, Repr

/-- The line about time. -/
inductive ReprTime
  | noInfo
  | span (value : ℚ) (unit : ReprUnit) (start : ℚ)
  deriving DecidableEq

/-- The duration, given in days, and its unit (dolfyn/velocity.py:178-189). -/
def reprDelta (delta : ℚ) : ℚ × ReprUnit :=
  if 1 < delta then (delta, .days)
  else if 1 < delta * 24 then (delta * 24, .hours)
  else if 1 < delta * 24 * 60 then (delta * (24 * 60), .minutes)
  else (delta * (24 * 3600), .seconds)

/-- The line about time (dolfyn/velocity.py:170-194); `none` is a dataset without `time`. -/
def reprTime : Option (List ℚ) → Except Err ReprTime
  | none => .ok .noInfo
  | some [] => .error .indexError
  | some (t :: ts) =>
    if t < 1 then .ok .noInfo
    else
      let d := reprDelta (((t :: ts).getLast (by simp) - t) / (3600 * 24))
      .ok (.span d.1 d.2 t)

/-- The inner loop over the variables for a name with a wildcard (dolfyn/velocity.py:227-232): number of matches so
far and the names shown. -/
def reprInner (v : List Char) : List (List Char) → ℕ × List (List Char) → ℕ × List (List Char)
  | [], s => s
  | nm :: l, (n, out) =>
    if 12 < n then (n, out)
    else if v.isPrefixOf nm then reprInner v l (n + 1, out ++ [nm])
    else reprInner v l (n, out)

/-- The loop over the names to show (dolfyn/velocity.py:222-234); the flag marks a wildcard. -/
def reprOuter (vars : List (List Char)) : List (List Char × Bool) → ℕ × List (List Char) → ℕ × List (List Char)
  | [], s => s
  | (v, star) :: ps, s =>
    if 12 < s.1 then s
    else if star then reprOuter vars ps (reprInner v vars s)
    else if v ∈ vars then reprOuter vars ps (s.1, s.2 ++ [v])
    else reprOuter vars ps s

/-- `show_vars` (dolfyn/velocity.py:216-220). -/
def showVars : List (List Char × Bool) :=
  [(['t', 'i', 'm', 'e'], true), (['v', 'e', 'l'], true), (['r', 'a', 'n', 'g', 'e'], false),
   (['r', 'a', 'n', 'g', 'e', '_', 'e', 'c', 'h', 'o'], false),
   (['o', 'r', 'i', 'e', 'n', 't', 'm', 'a', 't'], false), (['h', 'e', 'a', 'd', 'i', 'n', 'g'], false),
   (['p', 'i', 't', 'c', 'h'], false), (['r', 'o', 'l', 'l'], false),
   (['t', 'e', 'm', 'p'], false), (['p', 'r', 'e', 's', 's'], true), (['a', 'm', 'p'], true),
   (['c', 'o', 'r', 'r'], true), (['a', 'c', 'c', 'e', 'l'], false), (['a', 'n', 'g', 'r', 't'], false),
   (['m', 'a', 'g'], false), (['e', 'c', 'h', 'o'], false)]

/-- The summary: instrument, time, frame, number of pings, variables shown, and whether `... and others` follows. -/
structure ReprOut (α : Type) where
  instType : Option α
  make : α
  model : α
  time : ReprTime
  frame : Option α
  pings : ℕ
  fs : Option α
  shown : List (List Char)
  others : Bool

/-- `__repr__` (dolfyn/velocity.py:169-240) for one-dimensional times. `vars` are the names of the variables,
sorted. -/
def reprDs {α : Type} (attrs : List Char → Option α) (time : Option (List ℚ)) (vars : List (List Char)) :
    Except Err (ReprOut α) :=
  match reprTime time with
  | .error e => .error e
  | .ok tm =>
    match time with
    | none => .error .keyError
    | some t =>
      match attrs ['i', 'n', 's', 't', '_', 'm', 'a', 'k', 'e'],
          attrs ['i', 'n', 's', 't', '_', 'm', 'o', 'd', 'e', 'l'] with
      | some mk, some md =>
        let s := reprOuter vars showVars (0, [])
        .ok {
          instType := attrs ['i', 'n', 's', 't', '_', 't', 'y', 'p', 'e'], make := mk, model := md, time := tm
          frame := attrs ['c', 'o', 'o', 'r', 'd', '_', 's', 'y', 's'], pings := t.length
          fs := attrs ['f', 's'], shown := s.2, others := decide (s.1 < vars.length) }
      | _, _ => .error .keyError

end Dolfyn
