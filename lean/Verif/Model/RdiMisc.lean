import Verif.Model.Rotate
import Mathlib.Data.List.Sort
import Mathlib.Data.List.Dedup

/-!
Model of the post-processing in `dolfyn/io/rdi.py`: GPS duplicates and declination, and of the number
of an ensemble.
-/

namespace Dolfyn

/-! ### GPS -/

/-- The order of `np.sort`: NaN (`none`) behind everything. -/
def nanLe (a b : Option ℚ) : Bool :=
  match a, b with
  | some x, some y => decide (x ≤ y)
  | _, none => true
  | none, some _ => false

/-- `np.unique(times, return_index=True)`: distinct values in order (NaNs count as equal), each with
the index of its first occurrence. -/
def npUniqueIndex (l : List (Option ℚ)) : List (Option ℚ × ℕ) :=
  (l.dedup.insertionSort (fun a b => nanLe a b = true)).map fun v => (v, l.idxOf v)

/-- `col[idx]` with an integer array. -/
def takeIdx {α : Type} (col : List α) : List ℕ → Except Err (List α)
  | [] => .ok []
  | i :: is =>
    match col[i]?, takeIdx col is with
    | none, _ => .error .indexError
    | _, .error e => .error e
    | some x, .ok r => .ok (x :: r)

/-- `col[~nan]` with a boolean array of the same length. -/
def maskOff {α : Type} (col : List α) (nan : List Bool) : List α :=
  ((col.zip nan).filter fun x => !x.2).map (·.1)

/-- The parts of the dictionary `_remove_gps_duplicates` touches: time, GPS time and the data
variables (the flag tells whether the name contains `gps` or `nmea`). -/
structure GpsDat (α : Type) where
  time : List α
  timeGps : List (Option ℚ)
  vars : List (Bool × String × List α)
  deriving DecidableEq

/-- The variables: indexed with `idx`, then with the mask if a NaN was found. -/
def gpsVars {α : Type} (idx : List ℕ) (nan : List Bool) (anyNan : Bool) :
    List (Bool × String × List α) → Except Err (List (Bool × String × List α))
  | [] => .ok []
  | (false, nm, c) :: r => match gpsVars idx nan anyNan r with
    | .error e => .error e
    | .ok r' => .ok ((false, nm, c) :: r')
  | (true, nm, c) :: r =>
    match takeIdx c idx, gpsVars idx nan anyNan r with
    | .error e, _ => .error e
    | _, .error e => .error e
    | .ok c', .ok r' => .ok ((true, nm, if anyNan then maskOff c' nan else c') :: r')

/-- `_remove_gps_duplicates` (dolfyn/io/rdi.py:133-156). -/
def removeGpsDuplicates {α : Type} (d : GpsDat α) : Except Err (GpsDat α) :=
  let u := npUniqueIndex d.timeGps
  let tm := u.map (·.1)
  let nan := tm.map fun t => t.isNone
  let anyNan := nan.any id
  match gpsVars (u.map (·.2)) nan anyNan (d.vars ++ [(true, "hdwtime_gps", d.time)]) with
  | .error e => .error e
  | .ok vs => .ok { d with timeGps := if anyNan then maskOff tm nan else tm, vars := vs }

/-! ### Declination -/

/-- `_set_rdi_declination` (dolfyn/io/rdi.py:159-182). On entry the attribute `declination` is the
user's value, `magVar` is `magnetic_var_deg`. -/
noncomputable def setRdiDeclination {T : Type} (fuel : ℕ) (magVar : ℝ) (ds : RDS T) :
    Option (Except Err (RDS T)) :=
  match ds.declination with
  | none => some (.ok (open Classical in if magVar ≠ 0 then { ds with declination := some magVar } else ds))
  | some declin =>
    setDeclination fuel declin
      (open Classical in
        if magVar ≠ 0 then { ds with declination := some declin } else { ds with declination := none })

/-! ### Number of an ensemble -/

/-- `ens.number[k] = fd.read_ui16(1)` and `ens.number[k] += 65535 * fd.read_ui8(1)`
(dolfyn/io/rdi.py:840-842). -/
def rdNumber (lsb msb : ℕ) : ℕ := lsb + 65535 * msb

end Dolfyn
