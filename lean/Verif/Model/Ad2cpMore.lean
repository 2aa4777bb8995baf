import Verif.Model.Ad2cp
import Verif.Model.Clock

/-!
Model of further parts of `dolfyn/io/nortek2_lib.py`: cropping a file, the clock, the correction of
skipped pings and the configuration taken from the index.
-/

namespace Dolfyn

/-! ### Cropping -/

/-- `crop_ensembles` (dolfyn/io/nortek2_lib.py:260-287) on the bytes and the index of a file. An ensemble
number that is not in the index is an `IndexError`; the difference of two unsigned positions in the
wrong order is a number too large to be read. -/
def adCrop (file : List ℕ) (idx : List AdEntry) (a b : ℕ) : Except Err (List ℕ) :=
  match idx, idx.find? (fun e => e.ens = a), idx.find? (fun e => e.ens = b) with
  | e0 :: _, some x, some y =>
    if y.pos < x.pos then .error .overflowError
    else .ok (file.take e0.pos ++ (file.drop x.pos).take (y.pos - x.pos))
  | _, _, _ => .error .indexError

/-! ### The clock -/

/-- Days before a month of the year (Python's `datetime` library). -/
def daysBeforeMonth (y : ℤ) (m : ℕ) : ℕ := ((List.range (m - 1)).map fun k => daysInMonth y (k + 1)).sum

/-- `date.toordinal()` (Python's `datetime` library): 1 for the first of January of year 1. -/
def dateOrdinal (y : ℤ) (m d : ℕ) : ℤ :=
  (y - 1) * 365 + (y - 1) / 4 - (y - 1) / 100 + (y - 1) / 400 + daysBeforeMonth y m + d

/-- `date2epoch` (dolfyn/time.py:166-183): seconds since 1970-01-01 (day 719163), read as UTC. -/
def date2epoch (t : CivilTime) (us : ℕ) : ℚ :=
  (((dateOrdinal t.year t.month t.day - 719163) * 86400 + t.hour * 3600 + t.minute * 60 + t.second : ℤ) : ℚ)
    + us / 1000000

/-- `_calc_time` (dolfyn/io/nortek2_lib.py:76-94) for one ping: year, zero-based month, day, hour, minute,
second and microseconds. NaN is `none`. -/
def adCalcTime (y : ℤ) (mo d h mi s us : ℕ) : Option ℚ :=
  if mo = 0 ∧ d = 0 ∧ h = 0 ∧ mi = 0 ∧ s = 0 ∧ us = 0 then some 0
  else
    let t : CivilTime := ⟨y, mo + 1, d, h, mi, s⟩
    if t.valid ∧ us < 1000000 then some (date2epoch t us) else none

/-- The clock of a ping from its bytes: `year + 1900` and `usec100 * 100` (dolfyn/io/nortek2.py:468-475),
then zero is replaced with NaN (dolfyn/io/nortek2.py:77). -/
def adPingTime (y mo d h mi s us100 : ℕ) : Option ℚ :=
  match adCalcTime (y + 1900 : ℤ) mo d h mi s (us100 * 100) with
  | none => none
  | some t => if t = 0 then none else some t

/-! ### Skipped pings -/

/-- `np.unique(idx['ID'])`, in ascending order. -/
def adUids (ids : List ℕ) : List ℕ := ids.dedup.insertionSort (· ≤ ·)

/-- `inds`: the positions in the index of a type. -/
def adInds (ids : List ℕ) (id : ℕ) : List ℕ := (List.range ids.length).filter fun i => ids.getD i 0 = id

/-- `ibad`: the steps between positions of a type that are larger than the number of types. -/
def adIbad (nId : ℕ) (inds : List ℕ) : List ℕ :=
  (List.range (inds.length - 1)).filter fun k => nId < inds.getD (k + 1) 0 - inds.getD k 0

/-- For dual profiles: a step is kept when the distance to the next one occurs only once; the last one is
dropped (dolfyn/io/nortek2_lib.py:183-193). -/
def adIbadDp (ibad : List ℕ) : List ℕ :=
  let size : ℕ → ℕ := fun k => ibad.getD (k + 1) 0 - ibad.getD k 0
  let sizes := (List.range (ibad.length - 1)).map size
  ((List.range (ibad.length - 1)).filter fun k => size k ≠ 0 ∧ sizes.count (size k) = 1).map
    fun k => ibad.getD k 0

/-- `ens[inds[(ib + 1):]] += 1`. -/
def adBump (inds : List ℕ) (ens : ℕ → ℕ) (ib : ℕ) : ℕ → ℕ :=
  fun i => if i ∈ inds.drop (ib + 1) then ens i + 1 else ens i

/-- One pass of the outer loop of `_check_index`. -/
def adFixId (ids : List ℕ) (dp : Bool) (ens : ℕ → ℕ) (id : ℕ) : ℕ → ℕ :=
  let inds := adInds ids id
  let ibad := adIbad (adUids ids).length inds
  (if dp then adIbadDp ibad else ibad).foldl (adBump inds) ens

/-- `_check_index` (dolfyn/io/nortek2_lib.py:158-213): the dual-profile flag and the corrected ensemble
numbers, from the types and the ensemble numbers of the index (`hw_ens` is changed in a copy only). -/
def adCheckIndex (ids : List ℕ) (dp : Bool) (ens : ℕ → ℕ) : Bool × (ℕ → ℕ) :=
  let dp' := dp || (decide (21 ∈ ids) && decide (22 ∈ ids))
  (dp', (adUids ids).foldl (adFixId ids dp') ens)

/-! ### Configuration -/

/-- The types with a reader (dolfyn/io/nortek2_lib.py:497). -/
def adCfgIds : List ℕ := [21, 22, 23, 24, 26, 28, 31]

/-- `_calc_config` (dolfyn/io/nortek2_lib.py:482-530) for one type: the configuration words of its
entries and the beam words to the pair in use. For bottom track the beam words may differ, when each
has a coordinate system and a number of beams. -/
def adConfigOf (id : ℕ) (configs beams : List ℕ) : Except Err (ℕ × ℕ) :=
  match configs, beams with
  | c :: cs, b :: bs =>
    if cs.any (fun x => x ≠ c) then .error .exception
    else if bs.any (fun x => x ≠ b) then
      if id = 23 ∧ (b :: bs).all (fun v =>
          decide ((beamsCyDict v 23).cy ≠ some .unset) && decide ((beamsCyDict v 23).nBeams ≠ some 0)) then
        .ok (c, b)
      else .error .exception
    else .ok (c, b)
  | _, _ => .error .indexError

/-- `_calc_config`: the types of the file that have a reader, with their words. -/
def adCalcConfig (idx : List AdEntry) : Except Err (List (ℕ × ℕ × ℕ)) :=
  ((adUids (idx.map AdEntry.id)).filter (fun id => id ∈ adCfgIds)).mapM fun id => do
    let es := idx.filter (fun e => e.id = id)
    let (c, b) ← adConfigOf id (es.map AdEntry.config) (es.map AdEntry.beamsCy)
    pure (id, c, b)

end Dolfyn
