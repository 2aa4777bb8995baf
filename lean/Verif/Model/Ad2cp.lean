import Verif.Model.Py
import Mathlib.Algebra.Order.Ring.Int
import Mathlib.Algebra.BigOperators.Group.List.Basic
import Mathlib.Data.List.Dedup
import Mathlib.Data.List.Sort
import Mathlib.Analysis.SpecialFunctions.Complex.Arg

/-!
Model of `dolfyn/io/nortek2_defs.py` (record definitions, unpacking, checksum, scaling) and of
`dolfyn/io/nortek2_lib.py` (index of an AD2CP file, bit fields, collapsing, averaging of angles).
A file is the list of its bytes (numbers below 256).
-/

namespace Dolfyn

/-! ### Record definitions -/

/-- The format characters in use (dolfyn/io/nortek2_defs.py:168-369). -/
inductive AdFmt
  | B | b | H | h | I | i | f
  deriving DecidableEq, Repr

/-- Size in bytes in `struct` (standard sizes). -/
def AdFmt.size : AdFmt → ℕ
  | .B => 1 | .b => 1 | .H => 2 | .h => 2 | .I => 4 | .i => 4 | .f => 4

/-- Signed formats. -/
def AdFmt.signed : AdFmt → Bool
  | .b => true | .h => true | .i => true | _ => false

/-- One entry of a definition list: format character, pad bytes behind it (the `7x` of `'B7x'`) and
`int(np.prod(shape))` (1 for the shape `[]`). -/
structure AdField where
  fmt : AdFmt
  pad : ℕ
  n : ℕ
  deriving DecidableEq, Repr

/-- `_format` (dolfyn/io/nortek2_defs.py:22-28): the repeat count is written only when it is larger
than one, so that a count of zero reads one element. -/
def AdField.count (fd : AdField) : ℕ := if 1 < fd.n then fd.n else 1

/-- Bytes of a field. -/
def AdField.bytes (fd : AdField) : ℕ := fd.count * fd.fmt.size + fd.pad

/-- `_struct.size` (dolfyn/io/nortek2_defs.py:62-63); `'<'` switches alignment off. -/
def adNbyte (fs : List AdField) : ℕ := (fs.map AdField.bytes).sum

/-- Little-endian natural number. -/
def leNat : List ℕ → ℕ
  | [] => 0
  | b :: r => b + 256 * leNat r

/-- Value of an element from its bytes; the format `f` is left as its 32-bit pattern. -/
def adVal (fmt : AdFmt) (bs : List ℕ) : ℤ :=
  let v : ℤ := leNat bs
  if fmt.signed ∧ 2 ^ (8 * fmt.size - 1) ≤ v then v - 2 ^ (8 * fmt.size) else v

/-- `count` elements from the front of the bytes. -/
def adElems (fmt : AdFmt) : ℕ → List ℕ → List ℤ
  | 0, _ => []
  | k + 1, bs => adVal fmt (bs.take fmt.size) :: adElems fmt k (bs.drop fmt.size)

/-- `self._struct.unpack(bytes)`: the flat tuple. -/
def adUnpack : List AdField → List ℕ → List ℤ
  | [], _ => []
  | fd :: fs, bs => adElems fd.fmt fd.count bs ++ adUnpack fs (bs.drop fd.bytes)

/-- An item of the result: a number, or a tuple. -/
inductive AdItem
  | num (v : ℤ)
  | tup (vs : List ℤ)
  deriving DecidableEq, Repr

/-- `data[c]`. -/
def adFirst : List ℤ → Except Err ℤ
  | [] => .error .indexError
  | d :: _ => .ok d

/-- Grouping of the flat tuple (dolfyn/io/nortek2_defs.py:103-110). -/
def adGroup : List ℕ → List ℤ → Except Err (List AdItem)
  | [], _ => .ok []
  | n :: ns, data =>
    if n = 1 then do
      let d ← adFirst data
      let r ← adGroup ns (data.drop 1)
      pure (.num d :: r)
    else do
      let r ← adGroup ns (data.drop n)
      pure (.tup (data.take n) :: r)

/-- The argument `cs`: `None`, `True`, `False` or an integer. -/
inductive AdCs
  | none | last | off | val (v : ℤ)
  deriving DecidableEq, Repr

/-- `self._cs_struct.unpack`: 16-bit words. -/
def adWords : List ℕ → List ℕ
  | a :: b :: r => (a + 256 * b) :: adWords r
  | _ => []

/-- The test of the checksum (dolfyn/io/nortek2_defs.py:91-102): `csval`, and what is subtracted. -/
def adChecksum (csval : ℤ) (sub : ℤ) (byts : List ℕ) : Bool :=
  decide ((((adWords byts).sum : ℤ) + (0xb58c - sub)) % 65536 = csval)

/-- Whether the record is accepted. With an odd number of bytes `_cs_struct` has another size than the
record and `unpack` raises `struct.error`. -/
def adCsCheck (cs : AdCs) (data : List ℤ) (byts : List ℕ) : Except Err Unit :=
  match cs with
  | .none => .ok ()
  | .last =>
    match data.getLast? with
    | Option.none => .error .indexError
    | some v =>
      if byts.length % 2 = 1 then .error .structError
      else if adChecksum v v byts then .ok () else .error .exception
  | .off => if byts.length % 2 = 1 then .error .structError else .ok ()
  | .val v =>
    if byts.length % 2 = 1 then .error .structError
    else if adChecksum v 0 byts then .ok () else .error .exception

/-- `_DataDef.read` (dolfyn/io/nortek2_defs.py:86-111): the items and the bytes left. -/
def adRead (fs : List AdField) (cs : AdCs) (rest : List ℕ) : Except Err (List AdItem × List ℕ) := do
  let byts := rest.take (adNbyte fs)
  if byts.length ≠ adNbyte fs then .error .ioError
  else do
    let data := adUnpack fs byts
    adCsCheck cs data byts
    let items ← adGroup (fs.map AdField.n) data
    pure (items, rest.drop (adNbyte fs))

/-- `_LinFunc.__call__` (dolfyn/io/nortek2_defs.py:160-165), without the float32 rounding. -/
def adLin (scale offset x : ℚ) : ℚ :=
  if scale ≠ 1 ∨ offset ≠ 0 then (x + offset) * scale else x

/-- `header` (dolfyn/io/nortek2_defs.py:168-176). -/
def adHeader : List AdField :=
  [⟨.B, 0, 1⟩, ⟨.B, 0, 1⟩, ⟨.B, 0, 1⟩, ⟨.B, 0, 1⟩, ⟨.H, 0, 1⟩, ⟨.H, 0, 1⟩, ⟨.H, 0, 1⟩]

/-- `_burst_hdr` (dolfyn/io/nortek2_defs.py:178-224). -/
def adBurstHdr : List AdField :=
  [⟨.B, 0, 1⟩, ⟨.B, 0, 1⟩, ⟨.H, 0, 1⟩, ⟨.I, 0, 1⟩, ⟨.B, 0, 1⟩, ⟨.B, 0, 1⟩, ⟨.B, 0, 1⟩, ⟨.B, 0, 1⟩,
   ⟨.B, 0, 1⟩, ⟨.B, 0, 1⟩, ⟨.H, 0, 1⟩, ⟨.H, 0, 1⟩, ⟨.H, 0, 1⟩, ⟨.I, 0, 1⟩, ⟨.H, 0, 1⟩, ⟨.h, 0, 1⟩,
   ⟨.h, 0, 1⟩, ⟨.H, 0, 1⟩, ⟨.H, 0, 1⟩, ⟨.H, 0, 1⟩, ⟨.B, 0, 1⟩, ⟨.B, 0, 1⟩, ⟨.H, 0, 1⟩, ⟨.h, 0, 3⟩,
   ⟨.h, 0, 3⟩, ⟨.h, 0, 1⟩, ⟨.H, 0, 1⟩, ⟨.H, 0, 1⟩, ⟨.b, 0, 1⟩, ⟨.b, 0, 1⟩, ⟨.h, 0, 1⟩, ⟨.h, 0, 1⟩,
   ⟨.H, 0, 1⟩, ⟨.H, 0, 1⟩, ⟨.I, 0, 1⟩, ⟨.I, 0, 1⟩]

/-- `_bt_hdr` (dolfyn/io/nortek2_defs.py:226-270). -/
def adBtHdr : List AdField :=
  [⟨.B, 0, 1⟩, ⟨.B, 0, 1⟩, ⟨.H, 0, 1⟩, ⟨.I, 0, 1⟩, ⟨.B, 0, 1⟩, ⟨.B, 0, 1⟩, ⟨.B, 0, 1⟩, ⟨.B, 0, 1⟩,
   ⟨.B, 0, 1⟩, ⟨.B, 0, 1⟩, ⟨.H, 0, 1⟩, ⟨.H, 0, 1⟩, ⟨.H, 0, 1⟩, ⟨.I, 0, 1⟩, ⟨.H, 0, 1⟩, ⟨.h, 0, 1⟩,
   ⟨.h, 0, 1⟩, ⟨.H, 0, 1⟩, ⟨.H, 0, 1⟩, ⟨.H, 0, 1⟩, ⟨.B, 0, 1⟩, ⟨.B, 0, 1⟩, ⟨.H, 0, 1⟩, ⟨.h, 0, 3⟩,
   ⟨.h, 0, 3⟩, ⟨.I, 0, 1⟩, ⟨.H, 0, 1⟩, ⟨.H, 0, 1⟩, ⟨.b, 0, 1⟩, ⟨.b, 0, 1⟩, ⟨.h, 0, 1⟩, ⟨.h, 0, 1⟩,
   ⟨.I, 0, 1⟩, ⟨.I, 0, 1⟩, ⟨.I, 0, 1⟩]

/-- `_ahrs_def` (dolfyn/io/nortek2_defs.py:273-277). -/
def adAhrs : List AdField := [⟨.f, 0, 9⟩, ⟨.f, 0, 4⟩, ⟨.f, 0, 3⟩]

/-- `_getbit` (dolfyn/io/nortek2_lib.py:341-342) for non-negative numbers. -/
def getbit (v n : ℕ) : Bool := decide ((v >>> n) &&& 1 ≠ 0)

/-- `_calc_bt_struct` (dolfyn/io/nortek2_defs.py:280-292). -/
def adBtStruct (config nb : ℕ) : List AdField :=
  adBtHdr
    ++ (if getbit config 5 then [⟨.i, 0, nb⟩] else [])
    ++ (if getbit config 8 then [⟨.i, 0, nb⟩] else [])
    ++ (if getbit config 9 then [⟨.H, 0, nb⟩] else [])
    ++ (if getbit config 10 then adAhrs else [])

/-- `_calc_echo_struct` (dolfyn/io/nortek2_defs.py:295-307). -/
def adEchoStruct (config nc : ℕ) : Except Err (List AdField) :=
  if getbit config 5 ∨ getbit config 6 ∨ getbit config 7 ∨ getbit config 8 ∨ getbit config 10 ∨
      getbit config 9 ∨ getbit config 13 ∨ getbit config 14 then .error .exception
  else .ok (adBurstHdr
    ++ (if getbit config 11 then [⟨.H, 0, nc⟩] else [])
    ++ (if getbit config 12 then adAhrs else []))

/-- `_calc_burst_struct` (dolfyn/io/nortek2_defs.py:310-369). -/
def adBurstStruct (config nb nc : ℕ) : Except Err (List AdField) :=
  if getbit config 11 then .error .exception
  else .ok (adBurstHdr
    ++ (if getbit config 5 then [⟨.h, 0, nb * nc⟩] else [])
    ++ (if getbit config 6 then [⟨.B, 0, nb * nc⟩] else [])
    ++ (if getbit config 7 then [⟨.B, 0, nb * nc⟩] else [])
    ++ (if getbit config 8 then [⟨.f, 0, 1⟩, ⟨.H, 0, 1⟩, ⟨.H, 0, 1⟩] else [])
    ++ (if getbit config 10 then
        [⟨.f, 0, 1⟩, ⟨.H, 0, 1⟩, ⟨.h, 0, 1⟩, ⟨.f, 0, 1⟩, ⟨.B, 7, 1⟩] else [])
    ++ (if getbit config 9 then [⟨.I, 0, 1⟩, ⟨.H, 0, 1⟩, ⟨.h, 0, 1⟩] else [])
    ++ (if getbit config 12 then adAhrs else [])
    ++ (if getbit config 13 then [⟨.B, 0, nc⟩] else [])
    ++ (if getbit config 14 then
        [⟨.h, 0, 1⟩, ⟨.h, 0, 1⟩, ⟨.h, 0, 1⟩, ⟨.h, 0, 1⟩, ⟨.H, 22, 1⟩] else []))

/-! ### The index -/

/-- Unsigned numbers at offset `k`. -/
def u16 (l : List ℕ) (k : ℕ) : ℕ := l.getD k 0 + 256 * l.getD (k + 1) 0

def u32 (l : List ℕ) (k : ℕ) : ℕ := u16 l k + 65536 * u16 l (k + 2)

/-- Signed 16-bit number: the format `h` of `_hdr` (dolfyn/io/nortek2_lib.py:39). -/
def i16 (l : List ℕ) (k : ℕ) : ℤ := if u16 l k < 32768 then u16 l k else (u16 l k : ℤ) - 65536

/-- The record types that are indexed (dolfyn/io/nortek2_lib.py:104-105). -/
def adIds : List ℕ := [21, 22, 23, 24, 26, 28, 27, 29, 30, 31, 35, 36]

/-- `seek_2ens` (dolfyn/io/nortek2_lib.py:112-113). -/
def adSeek (id : ℕ) : ℕ := if id = 23 then 42 else 40

/-- An entry of the index (dolfyn/io/nortek2_lib.py:138-140). -/
structure AdEntry where
  ens : ℕ
  hwEns : ℕ
  pos : ℕ
  id : ℕ
  config : ℕ
  beamsCy : ℕ
  date : List ℕ
  dVer : ℕ
  deriving DecidableEq, Repr

/-- Counters by record type: `N` and `last_ens` (−1 at the start). -/
structure AdIdxState where
  N : ℕ → ℕ
  last : ℕ → ℤ

/-- The hardware counter after the correction (dolfyn/io/nortek2_lib.py:128-132). -/
def adFixEns (last : ℤ) (ens : ℕ) : ℤ :=
  if 0 < last ∧ (ens = 1 ∨ (ens : ℤ) < last) then last + 1 else ens

/-- Outcome of one pass of the loop. -/
inductive AdIdxStep
  | stop
  | fail (e : Err)
  | next (pos : ℕ) (st : AdIdxState) (entry : Option AdEntry)

/-- The new position; a position before the start of the file is an `OSError`. -/
def adSeekTo (p : ℤ) (st : AdIdxState) (entry : Option AdEntry) : AdIdxStep :=
  if p < 0 then .fail .ioError else .next p.toNat st entry

/-- The body of the loop of `_create_index` (dolfyn/io/nortek2_lib.py:115-151) at position `pos`. -/
def adIndexStep (file : List ℕ) (pos : ℕ) (st : AdIdxState) : AdIdxStep :=
  let rest := file.drop pos
  if rest.length < 10 then .stop
  else
    let id := rest.getD 2 0
    let sz := i16 rest 4
    if id ∈ adIds then
      if rest.length < 46 + adSeek id then .fail .structError
      else
        let body := rest.drop 10
        let ens := adFixEns (st.last id) (u32 body (32 + adSeek id))
        let n := if 0 < st.last id ∧ st.last id ≠ ens then st.N id + 1 else st.N id
        if 2 ^ 32 ≤ ens ∨ 255 ≤ body.getD 9 0 then .fail .structError
        else
          let entry : AdEntry :=
            { ens := n, hwEns := ens.toNat, pos := pos, id := id, config := u16 body 2,
              beamsCy := u16 body 30,
              date := [body.getD 8 0, body.getD 9 0 + 1, body.getD 10 0, body.getD 11 0,
                body.getD 12 0, body.getD 13 0, u16 body 14],
              dVer := body.getD 0 0 }
          adSeekTo (pos + 10 + sz)
            { N := Function.update st.N id n, last := Function.update st.last id ens } (some entry)
    else adSeekTo (pos + 10 + sz) st none

/-- The loop `while N[21] < N_ens`; `none` when the fuel does not suffice. -/
def adIndexLoop (file : List ℕ) (nEns : ℕ) : ℕ → ℕ → AdIdxState → Option (Except Err (List AdEntry))
  | 0, _, _ => none
  | fuel + 1, pos, st =>
    if st.N 21 < nEns then
      match adIndexStep file pos st with
      | .stop => some (.ok [])
      | .fail e => some (.error e)
      | .next p st' entry =>
        match adIndexLoop file nEns fuel p st' with
        | none => none
        | some (.error e) => some (.error e)
        | some (.ok r) => some (.ok (entry.toList ++ r))
    else some (.ok [])

/-- `_create_index` (dolfyn/io/nortek2_lib.py:97-155) with `N_ens = 2**32` (`get_index`,
dolfyn/io/nortek2_lib.py:245). -/
def adIndex (fuel : ℕ) (file : List ℕ) : Option (Except Err (List AdEntry)) :=
  adIndexLoop file (2 ^ 32) fuel 0 { N := fun _ => 0, last := fun _ => -1 }

/-! ### Bit fields -/

/-- `_BitIndexer.__getitem__` (dolfyn/io/nortek2_lib.py:321-338) for a slice with both ends. -/
def bitSlice (v start stop : ℕ) : ℕ := (v >>> start) &&& (2 ^ (stop - start) - 1)

/-- `_headconfig_int2dict(val, 'burst')` (dolfyn/io/nortek2_lib.py:345-370): bits 0–3 and 5–14. -/
def headconfigBurst (v : ℕ) : List (String × Bool) :=
  [("press_valid", getbit v 0), ("temp_valid", getbit v 1), ("compass_valid", getbit v 2),
   ("tilt_valid", getbit v 3), ("vel", getbit v 5), ("amp", getbit v 6), ("corr", getbit v 7),
   ("le", getbit v 8), ("altraw", getbit v 9), ("ast", getbit v 10), ("echo", getbit v 11),
   ("ahrs", getbit v 12), ("p_gd", getbit v 13), ("std", getbit v 14)]

/-- `_headconfig_int2dict(val, 'bt')` (dolfyn/io/nortek2_lib.py:371-384). -/
def headconfigBt (v : ℕ) : List (String × Bool) :=
  [("press_valid", getbit v 0), ("temp_valid", getbit v 1), ("compass_valid", getbit v 2),
   ("tilt_valid", getbit v 3), ("vel", getbit v 5), ("dist", getbit v 8), ("fom", getbit v 9),
   ("ahrs", getbit v 10)]

/-- `_status2data` (dolfyn/io/nortek2_lib.py:400-418). -/
def status2data (v : ℕ) : List (String × ℕ) :=
  [("wakeup_state", bitSlice v 28 32), ("orient_up", bitSlice v 25 28),
   ("auto_orientation", bitSlice v 22 25), ("previous_wakeup_state", bitSlice v 18 22),
   ("low_volt_skip", bitSlice v 17 18), ("active_config", bitSlice v 16 17),
   ("echo_index", bitSlice v 12 16), ("telemetry_data", bitSlice v 11 12),
   ("boost_running", bitSlice v 10 11), ("echo_freq_bin", bitSlice v 5 10),
   ("bd_scaling", bitSlice v 1 2)]

/-- `_alt_status2data` (dolfyn/io/nortek2_lib.py:421-432). -/
def altStatus2data (v : ℕ) : List (String × ℕ) :=
  [("tilt_over_5deg", bitSlice v 0 1), ("tilt_over_10deg", bitSlice v 1 2),
   ("multibeam_alt", bitSlice v 2 3), ("n_beams_alt", bitSlice v 3 7),
   ("power_level_idx_alt", bitSlice v 7 10)]

/-- Coordinate systems in `_beams_cy_int2dict`. -/
inductive AdCy
  | enu | xyz | beam | unset
  deriving DecidableEq, Repr

/-- The list indexed with two bits (dolfyn/io/nortek2_lib.py:444). -/
def adCyOf : ℕ → AdCy
  | 0 => .enu | 1 => .xyz | 2 => .beam | _ => .unset

/-- Result of `_beams_cy_int2dict`. -/
structure BeamsCy where
  nCells : ℕ
  cy : Option AdCy
  nBeams : Option ℕ
  deriving DecidableEq, Repr

/-- `_beams_cy_int2dict` (dolfyn/io/nortek2_lib.py:435-445). -/
def beamsCyDict (v id : ℕ) : BeamsCy :=
  if id = 28 then ⟨v, none, none⟩
  else if id = 26 ∨ id = 31 then ⟨v &&& (2 ^ 10 - 1), some .beam, some 1⟩
  else ⟨v &&& (2 ^ 10 - 1), some (adCyOf ((v >>> 10) &&& 3)), some (v >>> 12)⟩

/-! ### Collapsing -/

/-- `_isuniform` (dolfyn/io/nortek2_lib.py:448-451); `vec[0]` of an empty vector raises. The vector is
a list of integers. -/
def isuniform (vec exclude : List ℤ) : Except Err Bool :=
  if exclude ≠ [] then .ok (decide ((vec.dedup.filter (fun x => x ∉ exclude)).length ≤ 1))
  else match vec with
    | [] => .error .indexError
    | v :: _ => .ok (vec.all (fun x => x = v))

/-- The sorted distinct values, `np.unique`. -/
def npUnique (vec : List ℤ) : List ℤ := vec.dedup.insertionSort (· ≤ ·)

/-- First of the values with the largest count (`uniq[argmax(counts)]`). -/
def firstArgmax (cnt : ℤ → ℕ) : List ℤ → Option ℤ
  | [] => none
  | v :: r =>
    match firstArgmax cnt r with
    | none => some v
    | some w => if cnt v < cnt w then some w else some v

/-- The last branch of `_collapse`: `max(vec)` when all the counts agree, else the most frequent value
(`vec[idx[k]]` is the value `uniq[k]`). -/
def collapseVote (vec : List ℤ) : Except Err ℤ :=
  let uniq := npUnique vec
  let counts := uniq.map (fun v => vec.count v)
  match uniq, counts with
  | u :: _, c :: _ =>
    if counts.all (fun e => e = c) then .ok (vec.foldl max (vec.headD u))
    else match firstArgmax (fun v => vec.count v) uniq with
      | some w => .ok w
      | none => .error .valueError
  | _, _ => .error .indexError

/-- `_collapse` (dolfyn/io/nortek2_lib.py:454-479), without the warning. -/
def collapse (vec exclude : List ℤ) : Except Err ℤ := do
  let u ← isuniform vec []
  if u then
    match vec with
    | [] => .error .indexError
    | v :: _ => pure v
  else do
    let u' ← isuniform vec exclude
    if u' then
      match vec.dedup.filter (fun x => x ∉ exclude) with
      | [] => .error .indexError
      | v :: _ => pure v
    else collapseVote vec

/-! ### Averages of two variables -/

/-- `_reduce_by_average` (dolfyn/io/nortek2_lib.py:10-18) on the optional values of the two variables:
the new values. -/
noncomputable def reduceAvg (d0 d1 : Option ℝ) : Option ℝ × Option ℝ :=
  match d1 with
  | none => (d0, none)
  | some y =>
    match d0 with
    | some x => (some ((x + y) / 2), none)
    | none => (some y, none)

/-- `_reduce_by_average_angle` (dolfyn/io/nortek2_lib.py:21-33) with `degrees=True`. -/
noncomputable def reduceAvgAngle (d0 d1 : Option ℝ) : Option ℝ × Option ℝ :=
  match d1 with
  | none => (d0, none)
  | some y =>
    match d0 with
    | some x =>
      (some (Complex.arg (Complex.exp (Complex.I * ((x * (Real.pi / 180) : ℝ) : ℂ)) +
        Complex.exp (Complex.I * ((y * (Real.pi / 180) : ℝ) : ℂ))) / (Real.pi / 180)), none)
    | none => (some y, none)

end Dolfyn
