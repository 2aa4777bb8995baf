import Verif.Model.Py
import Mathlib.Algebra.Order.Ring.Int
import Mathlib.Algebra.BigOperators.Group.List.Basic

/-!
Model of `dolfyn/io/nortek.py`: the reader of Nortek Vector, AWAC and Vectrino files. A file is the
list of its bytes (numbers below 256); the reading position is the list of bytes still to come.
-/

namespace Dolfyn

/-- Why a read stops: `EOFError` (caught by `readfile`) or another exception. -/
inductive NkStop
  | eof
  | err (e : Err)
  deriving DecidableEq, Repr

/-- `unpack(endian + 'H', ...)` of two bytes; `le` is `endian == '<'`. -/
def word (le : Bool) (b0 b1 : ℕ) : ℕ := if le then b0 + 256 * b1 else 256 * b0 + b1

/-- `unpack(endian + 'nH', ...)`. -/
def words (le : Bool) : List ℕ → List ℕ
  | a :: b :: r => word le a b :: words le r
  | _ => []

/-- `read` (dolfyn/io/nortek.py:355-359). -/
def nkTake (n : ℕ) (rest : List ℕ) : Except NkStop (List ℕ × List ℕ) :=
  if n ≤ rest.length then .ok (rest.take n, rest.drop n) else .error .eof

/-- The loop of `findnext` (dolfyn/io/nortek.py:361-378). `func` takes the byte that comes first in the
file, `func2` the second. Returns the second byte and the stream from the match on, `none` at the end
of the file. `sum` is compared modulo 65536 (`np.uint16`). -/
def findnextAux (le doCs : Bool) (sum cs : ℕ) : List ℕ → Option (ℕ × List ℕ)
  | b0 :: b1 :: rest =>
    let val := word le b0 b1
    let f1 := if le then val % 256 else val / 256
    let f2 := if le then val / 256 else val % 256
    if f1 = 165 ∧ (doCs = false ∨ cs = sum % 65536) then some (f2, b0 :: b1 :: rest)
    else findnextAux le doCs (sum + cs) val rest
  | _ => none

/-- `findnext`. -/
def findnext (le doCs : Bool) (rest : List ℕ) : Option (ℕ × List ℕ) :=
  findnextAux le doCs 0xb58c 0 rest

/-- `read_id` (dolfyn/io/nortek.py:380-399): the two bytes kept in `_thisid_bytes`, the id and the
stream after the id. -/
def nkReadId (le : Bool) : List ℕ → Except NkStop (List ℕ × ℕ × List ℕ)
  | b0 :: b1 :: rest =>
    if b0 ≠ 165 then
      match findnext le false rest with
      | none => .error .eof
      | some (id, r) => .ok ([b0, b1], id, r.drop 2)
    else .ok ([b0, b1], b1, rest)
  | _ => .error .eof

/-- `checksum` (dolfyn/io/nortek.py:474-484): `not (sum + 46476 - (cs,))` raises, that is, when the
difference is zero; the sum is not reduced. -/
def nkChecksum (le doCs : Bool) (tid byts rest : List ℕ) : Except NkStop (List ℕ) :=
  if doCs then
    if byts.length % 2 = 1 then .error (.err .structError)
    else match rest with
      | b0 :: b1 :: r =>
        if ((words le (tid ++ byts)).sum : ℤ) + 46476 - word le b0 b1 = 0 then
          .error (.err .exception)
        else .ok r
      | _ => .error .eof
  else .ok (rest.drop 2)

/-- What a record leaves in the data arrays: a sample at index `c`, system data at index `c`, IMU data
at index `c`, or configuration. -/
inductive NkWrite
  | sample (c id : ℕ) (body : List ℕ)
  | sys (c : ℕ) (body : List ℕ)
  | imu (c ahrs : ℕ) (body : List ℕ)
  | other (id : ℕ) (body : List ℕ)
  deriving DecidableEq, Repr

/-- Reader settings: byte order, checksum verification, `inst_model == 'Vectrino'`, number of beams and
bins of the user configuration. -/
structure NkCfg where
  le : Bool
  doCs : Bool
  vno : Bool
  nBeams : ℕ
  nBins : ℕ

/-- Reader state: bytes to come, ensemble counter, writes so far, `'microstrain' in _dtypes`. -/
structure NkState where
  rest : List ℕ
  c : ℕ
  log : List NkWrite
  imu : Bool
  deriving DecidableEq, Repr

/-- Bytes after the id, without the checksum, of the records of fixed length: dolfyn/io/nortek.py:492
(0x00), :582 (0x04), :604 (0x05), :1223 (0x0f), :673 (0x10), :825 (0x11), :789 (0x12), :1051 (0x20),
:1177 (0x50), :1246 (0x51). -/
def nkFixedLen (cfg : NkCfg) (id : ℕ) : Option ℕ :=
  if id = 0x00 then some 508
  else if id = 0x04 then some 220
  else if id = 0x05 then some 44
  else if id = 0x0f then some 22
  else if id = 0x10 then some 20
  else if id = 0x11 then some 24
  else if id = 0x12 then some 38
  else if id = 0x20 then some (116 + cfg.nBeams * 3 * cfg.nBins)
  else if id = 0x50 then some 38
  else if id = 0x51 then some 18
  else none

/-- The effect of a record of fixed length. -/
def nkApply (s : NkState) (id : ℕ) (body rest : List ℕ) : NkState :=
  if id = 0x10 ∨ id = 0x20 ∨ id = 0x51 then
    { s with rest := rest, c := s.c + 1, log := s.log ++ [.sample s.c id body] }
  else if id = 0x11 then { s with rest := rest, log := s.log ++ [.sys s.c body] }
  else { s with rest := rest, log := s.log ++ [.other id body] }

/-- `read_vec_checkdata` (dolfyn/io/nortek.py:693-744): bytes 2 and 3 are the number of samples. -/
def nkCheckdata (cfg : NkCfg) (s : NkState) (tid rest : List ℕ) : Except NkStop (Bool × NkState) := do
  let (byts0, r0) ← nkTake (if cfg.vno then 12 else 6) rest
  let n := word cfg.le (byts0.getD 2 0) (byts0.getD 3 0)
  let (byts1, r1) ← nkTake ((if cfg.vno then 4 else 3) * n) r0
  let r2 ← nkChecksum cfg.le cfg.doCs tid (byts0 ++ byts1) r1
  pure (false, { s with rest := r2, log := s.log ++ [.other 7 (byts0 ++ byts1)] })

/-- Length of the IMU data for an AHRS id (dolfyn/io/nortek.py:972-1004). -/
def nkImuLen (ahrs : ℕ) : Option ℕ :=
  if ahrs = 195 then some 64 else if ahrs = 204 then some 78 else if ahrs = 211 then some 42 else none

/-- `read_microstrain` (dolfyn/io/nortek.py:897-1009): the counter is decremented first (unless it is
zero) and incremented at the end, but not when the AHRS id is unknown; then two of the four header
bytes are given back. Such a record leaves no data but is remembered (`_dtypes`, `_ahrsid`), as `.other 0x71 [ahrs]`. -/
def nkMicrostrain (cfg : NkCfg) (s : NkState) (tid rest : List ℕ) :
    Except NkStop (Bool × NkState) := do
  let c := if s.c = 0 then 0 else s.c - 1
  let (byts0, r0) ← nkTake 4 rest
  let ahrs := byts0.getD 3 0
  match nkImuLen ahrs with
  | some n => do
    let (byts, r1) ← nkTake n r0
    let r2 ← nkChecksum cfg.le cfg.doCs tid (byts0 ++ byts) r1
    pure (false, ⟨r2, c + 1, s.log ++ [.imu c ahrs byts], true⟩)
  | none => pure (true, ⟨rest.drop 2, c, s.log ++ [.other 0x71 [ahrs]], true⟩)

/-- `read_awac_waves` (dolfyn/io/nortek.py:1140-1168): 20 bytes are read and unpacked with an 18-byte
format. -/
def nkWaves (rest : List ℕ) : Except NkStop (Bool × NkState) := do
  let _ ← nkTake 20 rest
  .error (.err .structError)

/-- `read_awac_waves_hdr` (dolfyn/io/nortek.py:1099-1138): assigns into keys that do not exist. -/
def nkWavesHdr (rest : List ℕ) : Except NkStop (Bool × NkState) := do
  let _ ← nkTake 56 rest
  .error (.err .keyError)

/-- A record of fixed length. -/
def nkFixed (cfg : NkCfg) (s : NkState) (tid : List ℕ) (id n : ℕ) (rest : List ℕ) :
    Except NkStop (Bool × NkState) := do
  let (byts, r0) ← nkTake n rest
  let r1 ← nkChecksum cfg.le cfg.doCs tid byts r0
  pure (false, nkApply s id byts r1)

/-- The body of `readnext` (dolfyn/io/nortek.py:401-410) after the id; the flag is the return value 10.
The values of the records (times, strings) are not checked here: the model assumes that converting them
raises nothing. For an unknown id the position goes back to the two bytes of the id. -/
def nkRecord (cfg : NkCfg) (s : NkState) (tid : List ℕ) (id : ℕ) (rest : List ℕ) :
    Except NkStop (Bool × NkState) :=
  match nkFixedLen cfg id with
  | some n => nkFixed cfg s tid id n rest
  | none =>
    if id = 0x07 then nkCheckdata cfg s tid rest
    else if id = 0x71 then nkMicrostrain cfg s tid rest
    else if id = 0x30 ∨ id = 0x36 then nkWaves rest
    else if id = 0x31 then nkWavesHdr rest
    else .ok (true, { s with rest := 165 :: id :: rest })

/-- `readnext`. -/
def nkReadNext (cfg : NkCfg) (s : NkState) : Except NkStop (Bool × NkState) :=
  match nkReadId cfg.le s.rest with
  | .error e => .error e
  | .ok (tid, id, rest) => nkRecord cfg s tid id rest

/-- After a return value 10 `readfile` searches the next record. -/
def nkResync (cfg : NkCfg) (r : Bool) (s : NkState) : Option NkState :=
  if r then (findnext cfg.le true s.rest).map fun x => { s with rest := x.2 } else some s

/-- The extra `readnext` done when `nens` is reached and there is IMU data; exceptions are dropped. -/
def nkExtra (cfg : NkCfg) (s : NkState) : NkState :=
  if s.imu then
    match nkReadNext cfg s with
    | .ok (_, s') => s'
    | .error _ => s
  else s

/-- The loop of `readfile` (dolfyn/io/nortek.py:412-440) with fuel; `none` when the fuel runs out. The
counter after an end of file inside a record is not tracked (it is used only by `_crop_data`, which
changes nothing because the arrays are one level deeper in the dictionary). With checksums, a last record of which
only the checksum is missing is dropped here; the code has stored its values by then. -/
def nkLoop (cfg : NkCfg) (npings : Option ℕ) : ℕ → NkState → Option (Except Err NkState)
  | 0, _ => none
  | fuel + 1, s =>
    match nkReadNext cfg s with
    | .error .eof => some (.ok s)
    | .error (.err e) => some (.error e)
    | .ok (r, s') =>
      match nkResync cfg r s' with
      | none => some (.ok s')
      | some s'' =>
        match npings with
        | some n => if n ≤ s''.c then some (.ok (nkExtra cfg s'')) else nkLoop cfg npings fuel s''
        | none => nkLoop cfg npings fuel s''

/-- `readfile` on the bytes after the configuration. -/
def nkReadfile (cfg : NkCfg) (npings : Option ℕ) (bytes : List ℕ) : Option (Except Err NkState) :=
  nkLoop cfg npings (bytes.length + 1) ⟨bytes, 0, [], false⟩

/-! ### Decoding -/

/-- `_int2binarray` (dolfyn/io/nortek.py:130-134). -/
def int2binarray (val n : ℕ) : List Bool :=
  (List.range n).map fun i => (val &&& 2 ^ i) != 0

end Dolfyn
