import Verif.Model.Nortek
import Verif.Model.NortekFields

/-!
Model of how `dolfyn/io/nortek.py` opens a Vector, AWAC or Vectrino file: the byte order, the three
configuration records at the start of the file, the kind of instrument, the sampling rate, the coordinate
system and the duty cycle. Texts are lists of characters; `utf8` is `bytes.decode('utf-8')`, `none` when it
raises `UnicodeDecodeError` (a `ValueError`). `'True'`/`'False'` and two-valued labels are `Bool`.
-/

namespace Dolfyn

/-- The `H` at byte `i`. -/
def nkU16 (le : Bool) (c : List ℕ) (i : ℕ) : ℕ := word le (c.getD i 0) (c.getD (i + 1) 0)

/-- The bytes `[i:i+n]`. -/
def nkSub (c : List ℕ) (i n : ℕ) : List ℕ := (c.drop i).take n

/-- The `I` at byte `i`. -/
def nkU32 (le : Bool) (c : List ℕ) (i : ℕ) : ℕ :=
  if le then nkU16 le c i + 65536 * nkU16 le c (i + 2) else 65536 * nkU16 le c i + nkU16 le c (i + 2)

/-- Bit `i` of `_int2binarray(v, 16)` (dolfyn/io/nortek.py:129-133). -/
def nkBit (v i : ℕ) : Bool := (int2binarray v 16).getD i false

/-- `bytes.decode('utf-8')`. -/
def nkText (utf8 : List ℕ → Option (List Char)) (c : List ℕ) : Except Err (List Char) :=
  match utf8 c with
  | some s => .ok s
  | none => .error .valueError

/-- `bytes.partition(b'\x00')[0]`. -/
def untilNul (c : List ℕ) : List ℕ := c.takeWhile (· != 0)

/-- What `read_hw_cfg` keeps (dolfyn/io/nortek.py:601-621). -/
structure NkHdw where
  serial : List Char
  prologId : ℕ
  prologFw : List Char
  boardConfig : ℕ
  boardFreq : ℕ
  picVersion : ℕ
  hardwareRev : ℕ
  recorderBytes : ℕ
  highRange : Bool
  firmware : List Char
  deriving DecidableEq, Repr

/-- `read_hw_cfg` (dolfyn/io/nortek.py:601-621) on the 44 bytes of the record, format `2x14s6H12x4s`. -/
def nkHw (le : Bool) (utf8 : List ℕ → Option (List Char)) (c : List ℕ) : Except Err NkHdw :=
  if c.length ≠ 44 then .error .structError
  else match nkText utf8 (nkSub c 2 8) with
    | .error e => .error e
    | .ok serial =>
      match nkText utf8 (nkSub c 12 4) with
      | .error e => .error e
      | .ok fw =>
        match nkText utf8 (nkSub c 40 4) with
        | .error e => .error e
        | .ok firm =>
          .ok { serial := serial, prologId := c.getD 10 0, prologFw := fw, boardConfig := nkU16 le c 16,
                boardFreq := nkU16 le c 18, picVersion := nkU16 le c 20, hardwareRev := nkU16 le c 22,
                recorderBytes := nkU16 le c 24 * 65536, highRange := nkBit (nkU16 le c 26) 0, firmware := firm }

/-- What `read_head_cfg` keeps (dolfyn/io/nortek.py:578-600). -/
structure NkHeadCfg where
  pressure : Bool
  compass : Bool
  tilt : Bool
  freqKHz : ℕ
  nBeam : ℕ
  mat : ℕ → ℕ → ℚ

/-- White space of `str.split`, as far as ASCII goes. -/
def isBlank (ch : Char) : Bool :=
  ch = ' ' || ch = '\t' || ch = '\n' || ch = '\r' || ch.toNat = 11 || ch.toNat = 12 ||
    (28 ≤ ch.toNat && ch.toNat ≤ 31)

/-- `s.split()[0]`. -/
def firstWord (s : List Char) : Except Err (List Char) :=
  match (s.dropWhile isBlank).takeWhile (fun ch => !isBlank ch) with
  | [] => .error .indexError
  | w => .ok w

/-- `np.array(unpack(endian + '{n**2}h', sysdata[8:8+2*n**2])).reshape(n, n) / 4096`: the row-by-row table of
`n × n` signed numbers of the system data (176 bytes from byte 20 of the record). -/
def nkMat (le : Bool) (n : ℕ) (c : List ℕ) : Except Err (ℕ → ℕ → ℚ) :=
  let b := nkSub (nkSub c 20 176) 8 (2 * (n * n))
  if b.length ≠ 2 * (n * n) then .error .structError
  else
    .ok fun i j => (((sUnpack le (List.replicate (n * n) .h) b).getD (n * i + j) 0 : ℤ) : ℚ) / 4096

/-- `read_head_cfg` (dolfyn/io/nortek.py:578-600), format `2x3H12s176s22sH`: 3 × 3 for Vector and AWAC, and a
table by the number of beams for the Vectrino. -/
def nkHeadCfg (le : Bool) (serial : List Char) (c : List ℕ) : Except Err NkHeadCfg :=
  if c.length ≠ 220 then .error .structError
  else match firstWord serial with
    | .error e => .error e
    | .ok w =>
      match nkMat le (if w ≠ ['V', 'N', 'O'] then 3 else nkU16 le c 218) c with
      | .error e => .error e
      | .ok m =>
        .ok (NkHeadCfg.mk (nkBit (nkU16 le c 2) 0) (nkBit (nkU16 le c 2) 1) (nkBit (nkU16 le c 2) 2) (nkU16 le c 4)
          (if w ≠ ['V', 'N', 'O'] then 3 else nkU16 le c 218) m)

/-- Coordinate systems of the recorded velocity (`coord_sys_axes`). -/
inductive NkAxes
  | enu | xyz | beam
  deriving DecidableEq, Repr

/-- `['ENU', 'XYZ', 'beam'][k]`. -/
def nkAxes : ℕ → Except Err NkAxes
  | 0 => .ok .enu
  | 1 => .ok .xyz
  | 2 => .ok .beam
  | _ => .error .indexError

/-- The labels of `wave_processing_method`. -/
inductive NkWave
  | puv | suv | mlm | mlmst | none
  deriving DecidableEq, Repr

/-- `['PUV', 'SUV', 'MLM', 'MLMST', 'None'][k]`. -/
def nkWave : ℕ → Except Err NkWave
  | 0 => .ok .puv
  | 1 => .ok .suv
  | 2 => .ok .mlm
  | 3 => .ok .mlmst
  | 4 => .ok .none
  | _ => .error .indexError

/-- Decimal digits, `str(n)`. -/
def decStr (n : ℕ) : List Char := Nat.toDigits 10 n

/-- `s[0] + '.' + s[1:3] + '.' + s[3:]`. -/
def softVersion (n : ℕ) : List Char :=
  (decStr n).take 1 ++ ['.'] ++ ((decStr n).drop 1).take 2 ++ ['.'] ++ (decStr n).drop 3

/-- What `read_user_cfg` keeps (dolfyn/io/nortek.py:486-576). -/
structure NkUser where
  transmitLen : ℕ
  blank : ℕ
  receiveLen : ℕ
  betweenPings : ℕ
  betweenBursts : ℕ
  nPings : ℕ
  avgInterval : ℕ
  nBeams : ℕ
  continuous : Bool
  burstMode : Bool
  powerLevel : ℕ
  syncEnd : Bool
  sampleOnSync : Bool
  startOnSync : Bool
  compassRate : ℕ
  axes : NkAxes
  nBins : ℕ
  binLength : ℕ
  burstInterval : ℕ
  name : List Char
  wrap : Bool
  diagInterval : ℕ
  soundSpeedAdj : ℕ
  nSampDiag : ℕ
  nBeamsCellsDiag : ℕ
  nPingsDiag : ℕ
  analogIn : ℕ
  version : List Char
  salinity : ℚ
  velAdj : List ℕ
  comments : List Char
  waveMethod : NkWave
  waveCellPos : ℤ
  waveTransmit : ℕ
  waveBlank : ℕ
  waveCellSize : ℕ
  nSampWave : ℕ
  nBurst : ℕ
  analogOut : ℕ
  corrThresh : ℕ
  lag2 : ℕ
  qualConst : List ℕ
  userSound : Bool
  waveMode : Bool
  analogOutput : Bool
  advFormat : Bool
  velScale : ℚ
  serialOutput : Bool
  powerAnalog : Bool
  useDSP : Bool
  correctionOnly : Bool
  wave2Hz : Bool
  waveDynamic : Bool
  waveMinRe : Bool

/-- `int(x)` of a non-negative number: `int(v / 32767 * 100)`, exact. -/
def pct (v : ℕ) : ℤ := ((100 * v / 32767 : ℕ) : ℤ)

/-- `read_user_cfg` (dolfyn/io/nortek.py:486-576), format `2x18H6s4HI9H90H80s48xH50x6H4xH2x2H2xH30x8H`, on the
508 bytes of the record. `bool(~bit)` of the integers 0 and 1 is `bool(-1)` or `bool(-2)`. The two lookups that
can fail come in the order of the code, the texts as well. -/
def nkUser (le : Bool) (utf8 : List ℕ → Option (List Char)) (c : List ℕ) : Except Err NkUser :=
  if c.length ≠ 508 then .error .structError
  else match nkAxes (nkU16 le c 30) with
    | .error e => .error e
    | .ok axes =>
      match nkText utf8 (untilNul (nkSub c 38 6)) with
      | .error e => .error e
      | .ok name =>
        match nkText utf8 (untilNul (nkSub c 254 80)) with
        | .error e => .error e
        | .ok comments =>
          match nkWave (nkU16 le c 382) with
          | .error e => .error e
          | .ok wave =>
            .ok {
              transmitLen := nkU16 le c 2
              blank := nkU16 le c 4
              receiveLen := nkU16 le c 6
              betweenPings := nkU16 le c 8
              betweenBursts := nkU16 le c 10
              nPings := nkU16 le c 12
              avgInterval := nkU16 le c 14
              nBeams := nkU16 le c 16
              continuous := nkBit (nkU16 le c 18) 1
              burstMode := ((-(if nkBit (nkU16 le c 18) 2 then 1 else 0 : ℤ) - 1) != 0)
              powerLevel := (if nkBit (nkU16 le c 18) 5 then 1 else 0) +
                2 * (if nkBit (nkU16 le c 18) 6 then 1 else 0) + 1
              syncEnd := nkBit (nkU16 le c 18) 7
              sampleOnSync := nkBit (nkU16 le c 18) 8
              startOnSync := nkBit (nkU16 le c 18) 9
              compassRate := nkU16 le c 28
              axes := axes
              nBins := nkU16 le c 32
              binLength := nkU16 le c 34
              burstInterval := nkU16 le c 36
              name := name
              wrap := nkU16 le c 44 != 0
              diagInterval := nkU32 le c 52
              soundSpeedAdj := nkU16 le c 58
              nSampDiag := nkU16 le c 60
              nBeamsCellsDiag := nkU16 le c 62
              nPingsDiag := nkU16 le c 64
              analogIn := nkU16 le c 68
              version := softVersion (nkU16 le c 70)
              salinity := (nkU16 le c 72 : ℚ) / 10
              velAdj := (List.range 90).map fun k => nkU16 le c (74 + 2 * k)
              comments := comments
              waveMethod := wave
              waveCellPos := pct (nkU16 le c 436)
              waveTransmit := nkU16 le c 438
              waveBlank := nkU16 le c 440
              waveCellSize := nkU16 le c 442
              nSampWave := nkU16 le c 444
              nBurst := nkU16 le c 450
              analogOut := nkU16 le c 454
              corrThresh := nkU16 le c 456
              lag2 := nkU16 le c 460
              qualConst := (List.range 8).map fun k => nkU16 le c (492 + 2 * k)
              userSound := nkBit (nkU16 le c 56) 0
              waveMode := nkBit (nkU16 le c 56) 1
              analogOutput := nkBit (nkU16 le c 56) 2
              advFormat := nkBit (nkU16 le c 56) 3
              velScale := if nkBit (nkU16 le c 56) 4 then 1 / 10 else 1
              serialOutput := nkBit (nkU16 le c 56) 5
              powerAnalog := nkBit (nkU16 le c 56) 8
              useDSP := nkBit (nkU16 le c 66) 0
              correctionOnly := nkBit (nkU16 le c 66) 1
              wave2Hz := nkBit (nkU16 le c 434) 0
              waveDynamic := nkBit (nkU16 le c 434) 1
              waveMinRe := nkBit (nkU16 le c 434) 2 }

/-- The instruments the reader knows. -/
inductive NkInst
  | adv | awac | vno
  deriving DecidableEq, Repr

/-- The kind of instrument from `serial_number[0:3].upper()`; `config.pop('config_type')` raises for any other
(dolfyn/io/nortek.py:224-231). -/
def nkInstOf (serial : List Char) : Except Err NkInst :=
  if (serial.take 3).map Char.toUpper = ['W', 'P', 'R'] then .ok .awac
  else if (serial.take 3).map Char.toUpper = ['V', 'E', 'C'] then .ok .adv
  else if (serial.take 3).map Char.toUpper = ['V', 'N', 'O'] then .ok .vno
  else .error .keyError

/-- The sampling rate (dolfyn/io/nortek.py:297, 322, 345). -/
def nkFs (inst : NkInst) (avg : ℕ) : Except Err ℚ :=
  if avg = 0 then .error .zeroDivision
  else .ok (match inst with
    | .adv => (512 : ℚ) / avg
    | .awac => (1 : ℚ) / avg
    | .vno => (50000 : ℚ) / avg)

/-- The reference frame named in the dataset (dolfyn/io/nortek.py:263-265). -/
inductive NkFrame
  | earth | inst | beam
  deriving DecidableEq, Repr

/-- `{'XYZ': 'inst', 'ENU': 'earth', 'beam': 'beam'}[…]`. -/
def nkFrame : NkAxes → NkFrame
  | .xyz => .inst
  | .enu => .earth
  | .beam => .beam

/-- `duty_cycle_n_burst`, `duty_cycle_interval` and the seconds written into `duty_cycle_description`
(dolfyn/io/nortek.py:249-259). `r7`, `r3` are `round(·, 7)`, `round(·, 3)`. -/
def nkDuty (r7 r3 : ℚ → ℚ) (nBurst interval : ℕ) (fs : ℚ) : Option (ℕ × ℕ × ℚ) :=
  if 0 < nBurst then
    some (nBurst, interval, if 1 < r7 fs then (nBurst : ℚ) / r7 fs else r3 (1 / r7 fs))
  else none

/-- The test for the byte order (dolfyn/io/nortek.py:197-205): the second `self.read(4)` reads the next four
bytes. -/
def nkEndian (bytes : List ℕ) : Except NkStop Bool :=
  match nkTake 4 bytes with
  | .error e => .error e
  | .ok (a, r) =>
    if words true a = [1445, 24] then .ok true
    else match nkTake 4 r with
      | .error e => .error e
      | .ok (b, _) => if words false b = [1445, 24] then .ok false else .error (.err .exception)

/-- What is known after `__init__`. -/
structure NkOpened where
  inst : NkInst
  hdw : NkHdw
  head : NkHeadCfg
  user : NkUser
  fs : ℚ
  frame : NkFrame
  rest : List ℕ

/-- One configuration record: id, `size` bytes, decoding, checksum (dolfyn/io/nortek.py:212-223 and
`read_hw_cfg`, `read_head_cfg`, `read_user_cfg`). Exceptions of the decoding come before those of the
checksum. -/
def nkCfgRec {α : Type} (le doCs : Bool) (id size : ℕ) (dec : List ℕ → Except Err α) (bytes : List ℕ) :
    Except NkStop (α × List ℕ) :=
  match nkReadId le bytes with
  | .error e => .error e
  | .ok (tid, i, r) =>
    if i ≠ id then .error (.err .exception)
    else match nkTake size r with
      | .error e => .error e
      | .ok (c, r') =>
        match dec c with
        | .error e => .error (.err e)
        | .ok x =>
          match nkChecksum le doCs tid c r' with
          | .error e => .error e
          | .ok r'' => .ok (x, r'')

/-- `__init__` after the byte order is known (dolfyn/io/nortek.py:207-266), without the guess at the number of
samples (Model/NortekSize). -/
def nkInitLe (le doCs : Bool) (utf8 : List ℕ → Option (List Char)) (bytes : List ℕ) :
    Except NkStop NkOpened :=
  match nkCfgRec le doCs 5 44 (nkHw le utf8) bytes with
  | .error e => .error e
  | .ok (hdw, r1) =>
    match nkCfgRec le doCs 4 220 (nkHeadCfg le hdw.serial) r1 with
    | .error e => .error e
    | .ok (head, r2) =>
      match nkCfgRec le doCs 0 508 (nkUser le utf8) r2 with
      | .error e => .error e
      | .ok (user, r3) =>
        match nkInstOf hdw.serial with
        | .error e => .error (.err e)
        | .ok inst =>
          match nkFs inst user.avgInterval with
          | .error e => .error (.err e)
          | .ok fs => .ok ⟨inst, hdw, head, user, fs, nkFrame user.axes, r3⟩

/-- `__init__` (dolfyn/io/nortek.py:176-268) with `endian=None`, the only way `read_nortek` calls it. -/
def nkInit (doCs : Bool) (utf8 : List ℕ → Option (List Char)) (bytes : List ℕ) : Except NkStop NkOpened :=
  match nkEndian bytes with
  | .error e => .error e
  | .ok le => nkInitLe le doCs utf8 bytes

/-- The argument `nens`. -/
inductive NkNens
  | all
  | first (n : ℕ)
  | seq (l : List ℕ)

/-- How `nens` is understood (dolfyn/io/nortek.py:186-202): the limit on the pings, the start. -/
def nkNens : NkNens → Except Err (Option ℕ × ℕ)
  | .all => .ok (none, 0)
  | .first n => .ok (some n, 0)
  | .seq [a, b] => .ok (some b, a)
  | .seq _ => .error .typeError

/-- What is read with `nens`: `_n_start` is stored, and used nowhere (dolfyn/io/nortek.py:186, 200). -/
def nkReadNens (cfg : NkCfg) (nens : NkNens) (bytes : List ℕ) : Option (Except Err NkState) :=
  match nkNens nens with
  | .error e => some (.error e)
  | .ok (npings, _) => nkReadfile cfg npings bytes

end Dolfyn
