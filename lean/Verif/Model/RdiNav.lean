import Verif.Model.Float64
import Verif.Model.RdiVals

/-!
Values of the navigation data in TRDI files: the VMDAS block, the position in WinRiver bottom-track blocks and
the NMEA sentences of WinRiver II. `c` are the bytes after the block identifier. Positions and flags are stored in
single precision as in the code (dolfyn/io/rdi_defs.py:76-82); the other numbers are exact; the decoders of 4- and 8-byte floats are parameters.
-/

namespace Dolfyn

/-- `self._cfac` (dolfyn/io/rdi.py:188). -/
def rdCfac : ℚ := 180 / 2 ^ 31

/-- What `read_vmdas` stores (dolfyn/io/rdi.py:1079-1116). -/
structure VmdasFix where
  time : ℚ
  clockOffset : ℚ
  lat : ℚ
  lon : ℚ
  avgSpeed : ℚ
  avgDir : ℚ
  speedMadeGood : ℚ
  dirMadeGood : ℚ
  flags : ℚ
  pitch : ℚ
  roll : ℚ
  heading : ℚ

/-- `int(np.binary_repr(x))`: the binary digits read as a decimal number. -/
def binDec (x : ℕ) : ℕ := Nat.ofDigits 10 (Nat.digits 2 x)

/-- Midnight of a date; an invalid one raises ValueError. -/
def rdMidnight (y : ℤ) (mo d : ℕ) : Except Err ℚ :=
  let t : CivilTime := ⟨y, mo, d, 0, 0, 0⟩
  if t.valid then .ok (date2epoch t 0) else .error .valueError

/-- The values of `read_vmdas` (dolfyn/io/rdi.py:1079-1116). A `datetime` past the year 9999 is not modelled. -/
def vmdasFix (c : List ℕ) : Except Err VmdasFix :=
  match rdMidnight (rdAt .B c 2 + rdAt .B c 3 * 256) (rdAt .B c 1).toNat (rdAt .B c 0).toNat with
  | .error e => .error e
  | .ok day =>
    match rdMidnight (rdAt .B c 52 + rdAt .B c 53 * 256) (rdAt .B c 55).toNat (rdAt .B c 54).toNat with
    | .error e => .error e
    | .ok _ =>
      .ok { time := day + ((rdAt .I c 20 / 10 : ℤ) : ℚ) / 1000
            clockOffset := (rdAt .i c 8 : ℚ) / 1000
            lat := fl32 (rdAt .i c 24 * rdCfac)
            lon := fl32 (rdAt .i c 28 * rdCfac)
            avgSpeed := (rdAt .H c 32 : ℚ) / 1000
            avgDir := rdAt .H c 34 * 180 / 2 ^ 15
            speedMadeGood := (rdAt .H c 38 : ℚ) / 1000
            dirMadeGood := rdAt .H c 40 * 180 / 2 ^ 15
            flags := fl32 (binDec (rdAt .H c 44).toNat)
            pitch := rdAt .H c 60 * 180 / 2 ^ 15
            roll := rdAt .H c 62 * 180 / 2 ^ 15
            heading := rdAt .H c 64 * 180 / 2 ^ 15 }

/-- Latitude and longitude in the bottom-track block of WinRiver files (dolfyn/io/rdi.py:990-1024); `none` is
NaN. -/
def bottomFix (c : List ℕ) : Option ℚ × Option ℚ :=
  let lat : ℚ := fl32 (rdAt .i c 10 * rdCfac)
  let lon0 : ℚ := fl32 ((rdAt .H c 2 + 65536 * rdAt .H c 44 : ℤ) * rdCfac)
  let lon : ℚ := if lon0 > 180 then fl32 (lon0 - 360) else lon0
  if rdAt .B c 62 = 0 then (none, none)
  else (if lat = 0 then none else some lat, if lon = 0 then none else some lon)

/-- The navigation variables of an ensemble that WinRiver II sentences set. -/
structure Nav where
  time : ℚ
  lat : ℚ
  lon : ℚ
  fix : ℚ
  nSat : ℚ
  hdop : ℚ
  elevation : ℚ
  rtkAge : ℚ
  speed : ℚ
  dir : ℚ
  dist : ℚ
  heading : ℚ

/-- `n` bytes of the block. -/
def navSub (c : List ℕ) (i n : ℕ) : List ℕ := (c.drop i).take n

/-- A decimal digit. -/
def navDigit (x : ℕ) : Option ℕ := if 48 ≤ x ∧ x ≤ 57 then some (x - 48) else none

/-- The time of day `HHMMSS.ss` in seconds (dolfyn/io/rdi.py:1149-1153). Other strings that `int` and `float`
accept are not modelled, they count as errors. -/
def ggaTime (s : List ℕ) : Except Err ℚ :=
  match s with
  | [a, b, c, d, e, f, g, h, i] =>
    match navDigit a, navDigit b, navDigit c, navDigit d, navDigit e, navDigit f, navDigit h, navDigit i with
    | some a, some b, some c, some d, some e, some f, some h, some i =>
      if g = 46 then
        .ok (((a * 10 + b) * 3600 + (c * 10 + d) * 60 + (e * 10 + f) : ℕ) + ((h * 10 + i : ℕ) : ℚ) / 100)
      else .error .valueError
    | _, _, _, _, _, _, _, _ => .error .valueError
  | _ => .error .valueError

/-- `read_winriver2` (dolfyn/io/rdi.py:1124-1253), the values: `none` is `'FAIL'`. `rtc` is the clock of the
ensemble. -/
def winNav (f32 f64 : List ℕ → ℚ) (utf8 : List ℕ → Bool) (rtc : ℕ → ℕ) (c : List ℕ) (n : Nav) :
    Except Err (Option Nav) :=
  let spid := rdAt .H c 0
  let sz := rdAt .H c 2
  let named := utf8 (navSub c 12 6)
  let f4 := fun i => f32 (navSub c i 4)
  let f8 := fun i => f64 (navSub c i 8)
  if spid = 4 ∨ spid = 104 then
    if sz ≤ 43 then .ok (some n)
    else if named = false then .ok none
    else
      match ggaTime (navSub c 19 9) with
      | .error e => .error e
      | .ok tod =>
        let rtc' := rdCentury rtc
        match rdMidnight (rtc' 0) (rtc' 1) (rtc' 2) with
        | .error e => .error e
        | .ok day =>
          .ok (some { n with
            time := day + tod
            lat := if rdAt .B c 37 = 83 then fl32 (f8 29) * -1 else fl32 (f8 29)
            lon := if rdAt .B c 46 = 87 then fl32 (f8 38) * -1 else fl32 (f8 38)
            fix := rdAt .B c 47
            nSat := rdAt .B c 48
            hdop := f4 49
            elevation := f4 53
            rtkAge := f4 63 })
  else if spid = 5 ∨ spid = 105 then
    if sz ≤ 22 then .ok (some n)
    else if named = false then .ok none
    else .ok (some { n with speed := f4 29 / (1944 / 1000), dir := f4 19 })
  else if spid = 6 ∨ spid = 106 then
    if sz ≤ 20 then .ok (some n)
    else if named = false then .ok none
    else .ok (some { n with dist := f4 24 })
  else if spid = 7 ∨ spid = 107 then
    if sz ≤ 14 then .ok (some n)
    else if named = false then .ok none
    else .ok (some { n with heading := f8 19 })
  else .ok (some n)

end Dolfyn
