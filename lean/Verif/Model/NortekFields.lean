import Verif.Model.Nortek
import Verif.Model.Clock
import Mathlib.Data.Fin.VecNotation
import Mathlib.Data.Real.Basic
import Mathlib.Data.Rat.Floor
import Mathlib.Algebra.Order.Floor.Ring

/-!
Model of how `dolfyn/io/nortek.py` turns the bytes of Vector, Vectrino and AWAC records into numbers.
Bytes are numbers below 256. The float32 storage of the results is exact here.
-/

namespace Dolfyn

/-- Format characters of `struct.unpack` used by the reader. -/
inductive SFmt
  | H
  | h
  | B
  | x
  deriving DecidableEq, Repr

/-- The 16-bit two's complement value (format `h`). -/
def sInt16 (u : ℕ) : ℤ := if u < 32768 then u else (u : ℤ) - 65536

/-- `struct.unpack` with `endian`; the caller checks the length. -/
def sUnpack (le : Bool) : List SFmt → List ℕ → List ℤ
  | .H :: f, a :: b :: r => (word le a b : ℤ) :: sUnpack le f r
  | .h :: f, a :: b :: r => sInt16 (word le a b) :: sUnpack le f r
  | .B :: f, a :: r => (a : ℤ) :: sUnpack le f r
  | .x :: f, _ :: r => sUnpack le f r
  | _, _ => []

/-- A Vector velocity sample as stored (after `sci_vec_data`). -/
structure VecSample where
  ana2lsb : ℤ
  count : ℤ
  ana2msb : ℤ
  ana1 : ℤ
  pressure : ℚ
  vel : Fin 3 → ℚ
  amp : Fin 3 → ℤ
  corr : Fin 3 → ℤ

/-- `read_vec_data` (dolfyn/io/nortek.py:659-691, format `4B2H3h6B` of 20 bytes) followed by
`sci_vec_data` (:765-780): pressure in dbar, velocity times 0.001 and the scale of the configuration. -/
def vecData (le : Bool) (scale : ℚ) (byts : List ℕ) : Except Err VecSample :=
  if byts.length ≠ 20 then .error .structError
  else match sUnpack le [.B, .B, .B, .B, .H, .H, .h, .h, .h, .B, .B, .B, .B, .B, .B] byts with
    | [al, ct, pm, am, pl, a1, v0, v1, v2, m0, m1, m2, c0, c1, c2] =>
      .ok { ana2lsb := al, count := ct, ana2msb := am, ana1 := a1
            pressure := ((pm : ℚ) * 65536 + pl) / 1000
            vel := ![(v0 : ℚ) * (1 / 1000) * scale, (v1 : ℚ) * (1 / 1000) * scale,
              (v2 : ℚ) * (1 / 1000) * scale]
            amp := ![m0, m1, m2], corr := ![c0, c1, c2] }
    | _ => .error .structError

/-- A Vectrino velocity sample as stored (after `sci_vno_data`). -/
structure VnoSample where
  status : ℤ
  count : ℤ
  vel : Fin 4 → ℚ
  amp : Fin 4 → ℤ
  corr : Fin 4 → ℤ

/-- `read_vno_data` (dolfyn/io/nortek.py:1228-1264, format `2B4h8B` of 18 bytes) and `sci_vno_data`
(:782-787). -/
def vnoData (le : Bool) (scale : ℚ) (byts : List ℕ) : Except Err VnoSample :=
  if byts.length ≠ 18 then .error .structError
  else match sUnpack le [.B, .B, .h, .h, .h, .h, .B, .B, .B, .B, .B, .B, .B, .B] byts with
    | [st, ct, v0, v1, v2, v3, m0, m1, m2, m3, c0, c1, c2, c3] =>
      .ok { status := st, count := ct
            vel := ![(v0 : ℚ) * (1 / 1000) * scale, (v1 : ℚ) * (1 / 1000) * scale,
              (v2 : ℚ) * (1 / 1000) * scale, (v3 : ℚ) * (1 / 1000) * scale]
            amp := ![m0, m1, m2, m3], corr := ![c0, c1, c2, c3] }
    | _ => .error .structError

/-- The system data of a Vector as stored (after the scaling of `sci_vec_sysdata`). -/
structure VecSys where
  time : CivilTime
  batt : ℚ
  cSound : ℚ
  heading : ℚ
  pitch : ℚ
  roll : ℚ
  temp : ℚ
  error : ℤ
  status : ℤ
  anaIn : ℤ

/-- `read_vec_sysdata` (dolfyn/io/nortek.py:814-842, format `2H3hH2BH` of `byts[8:]`) with the factors of
`nortek_defs.vec_sysdata` (dolfyn/io/nortek_defs.py:146-234). The temperature is unpacked with `H`. -/
def vecSysdata (le : Bool) (byts : List ℕ) : Except Err VecSys := do
  let t ← rdTime ((byts.drop 2).take 6)
  if (byts.drop 8).length ≠ 16 then .error .structError
  else match sUnpack le [.H, .H, .h, .h, .h, .H, .B, .B, .H] (byts.drop 8) with
    | [ba, cs, he, pi, ro, te, er, st, an] =>
      .ok { time := t, batt := ba / 10, cSound := cs / 10, heading := he / 10, pitch := pi / 10
            roll := ro / 10, temp := te / 100, error := er, status := st, anaIn := an }
    | _ => .error .structError

/-- An AWAC profile as stored; velocity and amplitude as functions of beam and cell. The arrays always
have three beams; beams which are not recorded keep NaN (velocity) and 0 (amplitude). -/
structure AwacProfile where
  time : CivilTime
  error : ℤ
  ana1 : ℤ
  batt : ℚ
  cSound : ℚ
  heading : ℚ
  pitch : ℚ
  roll : ℚ
  pressure : ℚ
  status : ℤ
  temp : ℚ
  vel : ℕ → ℕ → Option ℚ
  amp : ℕ → ℕ → ℤ

/-- `read_awac_profile` (dolfyn/io/nortek.py:1038-1077, formats `7HBB2H` of `byts[8:28]` and
`{n*nbins}h{n*nbins}B` of the bytes from 116 on) with the factors of `nortek_defs.awac_profile`
(dolfyn/io/nortek_defs.py:238-341). Heading, pitch, roll and temperature are unpacked with `H`. Storing
the fourth beam raises, as the arrays have three. -/
def awacProfile (le : Bool) (n nbins : ℕ) (byts : List ℕ) : Except Err AwacProfile := do
  let t ← rdTime ((byts.drop 2).take 6)
  if byts.length ≠ 116 + n * 3 * nbins then .error .structError
  else match sUnpack le [.H, .H, .H, .H, .H, .H, .H, .B, .B, .H, .H] ((byts.drop 8).take 20) with
    | [er, a1, ba, cs, he, pi, ro, pm, st, pl, te] =>
      let tmp := sUnpack le (List.replicate (n * nbins) .h ++ List.replicate (n * nbins) .B)
        (byts.drop 116)
      if 3 < n then .error .indexError
      else .ok {
          time := t, error := er, ana1 := a1, batt := ba / 10, cSound := cs / 10, heading := he / 10
          pitch := pi / 10, roll := ro / 10, pressure := ((65536 * pm + pl : ℤ) : ℚ) / 1000
          status := st, temp := te / 100
          vel := fun b k => if b < n ∧ k < nbins
            then some ((((tmp.drop (b * nbins)).take nbins).getD k 0 : ℤ) / 1000) else none
          amp := fun b k => if b < n ∧ k < nbins
            then ((tmp.drop ((b + n) * nbins)).take nbins).getD k 0 else 0 }
    | _ => .error .structError

/-- Python's `round(x, ndigits=2)` on exact numbers. -/
noncomputable def round2 (round : ℝ → ℤ) (x : ℝ) : ℝ := (round (x * 100) : ℝ) / 100

/-- `cs_coefs` (dolfyn/io/nortek.py:1082-1085). -/
noncomputable def awacCoef (freq : ℕ) : Option ℝ :=
  if freq = 2000 then some (239 / 10000)
  else if freq = 1000 then some (478 / 10000)
  else if freq = 600 then some (797 / 10000)
  else if freq = 400 then some (1195 / 10000)
  else none

/-- `sci_awac_profile` (dolfyn/io/nortek.py:1079-1097): cell size, blanking distance and range of each
cell; `cosH` is the cosine of the head angle, `round` rounds to the nearest integer. -/
noncomputable def awacRange (round : ℝ → ℤ) (cosH : ℝ) (freq binLength blank : ℕ) :
    Except Err (ℝ × ℝ × (ℕ → ℝ)) :=
  match awacCoef freq with
  | none => .error .keyError
  | some coef =>
    let cs := round2 round ((binLength : ℝ) / 256 * coef * cosH)
    let bd := round2 round ((blank : ℝ) * (229 / 10000) * cosH - cs)
    .ok (cs, bd, fun i => ((i : ℝ) + 1) * cs + bd)

/-- `read_head_cfg` for instruments other than the Vectrino (dolfyn/io/nortek.py:578-600): the nine signed
numbers at bytes 8-25 of the system data, which start at byte 20 of the record after the id; divided by
4096, row by row. -/
def headMatrix (le : Bool) (byts : List ℕ) : Except Err (Fin 3 → Fin 3 → ℚ) :=
  if byts.length ≠ 220 then .error .structError
  else
    let v := sUnpack le (List.replicate 9 .h) ((((byts.drop 20).take 176).drop 8).take 18)
    .ok fun i j => (v.getD (3 * i.val + j.val) 0 : ℤ) / 4096

end Dolfyn
