import Verif.Model.Ad2cp
import Mathlib.Analysis.SpecialFunctions.Pow.Real

/-!
Conversion of AD2CP data to physical units (dolfyn/io/nortek2_defs.py:66-164, dolfyn/io/nortek2.py:392-401). One ping is
modelled; a pattern of 32 bits becomes a number by the parameter `fl`; float32 rounding is left out.
-/

namespace Dolfyn

/-- The names of the variables in the definition lists (dolfyn/io/nortek2_defs.py:178-369). -/
inductive AdVar
  | ver | datOffset | config | serialNum | year | month | day | hour | minute | second | usec100 | cSound | temp
  | pressure | heading | pitch | roll | beamConfig | cellSize | blankDist | nominalCorr | tempPress | unused | batt
  | mag | accel | ambigVel | dataDesc | xmitEnergy | velScale | powerLevel | tempMag | tempClock | error | status0
  | status | ensemble
  | orientmat | quaternions | angrt
  | vel | dist | fom | echo | amp | corr
  | leDist | leQuality | statusAlt
  | astDist | astQuality | astOffsetTime | pressureAlt | spare
  | nsampAlt | dsampAlt | sampAlt
  | percentGood
  | pitchStd | rollStd | headingStd | pressStd | stdSpare
  deriving DecidableEq, Repr

/-- A name and its `sci_func`: `None` or a `_LinFunc` with scale and offset. -/
structure AdDef where
  name : AdVar
  sci : Option (ℝ × ℝ)

/-- `_LinFunc(scale)`. -/
noncomputable def adScale (name : AdVar) (scale : ℝ) : AdDef := ⟨name, some (scale, 0)⟩

/-- No conversion. -/
def adPlain (name : AdVar) : AdDef := ⟨name, none⟩

/-- `_burst_hdr` (dolfyn/io/nortek2_defs.py:178-224); the factor of the blanking distance is a parameter because
`_calc_echo_struct` replaces the entry. -/
noncomputable def adBurstHdrDefs (blank : ℝ) : List AdDef :=
  [adPlain .ver, adPlain .datOffset, adPlain .config, adPlain .serialNum, adPlain .year, adPlain .month, adPlain .day,
   adPlain .hour, adPlain .minute, adPlain .second, adPlain .usec100, adScale .cSound 0.1, adScale .temp 0.01,
   adScale .pressure 0.001, adScale .heading 0.01, adScale .pitch 0.01, adScale .roll 0.01, adPlain .beamConfig,
   adScale .cellSize 0.001, adScale .blankDist blank, adPlain .nominalCorr, ⟨.tempPress, some (0.2, -20)⟩,
   adScale .batt 0.1, adScale .mag 0.1, adScale .accel (1 / 16384 * 9.81), adScale .ambigVel 0.001,
   adPlain .dataDesc, adPlain .xmitEnergy, adPlain .velScale, adScale .powerLevel 1, adPlain .tempMag,
   adScale .tempClock 0.01, adPlain .error, adPlain .status0, adPlain .status, adPlain .ensemble]

/-- `_bt_hdr` (dolfyn/io/nortek2_defs.py:226-270). -/
noncomputable def adBtHdrDefs : List AdDef :=
  [adPlain .ver, adPlain .datOffset, adPlain .config, adPlain .serialNum, adPlain .year, adPlain .month, adPlain .day,
   adPlain .hour, adPlain .minute, adPlain .second, adPlain .usec100, adScale .cSound 0.1, adScale .temp 0.01,
   adScale .pressure 0.001, adScale .heading 0.01, adScale .pitch 0.01, adScale .roll 0.01, adPlain .beamConfig,
   adScale .cellSize 0.001, adScale .blankDist 0.01, adPlain .nominalCorr, adPlain .unused,
   adScale .batt 0.1, adPlain .mag, adScale .accel (1 / 16384 * 9.81), adScale .ambigVel 0.001,
   adPlain .dataDesc, adPlain .xmitEnergy, adPlain .velScale, adScale .powerLevel 1, adPlain .tempMag,
   adScale .tempClock 0.01, adPlain .error, adPlain .status, adPlain .ensemble]

/-- `_ahrs_def` (dolfyn/io/nortek2_defs.py:273-277). -/
noncomputable def adAhrsDefs : List AdDef :=
  [adPlain .orientmat, adPlain .quaternions, adScale .angrt (Real.pi / 180)]

/-- `_calc_bt_struct` (dolfyn/io/nortek2_defs.py:280-292). -/
noncomputable def adBtDefs (config : ℕ) : List AdDef :=
  adBtHdrDefs
    ++ (if getbit config 5 then [adPlain .vel] else [])
    ++ (if getbit config 8 then [adScale .dist 0.001] else [])
    ++ (if getbit config 9 then [adPlain .fom] else [])
    ++ (if getbit config 10 then adAhrsDefs else [])

/-- `_calc_echo_struct` (dolfyn/io/nortek2_defs.py:295-307). -/
noncomputable def adEchoDefs (config : ℕ) : List AdDef :=
  adBurstHdrDefs 0.001
    ++ (if getbit config 11 then [adScale .echo 0.01] else [])
    ++ (if getbit config 12 then adAhrsDefs else [])

/-- `_calc_burst_struct` (dolfyn/io/nortek2_defs.py:310-369). -/
noncomputable def adBurstDefs (config : ℕ) : List AdDef :=
  adBurstHdrDefs 0.01
    ++ (if getbit config 5 then [adPlain .vel] else [])
    ++ (if getbit config 6 then [adScale .amp 0.5] else [])
    ++ (if getbit config 7 then [adPlain .corr] else [])
    ++ (if getbit config 8 then [adScale .leDist 1, adScale .leQuality 0.01, adPlain .statusAlt] else [])
    ++ (if getbit config 10 then [adScale .astDist 1, adScale .astQuality 0.01, adScale .astOffsetTime 0.0001,
        adPlain .pressureAlt, adPlain .spare] else [])
    ++ (if getbit config 9 then [adPlain .nsampAlt, adScale .dsampAlt 0.0001, adPlain .sampAlt] else [])
    ++ (if getbit config 12 then adAhrsDefs else [])
    ++ (if getbit config 13 then [adPlain .percentGood] else [])
    ++ (if getbit config 14 then [adScale .pitchStd 0.01, adScale .rollStd 0.01, adScale .headingStd 0.01,
        adScale .pressStd 0.1, adPlain .stdSpare] else [])

/-- The data of one ping, by name; the elements of an array in the order of the file. -/
abbrev AdData := AdVar → Option (List ℝ)

/-- The elements of an item. -/
def AdItem.elems : AdItem → List ℤ
  | .num v => [v]
  | .tup vs => vs

/-- The number of an element. -/
def adNumber (fl : ℤ → ℝ) (fmt : AdFmt) (v : ℤ) : ℝ := if fmt = .f then fl v else v

/-- `read_into` (dolfyn/io/nortek2_defs.py:75-81): the items under their names. -/
def adInto (fl : ℤ → ℝ) : List AdDef → List AdField → List AdItem → AdData → AdData
  | df :: dfs, fd :: fds, it :: its, d =>
    adInto fl dfs fds its (Function.update d df.name (some (it.elems.map (adNumber fl fd.fmt))))
  | _, _, _, d => d

/-- `_LinFunc.__call__` (dolfyn/io/nortek2_defs.py:159-164). -/
noncomputable def adLinR (scale offset x : ℝ) : ℝ :=
  if scale ≠ 1 ∨ offset ≠ 0 then (x + offset) * scale else x

/-- `_DataDef.sci_data` (dolfyn/io/nortek2_defs.py:113-118). -/
noncomputable def adSciDefs : List AdDef → AdData → Except Err AdData
  | [], d => .ok d
  | df :: dfs, d =>
    match df.sci with
    | none => adSciDefs dfs d
    | some (scale, offset) =>
      match d df.name with
      | none => .error .keyError
      | some x => adSciDefs dfs (Function.update d df.name (some (x.map (adLinR scale offset))))

/-- The velocity times ten to the power of its scale (dolfyn/io/nortek2.py:399-401); the scale is one number per ping. -/
noncomputable def adVelScaled (d : AdData) : AdData :=
  match d .vel, d .velScale with
  | some v, some [k] => Function.update d .vel (some (v.map fun x => x * (10 : ℝ) ^ k))
  | _, _ => d

/-- `Ad2cpReader.sci_data` for the data of one record type (dolfyn/io/nortek2.py:392-401). -/
noncomputable def adSci (dfs : List AdDef) (d : AdData) : Except Err AdData := do
  let d' ← adSciDefs dfs d
  pure (adVelScaled d')

/-- The whole way of a record with the fields `fs` and the definitions `dfs`. -/
noncomputable def adPing (fl : ℤ → ℝ) (dfs : List AdDef) (fs : List AdField) (bytes : List ℕ) :
    Except Err (AdData × List ℕ) := do
  let (items, rest) ← adRead fs .none bytes
  let d ← adSci dfs (adInto fl dfs fs items fun _ => none)
  pure (d, rest)

end Dolfyn
