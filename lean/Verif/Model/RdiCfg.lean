import Verif.Model.RdiVals
import Verif.Model.CreateDs

/-!
Model of the configuration that `dolfyn/io/rdi.py` decodes from the fixed leader and of the assembly of the
dataset from the arrays of `load_data`.

Factors such as `.01` are exact; `round(x, 4)` of a multiple of 0.01 is the multiple. Surface-layer profiles,
navigation data and the second (BB) profile are not assembled here.
-/

namespace Dolfyn

/-- The frames of `cfg['coord_sys']`. -/
inductive RdFrame
  | beam | inst | ship | earth
  deriving DecidableEq, Repr

/-- The configuration dictionary (dolfyn/io/rdi.py:735-813). Flags that the code writes as words are
booleans: `convex` (`beam_pattern`), `up` (`orientation`), and `'yes'`. -/
structure RdCfg where
  progVer : ℚ
  model : Key
  beamAngle : ℕ
  freq : ℕ
  convex : Bool
  up : Bool
  nBeams : ℕ
  nCells : ℕ
  pings : ℕ
  cellSize : ℚ
  blank : ℚ
  mode : ℕ
  minCorr : ℕ
  codeReps : ℕ
  minGood : ℕ
  maxErr : ℚ
  secBetween : ℚ
  frame : RdFrame
  usePitchRoll : Bool
  use3Beam : Bool
  binMap : Bool
  misalign : ℚ
  magVar : ℚ
  sensorsSrc : Key
  sensorsAvail : Key
  bin1 : ℚ
  pulse : ℚ
  refCells : ℕ × ℕ
  falseTarget : ℕ
  lag : ℚ
  bandwidth : Option ℕ
  power : Option ℕ
  serial : Option ℕ
  deriving DecidableEq

/-- `defs.adcp_type.get(...)` (dolfyn/io/rdi_defs.py:4-36). -/
def rdModel (fw : ℕ) : Key :=
  if fw = 4 ∨ fw = 5 then "Broadband".toList
  else if fw = 6 ∨ fw = 19 ∨ fw = 37 ∨ fw = 53 then "Navigator".toList
  else if fw = 10 then "Rio Grande".toList
  else if fw = 11 then "H-ADCP".toList
  else if fw = 14 ∨ fw = 23 then "Ocean Surveyor".toList
  else if fw = 16 ∨ fw = 43 ∨ fw = 50 ∨ fw = 51 ∨ fw = 52 ∨ fw = 77 ∨ fw = 78 then "Workhorse".toList
  else if fw = 28 then "ChannelMaster".toList
  else if fw = 31 then "StreamPro".toList
  else if fw = 34 then "Explorer".toList
  else if fw = 41 ∨ fw = 55 then "DVS".toList
  else if fw = 44 then "RiverRay".toList
  else if fw = 47 ∨ fw = 66 then "SentinelV".toList
  else if fw = 56 then "RiverPro".toList
  else if fw = 59 then "Meridian".toList
  else if fw = 61 then "Pinnacle".toList
  else if fw = 67 then "Pathfinder".toList
  else if fw = 73 then "Pioneer".toList
  else if fw = 74 then "Tasman".toList
  else if fw = 76 then "WayFinder".toList
  else "unrecognized firmware version".toList

/-- `np.binary_repr(x, 8)` of a byte. -/
def binRepr8 (x : ℕ) : Key := (List.range 8).map fun i => if x.testBit (7 - i) then '1' else '0'

/-- A byte and a 16-bit number of the leader. -/
def cfgB (c : List ℕ) (i : ℕ) : ℕ := (rdAt .B c i).toNat
@[inherit_doc cfgB] def cfgH (c : List ℕ) (i : ℕ) : ℕ := (rdAt .H c i).toNat

/-- `read_cfgseg` (dolfyn/io/rdi.py:735-813): the dictionary decoded from the bytes `c`. -/
def rdDecodeCfg (c : List ℕ) : Except Err RdCfg :=
  match [15, 20, 30][cfgB c 3 &&& 3]? with
  | none => .error .indexError
  | some angle =>
    match [75, 150, 300, 600, 1200, 2400, 38][cfgB c 2 &&& 7]? with
    | none => .error .indexError
    | some freq =>
      if 2 ≤ cfgB c 4 then .error .indexError
      else
        let ver := 100 * cfgB c 0 + cfgB c 1
        let coord := cfgB c 23
        let k := (coord >>> 3) &&& 3
        .ok { progVer := cfgB c 0 + cfgB c 1 / 100
              model := rdModel (cfgB c 0)
              beamAngle := if 1627 ≤ ver then cfgB c 56 else angle
              freq := freq
              convex := cfgB c 2 &&& 8 = 8
              up := cfgB c 2 &&& 128 = 128
              nBeams := cfgB c 6 + (if cfgB c 3 &&& 16 = 16 then 1 else 0)
              nCells := cfgB c 7
              pings := cfgH c 8
              cellSize := cfgH c 10 * (1 / 100)
              blank := cfgH c 12 * (1 / 100)
              mode := cfgB c 14
              minCorr := cfgB c 15
              codeReps := cfgB c 16
              minGood := cfgB c 17
              maxErr := cfgH c 18 / 1000
              secBetween := cfgB c 20 * 60 + cfgB c 21 * 1 + cfgB c 22 * (1 / 100)
              frame := if k = 0 then .beam else if k = 1 then .inst else if k = 2 then .ship else .earth
              usePitchRoll := coord &&& 4 = 4
              use3Beam := coord &&& 2 = 2
              binMap := coord &&& 1 = 1
              misalign := rdAt .h c 24 * (1 / 100)
              magVar := rdAt .h c 26 * (1 / 100)
              sensorsSrc := binRepr8 (cfgB c 28)
              sensorsAvail := binRepr8 (cfgB c 29)
              bin1 := cfgH c 30 * (1 / 100)
              pulse := cfgH c 32 * (1 / 100)
              refCells := (cfgB c 34, cfgB c 35)
              falseTarget := cfgB c 36
              lag := cfgH c 38 * (1 / 100)
              bandwidth := if 824 ≤ ver then some (cfgH c 48) else none
              power := if 1605 ≤ ver then some (cfgB c 50) else none
              serial := if 1627 ≤ ver then some (rdAt .I c 52).toNat else none }

/-- The dataset that `read_rdi` returns: names of the variables, number of times and cells, range
coordinate, sampling rate (`none`: infinite), configuration, and the values (variable, beam, cell, time). -/
structure RdDs where
  names : List RdName
  width : ℕ
  cells : ℕ
  range : List ℚ
  fs : Option ℚ
  cfg : RdCfg
  rotateVars : List RdName
  time : ℕ → Option ℚ
  elem : RdName → ℕ → ℕ → ℕ → Option ℚ

/-- `fs` (dolfyn/io/rdi.py:1333-1339): the test for VMDAS and WinRiver looks for an attribute of a dict and
never succeeds. -/
def rdFs (cfg : RdCfg) : Option ℚ :=
  if cfg.secBetween * cfg.pings = 0 then none else some (cfg.secBetween * cfg.pings)⁻¹

/-- From the arrays to the dataset (`load_data`, dolfyn/io/rdi.py:376-386; `cleanup`, :1306-1311;
`finalize`, :1325-1345; `read_rdi`, :66-136): `datl` is only bound in the loop; a dataset whose first time is
NaN is dropped, and `dss[0]` of an empty list raises. Errors of the configuration, which the code raises while
reading, appear here. -/
def rdAssemble (junk : RdName → ℕ → ℕ → ℕ → ℚ) (cells : ℕ) (m : RdMem) (o : RdOutV) : Except Err RdDs :=
  match o.cols with
  | [] => .error .unboundLocal
  | col :: _ =>
    match rdDecodeCfg m.cfgB with
    | .error e => .error e
    | .ok cfg =>
      if col.time = none then .error .indexError
      else .ok { names := m.seen
                 width := o.cols.length
                 cells := cells
                 range := (List.range cells).map fun k : ℕ => cfg.bin1 + k * cfg.cellSize
                 fs := rdFs cfg
                 cfg := cfg
                 rotateVars := .vel :: (if RdName.velBt ∈ m.seen then [.velBt] else [])
                 time := fun i => (o.cols[i]?.bind (·.time))
                 elem := fun nm b c i => rdElem junk o nm c b i }

/-- `read_rdi` from the state of the new reader. -/
def rdReadDs (env : RdEnv) (junk : RdName → ℕ → ℕ → ℕ → ℚ) (bs : List ℕ) (fuel nens : ℕ) (s : RdState) (m : RdMem)
    (o : RdOutV) : Option (Except Err RdDs) :=
  match rdLoadV env bs fuel nens s m o with
  | none => none
  | some (.error e) => some (.error e)
  | some (.ok (t, m', o')) => some (rdAssemble junk (ensCells t.ens) m' o')

end Dolfyn
