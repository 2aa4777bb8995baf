import Verif.Model.AdAlt
import Verif.Model.Ad2cpReorg

/-!
The variables of a Signature dataset: names of the records (dolfyn/io/nortek2_defs.py:178-369), `_altraw_reorg`, `_reorg` and
`_reduce` with the errors they raise (dolfyn/io/nortek2.py:404-663). Left out: the variables made from the status words
(:543-546), the attributes, and the order of the variables.
-/

namespace Dolfyn

/-- The names in dolfyn/io/nortek2_defs.py:178-369. -/
def adVarName : AdVar → String
  | .ver => "ver" | .datOffset => "DatOffset" | .config => "config" | .serialNum => "SerialNum" | .year => "year"
  | .month => "month" | .day => "day" | .hour => "hour" | .minute => "minute" | .second => "second"
  | .usec100 => "usec100" | .cSound => "c_sound" | .temp => "temp" | .pressure => "pressure" | .heading => "heading"
  | .pitch => "pitch" | .roll => "roll" | .beamConfig => "beam_config" | .cellSize => "cell_size"
  | .blankDist => "blank_dist" | .nominalCorr => "nominal_corr" | .tempPress => "temp_press" | .unused => "unused"
  | .batt => "batt" | .mag => "mag" | .accel => "accel" | .ambigVel => "ambig_vel" | .dataDesc => "data_desc"
  | .xmitEnergy => "xmit_energy" | .velScale => "vel_scale" | .powerLevel => "power_level_dB" | .tempMag => "temp_mag"
  | .tempClock => "temp_clock" | .error => "error" | .status0 => "status0" | .status => "status"
  | .ensemble => "_ensemble" | .orientmat => "orientmat" | .quaternions => "quaternions" | .angrt => "angrt"
  | .vel => "vel" | .dist => "dist" | .fom => "fom" | .echo => "echo" | .amp => "amp" | .corr => "corr"
  | .leDist => "le_dist_alt" | .leQuality => "le_quality_alt" | .statusAlt => "status_alt" | .astDist => "ast_dist_alt"
  | .astQuality => "ast_quality_alt" | .astOffsetTime => "ast_offset_time_alt" | .pressureAlt => "pressure_alt"
  | .spare => "spare" | .nsampAlt => "nsamp_alt" | .dsampAlt => "dsamp_alt" | .sampAlt => "samp_alt"
  | .percentGood => "percent_good" | .pitchStd => "pitch_std" | .rollStd => "roll_std" | .headingStd => "heading_std"
  | .pressStd => "press_std" | .stdSpare => "std_spare"

/-- The names of `_calc_bt_struct` (dolfyn/io/nortek2_defs.py:226-292). -/
def adBtNames (config : ℕ) : List AdVar :=
  [.ver, .datOffset, .config, .serialNum, .year, .month, .day, .hour, .minute, .second, .usec100, .cSound, .temp, .pressure,
   .heading, .pitch, .roll, .beamConfig, .cellSize, .blankDist, .nominalCorr, .unused, .batt, .mag, .accel, .ambigVel,
   .dataDesc, .xmitEnergy, .velScale, .powerLevel, .tempMag, .tempClock, .error, .status, .ensemble]
    ++ (if getbit config 5 then [.vel] else [])
    ++ (if getbit config 8 then [.dist] else [])
    ++ (if getbit config 9 then [.fom] else [])
    ++ (if getbit config 10 then [.orientmat, .quaternions, .angrt] else [])

/-- The names of `_calc_echo_struct` (dolfyn/io/nortek2_defs.py:295-307). -/
def adEchoNames (config : ℕ) : List AdVar :=
  [.ver, .datOffset, .config, .serialNum, .year, .month, .day, .hour, .minute, .second, .usec100, .cSound, .temp, .pressure,
   .heading, .pitch, .roll, .beamConfig, .cellSize, .blankDist, .nominalCorr, .tempPress, .batt, .mag, .accel, .ambigVel,
   .dataDesc, .xmitEnergy, .velScale, .powerLevel, .tempMag, .tempClock, .error, .status0, .status, .ensemble]
    ++ (if getbit config 11 then [.echo] else [])
    ++ (if getbit config 12 then [.orientmat, .quaternions, .angrt] else [])

/-- The names of the reader of a record type (`_init_burst_readers`, dolfyn/io/nortek2.py:212-222). -/
def adNamesOf (id config : ℕ) : List AdVar :=
  if id = 28 then adEchoNames config else if id = 23 then adBtNames config else adBurstNames config

/-- `ky in dnow` (dolfyn/io/nortek2.py:507). -/
def adHasVar (cfg : ℕ → ℕ) (id : ℕ) (b : String) : Bool := ((adNamesOf id (cfg id)).map adVarName).contains b

/-- `_altraw_reorg` (dolfyn/io/nortek2.py:404-426); `pw` is the power level index of the altimeter status. -/
def altrawReorg (tag : String) (pw : ℕ) (ks : List Key) : Except Err (List Key) :=
  let k1 := ks.filter fun k => !(keyEnds ("raw" ++ tag) k && !keyEnds ("_altraw" ++ tag) k)
  if ¬ rgKey "samp_altraw" tag ∈ k1 then .error .keyError
  else if ¬ rgKey "status_altraw" tag ∈ k1 then .error .keyError
  else
    let k2 := k1.filter fun k => !(k == rgKey "status_altraw" tag)
    if ¬ rgKey "status_alt" tag ∈ k2 then .error .keyError
    else
      let k3 := k2.filter fun k => !(k == rgKey "status_alt" tag)
      if pw < 4 then .ok k3 else .error .keyError

/-- `if 26 in dat`, `if 31 in dat` (dolfyn/io/nortek2.py:510-513). -/
def reorgRaw (there : Bool) (tag : String) (pw : ℕ) (ks : List Key) : Except Err (List Key) :=
  if there then altrawReorg tag pw ks else .ok ks

/-- The variables after `_reorg` (dolfyn/io/nortek2.py:445-553). -/
def reorgVars (present : ℕ → Bool) (has : ℕ → String → Bool) (pw pwAvg : ℕ) : Except Err (List Key) := do
  let k1 ← reorgRaw (present 26) "" pw (rgAll present has)
  let k2 ← reorgRaw (present 31) "_avg" pwAvg k1
  if (k2.filter fun k => keyIn "status0" k) = [] then .error .indexError
  else pure (k2.filter fun k => !keyIn "status0" k)

/-- `_reduce_by_average`, `_reduce_by_average_angle` (dolfyn/io/nortek2_lib.py:10-33): which variables there are. -/
def reduceKey (ks : List Key) (ky : String) : List Key :=
  if rgKey ky "_b5" ∈ ks then
    let k1 := ks.filter fun k => !(k == rgKey ky "_b5")
    if ky.toList ∈ k1 then k1 else k1 ++ [ky.toList]
  else ks

/-- What `_reduce` averages (dolfyn/io/nortek2.py:603-611). -/
def reducedNames : List String :=
  ["c_sound", "temp", "pressure", "temp_press", "temp_clock", "batt", "heading", "pitch", "roll"]

/-- The orientation matrix of averaged data stands in for that of the burst (dolfyn/io/nortek2.py:619-624). -/
def reduceOmat (ks : List Key) : Except Err (List Key) :=
  if "vel_avg".toList ∈ ks then
    if "orientmat".toList ∈ ks then .ok ks
    else if "orientmat_avg".toList ∈ ks then
      .ok ((ks.filter fun k => !(k == "orientmat_avg".toList)) ++ ["orientmat".toList])
    else .error .keyError
  else .ok ks

/-- The echo sounder loses its tag (dolfyn/io/nortek2.py:634-635). -/
def reduceEcho (ks : List Key) : List Key :=
  if "echo_echo".toList ∈ ks then (ks.filter fun k => !(k == "echo_echo".toList)) ++ ["echo".toList] else ks

/-- The variables after `_reduce`. -/
def reduceVars (ks : List Key) : Except Err (List Key) := do
  let k1 ← reduceOmat (reducedNames.foldl reduceKey ks)
  pure (reduceEcho k1)

/-- The variables of a file whose record types `present` have the configurations `cfg`. -/
def sigVars (present : ℕ → Bool) (cfg : ℕ → ℕ) (pw pwAvg : ℕ) : Except Err (List Key) := do
  let ks ← reorgVars present (adHasVar cfg) pw pwAvg
  reduceVars ks

end Dolfyn
