import Verif.Model.CreateDs

/-!
Model of `_reorg` and `_clean_dp_skips` (dolfyn/io/nortek2.py:404-591): which variables a Signature file
gets, which of them are registered for rotation, and the coordinate system.
-/

namespace Dolfyn

/-- Record types and the suffix of their variables (dolfyn/io/nortek2.py:446-448). -/
def rgTags : List (ℕ × String) :=
  [(21, ""), (22, "_avg"), (23, "_bt"), (24, "_b5"), (26, "raw"), (28, "_echo"), (31, "raw_avg")]

/-- Variables copied for every record type (dolfyn/io/nortek2.py:488-491). -/
def rgFixed : List String :=
  ["c_sound", "temp", "pressure", "heading", "pitch", "roll", "mag", "accel", "batt", "temp_clock", "error",
    "status", "ensemble"]

/-- Variables copied when the record has them (dolfyn/io/nortek2.py:499-506). -/
def rgOpt : List String :=
  ["vel", "amp", "corr", "prcnt_gd", "echo", "dist", "orientmat", "angrt", "quaternions", "pressure_alt",
    "le_dist_alt", "le_quality_alt", "status_alt", "ast_dist_alt", "ast_quality_alt", "ast_offset_time_alt",
    "nsamp_alt", "dsamp_alt", "samp_alt", "status0", "fom", "temp_press", "press_std", "pitch_std",
    "roll_std", "heading_std", "xmit_energy"]

/-- `ky + tag`. -/
def rgKey (b tag : String) : Key := b.toList ++ tag.toList

/-- `str.endswith`. -/
def keyEnds (suf : String) (k : Key) : Bool := suf.toList.reverse.isPrefixOf k.reverse

/-- `str.startswith`. -/
def keyStarts (pre : String) (k : Key) : Bool := pre.toList.isPrefixOf k

/-- The variables of one record type. `has id b` says whether the record has the optional variable. -/
def rgVars (has : ℕ → String → Bool) (it : ℕ × String) : List Key :=
  (rgFixed ++ rgOpt.filter (has it.1)).map fun b => rgKey b it.2

/-- `outdat['data_vars']` after the loop over the record types, in order of insertion. -/
def rgAll (present : ℕ → Bool) (has : ℕ → String → Bool) : List Key :=
  (rgTags.filter fun it => present it.1).flatMap (rgVars has)

/-- The variables `_altraw_reorg` keeps (dolfyn/io/nortek2.py:407-409, :415, :420). -/
def rgAltraw (tag : String) (ks : List Key) : List Key :=
  ks.filter fun k => !(keyEnds ("raw" ++ tag) k && !keyEnds ("_altraw" ++ tag) k) &&
    !(k == rgKey "status_altraw" tag) && !(k == rgKey "status_alt" tag)

/-- `outdat['data_vars']` once the raw altimeter and `status0` variables are sorted out
(dolfyn/io/nortek2.py:509-513, :553); the flags of the status word added at :545-546 do not matter here. -/
def rgDataVars (present : ℕ → Bool) (has : ℕ → String → Bool) : List Key :=
  let k0 := rgAll present has
  let k1 := if present 26 then rgAltraw "" k0 else k0
  let k2 := if present 31 then rgAltraw "_avg" k1 else k1
  k2.filter fun k => !keyIn "status0" k

/-- `attrs['rotate_vars']` (dolfyn/io/nortek2.py:556-576). -/
def rgRotateVars (present : ℕ → Bool) (has : ℕ → String → Bool) : List Key :=
  let dv := rgDataVars present has
  (if present 21 then ["vel".toList] else []) ++
  (["accel", "angrt", "mag"].flatMap fun ky =>
    dv.filter fun dky => dky == ky.toList || keyStarts (ky ++ "_") dky) ++
  (if "vel_bt".toList ∈ dv then ["vel_bt".toList] else []) ++
  (if "vel_avg".toList ∈ dv then ["vel_avg".toList] else [])

/-- Axes of the velocities of a record type (`_beams_cy_int2dict`). -/
inductive RgAxes
  | XYZ
  | ENU
  | beam
  deriving DecidableEq, Repr

/-- The name of the frame (dolfyn/io/nortek2.py:563-565). -/
def rgFrame : RgAxes → String
  | .XYZ => "inst"
  | .ENU => "earth"
  | .beam => "beam"

/-- `attrs['coord_sys']` (dolfyn/io/nortek2.py:556-565); `cy id` are the axes of the record type. -/
def rgCoordSys (present : ℕ → Bool) (cy : ℕ → RgAxes) : Except Err String :=
  if present 21 then .ok (rgFrame (cy 21))
  else if present 22 then .ok (rgFrame (cy 22))
  else .error .keyError

/-- `wakeup_state` (dolfyn/io/nortek2.py:526-528). -/
def rgWake (code : ℕ) : Except Err String :=
  if code = 0 then .ok "bad power" else if code = 1 then .ok "power on" else if code = 2 then .ok "break"
  else if code = 3 then .ok "clock" else .error .keyError

/-- `orientation` (dolfyn/io/nortek2.py:530-536). -/
def rgOrient (code : ℕ) : Except Err String :=
  if code = 0 ∨ code = 1 ∨ code = 2 ∨ code = 3 then .ok "horizontal"
  else if code = 4 then .ok "up" else if code = 5 then .ok "down" else if code = 7 then .ok "AHRS"
  else .error .keyError

/-- `orient_status` (dolfyn/io/nortek2.py:538-541). -/
def rgOrientStatus (code : ℕ) : Except Err String :=
  if code = 0 then .ok "fixed" else if code = 1 then .ok "auto_UD" else if code = 3 then .ok "AHRS-3D"
  else .error .keyError

/-- `_clean_dp_skips` (dolfyn/io/nortek2.py:580-591) for one variable of a record type with `n` slots: the
slots whose `ver` is not zero. -/
def cleanSkips {α : Type} (n : ℕ) (ver : ℕ → ℕ) (v : ℕ → α) : List α :=
  ((List.range n).filter fun k => ver k ≠ 0).map v

end Dolfyn
