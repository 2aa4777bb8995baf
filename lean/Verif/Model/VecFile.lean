import Verif.Model.NortekFields
import Verif.Model.NortekSci
import Verif.Model.NortekInit
import Verif.Model.NortekSize
import Verif.Model.IoBase
import Verif.Model.Ad2cpMore
import Verif.Model.Gaps

/-!
Model of `read_nortek` for Vector files, from the bytes behind the configuration to the variables that go
into the dataset (dolfyn/io/nortek.py:17-90): reading, storing in arrays of `n_samp_guess` slots, conversion
to scientific units, trimming (`_handle_nan`), completion of the times.

Simplifications: 32-bit floats of the IMU are decoded by a parameter and are never NaN; float32 rounding is
left out; an `IndexError` of a full array is raised after the file has been read, not during the reading;
records of the AWAC and the Vectrino raise in a Vector file. `beam2inst_orientmat` is not followed. A file that ends
inside its first IMU record has no IMU arrays here.
-/

namespace Dolfyn

/-- The numbers of an IMU record; what its type does not contain is `none`. -/
structure ImuSample where
  accel : Fin 3 → ℝ
  angrt : Fin 3 → ℝ
  mag : Option (Fin 3 → ℝ)
  orient : Option (Fin 3 → Fin 3 → ℝ)

/-- The unpacking in `read_microstrain` (dolfyn/io/nortek.py:972-1000); `fl` decodes four bytes. -/
def imuDecode (fl : List ℕ → ℝ) (ahrs : ℕ) (body : List ℕ) : ImuSample :=
  let g : ℕ → ℝ := fun i => fl ((body.drop (4 * i)).take 4)
  let v : ℕ → Fin 3 → ℝ := fun k j => g (k + j.val)
  let m : ℕ → Fin 3 → Fin 3 → ℝ := fun k i j => g (k + 3 * i.val + j.val)
  if ahrs = 195 then ⟨v 3, v 0, none, some (m 6)⟩
  else if ahrs = 204 then ⟨v 0, v 3, some (v 6), some (m 9)⟩
  else ⟨v 3, v 0, some (v 6), none⟩

/-- Whether arrays `mag` and `orientmat` are made when the first IMU record has this type
(dolfyn/io/nortek.py:929-970). -/
def imuHasMag (ahrs : ℕ) : Bool := ahrs = 204 || ahrs = 211

def imuHasOrient (ahrs : ℕ) : Bool := ahrs = 195 || ahrs = 204

/-- How often `sci_microstrain` is run beyond the first time: `_dtypes` gets one entry for every IMU record while there are
no arrays (dolfyn/io/nortek.py:927-970), and `dat2sci` goes through it (:1265-1267). Records of a type that is not known make
no arrays, those of type 210 make arrays without `orientmat`, over which the conversion fails. `unknown`: an unknown record
was seen; with nothing but such records `_orient_dnames` does not exist. -/
def imuExtra (unknown : Bool) : List NkWrite → Except Err ℕ
  | [] => if unknown then .error .attributeError else .ok 0
  | .imu _ _ _ :: _ => .ok 0
  | .other id body :: ws =>
    if id = 0x71 then
      if body = [210] then .error .keyError
      else match imuExtra true ws with
        | .error e => .error e
        | .ok k => .ok (k + 1)
    else imuExtra unknown ws
  | _ :: ws => imuExtra unknown ws

/-- `_ahrsid` at the end: the type of the last IMU record, types that are known by number only (210) included
(dolfyn/io/nortek.py:918-919). `last` is that of the last one that was decoded. -/
def imuLast (last : ℕ) : List NkWrite → ℕ
  | [] => last
  | .imu _ a _ :: ws => imuLast a ws
  | .other id body :: ws => if id = 0x71 ∧ body = [210] then imuLast 210 ws else imuLast last ws
  | _ :: ws => imuLast last ws

/-- The arrays while reading: a slot that was not written is `none`. `first`, `last` are the types of the
first and the last IMU record. -/
structure VecRaw where
  sample : ℕ → Option VecSample
  sys : ℕ → Option VecSys
  imu : ℕ → Option ImuSample
  first : Option ℕ
  last : ℕ

/-- Arrays with nothing in them. -/
def vecRaw0 : VecRaw := ⟨fun _ => none, fun _ => none, fun _ => none, none, 0⟩

/-- Storing of one record in arrays of `N` slots (dolfyn/io/nortek.py:659-691, 817-843, 897-1009). -/
def vecPut (le : Bool) (scale : ℚ) (fl : List ℕ → ℝ) (N : ℕ) (s : VecRaw) : NkWrite → Except Err VecRaw
  | .sample c id body =>
    if id ≠ 0x10 then .error .keyError
    else if N ≤ c then .error .indexError
    else match vecData le scale body with
      | .error e => .error e
      | .ok d => .ok { s with sample := Function.update s.sample c (some d) }
  | .sys c body =>
    match vecSysdata le body with
    | .error e => .error e
    | .ok d => if N ≤ c then .error .indexError else .ok { s with sys := Function.update s.sys c (some d) }
  | .imu c ahrs body =>
    let f := s.first.getD ahrs
    let d := imuDecode fl ahrs body
    if (d.mag.isSome && !imuHasMag f) || (d.orient.isSome && !imuHasOrient f) then .error .keyError
    else if N ≤ c then .error .indexError
    else .ok { s with imu := Function.update s.imu c (some d), first := some f, last := ahrs }
  | .other _ _ => .ok s

/-- All records of a file. -/
def vecStore (le : Bool) (scale : ℚ) (fl : List ℕ → ℝ) (N : ℕ) : VecRaw → List NkWrite → Except Err VecRaw
  | s, [] => .ok s
  | s, w :: ws =>
    match vecPut le scale fl N s w with
    | .error e => .error e
    | .ok s' => vecStore le scale fl N s' ws

/-- `sci_microstrain` (dolfyn/io/nortek.py:1011-1036) on one slot; `ahrs` is the type of the last record. -/
noncomputable def sciImu (fs : ℝ) (ahrs : ℕ) (d : ImuSample) : ImuSample :=
  let k : ℝ := if ahrs = 195 ∨ ahrs = 211 then fs else 1
  { accel := fun i => msAxes d.accel i * 9.80665 * k
    angrt := fun i => msAxes d.angrt i * k
    mag := d.mag.map msAxes
    orient := d.orient.map msOrient }

/-- `interpgaps` with times that may be missing (dolfyn/tools/misc.py:263-268): arithmetic with NaN gives
NaN. -/
def interpStepT {K : Type*} [Field K] [DecidableEq K] (t : ℕ → Option K) (a : ℕ → Option K) (p : ℕ × ℕ) :
    ℕ → Option K :=
  fun i => if p.1 < i ∧ i < p.2 then
      match a p.1, a p.2, t i, t p.1, t p.2 with
      | some u, some v, some x, some x1, some x2 =>
        if x2 - x1 = 0 then none else some ((v - u) * ((x - x1) / (x2 - x1)) + u)
      | _, _, _, _, _ => none
    else a i

def interpgapsT {K : Type*} [Field K] [DecidableEq K] (n : ℕ) (a : ℕ → Option K) (t : ℕ → Option K) :
    ℕ → Option K :=
  (gapPairs n a none).foldl (interpStepT t) a

/-- `orientation_down` (dolfyn/io/nortek.py:856-893): the lowest status bit of the system records of the
burst, interpolated, and cleaned up. -/
def vecDown (N nburst : ℕ) (st : ℕ → Option ℤ) (i : ℕ) : Bool :=
  let nb := if nburst = 0 then N else nburst
  let off := i / nb * nb
  let m := min nb (N - off)
  let f := fillgaps (K := ℚ) m (fun j => (st (off + j)).map fun s => ((s % 2 : ℤ) : ℚ)) none true
  orientFix m (fun j => (f j).getD 0) (i - off)

/-- What goes into the dataset. `n` is the length of `time` and of all other variables; `imuType` is the type of the
first IMU record, which decides on the IMU variables. -/
structure VecDs where
  n : ℕ
  time : ℕ → Option ℝ
  vel : ℕ → Fin 3 → Option ℚ
  amp : ℕ → Fin 3 → ℤ
  corr : ℕ → Fin 3 → ℤ
  pressure : ℕ → ℚ
  batt : ℕ → Option ℝ
  cSound : ℕ → Option ℝ
  heading : ℕ → Option ℝ
  pitch : ℕ → Option ℝ
  roll : ℕ → Option ℝ
  temp : ℕ → Option ℝ
  status : ℕ → ℤ
  error : ℕ → ℤ
  down : ℕ → Bool
  imu : ℕ → Option ImuSample
  imuType : Option ℕ

/-- The IMU variables as `_handle_nan` sees them. -/
def imuNVars (N : ℕ) (r : VecRaw) (imu : ℕ → Option ImuSample) : List NVar :=
  match r.first with
  | none => []
  | some f =>
    [⟨"accel", [3], N, fun i t => (imu t).map fun d => d.accel (Fin.ofNat 3 i)⟩,
     ⟨"angrt", [3], N, fun i t => (imu t).map fun d => d.angrt (Fin.ofNat 3 i)⟩] ++
    if imuHasMag f then [⟨"mag", [3], N, fun i t => (imu t).bind fun d => d.mag.map fun m => m (Fin.ofNat 3 i)⟩]
    else []

/-- The completion of the times in `read_nortek` (dolfyn/io/nortek.py:62-75): zeros count as missing. -/
noncomputable def vecFillTime (n : ℕ) (t : ℕ → Option ℝ) (fs : ℝ) : Except Err (ℕ → Option ℝ) :=
  let t' : ℕ → Option ℝ := fun i => if t i = some 0 then none else t i
  if ∃ i < n, t' i = none then fillTimeGaps n t' fs else .ok t'

/-- Conversion to scientific units, trimming and completion of the times (dolfyn/io/nortek.py:55-75,
766-781, 845-895, 1011-1036; dolfyn/io/base.py:80-110). `extra`: repetitions of the IMU conversion. Without a system record there is no `time`. -/
noncomputable def vecSci (N nburst : ℕ) (fs : ℚ) (r : VecRaw) (extra : ℕ) (hasSys : Bool) : Except Err VecDs :=
  if hasSys then
    let t := vecTimes N nburst (fun i => (r.sys i).map fun d => ((date2epoch d.time 0 : ℚ) : ℝ)) (fs : ℝ)
    let ip : (VecSys → ℚ) → ℕ → Option ℝ := fun f => interpgapsT N (fun i => (r.sys i).map fun d => ((f d : ℚ) : ℝ)) t
    let imu : ℕ → Option ImuSample := fun i => (r.imu i).map (sciImu fs r.last)^[extra + 1]
    match handleNan N t (imuNVars N r imu) with
    | .error e => .error e
    | .ok (n, _) =>
      match vecFillTime n t fs with
      | .error e => .error e
      | .ok time => .ok {
          n := n, time := time
          vel := fun i b => (r.sample i).map fun d => d.vel b
          amp := fun i b => ((r.sample i).map fun d => d.amp b).getD 0
          corr := fun i b => ((r.sample i).map fun d => d.corr b).getD 0
          pressure := fun i => ((r.sample i).map fun d => d.pressure).getD 0
          batt := ip VecSys.batt, cSound := ip VecSys.cSound, heading := ip VecSys.heading
          pitch := ip VecSys.pitch, roll := ip VecSys.roll, temp := ip VecSys.temp
          status := fun i => ((r.sys i).map fun d => d.status).getD 0
          error := fun i => ((r.sys i).map fun d => d.error).getD 0
          down := vecDown N nburst fun i => (r.sys i).map fun d => d.status
          imu := imu, imuType := r.first }
  else .error .keyError

/-- A system record. -/
def NkWrite.isSys : NkWrite → Bool
  | .sys _ _ => true
  | _ => false

/-- Reading the records behind the configuration of a Vector file with room for `N` samples. `none` is
non-termination. -/
noncomputable def vecRead (cfg : NkCfg) (scale : ℚ) (fl : List ℕ → ℝ) (N nburst : ℕ) (fs : ℚ)
    (bytes : List ℕ) : Option (Except Err VecDs) :=
  match nkReadfile cfg none bytes with
  | none => none
  | some (.error e) => some (.error e)
  | some (.ok st) =>
    match vecStore cfg.le scale fl N vecRaw0 st.log with
    | .error e => some (.error e)
    | .ok r =>
      match imuExtra false st.log with
      | .error e => some (.error e)
      | .ok k => some (vecSci N nburst fs { r with last := imuLast r.last st.log } k (st.log.any NkWrite.isSys))

end Dolfyn
