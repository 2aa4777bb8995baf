import Verif.Model.VecFile
import Verif.Model.Float64

/-!
Model of `read_nortek` for Vectrino files, from the bytes behind the configuration to the variables that go into the
dataset (dolfyn/io/nortek.py:17-90, 412-440, 1170-1264). The times are computed in double precision.

Simplifications as in Model/VecFile; records of the Vector, the AWAC and the IMU raise in a Vectrino file.
-/

namespace Dolfyn

/-- The arrays while reading: the times, the samples, the time of the last event record, and whether the arrays
were made. -/
structure VnoRaw where
  time : ℕ → Option ℚ
  sample : ℕ → Option VnoSample
  start : Option CivilTime
  made : Bool

/-- Before the first record. -/
def vnoRaw0 : VnoRaw := ⟨fun _ => none, fun _ => none, none, false⟩

/-- The time that `read_vno_data` writes (dolfyn/io/nortek.py:1241-1244): the previous one plus `1 / fs`. -/
def vnoStamp (fs : ℚ) (time : ℕ → Option ℚ) (c : ℕ) : Option ℚ :=
  if c = 0 then some 0 else (time (c - 1)).map fun t => fl64 (t + fl64 (1 / fl64 fs))

/-- Storing of one record in arrays of `N` slots (dolfyn/io/nortek.py:1216-1264). -/
def vnoPut (le : Bool) (scale fs : ℚ) (N : ℕ) (s : VnoRaw) : NkWrite → Except Err VnoRaw
  | .sample c id body =>
    if id ≠ 0x51 then .error .keyError
    else if N ≤ c then .error .indexError
    else match vnoData le scale body with
      | .error e => .error e
      | .ok d => .ok { s with time := Function.update s.time c (vnoStamp fs s.time c)
                              sample := Function.update s.sample c (some d), made := true }
  | .sys _ _ => .error .keyError
  | .imu _ _ _ => .error .keyError
  | .other id body =>
    if id = 0x0f then
      match rdTime ((body.drop 2).take 6) with
      | .error e => .error e
      | .ok t => .ok { s with start := some t }
    else if id = 0x71 then .error .keyError
    else .ok s

/-- All records of a file. -/
def vnoStore (le : Bool) (scale fs : ℚ) (N : ℕ) : VnoRaw → List NkWrite → Except Err VnoRaw
  | s, [] => .ok s
  | s, w :: ws =>
    match vnoPut le scale fs N s w with
    | .error e => .error e
    | .ok s' => vnoStore le scale fs N s' ws

/-- The last record, when the file ends inside of it: the time of a sample is written before its bytes are read
(dolfyn/io/nortek.py:1241-1246), and its numbers are stored before the checksum is read (:1248-1262). -/
def vnoCut (cfg : NkCfg) (scale fs : ℚ) (N : ℕ) (s : VnoRaw) (st : NkState) : Except Err VnoRaw :=
  match nkReadNext cfg st, nkReadId cfg.le st.rest with
  | .error .eof, .ok (_, id, r) =>
    if id ≠ 0x51 then .ok s
    else if N ≤ st.c then .error .indexError
    else
      let time := Function.update s.time st.c (vnoStamp fs s.time st.c)
      if r.length < 18 then .ok { s with time := time, made := true }
      else match vnoData cfg.le scale (r.take 18) with
        | .error e => .error e
        | .ok d => .ok { s with time := time, sample := Function.update s.sample st.c (some d), made := true }
  | _, _ => .ok s

/-- What goes into the dataset. `n` is the length of `time`. -/
structure VnoDs where
  n : ℕ
  time : ℕ → Option ℝ
  vel : ℕ → Fin 4 → Option ℚ
  amp : ℕ → Fin 4 → ℤ
  corr : ℕ → Fin 4 → ℤ
  status : ℕ → ℤ

/-- The time of the event record is added to the times (dolfyn/io/nortek.py:438-440); trimming and completion of the
times (:55-75). Slots that were not written hold NaN, or 0 in arrays of integers. -/
noncomputable def vnoSci (N : ℕ) (fs : ℚ) (r : VnoRaw) : Except Err VnoDs :=
  match r.made, r.start with
  | false, _ => .error .keyError
  | true, none => .error .keyError
  | true, some s =>
    let t : ℕ → Option ℝ := fun i => (r.time i).map fun x => ((fl64 (x + date2epoch s 0) : ℚ) : ℝ)
    match handleNan N t [] with
    | .error e => .error e
    | .ok (n, _) =>
      match vecFillTime n t fs with
      | .error e => .error e
      | .ok time => .ok {
          n := n, time := time
          vel := fun i b => (r.sample i).map fun d => d.vel b
          amp := fun i b => ((r.sample i).map fun d => d.amp b).getD 0
          corr := fun i b => ((r.sample i).map fun d => d.corr b).getD 0
          status := fun i => ((r.sample i).map fun d => d.status).getD 0 }

/-- Reading the records behind the configuration of a Vectrino file with room for `N` samples. `none` is
non-termination. -/
noncomputable def vnoRead (cfg : NkCfg) (scale : ℚ) (N : ℕ) (fs : ℚ) (bytes : List ℕ) : Option (Except Err VnoDs) :=
  match nkReadfile cfg none bytes with
  | none => none
  | some (.error e) => some (.error e)
  | some (.ok st) =>
    if st.imu then some (.error .keyError)
    else match vnoStore cfg.le scale fs N vnoRaw0 st.log with
      | .error e => some (.error e)
      | .ok r =>
        match vnoCut cfg scale fs N r st with
        | .error e => some (.error e)
        | .ok r => some (vnoSci N fs r)

end Dolfyn
