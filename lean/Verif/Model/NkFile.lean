import Verif.Model.VecFile
import Verif.Model.VnoFile

/-!
Model of `read_nortek` for whole files, from the first byte on (dolfyn/io/nortek.py:17-90): configuration,
search for the spacing of the records byte by byte (`findnextid`, `code_spacing`), room for the samples, and
the data. Vector and Vectrino files are taken to the dataset by Model/VecFile and Model/VnoFile, AWAC files here.

Simplifications as in Model/VecFile; records of other instruments in an AWAC file raise; wave records of the
AWAC raise (C81); in AWAC files the analogue input is not followed.
-/

namespace Dolfyn

/-! ### Room -/

/-- How far `findnextid` seeks behind the id `i`, as a position: `p` is the position behind the id, `r` the
bytes there. The size of a record is a number of words; `None` is the end of the file. -/
def nkNextPos (le : Bool) (i p : ℕ) (r : List ℕ) : Option ℕ :=
  if i = 16 then some (p + 22)
  else if i = 81 then some (p + 20)
  else match r with
    | a :: b :: _ => some (p + 2 * word le a b - 2)
    | _ => none

/-- `findnextid` (dolfyn/io/nortek.py:442-456) from position `pos` of the file: whether the record was found
(`false`: `EOFError`), and the position. A position may lie behind the end. The first number is fuel. -/
def findIdAt (le : Bool) (id : ℕ) (bytes : List ℕ) : ℕ → ℕ → Option (Bool × ℕ)
  | 0, _ => none
  | fuel + 1, pos =>
    match nkReadId le (bytes.drop pos) with
    | .error _ => some (false, max pos bytes.length)
    | .ok (_, i, r) =>
      match nkNextPos le i (bytes.length - r.length) r with
      | none => some (false, bytes.length)
      | some q => if i = id then some (true, q) else findIdAt le id bytes fuel q

/-- The loop of `code_spacing` (dolfyn/io/nortek.py:464-468): the final position and the final `i`. -/
def spacingAt (le : Bool) (id : ℕ) (bytes : List ℕ) : ℕ → ℕ → ℕ → Option (ℕ × ℕ)
  | 0, pos, i => some (pos, i - 1)
  | k + 1, pos, i =>
    match findIdAt le id bytes (bytes.length + 1) pos with
    | none => none
    | some (false, p) => some (p, i)
    | some (true, p) => spacingAt le id bytes k p (i + 1)

/-- `code_spacing` (dolfyn/io/nortek.py:458-472) for `iternum = 50`. -/
def codeSpacingAt (le : Bool) (id : ℕ) (bytes : List ℕ) (pos : ℕ) : Option (Except NkStop ℚ) :=
  match findIdAt le id bytes (bytes.length + 1) pos with
  | none => none
  | some (false, _) => some (.error .eof)
  | some (true, p0) =>
    match spacingAt le id bytes 50 p0 0 with
    | none => none
    | some q => some (.ok (((q.1 : ℚ) - p0) / ((q.2 : ℚ) + 1)))

/-- `n_samp_guess` (dolfyn/io/nortek.py:302-305, 325-330, 350-352). -/
def roomAt (le : Bool) (inst : NkInst) (fs : ℚ) (bytes : List ℕ) (pos : ℕ) : Option (Except NkStop ℤ) :=
  match inst with
  | .adv =>
    match codeSpacingAt le 17 bytes pos with
    | none => none
    | some (.error e) => some (.error e)
    | some (.ok d) =>
      if d = 0 then some (.error (.err .zeroDivision))
      else some (.ok (pyInt ((bytes.length : ℚ) / d + 1) * pyInt fs))
  | .awac =>
    match codeSpacingAt le 32 bytes pos with
    | none => none
    | some (.error e) => some (.error e)
    | some (.ok d) => if d = 0 then some (.ok 1) else some (.ok (pyInt ((bytes.length : ℚ) / d + 1)))
  | .vno =>
    match codeSpacingAt le 81 bytes pos with
    | none => none
    | some (.error e) => some (.error e)
    | some (.ok d) =>
      if d = 0 then some (.error (.err .zeroDivision))
      else some (.ok (pyInt ((bytes.length : ℚ) / d + 1) * pyInt fs))

/-! ### AWAC -/

/-- Storing of one record in arrays of `N` slots (dolfyn/io/nortek.py:1038-1077). Check data (0x07) of an AWAC raise,
because their bytes are read for the other instruments only (:698-705). -/
def awacPut (cfg : NkCfg) (N : ℕ) (s : ℕ → Option AwacProfile) : NkWrite → Except Err (ℕ → Option AwacProfile)
  | .sample c id body =>
    if id ≠ 0x20 then .error .keyError
    else if N ≤ c then .error .indexError
    else match awacProfile cfg.le cfg.nBeams cfg.nBins body with
      | .error e => .error e
      | .ok d => .ok (Function.update s c (some d))
  | .sys _ _ => .error .keyError
  | .imu _ _ _ => .error .keyError
  | .other id _ => if id = 7 then .error .unboundLocal else if id = 0x71 then .error .keyError else .ok s

/-- All records of a file. -/
def awacStore (cfg : NkCfg) (N : ℕ) : (ℕ → Option AwacProfile) → List NkWrite → Except Err (ℕ → Option AwacProfile)
  | s, [] => .ok s
  | s, w :: ws =>
    match awacPut cfg N s w with
    | .error e => .error e
    | .ok s' => awacStore cfg N s' ws

/-- What goes into the dataset. `n` is the length of `time`. -/
structure AwacDs where
  n : ℕ
  time : ℕ → Option ℝ
  vel : ℕ → ℕ → ℕ → Option ℚ
  amp : ℕ → ℕ → ℕ → ℤ
  error : ℕ → ℤ
  batt : ℕ → Option ℚ
  cSound : ℕ → Option ℚ
  heading : ℕ → Option ℚ
  pitch : ℕ → Option ℚ
  roll : ℕ → Option ℚ
  pressure : ℕ → Option ℚ
  status : ℕ → Option ℚ
  temp : ℕ → Option ℚ
  cellSize : ℝ
  blankDist : ℝ
  range : ℕ → ℝ

/-- Scientific units, trimming and completion of the times for an AWAC (dolfyn/io/nortek.py:55-75, 1079-1097);
without a profile there is no `time`. -/
noncomputable def awacSci (round : ℝ → ℤ) (cosH : ℝ) (freq binLength blank : ℕ) (N : ℕ) (fs : ℚ)
    (r : ℕ → Option AwacProfile) (hasProf : Bool) : Except Err AwacDs :=
  if hasProf then
    match awacRange round cosH freq binLength blank with
    | .error e => .error e
    | .ok (cs, bd, rg) =>
      let t : ℕ → Option ℝ := fun i => (r i).map fun d => ((date2epoch d.time 0 : ℚ) : ℝ)
      match handleNan N t [] with
      | .error e => .error e
      | .ok (n, _) =>
        match vecFillTime n t fs with
        | .error e => .error e
        | .ok time => .ok {
            n := n, time := time
            vel := fun b k i => (r i).bind fun d => d.vel b k
            amp := fun b k i => ((r i).map fun d => d.amp b k).getD 0
            error := fun i => ((r i).map fun d => d.error).getD 0
            batt := fun i => (r i).map fun d => d.batt
            cSound := fun i => (r i).map fun d => d.cSound
            heading := fun i => (r i).map fun d => d.heading
            pitch := fun i => (r i).map fun d => d.pitch
            roll := fun i => (r i).map fun d => d.roll
            pressure := fun i => (r i).map fun d => d.pressure
            status := fun i => (r i).map fun d => (d.status : ℚ)
            temp := fun i => (r i).map fun d => d.temp
            cellSize := cs, blankDist := bd, range := rg }
  else .error .keyError

/-- A profile or sample. -/
def NkWrite.isProf : NkWrite → Bool
  | .sample _ _ _ => true
  | _ => false

/-- Reading the records behind the configuration of an AWAC file with room for `N` profiles. -/
noncomputable def awacRead (cfg : NkCfg) (round : ℝ → ℤ) (cosH : ℝ) (freq binLength blank : ℕ) (N : ℕ) (fs : ℚ)
    (bytes : List ℕ) : Option (Except Err AwacDs) :=
  match nkReadfile cfg none bytes with
  | none => none
  | some (.error e) => some (.error e)
  | some (.ok st) =>
    match awacStore cfg N (fun _ => none) st.log with
    | .error e => some (.error e)
    | .ok r => some (awacSci round cosH freq binLength blank N fs r (st.log.any NkWrite.isProf))

/-! ### Whole files -/

/-- What a file becomes: the configuration, and the data. -/
inductive NkDs
  | vec (o : NkOpened) (ds : VecDs)
  | awac (o : NkOpened) (ds : AwacDs)
  | vno (o : NkOpened) (ds : VnoDs)

/-- The reader's settings from the configuration. -/
def nkCfgOf (le doCs : Bool) (o : NkOpened) : NkCfg :=
  ⟨le, doCs, decide (o.inst = .vno), o.user.nBeams, o.user.nBins⟩

/-- `read_nortek` (dolfyn/io/nortek.py:17-90) up to the creation of the dataset, on the bytes of the file; `none`
is non-termination. -/
noncomputable def nortekRead (doCs : Bool) (utf8 : List ℕ → Option (List Char)) (fl : List ℕ → ℝ)
    (round : ℝ → ℤ) (cosH : ℝ) (bytes : List ℕ) : Option (Except NkStop NkDs) :=
  match nkEndian bytes, nkInit doCs utf8 bytes with
  | .error e, _ => some (.error e)
  | _, .error e => some (.error e)
  | .ok le, .ok o =>
    match roomAt le o.inst o.fs bytes (bytes.length - o.rest.length) with
    | none => none
    | some (.error e) => some (.error e)
    | some (.ok N) =>
      match o.inst with
      | .adv =>
        (vecRead (nkCfgOf le doCs o) o.user.velScale fl N.toNat o.user.nBurst o.fs o.rest).map fun
          | .error e => .error (.err e)
          | .ok ds => .ok (.vec o ds)
      | .awac =>
        (awacRead (nkCfgOf le doCs o) round cosH o.head.freqKHz o.user.binLength o.user.blank N.toNat o.fs
          o.rest).map fun
          | .error e => .error (.err e)
          | .ok ds => .ok (.awac o ds)
      | .vno =>
        (vnoRead (nkCfgOf le doCs o) o.user.velScale N.toNat o.fs o.rest).map fun
          | .error e => .error (.err e)
          | .ok ds => .ok (.vno o ds)

end Dolfyn
