import Verif.Model.Ad2cpFile
import Verif.Model.Ad2cpHead
import Verif.Model.Ad2cpReorg
import Verif.Model.Orient

/-!
Model of the end of `read_signature` (dolfyn/io/nortek2.py:72-106), with `_reorg` (:431-578) and `_reduce` (:593-663), as
far as the rotations need it: what the reader has found becomes a dataset with beam and orientation matrices, and the
declination of the userdata is applied.

Modelled for files with burst records (type 21) and possibly bottom track (23), fifth beam (24) and echo sounder (28),
each of which has a record in every ensemble; other files are outside this model (`none`). The rotations act on one sample
at a time (Model/Rotate), a sample being a cell and a ping; a variable without cells has the same value in all of them. Of
the userdata only the declination is followed; times are modelled elsewhere.
-/

namespace Dolfyn

noncomputable section
open Classical

/-! ### The file head -/

/-- `inst_model` (dolfyn/io/nortek2.py:442); neither a repeated line nor a dictionary has `split`. -/
def adModel (cfg : List (Key × HOut)) : Except Err Key :=
  match pget cfg "ID".toList with
  | none => .error .keyError
  | some (.raw (.one s)) => .ok ((((splitAll ',' s).headD []).dropLast).drop 5)
  | some _ => .error .attributeError

/-- The rotations of an instrument (dolfyn/rotate/api.py:14-22, :76-83), from `_make_model` in lower case. -/
def rotModule (mk : Key) : Inst :=
  if keyIn "vector" mk then .vector
  else if keyIn "awac" mk then .awac
  else if keyIn "signature" mk then .signature
  else if keyIn "ad2cp" mk then .signature
  else if keyIn "rdi" mk then .rdi
  else .unknown

/-- The rotations of the instrument in the file: `inst_make` is `'Nortek'` (dolfyn/io/nortek2.py:443). -/
def adInst (model : Key) : Inst := rotModule ("nortek ".toList ++ model.map Char.toLower)

/-- `beam_angle` (dolfyn/io/nortek2.py:648-650). A single line is a text, whose first letter is looked at. -/
def adTheta (pInt : Key → Option ℤ) (cfg : List (Key × HOut)) : Except Err (Option ℤ) :=
  match pget cfg "BEAMCFGLIST".toList with
  | none => .error .keyError
  | some (.items _) => .error .keyError
  | some (.raw (.one [])) => .error .indexError
  | some (.raw (.one (_ :: _))) => .ok none
  | some (.raw (.many [])) => .error .indexError
  | some (.raw (.many (s :: _))) =>
    if keyIn "THETA=" s then
      match pInt ((s.drop 13).take 2) with
      | some z => .ok (some z)
      | none => .error .valueError
    else .ok none

/-! ### What the records say -/

/-- The configuration word of a type. -/
def adConf (o : AdOpen) (id : ℕ) : ℕ := ((o.cfg.lookup id).getD (0, 0)).1

/-- Its numbers of beams and cells. -/
def adBeams (o : AdOpen) (id : ℕ) : ℕ := ((beamsCyDict ((o.cfg.lookup id).getD (0, 0)).2 id).nBeams).getD 0

def adCells (o : AdOpen) (id : ℕ) : ℕ := (beamsCyDict ((o.cfg.lookup id).getD (0, 0)).2 id).nCells

/-- The type is in the file. -/
def adHas (o : AdOpen) (id : ℕ) : Bool := (o.cfg.lookup id).isSome

/-- Its records have an orientation matrix and rates of rotation. -/
def adAhrsOn (o : AdOpen) (id : ℕ) : Bool := if id = 23 then getbit (adConf o id) 10 else getbit (adConf o id) 12

/-- The data of a ping of a type. -/
def adDat (fl : ℤ → ℝ) (o : AdOpen) (ws : List AdWrite) (id j : ℕ) : AdData :=
  match adValues fl o ws id j with
  | some (.ok d) => d
  | _ => fun _ => none

/-- The files that are modelled. -/
def adCovered (fl : ℤ → ℝ) (o : AdOpen) (ws : List AdWrite) : Prop :=
  adHas o 21 = true ∧ (∀ x ∈ o.cfg, x.1 = 21 ∨ x.1 = 23 ∨ x.1 = 24 ∨ x.1 = 28) ∧
    ∀ x ∈ o.cfg, ∀ j < adNens o, ∃ d, adValues fl o ws x.1 j = some (.ok d)

/-- The first number of a variable. -/
def adNum1 (d : AdData) (v : AdVar) : ℝ := ((d v).getD []).getD 0 0

/-- An integer variable. -/
def adWord (d : AdData) (v : AdVar) : ℤ := ⌊adNum1 d v⌋

/-- Bits of the status word (`_status2data`). -/
def adStatus (lo hi : ℕ) (d : AdData) : ℤ := bitSlice (adWord d .status).toNat lo hi

/-- `coord_sys` (dolfyn/io/nortek2.py:563-565). -/
def adFrame (w : ℕ) : Except Err Frame :=
  match (beamsCyDict w 21).cy with
  | some .xyz => .ok .inst
  | some .enu => .ok .earth
  | some .beam => .ok .beam
  | _ => .error .keyError

/-- Coordinate system and orientation of a file (dolfyn/io/nortek2.py:475-478, :515-541, :556-565), from its burst pings.
The status words are those of the first type with the variable `status0`, which is the burst. -/
def adAttrs (pings : List AdData) : Except Err (Frame × Bool) := do
  let w ← collapse (pings.map fun d => adWord d .beamConfig) []
  let wake ← collapse (pings.map (adStatus 28 32)) []
  let _ ← rgWake wake.toNat
  let up ← collapse (pings.map (adStatus 25 28)) []
  let orient ← rgOrient up.toNat
  let auto ← collapse (pings.map (adStatus 22 25)) []
  let _ ← rgOrientStatus auto.toNat
  let f ← adFrame w.toNat
  pure (f, decide (orient = "down"))

/-! ### The dataset -/

/-- Cells and pings. -/
def AdT (o : AdOpen) : Type := {t : ℕ × ℕ // t.1 < adCells o 21 ∧ t.2 < adNens o}

/-- The types and the suffixes of their variables (dolfyn/io/nortek2.py:446-448). -/
def adTags (o : AdOpen) : List (ℕ × String) :=
  [(21, ""), (23, "_bt"), (24, "_b5"), (28, "_echo")].filter fun x => adHas o x.1

/-- `rotate_vars` (dolfyn/io/nortek2.py:556-576): name, type of record, variable. -/
def adRotVars (o : AdOpen) : List (String × ℕ × AdVar) :=
  [("vel", 21, .vel)] ++ (adTags o).map (fun x => ("accel" ++ x.2, x.1, .accel)) ++
  ((adTags o).filter fun x => adAhrsOn o x.1).map (fun x => ("angrt" ++ x.2, x.1, .angrt)) ++
  (adTags o).map (fun x => ("mag" ++ x.2, x.1, .mag)) ++
  (if adHas o 23 && getbit (adConf o 23) 5 then [("vel_bt", 23, .vel)] else [])

/-- A variable: velocities are stored by beam and cell, the others have three components. -/
def adRVar (o : AdOpen) (dat : ℕ → ℕ → AdData) (x : String × ℕ × AdVar) : RVar (AdT o) where
  name := x.1
  n := if x.2.2 = .vel then adBeams o x.2.1 else 3
  val := fun t b =>
    let l := ((dat x.2.1 t.1.2) x.2.2).getD []
    if x.2.2 = .vel ∧ x.2.1 = 21 then l.getD (b * adCells o 21 + t.1.1) 0 else l.getD b 0

/-- An angle: the mean of burst and fifth beam (dolfyn/io/nortek2.py:609-611). -/
def adAngle (o : AdOpen) (dat : ℕ → ℕ → AdData) (v : AdVar) (j : ℕ) : ℝ :=
  (reduceAvgAngle (some (adNum1 (dat 21 j) v)) (if adHas o 24 then some (adNum1 (dat 24 j) v) else none)).1.getD 0

/-- The orientation matrix of a ping: the recorded one, transposed (dolfyn/io/nortek2.py:640-644), or the one of heading,
pitch and roll (:97-99). -/
def adOmat (o : AdOpen) (dat : ℕ → ℕ → AdData) (j : ℕ) : M3 :=
  if adAhrsOn o 21 then Matrix.of fun a b => (((dat 21 j) .orientmat).getD []).getD (3 * b.val + a.val) 0
  else nortekOrient (adAngle o dat .heading j) (adAngle o dat .pitch j) (adAngle o dat .roll j)

/-- `beam2inst_orientmat` (dolfyn/io/nortek2.py:652-656) of a square matrix. -/
def adBeamMat (rows : List (List ℚ)) : BeamMat :=
  ⟨rows.length, Matrix.of fun i j => (((rows.getD i.val []).getD j.val 0 : ℚ) : ℝ)⟩

/-- The dataset. -/
def adRDS (o : AdOpen) (dat : ℕ → ℕ → AdData) (inst : Inst) (f : Frame) (down : Bool) (B : BeamMat) : RDS (AdT o) where
  inst := inst
  coordSys := f
  vars := (adRotVars o).map (adRVar o dat)
  beam2inst := some B
  orientmat := some fun t => adOmat o dat t.1.2
  calcOmat := fun _ => .ok fun t => adOmat o dat t.1.2
  down := down
  principalHeading := none
  declination := none
  heading := some fun t => adAngle o dat .heading t.1.2
  inst2head := none
  inst2headSet := false

/-- `_reorg` and `_reduce`. Of the settings only the matrix of the beams matters here, not cell size and blanking
distance. -/
def adBuild (pInt : Key → Option ℤ) (cfg : List (Key × HOut)) (o : AdOpen) (dat : ℕ → ℕ → AdData) :
    Except Err (RDS (AdT o)) := do
  let model ← adModel cfg
  let (f, down) ← adAttrs ((List.range (adNens o)).map (dat 21))
  let s ← adReduce cfg ⟨if getbit (adConf o 21) 5 then some (adCells o 21, 0, 0) else none, none, none, none⟩
  let _ ← adTheta pInt cfg
  pure (adRDS o dat (adInst model) f down (adBeamMat s.beam2inst))

/-- The end of `read_signature`; `dec` is the declination of the userdata. -/
def adReadEnd (pInt : Key → Option ℤ) (cfg : List (Key × HOut)) (dec : Option ℝ) (fl : ℤ → ℝ) (o : AdOpen)
    (ws : List AdWrite) : Option (Except Err (RDS (AdT o))) :=
  if adCovered fl o ws then
    match adBuild pInt cfg o (adDat fl o ws) with
    | .error e => some (.error e)
    | .ok ds =>
      match dec with
      | none => some (.ok ds)
      | some d => setDeclination 3 d ds
  else none

end

end Dolfyn
