import Verif.Model.NkFile
import Verif.Model.Orient

/-!
Model of the end of `read_nortek` (dolfyn/io/nortek.py:77-103): what the reader has found becomes a dataset
with an orientation matrix, and the head matrix and the declination of the userdata are applied.

The rotations act on one sample at a time (Model/Rotate), so the dataset handed to them holds the samples whose
velocity and orientation are known; the others stay NaN. The loop over the userdata is in Model/UserData; here
`rot` and `dec` are what it found. The name of the model selects the rotations (`rot_module_dict`); Vectrino
files are not followed. A fresh dataset has neither a principal heading nor a declination.
-/

namespace Dolfyn

noncomputable section

/-- The names of the frames (dolfyn/io/nortek.py:263-265) for the rotations. -/
def NkFrame.toFrame : NkFrame → Frame
  | .earth => .earth
  | .inst => .inst
  | .beam => .beam

/-- `beam2inst_orientmat` (dolfyn/io/nortek.py:586-595). -/
def nkBeamMat (h : NkHeadCfg) : BeamMat := ⟨h.nBeam, fun i j => (h.mat i j : ℝ)⟩

/-- `set_inst2head_rotmat` at the end of `read_nortek`, if there is a matrix (dolfyn/io/nortek.py:100-101). -/
def nkUserHead {T : Type} (rot : Option M3) (ds : RDS T) : Option (Except Err (RDS T)) :=
  match rot with
  | none => some (.ok ds)
  | some R => setInst2head 3 R ds

/-- … and then `set_declination` (dolfyn/io/nortek.py:102-103). -/
def nkUserApply {T : Type} (rot : Option M3) (dec : Option ℝ) (ds : RDS T) : Option (Except Err (RDS T)) :=
  match nkUserHead rot ds with
  | none => none
  | some (.error e) => some (.error e)
  | some (.ok ds') => match dec with
    | none => some (.ok ds')
    | some d => setDeclination 3 d ds'

/-! ### AWAC -/

/-- Heading, pitch and roll of the profiles. -/
def awacHPR (ds : AwacDs) : List HPR :=
  (List.range ds.n).map fun i => ⟨(ds.heading i).map (fun q => (q : ℝ)), (ds.pitch i).map (fun q => (q : ℝ)),
    (ds.roll i).map (fun q => (q : ℝ))⟩

/-- Cells (first) and profiles (second) where velocity and orientation are known. -/
def AwacT (o : NkOpened) (ds : AwacDs) (om : List (Option M3)) : Type :=
  {t : ℕ × ℕ // t.1 < o.user.nBins ∧ t.2 < ds.n ∧ (∀ b < o.user.nBeams, (ds.vel b t.1 t.2).isSome) ∧
    ∃ m, om[t.2]? = some (some m)}

/-- The dataset (dolfyn/io/nortek.py:335-343, 90-99); `orientmat` is calculated without `orientation_down`. -/
def awacRDS (o : NkOpened) (ds : AwacDs) (om : List (Option M3)) : RDS (AwacT o ds om) where
  inst := .awac
  coordSys := o.frame.toFrame
  vars := [⟨"vel", o.user.nBeams, fun t b => (((ds.vel b t.1.1 t.1.2).getD 0 : ℚ) : ℝ)⟩]
  beam2inst := some (nkBeamMat o.head)
  orientmat := some fun t => ((om[t.1.2]?).join).getD 1
  calcOmat := fun _ => .error .unboundLocal
  down := false
  principalHeading := none
  declination := none
  heading := some fun t => (((ds.heading t.1.2).getD 0 : ℚ) : ℝ)
  inst2head := none
  inst2headSet := false

/-- The end of `read_nortek` for an AWAC. -/
def awacFinish (rot : Option M3) (dec : Option ℝ) (o : NkOpened) (ds : AwacDs) :
    Option (Except Err ((om : List (Option M3)) × RDS (AwacT o ds om))) :=
  match calcOmat (awacHPR ds) none with
  | .error e => some (.error e)
  | .ok om => (nkUserApply rot dec (awacRDS o ds om)).map fun
    | .error e => .error e
    | .ok d => .ok ⟨om, d⟩

/-! ### Vector -/

/-- Heading, pitch and roll of the samples. -/
def vecHPR (ds : VecDs) : List HPR := (List.range ds.n).map fun i => ⟨ds.heading i, ds.pitch i, ds.roll i⟩

/-- `orientation_down`. -/
def vecDowns (ds : VecDs) : List Bool := (List.range ds.n).map ds.down

/-- The orientation matrices (dolfyn/io/nortek.py:94-99): those of the IMU if its first record has a type with a matrix,
or those of heading, pitch and roll. -/
def vecOmat (ds : VecDs) : Except Err (List (Option M3)) :=
  if (ds.imuType.map imuHasOrient).getD false then
    .ok ((List.range ds.n).map fun i => (ds.imu i).bind fun d => d.orient.map fun m => Matrix.of m)
  else calcOmat (vecHPR ds) (some (vecDowns ds))

/-- Samples where velocity, orientation and the IMU variables are known. -/
def VecT (ds : VecDs) (om : List (Option M3)) : Type :=
  {k : ℕ // k < ds.n ∧ (∀ b, (ds.vel k b).isSome) ∧ (∃ m, om[k]? = some (some m)) ∧
    ∀ f, ds.imuType = some f → ∃ d, ds.imu k = some d ∧ (imuHasMag f = true → d.mag.isSome)}

/-- The IMU variables in `rotate_vars` (dolfyn/io/nortek.py:941-980). -/
def vecImuVars (ds : VecDs) (om : List (Option M3)) : List (RVar (VecT ds om)) :=
  let accel : RVar (VecT ds om) := ⟨"accel", 3, fun t b => ((ds.imu t.1).map fun d => d.accel (Fin.ofNat 3 b)).getD 0⟩
  let angrt : RVar (VecT ds om) := ⟨"angrt", 3, fun t b => ((ds.imu t.1).map fun d => d.angrt (Fin.ofNat 3 b)).getD 0⟩
  let mag : RVar (VecT ds om) :=
    ⟨"mag", 3, fun t b => ((ds.imu t.1).bind fun d => d.mag.map fun m => m (Fin.ofNat 3 b)).getD 0⟩
  match ds.imuType with
  | none => []
  | some f => if f = 195 then [accel, angrt] else if f = 204 then [accel, angrt, mag] else [angrt, accel, mag]

/-- The dataset of a Vector (dolfyn/io/nortek.py:289-298, 90-99). -/
def vecRDS (o : NkOpened) (ds : VecDs) (om : List (Option M3)) : RDS (VecT ds om) where
  inst := .vector
  coordSys := o.frame.toFrame
  vars := ⟨"vel", 3, fun t b => (((ds.vel t.1 (Fin.ofNat 3 b)).getD 0 : ℚ) : ℝ)⟩ :: vecImuVars ds om
  beam2inst := some (nkBeamMat o.head)
  orientmat := some fun t => ((om[t.1]?).join).getD 1
  calcOmat := fun _ => .error .unboundLocal
  down := false
  principalHeading := none
  declination := none
  heading := some fun t => (ds.heading t.1).getD 0
  inst2head := none
  inst2headSet := false

/-- The end of `read_nortek` for a Vector. -/
def vecFinish (rot : Option M3) (dec : Option ℝ) (o : NkOpened) (ds : VecDs) :
    Option (Except Err ((om : List (Option M3)) × RDS (VecT ds om))) :=
  match vecOmat ds with
  | .error e => some (.error e)
  | .ok om => (nkUserApply rot dec (vecRDS o ds om)).map fun
    | .error e => .error e
    | .ok d => .ok ⟨om, d⟩

end

end Dolfyn
