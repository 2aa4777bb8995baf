import Verif.Model.RdiCfg
import Verif.Model.Orient

/-!
Model of the end of `read_rdi` (dolfyn/io/rdi.py:95-116): what the reader has found becomes a dataset with beam
and orientation matrices, and the declination of the userdata is applied.

The rotations act on one sample at a time (Model/Rotate), so the dataset handed to them holds the samples whose
velocity is known; the others stay NaN. Of the userdata only `declination` is followed (any other entry becomes an
attribute, dolfyn/io/rdi.py:69-70).
-/

namespace Dolfyn

noncomputable section

/-- The names of the frames (dolfyn/io/rdi.py:774-776) for the rotations. -/
def RdFrame.toFrame : RdFrame → Frame
  | .beam => .beam
  | .inst => .inst
  | .ship => .ship
  | .earth => .earth

/-- `beam2inst_orientmat` (dolfyn/io/rdi.py:99-107). -/
def rdBeamMat (cfg : RdCfg) : BeamMat := ⟨4, rdiBeamMat cfg.beamAngle (if cfg.convex then 1 else 0) true⟩

/-- Components that must be known: the matrix of the beams mixes all four; the rotations use three. -/
def rdNeeded (cfg : RdCfg) : ℕ := if cfg.frame = .beam then 4 else 3

/-- Samples with known velocity: ensemble (second) and cell, or `none` for the bottom track. -/
def RdT (ds : RdDs) : Type :=
  {t : Option ℕ × ℕ // t.2 < ds.width ∧ match t.1 with
    | some c => c < ds.cells ∧ ∀ b < rdNeeded ds.cfg, (ds.elem .vel b c t.2).isSome
    | none => ∀ b < rdNeeded ds.cfg, (ds.elem .velBt b 0 t.2).isSome}

/-- The values of a variable of `rotate_vars` at a sample. -/
def rdVal (ds : RdDs) (nm : RdName) (t : RdT ds) (b : ℕ) : ℝ :=
  match nm, t.1.1 with
  | .vel, some c => (((ds.elem .vel b c t.1.2).getD 0 : ℚ) : ℝ)
  | .velBt, none => (((ds.elem .velBt b 0 t.1.2).getD 0 : ℚ) : ℝ)
  | _, _ => 0

/-- The names in `rotate_vars` (dolfyn/io/rdi.py:1325-1331). -/
def rdVarName : RdName → String
  | .vel => "vel"
  | .velBt => "vel_bt"
  | _ => ""

/-- An angle of an ensemble. -/
def rdAngle (ds : RdDs) (nm : RdName) (i : ℕ) : ℝ := (((ds.elem nm 0 0 i).getD 0 : ℚ) : ℝ)

/-- The orientation matrix of an ensemble (`_calc_orientmat`, dolfyn/rotate/rdi.py:102-174). -/
def rdOrientAt (ds : RdDs) (i : ℕ) : M3 :=
  rdiOrient true ds.cfg.up (decide (ds.cfg.frame = .ship) && ds.cfg.usePitchRoll)
    (rdAngle ds .heading i) (rdAngle ds .pitch i) (rdAngle ds .roll i)

/-- The dataset (dolfyn/io/rdi.py:93-110); `dec` is the `declination` of the userdata. -/
def rdRDS (dec : Option ℝ) (ds : RdDs) : RDS (RdT ds) where
  inst := .rdi
  coordSys := ds.cfg.frame.toFrame
  vars := ds.rotateVars.map fun nm => ⟨rdVarName nm, 4, rdVal ds nm⟩
  beam2inst := some (rdBeamMat ds.cfg)
  orientmat := some fun t => rdOrientAt ds t.1.2
  calcOmat := fun _ => .ok fun t => rdOrientAt ds t.1.2
  down := !ds.cfg.up
  principalHeading := none
  declination := dec
  heading := some fun t => rdAngle ds .heading t.1.2
  inst2head := none
  inst2headSet := false

/-- The end of `read_rdi`: without leaders `_calc_orientmat` raises, then comes the declination. -/
def rdReadEnd (dec : Option ℝ) (ds : RdDs) : Option (Except Err (RDS (RdT ds))) :=
  if RdName.roll ∈ ds.names ∧ RdName.pitch ∈ ds.names ∧ RdName.heading ∈ ds.names then
    setRdiDeclination 3 ds.cfg.magVar (rdRDS dec ds)
  else some (.error .keyError)

end

end Dolfyn
