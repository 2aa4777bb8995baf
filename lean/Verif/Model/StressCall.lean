import Verif.Model.Rotate
import Verif.Model.Turb

/-!
The stress functions of the ADCP binner as calls on a dataset: which beam angle, noise and orientation
count, the rotation to beam coordinates, and what is left of the dataset afterwards. The numbers are
those of `calcStress4` and `calcStress5`. Samples are indexed by (cell, time).
-/

namespace Dolfyn

/-- What the stress functions read besides the data: dataset attributes, arguments of the call and the
settings of the binner (dolfyn/adp/turbulence.py:36-77). -/
structure StressArgs where
  /-- `ds.attrs['beam_angle']` -/
  angleAttr : Option ℝ
  /-- argument `beam_angle` -/
  angleArg : Option ℝ
  /-- argument `noise` (a number) -/
  noiseArg : Option ℝ
  /-- `noise` given to the binner -/
  noiseBinner : Option ℝ
  /-- argument `orientation` -/
  facingArg : Option Facing
  /-- `ds.attrs['orientation']` -/
  facingAttr : Option Facing
  /-- `orientation` given to the binner -/
  facingBinner : Facing

/-- `getattr(ds, 'beam_angle', beam_angle)` (dolfyn/adp/turbulence.py:254). -/
def StressArgs.angle (a : StressArgs) : Option ℝ :=
  match a.angleAttr with
  | some x => some x
  | none => a.angleArg

/-- The orientation in effect (dolfyn/adp/turbulence.py:298-299). -/
def StressArgs.facing (a : StressArgs) : Facing :=
  match a.facingArg with
  | some o => o
  | none =>
    match a.facingAttr with
    | some o => o
    | none => a.facingBinner

/-- `'TRDI' in ds.inst_make`, `'Signature' in ds.inst_model` (dolfyn/adp/turbulence.py:301, 314). -/
def adpMake : Inst → AdpMake
  | .rdi => .trdi
  | .signature => .signature
  | _ => .other

noncomputable section

/-- `ds['vel'].values` of one depth cell: the first four components as time series. `None` if there is no
such variable. -/
def cellVel (ds : RDS (ℕ × ℕ)) (cell : ℕ) : Option (Fin 4 → ℕ → Option ℝ) :=
  (ds.vars.find? fun v => decide (v.name = "vel")).map fun v i t => some (v.val (cell, t) i)

/-- The dataset after `_stress_func_warnings` (dolfyn/adp/turbulence.py:250-283): the rotation works on the
caller's dataset. `pitch` and `roll` are assumed to be there (they are used for a warning only). A
rotation that raises leaves the dataset as it was in this model, which is not followed further.
`none`: `rotate2` does not stop. -/
def stressPrepare (fuel : ℕ) (a : StressArgs) (ds : RDS (ℕ × ℕ)) :
    Option (RDS (ℕ × ℕ) × Except Err (ℝ × ℝ)) :=
  match a.angle with
  | none => some (ds, .error .exception)
  | some ang =>
    let noise := a.noiseArg.getD 0
    if ds.coordSys = .beam then some (ds, .ok (ang, noise))
    else match rotate2 fuel .beam ds with
      | none => none
      | some (.error e) => some (ds, .error e)
      | some (.ok d) => some (d, .ok (ang, noise))

/-- `calc_stress_4beam(ds, noise, orientation, beam_angle)` (dolfyn/adp/turbulence.py:353-406) for the depth
cell `cell`: the dataset after the call and the stresses. -/
def stress4Call (fuel : ℕ) (b : Binner) (a : StressArgs) (len cell : ℕ) (ds : RDS (ℕ × ℕ)) :
    Option (RDS (ℕ × ℕ) × Except Err (List (Option ℝ) × List (Option ℝ))) :=
  match stressPrepare fuel a ds with
  | none => none
  | some (d, .error e) => some (d, .error e)
  | some (d, .ok (ang, noise)) =>
    match cellVel d cell with
    | none => some (d, .error .keyError)
    | some vel => some (d, calcStress4 b (adpMake d.inst) a.facing (some ang) (some noise) len vel)

/-- `calc_stress_5beam` (dolfyn/adp/turbulence.py:408-524) with `tke_only=False`: the numbers are computed
from the beam velocities, then the dataset is turned to the instrument frame for `u'v'`. -/
def stress5Call (fuel : ℕ) (b : Binner) (a : StressArgs) (len cell : ℕ) (pitch roll : ℕ → Option ℝ)
    (vel5 : Option (ℕ → Option ℝ)) (ds : RDS (ℕ × ℕ)) :
    Option (RDS (ℕ × ℕ) × Except Err (List (Option Five))) :=
  match vel5 with
  | none => some (ds, .error .exception)
  | some x5 =>
    match stressPrepare fuel a ds with
    | none => none
    | some (d, .error e) => some (d, .error e)
    | some (d, .ok (ang, noise)) =>
      match cellVel d cell, rotate2 fuel .inst d with
      | none, _ => some (d, .error .keyError)
      | some _, none => none
      | some _, some (.error e) => some (d, .error e)
      | some vel, some (.ok d2) =>
        match cellVel d2 cell with
        | none => some (d2, .error .keyError)
        | some uv =>
          some (d2, calcStress5 b (adpMake d.inst) a.facing (some ang) (some noise) len pitch roll vel
            (some x5) (uv 0) (uv 1))

end

end Dolfyn
