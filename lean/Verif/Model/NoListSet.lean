import Verif.Model.NoList

/-!
`set_declination` and `set_inst2head_rotmat` (dolfyn/rotate/api.py:173-320) on datasets whose attribute `rotate_vars` is
missing: as in `Model/Rotate.lean`, with the rotations of `Model/NoList.lean`.
-/

namespace Dolfyn

noncomputable section

variable {T : Type}

/-- `set_declination` (dolfyn/rotate/api.py:173-256) without the attribute `rotate_vars`: `setDeclination` with the
rotations of `rotate2NoList`. -/
def setDeclinationNoList (fuel : ℕ) (declin : ℝ) (ds : RDS T) : Option (Except Err (RDS T)) :=
  let angle := decAngle declin ds
  let ds0 := { ds with declination := none }
  let finish (ds1 : RDS T) (toEarth : Bool) : Option (Except Err (RDS T)) :=
    match ds1.orientmat with
    | none => some (.error .keyError)
    | some m =>
      let ds2 := { ds1 with
        orientmat := some fun t => m t * (rotDec angle).transpose
        heading := ds1.heading.map fun h t => h t + angle }
      let fin (ds3 : RDS T) : RDS T :=
        { ds3 with
          principalHeading := ds3.principalHeading.map (· + angle)
          declination := some declin }
      if toEarth then
        match rotate2NoList fuel .earth ds2 with
        | none => none
        | some (.error e) => some (.error e)
        | some (.ok ds3) => some (.ok (fin ds3))
      else some (.ok (fin ds2))
  if ds0.coordSys = .earth then
    match rotate2NoList fuel .inst ds0 with
    | none => none
    | some (.error e) => some (.error e)
    | some (.ok ds1) => finish ds1 true
  else finish ds0 false

/-- `set_inst2head_rotmat` (dolfyn/rotate/api.py:259-320) without the attribute `rotate_vars`. -/
def setInst2headNoList (fuel : ℕ) (R : M3) (ds : RDS T) : Option (Except Err (RDS T)) :=
  if ds.inst ≠ .vector then some (.error .exception)
  else match ds.inst2head with
    | some _ => some (.error .exception)
    | none =>
      let csin := ds.coordSys
      let finish (ds1 : RDS T) : Option (Except Err (RDS T)) :=
        let ds2 := { ds1 with inst2head := some R, inst2headSet := true }
        let r3 := if csin ≠ .beam then rotateInst2head false ds2 else .ok ds2
        match r3 with
        | .error e => some (.error e)
        | .ok ds3 =>
          if csin ≠ .inst ∧ csin ≠ .beam then rotate2NoList fuel csin ds3 else some (.ok ds3)
      if csin ≠ .inst ∧ csin ≠ .beam then
        match rotate2NoList fuel .inst ds with
        | none => none
        | some (.error e) => some (.error e)
        | some (.ok ds1) => finish ds1
      else finish ds

end

end Dolfyn
