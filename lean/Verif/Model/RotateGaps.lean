import Verif.Model.Rotate
import Verif.Model.Clean

/-!
The rotation code (`dolfyn/rotate/api.py`, `base.py`, `vector.py`, `awac.py`, `signature.py`, `rdi.py`) on
data in which some components of some samples are missing. The functions are those of
`Model/Rotate.lean`, with values `Option ℝ` (`none` is NaN) and the `einsum` of `nanMulVec`: the products are
added one after another and `0 * nan` is NaN. Everything the code reads besides the rotated variables is kept in
`hdr`, whose own `vars` field is not used. The matrices themselves have no missing entries.
-/

namespace Dolfyn

noncomputable section
open Classical

/-- A variable listed in `rotate_vars`; `none` is NaN. -/
structure GVar (T : Type) where
  name : String
  n : ℕ
  val : T → ℕ → Option ℝ

/-- A dataset with missing values. -/
structure GDS (T : Type) where
  hdr : RDS T
  vars : List (GVar T)

variable {T : Type}

/-- `np.einsum('ij,j...->i...', M, dat[:n])` written back into the first `n` components
(the calls cited below). -/
def applyG {n : ℕ} (M : Matrix (Fin n) (Fin n) ℝ) (v : ℕ → Option ℝ) : ℕ → Option ℝ :=
  fun i => if h : i < n then nanMulVec M (fun j => v j) ⟨i, h⟩ else v i

/-- Rotate a whole variable with a per-sample matrix (the calls cited below). -/
def GVar.rot {n : ℕ} (v : GVar T) (M : T → Matrix (Fin n) (Fin n) ℝ) : GVar T :=
  { v with val := fun t => applyG (M t) (v.val t) }

/-- `_set_coords` (dolfyn/rotate/base.py:88): the new frame name. -/
def GDS.put (g : GDS T) (vars : List (GVar T)) (f : Frame) : GDS T :=
  { hdr := { g.hdr with coordSys := f }, vars := vars }

/-- `_rotate_inst2head` (dolfyn/rotate/vector.py:29-38). -/
def rotateInst2headG (reverse : Bool) (g : GDS T) : Except Err (GDS T) :=
  match checkInst2head g.hdr, g.hdr.inst2head with
  | .error e, _ => .error e
  | .ok true, some R =>
    (g.vars.mapM fun (v : GVar T) =>
      if v.name = "vel" then
        if v.n = 3 then Except.ok (v.rot fun _ => if reverse then R.transpose else R)
        else Except.error Err.valueError
      else Except.ok v).map fun vars => { g with vars := vars }
  | .ok _, _ => .ok g

/-- `base._beam2inst` (dolfyn/rotate/base.py:99-144), `force=False`. -/
def beam2instBaseG (reverse : Bool) (g : GDS T) : Except Err (GDS T) := do
  if reverse = false ∧ g.hdr.coordSys ≠ .beam then throw .valueError
  if reverse = true ∧ g.hdr.coordSys ≠ .inst then throw .valueError
  match g.hdr.beam2inst with
  | none => throw .keyError
  | some B =>
    if reverse = true ∧ B.mat.det = 0 then throw .linAlgError
    let M := if reverse then B.mat⁻¹ else B.mat
    let vars := g.vars.map fun v => if v.n = B.n then v.rot (fun _ => M) else v
    return g.put vars (if reverse then .beam else .inst)

/-- `_beam2inst` of each instrument module (vector.py:7-26, awac.py:2, signature.py:2, rdi.py:4). -/
def beam2instG (reverse : Bool) (g : GDS T) : Except Err (GDS T) :=
  match g.hdr.inst with
  | .vector =>
    if reverse then do
      let g ← rotateInst2headG true g
      beam2instBaseG true g
    else do
      let g ← beam2instBaseG false g
      rotateInst2headG false g
  | _ => beam2instBaseG reverse g

/-- `vector._inst2earth` (dolfyn/rotate/vector.py:53-122), also used for AWAC. -/
def inst2earthNortekG (reverse : Bool) (g : GDS T) : Except Err (GDS T) := do
  if g.hdr.coordSys ≠ (if reverse then .earth else .inst) then throw .valueError
  let omat ← effOmat g.hdr
  let vars ← g.vars.mapM fun v =>
    if v.n ≠ 3 then .error .exception
    else .ok (v.rot fun t => if reverse then omat t else (omat t).transpose)
  return g.put vars (if reverse then .inst else .earth)

/-- `signature._inst2earth` (dolfyn/rotate/signature.py:9-128). Changing the sign of components before or
after the `einsum` leaves NaN in place, so it is part of the matrix as in `inst2earthSig`. -/
def inst2earthSigG (reverse : Bool) (g : GDS T) : Except Err (GDS T) := do
  if g.hdr.coordSys ≠ (if reverse then .earth else .inst) then throw .valueError
  let omat ← effOmat g.hdr
  if reverse = true ∧ ∃ t, (ext4 (omat t).transpose).det = 0 then throw .linAlgError
  let vars ← g.vars.mapM fun v =>
    if v.n = 3 then
      .ok (v.rot fun t =>
        if g.hdr.down then
          if reverse then sign3 * omat t else (omat t).transpose * sign3
        else
          if reverse then omat t else (omat t).transpose)
    else if v.n = 4 then
      .ok (v.rot fun t =>
        if g.hdr.down then
          if reverse then sign4 * (ext4 (omat t).transpose)⁻¹ else ext4 (omat t).transpose * sign4
        else
          if reverse then (ext4 (omat t).transpose)⁻¹ else ext4 (omat t).transpose)
    else .error .exception
  return g.put vars (if reverse then .inst else .earth)

/-- `rdi._inst2earth` (dolfyn/rotate/rdi.py:7-70): the fourth component is not part of the `einsum`. -/
def inst2earthRdiG (reverse : Bool) (g : GDS T) : Except Err (GDS T) := do
  if reverse = true ∧ g.hdr.coordSys ≠ .earth then throw .valueError
  if reverse = false ∧ g.hdr.coordSys ≠ .inst ∧ g.hdr.coordSys ≠ .ship then throw .valueError
  let omat ← effOmat g.hdr
  let vars ← g.vars.mapM fun v =>
    if v.n < 3 then .error .valueError
    else .ok (v.rot fun t => if reverse then omat t else (omat t).transpose)
  return g.put vars (if reverse then .inst else .earth)

/-- `_inst2earth` of each instrument module (as in `inst2earth`). -/
def inst2earthG (reverse : Bool) (g : GDS T) : Except Err (GDS T) :=
  match g.hdr.inst with
  | .vector | .awac => inst2earthNortekG reverse g
  | .signature => inst2earthSigG reverse g
  | .rdi => inst2earthRdiG reverse g
  | .unknown => .error .valueError

/-- `_earth2principal` (dolfyn/rotate/vector.py:125-186): only the first two components are part of the
`einsum`. -/
def earth2principalG (reverse : Bool) (g : GDS T) : Except Err (GDS T) := do
  match g.hdr.principalHeading with
  | none => throw .attributeError
  | some ph =>
    let ang := deg2rad (90 - ph)
    let ang := if reverse then ang else -ang
    if g.hdr.coordSys ≠ (if reverse then .principal else .earth) then throw .valueError
    let vars ← g.vars.mapM fun v =>
      if v.n < 2 then .error .valueError else .ok (v.rot fun _ => rot2 ang)
    return g.put vars (if reverse then .earth else .principal)

/-- The module function `'_' + rc[i] + '2' + rc[i+1]` (dolfyn/rotate/api.py:111-115). -/
def linkFunG (i : ℤ) (reverse : Bool) (g : GDS T) : Except Err (GDS T) :=
  if i = 0 then beam2instG reverse g
  else if i = 1 then inst2earthG reverse g
  else if i = 2 then earth2principalG reverse g
  else if i = -1 then .error .attributeError
  else .error .indexError

/-- The `while` loop of `rotate2` (dolfyn/rotate/api.py:107-116). -/
def rotateLoopG (reverse : Bool) (out : Frame) : ℕ → GDS T → Option (Except Err (GDS T))
  | 0, g => if g.hdr.coordSys = out then some (.ok g) else none
  | fuel + 1, g =>
    if g.hdr.coordSys = out then some (.ok g)
    else match chainIndex (shipAsInst g.hdr.coordSys) with
      | none => some (.error .valueError)
      | some inow =>
        match linkFunG (if reverse then (inow : ℤ) - 1 else inow) reverse g with
        | .error e => some (.error e)
        | .ok g' => rotateLoopG reverse out fuel g'

/-- `rotate2` (dolfyn/rotate/api.py:25-119). -/
def rotate2G (fuel : ℕ) (out : Frame) (g : GDS T) : Option (Except Err (GDS T)) :=
  match checkInst2head g.hdr with
  | .error e => some (.error e)
  | .ok _ =>
    if g.hdr.inst = .unknown then some (.error .valueError)
    else match chainIndex (shipAsInst g.hdr.coordSys) with
      | none => some (.error .exception)
      | some iin =>
        match chainIndex out with
        | none => some (.error .exception)
        | some iout => rotateLoopG (decide (¬ iin < iout)) out fuel g

/-- `set_declination` (dolfyn/rotate/api.py:173-256), see `setDeclination`. -/
def setDeclinationG (fuel : ℕ) (declin : ℝ) (g : GDS T) : Option (Except Err (GDS T)) :=
  let angle := decAngle declin g.hdr
  let g0 : GDS T := { g with hdr := { g.hdr with declination := none } }
  let finish (g1 : GDS T) (toEarth : Bool) : Option (Except Err (GDS T)) :=
    match g1.hdr.orientmat with
    | none => some (.error .keyError)
    | some m =>
      let g2 : GDS T := { g1 with hdr := { g1.hdr with
        orientmat := some fun t => m t * (rotDec angle).transpose
        heading := g1.hdr.heading.map fun h t => h t + angle } }
      let fin (g3 : GDS T) : GDS T := { g3 with hdr := { g3.hdr with
        principalHeading := g3.hdr.principalHeading.map (· + angle)
        declination := some declin } }
      if toEarth then
        match rotate2G fuel .earth g2 with
        | none => none
        | some (.error e) => some (.error e)
        | some (.ok g3) => some (.ok (fin g3))
      else some (.ok (fin g2))
  if g0.hdr.coordSys = .earth then
    match rotate2G fuel .inst g0 with
    | none => none
    | some (.error e) => some (.error e)
    | some (.ok g1) => finish g1 true
  else finish g0 false

/-- `set_inst2head_rotmat` (dolfyn/rotate/api.py:259-320), see `setInst2head`. -/
def setInst2headG (fuel : ℕ) (R : M3) (g : GDS T) : Option (Except Err (GDS T)) :=
  if g.hdr.inst ≠ .vector then some (.error .exception)
  else match g.hdr.inst2head with
    | some _ => some (.error .exception)
    | none =>
      let csin := g.hdr.coordSys
      let finish (g1 : GDS T) : Option (Except Err (GDS T)) :=
        let g2 : GDS T := { g1 with hdr := { g1.hdr with inst2head := some R, inst2headSet := true } }
        let r3 := if csin ≠ .beam then rotateInst2headG false g2 else .ok g2
        match r3 with
        | .error e => some (.error e)
        | .ok g3 =>
          if csin ≠ .inst ∧ csin ≠ .beam then rotate2G fuel csin g3 else some (.ok g3)
      if csin ≠ .inst ∧ csin ≠ .beam then
        match rotate2G fuel .inst g with
        | none => none
        | some (.error e) => some (.error e)
        | some (.ok g1) => finish g1
      else finish g

end

end Dolfyn
