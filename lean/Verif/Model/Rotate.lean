import Verif.Model.Py
import Mathlib.Data.Real.Basic
import Mathlib.Data.Matrix.Basic
import Mathlib.LinearAlgebra.Matrix.NonsingularInverse
import Mathlib.Analysis.SpecialFunctions.Trigonometric.Basic

/-!
Model of the rotation code: `dolfyn/rotate/api.py`, `base.py`, `vector.py`, `awac.py`,
`signature.py`, `rdi.py`.

A dataset is reduced to what these functions read and write. `T` indexes the samples (time together
with any range dimension): every `einsum` in this code acts on the component axis of one sample with
the matrix of that sample. A vector variable stores its number of components `n` and its values
as `T → ℕ → ℝ`; components `≥ n` carry no meaning and are never touched.
The letter case of `coord_sys` is not modelled (all readers write lower case), warnings and prints are
dropped, and the `dir` coordinate labels set by `_set_coords` are dropped (only `coord_sys` is kept).
-/

namespace Dolfyn

noncomputable section
open Classical

abbrev M3 := Matrix (Fin 3) (Fin 3) ℝ
abbrev M4 := Matrix (Fin 4) (Fin 4) ℝ

/-- Names of coordinate systems; `other` is any string that is none of these. -/
inductive Frame
  | beam | inst | ship | earth | principal | other
  deriving DecidableEq, Repr

/-- Instrument families selected by `rot_module_dict` (dolfyn/rotate/api.py:14-22);
`unknown` is a make/model string containing none of its keys. -/
inductive Inst
  | vector | awac | signature | rdi | unknown
  deriving DecidableEq, Repr

/-- A vector-valued variable listed in `rotate_vars`. -/
structure RVar (T : Type) where
  name : String
  n : ℕ
  val : T → ℕ → ℝ

/-- The square matrix `beam2inst_orientmat`, of any size. -/
structure BeamMat where
  n : ℕ
  mat : Matrix (Fin n) (Fin n) ℝ

/-- The part of a dataset the rotation code uses. `calcOmat isShip` is the orientation matrix that the
code would compute from heading, pitch and roll when no `orientmat` variable exists
(`vector._calc_omat`, `signature` and `rdi._calc_orientmat`; only the RDI one looks at whether the data
is in the ship frame), or the error raised there. -/
@[ext] structure RDS (T : Type) where
  inst : Inst
  coordSys : Frame
  vars : List (RVar T)
  beam2inst : Option BeamMat
  orientmat : Option (T → M3)
  calcOmat : Bool → Except Err (T → M3)
  down : Bool
  principalHeading : Option ℝ
  declination : Option ℝ
  heading : Option (T → ℝ)
  inst2head : Option M3
  inst2headSet : Bool

variable {T : Type}

/-- `np.einsum('ij,j...->i...', M, dat[:n])` written back into the first `n` components. -/
def applyM {n : ℕ} (M : Matrix (Fin n) (Fin n) ℝ) (v : ℕ → ℝ) : ℕ → ℝ :=
  fun i => if h : i < n then ∑ j : Fin n, M ⟨i, h⟩ j * v j else v i

/-- Rotate a whole variable with a per-sample matrix. -/
def RVar.rot {n : ℕ} (v : RVar T) (M : T → Matrix (Fin n) (Fin n) ℝ) : RVar T :=
  { v with val := fun t => applyM (M t) (v.val t) }

/-- `np.deg2rad`. -/
def deg2rad (x : ℝ) : ℝ := x * (Real.pi / 180)

/-- `_check_rotmat_det` (dolfyn/rotate/base.py:16-26) for one matrix. -/
def checkRotmatDet (M : M3) : Prop := |M.det - 1| < 1 / 1000

/-- `_check_inst2head_rotmat` (dolfyn/rotate/vector.py:41-50). A missing `inst2head_rotmat_was_set`
attribute counts as unset. -/
def checkInst2head (ds : RDS T) : Except Err Bool :=
  match ds.inst2head with
  | none => .ok false
  | some R =>
    if ds.inst2headSet = false then .error .exception
    else if ¬ checkRotmatDet R then .error .valueError
    else .ok true

/-- `_rotate_inst2head` (dolfyn/rotate/vector.py:29-38): rotates `vel` only; `np.dot` with a 3×3
matrix raises for any other number of rows. -/
def rotateInst2head (reverse : Bool) (ds : RDS T) : Except Err (RDS T) :=
  match checkInst2head ds, ds.inst2head with
  | .error e, _ => .error e
  | .ok true, some R =>
    (ds.vars.mapM fun (v : RVar T) =>
      if v.name = "vel" then
        if v.n = 3 then Except.ok (v.rot fun _ => if reverse then R.transpose else R)
        else Except.error Err.valueError
      else Except.ok v).map fun vars => { ds with vars := vars }
  | .ok _, _ => .ok ds

/-- `base._beam2inst` (dolfyn/rotate/base.py:99-144), `force=False`. Only variables whose number of
components equals the matrix size are rotated; `inv` of a singular matrix raises. -/
def beam2instBase (reverse : Bool) (ds : RDS T) : Except Err (RDS T) := do
  if reverse = false ∧ ds.coordSys ≠ .beam then throw .valueError
  if reverse = true ∧ ds.coordSys ≠ .inst then throw .valueError
  match ds.beam2inst with
  | none => throw .keyError
  | some B =>
    if reverse = true ∧ B.mat.det = 0 then throw .linAlgError
    let M := if reverse then B.mat⁻¹ else B.mat
    let vars := ds.vars.map fun v => if v.n = B.n then v.rot (fun _ => M) else v
    return { ds with vars := vars, coordSys := if reverse then .beam else .inst }

/-- `_beam2inst` of each instrument module: `vector.py:7-26` wraps the base function with the
head rotation; `awac.py:2`, `signature.py:2`, `rdi.py:4` use the base function. -/
def beam2inst (reverse : Bool) (ds : RDS T) : Except Err (RDS T) :=
  match ds.inst with
  | .vector =>
    if reverse then do
      let ds ← rotateInst2head true ds
      beam2instBase true ds
    else do
      let ds ← beam2instBase false ds
      rotateInst2head false ds
  | _ => beam2instBase reverse ds

/-- The orientation matrix used by `_inst2earth`: the variable if present, otherwise computed. -/
def effOmat (ds : RDS T) : Except Err (T → M3) :=
  match ds.orientmat with
  | some m => .ok m
  | none => ds.calcOmat (decide (ds.coordSys = .ship))

/-- `vector._inst2earth` (dolfyn/rotate/vector.py:53-122), also used for AWAC. `rmat` is the
transpose of `omat`; the reverse einsum transposes once more. -/
def inst2earthNortek (reverse : Bool) (ds : RDS T) : Except Err (RDS T) := do
  if ds.coordSys ≠ (if reverse then .earth else .inst) then throw .valueError
  let omat ← effOmat ds
  let vars ← ds.vars.mapM fun v =>
    if v.n ≠ 3 then .error .exception
    else .ok (v.rot fun t => if reverse then omat t else (omat t).transpose)
  return { ds with vars := vars, coordSys := if reverse then .inst else .earth }

/-- The 4×4 matrix of `signature._inst2earth` (dolfyn/rotate/signature.py:75-84). -/
def ext4 (R : M3) : M4 :=
  !![R 0 0, R 0 1, R 0 2 / 2, R 0 2 / 2;
     R 1 0, R 1 1, R 1 2 / 2, R 1 2 / 2;
     R 2 0, R 2 1, R 2 2, 0;
     R 2 0, R 2 1, 0, R 2 2]

/-- `signIMU` / `sign` (signature.py:96-97) as diagonal matrices. -/
def sign3 : M3 := Matrix.diagonal ![1, -1, -1]
def sign4 : M4 := Matrix.diagonal ![1, -1, -1, -1]

/-- `signature._inst2earth` (dolfyn/rotate/signature.py:9-128). `inv` is applied to the whole stack of
4×4 matrices (also when only 3-component variables are rotated), so a singular one raises. -/
def inst2earthSig (reverse : Bool) (ds : RDS T) : Except Err (RDS T) := do
  if ds.coordSys ≠ (if reverse then .earth else .inst) then throw .valueError
  let omat ← effOmat ds
  if reverse = true ∧ ∃ t, (ext4 (omat t).transpose).det = 0 then throw .linAlgError
  let vars ← ds.vars.mapM fun v =>
    if v.n = 3 then
      .ok (v.rot fun t =>
        if ds.down then
          if reverse then sign3 * omat t else (omat t).transpose * sign3
        else
          if reverse then omat t else (omat t).transpose)
    else if v.n = 4 then
      .ok (v.rot fun t =>
        if ds.down then
          if reverse then sign4 * (ext4 (omat t).transpose)⁻¹ else ext4 (omat t).transpose * sign4
        else
          if reverse then (ext4 (omat t).transpose)⁻¹ else ext4 (omat t).transpose)
    else .error .exception
  return { ds with vars := vars, coordSys := if reverse then .inst else .earth }

/-- `rdi._inst2earth` (dolfyn/rotate/rdi.py:7-70): rotates the first three components of every variable;
fewer than three rows is a shape error. -/
def inst2earthRdi (reverse : Bool) (ds : RDS T) : Except Err (RDS T) := do
  if reverse = true ∧ ds.coordSys ≠ .earth then throw .valueError
  if reverse = false ∧ ds.coordSys ≠ .inst ∧ ds.coordSys ≠ .ship then throw .valueError
  let omat ← effOmat ds
  let vars ← ds.vars.mapM fun v =>
    if v.n < 3 then .error .valueError
    else .ok (v.rot fun t => if reverse then omat t else (omat t).transpose)
  return { ds with vars := vars, coordSys := if reverse then .inst else .earth }

/-- `_inst2earth` of each instrument module. -/
def inst2earth (reverse : Bool) (ds : RDS T) : Except Err (RDS T) :=
  match ds.inst with
  | .vector | .awac => inst2earthNortek reverse ds
  | .signature => inst2earthSig reverse ds
  | .rdi => inst2earthRdi reverse ds
  | .unknown => .error .valueError

/-- The 2×2 block of the rotation matrix of `_earth2principal` (vector.py:171-175). -/
def rot2 (ang : ℝ) : Matrix (Fin 2) (Fin 2) ℝ :=
  !![Real.cos ang, -Real.sin ang; Real.sin ang, Real.cos ang]

/-- `_earth2principal` (dolfyn/rotate/vector.py:125-186), shared by all instruments. Fewer than two
rows is a shape error. -/
def earth2principal (reverse : Bool) (ds : RDS T) : Except Err (RDS T) := do
  match ds.principalHeading with
  | none => throw .attributeError
  | some ph =>
    let ang := deg2rad (90 - ph)
    let ang := if reverse then ang else -ang
    if ds.coordSys ≠ (if reverse then .principal else .earth) then throw .valueError
    let vars ← ds.vars.mapM fun v =>
      if v.n < 2 then .error .valueError else .ok (v.rot fun _ => rot2 ang)
    return { ds with vars := vars, coordSys := if reverse then .earth else .principal }

/-- Position in the rotation chain `rc` (dolfyn/rotate/api.py:12); `none` is `ValueError` from
`list.index`. -/
def chainIndex : Frame → Option ℕ
  | .beam => some 0
  | .inst => some 1
  | .earth => some 2
  | .principal => some 3
  | _ => none

/-- `csin = 'inst'` when the data is in the ship frame (api.py:62-64 and 108-110). -/
def shipAsInst : Frame → Frame
  | .ship => .inst
  | f => f

/-- The module function `'_' + rc[i] + '2' + rc[i+1]`; other indices are an attribute or index error. -/
def linkFun (i : ℤ) (reverse : Bool) (ds : RDS T) : Except Err (RDS T) :=
  if i = 0 then beam2inst reverse ds
  else if i = 1 then inst2earth reverse ds
  else if i = 2 then earth2principal reverse ds
  else if i = -1 then .error .attributeError
  else .error .indexError

/-- The `while` loop of `rotate2` (api.py:107-116). `none` means the fuel ran out, i.e. the loop has
not stopped after that many iterations. -/
def rotateLoop (reverse : Bool) (out : Frame) : ℕ → RDS T → Option (Except Err (RDS T))
  | 0, ds => if ds.coordSys = out then some (.ok ds) else none
  | fuel + 1, ds =>
    if ds.coordSys = out then some (.ok ds)
    else match chainIndex (shipAsInst ds.coordSys) with
      | none => some (.error .valueError)
      | some inow =>
        match linkFun (if reverse then (inow : ℤ) - 1 else inow) reverse ds with
        | .error e => some (.error e)
        | .ok ds' => rotateLoop reverse out fuel ds'

/-- `rotate2` (dolfyn/rotate/api.py:25-119) as a function of the dataset (the `inplace` flag only
decides whether the input object or a copy receives the result). -/
def rotate2 (fuel : ℕ) (out : Frame) (ds : RDS T) : Option (Except Err (RDS T)) :=
  match checkInst2head ds with
  | .error e => some (.error e)
  | .ok _ =>
    if ds.inst = .unknown then some (.error .valueError)
    else match chainIndex (shipAsInst ds.coordSys) with
      | none => some (.error .exception)
      | some iin =>
        match chainIndex out with
        | none => some (.error .exception)
        | some iout => rotateLoop (decide (¬ iin < iout)) out fuel ds

/-- `Rdec` of `set_declination` (api.py:227-234). -/
def rotDec (angle : ℝ) : M3 :=
  let cd := Real.cos (-(deg2rad angle))
  let sd := Real.sin (-(deg2rad angle))
  !![cd, -sd, 0; sd, cd, 0; 0, 0, 1]

/-- The angle by which `set_declination` turns the earth frame (api.py:223-226). -/
def decAngle (declin : ℝ) (ds : RDS T) : ℝ :=
  match ds.declination with
  | some d => declin - d
  | none => declin

/-- `set_declination` (dolfyn/rotate/api.py:173-256). The new orientation matrix is
`einsum('kj,ij->ki', omat, Rdec) = omat · Rdecᵀ`. -/
def setDeclination (fuel : ℕ) (declin : ℝ) (ds : RDS T) : Option (Except Err (RDS T)) :=
  let angle := decAngle declin ds
  let ds0 := { ds with declination := none }
  let finish (ds1 : RDS T) (toEarth : Bool) : Option (Except Err (RDS T)) :=
    match ds1.orientmat with
    | none => some (.error .keyError)
    | some m =>
      let ds2 := { ds1 with
        orientmat := some fun t => m t * (rotDec angle).transpose
        heading := ds1.heading.map fun h t => h t + angle }
      let fin (ds3 : RDS T) : RDS T :=
        { ds3 with
          principalHeading := ds3.principalHeading.map (· + angle)
          declination := some declin }
      if toEarth then
        match rotate2 fuel .earth ds2 with
        | none => none
        | some (.error e) => some (.error e)
        | some (.ok ds3) => some (.ok (fin ds3))
      else some (.ok (fin ds2))
  if ds0.coordSys = .earth then
    match rotate2 fuel .inst ds0 with
    | none => none
    | some (.error e) => some (.error e)
    | some (.ok ds1) => finish ds1 true
  else finish ds0 false

/-- `set_inst2head_rotmat` (dolfyn/rotate/api.py:259-320). `isVector` is
`ds.inst_model.lower() == 'vector'`, here `inst = vector`. -/
def setInst2head (fuel : ℕ) (R : M3) (ds : RDS T) : Option (Except Err (RDS T)) :=
  if ds.inst ≠ .vector then some (.error .exception)
  else match ds.inst2head with
    | some _ => some (.error .exception)
    | none =>
      let csin := ds.coordSys
      let finish (ds1 : RDS T) : Option (Except Err (RDS T)) :=
        let ds2 := { ds1 with inst2head := some R, inst2headSet := true }
        let r3 := if csin ≠ .beam then rotateInst2head false ds2 else .ok ds2
        match r3 with
        | .error e => some (.error e)
        | .ok ds3 =>
          if csin ≠ .inst ∧ csin ≠ .beam then rotate2 fuel csin ds3 else some (.ok ds3)
      if csin ≠ .inst ∧ csin ≠ .beam then
        match rotate2 fuel .inst ds with
        | none => none
        | some (.error e) => some (.error e)
        | some (.ok ds1) => finish ds1
      else finish ds

end

end Dolfyn
