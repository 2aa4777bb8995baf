import Verif.Model.Rotate
import Mathlib.Analysis.SpecialFunctions.Trigonometric.Inverse
import Mathlib.Analysis.SpecialFunctions.Trigonometric.Arctan
import Mathlib.Analysis.SpecialFunctions.Complex.Arg

/-! Model of the orientation formulas: dolfyn/rotate/base.py, vector.py, rdi.py, and of the angle helpers
in dolfyn/tools/misc.py, velocity.py and rotate/api.py. Floats are exact real numbers. -/

namespace Dolfyn

noncomputable section

/-- `np.rad2deg`. -/
def rad2deg (x : ℝ) : ℝ := x * (180 / Real.pi)

/-- `np.arctan2(y, x)` (no signed zeros). -/
def arctan2 (y x : ℝ) : ℝ := Complex.arg ⟨x, y⟩

/-- Python/numpy `x % m` for `m > 0`. -/
def fmod (x m : ℝ) : ℝ := x - m * ⌊x / m⌋

/-- `euler2orient(heading, pitch, roll)` with `units='degrees'`, one sample
(dolfyn/rotate/base.py:147-230). -/
def euler2orient (heading pitch roll : ℝ) : M3 :=
  let h := Real.pi / 2 - deg2rad heading
  let p := -(deg2rad pitch)
  let r := deg2rad roll
  let H : M3 := !![Real.cos h, Real.sin h, 0; -Real.sin h, Real.cos h, 0; 0, 0, 1]
  let P : M3 := !![Real.cos p, 0, -Real.sin p; 0, 1, 0; Real.sin p, 0, Real.cos p]
  let R : M3 := !![1, 0, 0; 0, Real.cos r, Real.sin r; 0, -Real.sin r, Real.cos r]
  R * P * H

/-- `orient2euler(omat)`, one sample (dolfyn/rotate/base.py:233-271): heading, pitch, roll in degrees. -/
def orient2euler (m : M3) : ℝ × ℝ × ℝ :=
  (fmod (rad2deg (arctan2 (m 0 0) (m 0 1))) 360,
   rad2deg (Real.arcsin (m 0 2)),
   rad2deg (arctan2 (m 1 2) (m 2 2)))

/-- `vector._euler2orient`, one sample, degrees (dolfyn/rotate/vector.py:209-259). -/
def nortekOrient (heading pitch roll : ℝ) : M3 :=
  let h := Real.pi / 2 - deg2rad heading
  let ch := Real.cos h; let sh := Real.sin h
  let cp := Real.cos (deg2rad pitch); let sp := Real.sin (deg2rad pitch)
  let cr := Real.cos (deg2rad roll); let sr := Real.sin (deg2rad roll)
  !![ch * cp, sh * cp, sp;
     -ch * sp * sr - sh * cr, -sh * sp * sr + ch * cr, sr * cp;
     -ch * cr * sp + sh * sr, -sh * cr * sp - ch * sr, cp * cr]

/-- One heading/pitch/roll record; `none` is NaN. -/
structure HPR where
  h : Option ℝ
  p : Option ℝ
  r : Option ℝ

/-- All three angles are finite: `~np.isnan(rr + pp + hh)`. -/
def HPR.good (x : HPR) : Bool := x.h.isSome && x.p.isSome && x.r.isSome

/-- `~np.isnan(..)[0][-1]`: the last index whose record is good. -/
def lastGood (l : List HPR) : Option ℕ :=
  ((List.range l.length).filter fun i => match l[i]? with
    | some x => x.good
    | none => false).getLast?

/-- `vector._calc_omat` up to the call of `_euler2orient` (dolfyn/rotate/vector.py:189-206): the angle
records after filling the end and after adding 180° to roll where the head is upside down. `rr[-1]` of an empty array
and `[..][-1]` of an empty index list raise IndexError. -/
def calcOmatAngles (l : List HPR) (down : Option (List Bool)) : Except Err (List HPR) :=
  match l.getLast? with
  | none => .error .indexError
  | some last =>
    let filled : Except Err (List HPR) :=
      if last.r.isNone ∧ last.p.isNone ∧ last.h.isNone then
        match lastGood l with
        | none => .error .indexError
        | some k => match l[k]? with
          | some x => .ok (l.take k ++ List.replicate (l.length - k) x)
          | none => .error .indexError
      else .ok l
    match filled, down with
    | .error e, _ => .error e
    | .ok l', none => .ok l'
    | .ok l', some d =>
      if d.length ≠ l'.length then .error .indexError
      else .ok (List.zipWith (fun x b => if b then { x with r := x.r.map (· + 180) } else x) l' d)

/-- `vector._calc_omat`: one matrix per record, NaN where an angle is NaN. -/
def calcOmat (l : List HPR) (down : Option (List Bool)) : Except Err (List (Option M3)) :=
  (calcOmatAngles l down).map fun l' => l'.map fun x =>
    match x.h, x.p, x.r with
    | some h, some p, some r => some (nortekOrient h p r)
    | _, _, _ => none

/-- `rdi._calc_beam_orientmat(theta, convex, degrees)` (dolfyn/rotate/rdi.py:73-99).
`convex` is the integer/bool the caller passes. -/
def rdiBeamMat (theta : ℝ) (convex : ℤ) (degrees : Bool) : M4 :=
  let th := if degrees then deg2rad theta else theta
  let c : ℝ := if convex = 0 ∨ convex = -1 then -1 else 1
  let a := 1 / (2 * Real.sin th)
  let b := 1 / (4 * Real.cos th)
  let d := a / Real.sqrt 2
  !![c * a, -c * a, 0, 0;
     0, 0, -c * a, c * a;
     b, b, b, b;
     d, d, -d, -d]

/-- `rdi._calc_orientmat`, one sample (dolfyn/rotate/rdi.py:102-174). `isRdi`: `'rdi' in inst_make`;
`up`: `orientation == 'up'`; `shipTilt`: `coord_sys == 'ship' and use_pitchroll == 'yes'`. -/
def rdiOrient (isRdi up shipTilt : Bool) (heading pitch roll : ℝ) : M3 :=
  let r0 := deg2rad roll
  let p0 := Real.arctan (Real.tan (deg2rad pitch) * Real.cos r0)
  let h := deg2rad heading
  let r1 := if isRdi && up then r0 + Real.pi else r0
  let r := if isRdi && shipTilt then 0 else r1
  let p := if isRdi && shipTilt then 0 else p0
  let ch := Real.cos h; let sh := Real.sin h
  let cp := Real.cos p; let sp := Real.sin p
  let cr := Real.cos r; let sr := Real.sin r
  let rotmat : M3 :=
    !![ch * cr + sh * sp * sr, sh * cp, ch * sr - sh * sp * cr;
       -sh * cr + ch * sp * sr, ch * cp, -sh * sr - ch * sp * cr;
       -cp * sr, sp, cp * cr]
  rotmat.transpose

/-- `scipy.spatial.transform.Rotation.from_quat([x, y, z, w]).as_matrix()`: the quaternion is normalised
(a zero quaternion raises ValueError), then the usual formula. -/
def scipyFromQuat (x y z w : ℝ) : Except Err M3 :=
  let n := Real.sqrt (x ^ 2 + y ^ 2 + z ^ 2 + w ^ 2)
  if n = 0 then .error .valueError else
    let x := x / n; let y := y / n; let z := z / n; let w := w / n
    .ok !![x ^ 2 - y ^ 2 - z ^ 2 + w ^ 2, 2 * (x * y - z * w), 2 * (x * z + y * w);
           2 * (x * y + z * w), -x ^ 2 + y ^ 2 - z ^ 2 + w ^ 2, 2 * (y * z - x * w);
           2 * (x * z - y * w), 2 * (y * z + x * w), -x ^ 2 - y ^ 2 + z ^ 2 + w ^ 2]

/-- `quaternion2orient`, one sample (dolfyn/rotate/base.py:274-310); `q = [W, X, Y, Z]`. -/
def quaternion2orient (q : Fin 4 → ℝ) : Except Err M3 :=
  (scipyFromQuat (q 1) (q 2) (q 3) (q 0)).map Matrix.transpose

/-- `calc_tilt(pitch, roll)` (dolfyn/rotate/base.py:313-338). -/
def calcTilt (pitch roll : ℝ) : ℝ :=
  rad2deg (Real.arctan (Real.sqrt (Real.tan (deg2rad roll) ^ 2 + Real.tan (deg2rad pitch) ^ 2)))

/-- `convert_degrees`, one array element (dolfyn/tools/misc.py:318-346). In tidal mode the code
indexes the result, so Python/numpy scalars fail there; array input is assumed. -/
def convertDegrees (deg : ℝ) (tidal : Bool) : ℝ :=
  let out := fmod (-(deg - 90)) 360
  if tidal then (if out > 180 then out - 360 else out) else out

/-- `Velocity.U` (dolfyn/velocity.py:307-312). -/
def velU (u v : ℝ) : ℂ := ⟨u, v⟩

/-- `Velocity.U_mag` (dolfyn/velocity.py:314-322). -/
def uMag (u v : ℝ) : ℝ := ‖velU u v‖

/-- `Velocity.U_dir` (dolfyn/velocity.py:324-351), one element; `earth`: `coord_sys == 'earth'`. -/
def uDir (earth : Bool) (u v : ℝ) : ℝ :=
  let angle := Complex.arg (velU u v) * (180 / Real.pi)
  if earth then convertDegrees angle false
  else
    let angle := angle * (-1)
    if angle < 0 then angle + 360 else angle

/-- numpy `round` to the nearest integer, ties to even. -/
def rint (x : ℝ) : ℤ :=
  if Int.fract x < 1 / 2 then ⌊x⌋
  else if 1 / 2 < Int.fract x then ⌊x⌋ + 1
  else if ⌊x⌋ % 2 = 0 then ⌊x⌋ else ⌊x⌋ + 1

/-- `np.round(x, decimals=4)`. -/
def round4 (x : ℝ) : ℝ := rint (x * 10000) / 10000

/-- The per-sample step of the tidal branch (dolfyn/rotate/api.py:157-161). -/
def tidalFold (z : ℂ) : ℂ :=
  let z := if z.im ≤ 0 then z * (-1) else z
  z * Complex.exp (Complex.I * Complex.arg z)

/-- Mean of the valid (not NaN) samples; `none` when there are none (numpy gives a masked value/NaN). -/
def cMean (l : List ℂ) : Option ℂ :=
  if l = [] then none else some (l.sum / l.length)

/-- `calc_principal_heading` of one row of samples (dolfyn/rotate/api.py:122-170). A sample with a NaN component is
`none`. -/
def principalHeading (tidal : Bool) (vel : List (Option (ℝ × ℝ))) : Option ℝ :=
  let dt : List ℂ := vel.filterMap fun s => s.map fun uv => (⟨uv.1, uv.2⟩ : ℂ)
  let pang : Option ℝ :=
    if tidal then (cMean (dt.map tidalFold)).map fun z => Complex.arg z / 2
    else (cMean dt).map Complex.arg
  pang.map fun p => round4 (90 - rad2deg p)

end

end Dolfyn
