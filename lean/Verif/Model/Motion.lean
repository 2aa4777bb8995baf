import Verif.Model.Rotate
import Mathlib.Algebra.BigOperators.Fin

/-!
Model of `dolfyn/adv/motion.py`.

The dataset is the rotation dataset of `Verif/Model/Rotate.lean` with `T = ℕ` (time index) plus what motion
correction reads. `vars` are the variables of `rotate_vars`; `vel`, `accel` and `angrt` are assumed to
be listed there with three components, as every reader does for instruments with an IMU. The
Butterworth filters are parameters (`Filters`); NaN produced inside a filter is not modelled.
Rounding to float32 is not modelled.
-/

namespace Dolfyn

noncomputable section
open Classical

/-- `ss.filtfilt(*ss.butter(order, freq / (fs / 2)), x)` for order 1 (`lp1`) and 2 (`lp2`) as a function
of the cut-off ratio, the length and the series; it raises for cut-offs outside (0, 1) and for short
series. -/
structure Filters where
  lp1 : ℝ → ℕ → (ℕ → ℝ) → Except Err (ℕ → ℝ)
  lp2 : ℝ → ℕ → (ℕ → ℝ) → Except Err (ℕ → ℝ)

/-- What motion correction reads of a dataset. -/
structure MDS where
  rds : RDS ℕ
  len : ℕ
  fs : ℝ
  accelNaN : Bool
  angrtNaN : Bool
  /-- The attribute `has_imu` exists (its value is not looked at). -/
  hasImu : Bool
  corrected : Bool
  accelFreqAttr : Option ℝ
  velFreqAttr : Option ℝ
  nBurst : Option ℕ
  interval : Option ℤ
  /-- Time stamps in nanoseconds. -/
  time : ℕ → ℤ
  headVec : Option (Fin 3 → ℝ)

/-- The variable of that name. -/
def RDS.findVar {T : Type} (ds : RDS T) (name : String) : Option (RVar T) :=
  ds.vars.find? fun v => v.name = name

/-- `_get_body2imu` (dolfyn/adv/motion.py:11-16). -/
def body2imu : Fin 3 → ℝ := ![0.00635, 0.00635, 0.14986]

/-- `_check_filtfreqs` (dolfyn/adv/motion.py:52-72): attribute values and arguments to the pair of
frequencies used. -/
def checkFiltfreqs (attrA attrV argA argV : Option ℝ) : ℝ × ℝ :=
  let a := argA.getD (attrA.getD 0.03)
  (a, argV.getD (attrV.getD (a / 3)))

/-- One element of `actual_interval` in `_check_duty_cycle`: a `timedelta64[ns]` divided by `1e9` stays a
whole number of units. -/
def dutyDiff (time : ℕ → ℤ) (n i : ℕ) : ℤ := (time (i + n) - time i).tdiv 1000000000

/-- `_check_duty_cycle` (dolfyn/adv/motion.py:86-109). A missing or zero `duty_cycle_n_burst` returns
None; `max` of an empty array raises ValueError; a missing interval raises TypeError when it is
reached. -/
def checkDuty (len : ℕ) (time : ℕ → ℤ) (nBurst : Option ℕ) (interval : Option ℤ) :
    Except Err (Option ℕ) :=
  match nBurst with
  | none => .ok none
  | some 0 => .ok none
  | some n =>
    let d := (List.range (len - n)).map fun i => dutyDiff time n i
    match d.max?, d.min? with
    | some hi, some lo =>
      let mean := d.sum.tdiv d.length
      if hi - lo > 2 then .error .exception
      else match interval with
        | none => .error .typeError
        | some iv =>
          if mean > iv + 1 ∧ mean < iv - 1 then .error .exception else .ok (some n)
    | _, _ => .error .valueError

/-- Mean of a series of length `n`. -/
def seriesMean (n : ℕ) (x : ℕ → ℝ) : ℝ := (∑ j ∈ Finset.range n, x j) / n

/-- `acclow` of one component of one record or burst (dolfyn/adv/motion.py:126-139). -/
def accLow (F : Filters) (fs freq : ℝ) (n : ℕ) (x : ℕ → ℝ) : Except Err (ℕ → ℝ) :=
  if freq = 0 then .ok fun _ => seriesMean n x
  else F.lp1 (freq / (fs / 2)) n x

/-- `np.concatenate((zeros, cumtrapz(hp, dx=1/fs)))` (dolfyn/adv/motion.py:160-162). -/
def cumTrap (fs : ℝ) (hp : ℕ → ℝ) (t : ℕ) : ℝ :=
  ∑ j ∈ Finset.range t, (hp j + hp (j + 1)) / 2 * (1 / fs)

/-- `velacc` of one component of one record or burst (dolfyn/adv/motion.py:156-171). -/
def velAcc (F : Filters) (fs freq : ℝ) (n : ℕ) (acc low : ℕ → ℝ) : Except Err (ℕ → ℝ) :=
  let dat := cumTrap fs fun j => acc j - low j
  if freq > 0 then (F.lp2 (freq / (fs / 2)) n dat).map fun l t => dat t - l t
  else .ok dat

/-- Both of the above on one series: (acclow, velacc). -/
def accSeries (F : Filters) (fs fa fv : ℝ) (n : ℕ) (x : ℕ → ℝ) :
    Except Err ((ℕ → ℝ) × (ℕ → ℝ)) := do
  let low ← accLow F fs fa n x
  let v ← velAcc F fs fv n x low
  return (low, v)

/-- The same with the record cut into bursts of `n` samples (dolfyn/adv/motion.py:111-124, 179-194):
ravelling into an array of the length of the record raises unless the bursts fill the record. -/
def accBursts (F : Filters) (fs fa fv : ℝ) (len : ℕ) (duty : Option ℕ) (x : ℕ → ℝ) :
    Except Err ((ℕ → ℝ) × (ℕ → ℝ)) :=
  match duty with
  | none => accSeries F fs fa fv len x
  | some n => do
    let parts ← (List.range (len / n)).mapM fun b => accSeries F fs fa fv n fun j => x (b * n + j)
    if len % n ≠ 0 then throw .valueError
    let z : (ℕ → ℝ) × (ℕ → ℝ) := (fun _ => 0, fun _ => 0)
    return (fun t => (parts.getD (t / n) z).1 (t % n), fun t => (parts.getD (t / n) z).2 (t % n))

/-- `calc_velrot` (dolfyn/adv/motion.py:196-250) in the instrument frame for one point and time:
`d` is the vector from the IMU to the point, `w` the rotation rate. -/
def velRot (d w : Fin 3 → ℝ) : Fin 3 → ℝ :=
  ![d 2 * w 1 - d 1 * w 2, d 0 * w 2 - d 2 * w 0, d 1 * w 0 - d 0 * w 1]

/-- The first three components of a variable at time `t`. -/
def RVar.v3 (v : RVar ℕ) (t : ℕ) : Fin 3 → ℝ := fun i => v.val t i

/-- A three-component variable. -/
def mkVar3 (name : String) (f : ℕ → Fin 3 → ℝ) : RVar ℕ :=
  ⟨name, 3, fun t i => if h : i < 3 then f t ⟨i, h⟩ else 0⟩

/-- `vector._inst2earth` with an explicit list of variables (dolfyn/rotate/vector.py:53-122); the frame
has been checked or `force` is set. -/
def inst2earthSel (reverse : Bool) (sel : String → Bool) (omat : ℕ → M3) (ds : RDS ℕ) :
    Except Err (RDS ℕ) := do
  let vars ← ds.vars.mapM fun v =>
    if sel v.name then
      if v.n ≠ 3 then .error .exception
      else .ok (v.rot fun t => if reverse then omat t else (omat t).transpose)
    else .ok v
  return { ds with vars := vars, coordSys := if reverse then .inst else .earth }

/-- Replace the values of the variable of that name. -/
def setVals (name : String) (f : ℕ → Fin 3 → ℝ) (ds : RDS ℕ) : RDS ℕ :=
  { ds with vars := ds.vars.map fun v => if v.name = name then mkVar3 name f else v }

/-- Tests at the beginning of `correct_motion` (dolfyn/adv/motion.py:391-407). -/
def motionChecks (m : MDS) : Except Err Unit := do
  if (m.rds.findVar "accel").isNone then throw .keyError
  if m.accelNaN then throw .exception
  if (m.rds.findVar "angrt").isNone then throw .keyError
  if m.angrtNaN then throw .exception
  if (m.rds.findVar "velrot").isSome ∨ m.corrected = true then throw .exception
  if m.hasImu = false then throw .exception

/-- Acceleration in the earth frame, `np.einsum('ij...,i...->j...', omat, accel)`
(dolfyn/adv/motion.py:74-84). -/
def accelEarth (omat : ℕ → M3) (acc : RVar ℕ) (t : ℕ) : Fin 3 → ℝ :=
  (omat t).transpose.mulVec (acc.v3 t)

/-- The motion series computed by `CalcMotion`: `accel`, `acclow` and `velacc` in the earth frame and
`velrot` in the instrument frame. -/
structure MotionTerms where
  accel : ℕ → Fin 3 → ℝ
  acclow : ℕ → Fin 3 → ℝ
  velacc : ℕ → Fin 3 → ℝ
  velrot : ℕ → Fin 3 → ℝ

/-- `CalcMotion.__init__`, `calc_velacc` and `calc_velrot` (dolfyn/adv/motion.py:38-250, 419-444) with
`separate_probes=False`. `ds` is in the instrument frame. -/
def motionTerms (F : Filters) (fa fv : ℝ) (m : MDS) (ds : RDS ℕ) (omat : ℕ → M3)
    (acc ang : RVar ℕ) : Except Err MotionTerms := do
  let accE := accelEarth omat acc
  let duty ← checkDuty m.len m.time m.nBurst m.interval
  let s0 ← accBursts F m.fs fa fv m.len duty fun t => accE t 0
  let s1 ← accBursts F m.fs fa fv m.len duty fun t => accE t 1
  let s2 ← accBursts F m.fs fa fv m.len duty fun t => accE t 2
  match m.headVec with
  | none => throw .attributeError
  | some hv =>
    if ds.inst ≠ .vector then throw .exception
    return ⟨accE, fun t => ![s0.1 t, s1.1 t, s2.1 t], fun t => ![s0.2 t, s1.2 t, s2.2 t],
      fun t => velRot (fun i => hv i - body2imu i) (ang.v3 t)⟩

/-- Rotation of all variables to the requested frame (dolfyn/adv/motion.py:478-495). -/
def motionRotate (toEarth : Bool) (omat : ℕ → M3) (k : MotionTerms) (ds : RDS ℕ) :
    Except Err (RDS ℕ) :=
  if toEarth then
    inst2earthSel false (fun nm => decide (nm ≠ "accel" ∧ nm ≠ "acclow" ∧ nm ≠ "velacc")) omat
      (setVals "accel" k.accel ds)
  else inst2earthSel true (fun nm => decide (nm = "acclow" ∨ nm = "velacc")) omat ds

/-- The end of `correct_motion` (dolfyn/adv/motion.py:466-520): bring everything to the requested frame,
keep the measured velocity as `vel_raw` and add the motion. -/
def motionFinish (toEarth : Bool) (omat : ℕ → M3) (k : MotionTerms) (ds : RDS ℕ) :
    Except Err (RDS ℕ) := do
  let ds1 : RDS ℕ := { ds with vars := ds.vars ++
    [mkVar3 "velrot" k.velrot, mkVar3 "velacc" k.velacc, mkVar3 "acclow" k.acclow] }
  let ds2 ← motionRotate toEarth omat k ds1
  match ds2.findVar "vel", ds2.findVar "velrot", ds2.findVar "velacc" with
  | some vel, some vr, some va =>
    let ds3 : RDS ℕ := { ds2 with vars := ds2.vars ++ [{ vel with name := "vel_raw" }] }
    return setVals "vel" (fun t i => vel.val t i + (vr.val t i + va.val t i)) ds3
  | _, _, _ => throw .attributeError

/-- `correct_motion` (dolfyn/adv/motion.py:287-520) with `separate_probes=False`. `none`: the rotation
to the instrument frame has not stopped within the fuel. -/
def correctMotion (fuel : ℕ) (F : Filters) (argA argV : Option ℝ) (toEarth : Bool) (m : MDS) :
    Option (Except Err MDS) :=
  match motionChecks m with
  | .error e => some (.error e)
  | .ok _ =>
    let r := if m.rds.coordSys = .inst then some (.ok m.rds) else rotate2 fuel .inst m.rds
    match r with
    | none => none
    | some (.error e) => some (.error e)
    | some (.ok ds) => some (do
      let _ ← checkInst2head ds
      let f := checkFiltfreqs m.accelFreqAttr m.velFreqAttr argA argV
      match ds.orientmat, ds.findVar "accel", ds.findVar "angrt" with
      | some omat, some acc, some ang =>
        let k ← motionTerms F f.1 f.2 m ds omat acc ang
        let out ← motionFinish toEarth omat k ds
        return { m with rds := out, corrected := true, accelFreqAttr := some f.1 }
      | _, _, _ => throw .keyError)

/-- `_calc_probe_pos` (dolfyn/adv/motion.py:253-284) with `separate_probes=True` for a Vector: position of
receiver `k` in the instrument frame. -/
def probePos (rmat : M3) (hv : Fin 3 → ℝ) (k : Fin 3) : Fin 3 → ℝ :=
  let r : ℝ := 0.076
  let phi := deg2rad (-30)
  let theta := deg2rad (![0, 120, 240] k)
  fun i => rmat.transpose.mulVec ![r * Real.cos theta, r * Real.sin theta, r * Real.tan phi] i + hv i

/-- The head velocity of `correct_motion` with `separate_probes=True` (dolfyn/adv/motion.py:446-462), for
`v c k` component `c` of the velocity of probe `k`. `np.dot(rmat, velrot)` of a 2-D with a 3-D
array sums over the second-to-last axis of the latter, the probe axis. -/
def separateProbes (T rmat : M3) (v : Fin 3 → Fin 3 → ℝ) : Fin 3 → ℝ :=
  let x : Fin 3 → Fin 3 → ℝ := fun i c => ∑ p, rmat i p * v c p
  let y : Fin 3 → Fin 3 → ℝ := fun i c => ∑ j, T⁻¹ i j * x j c
  rmat.transpose.mulVec (T.mulVec fun k => y k k)

end

end Dolfyn
