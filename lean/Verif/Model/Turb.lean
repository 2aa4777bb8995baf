import Verif.Model.Binned
import Verif.Model.Float64
import Verif.Model.Orient

/-!
Model of the turbulence statistics of `dolfyn/velocity.py` (`calc_tke`, `calc_ti`),
`dolfyn/adv/turbulence.py` and `dolfyn/adp/turbulence.py`.

Values are exact reals (NaN is `none`); float32 rounding is not modelled. A series is a function
on `ℕ` read below its length. Attributes, coordinates and warnings of the outputs are dropped.
-/

namespace Dolfyn

/-! ### Variances and stresses (velocity.py, adv/turbulence.py) -/

/-- `TimeBinner.detrend` (`dt`) or `TimeBinner.demean` (dolfyn/binned.py:230-284). -/
noncomputable def fluct (b : Binner) (dt : Bool) (len : ℕ) (x : ℕ → Option ℝ) :
    Except Err (Mat2 (Option ℝ)) :=
  (reshape (some 0) len x b.nBin 0).map fun m =>
    ⟨m.rows, m.cols, fun r =>
      if dt then detrend m.cols (m.at_ r)
      else fun j => opt2 (· - ·) (m.at_ r j) (nanmean (m.row r))⟩

/-- `np.nanmean(x * y, axis=-1)` of two equally shaped binned series. -/
noncomputable def rowProd (x y : Mat2 (Option ℝ)) : List (Option ℝ) :=
  (List.range x.rows).map fun r =>
    nanmean (vals x.cols fun j => opt2 (· * ·) (x.at_ r j) (y.at_ r j))

/-- Variance of one component in `calc_tke` (dolfyn/velocity.py:1006-1010), before the noise
correction. -/
noncomputable def tke1 (b : Binner) (dt : Bool) (len : ℕ) (x : ℕ → Option ℝ) :
    Except Err (List (Option ℝ)) :=
  (fluct b dt len x).map fun m => rowProd m m

/-- Subtraction of the squared noise level. -/
noncomputable def subNoise (noise : ℝ) (l : List (Option ℝ)) : List (Option ℝ) :=
  l.map (Option.map fun s => s - noise ^ 2)

/-- `calc_tke` (dolfyn/velocity.py:971-1045) for velocities with a `dir` dimension. `isXr`: the
input is an xarray object; otherwise the local `vel` is never assigned. -/
noncomputable def calcTke (b : Binner) (isXr : Bool) (noise : Option (List ℝ)) (dt : Bool)
    (len : ℕ) (vel : Fin 3 → ℕ → Option ℝ) : Except Err (Fin 3 → List (Option ℝ)) := do
  if isXr = false then throw .unboundLocal
  let u ← tke1 b dt len (vel 0)
  let v ← tke1 b dt len (vel 1)
  let w ← tke1 b dt len (vel 2)
  match noise with
  | none => return ![u, v, w]
  | some [n0, n1, n2] => return ![subNoise n0 u, subNoise n1 v, subNoise n2 w]
  | some _ => throw .exception

/-- The pairs `_cross_pairs` (dolfyn/velocity.py: `u'v'_`, `u'w'_`, `v'w'_`). -/
def crossPair : Fin 3 → Fin 3 × Fin 3 := ![(0, 1), (0, 2), (1, 2)]

/-- `ADVBinner.calc_stress` (dolfyn/adv/turbulence.py:52-95). -/
noncomputable def calcStress (b : Binner) (dt : Bool) (len : ℕ) (vel : Fin 3 → ℕ → Option ℝ) :
    Except Err (Fin 3 → List (Option ℝ)) := do
  let u ← fluct b dt len (vel 0)
  let v ← fluct b dt len (vel 1)
  let w ← fluct b dt len (vel 2)
  let f : Fin 3 → Mat2 (Option ℝ) := ![u, v, w]
  return fun i => rowProd (f (crossPair i).1) (f (crossPair i).2)

/-- `np.sqrt` with NaN for a negative argument. -/
noncomputable def npSqrt (x : ℝ) : Option ℝ := if x < 0 then none else some (Real.sqrt x)

/-- `calc_ti` (dolfyn/velocity.py:923-969). The values below `thresh` are masked in a masked array,
but the result takes `.data`, which ignores the mask: `thresh` has no effect. -/
noncomputable def calcTi (b : Binner) (isXr : Bool) (noise _thresh : ℝ) (dt : Bool) (len : ℕ)
    (U : ℕ → Option ℝ) : Except Err (List (Option ℝ)) := do
  if isXr = false then throw .unboundLocal
  let up ← fluct b dt len U
  let mean ← binMean b len U none
  return (subNoise noise (rowProd up up)).zipWith
    (fun s m => npDiv (s.bind npSqrt) m) mean

/-! ### Vertical shear (adp/turbulence.py) -/

section shear
variable {K : Type*} [Field K] [DecidableEq K]

/-- `_diffz_first` (dolfyn/adp/turbulence.py:9-12) on one profile of `n` cells. -/
def diffzFirst (n : ℕ) (dat : ℕ → Option K) (z : ℕ → K) : List (Option K) :=
  (List.range (n - 1)).map fun i =>
    npDiv (opt2 (· - ·) (dat (i + 1)) (dat i)) (some (z (i + 1) - z i))

/-- `_diffz_centered` (dolfyn/adp/turbulence.py:15-20): divides by twice the *upper* cell
spacing. -/
def diffzCentered (n : ℕ) (dat : ℕ → Option K) (z : ℕ → K) : List (Option K) :=
  (List.range (n - 2)).map fun i =>
    npDiv (opt2 (· - ·) (dat (i + 2)) (dat i)) (some (2 * (z (i + 2) - z (i + 1))))

/-- `_diffz_centered_extended` (dolfyn/adp/turbulence.py:23-32). `dat[:2]` and `dat[-2:]` have at
most two entries. -/
def diffzExt (n : ℕ) (dat : ℕ → Option K) (z : ℕ → K) : List (Option K) :=
  diffzFirst (min 2 n) dat z ++ diffzCentered n dat z ++
    diffzFirst (min 2 n) (fun i => dat (i + (n - 2))) (fun i => z (i + (n - 2)))

inductive DiffStyle
  | first | centered | centeredExtended | other
  deriving DecidableEq

/-- `_diff_func` (dolfyn/adp/turbulence.py:68-77); an unknown style returns None. The second
component is the output range axis. -/
def diffFunc (style : DiffStyle) (n : ℕ) (dat : ℕ → Option K) (z : ℕ → K) :
    Option (List (Option K) × List K) :=
  match style with
  | .first => some (diffzFirst n dat z, (vals n z).drop 1)
  | .centered => some (diffzCentered n dat z, ((vals n z).drop 1).take (n - 2))
  | .centeredExtended => some (diffzExt n dat z, vals n z)
  | .other => none

/-- Unpacking the pair and building the DataArray: `None` cannot be unpacked, and data and
coordinate must have the same length. -/
def shearArray (r : Option (List (Option K) × List K)) :
    Except Err (List (Option K) × List K) :=
  match r with
  | none => .error .typeError
  | some (d, rng) => if d.length = rng.length then .ok (d, rng) else .error .valueError

/-- `calc_dudz` (dolfyn/adp/turbulence.py:79-108). `down` is the orientation in effect (argument or
binner). For a downward-facing instrument the code multiplies the *tuple* by `-1`, which is the
empty tuple, and unpacking it raises ValueError. -/
def calcDudz (style : DiffStyle) (down : Bool) (n : ℕ) (dat : ℕ → Option K) (z : ℕ → K) :
    Except Err (List (Option K) × List K) :=
  match diffFunc style n dat z with
  | none => .error .typeError
  | some p => if down then .error .valueError else shearArray (some p)

/-- `calc_dvdz`, `calc_dwdz` (dolfyn/adp/turbulence.py:110-150). -/
def calcDvdz (style : DiffStyle) (n : ℕ) (dat : ℕ → Option K) (z : ℕ → K) :
    Except Err (List (Option K) × List K) :=
  shearArray (diffFunc style n dat z)

/-- `calc_shear2` (dolfyn/adp/turbulence.py:152-176). -/
def calcShear2 (style : DiffStyle) (down : Bool) (n : ℕ) (u v : ℕ → Option K) (z : ℕ → K) :
    Except Err (List (Option K)) :=
  match calcDudz style down n u z with
  | .error e => .error e
  | .ok du =>
    match calcDvdz style n v z with
    | .error e => .error e
    | .ok dv =>
      .ok (du.1.zipWith (fun a b => opt2 (· + ·) (a.map (· ^ 2)) (b.map (· ^ 2))) dv.1)

end shear

/-! ### Beam-variance stresses (adp/turbulence.py) -/

/-- Instrument make/model as `_check_orientation` sees it. -/
inductive AdpMake
  | trdi | signature | other
  deriving DecidableEq

/-- Orientation strings: containing 'down', else containing 'up', else neither. -/
inductive Facing
  | down | up | neither
  deriving DecidableEq

/-- `_check_orientation` (dolfyn/adp/turbulence.py:286-329), the beam order. Any other instrument
reaches `return beams` with `beams` unassigned. -/
def beamOrder (make : AdpMake) (o : Facing) : Except Err (Fin 4 → Fin 4) :=
  match make, o with
  | .trdi, .down => .ok ![0, 1, 2, 3]
  | .trdi, .up => .ok ![0, 1, 3, 2]
  | .signature, .down => .ok ![2, 0, 3, 1]
  | .signature, .up => .ok ![0, 2, 3, 1]
  | .other, _ => .error .unboundLocal
  | _, .neither => .error .exception

/-- Binned variance of one beam minus the squared noise (dolfyn/adp/turbulence.py:331-351). -/
noncomputable def beamVar (b : Binner) (noise : ℝ) (len : ℕ) (x : ℕ → Option ℝ) :
    Except Err (List (Option ℝ)) :=
  (binVar b len x none).map (subNoise noise)

/-- Elementwise combination of two output series. -/
noncomputable def zip2 (f : ℝ → ℝ → ℝ) (x y : List (Option ℝ)) : List (Option ℝ) :=
  x.zipWith (opt2 f) y

/-- `calc_stress_4beam` (dolfyn/adp/turbulence.py:353-406): `u'w'` and `v'w'` (the `u'v'` entry is
NaN). `beamAngle` is the attribute or argument in degrees. The rotation to beam coordinates of
data in another frame is not part of this model: `vel` are the along-beam velocities of one depth
cell. -/
noncomputable def calcStress4 (b : Binner) (make : AdpMake) (o : Facing)
    (beamAngle : Option ℝ) (noise : Option ℝ) (len : ℕ) (vel : Fin 4 → ℕ → Option ℝ) :
    Except Err (List (Option ℝ) × List (Option ℝ)) := do
  match beamAngle with
  | none => throw .exception
  | some ang =>
    let nz := noise.getD 0
    let ord ← beamOrder make o
    let b0 ← beamVar b nz len (vel (ord 0))
    let b1 ← beamVar b nz len (vel (ord 1))
    let b2 ← beamVar b nz len (vel (ord 2))
    let b3 ← beamVar b nz len (vel (ord 3))
    let denm := 4 * Real.sin (deg2rad ang) * Real.cos (deg2rad ang)
    return (zip2 (fun x y => (x - y) / denm) b0 b1, zip2 (fun x y => (x - y) / denm) b2 b3)

/-- The formulas of `calc_stress_5beam` (dolfyn/adp/turbulence.py:468-524) for one bin: `bp i` are
the beam variances in code order, `th` the beam angle, `phi2`, `phi3` the mean tilt angles, `uv`
the covariance of `u` and `v`. Parenthesisation and indices are those of the code. -/
structure Five where
  upup : ℝ
  vpvp : ℝ
  wpwp : ℝ
  upwp : ℝ
  vpwp : ℝ

@[inherit_doc Five]
noncomputable def fiveBeam (th phi2 phi3 uv : ℝ) (bp : Fin 5 → ℝ) : Five :=
  let s := Real.sin th
  let c := Real.cos th
  let denm := -4 * s ^ 6 * c ^ 2
  { upup := (-2 * s ^ 4 * c ^ 2 * (bp 1 + bp 0 - 2 * c ^ 2 * bp 4) +
      2 * s ^ 5 * c * phi3 * (bp 1 - bp 0)) / denm
    vpvp := (-2 * s ^ 4 * c ^ 2 * (bp 3 + bp 0 - 2 * c ^ 2 * bp 4) -
      2 * s ^ 4 * c ^ 2 * phi3 * (bp 1 - bp 0) +
      2 * s ^ 3 * c ^ 3 * phi3 * (bp 1 - bp 0) -
      2 * s ^ 5 * c * phi2 * (bp 3 - bp 2)) / denm
    wpwp := (-2 * s ^ 5 * c *
      (bp 1 - bp 0 + 2 * s ^ 5 * c * phi2 * (bp 3 - bp 2) -
        4 * s ^ 6 * c ^ 2 * bp 4)) / denm
    upwp := (s ^ 5 * c * (bp 1 - bp 0) +
      2 * s ^ 4 * c * 2 * phi3 * (bp 1 + bp 0) -
      4 * s ^ 4 * c * 2 * phi3 * bp 4 -
      4 * s ^ 6 * c * 2 * phi2 * uv) / denm
    vpwp := (s ^ 5 * c * (bp 3 - bp 2) -
      2 * s ^ 4 * c * 2 * phi2 * (bp 3 + bp 2) +
      4 * s ^ 4 * c * 2 * phi2 * bp 4 +
      4 * s ^ 6 * c * 2 * phi3 * uv) / denm }

/-- `phi2` and `phi3` of `_check_orientation` (dolfyn/adp/turbulence.py:303-304, 316-317): mean
pitch and roll per bin in radians, with the roles swapped for Signatures. -/
noncomputable def tiltAngles (b : Binner) (make : AdpMake) (len : ℕ) (pitch roll : ℕ → Option ℝ) :
    Except Err (List (Option ℝ) × List (Option ℝ)) := do
  let p ← binMean b len pitch none
  let r ← binMean b len roll none
  let rad := fun l : List (Option ℝ) => l.map (Option.map deg2rad)
  match make with
  | .trdi => return (rad p, rad r)
  | .signature => return (rad r, (rad p).map (Option.map fun x => -x))
  | .other => throw .unboundLocal

/-- Five-beam formulas for one bin, missing if any input is. -/
noncomputable def fiveOpt (th : ℝ) (phi2 phi3 uv : Option ℝ) (bp : Fin 5 → Option ℝ) :
    Option Five :=
  match phi2, phi3, uv, bp 0, bp 1, bp 2, bp 3, bp 4 with
  | some p2, some p3, some c, some b0, some b1, some b2, some b3, some b4 =>
    some (fiveBeam th p2 p3 c ![b0, b1, b2, b3, b4])
  | _, _, _, _, _, _, _, _ => none

/-- `calc_stress_5beam` (dolfyn/adp/turbulence.py:408-524) for one depth cell: `vel` the four slanted
beams, `vel5` the fifth beam (None: no `vel_b5` variable), `uInst`, `vInst` the first two
components after rotation to instrument coordinates. -/
noncomputable def calcStress5 (b : Binner) (make : AdpMake) (o : Facing) (beamAngle noise : Option ℝ)
    (len : ℕ) (pitch roll : ℕ → Option ℝ) (vel : Fin 4 → ℕ → Option ℝ)
    (vel5 : Option (ℕ → Option ℝ)) (uInst vInst : ℕ → Option ℝ) :
    Except Err (List (Option Five)) := do
  match vel5, beamAngle with
  | none, _ => throw .exception
  | some _, none => throw .exception
  | some x5, some ang =>
    let nz := noise.getD 0
    let ord ← beamOrder make o
    let phi ← tiltAngles b make len pitch roll
    let b0 ← beamVar b nz len (vel (ord 0))
    let b1 ← beamVar b nz len (vel (ord 1))
    let b2 ← beamVar b nz len (vel (ord 2))
    let b3 ← beamVar b nz len (vel (ord 3))
    let b4 ← beamVar b nz len x5
    let fu ← fluct b true len uInst
    let fv ← fluct b true len vInst
    let uv := rowProd fu fv
    return (List.range b0.length).map fun r =>
      fiveOpt (deg2rad ang) (phi.1.getD r none) (phi.2.getD r none) (uv.getD r none)
        ![b0.getD r none, b1.getD r none, b2.getD r none, b3.getD r none, b4.getD r none]

/-! ### Dissipation -/

/-- Frequency units of a spectrum. -/
inductive FreqUnits
  | hz | rad
  deriving DecidableEq

/-- One row (time, component) of a spectrum: `S k` at frequency `f k`, `k < n`. -/
structure SpecRow where
  noise : ℝ
  U : ℝ
  S : ℕ → ℝ

/-- `psd.where(psd > 0, np.min(np.abs(psd)) / 100)` with the minimum `mn` over the whole array. -/
noncomputable def floorPsd (mn x : ℝ) : ℝ := if x > 0 then x else mn / 100

/-- The indices `np.where((freq_range[0] < freq) & (freq < freq_range[1]))`. -/
noncomputable def freqIdx (n : ℕ) (f : ℕ → ℝ) (lo hi : ℝ) : List ℕ :=
  open Classical in (List.range n).filter fun k => decide (lo < f k ∧ f k < hi)

/-- `calc_epsilon_LT83` / `calc_dissipation_LT83` (dolfyn/adv/turbulence.py:301-386,
dolfyn/adp/turbulence.py:594-671) after the argument checks. The noise term is `noise²/(fs/2)` in
both frequency units. An empty frequency range gives the mean of nothing, NaN. -/
noncomputable def lt83 (fs : ℝ) (units : FreqUnits) (n : ℕ) (f : ℕ → ℝ) (lo hi : ℝ)
    (rows : List SpecRow) : Except Err (List (Option ℝ)) :=
  let sub := fun (r : SpecRow) (k : ℕ) => r.S k - r.noise ^ 2 / (fs / 2)
  let all := rows.flatMap fun r => (List.range n).map fun k => |sub r k|
  match all.min? with
  | none => .error .valueError
  | some mn =>
    let idx := freqIdx n f lo hi
    .ok (rows.map fun r =>
      let U := match units with
        | .hz => r.U / (2 * Real.pi)
        | .rad => r.U
      if idx = [] then none
      else if U = 0 then none
      else some (((idx.map fun k =>
        floorPsd mn (sub r k) * f k ^ (5 / 3 : ℝ) / 0.5).sum / idx.length) ^ (3 / 2 : ℝ) / U))

/-- Band of `calc_doppler_noise` (dolfyn/adp/turbulence.py:215-233, adv/turbulence.py:200-230):
label slices are inclusive at both ends. -/
noncomputable def noiseBand (fs pct : ℝ) (units : FreqUnits) (n : ℕ) (f : ℕ → ℝ) : List ℕ :=
  let fN := fs / 2
  let fc := pct * fN
  let k := match units with
    | .hz => 1
    | .rad => 2 * Real.pi
  open Classical in (List.range n).filter fun i => decide (k * fc ≤ f i ∧ f i ≤ k * fN)

@[inherit_doc noiseBand]
noncomputable def dopplerNoise (fs pct : ℝ) (units : FreqUnits) (n : ℕ) (f S : ℕ → ℝ) :
    Option ℝ :=
  let band := noiseBand fs pct units n f
  if band = [] then none
  else npSqrt ((band.map fun i => S i * f i).sum / band.length)

/-- Slope and intercept of `np.polyfit(x, y, deg=1)`: the least-squares line. With all abscissae
equal numpy returns a minimum-norm solution of the rank-deficient system, not modelled (`none`). -/
noncomputable def polyfit1 (x y : List ℝ) : Option (ℝ × ℝ) :=
  let n := (x.length : ℝ)
  let xm := x.sum / n
  let ym := y.sum / n
  let sxx := (x.map fun a => (a - xm) ^ 2).sum
  let sxy := (x.zipWith (fun a b => (a - xm) * (b - ym)) y).sum
  if sxx = 0 then none else some (sxy / sxx, ym - sxy / sxx * xm)

/-- `check_turbulence_cascade_slope` (dolfyn/adv/turbulence.py:241-299 and
adp/turbulence.py:526-592) for one spectrum: regression of `log10 S` on `log10 f`. -/
noncomputable def cascadeSlope (n : ℕ) (f S : ℕ → ℝ) (lo hi : ℝ) : Option (ℝ × ℝ) :=
  let idx := freqIdx n f lo hi
  let log10 := fun v : ℝ => Real.log v / Real.log 10
  let x := idx.map fun k => log10 (f k)
  let y := idx.map fun k => log10 (S k)
  let xm := x.sum / (idx.length : ℝ)
  let ym := y.sum / (idx.length : ℝ)
  let num := (x.zipWith (fun a b => (a - xm) * (b - ym)) y).sum
  let d := (x.map fun a => (a - xm) ^ 2).sum
  if d = 0 then none else some (num / d, ym - num / d * xm)

/-- The length of `r = np.arange(bin_size, r_range[1]+bin_size, bin_size)` (dolfyn/adp/turbulence.py:745) in double
precision: `np.arange` takes `ceil((stop - start)/step)` values. -/
def sfCount (bin r1 : ℚ) : ℕ := (⌈fl64 (fl64 (fl64 (r1 + bin) - bin) / bin)⌉).toNat

/-- `r[k]`: numpy computes `start + k*delta` with `delta = (start + step) - start`, here `bin` exactly. -/
def sfSep (bin : ℚ) (k : ℕ) : ℚ := fl64 (bin + fl64 (k * bin))

/-- `i = int(r_value/bin_size)` for `r_value = r[k]` (dolfyn/adp/turbulence.py:752). -/
def sfIdx (bin : ℚ) (k : ℕ) : ℕ := (pyInt (fl64 (sfSep bin k / bin))).toNat

/-- The structure function `D[z, i-1]` for separation `i ≥ 1` cells in one ensemble
(dolfyn/adp/turbulence.py:744-757); `bm z` is the demeaned record of cell `z`. -/
noncomputable def structFun (cols : ℕ) (bm : ℕ → ℕ → Option ℝ) (z i : ℕ) : Option ℝ :=
  if z < i then none
  else nanmean (vals cols fun j => (opt2 (· - ·) (bm (z - i) j) (bm z j)).map (· ^ 2))

/-- The line fit of `calc_dissipation_SF` for one cell (dolfyn/adp/turbulence.py:759-775):
`np.polyfit(r[R:] ** 2/3, D[i, R:], deg=1)`. The abscissae are `(r²)/3` because of operator
precedence. `D k` is the structure function at separation `r k = (k+1)*bin` (exact here, rounded in Model/SfCall.lean),
`k < m`.
The result is (dissipation, noise variance·2): `(e/2.1)^(3/2)` and the intercept. For slopes that are not negative
(numpy gives NaN for negative ones, see `sfEps` in Model/SfCall.lean). -/
noncomputable def sfFit (bin : ℝ) (R m : ℕ) (D : ℕ → ℝ) : Option (ℝ × ℝ) :=
  let ks := (List.range m).drop R
  let x := ks.map fun k : ℕ => (((k + 1 : ℕ) : ℝ) * bin) ^ 2 / 3
  let y := ks.map D
  (polyfit1 x y).map fun p => ((p.1 / 2.1) ^ (3 / 2 : ℝ), p.2)

/-- `R = int(r_range[0]/bin_size)` (dolfyn/adp/turbulence.py:744) in double precision. -/
def sfFirst (bin r0 : ℚ) : ℕ := (pyInt (fl64 (r0 / bin))).toNat

/-- `calc_L_int` (dolfyn/adv/turbulence.py:545-581) for one bin: `acov` of length `n`. `np.argmin`
of a Boolean array is the first `False`, or 0 when there is none. A zero first entry makes the
ratio NaN or infinite (comparison False for NaN); modelled for `acov 0 ≠ 0` only. -/
noncomputable def lintScale (n : ℕ) (acov : ℕ → ℝ) : ℕ :=
  open Classical in
  ((List.range n).find? fun i => decide (¬ (acov i / acov 0 > 1 / Real.exp 1))).getD 0

@[inherit_doc lintScale]
noncomputable def lInt (fs U : ℝ) (n : ℕ) (acov : ℕ → ℝ) : ℝ := U / fs * lintScale n acov

/-- `calc_ustar_fit` (dolfyn/adp/turbulence.py:811-847) for one time: `idx` are the cells of
`z_inds`, all stress values present. -/
noncomputable def ustarFit (idx : List ℕ) (z : ℕ → ℝ) (H : ℝ) (uw : ℕ → ℝ) : Option ℝ :=
  if idx = [] then none
  else
    let sgn := (idx.map fun i => (SignType.sign (uw i) : ℝ)).sum / idx.length
    npSqrt ((idx.map fun i => sgn * uw i / (1 - z i / H)).sum / idx.length)

end Dolfyn
