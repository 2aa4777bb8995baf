import Verif.Model.Binned
import Verif.Model.Orient
import Mathlib.Data.Matrix.Mul

/-!
Model of `dolfyn/adv/clean.py`, `dolfyn/adp/clean.py` and `medfiltnan` of `dolfyn/tools/misc.py`.
A NaN is `none`. xarray's `interpolate_na`, scipy's median filters and numpy's median are
parameters.
-/

namespace Dolfyn

/-! ### adv/clean.py -/

/-- State of the loop of `_interp_nan`; `D` is the data array. -/
structure InterpState (D : Type*) where
  searching : Bool
  start : ℕ
  ntail : ℕ
  pos : ℕ
  data : D

/-- One pass of the `while` loop of `_interp_nan` (dolfyn/adv/clean.py:83-112); `interp lo hi d`
is `da[lo:hi] = da[lo:hi].interpolate_na(..)`. -/
def interpNanStep {D : Type*} (n npt : ℕ) (bds : ℕ → Bool) (interp : ℕ → ℕ → D → D)
    (s : InterpState D) : InterpState D :=
  if s.searching then
    if bds s.pos then { s with start := s.pos - npt, searching := false, pos := s.pos + 1 }
    else { s with pos := s.pos + 1 }
  else
    let ntail := if bds s.pos then 0 else s.ntail + 1
    let pos := s.pos + 1
    if ntail = npt ∨ pos = n then
      { s with ntail := 0, pos := pos, searching := true, data := interp s.start pos s.data }
    else { s with ntail := ntail, pos := pos }

/-- The loop `while pos < len(da)`: every pass advances `pos` by one, so `n - pos` passes. -/
def interpNanLoop {D : Type*} (n npt : ℕ) (bds : ℕ → Bool) (interp : ℕ → ℕ → D → D) :
    ℕ → InterpState D → InterpState D
  | 0, s => s
  | k + 1, s => if s.pos < n then interpNanLoop n npt bds interp k (interpNanStep n npt bds interp s)
    else s

/-- `_interp_nan` (dolfyn/adv/clean.py:55-113). -/
def interpNan {D : Type*} (n npt : ℕ) (bds : ℕ → Bool) (interp : ℕ → ℕ → D → D) (d : D) : D :=
  (interpNanLoop n npt bds interp n ⟨true, 0, 0, 0, d⟩).data

/-- `clean_fill` (dolfyn/adv/clean.py:13-52) on one row. -/
def cleanFill {K : Type*} (n npt : ℕ) (interp : ℕ → ℕ → (ℕ → Option K) → (ℕ → Option K))
    (u : ℕ → Option K) (mask : ℕ → Bool) : ℕ → Option K :=
  let d := fun i => if mask i then none else u i
  interpNan n npt (fun i => (d i).isNone) interp d

/-- The matrix `vel_reshaped` of `fill_nan_ensemble_mean` with the extra ensemble appended
(dolfyn/adv/clean.py:148-166). -/
def ensMatrix (n : ℕ) (x : ℕ → Option ℝ) (m : Mat2 (Option ℝ)) : Mat2 (Option ℝ) :=
  let diff := n - m.rows * m.cols
  if diff = 0 then m
  else ⟨m.rows + 1, m.cols, fun b j => if b < m.rows then m.at_ b j
    else if j < diff then x (n - diff + j) else none⟩

/-- `fill_nan_ensemble_mean` (dolfyn/adv/clean.py:116-184) on one row; `nb = window * fs`. -/
noncomputable def fillEnsMean (n nb : ℕ) (u : ℕ → Option ℝ) (mask : ℕ → Bool) :
    Except Err (ℕ → Option ℝ) :=
  let x := fun i => if mask i then none else u i
  match reshape (some 0) n x nb 0 with
  | .error e => .error e
  | .ok m0 =>
    let m := ensMatrix n x m0
    let velMask : ℕ → ℕ → Option ℝ := fun b j =>
      if (m.at_ b j).isNone then nanmean (m.row b) else none
    let filled : ℕ → ℕ → Option ℝ := fun b j =>
      match m.at_ b j with
      | none => velMask b j
      | some v => some (v + (velMask b j).getD 0)
    .ok fun i => filled (i / m.cols) (i % m.cols)

section masks
variable {K : Type*} [Field K] [LinearOrder K]

/-- `spike_thresh` (dolfyn/adv/clean.py:187-207): `np.diff(u, prepend=0)`, NaN compares false. -/
def spikeThresh (u : ℕ → Option K) (thresh : K) (i : ℕ) : Bool :=
  let prev := if i = 0 then some 0 else u (i - 1)
  match opt2 (· - ·) (u i) prev with
  | none => false
  | some d => decide (thresh < d) || decide (d < -thresh)

/-- `range_limit` (dolfyn/adv/clean.py:210-227). -/
def rangeLimit (u : Option K) (lo hi : K) : Bool :=
  !(match u with
    | none => false
    | some x => decide (lo < x) && decide (x < hi))
end masks

/-- `_calcab` (dolfyn/adv/clean.py:230-237): solve the 2x2 system by Cramer's rule; a singular
matrix raises LinAlgError. -/
noncomputable def calcab (al s t : ℝ) : Except Err (ℝ × ℝ) :=
  let c2 := Real.cos al ^ 2
  let s2 := Real.sin al ^ 2
  let det := c2 * c2 - s2 * s2
  if det = 0 then .error .linAlgError
  else .ok ((s ^ 2 * c2 - s2 * t ^ 2) / det, (c2 * t ^ 2 - s2 * s ^ 2) / det)

/-- The test `p > pe` of `_phaseSpaceThresh` for one sample (dolfyn/adv/clean.py:252,263-271):
`u`, `du`, `d2u` are the (demeaned) value and its two differences, `sd = Lu * std_du`. -/
noncomputable def phaseTest (u du d2u alpha a b sd : ℝ) : Prop :=
  let p := u ^ 2 + du ^ 2 + d2u ^ 2
  let theta := arctan2 du u
  let phi := arctan2 (Real.sqrt (du ^ 2 + u ^ 2)) d2u
  let pe := ((Real.sin phi * Real.cos theta * Real.cos alpha + Real.cos phi * Real.sin alpha) ^ 2 / a +
    (Real.sin phi * Real.cos theta * Real.sin alpha - Real.cos phi * Real.cos alpha) ^ 2 / b +
    (Real.sin phi * Real.sin theta) ^ 2 / sd ^ 2)⁻¹
  pe < p

/-- One assignment pair of the `while` loop of `GN2002` (dolfyn/adv/clean.py:334-336). `T m v` is
`_phaseSpaceThresh` of the `m` samples `v`; it treats the columns of the reshaped array
independently, and column `b` holds samples `b*npt .. (b+1)*npt - 1`. -/
def gnPass {α : Type*} (T : ℕ → (ℕ → α) → ℕ → Bool) (n npt : ℕ) (u : ℕ → α) (mask : ℕ → Bool) :
    ℕ → Bool := fun i =>
  if n - npt ≤ i then T (min npt n) (fun j => u (n - npt + j)) (i - (n - npt))
  else if i < n / npt * npt then T npt (fun j => u (i / npt * npt + j)) (i % npt)
  else mask i

/-- Number of `True` entries. -/
def maskCount (n : ℕ) (mask : ℕ → Bool) : ℕ := ((List.range n).filter mask).length

/-- The `while` loop of `GN2002` (dolfyn/adv/clean.py:328-343); `last = none` is the initial
`mask_last` of infinities. Returns `none` when the fuel runs out, and the number of passes. -/
def gnLoop {α : Type*} (T : ℕ → (ℕ → α) → ℕ → Bool) (n npt : ℕ) (u : ℕ → α) :
    ℕ → ℕ → (ℕ → Bool) → Option ℕ → Option (Except Err ((ℕ → Bool) × ℕ))
  | 0, _, _, _ => none
  | f + 1, c, mask, last =>
    if (List.range n).any mask then
      let mask' := gnPass T n npt u mask
      if 100 ≤ c + 1 then some (.error .exception)
      else if (match last with | none => false | some k => decide (k ≤ maskCount n mask')) then
        some (.ok (mask', c + 1))
      else gnLoop T n npt u f (c + 1) mask' (some (maskCount n mask'))
    else some (.ok (mask, c))

/-- `GN2002` on one record without more than two long gaps (dolfyn/adv/clean.py:326-344). -/
def gnBase {α : Type*} (T : ℕ → (ℕ → α) → ℕ → Bool) (fuel n npt : ℕ) (u : ℕ → α) :
    Option (Except Err ((ℕ → Bool) × ℕ)) :=
  if npt = 0 then some (.error .zeroDivision)
  else if n = 0 then some (.error .indexError)
  else gnLoop T n npt u fuel 0 (fun i => decide (i = 0)) none

/-! ### adp/clean.py -/

/-- `set_range_offset` (dolfyn/adp/clean.py:11-50): the range coordinates and the attribute. -/
def setRangeOffset {K : Type*} [Field K] (ranges : List (List K)) (hd : Option K) (h : K) :
    List (List K) × Option K :=
  (ranges.map fun r => r.map (· + h), some (match hd with | some x => x + h | none => h))

section surface
variable {K : Type*} [Field K] [LinearOrder K]

/-- `np.argmax` of the first `n` values: the first index of the maximum. -/
def argmaxN (f : ℕ → ℚ) : ℕ → ℕ
  | 0 => 0
  | n + 1 => if f (argmaxN f n) < f n then n else argmaxN f n

/-- `amp.values.astype(np.int16)`: rounding towards zero (amplitudes are far from the limits). -/
def truncAmp (x : ℚ) : ℤ := if 0 ≤ x then ⌊x⌋ else ⌈x⌉

/-- `np.max` over `c < n` of `(edf[c] < 0) * np.arange(n, dtype=np.uint8)[c]`
(dolfyn/adp/clean.py:79-81); the `uint8` indices wrap around at 256. -/
def lastDrop (amp : ℕ → ℤ) : ℕ → ℕ
  | 0 => 0
  | n + 1 => if amp (n + 1) - amp n < 0 then max (lastDrop amp n) (n % 256) else lastDrop amp n

/-- `find_surface` without the median filter (dolfyn/adp/clean.py:53-92) for `nb` beams, `nr` cells
and `nt` profiles; `median` is `np.median` of the candidate depths. The loop over `ip` runs over
the cells instead of the profiles, and `edf[itmp:, :, ip]` cuts the beam axis. The strongest echo is
looked for in the amplitudes themselves, the differences are taken of the truncated ones; adding 1 to
the `uint8` index wraps around, too. -/
def findSurface (median : List K → K) (nb nr nt : ℕ) (amp : ℕ → ℕ → ℕ → ℚ) (range : ℕ → K)
    (thresh : ℤ) : Except Err (ℕ → Option K) :=
  let inds := fun b t => argmaxN (fun c => amp b c t) nr
  let inds2 := fun b t => (lastDrop (fun c => truncAmp (amp b c t)) (nr - 1) + 1) % 256
  let d := fun t => median (((List.range nb).map fun b => range (inds b t)) ++
    ((List.range nb).map fun b => range (inds2 b t)))
  let itmp := fun t => ((List.range nb).map fun b => inds b t).min?.getD 0
  if nt < nr then .error .indexError
  else .ok fun t =>
    if t < nr ∧ ∀ b < nb, itmp t ≤ b → ∀ c < nr - 1,
        truncAmp (amp b (c + 1) t) - truncAmp (amp b c t) < thresh
    then none else some (d t)

/-- The density of `find_surface_from_P` (dolfyn/adp/clean.py:141-151). -/
def waterDensity (P T S : K) : K :=
  1027 - 15 / 100 * (T - 10) + 78 / 100 * (S - 35) + 45 / 10000 * P

/-- `find_surface_from_P` (dolfyn/adp/clean.py:109-178) for one sample: density and depth. -/
def surfaceFromP (P T S : K) (hDeploy : Option K) : K × K :=
  let rho := waterDensity P T S
  let d := P * 10000 / (981 / 100 * rho)
  (rho, match hDeploy with | some h => d + h | none => d)
end surface

/-- Writing `val` where the mask is set: an integer array cannot hold NaN, and the `except` branch
writes 0 (dolfyn/adp/clean.py:235-242). Integer arrays hold `some` only. -/
def maskWrite {K : Type*} [Zero K] (isFloat : Bool) (val : Option K) (bad : Prop) [Decidable bad]
    (old : Option K) : Option K :=
  if bad then (if isFloat then val else match val with | none => some 0 | some v => some v) else old

/-- `range_limit` of `nan_beyond_surface` (dolfyn/adp/clean.py:213-227). `supplied` is the argument
`beam_angle`, `attr` the dataset attribute in degrees. -/
noncomputable def surfaceLimit (supplied attr : Option ℝ) (hDeploy : Option ℝ) (depth cell : ℝ) :
    Except Err ℝ :=
  let angle : Except Err ℝ := match supplied with
    | some b => .ok b
    | none => match attr with
      | some b => .ok (b * (Real.pi / 180))
      | none => .error .exception
  match angle with
  | .error e => .error e
  | .ok ang => .ok (match hDeploy with
    | some h => ((depth - h) * Real.cos ang - cell) + h
    | none => depth * Real.cos ang - cell)

open Classical in
/-- `nan_beyond_surface` (dolfyn/adp/clean.py:181-246) for one cell of a variable other than
`echo`. A missing depth compares false. -/
noncomputable def nanBeyond (isFloat : Bool) (val supplied attr hDeploy : Option ℝ) (cell : ℝ)
    (depth : Option ℝ) (range : ℝ) (old : Option ℝ) : Except Err (Option ℝ) :=
  match surfaceLimit supplied attr hDeploy (depth.getD 0) cell with
  | .error e => .error e
  | .ok lim => .ok (maskWrite isFloat val (depth ≠ none ∧ lim < range) old)

open Classical in
/-- `nan_beyond_surface` for one cell of `echo` (dolfyn/adp/clean.py:232-235). -/
noncomputable def nanBeyondEcho (val : Option ℝ) (depth : Option ℝ) (range : ℝ) (old : Option ℝ) :
    Option ℝ :=
  match depth with
  | none => old
  | some d => if d < range then val else old

section thresh
variable {K : Type*} [Field K] [LinearOrder K]

/-- `val_exceeds_thresh` (dolfyn/adp/clean.py:347-374) for one cell. -/
def valExceeds (thresh : K) (val : Option K) (old : Option K) : Option K :=
  match old with
  | none => none
  | some x => if thresh < |x| then val else old

/-- `corr <= thresh` (NaN compares false). -/
def corrBad (thresh : K) : Option K → Bool
  | none => false
  | some x => decide (x ≤ thresh)

/-- One cell (all beams at one depth and time) of the variables `correlation_filter` edits, with
their dtypes. -/
structure CorrCell (K : Type*) where
  vel : ℕ → Option K
  corr : ℕ → Option K
  amp : ℕ → Option K

/-- The body of `correlation_filter` in beam coordinates (dolfyn/adp/clean.py:287-297).
The flags say whether `vel`, `corr`, `amp` are float arrays. -/
def corrMask (thresh : K) (fv fc fa : Bool) (c : CorrCell K) : CorrCell K :=
  let bad : ℕ → Bool := fun b => corrBad thresh (c.corr b)
  { vel := fun b => maskWrite fv none (bad b = true) (c.vel b)
    corr := fun b => maskWrite fc none (bad b = true) (c.corr b)
    amp := fun b => maskWrite fa none (bad b = true) (c.amp b) }

/-- `np.einsum('ij,j...->i...', M, v)` at one cell: a NaN in any component makes every component of
the result NaN (`0 * nan` is NaN). -/
def nanMulVec {n : ℕ} (M : Matrix (Fin n) (Fin n) K) (v : Fin n → Option K) : Fin n → Option K :=
  fun i => ((List.finRange n).map fun j => opt2 (· * ·) (some (M i j)) (v j)).foldl (opt2 (· + ·)) (some 0)

/-- `correlation_filter` on the velocity of one cell of a dataset that is not in beam coordinates
(dolfyn/adp/clean.py:283-300): rotate to beam with `Minv`, mask, rotate back with `M`
(the product of the matrices of the rotation chain, see `Model/Rotate.lean`). -/
def corrFilterRotated {n : ℕ} (M Minv : Matrix (Fin n) (Fin n) K) (thresh : K)
    (corr vel : Fin n → Option K) : Fin n → Option K :=
  nanMulVec M fun b => maskWrite true none
    (corrBad thresh (corr b) = true) (nanMulVec Minv vel b)

/-- `medfiltnan` (dolfyn/tools/misc.py:274-315) on a 1-D array of `n` samples with an odd kernel of
`k` samples; `med i` is scipy's median filter. `convolve2d(.., 'same')` counts the NaN in the
centred window; the count divided by `k` is compared with `thresh`. -/
def medfiltnan (n k : ℕ) (thresh : K) (a : ℕ → Option K) (med : ℕ → Option K) (i : ℕ) : Option K :=
  let cnt := ((List.range n).filter fun j => decide (j ≤ i + k / 2 ∧ i ≤ j + k / 2) && (a j).isNone).length
  if 0 < thresh ∧ thresh < (cnt : K) / k then none else med i
end thresh

end Dolfyn
