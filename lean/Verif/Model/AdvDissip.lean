import Verif.Model.Turb
import Mathlib.Analysis.SpecialFunctions.Pow.Real

/-!
Model of two dissipation estimates for point velocimeters: `calc_epsilon_SF` (dolfyn/adv/turbulence.py:388-440)
and `calc_epsilon_TE01` with `_calc_epsTE01_int` (dolfyn/adv/turbulence.py:462-543).

Values are exact reals; NaN and infinities are `none`. The angle between the mean flow and the fluctuations
(`theta`) is an input of the model of the integral.
-/

namespace Dolfyn

/-- `np.median` of an array without NaN; NaN for an empty one. -/
noncomputable def npMedian (l : List ℝ) : Option ℝ :=
  if l = [] then none
  else
    let s := l.insertionSort (· ≤ ·)
    some ((s.getD ((l.length - 1) / 2) 0 + s.getD (l.length / 2) 0) / 2)

/-- `np.nanmean((up[L:] - up[:-L]) ** 2)` (dolfyn/adv/turbulence.py:426). `up[:-0]` is empty, so that lag 0 cannot
be subtracted (except for bins of a single sample, where the result is NaN). -/
noncomputable def sfLag (n : ℕ) (up : ℕ → Option ℝ) (L : ℕ) : Except Err (Option ℝ) :=
  if L = 0 then (if n = 1 then .ok none else .error .valueError)
  else .ok (nanmean (vals (n - L) fun i => opt2 (fun a b => (a - b) ^ 2) (up (i + L)) (up i)))

/-- The lags `range(int(fs / freq_range[1]), int(fs / freq_range[0]))`. -/
def sfLags (fs f0 f1 : ℚ) : List ℕ :=
  let a := (pyInt (fs / f1)).toNat
  let b := (pyInt (fs / f0)).toNat
  (List.range (b - a)).map fun i => a + i

/-- The structure function at the lags; a lag beyond the bin cannot be stored (dolfyn/adv/turbulence.py:424-426). -/
noncomputable def sfDaa (n : ℕ) (up : ℕ → Option ℝ) (lags : List ℕ) : Except Err (List (ℕ × Option ℝ)) :=
  lags.mapM fun L => do
    let d ← sfLag n up L
    if n ≤ L then throw .indexError
    return (L, d)

/-- One bin of `calc_epsilon_SF` (dolfyn/adv/turbulence.py:421-429) with mean speed `U`. With `U = 0` all lags
are zero and the quotients are infinite or NaN. -/
noncomputable def sfBin (fs f0 f1 : ℚ) (n : ℕ) (up : ℕ → Option ℝ) (U : ℝ) : Except Err (Option ℝ) := do
  let daa ← sfDaa n up (sfLags fs f0 f1)
  if U = 0 then return none
  let cv2 := daa.filterMap fun p => p.2.map fun d => d / (U / fs * (p.1 : ℝ)) ^ (2 / 3 : ℝ)
  return (npMedian cv2).map fun m => (m / 2.1) ^ (3 / 2 : ℝ)

/-- `calc_epsilon_SF` (dolfyn/adv/turbulence.py:388-440) for a series of `len` samples and mean speeds `U`. -/
noncomputable def epsilonSF (nBin : ℚ) (fs f0 f1 : ℚ) (len : ℕ) (x : ℕ → Option ℝ) (U : ℕ → ℝ) :
    Except Err (List (Option ℝ)) := do
  let m ← reshape (some 0) len x nBin 0
  (List.range m.rows).mapM fun r => sfBin fs f0 f1 m.cols (m.at_ r) (U r)

/-! ### TE01 -/

/-- `np.trapz(y, x)` for points `x 0, .., x n`. -/
noncomputable def trapz (n : ℕ) (x y : ℕ → ℝ) : ℝ :=
  ((List.range n).map fun k => (x (k + 1) - x k) * (y (k + 1) + y k) / 2).sum

/-- The points `np.arange(-20, 20, 1e-2)` (4000 points). -/
noncomputable def te01X (k : ℕ) : ℝ := -20 + k * (1 / 100)

/-- The cubic root of a number that is not negative. -/
noncomputable def cbrt (x : ℝ) : ℝ := x ^ (1 / 3 : ℝ)

/-- `_calc_epsTE01_int` (dolfyn/adv/turbulence.py:462-485) for one bin: intensity `b`, angle `t`. -/
noncomputable def te01Int (b t : ℝ) : ℝ :=
  trapz 3999 te01X (fun k => cbrt (te01X k ^ 2 - 2 / b * Real.cos t * te01X k + (b ^ 2)⁻¹) *
    Real.exp (-(1 / 2) * te01X k ^ 2)) * (2 * Real.pi) ^ (-(1 / 2) : ℝ) * b ^ (2 / 3 : ℝ)

/-- `np.nanmean(S * freq**(5/3), -1)` over the chosen frequencies. -/
noncomputable def compMean (idx : List ℕ) (f S : ℕ → ℝ) : ℝ :=
  (idx.map fun k => S k * f k ^ (5 / 3 : ℝ)).sum / idx.length

/-- `calc_epsilon_TE01` (dolfyn/adv/turbulence.py:508-535) for one bin: spectra of the three components, mean
speed `U` and integral `I`. No frequency in the range gives NaN; a speed of zero an infinity or NaN. -/
noncomputable def te01 (n : ℕ) (f : ℕ → ℝ) (lo hi : ℝ) (Su Sv Sw : ℕ → ℝ) (U I : ℝ) : Option ℝ :=
  let idx := freqIdx n f lo hi
  if idx = [] then none
  else if U = 0 then none
  else
    let a := (compMean idx f (fun k => Su k + Sv k) / (21 / 55 * 1.5 * I)) ^ (3 / 2 : ℝ) / U
    let b := (compMean idx f Sw / (12 / 55 * 1.5 * I)) ^ (3 / 2 : ℝ) / U
    some ((a + b) * 0.5)

end Dolfyn
