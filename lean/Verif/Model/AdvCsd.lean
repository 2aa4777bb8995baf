import Verif.Model.VelPsd
import Mathlib.Data.Fin.VecNotation

/-!
Model of `ADVBinner.calc_csd` (dolfyn/adv/turbulence.py:97-175) and `_up_angle` (442-460). Simplifications: exact
arithmetic, no missing samples, integer bin and FFT lengths, times as numbers.
-/

namespace Dolfyn

/-- `_parse_nfft_coh` (dolfyn/binned.py:81-88). -/
def velNfftCoh (b : VelBinner) : Option ℕ → ℕ
  | none => b.nFftCoh
  | some q => if q > b.nBin then b.nBin else q

/-- `calc_csd_base` (dolfyn/binned.py:410-467) for two series of the same length: the bin sizes of both are the
argument, but the data are reshaped with `self.n_bin`. `z` fills the single-value broadcast. -/
noncomputable def csdBase (b : VelBinner) (len : ℕ) (x y : ℕ → ℝ) (fs : ℝ) (window : WinArg) (nBin : Option ℕ)
    (nf : ℕ) : Except Err (List (List ℂ)) :=
  let n := nBin.getD b.nBin
  if n = 0 then .error .zeroDivision
  else match reshape 0 len x b.nBin nf, reshape 0 len y b.nBin nf with
    | .error e, _ => .error e
    | _, .error e => .error e
    | .ok m1, .ok m2 =>
      (List.range (len / n)).mapM fun r =>
        if r < m1.rows then do
          let s ← cpsd false m1.cols (m1.at_ r) (m2.at_ r) nf fs window none
          assignRow (nf / 2) s
        else .error .indexError

/-- The returned array: frequencies, times, and for each pair `uv`, `uw`, `vw` the spectra of the bins. -/
structure AdvCsd where
  freq : List ℝ
  time : List (Option ℝ)
  csd : List (List (List ℂ))

/-- `calc_csd` (dolfyn/adv/turbulence.py:97-175) of a three-component velocity. Units other than rad are taken for
Hz. xarray refuses coordinates of the wrong length. -/
noncomputable def advCsd (b : VelBinner) (len : ℕ) (vel : Fin 3 → ℕ → ℝ) (t : ℕ → ℝ) (units : String)
    (fs : Option ℝ) (window : WinArg) (nBin nFftCoh : Option ℕ) : Except Err AdvCsd :=
  let fsIn := fs.getD b.fs
  let nf := velNfftCoh b nFftCoh
  let isRad := strIn "rad" units
  let fs := if isRad then 2 * Real.pi * fsIn else fsIn
  do
    let time ← specTimes b len t
    let freq ← calcFreq b (some fsIn) (if isRad then "rad s-1" else "Hz") (some nf) true
    let out ← [((0 : Fin 3), (1 : Fin 3)), (0, 2), (1, 2)].mapM fun p =>
      csdBase b len (vel p.1) (vel p.2) fs window nBin nf
    if out.all fun rows => rows.length == time.length && rows.all fun r => r.length == freq.length then
      .ok (AdvCsd.mk freq time out)
    else .error .valueError

/-- `_up_angle` (dolfyn/adv/turbulence.py:442-460) of one bin of complex velocities: fluctuations that point below the
real axis are turned around before averaging. -/
noncomputable def upAngle (n : ℕ) (u : ℕ → ℂ) : ℝ :=
  let m := (∑ i ∈ Finset.range n, u i) / n
  let dt := fun i => u i - m
  let dt := fun i => if (dt i).im ≤ 0 then dt i * Complex.exp (Complex.I * Real.pi) else dt i
  Complex.arg ((∑ i ∈ Finset.range n, dt i) / n)

end Dolfyn
