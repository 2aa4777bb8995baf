import Verif.Model.Psd
import Verif.Model.Csd

/-!
Model of `VelBinner.calc_psd` and `TimeBinner.calc_freq`. Simplifications: exact real arithmetic, no missing
samples, integer bin and FFT lengths, times as numbers (seconds since 1970).
-/

namespace Dolfyn

/-- An integer-sized `TimeBinner` (dolfyn/binned.py:31-47). `fs` in samples per second. -/
structure VelBinner where
  nBin : ℕ
  fs : ℝ
  nFft : ℕ
  nFftCoh : ℕ

/-- `calc_freq` (dolfyn/binned.py:469-506). -/
noncomputable def calcFreq (b : VelBinner) (fs : Option ℝ) (units : String) (nFft : Option ℕ) (coh : Bool) :
    Except Err (List ℝ) :=
  let nf : ℕ := match nFft with
    | some n => n
    | none => if coh then b.nFftCoh else b.nFft
  let fs := fs.getD b.fs
  if !strIn "Hz" units && !strIn "rad" units then .error .exception
  else if strIn "rad" units then .ok (psdFreq nf (2 * Real.pi * fs))
  else .ok (psdFreq nf fs)

/-- `_parse_nfft` (dolfyn/binned.py:72-79). -/
def velNfft (b : VelBinner) : Option ℕ → ℕ
  | none => b.nFft
  | some q => if q > b.nBin then b.nBin else q

/-- The noise correction of `calc_psd_base` (dolfyn/binned.py:404-407) on all rows of the output. `np.min` of an
empty array raises. -/
noncomputable def noiseRows (out : List (List ℝ)) (noise fs : ℝ) : Except Err (List (List ℝ)) :=
  if noise = 0 then .ok out
  else
    let out := out.map fun row => row.map fun s => s - noise ^ 2 / (fs / 2)
    match (out.flatten.map fun s => |s|).min? with
    | none => .error .valueError
    | some m => .ok (out.map fun row => row.map fun s => if s < 0 then m / 100 else s)

/-- `calc_psd_base` (dolfyn/binned.py:354-408) with `tools/psd.py`'s estimator. `junk` is the uninitialised memory of
`np.empty`. The data are reshaped with `self.n_bin`, whatever the override. -/
noncomputable def psdBase (junk : ℕ → List ℝ) (b : VelBinner) (len : ℕ) (x : ℕ → ℝ) (fs : ℝ) (window : WinArg)
    (noise : ℝ) (nBin nFft : Option ℕ) (nPad : Option ℤ) (step : Option ℕ) : Except Err (List (List ℝ)) :=
  let n := nBin.getD b.nBin
  let nf := velNfft b nFft
  let pad : ℤ := nPad.getD (min ((n : ℤ) - nf) nf)
  if n = 0 then .error .zeroDivision
  else match reshape 0 len x b.nBin pad with
    | .error e => .error e
    | .ok m =>
      if len / n < m.rows then .error .indexError
      else do
        let rows ← (List.range (len / n)).mapM fun r =>
          if r < m.rows then do
            let s ← psd m.cols (m.at_ r) nf fs window step
            assignRow (nf / 2) s
          else .ok (junk r)
        noiseRows rows noise fs

/-- The data argument of `calc_psd`: one series, or the rows of a two-dimensional array. -/
inductive VelArg
  | one (x : ℕ → ℝ)
  | rows (l : List (ℕ → ℝ))

/-- The returned `DataArray`: frequencies, times, and for each component the spectra of the bins. -/
structure VelSpec where
  freq : List ℝ
  time : List (Option ℝ)
  psd : List (List (List ℝ))

/-- xarray refuses coordinates whose length is not that of the dimension. -/
noncomputable def packSpec (freq : List ℝ) (time : List (Option ℝ)) (out : List (List (List ℝ))) : Except Err VelSpec :=
  if out.all fun rows => rows.length == time.length && rows.all fun r => r.length == freq.length then
    .ok { freq := freq, time := time, psd := out }
  else .error .valueError

/-- `self.mean(veldat['time'].values)` (dolfyn/velocity.py:1131, 1155): always the binner's own bins. -/
noncomputable def specTimes (b : VelBinner) (len : ℕ) (t : ℕ → ℝ) : Except Err (List (Option ℝ)) :=
  binMean { nBin := b.nBin, fs := 1, nFft := b.nFft, nFftCoh := b.nFftCoh } len (fun i => some (t i)) none

/-- `calc_psd` (dolfyn/velocity.py:1047-1164). Three-dimensional arrays are not modelled. -/
noncomputable def velPsd (junk : ℕ → List ℝ) (b : VelBinner) (len : ℕ) (vel : VelArg) (t : ℕ → ℝ) (units : String)
    (fs : Option ℝ) (window : WinArg) (noise : Option (List ℝ)) (nBin nFft : Option ℕ) (nPad : Option ℤ)
    (step : Option ℕ) : Except Err VelSpec :=
  let fsIn := fs.getD b.fs
  let nf := velNfft b nFft
  if !strIn "rad" units && !strIn "Hz" units then .error .valueError
  else
    let isRad := strIn "rad" units
    let fs := if isRad then 2 * Real.pi * fsIn else fsIn
    do
      let freq ← calcFreq b (some fsIn) (if isRad then "rad s-1" else "Hz") (some nf) false
      match vel with
      | .rows l =>
        if l.length ≠ 3 then .error .valueError
        else
          let nz := noise.getD [0, 0, 0]
          if nz.length ≠ 3 then .error .valueError
          else do
            let out ← (l.zip nz).mapM fun p => psdBase junk b len p.1 fs window p.2 nBin (some nf) nPad step
            let time ← specTimes b len t
            packSpec freq time out
      | .one x =>
        let nz := noise.getD [0]
        if nz.length > 1 then .error .valueError
        else do
          let out ← psdBase junk b len x fs window (nz.getD 0 0) nBin (some nf) nPad step
          let time ← specTimes b len t
          packSpec freq time [out]

end Dolfyn
