import Verif.Model.VelPsd

/-!
`psd` and `calc_psd_base` on records with missing samples (NaN is `none`). Assumption about numpy: the Fourier
transform of a segment with a NaN is NaN at every frequency.
-/

namespace Dolfyn

/-- `fft(detrend(a[i:i+nfft]) * window)[k]`. -/
noncomputable def segFftN (a : ℕ → Option ℝ) (i nfft : ℕ) (w : ℕ → ℝ) (k : ℕ) : Option ℂ :=
  let y := detrend nfft fun j => a (i + j)
  if (List.range nfft).all fun t => (y t).isSome then some (dft nfft (fun t => (y t).getD 0 * w t) k) else none

/-- `psd` (dolfyn/tools/psd.py:325-371, with `a is b` in `cpsd`, dolfyn/tools/psd.py:288-322). -/
noncomputable def psdN (l : ℕ) (a : ℕ → Option ℝ) (nfft : ℕ) (fs : ℝ) (window : WinArg) (step : Option ℕ) :
    Except Err (List (Option ℝ)) :=
  match stepsize l nfft none step with
  | .error e => .error e
  | .ok s =>
    match getWindow window s.nfft with
    | .error e => .error e
    | .ok w =>
      match segStarts l s with
      | .error e => .error e
      | .ok starts =>
        .ok ((List.range (s.nfft / 2)).map fun k0 =>
          (starts.mapM fun i => (segFftN a i s.nfft w (k0 + 1)).map fun z => ((‖z‖ ^ 2 : ℝ) : ℂ)).map
            fun p => ‖p.sum * (psdScale s w fs : ℂ)‖)

/-- The noise correction of `calc_psd_base` (dolfyn/binned.py:404-407) on all rows of the output: a comparison with
NaN is false, `np.min` of an array with a NaN is NaN, `np.min` of an empty array raises. -/
noncomputable def noiseRowsN (out : List (List (Option ℝ))) (noise fs : ℝ) : Except Err (List (List (Option ℝ))) :=
  if noise = 0 then .ok out
  else
    let out := out.map fun row => row.map fun s => s.map fun s => s - noise ^ 2 / (fs / 2)
    if out.flatten = [] then .error .valueError
    else
      let m : Option ℝ := (out.flatten.mapM id).bind fun l => (l.map fun s => |s|).min?
      .ok (out.map fun row => row.map fun s => match s with
        | none => none
        | some v => if v < 0 then m.map fun m => m / 100 else some v)

/-- `calc_psd_base` (dolfyn/binned.py:354-408). -/
noncomputable def psdBaseN (junk : ℕ → List (Option ℝ)) (b : VelBinner) (len : ℕ) (x : ℕ → Option ℝ) (fs : ℝ)
    (window : WinArg) (noise : ℝ) (nBin nFft : Option ℕ) (nPad : Option ℤ) (step : Option ℕ) :
    Except Err (List (List (Option ℝ))) :=
  let n := nBin.getD b.nBin
  let nf := velNfft b nFft
  let pad : ℤ := nPad.getD (min ((n : ℤ) - nf) nf)
  if n = 0 then .error .zeroDivision
  else match reshape (some 0) len x b.nBin pad with
    | .error e => .error e
    | .ok m =>
      if len / n < m.rows then .error .indexError
      else do
        let rows ← (List.range (len / n)).mapM fun r =>
          if r < m.rows then do
            let s ← psdN m.cols (m.at_ r) nf fs window step
            assignRow (nf / 2) s
          else .ok (junk r)
        noiseRowsN rows noise fs

end Dolfyn
