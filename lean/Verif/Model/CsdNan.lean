import Verif.Model.PsdNan
import Verif.Model.AdvCsd

/-!
Cross spectra, coherence and phase of records with missing samples (NaN is `none`): `cpsd`, `coherence` and
`phase_angle` (dolfyn/tools/psd.py) and `calc_csd` of a point velocimeter (dolfyn/adv/turbulence.py). Assumptions as
in the model of spectra with missing samples: the Fourier transform of a segment with a NaN is NaN at every frequency.
-/

namespace Dolfyn

/-- `cpsd` (dolfyn/tools/psd.py:239-322) of two different records. -/
noncomputable def cpsdN (l : ℕ) (a b : ℕ → Option ℝ) (nfft : ℕ) (fs : ℝ) (window : WinArg) (step : Option ℕ) :
    Except Err (List (Option ℂ)) :=
  match stepsize l nfft none step with
  | .error e => .error e
  | .ok s =>
    match getWindow window s.nfft with
    | .error e => .error e
    | .ok w =>
      match segStarts l s with
      | .error e => .error e
      | .ok starts =>
        .ok ((List.range (s.nfft / 2)).map fun k0 =>
          (starts.mapM fun i => opt2 (fun x y => x * (starRingEnd ℂ) y) (segFftN a i s.nfft w (k0 + 1))
            (segFftN b i s.nfft w (k0 + 1))).map fun p => p.sum * (psdScale s w fs : ℂ))

/-- `coherence` (dolfyn/tools/psd.py:89-153) of two different records of equal length. -/
noncomputable def coherenceN (l : ℕ) (a b : ℕ → Option ℝ) (nfft : ℕ) (window : WinArg) (debias : Bool)
    (noise : ℝ × ℝ) : Except Err (List (Option ℝ)) :=
  match stepsize l nfft none none with
  | .error e => .error e
  | .ok s1 =>
    match stepsize l s1.nfft (some s1.nens) none with
    | .error e => .error e
    | .ok s2 =>
      if s2.nens ≤ 2 then .error .exception
      else
        match cpsdN l a b s2.nfft 1 window none, psdN l a s2.nfft 1 window (some s1.step),
            psdN l b s2.nfft 1 window (some s2.step) with
        | .error e, _, _ => .error e
        | _, .error e, _ => .error e
        | _, _, .error e => .error e
        | .ok c, .ok pa, .ok pb =>
          .ok ((c.zip (pa.zip pb)).map fun p => match p with
            | (some c, some pa, some pb) =>
              let out := ‖c‖ ^ 2 / ((pa - noise.1 ^ 2 / Real.pi) * (pb - noise.2 ^ 2 / Real.pi))
              some (if debias then out * (1 + 1 / s2.nens) - 1 / s2.nens else out)
            | _ => none)

/-- `phase_angle` (dolfyn/tools/psd.py:374-434). After the first segment both spectra are taken from `a` (line 430). -/
noncomputable def phaseAngleN (l : ℕ) (a b : ℕ → Option ℝ) (nfft : ℕ) (window : WinArg) (step : Option ℕ) :
    Except Err (List (Option ℂ)) :=
  match getWindow window nfft with
  | .error e => .error e
  | .ok w =>
    if l < nfft then .error .valueError
    else
      match stepsize l nfft none step with
      | .error e => .error e
      | .ok s =>
        match segStarts l s with
        | .error e => .error e
        | .ok starts =>
          .ok ((List.range (nfft / 2)).map fun k0 =>
            let ratio (x y : ℂ) : ℂ := x / (‖x‖ : ℂ) / (y / (‖y‖ : ℂ))
            let first := opt2 ratio (segFftN b 0 nfft w (k0 + 1)) (segFftN a 0 nfft w (k0 + 1))
            let rest := ((starts.drop 1).mapM fun i =>
              opt2 ratio (segFftN a i nfft w (k0 + 1)) (segFftN a i nfft w (k0 + 1))).map List.sum
            opt2 (fun x y => (x + y) / s.nens) first rest)

/-- `calc_csd_base` (dolfyn/binned.py:410-467) for two series of the same length. -/
noncomputable def csdBaseN (b : VelBinner) (len : ℕ) (x y : ℕ → Option ℝ) (fs : ℝ) (window : WinArg)
    (nBin : Option ℕ) (nf : ℕ) : Except Err (List (List (Option ℂ))) :=
  let n := nBin.getD b.nBin
  if n = 0 then .error .zeroDivision
  else match reshape (some 0) len x b.nBin nf, reshape (some 0) len y b.nBin nf with
    | .error e, _ => .error e
    | _, .error e => .error e
    | .ok m1, .ok m2 =>
      (List.range (len / n)).mapM fun r =>
        if r < m1.rows then do
          let s ← cpsdN m1.cols (m1.at_ r) (m2.at_ r) nf fs window none
          assignRow (nf / 2) s
        else .error .indexError

/-- The spectra that `calc_csd` (dolfyn/adv/turbulence.py:97-175) returns for a three-component velocity, in Hertz and
without per-call overrides (times and frequencies as in the model without missing samples). -/
noncomputable def advCsdN (b : VelBinner) (len : ℕ) (vel : Fin 3 → ℕ → Option ℝ) (window : WinArg)
    (nFftCoh : Option ℕ) : Except Err (List (List (List (Option ℂ)))) :=
  [((0 : Fin 3), (1 : Fin 3)), (0, 2), (1, 2)].mapM fun p =>
    csdBaseN b len (vel p.1) (vel p.2) b.fs window none (velNfftCoh b nFftCoh)

end Dolfyn
