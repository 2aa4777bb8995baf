import Verif.Model.Psd

/-!
Cross spectra and coherence of records of different lengths (dolfyn/tools/psd.py:89-236).
-/

namespace Dolfyn

/-- `cpsd_quasisync` (dolfyn/tools/psd.py:156-236): the shorter record comes first from line 209 on. -/
noncomputable def cpsdQuasisync (auto : Bool) (la lb : ℕ) (a b : ℕ → ℝ) (nfft : ℕ) (fs : ℝ) (window : WinArg) :
    Except Err (List ℂ) :=
  if la = lb then cpsd auto la a b nfft fs window none
  else if lb < la then cpsdQuasi lb la b a nfft fs window
  else cpsdQuasi la lb a b nfft fs window

/-- `coherence` (dolfyn/tools/psd.py:127-153) from line 132 on, for the shorter record `a`. -/
noncomputable def coherenceQuasi (la lb : ℕ) (a b : ℕ → ℝ) (nfft : ℕ) (window : WinArg)
    (debias : Bool) (noise : ℝ × ℝ) : Except Err (List ℝ) :=
  match stepsize la nfft none none with
  | .error e => .error e
  | .ok s1 =>
    match stepsize lb s1.nfft (some s1.nens) none with
    | .error e => .error e
    | .ok s2 =>
      if s2.nens ≤ 2 then .error .exception
      else
        match cpsdQuasisync false la lb a b s2.nfft 1 window, psd la a s2.nfft 1 window (some s1.step),
            psd lb b s2.nfft 1 window (some s2.step) with
        | .error e, _, _ => .error e
        | _, .error e, _ => .error e
        | _, _, .error e => .error e
        | .ok c, .ok pa, .ok pb =>
          .ok ((c.zip (pa.zip pb)).map fun p =>
            let out := ‖p.1‖ ^ 2 / ((p.2.1 - noise.1 ^ 2 / Real.pi) * (p.2.2 - noise.2 ^ 2 / Real.pi))
            if debias then out * (1 + 1 / s2.nens) - 1 / s2.nens else out)

/-- `coherence` (dolfyn/tools/psd.py:89-153) for any lengths: the records are swapped (line 131), the noise
levels are not. -/
noncomputable def coherenceAny (auto : Bool) (la lb : ℕ) (a b : ℕ → ℝ) (nfft : ℕ) (window : WinArg)
    (debias : Bool) (noise : ℝ × ℝ) : Except Err (List ℝ) :=
  if la = lb then coherence auto la a b nfft window debias noise
  else if lb < la then coherenceQuasi lb la b a nfft window debias noise
  else coherenceQuasi la lb a b nfft window debias noise

end Dolfyn
