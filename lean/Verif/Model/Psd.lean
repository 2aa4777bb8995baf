import Verif.Model.Gaps
import Mathlib.Analysis.SpecialFunctions.Complex.Circle
import Mathlib.Analysis.SpecialFunctions.Trigonometric.Basic

/-!
Model of `dolfyn/tools/psd.py`. Records are real sequences of a given length; numpy's `fft` is
the discrete Fourier transform with kernel `exp(-2πikt/n)` in exact arithmetic.
-/

namespace Dolfyn

open Complex in
/-- `np.fft.fft(y)[k]` for `y` of length `n`. -/
noncomputable def dft (n : ℕ) (y : ℕ → ℝ) (k : ℕ) : ℂ :=
  ∑ t ∈ Finset.range n, (y t : ℂ) * exp (-(2 * Real.pi * I * k * t / n))

/-- `np.fft.fftfreq(n, 1/fs)`: `0, 1, .., (n-1)//2, -(n//2), .., -1` times `fs/n`. -/
noncomputable def fftfreq (n : ℕ) (fs : ℝ) : List ℝ :=
  ((List.range ((n - 1) / 2 + 1)).map fun (i : ℕ) => (i : ℝ) * (fs / n)) ++
  ((List.range (n / 2)).map fun (i : ℕ) => ((i : ℝ) - (n / 2 : ℕ)) * (fs / n))

/-- `psd_freq` with `full=False` (dolfyn/tools/psd.py:6-29): `abs(f[1:int(nfft/2.+1)])`. -/
noncomputable def psdFreq (nfft : ℕ) (fs : ℝ) : List ℝ :=
  (((fftfreq nfft fs).take (nfft / 2 + 1)).drop 1).map fun f => |f|

/-- The `window` argument. `other` is any object of another type. -/
inductive WinArg
  | none | one | str (s : String) | arr (l : List ℝ) | other

/-- `needle in haystack` for Python strings. -/
def strIn (needle hay : String) : Bool := decide (needle.toList <:+: hay.toList)

/-- `np.hanning(n)`. -/
noncomputable def hanning (n : ℕ) (t : ℕ) : ℝ :=
  if n = 1 then 1 else 1 / 2 - 1 / 2 * Real.cos (2 * Real.pi * t / (n - 1))

/-- `np.hamming(n)`. -/
noncomputable def hamming (n : ℕ) (t : ℕ) : ℝ :=
  if n = 1 then 1 else 54 / 100 - 46 / 100 * Real.cos (2 * Real.pi * t / (n - 1))

/-- `_getwindow` (dolfyn/tools/psd.py:32-50). -/
noncomputable def getWindow (w : WinArg) (nfft : ℕ) : Except Err (ℕ → ℝ) :=
  match w with
  | .none => .ok fun _ => 1
  | .one => .ok fun _ => 1
  | .str s =>
    if strIn "hann" s then .ok (hanning nfft)
    else if strIn "hamm" s then .ok (hamming nfft)
    else .error .valueError
  | .arr l => if l.length ≠ nfft then .error .valueError else .ok fun t => l.getD t 0
  | .other => .error .valueError

/-- Result of `stepsize`. -/
structure Steps where
  step : ℕ
  nens : ℕ
  nfft : ℕ
  deriving DecidableEq, Repr

/-- `stepsize` (dolfyn/tools/psd.py:53-86) for integer arguments. `int(x / y)` of non-negative
integers is `ℕ` division; division by zero raises. -/
def stepsize (l nfft : ℕ) (nens step : Option ℕ) : Except Err Steps :=
  let nfft := if l < nfft then l else nfft
  match nens, step with
  | none, none =>
    if l = nfft then .ok ⟨0, 1, nfft⟩
    else if nfft = 0 then .error .zeroDivision
    else
      let nens := 2 * l / nfft
      if nens = 1 then .error .zeroDivision
      else .ok ⟨(l - nfft) / (nens - 1), nens, nfft⟩
  | none, some s =>
    if s = 0 then .error .zeroDivision
    else .ok ⟨s, (l - nfft) / s + 1, nfft⟩
  | some e, _ =>
    if e = 1 then .ok ⟨0, 1, nfft⟩
    else if e = 0 then .ok ⟨0, 0, nfft⟩
    else .ok ⟨(l - nfft) / (e - 1), e, nfft⟩

/-- Python's `range(a, b, s)` for non-negative arguments; a zero step raises ValueError. -/
def pyRange (a b s : ℕ) : Except Err (List ℕ) :=
  if s = 0 then .error .valueError
  else .ok ((List.range ((b - a + s - 1) / s)).map fun i => a + s * i)

/-- The positions at which segments start: 0, then `range(step, l - nfft + 1, step)` when there is
more than one ensemble (dolfyn/tools/psd.py:305-318). -/
def segStarts (l : ℕ) (s : Steps) : Except Err (List ℕ) :=
  if s.nens = 1 then .ok [0]
  else match pyRange s.step (l - s.nfft + 1) s.step with
    | .error e => .error e
    | .ok r => .ok (0 :: r)

/-- `detrend` of a gap-free segment. For a single point numpy returns NaN, but then no frequency
is kept, so the value is never used. -/
noncomputable def detrendR (n : ℕ) (v : ℕ → ℝ) (t : ℕ) : ℝ := (detrend n (fun i => some (v i)) t).getD 0

/-- `fft(detrend(a[i:i+nfft]) * window)[k]`. -/
noncomputable def segFft (a : ℕ → ℝ) (i nfft : ℕ) (w : ℕ → ℝ) (k : ℕ) : ℂ :=
  dft nfft (fun t => detrendR nfft (fun j => a (i + j)) t * w t) k

/-- `wght / nens / fs` with `wght = 2. / (window ** 2).sum()`. -/
noncomputable def psdScale (s : Steps) (w : ℕ → ℝ) (fs : ℝ) : ℝ :=
  2 / (∑ t ∈ Finset.range s.nfft, w t ^ 2) / s.nens / fs

/-- `cpsd` (dolfyn/tools/psd.py:239-322) for two records of length `l`; `auto` is `a is b`.
The result lists the frequencies `1 .. nfft//2`. -/
noncomputable def cpsd (auto : Bool) (l : ℕ) (a b : ℕ → ℝ) (nfft : ℕ) (fs : ℝ) (window : WinArg)
    (step : Option ℕ) : Except Err (List ℂ) :=
  match stepsize l nfft none step with
  | .error e => .error e
  | .ok s =>
    match getWindow window s.nfft with
    | .error e => .error e
    | .ok w =>
      match segStarts l s with
      | .error e => .error e
      | .ok starts =>
        .ok ((List.range (s.nfft / 2)).map fun k0 =>
          let k := k0 + 1
          let pwr : ℂ := (starts.map fun i =>
            if auto then ((‖segFft a i s.nfft w k‖ ^ 2 : ℝ) : ℂ)
            else segFft a i s.nfft w k * (starRingEnd ℂ) (segFft b i s.nfft w k)).sum
          pwr * (psdScale s w fs : ℂ))

/-- `psd` (dolfyn/tools/psd.py:325-371). -/
noncomputable def psd (l : ℕ) (a : ℕ → ℝ) (nfft : ℕ) (fs : ℝ) (window : WinArg)
    (step : Option ℕ) : Except Err (List ℝ) :=
  (cpsd true l a a nfft fs window step).map fun r => r.map fun z => ‖z‖

/-- `cpsd_quasisync` (dolfyn/tools/psd.py:156-236) for records of different lengths
`la < lb` (the code swaps them otherwise); the two ranges are zipped. -/
noncomputable def cpsdQuasi (la lb : ℕ) (a b : ℕ → ℝ) (nfft : ℕ) (fs : ℝ) (window : WinArg) :
    Except Err (List ℂ) :=
  match stepsize la nfft none none with
  | .error e => .error e
  | .ok s1 =>
    match stepsize lb s1.nfft (some s1.nens) none with
    | .error e => .error e
    | .ok s2 =>
      match getWindow window s2.nfft with
      | .error e => .error e
      | .ok w =>
        match segStarts la ⟨s1.step, s2.nens, s2.nfft⟩, segStarts lb s2 with
        | .error e, _ => .error e
        | _, .error e => .error e
        | .ok r1, .ok r2 =>
          .ok ((List.range (s2.nfft / 2)).map fun k0 =>
            let k := k0 + 1
            let pwr : ℂ := ((r1.zip r2).map fun p =>
              segFft a p.1 s2.nfft w k * (starRingEnd ℂ) (segFft b p.2 s2.nfft w k)).sum
            pwr * (psdScale s2 w fs : ℂ))

/-- `coherence` (dolfyn/tools/psd.py:89-153) for records of equal length `l`; `auto` is `a is b`.
`noise` is the pair of noise levels. -/
noncomputable def coherence (auto : Bool) (l : ℕ) (a b : ℕ → ℝ) (nfft : ℕ) (window : WinArg)
    (debias : Bool) (noise : ℝ × ℝ) : Except Err (List ℝ) :=
  match stepsize l nfft none none with
  | .error e => .error e
  | .ok s1 =>
    match stepsize l s1.nfft (some s1.nens) none with
    | .error e => .error e
    | .ok s2 =>
      if s2.nens ≤ 2 then .error .exception
      else
        match cpsd auto l a b s2.nfft 1 window none, psd l a s2.nfft 1 window (some s1.step),
            psd l b s2.nfft 1 window (some s2.step) with
        | .error e, _, _ => .error e
        | _, .error e, _ => .error e
        | _, _, .error e => .error e
        | .ok c, .ok pa, .ok pb =>
          .ok ((c.zip (pa.zip pb)).map fun p =>
            let out := ‖p.1‖ ^ 2 / ((p.2.1 - noise.1 ^ 2 / Real.pi) * (p.2.2 - noise.2 ^ 2 / Real.pi))
            if debias then out * (1 + 1 / s2.nens) - 1 / s2.nens else out)

/-- `phase_angle` (dolfyn/tools/psd.py:374-434). The window is built for the requested `nfft`, so
a record shorter than `nfft` does not fit it (ValueError). After the first segment **both** spectra
are taken from `a` (line 430). -/
noncomputable def phaseAngle (l : ℕ) (a b : ℕ → ℝ) (nfft : ℕ) (window : WinArg)
    (step : Option ℕ) : Except Err (List ℂ) :=
  match getWindow window nfft with
  | .error e => .error e
  | .ok w =>
    if l < nfft then .error .valueError
    else
      match stepsize l nfft none step with
      | .error e => .error e
      | .ok s =>
        match segStarts l s with
        | .error e => .error e
        | .ok starts =>
          .ok ((List.range (nfft / 2)).map fun k0 =>
            let k := k0 + 1
            let unit (z : ℂ) : ℂ := z / (‖z‖ : ℂ)
            let first := unit (segFft b 0 nfft w k) / unit (segFft a 0 nfft w k)
            let rest := ((starts.drop 1).map fun i =>
              unit (segFft a i nfft w k) / unit (segFft a i nfft w k)).sum
            (first + rest) / s.nens)

end Dolfyn
