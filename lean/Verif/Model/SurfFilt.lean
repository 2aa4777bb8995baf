import Verif.Model.Clean
import Verif.Model.MedOrient

/-!
Model of the smoothing in `find_surface` (dolfyn/adp/clean.py:95-98): the argument `nfilt`.
-/

namespace Dolfyn

/-- `scipy.signal.medfilt2d` of one row with the kernel `[1, 2 h + 1]` (dolfyn/tools/misc.py:307). A row without NaN is
filtered as by `medfilt`; `lib` is what the library's selection gives for rows with NaN, which it does not define. -/
noncomputable def medfiltRow (lib : ℕ → Option ℝ) (n h : ℕ) (d : ℕ → Option ℝ) (i : ℕ) : Option ℝ :=
  if (List.range n).all fun j => (d j).isSome then some (medfilt n h (fun j => (d j).getD 0) i) else lib i

open Classical in
/-- The end of `find_surface` (dolfyn/adp/clean.py:94-98) for the depths `d` of `n` profiles. Even kernels are refused by
scipy; `medfiltnan` is called with a threshold of 4; zeros become NaN. -/
noncomputable def surfaceFilt (lib : ℕ → Option ℝ) (n nfilt : ℕ) (d : ℕ → Option ℝ) : Except Err (ℕ → Option ℝ) :=
  if nfilt = 0 then .ok d
  else if nfilt % 2 = 0 then .error .valueError
  else .ok fun i =>
    let f := medfiltnan n nfilt 4 d (medfiltRow lib n (nfilt / 2) d) i
    if f = some 0 then none else f

/-- `find_surface` with all its arguments (dolfyn/adp/clean.py:53-104). -/
noncomputable def findSurfaceAll (lib : ℕ → Option ℝ) (median : List ℝ → ℝ) (nb nr nt : ℕ) (amp : ℕ → ℕ → ℕ → ℚ)
    (range : ℕ → ℝ) (thresh : ℤ) (nfilt : ℕ) : Except Err (ℕ → Option ℝ) :=
  match findSurface median nb nr nt amp range thresh with
  | .error e => .error e
  | .ok d => surfaceFilt lib nt nfilt d

end Dolfyn
