import Verif.Model.RotateGaps

/-!
`correlation_filter` (dolfyn/adp/clean.py:248-303) on a whole dataset in any coordinate system. `corr` is the
correlation of each beam at each sample (`none` is NaN). Velocities are float arrays, so the assignment of NaN never
falls into the `except` branch. The masking of `corr` and `amp` themselves and of the fifth beam needs no rotation and
is in `corrMask` (`Model/Clean.lean`).
-/

namespace Dolfyn

noncomputable section

variable {T : Type}

/-- `ds['vel'].values[mask] = np.nan` with `mask = ds['corr'].values <= thresh`
(dolfyn/adp/clean.py:289-294). -/
def GVar.maskCorr (thresh : ℝ) (corr : T → ℕ → Option ℝ) (v : GVar T) : GVar T :=
  if v.name = "vel" then
    { v with val := fun t b => maskWrite true none (corrBad thresh (corr t b) = true) (v.val t b) }
  else v

/-- `correlation_filter` (dolfyn/adp/clean.py:248-303): to beam coordinates, mask, back. -/
def corrFilterG (fuel : ℕ) (thresh : ℝ) (corr : T → ℕ → Option ℝ) (g : GDS T) : Option (Except Err (GDS T)) :=
  match rotate2G fuel .beam g with
  | none => none
  | some (.error e) => some (.error e)
  | some (.ok g1) =>
    rotate2G fuel g.hdr.coordSys { g1 with vars := g1.vars.map (GVar.maskCorr thresh corr) }

end

end Dolfyn
