import Verif.Model.Turb

/-!
Model of the turbulence properties of the `velds` accessor (dolfyn/velocity.py:354-447) on one time (and depth). The
three entries are those of `tke_vec` and `stress_vec`, `none` is NaN.
-/

namespace Dolfyn

/-- `tke` (dolfyn/velocity.py:403-411): `sum('tke') / 2`; xarray's `sum` skips NaN. -/
noncomputable def tkeOf (v : Fin 3 → Option ℝ) : ℝ :=
  ((v 0).getD 0 + (v 1).getD 0 + (v 2).getD 0) / 2

/-- `E_coh` (dolfyn/velocity.py:354-369). -/
noncomputable def eCoh (s : Fin 3 → Option ℝ) : Option ℝ :=
  (opt2 (· + ·) (opt2 (· + ·) ((s 1).map (· ^ 2)) ((s 0).map (· ^ 2))) ((s 2).map (· ^ 2))).map Real.sqrt

/-- `I_tke` (dolfyn/velocity.py:372-384). The mask is dropped by `.data`, so `thresh` has no effect; it cannot be given
either, because this is a property. -/
noncomputable def iTke (v : Fin 3 → Option ℝ) (u : Option ℝ) : Option ℝ := npDiv (npSqrt (2 * tkeOf v)) u

/-- `I` (dolfyn/velocity.py:387-400). -/
noncomputable def iU (std u : Option ℝ) : Option ℝ := npDiv std u

end Dolfyn
