import Verif.Model.Binned
import Verif.Model.Float64

/-!
Model of the binned cross spectra and coherences: `calc_csd_base` (dolfyn/binned.py) and `calc_coh`,
`calc_phase_angle` (dolfyn/velocity.py), on one pair of time series; the estimators of `tools/psd.py` are
parameters. Simplifications: exact real arithmetic on the data (the bin
sizes are computed in double precision), integer bin and FFT sizes.
-/

namespace Dolfyn

/-- `out[slc] = v` for a row of `cols` entries: numpy broadcasts single values. -/
def assignRow {β : Type*} (cols : ℕ) (v : List β) : Except Err (List β) :=
  if v.length = cols then .ok v
  else match v with
    | [b] => .ok (List.replicate cols b)
    | _ => .error .valueError

/-- `calc_coh` (dolfyn/velocity.py:632-710) and `calc_phase_angle` (dolfyn/velocity.py:712-790): the rows
and the number of frequencies of the coordinate. `nSelf`, `nfSelf` are `self.n_bin`, `self.n_fft_coh`. The
frequencies belong to `self.n_fft_coh`, whatever the argument; a different number of columns raises. -/
noncomputable def calcCoh {β : Type*} (est : List ℝ → List ℝ → ℕ → List β) (nSelf nfSelf : ℕ)
    (nBin nFft : Option ℕ) (len1 len2 : ℕ) (x1 x2 : ℕ → ℝ) : Except Err (List (List β) × ℕ) :=
  if len1 < len2 then .error .exception
  else
    let n2 := nBin.getD nSelf
    let n1 := pairBin len1 len2 n2
    let nf := nFft.getD nfSelf
    let cols := min nf nSelf / 2
    let rows := min (len1 / n1) (len2 / n2)
    match reshape (0 : ℝ) len1 x1 n1 nf, reshape (0 : ℝ) len2 x2 n2 nf with
    | .error e, _ => .error e
    | _, .error e => .error e
    | .ok m1, .ok m2 =>
      match (List.range rows).mapM fun r => assignRow cols (est (m1.row r) (m2.row r) nf) with
      | .error e => .error e
      | .ok out => if cols = nfSelf / 2 then .ok (out, nfSelf / 2) else .error .valueError

/-- `calc_csd_base` (dolfyn/binned.py:410-467): the series are reshaped with `self.n_bin`, whatever the
sizes computed before; `quasi` is used when the reshaped arrays differ in shape. -/
noncomputable def calcCsd {β : Type*} (cross quasi : List ℝ → List ℝ → ℕ → List β) (nSelf nfSelf : ℕ)
    (nBin nFft : Option ℕ) (len1 len2 : ℕ) (x1 x2 : ℕ → ℝ) : Except Err (List (List β)) :=
  let nf := nFft.getD nfSelf
  let n2 := nBin.getD nSelf
  let n1 := pairBin len1 len2 n2
  let cols := min nf nSelf / 2
  let rows := min (len1 / n1) (len2 / n2)
  match reshape (0 : ℝ) len1 x1 nSelf nf, reshape (0 : ℝ) len2 x2 nSelf nf with
  | .error e, _ => .error e
  | _, .error e => .error e
  | .ok m1, .ok m2 =>
    let est := if m1.rows = m2.rows then cross else quasi
    (List.range rows).mapM fun r =>
      if r < m1.rows ∧ r < m2.rows then assignRow cols (est (m1.row r) (m2.row r) nf)
      else .error .indexError

end Dolfyn
