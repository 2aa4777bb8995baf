import Verif.Model.Binned
import Verif.Model.Float64
import Mathlib.Algebra.BigOperators.Intervals

/-!
Model of the covariances of `dolfyn/velocity.py`: `calc_acov` and `calc_xcov`, on one time series (other
axes are looped over independently). Simplifications: exact real arithmetic on the data, no NaN, integer `n_bin`;
the conversion to float32 and the coordinates (other than the lag) are left out.
-/

namespace Dolfyn

/-- `a[lo:hi].mean()`. -/
noncomputable def sliceMean (a : ℕ → ℝ) (lo hi : ℕ) : ℝ := (∑ i ∈ Finset.Ico lo hi, a i) / ((hi - lo : ℕ) : ℝ)

/-- Entry `k` of `np.correlate(a, v, 'valid')`, where `v` has `lv` entries and `a` at least as many. -/
noncomputable def corrValid (lv : ℕ) (a v : ℕ → ℝ) (k : ℕ) : ℝ := ∑ i ∈ Finset.range lv, a (i + k) * v i

/-- A binned result: the number of rows, and each row as a function of the lag; `none` for a row of the
`np.empty` array that was never written. -/
structure CovOut where
  rows : ℕ
  row : ℕ → Option (ℕ → ℝ)

/-- `calc_acov` (dolfyn/velocity.py:792-852) with `self.n_bin = nSelf` and the argument `n_bin = n`, both
integers. The reshaped arrays use `self.n_bin`, whatever the argument. For odd `n` the padding
`n_bin / 2 - 2` has a half, which the floor divisions and the `int` of `reshape` drop; the half is seen only
by the test `n_pad != 0`, when `n = 5`: then `npd1 = 0`, the slice `-npd1:` is the whole row, and assigning
an empty slice to it raises ValueError. The loop raises IndexError when there are more bins than rows of the result and ValueError
when the slice does not have `n // 4` entries. -/
noncomputable def calcAcov (nSelf n len : ℕ) (x : ℕ → ℝ) : Except Err CovOut :=
  if n = 5 ∧ 0 < nSelf ∧ nSelf ≤ len then .error .valueError else
  match reshape (0 : ℝ) len x nSelf ((n / 2 : ℕ) - 2 : ℤ), reshape (0 : ℝ) len x nSelf 0 with
  | .error e, _ => .error e
  | _, .error e => .error e
  | .ok m1, .ok m2 =>
    let d1 : ℕ → ℕ → ℝ := fun r j => m1.at_ r j - sliceMean (m1.at_ r) (n / 4) (m1.cols - (n + 3) / 4)
    let d2 : ℕ → ℕ → ℝ := fun r j => m2.at_ r j - sliceMean (m2.at_ r) 0 m2.cols
    let nt := m1.cols - m2.cols + 1
    let se : ℕ → ℕ → ℝ := fun r l => corrValid m2.cols (d1 r) (d2 r) (n / 4 - 1 + l)
    let sb : ℕ → ℕ → ℝ := fun r l => corrValid m2.cols (d1 r) (d2 r) (n / 4 - 1 - l)
    if len / n = 0 then .error .indexError
    else if nt - (n / 4 - 1) ≠ n / 4 then .error .valueError
    else if len / n < m1.rows then .error .indexError
    else
      .ok ⟨len / n, fun r =>
        if r < m1.rows then
          some fun l =>
            if r = 0 then se r l
            else if r = m2.rows - 1 then sb r l
            else (se r l + sb r l) / 2
        else none⟩

/-- `calc_xcov` (dolfyn/velocity.py:854-921) of series of lengths `len1`, `len2` with `n_bin = n`; the bin
size of the first series follows from the lengths. The last component is the coordinate `dt`. -/
noncomputable def calcXcov (n npt len1 len2 : ℕ) (x1 x2 : ℕ → ℝ) (normed : Bool) :
    Except Err (CovOut × (ℕ → ℕ)) :=
  let n1 := pairBin len1 len2 n
  let tmp : ℤ := (n : ℤ) - n1 + npt
  match reshape (0 : ℝ) len1 x1 n1 (tmp - 1), reshape (0 : ℝ) len2 x2 n 0 with
  | .error e, _ => .error e
  | _, .error e => .error e
  | .ok m1, .ok m2 =>
    let rows := min (len1 / n1) (len2 / n)
    let lo := (tmp / 2).toNat
    let hi := m1.cols - (-(-tmp / 2)).toNat
    let d1 : ℕ → ℕ → ℝ := fun r j => m1.at_ r j - sliceMean (m1.at_ r) lo hi
    let d2 : ℕ → ℕ → ℝ := fun r j => m2.at_ r j - sliceMean (m2.at_ r) 0 m2.cols
    let var : ℕ → (ℕ → ℝ) → ℝ := fun c a => (∑ i ∈ Finset.range c, (a i - sliceMean a 0 c) ^ 2) / (c : ℝ)
    let std1 : ℕ → ℝ := fun r => Real.sqrt (var n1 fun j => x1 (r * n1 + j))
    let std2 : ℕ → ℝ := fun r => Real.sqrt (var n fun j => x2 (r * n + j))
    .ok (⟨rows, fun r => if r < rows then
        some fun k =>
          let c := corrValid m2.cols (d1 r) (d2 r) k
          if normed then c / (std1 r * std2 r * n) else c
      else none⟩, fun k => k)

end Dolfyn
