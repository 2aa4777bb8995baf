import Verif.Model.Orient
import Mathlib.Data.List.Sort

/-! Model of `medfilt_orient` (dolfyn/adp/clean.py:306-344). Values are exact reals. -/

namespace Dolfyn

/-- The window of `scipy.signal.medfilt` around sample `i`: `2 h + 1` samples, zeros outside the record. -/
noncomputable def medWindow (n h : ℕ) (a : ℕ → ℝ) (i : ℕ) : List ℝ :=
  (List.range (2 * h + 1)).map fun j => if h ≤ i + j ∧ i + j - h < n then a (i + j - h) else 0

/-- `scipy.signal.medfilt` with an odd kernel: the middle of the sorted window. -/
noncomputable def medfilt (n h : ℕ) (a : ℕ → ℝ) (i : ℕ) : ℝ :=
  ((medWindow n h a i).insertionSort (· ≤ ·)).getD h 0

/-- The orientation part of a dataset: the attribute `has_imu` (None if absent), the quaternions, the angles and the
orientation matrices. -/
structure OrientDs where
  hasImu : Option Bool
  n : ℕ
  quat : Fin 4 → ℕ → ℝ
  angle : Fin 3 → ℕ → ℝ
  orientmat : Option (ℕ → M3)

/-- `medfilt_orient` (dolfyn/adp/clean.py:306-344). A missing `has_imu` raises; scipy refuses even kernels; the
quaternions are filtered component by component and converted again; otherwise the angles are filtered and the
orientation matrix is dropped (it must exist). -/
noncomputable def medfiltOrient (ds : OrientDs) (nfilt : ℕ) : Except Err OrientDs :=
  match ds.hasImu with
  | none => .error .attributeError
  | some imu =>
    if nfilt % 2 = 0 then .error .valueError
    else if imu then
      let q := fun c => medfilt ds.n (nfilt / 2) (ds.quat c)
      do
        let om ← (List.range ds.n).mapM fun i => quaternion2orient fun c => q c i
        .ok (OrientDs.mk ds.hasImu ds.n q ds.angle (some fun i => om.getD i 0))
    else match ds.orientmat with
      | none => .error .valueError
      | some _ => .ok (OrientDs.mk ds.hasImu ds.n ds.quat (fun c => medfilt ds.n (nfilt / 2) (ds.angle c)) none)

end Dolfyn
