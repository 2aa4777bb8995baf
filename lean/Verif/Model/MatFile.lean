import Verif.Model.CreateDs

/-!
Model of `save_mat` and `load_mat` (dolfyn/io/api.py:252-392): names, shapes and dimensions. The conversion of
times is in `Model/Time.lean`. The values are opaque: scipy is taken to store and restore them.
-/

namespace Dolfyn

/-- `squeeze_me=True` of `scipy.io.loadmat` (dolfyn/io/api.py:342). -/
def squeezeShape (s : List ℕ) : List ℕ := s.filter fun n => n ≠ 1

/-- `matfile['vars']` (dolfyn/io/api.py:313-315): names and values, no dimensions. -/
def saveMat {α : Type*} (r : List (DsVar α)) : List (DVar α) := r.map fun v => ⟨v.key, v.shape, v.data⟩

/-- `load_mat` up to `_create_dataset` (dolfyn/io/api.py:342-356). Single values come back as numbers without
a shape: a variable raises AttributeError, a coordinate ValueError in `from_dict`. -/
def loadMat {α : Type*} (fst : α → α) (nb : ℕ) (nbAvg : Option ℕ) (coords : List (Key × ℕ))
    (saved : List (DVar α)) : Except Err (List (DsVar α)) :=
  if saved.any fun v => squeezeShape v.shape = [] then .error .attributeError
  else if coords.any fun c => c.2 = 1 then .error .valueError
  else createDataset fst nb nbAvg coords (saved.map fun v => { v with shape := squeezeShape v.shape })

end Dolfyn
