import Verif.Model.IoBase

/-!
Model of what `save` (dolfyn/io/api.py:136-204) does to the dataset it is given. The name `ds` stands for
the caller's dataset until the first complex variable is dropped, which makes a new dataset; the list under the
attribute `complex_vars` is shared by both.
-/

namespace Dolfyn

variable {T : Type}

/-- The caller's dataset, the dataset called `ds`, whether they are the same object, and the attribute
`complex_vars`. -/
structure SaveHeap (T : Type) where
  caller : Vars T
  cur : Vars T
  same : Bool
  names : List String

/-- `ds` has become `c` in place. -/
def SaveHeap.put (s : SaveHeap T) (c : Vars T) : SaveHeap T :=
  { s with caller := if s.same then c else s.caller, cur := c }

/-- One pass of the loop of `save` (dolfyn/io/api.py:168-180). The loop runs over the variables that the dataset
had at its beginning, since assigning a variable makes a new dictionary. -/
noncomputable def saveHeapStep (r32 : ℝ → ℝ) (s : SaveHeap T) (var : String) : SaveHeap T :=
  match s.cur.get var with
  | some (.cplx z) =>
    let s' := s.put ((s.cur.set (var ++ "_real") (.f64 fun t => (z t).re)).set
      (var ++ "_imag") (.f64 fun t => (z t).im))
    { s' with cur := s'.cur.drop var, same := false, names := s'.names ++ [var] }
  | some (.f64 x) => s.put (s.cur.set var (.f32 fun t => r32 (x t)))
  | _ => s

/-- The loop of `save`. -/
noncomputable def saveHeap (r32 : ℝ → ℝ) (ds : Vars T) : SaveHeap T :=
  (ds.map Prod.fst).foldl (saveHeapStep r32) ⟨ds, ds, true, []⟩

/-- The caller's dataset after `save`. -/
noncomputable def saveCaller (r32 : ℝ → ℝ) (ds : Vars T) : Vars T := (saveHeap r32 ds).caller

end Dolfyn
