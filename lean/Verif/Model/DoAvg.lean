import Verif.Model.Binned
import Verif.Model.CreateDs

/-!
Model of `do_avg` and `do_var` (dolfyn/velocity.py:501-630) after the check of the attributes (`checkDs`).

Simplifications: exact real arithmetic (no rounding to float32, times as numbers); a variable has at least
one dimension; attributes of the variables are left out; the bins of an output dataset passed in are those of
the new variables, so that no reindexing takes place.
-/

namespace Dolfyn

/-- A variable of a dataset: the leading dimensions with their sizes, the last one, and the values for the
(flattened) leading index and the last index. -/
structure BVar where
  name : Key
  lead : List (Key × ℕ)
  last : Key
  len : ℕ
  val : ℕ → ℕ → Option ℝ

/-- A variable of the binned dataset. `coord` are the values of the time coordinate of the last dimension
(`none`: not a time coordinate). -/
structure OVar where
  name : Key
  dims : List Key
  shape : List ℕ
  coord : Option (List (Option ℝ))
  rows : List (List (Option ℝ))

/-- An operation on the series of the binner: `self.mean` or `self.var`. -/
abbrev BinOp := ℕ → (ℕ → Option ℝ) → Except Err (List (Option ℝ))

/-- `coords_dict[nm]` for one dimension (dolfyn/velocity.py:546-551): its length and, for times, its values.
`times` are the time coordinates. -/
noncomputable def avgCoord (mean : BinOp) (times : Key → ℕ → Option ℝ) (d : Key × ℕ) :
    Except Err (ℕ × Option (List (Option ℝ))) :=
  if keyIn "time" d.1 then
    match mean d.2 (times d.1) with
    | .error e => .error e
    | .ok l => .ok (l.length, some l)
  else .ok (d.2, none)

/-- One variable (dolfyn/velocity.py:540-563): an error of a time coordinate is raised, everything else that
goes wrong leaves the variable out. -/
noncomputable def avgVar (mean op : BinOp) (times : Key → ℕ → Option ℝ) (suffix : Key) (v : BVar) :
    Except Err (Option OVar) :=
  let dims := v.lead ++ [(v.last, v.len)]
  if dims.any fun d => keyIn "altraw" d.1 then .ok none
  else match dims.mapM (avgCoord mean times) with
    | .error e => .error e
    | .ok cs =>
      if keyIn "ensemble" v.name then .ok none
      else match (List.range (v.lead.map Prod.snd).prod).mapM (fun i => op v.len (v.val i)) with
        | .error _ => .ok none
        | .ok rows =>
          let shape := v.lead.map Prod.snd ++ [(rows.headD []).length]
          if shape = cs.map Prod.fst then
            .ok (some ⟨v.name ++ suffix, dims.map Prod.fst, shape, (cs.getLast?.map Prod.snd).join, rows⟩)
          else .ok none

/-- `out_ds[ky] = ...`. -/
def putVar (o : OVar) : List OVar → List OVar
  | [] => [o]
  | p :: r => if p.name = o.name then o :: r else p :: putVar o r

/-- The loop of `do_avg` (dolfyn/velocity.py:539-571); `ustd` is the standard deviation of the speed, an
exception if the dataset has no velocity. The loop of `do_var` (dolfyn/velocity.py:610-630) has no such step
(`none`). A variable that is skipped for `altraw` skips this step, too. -/
noncomputable def avgLoop (mean op : BinOp) (times : Key → ℕ → Option ℝ) (suffix : Key)
    (ustd : Option (Except Err OVar)) : List BVar → List OVar → Except Err (List OVar)
  | [], out => .ok out
  | v :: vs, out =>
    if (v.lead ++ [(v.last, v.len)]).any fun d => keyIn "altraw" d.1 then
      avgLoop mean op times suffix ustd vs out
    else match avgVar mean op times suffix v with
      | .error e => .error e
      | .ok o =>
        let out1 := match o with | none => out | some o => putVar o out
        match ustd with
        | none => avgLoop mean op times suffix ustd vs out1
        | some (.error e) => .error e
        | some (.ok u) => avgLoop mean op times suffix ustd vs (putVar u out1)

/-- `do_avg` of the variables `vs`. -/
noncomputable def doAvg (b : Binner) (times : Key → ℕ → Option ℝ) (ustd : Except Err OVar) (vs : List BVar)
    (out : List OVar) : Except Err (List OVar) :=
  avgLoop (fun len x => binMean b len x none) (fun len x => binMean b len x none) times [] (some ustd) vs out

/-- `do_var` of the variables `vs`. -/
noncomputable def doVar (b : Binner) (times : Key → ℕ → Option ℝ) (suffix : Key) (vs : List BVar)
    (out : List OVar) : Except Err (List OVar) :=
  avgLoop (fun len x => binMean b len x none) (fun len x => binVar b len x none) times suffix none vs out

end Dolfyn
