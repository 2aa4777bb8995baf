import Verif.Model.Ad2cpHead

/-!
Model of the splitting of dual-profile datasets: `split_dp_datasets` (dolfyn/io/nortek2.py:666-722), after the
declination was set (`read_signature`, dolfyn/io/nortek2.py:96-127; dolfyn/rotate/api.py:173-256).

Simplifications: a dataset is given by its coordinates (name and length), its variables (name, names of the
coordinates attached to it, and a value), its attributes (values as text) and the list `rotate_vars`;
`_set_coords`, which relabels the `dir` axis, is not modelled here. `set_declination` is modelled for data that
is not in earth coordinates: it changes the orientation matrix, the heading and the attributes.
-/

namespace Dolfyn

/-- A variable. -/
structure SpVar (α : Type*) where
  coords : List Key
  val : α

/-- A dataset. -/
structure SplitDs (α : Type*) where
  coords : List (Key × ℕ)
  vars : List (Key × SpVar α)
  attrs : List (Key × Key)
  rotateVars : List Key

variable {α : Type*}

/-- `time` coordinates of another length than `time` (dolfyn/io/nortek2.py:669-681). -/
def otherTimes (ds : SplitDs α) (n : ℕ) : List Key :=
  ((ds.coords.filter fun c => keyIn "time" c.1).filter fun c =>
    c.2 ≠ n ∧ ¬ "altraw".toList <:+ c.1).map Prod.fst

/-- `critical_attrs` (dolfyn/io/nortek2.py:688-695). -/
def criticalAttrs : List Key :=
  ["inst_model".toList, "inst_make".toList, "inst_type".toList, "fs".toList, "orientation".toList,
   "orient_status".toList, "has_imu".toList, "beam_angle".toList]

/-- `any(x in v for x in tags)`. -/
def anyIn (tags : List Key) (v : Key) : Bool := tags.any fun x => decide (x <:+: v)

/-- `{'XYZ': 'inst', 'ENU': 'earth', 'beam': 'beam'}[cy]`. -/
def cyFrame (cy : Key) : Except Err Key :=
  if cy = "XYZ".toList then .ok "inst".toList
  else if cy = "ENU".toList then .ok "earth".toList
  else if cy = "beam".toList then .ok "beam".toList
  else .error .keyError

/-- Removal of the first occurrences (`list.remove`). -/
def removeAll (l : List Key) (r : List Key) : List Key := r.foldl (fun l x => l.erase x) l

/-- The second dataset and the cleaned first one (dolfyn/io/nortek2.py:698-722), given the coordinates `oc` of
the second profile. -/
def splitAt (ds : SplitDs α) (oc : List Key) : Except Err (SplitDs α × SplitDs α) :=
  let otherVars := ds.vars.filter fun v => v.2.coords.any fun x => x ∈ oc
  let tags := oc.map (afterLast '_')
  let oc' := oc ++ ((ds.coords.filter fun c => anyIn tags c.1).map Prod.fst)
  let otherAttrs := ds.attrs.filter fun a => anyIn tags a.1
  if criticalAttrs.any fun a => (pget ds.attrs a).isNone then .error .keyError else
  let attrs2 := (otherAttrs ++ ds.attrs.filter fun a => a.1 ∈ criticalAttrs).foldl (fun d a => pset d a.1 a.2) []
  let rot2 := ds.rotateVars.filter fun v => otherVars.any fun w => w.1 = v
  match pget ds.vars "beam2inst_orientmat".toList with
  | none => .error .keyError
  | some bm =>
    let vars2 := pset otherVars "beam2inst_orientmat".toList bm
    match tags with
    | [] => .error .indexError
    | tag :: _ =>
      let om := "orientmat_".toList ++ tag
      if (pget vars2 om).isNone then .error .valueError else
      match pget attrs2 ("coord_sys_axes_".toList ++ tag) with
      | none => .error .keyError
      | some cy =>
        match cyFrame cy with
        | .error e => .error e
        | .ok fr =>
          .ok ({ coords := ds.coords.filter fun c => c.1 ∉ oc'
                 vars := ds.vars.filter fun v => ¬ (v.2.coords.any fun x => decide (x ∈ oc)) = true
                 attrs := ds.attrs.filter fun a => !anyIn tags a.1
                 rotateVars := removeAll ds.rotateVars rot2 },
               { coords := ds.coords.filter fun c => vars2.any fun v => c.1 ∈ v.2.coords
                 vars := vars2.map fun v => if v.1 = om then ("orientmat".toList, v.2) else v
                 attrs := pset attrs2 "coord_sys".toList fr
                 rotateVars := rot2 })

/-- `split_dp_datasets` (dolfyn/io/nortek2.py:666-722). -/
def splitDp (ds : SplitDs α) : Except Err (SplitDs α × SplitDs α) :=
  match pget ds.coords "time".toList with
  | none => if ds.coords.any fun c => keyIn "time" c.1 then .error .keyError else splitAt ds []
  | some n => splitAt ds (otherTimes ds n)

/-- `set_declination` for data that is not in earth coordinates: `rot` is the effect on the orientation matrix
and `add` that on the heading. -/
def setDecSplit (rot add : α → α) (declin : Key) (ds : SplitDs α) : Except Err (SplitDs α) :=
  match pget ds.vars "orientmat".toList with
  | none => .error .keyError
  | some om =>
    let vars1 := pset ds.vars "orientmat".toList { om with val := rot om.val }
    let vars2 := match pget vars1 "heading".toList with
      | none => vars1
      | some h => pset vars1 "heading".toList { h with val := add h.val }
    .ok { ds with
          vars := vars2
          attrs := pset (pset ds.attrs "declination".toList declin) "declination_in_orientmat".toList "1".toList }

end Dolfyn
