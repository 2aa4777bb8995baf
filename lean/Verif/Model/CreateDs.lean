import Verif.Model.IoBase

/-!
Model of `_create_dataset` (dolfyn/io/base.py:113-284): the dimensions given to every variable of the
reader's dictionary, and the units given to tagged variables.

Simplifications: names are lists of characters; the values of a variable are opaque; the variables have
different names, none of them a coordinate's; the units of `orientmat` and `quaternions` exist.
-/

namespace Dolfyn

/-- A name. -/
abbrev Key := List Char

/-- `sub in key`. -/
def keyIn (sub : String) (key : Key) : Bool := decide (sub.toList <:+: key)

/-- `tag` (dolfyn/io/base.py:118). -/
def dsTags : List String := ["_avg", "_b5", "_echo", "_bt", "_gps", "_altraw", "_altraw_avg", "_sl"]

/-- `any(val in key for val in tag)`. -/
def hasTag (key : Key) : Bool := dsTags.any fun t => keyIn t key

/-- `'_' + key.rsplit('_')[-1]`. -/
def lastTag (key : Key) : Key := '_' :: afterLast '_' key

/-- `key.rsplit('_')[0]`. -/
def firstPart (key : Key) : Key := key.takeWhile fun c => c != '_'

/-- A variable of the reader's dictionary. -/
structure DVar (α : Type*) where
  key : Key
  shape : List ℕ
  data : α

/-- A variable of the dataset. -/
structure DsVar (α : Type*) where
  key : Key
  dims : List Key
  shape : List ℕ
  data : α

/-- The tag of an orientation matrix or of quaternions (dolfyn/io/base.py:155-158, 169-172). -/
def simpleTag (key : Key) : Key := if hasTag key then lastTag key else []

/-- The tag of a 1-D variable (dolfyn/io/base.py:183-188). -/
def tag1 (key : Key) : Key :=
  if keyIn "_altraw_avg" key then "_altraw_avg".toList
  else if hasTag key then lastTag key
  else []

/-- The first entry of `tag` in the name (dolfyn/io/base.py:213-217). -/
def imuTag (key : Key) : Key :=
  match dsTags.find? fun t => keyIn t key with
  | none => []
  | some t => t.toList

/-- `"time" + tg`, `"range" + tg`. -/
def timeDim (tg : Key) : Key := "time".toList ++ tg

@[inherit_doc timeDim] def rangeDim (tg : Key) : Key := "range".toList ++ tg

/-- Whether `vel`-like or `amp`-like (dolfyn/io/base.py:204-207). -/
def dim0of2 (key : Key) : Key :=
  if ["amp", "corr", "dist", "prcnt_gd"].any fun s => decide (firstPart key <:+: s.toList) then "beam".toList
  else "dir".toList

/-- One variable with `tg` from before (`none`: not bound yet) (dolfyn/io/base.py:140-249): the new `tg` and
the entry of the dataset, if there is one. `fst` is `x[0]`. -/
def createVar {α : Type*} (fst : α → α) (nBeams : ℕ) (timeBt : Bool) (tg : Option Key) (v : DVar α) :
    Except Err (Option Key × Option (DsVar α)) :=
  if keyIn "mat" v.key then
    if keyIn "inst" v.key then .ok (tg, some ⟨v.key, ["x1".toList, "x2".toList], v.shape, v.data⟩)
    else if keyIn "orientmat" v.key then
      .ok (some (simpleTag v.key),
        some ⟨v.key, ["earth".toList, "inst".toList, timeDim (simpleTag v.key)], v.shape, v.data⟩)
    else .ok (tg, none)
  else if keyIn "quaternions" v.key then
    .ok (some (simpleTag v.key), some ⟨v.key, ["q".toList, timeDim (simpleTag v.key)], v.shape, v.data⟩)
  else match v.shape with
    | [_] => .ok (some (tag1 v.key), some ⟨v.key, [timeDim (tag1 v.key)], v.shape, v.data⟩)
    | [a, _] =>
      if v.key = "echo".toList then
        .ok (tg, some ⟨v.key, ["range_echo".toList, "time_echo".toList], v.shape, v.data⟩)
      else if v.key = "samp_altraw".toList then
        .ok (tg, some ⟨v.key, ["n_altraw".toList, "time_altraw".toList], v.shape, v.data⟩)
      else if v.key = "samp_altraw_avg".toList then
        .ok (tg, some ⟨v.key, ["n_altraw_avg".toList, "time_altraw_avg".toList], v.shape, v.data⟩)
      else if a = nBeams ∧ ¬ (dsTags.take 3).any fun t => keyIn t v.key then
        let t : Key := if keyIn "bt" v.key ∧ timeBt then "_bt".toList else []
        .ok (some t, some ⟨v.key, [dim0of2 v.key, timeDim t], v.shape, v.data⟩)
      else if a = 3 then
        .ok (some (imuTag v.key),
          some ⟨v.key, ["dirIMU".toList, timeDim (imuTag v.key)], v.shape, v.data⟩)
      else match tg with
        | none => .error .unboundLocal
        | some t =>
          if keyIn "b5" t then
            .ok (tg, some ⟨v.key, ["range_b5".toList, "time_b5".toList], v.shape, v.data⟩)
          else .ok (tg, none)
    | [_, b, c] =>
      let dim0 : Key := if keyIn "vel" v.key then "dir".toList else "beam".toList
      if hasTag v.key = false ∨ keyIn "_avg" v.key = true then
        let t : Key := if keyIn "_avg" v.key then "_avg".toList else []
        .ok (some t, some ⟨v.key, [dim0, rangeDim t, timeDim t], v.shape, v.data⟩)
      else if keyIn "b5" v.key then
        .ok (tg, some ⟨v.key, ["range_b5".toList, "time_b5".toList], [b, c], fst v.data⟩)
      else if keyIn "sl" v.key then
        .ok (tg, some ⟨v.key, [dim0, "range_sl".toList, "time".toList], v.shape, v.data⟩)
      else .ok (tg, none)
    | _ => .ok (tg, none)

/-- The loop over the variables (dolfyn/io/base.py:140-249). -/
def createVars {α : Type*} (fst : α → α) (nBeams : ℕ) (timeBt : Bool) :
    Option Key → List (DVar α) → Except Err (List (DsVar α))
  | _, [] => .ok []
  | tg, v :: vs =>
    match createVar fst nBeams timeBt tg v with
    | .error e => .error e
    | .ok (tg', o) =>
      match createVars fst nBeams timeBt tg' vs with
      | .error e => .error e
      | .ok r => .ok (o.toList ++ r)

/-- The sizes of the dimensions of a variable. -/
def DsVar.sizes {α : Type*} (v : DsVar α) : List (Key × ℕ) := v.dims.zip v.shape

/-- The sizes of the coordinates that the variables bring along (dolfyn/io/base.py:149-151, 159-160,
174-175, 219-220). -/
def extraDims {α : Type*} (nBeams : ℕ) (vs : List (DsVar α)) : List (Key × ℕ) :=
  (vs.flatMap fun v => v.dims).filterMap fun d =>
    if d = "x1".toList ∨ d = "x2".toList then some (d, nBeams)
    else if d = "earth".toList ∨ d = "inst".toList ∨ d = "dirIMU".toList then some (d, 3)
    else if d = "q".toList then some (d, 4)
    else none

/-- `n_beams = max(min(beams, 4), 3)` (dolfyn/io/base.py:125-129); `n_beams_avg` wins. -/
def clampBeams (nb : ℕ) (nbAvg : Option ℕ) : ℕ := max (min (nbAvg.getD nb) 4) 3

/-- `xr.Dataset.from_dict`: every variable has as many dimensions as its array, and every dimension one
size. -/
def fromDict {α : Type*} (coords : List (Key × ℕ)) (vs : List (DsVar α)) : Except Err (List (DsVar α)) :=
  let all := coords ++ vs.flatMap DsVar.sizes
  if (∀ v ∈ vs, v.dims.length = v.shape.length) ∧ (∀ p ∈ all, ∀ q ∈ all, p.1 = q.1 → p.2 = q.2) then .ok vs
  else .error .valueError

/-- `_create_dataset` up to line 252: `coords` are the coordinates of the reader with their lengths. -/
def createDataset {α : Type*} (fst : α → α) (nb : ℕ) (nbAvg : Option ℕ) (coords : List (Key × ℕ))
    (vs : List (DVar α)) : Except Err (List (DsVar α)) :=
  let nBeams := clampBeams nb nbAvg
  match createVars fst nBeams (coords.any fun p => p.1 = "time_bt".toList) none vs with
  | .error e => .error e
  | .ok r =>
    fromDict (coords ++ [("beam".toList, nBeams), ("dir".toList, nBeams)] ++ extraDims nBeams r) r

/-- One of the attributes `units`, `long_name`, `standard_name` of a variable (dolfyn/io/base.py:255-266);
`md` is the reader's dictionary. -/
def varAttr (md : Key → Option String) (key : Key) : Option String :=
  let base := key.take (key.length - (lastTag key).length)
  if hasTag key ∧ (md base).isSome then md base else md key

end Dolfyn
