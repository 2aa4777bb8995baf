import Verif.Model.Rotate

/-!
Model of the list `rotate_vars`: the rotation of Vector data name by name (dolfyn/rotate/vector.py:53-122), and how
`correct_motion` (dolfyn/adv/motion.py:395-511) extends the list in place. A dataset made by `do_avg`
(dolfyn/binned.py:123-141) or by the ADV averaging tool (dolfyn/adv/turbulence.py:45) gets the attributes of the raw
dataset one by one, so it has the same list object.

What is left out: the quantities that `correct_motion` computes are parameters (they are the subject of
`Model/Motion.lean`), and so is the orientation matrix. The checks of `correct_motion` for missing samples and for an
IMU are taken as passed, the mark `motion corrected` is taken as absent, and data that is not in the instrument frame
is taken to be in the earth frame (`rotate2` goes from principal axes through the earth frame).
-/

namespace Dolfyn

noncomputable section

/-- A dataset: the length of the first axis and the vectors of each variable, and the frame. -/
structure NDs where
  vars : String → Option (ℕ × (ℕ → Fin 3 → ℝ))
  frame : Frame

/-- `ds[nm] = ...`. -/
def NDs.put (ds : NDs) (nm : String) (v : ℕ → Fin 3 → ℝ) : NDs :=
  { ds with vars := fun k => if k = nm then some (3, v) else ds.vars k }

/-- One pass of the loop of `_inst2earth` (dolfyn/rotate/vector.py:113-118). -/
def rotOne (rm : ℕ → M3) (nm : String) (ds : NDs) : NDs × Option Err :=
  match ds.vars nm with
  | none => (ds, some .keyError)
  | some (n, v) => if n ≠ 3 then (ds, some .exception) else (ds.put nm (fun t => (rm t).mulVec (v t)), none)

/-- The loop; an error leaves what was rotated before. -/
def rotNames (rm : ℕ → M3) : List String → NDs → NDs × Option Err
  | [], ds => (ds, none)
  | nm :: l, ds =>
    match rotOne rm nm ds with
    | (ds', none) => rotNames rm l ds'
    | (ds', some e) => (ds', some e)

/-- The frames of `_inst2earth` (dolfyn/rotate/vector.py:72-80): from and to. -/
def instFrames (reverse : Bool) : Frame × Frame := if reverse then (.earth, .inst) else (.inst, .earth)

/-- The matrix that is applied (dolfyn/rotate/vector.py:74, 78, 104): the transposed orientation matrix, or with
`reverse` the matrix. -/
def instMat (reverse : Bool) (omat : ℕ → M3) : ℕ → M3 := fun t => if reverse then omat t else (omat t).transpose

/-- `_inst2earth` of a dataset without `force`. -/
def inst2earthN (reverse : Bool) (omat : ℕ → M3) (names : List String) (ds : NDs) : NDs × Option Err :=
  if ds.frame = (instFrames reverse).2 then (ds, none)
  else if ds.frame ≠ (instFrames reverse).1 then (ds, some .valueError)
  else
    match rotNames (instMat reverse omat) names ds with
    | (ds', none) => ({ ds' with frame := (instFrames reverse).2 }, none)
    | (ds', some e) => (ds', some e)

/-- What `correct_motion` computes from a dataset in the instrument frame: acceleration in earth coordinates,
translational velocity, low-passed acceleration, rotational velocity. -/
structure NTerms where
  accel : ℕ → Fin 3 → ℝ
  velacc : ℕ → Fin 3 → ℝ
  acclow : ℕ → Fin 3 → ℝ
  velrot : ℕ → Fin 3 → ℝ

/-- The sum of two series of vectors. -/
def addSeries (a b : ℕ → Fin 3 → ℝ) : ℕ → Fin 3 → ℝ := fun t i => a t i + b t i

/-- The vectors of a variable that is there. -/
def NDs.val (ds : NDs) (nm : String) : ℕ → Fin 3 → ℝ := ((ds.vars nm).map (·.2)).getD fun _ _ => 0

/-- The last part of `correct_motion` (dolfyn/adv/motion.py:490-511): keep the velocity as `vel_raw`, list it, and
add the motion. -/
def motionAdd (names : List String) (ds : NDs) : List String × NDs :=
  let ds := ds.put "vel_raw" (ds.val "vel")
  (names ++ ["vel_raw"], ds.put "vel" (addSeries (ds.val "vel") (addSeries (ds.val "velrot") (ds.val "velacc"))))

/-- The rotation inside `correct_motion` (dolfyn/adv/motion.py:473-488). With `force` the frames are not compared; the
rotation backwards does not change the label here, which is `inst` already. -/
def motionTurn (toEarth : Bool) (omat : ℕ → M3) (k : NTerms) (names : List String) (ds : NDs) : NDs × Option Err :=
  if toEarth then
    inst2earthN false omat (names.filter fun e => !(["accel", "acclow", "velacc"].contains e)) (ds.put "accel" k.accel)
  else rotNames (instMat true omat) ["acclow", "velacc"] ds

/-- `correct_motion` on a dataset whose attribute `rotate_vars` is `names`: the list afterwards, the dataset, and the
error. -/
def motionCall (toEarth : Bool) (omat : ℕ → M3) (terms : NDs → NTerms) (names : List String) (ds : NDs) :
    List String × NDs × Option Err :=
  if (ds.vars "velrot").isSome then (names, ds, some .exception)
  else
    match (if ds.frame = .inst then (ds, none) else inst2earthN true omat names ds) with
    | (ds1, some e) => (names, ds1, some e)
    | (ds1, none) =>
      let k := terms ds1
      let ds2 := ((ds1.put "velacc" k.velacc).put "acclow" k.acclow).put "velrot" k.velrot
      let names' := names ++ ["velrot", "velacc", "acclow"]
      match motionTurn toEarth omat k names' ds2 with
      | (ds3, some e) => (names', ds3, some e)
      | (ds3, none) => ((motionAdd names' ds3).1, (motionAdd names' ds3).2, none)

end

end Dolfyn
