import Verif.Model.Ad2cpFile

/-!
Model of the averaging in `_reduce` (dolfyn/io/nortek2.py:603-611): sound speed, temperatures, pressure, battery and attitude
of a ping of a Signature with a fifth beam, from the columns of the burst (type 21) and of the fifth beam (type 24).
-/

namespace Dolfyn

/-- What a column holds before a record is written to it (`init_data` and `_nans`, dolfyn/io/nortek2_defs.py:13-19, :66-72):
zeros. The few variables of 32-bit floats, which hold NaN, are not looked at here. -/
def adBlankItems (fs : List AdField) : List AdItem :=
  fs.map fun fd => if fd.n = 1 then .num 0 else .tup (List.replicate fd.n 0)

/-- A column after `sci_data` (dolfyn/io/nortek2.py:392-401), written or not. -/
noncomputable def adColData (fl : ℤ → ℝ) (o : AdOpen) (ws : List AdWrite) (id col : ℕ) : Option (Except Err AdData) :=
  match o.readers.lookup id, o.cfg.lookup id with
  | some fs, some (config, _) =>
    some (adSci (adDefsOf id config)
      (adInto fl (adDefsOf id config) fs ((adColumn ws id col).getD (adBlankItems fs)) fun _ => none))
  | _, _ => none

/-- A number of a column; `none` when the type is not in the file. -/
noncomputable def adColNum (fl : ℤ → ℝ) (o : AdOpen) (ws : List AdWrite) (id col : ℕ) (v : AdVar) : Option ℝ :=
  match adColData fl o ws id col with
  | some (.ok d) => (d v).bind List.head?
  | _ => none

/-- A sensor of a ping (dolfyn/io/nortek2.py:603-606), the attitude excepted. -/
noncomputable def adSensor (fl : ℤ → ℝ) (o : AdOpen) (ws : List AdWrite) (v : AdVar) (col : ℕ) : Option ℝ :=
  (reduceAvg (adColNum fl o ws 21 col v) (adColNum fl o ws 24 col v)).1

/-- Heading, pitch or roll of a ping (dolfyn/io/nortek2.py:609-611). -/
noncomputable def adAttitude (fl : ℤ → ℝ) (o : AdOpen) (ws : List AdWrite) (v : AdVar) (col : ℕ) : Option ℝ :=
  (reduceAvgAngle (adColNum fl o ws 21 col v) (adColNum fl o ws 24 col v)).1

end Dolfyn
