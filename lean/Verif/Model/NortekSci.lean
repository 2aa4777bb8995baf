import Verif.Model.Turb

/-!
Model of the conversion to scientific units in `dolfyn/io/nortek.py`: sample times and orientation bit of
the Vector (`sci_vec_sysdata`), IMU axes (`sci_microstrain`), pressure (`sci_vec_data`).
-/

namespace Dolfyn

/-- Times of one burst of `n` samples (dolfyn/io/nortek.py:864-883); `t` has a value (epoch seconds) where
a system record was read. The first system record is skipped. A missing value (NaN) is `none`. -/
noncomputable def burstTimes (n : ℕ) (t : ℕ → Option ℝ) (fs : ℝ) (i : ℕ) : Option ℝ :=
  let inds := ((List.range n).filter fun j => (t j).isSome).drop 1
  match inds with
  | [] => (t 0).map fun t0 => t0 + i / (fs * 24 * 3600)
  | [k] => (t k).map fun tk => (i - k) / (fs * 3600 * 24) + tk
  | _ => (polyfit1 (inds.map fun k : ℕ => (k : ℝ)) (inds.map fun k => (t k).getD 0)).map
      fun p => p.1 * i + p.2

/-- Times of a file of `n` samples with `nburst` samples per burst (0: one burst)
(dolfyn/io/nortek.py:853-883). -/
noncomputable def vecTimes (n nburst : ℕ) (t : ℕ → Option ℝ) (fs : ℝ) (i : ℕ) : Option ℝ :=
  let nb := if nburst = 0 then n else nburst
  let off := i / nb * nb
  burstTimes (min nb (n - off)) (fun j => t (off + j)) fs (i - off)

/-- The clean-up of the interpolated orientation bit (dolfyn/io/nortek.py:890-893): falling slopes set the
later sample to 1, then rising slopes set the earlier one to 0; any non-zero value is `True`. -/
def orientFix (n : ℕ) (tmpd : ℕ → ℚ) (i : ℕ) : Bool :=
  if i + 1 < n ∧ 0 < tmpd (i + 1) - tmpd i then false
  else if 1 ≤ i ∧ tmpd i - tmpd (i - 1) < 0 then true
  else decide (tmpd i ≠ 0)

/-- The change of axes of IMU data (dolfyn/io/nortek.py:1017-1023), on the first index. -/
def msAxes {α : Type} [Neg α] (v : Fin 3 → α) : Fin 3 → α := ![-v 2, v 1, v 0]

/-- The further change of the orientation matrix (dolfyn/io/nortek.py:1024-1030): the third column changes
sign and the first two are exchanged. -/
def msColumns (o : Fin 3 → Fin 3 → ℝ) : Fin 3 → Fin 3 → ℝ := fun i => ![o i 1, o i 0, -o i 2]

/-- `sci_microstrain` on the orientation matrix. -/
def msOrient (o : Fin 3 → Fin 3 → ℝ) : Fin 3 → Fin 3 → ℝ := msColumns (msAxes o)

/-- Pressure in dbar from the two parts (dolfyn/io/nortek.py:770-772). -/
def vecPressure (msb lsw : ℕ) : ℚ := (msb * 65536 + lsw) / 1000

end Dolfyn
