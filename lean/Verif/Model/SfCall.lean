import Verif.Model.Turb

/-!
Model of the whole of `calc_dissipation_SF` (dolfyn/adp/turbulence.py:653-809); the pieces are in Model/Turb.lean.

Velocities and results are exact reals. The ranges are doubles (true of the Signature and TRDI readers; the ranges of an
AWAC are float32), and the cell size, the separations and their numbers are computed in double precision as in the code.
The attributes and coordinates of the results other than the separations are left out. What `np.polyfit` does with
missing values among the structure function is a parameter, and its minimum-norm solution for a single
separation is not modelled.
-/

namespace Dolfyn

/-- The results: dissipation and noise by cell and bin, structure function by cell, separation and bin. -/
structure SfOut where
  cells : ℕ
  bins : ℕ
  seps : List ℚ
  eps : ℕ → ℕ → Option ℝ
  noise : ℕ → ℕ → Option ℝ
  sf : ℕ → ℕ → ℕ → Option ℝ

/-- `bin_size = round(np.diff(rng)[0], 3)` (dolfyn/adp/turbulence.py:743): numpy multiplies by 1000, rounds and divides. -/
def sfCell (rng : ℕ → ℚ) : ℚ := fl64 ((pyRound (fl64 (fl64 (rng 1 - rng 0) * 1000)) : ℚ) / 1000)

/-- Whether some separation of the loop has the number `i` (dolfyn/adp/turbulence.py:749-752). -/
def sfHit (bin : ℚ) (m i : ℕ) : Bool := (List.range m).any fun k => sfIdx bin k == i

/-- Slope and intercept at one cell (dolfyn/adp/turbulence.py:764-772); `fitNan` stands for `np.polyfit` with
missing values. -/
noncomputable def sfLine (fitNan : List ℝ → List (Option ℝ) → Option ℝ × Option ℝ) (bin : ℚ) (R m : ℕ)
    (D : ℕ → Option ℝ) : Option ℝ × Option ℝ :=
  let ks := (List.range m).drop R
  let x := ks.map fun k : ℕ => (sfSep bin k : ℝ) ^ 2 / 3
  let y := ks.map D
  if y.all Option.isNone then (none, none)
  else if y.all Option.isSome then
    match polyfit1 x (y.map fun d => d.getD 0) with
    | none => (none, none)
    | some p => (some p.1, some p.2)
  else fitNan x y

/-- `(e/2.1)**(3/2)`: NaN for negative slopes. -/
noncomputable def sfEps (e : Option ℝ) : Option ℝ :=
  e.bind fun a => if a < 0 then none else some ((a / 2.1) ^ (3 / 2 : ℝ))

/-- `calc_dissipation_SF` of `nz` cells (`ndim`: number of dimensions of the data). `D` starts with zeros and the loop
writes the column of each separation's number, the same values each time. Numbers are positive and no larger than
`m` (`sfIdx_le`), so no column is out of bounds. -/
noncomputable def calcSF (fitNan : List ℝ → List (Option ℝ) → Option ℝ × Option ℝ) (b : Binner) (ndim : ℕ)
    (nz len : ℕ) (rng : ℕ → ℚ) (r0 r1 : ℚ) (vel : ℕ → ℕ → Option ℝ) : Except Err SfOut := do
  if ndim ≠ 2 then throw .exception
  let bm ← (List.range nz).mapM fun z => fluct b false len (vel z)
  if nz < 2 then throw .indexError
  let bin := sfCell rng
  if bin = 0 then throw (if r0 = 0 then .valueError else .overflowError)
  let R := sfFirst bin r0
  let m := sfCount bin r1
  let rows := (bm.headD ⟨0, 0, fun _ _ => none⟩).rows
  let cols := (bm.headD ⟨0, 0, fun _ _ => none⟩).cols
  if 0 < rows ∧ (List.range m).any (fun k => decide (nz < sfIdx bin k)) then throw .valueError
  let D := fun z k t =>
    if sfHit bin m (k + 1) then structFun cols (fun z j => (bm.getD z ⟨0, 0, fun _ _ => none⟩).at_ t j) z (k + 1)
    else some 0
  let line := fun z t => if z < m then (none, none) else sfLine fitNan bin R m fun k => D z k t
  return { cells := nz, bins := rows, seps := (List.range m).map fun k => sfSep bin k
           eps := fun z t => sfEps (line z t).1
           noise := fun z t => (line z t).2.bind fun a => npSqrt (a / 2)
           sf := D }

end Dolfyn
