import Verif.Model.RdiCfg

/-!
Surface-layer profiles of TRDI files (RiverPro and StreamPro): what `cleanup` (dolfyn/io/rdi.py:1306-1323) adds to the
assembly of the dataset when a surface-layer leader was read.

The leader itself and the blocks are read in `Model/Rdi.lean` and stored in `Model/RdiVals.lean`.
-/

namespace Dolfyn

/-- `'sl' in var`, among the variables of `data_defs` (dolfyn/io/rdi_defs.py:93-101). -/
def RdName.surface : RdName → Bool
  | .velSl | .ampSl | .corrSl | .prcntGdSl | .statusSl => true
  | _ => false

/-- `range_sl` (dolfyn/io/rdi.py:1314-1316) from the last leader: number of cells, cell size and distance of the first
cell in centimetres. `round(x, 4)` of a multiple of 0.01 is the multiple. -/
def rdRangeSl (g : ℕ × ℕ × ℕ) : List ℚ :=
  (List.range g.1).map fun k : ℕ => (g.2.2 : ℚ) * (1 / 100) + k * ((g.2.1 : ℚ) * (1 / 100))

/-- The dataset and its surface-layer coordinate (absent when no leader was read). -/
structure RdSlDs where
  ds : RdDs
  rangeSl : Option (List ℚ)

/-- `cleanup` and `finalize` with a surface layer (dolfyn/io/rdi.py:1313-1323): the variables with `sl` in their name
are cut to the cells of the last leader, `vel_sl` is appended to `rotate_vars` behind `vel` (whether or not it is
there), and xarray refuses an array that is shorter than the coordinate. -/
def rdAssembleSl (junk : RdName → ℕ → ℕ → ℕ → ℚ) (cells : ℕ) (sl : Option (ℕ × ℕ × ℕ)) (m : RdMem) (o : RdOutV) :
    Except Err RdSlDs :=
  match rdAssemble junk cells m o with
  | .error e => .error e
  | .ok ds =>
    match sl with
    | none => .ok ⟨ds, none⟩
    | some g =>
      if ∃ nm ∈ ds.names, nm.surface = true ∧ min g.1 (o.rows nm) ≠ g.1 then .error .valueError
      else
        .ok ⟨{ ds with
          rotateVars := .vel :: .velSl :: ds.rotateVars.tail
          elem := fun nm b c i => if nm.surface = true ∧ g.1 ≤ c then none else ds.elem nm b c i }, some (rdRangeSl g)⟩

/-- `read_rdi` with surface layers, from the state of the new reader. -/
def rdReadSl (env : RdEnv) (junk : RdName → ℕ → ℕ → ℕ → ℚ) (bs : List ℕ) (fuel nens : ℕ) (s : RdState) (m : RdMem)
    (o : RdOutV) : Option (Except Err RdSlDs) :=
  match rdLoadV env bs fuel nens s m o with
  | none => none
  | some (.error e) => some (.error e)
  | some (.ok (t, m', o')) => some (rdAssembleSl junk (ensCells t.ens) t.sl m' o')

end Dolfyn
