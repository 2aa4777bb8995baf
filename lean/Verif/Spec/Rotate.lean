import Verif.Model.Rotate

/-!
Specification vocabulary for rotations.
-/

namespace Dolfyn.Spec

variable {T : Type}

/-- Orthonormal matrix: its transpose is its inverse. -/
def Orthonormal {n : ℕ} (M : Matrix (Fin n) (Fin n) ℝ) : Prop := M * M.transpose = 1

/-- Proper rotation. -/
def IsRotation {n : ℕ} (M : Matrix (Fin n) (Fin n) ℝ) : Prop := Orthonormal M ∧ M.det = 1

/-- `m` is a matrix series the dataset may use as its orientation: the stored one, or the one
computed from heading/pitch/roll when none is stored. -/
def UsesOmat (ds : RDS T) (m : T → M3) : Prop :=
  ds.orientmat = some m ∨ (ds.orientmat = none ∧ ∃ b, ds.calcOmat b = .ok m)

/-- Physical well-formedness of the dataset's matrices: orientation and head matrices orthonormal, beam matrix
invertible; for Signatures, no sample lies exactly on its side (the 4-row matrix has
determinant `omat[2,2] * det(omat)`). -/
structure Rotatable (ds : RDS T) : Prop where
  omat : ∀ m, UsesOmat ds m → ∀ t, Orthonormal (m t)
  tilt : ds.inst = .signature → ∀ m, UsesOmat ds m → ∀ t, m t 2 2 ≠ 0
  beam : ∀ B, ds.beam2inst = some B → B.mat.det ≠ 0
  head : ∀ R, ds.inst2head = some R → Orthonormal R

end Dolfyn.Spec
