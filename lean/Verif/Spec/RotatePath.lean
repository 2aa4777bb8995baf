import Verif.Model.Rotate

/-! What `rotate2` should do, independently of its loop: which single steps, in which order. -/

namespace Dolfyn.Spec

variable {T : Type}

/-- Position of a frame in the chain beam – inst – earth – principal. -/
inductive Pos : Frame → ℕ → Prop
  | beam : Pos .beam 0
  | inst : Pos .inst 1
  | earth : Pos .earth 2
  | principal : Pos .principal 3

/-- The single steps leading from chain position `i` to chain position `j`: `(k, false)` is the step
from position `k` to `k+1`, `(k, true)` the one from `k+1` to `k`. -/
def steps (i j : ℕ) : List (ℕ × Bool) :=
  if i < j then (List.range' i (j - i)).map (·, false)
  else (List.range' j (i - j)).reverse.map (·, true)

/-- The instrument's step function for one link of the chain. -/
noncomputable def oneStep (ds : RDS T) (s : ℕ × Bool) : Except Err (RDS T) :=
  match s with
  | (0, r) => beam2inst r ds
  | (1, r) => inst2earth r ds
  | (2, r) => earth2principal r ds
  | _ => .error .indexError

example : steps 0 3 = [(0, false), (1, false), (2, false)] := by decide
example : steps 3 1 = [(2, true), (1, true)] := by decide
example : steps 2 2 = [] := by decide

end Dolfyn.Spec

namespace Dolfyn.Spec

variable {T : Type}

/-- Everything a dataset needs in order to be rotated anywhere along the chain. -/
structure Complete (ds : RDS T) : Prop where
  known : ds.inst ≠ .unknown
  headCheck : ∃ b, checkInst2head ds = .ok b
  beam : ∃ B, ds.beam2inst = some B
  omat : ds.orientmat ≠ none ∨ ∃ m, ∀ b, ds.calcOmat b = .ok m
  heading : ds.principalHeading ≠ none
  size : ∀ v ∈ ds.vars, v.n = 3 ∨ (v.n = 4 ∧ (ds.inst = .signature ∨ ds.inst = .rdi))
  headVel : ds.inst2head ≠ none → ∀ v ∈ ds.vars, v.name = "vel" → v.n = 3

/-- Squared length of the first three components. -/
def normSq3 (v : ℕ → ℝ) : ℝ := v 0 ^ 2 + v 1 ^ 2 + v 2 ^ 2

/-- Squared length of the horizontal part. -/
def normSq2 (v : ℕ → ℝ) : ℝ := v 0 ^ 2 + v 1 ^ 2

end Dolfyn.Spec
