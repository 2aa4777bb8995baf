import Verif.Model.RotateGaps
import Verif.Spec.RotatePath

/-! Vocabulary for rotations of data with missing components (C183). -/

namespace Dolfyn

open Spec

variable {T : Type}

/-- The same dataset with every missing value replaced by a number of the caller's choice. -/
noncomputable def Spec.filled (c : String → T → ℕ → ℝ) (g : GDS T) : RDS T :=
  { g.hdr with vars := g.vars.map fun v => ⟨v.name, v.n, fun t i => (v.val t i).getD (c v.name t i)⟩ }

/-- How many leading components of a variable are mixed with each other on link `k` of the chain
beam – inst – earth – principal (`0` if the link leaves the variable alone). -/
noncomputable def Spec.mixed (ds : RDS T) (name : String) (n : ℕ) : ℕ → ℕ
  | 0 => if ds.beam2inst.map (·.n) = some n then n
    else if ds.inst = .vector ∧ ds.inst2head ≠ none ∧ name = "vel" then 3 else 0
  | 1 => if ds.inst = .rdi then 3 else n
  | 2 => 2
  | _ => 0

/-- The components mixed on the way from chain position `i` to `j`: the largest number on any link. -/
noncomputable def Spec.mixedPath (ds : RDS T) (name : String) (n : ℕ) (i j : ℕ) : ℕ :=
  ((List.range' (min i j) (max i j - min i j)).map (mixed ds name n)).foldr max 0

/-- Component `i` of `w` is missing exactly if it was missing in `v`, or if it is one of the first `K` components
and one of those was missing. -/
def Spec.spreads (K : ℕ) (v w : GVar T) : Prop :=
  w.name = v.name ∧ w.n = v.n ∧
    ∀ t i, w.val t i = none ↔ (v.val t i = none ∨ (i < K ∧ ∃ j < K, v.val t j = none))

/-- Every value present in `w` is the one in `v`. -/
def Spec.agrees (v : RVar T) (w : GVar T) : Prop :=
  v.name = w.name ∧ v.n = w.n ∧ ∀ t i x, w.val t i = some x → x = v.val t i

/-- Same frame, same matrices, and every value present in `g` is the one in `ds`. -/
def Spec.within (ds : RDS T) (g : GDS T) : Prop :=
  ∃ vs, ds = { g.hdr with vars := vs } ∧ List.Forall₂ agrees vs g.vars

/-- Two outcomes: the same error, or two results in relation. -/
def Spec.sameOutcome {α β : Type} (R : α → β → Prop) : Except Err α → Except Err β → Prop
  | .ok a, .ok b => R a b
  | .error e, .error e' => e = e'
  | _, _ => False

/-- Two runs of `rotate2`: both still looping, or the same outcome. -/
def Spec.sameRun {α β : Type} (R : α → β → Prop) : Option (Except Err α) → Option (Except Err β) → Prop
  | some x, some y => sameOutcome R x y
  | none, none => True
  | _, _ => False

end Dolfyn
