import Mathlib.Data.List.Basic
import Mathlib.Data.List.Flatten
import Mathlib.Data.Int.Cast.Basic
import Mathlib.Algebra.Order.Ring.Rat
import Mathlib.Algebra.Order.Ring.Int

/-!
Specification vocabulary for runs, gaps and index products, independent of the model.
-/

namespace Dolfyn.Spec

/-- `l` and `r` are the valid samples on either side of an interior run of missing ones. -/
structure IsGap {α : Type*} (n : ℕ) (a : ℕ → Option α) (l r : ℕ) : Prop where
  lt : l + 1 < r
  bound : r < n
  left : a l ≠ none
  right : a r ≠ none
  between : ∀ j, l < j → j < r → a j = none

/-- `g` is the first valid sample. -/
def FirstGood {α : Type*} (n : ℕ) (a : ℕ → Option α) (g : ℕ) : Prop :=
  g < n ∧ a g ≠ none ∧ ∀ j < g, a j = none

/-- `g` is the last valid sample. -/
def LastGood {α : Type*} (n : ℕ) (a : ℕ → Option α) (g : ℕ) : Prop :=
  g < n ∧ a g ≠ none ∧ ∀ j, g < j → j < n → a j = none

/-- `x` samples are within the limit `m` (`none`: no limit). -/
def Within (x : ℕ) (m : Option ℚ) : Prop := ∀ q, m = some q → (x : ℚ) ≤ q

/-- `[u, d)` is a maximal run of true samples. -/
structure MaxRun (n : ℕ) (bl : ℕ → Bool) (u d : ℕ) : Prop where
  lt : u < d
  bound : d ≤ n
  inside : ∀ j, u ≤ j → j < d → bl j = true
  start : u = 0 ∨ bl (u - 1) = false
  stop : d = n ∨ bl d = false

/-- `L` lists exactly the maximal runs at least `m` long, from left to right. -/
def RunsOf (n : ℕ) (bl : ℕ → Bool) (m : ℤ) (L : List (ℕ × ℕ)) : Prop :=
  L.Pairwise (fun p q => p.2 < q.1) ∧
    ∀ u d, (u, d) ∈ L ↔ MaxRun n bl u d ∧ m ≤ (d : ℤ) - u

/-- All index tuples below the given dimensions in row-major order. -/
def prodIdx : List ℕ → List (List ℕ)
  | [] => [[]]
  | d :: ds => (List.range d).flatMap fun i => (prodIdx ds).map (i :: ·)

end Dolfyn.Spec
