import Verif.Model.FillGaps
import Verif.Props.CreateDs
import Mathlib.Data.Rat.Defs

/-!
Filling gaps of profiles: what is kept, what is filled, and what `maxgap` does.
-/

namespace Dolfyn

variable {α : Type*}

/-- Samples `a` to `b - 1` of `n` are a gap: all missing, and the neighbours are there. -/
def Spec.IsHole (n : ℕ) (u : ℕ → Option α) (a b : ℕ) : Prop :=
  a < b ∧ b ≤ n ∧ (∀ i, a ≤ i → i < b → u i = none) ∧ (a = 0 ∨ ∃ x, u (a - 1) = some x) ∧ (b = n ∨ ∃ x, u b = some x)

/-- **C130.** Samples that are there are kept. -/
theorem fillgaps_keeps (interp : (ℕ → Option α) → ℕ → Option α) (maxgap : Option ℕ) (u : ℕ → Option α) (i : ℕ) (x : α)
    (h : u i = some x) : fillGaps interp maxgap u i = some x := by
  unfold fillGaps
  rw [h]
  rfl

/-- **C130.** Without a limit every missing sample gets its interpolated value. -/
theorem fillgaps_unlimited (interp : (ℕ → Option α) → ℕ → Option α) (u : ℕ → Option α) (i : ℕ) (h : u i = none) :
    fillGaps interp none u i = interp u i := by
  unfold fillGaps
  rw [h]
  rfl

/-- **C130.** What `maxgap` does: of each gap the first `maxgap` samples get their interpolated values, and the
others stay missing. -/
theorem fillgaps_limit (interp : (ℕ → Option α) → ℕ → Option α) (m n : ℕ) (u : ℕ → Option α) (a b i : ℕ)
    (h : Spec.IsHole n u a b) (hi : a ≤ i) (hb : i < b) :
    fillGaps interp (some m) u i = if i - a < m then interp u i else none := by
  obtain ⟨-, -, hg, ha, -⟩ := h
  unfold fillGaps
  rw [hg i hi hb]
  simp only [Option.isSome_none, Bool.false_eq_true, if_false]
  by_cases hm : i - a < m
  · rw [if_pos hm, if_pos]
    unfold nanWindow
    have hlt : ((List.range (m + 1)).filter fun j => decide (j ≤ i) && (u (i - j)).isNone).length <
        (List.range (m + 1)).length := by
      apply List.length_filter_lt_length_iff_exists.mpr
      refine ⟨i - a + 1, List.mem_range.mpr (by omega), ?_⟩
      rcases ha with ha | ⟨x, hx⟩
      · simp; omega
      · by_cases h0 : a = 0
        · simp; omega
        · have : i - (i - a + 1) = a - 1 := by omega
          simp [this, hx]
    rw [List.length_range] at hlt
    omega
  · rw [if_neg hm, if_neg]
    unfold nanWindow
    rw [List.filter_eq_self.mpr, List.length_range]
    · omega
    · intro j hj
      rw [List.mem_range] at hj
      simp only [Bool.and_eq_true, decide_eq_true_eq]
      exact ⟨by omega, by rw [hg (i - j) (by omega) (by omega)]; rfl⟩

/-- **C130.** Gaps of at most `maxgap` samples are filled. -/
theorem fillgaps_short (interp : (ℕ → Option α) → ℕ → Option α) (m n : ℕ) (u : ℕ → Option α) (a b i : ℕ)
    (h : Spec.IsHole n u a b) (hi : a ≤ i) (hb : i < b) (hm : b - a ≤ m) :
    fillGaps interp (some m) u i = interp u i := by
  rw [fillgaps_limit interp m n u a b i h hi hb, if_pos (by omega)]

/-- **C130** (refutation). `maxgap` is documented as the longest gap to interpolate across; the first samples of
every longer gap are filled all the same. -/
theorem fillgaps_maxgap_false (interp : (ℕ → Option α) → ℕ → Option α) (m n : ℕ) (u : ℕ → Option α) (a b : ℕ)
    (h : Spec.IsHole n u a b) (hm : 0 < m) (_hlong : m < b - a) (x : α) (hx : interp u a = some x) :
    u a = none ∧ fillGaps interp (some m) u a = some x := by
  refine ⟨h.2.2.1 a le_rfl h.1, ?_⟩
  rw [fillgaps_limit interp m n u a b a h le_rfl h.1, if_pos (by omega), hx]

/-- **C130.** The direction is the first one named after time (or range); data without one is refused. -/
theorem fillgaps_dim (s : String) (dims : List Key) :
    ((∀ d ∈ dims, ¬ s.toList <:+: d) → gapDim s dims = .error .indexError) ∧
    (∀ pre d post, dims = pre ++ d :: post → (∀ e ∈ pre, ¬ s.toList <:+: e) → s.toList <:+: d →
      gapDim s dims = .ok d) := by
  constructor
  · intro h
    unfold gapDim
    rw [List.filter_eq_nil_iff.mpr fun d hd => by rw [keyIn_false (h d hd)]; decide]
  · rintro pre d post rfl hp hd
    unfold gapDim
    rw [List.filter_append, List.filter_eq_nil_iff.mpr fun e he => by rw [keyIn_false (hp e he)]; decide,
      List.filter_cons_of_pos (keyIn_true hd)]
    rfl

/-- A record with a gap of three samples. -/
def exGap : ℕ → Option ℚ := fun i => if 2 ≤ i ∧ i < 5 then none else some i

theorem exGap_gap : Spec.IsHole 8 exGap 2 5 := by
  refine ⟨by omega, by omega, fun i h1 h2 => by simp [exGap, h1, h2], Or.inr ⟨1, ?_⟩, Or.inr ⟨5, ?_⟩⟩
  · simp [exGap]
  · simp [exGap]

example : exGap 2 = none ∧ fillGaps (fun _ i => some (i : ℚ)) (some 1) exGap 2 = some 2 :=
  fillgaps_maxgap_false _ 1 8 exGap 2 5 exGap_gap (by omega) (by omega) 2 rfl

example : fillGaps (fun _ i => some (i : ℚ)) (some 1) exGap 3 = none := by
  rw [fillgaps_limit _ 1 8 exGap 2 5 3 exGap_gap (by omega) (by omega)]
  rfl

example : fillGaps (fun _ i => some (i : ℚ)) (some 3) exGap 4 = some 4 :=
  fillgaps_short _ 3 8 exGap 2 5 4 exGap_gap (by omega) (by omega) (by omega)

end Dolfyn
