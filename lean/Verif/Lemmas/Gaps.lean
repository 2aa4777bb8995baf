import Verif.Model.Gaps
import Verif.Spec.Gaps
import Mathlib.Tactic.Ring
import Mathlib.Tactic.Linarith
import Mathlib.Tactic.FieldSimp

/-! Helper lemmas for `Model/Gaps.lean`. -/

namespace Dolfyn
open Spec

theorem mem_goodIdx {α : Type*} {n : ℕ} {a : ℕ → Option α} {i : ℕ} :
    i ∈ goodIdx n a ↔ i < n ∧ a i ≠ none := by
  simp [goodIdx, Option.isSome_iff_ne_none]

theorem goodIdx_sorted {α : Type*} (n : ℕ) (a : ℕ → Option α) :
    (goodIdx n a).Pairwise (· < ·) :=
  List.Pairwise.filter _ List.pairwise_lt_range

/-- Consecutive entries of a strictly increasing list. -/
theorem mem_zip_tail {L : List ℕ} (h : L.Pairwise (· < ·)) (l r : ℕ) :
    (l, r) ∈ L.zip L.tail ↔ l ∈ L ∧ r ∈ L ∧ l < r ∧ ∀ j ∈ L, l < j → r ≤ j := by
  induction L with
  | nil => simp
  | cons x xs ih =>
    cases xs with
    | nil =>
      simp only [List.tail_cons, List.zip_nil_right, List.not_mem_nil, List.mem_singleton,
        false_iff]
      rintro ⟨rfl, rfl, h, -⟩
      omega
    | cons y ys =>
      have hx : ∀ z ∈ y :: ys, x < z := (List.pairwise_cons.mp h).1
      have h' := (List.pairwise_cons.mp h).2
      have hy : ∀ z ∈ ys, y < z := (List.pairwise_cons.mp h').1
      have := ih h'
      simp only [List.tail_cons] at this ⊢
      rw [List.zip_cons_cons, List.mem_cons, this]
      constructor
      · rintro (he | ⟨h1, h2, h3, h4⟩)
        · simp only [Prod.mk.injEq] at he
          obtain ⟨rfl, rfl⟩ := he
          refine ⟨by simp, by simp, hx _ (by simp), ?_⟩
          intro j hj hlj
          rcases List.mem_cons.mp hj with rfl | hj
          · omega
          · rcases List.mem_cons.mp hj with rfl | hj
            · exact le_rfl
            · exact (hy _ hj).le
        · refine ⟨List.mem_cons_of_mem _ h1, List.mem_cons_of_mem _ h2, h3, ?_⟩
          intro j hj hlj
          rcases List.mem_cons.mp hj with rfl | hj
          · have := hx _ h1; omega
          · exact h4 j hj hlj
      · rintro ⟨h1, h2, h3, h4⟩
        rcases List.mem_cons.mp h1 with rfl | h1'
        · left
          rcases List.mem_cons.mp h2 with rfl | h2
          · omega
          · have a1 := h4 y (by simp) (hx _ (by simp))
            rcases List.mem_cons.mp h2 with rfl | h2
            · rfl
            · have := hy _ h2; omega
        · right
          rcases List.mem_cons.mp h2 with rfl | h2
          · have := hx _ h1'; omega
          · exact ⟨h1', h2, h3, fun j hj => h4 j (List.mem_cons_of_mem _ hj)⟩

theorem gapLe_zero {x : ℕ} {m : Option ℚ} : gapLe x m 0 = true ↔ Within x m := by
  cases m <;> simp [gapLe, Within]

theorem gapLe_one {x : ℕ} {m : Option ℚ} (hx : 0 < x) :
    gapLe x m 1 = true ↔ Within (x - 1) m := by
  cases m with
  | none => simp [gapLe, Within]
  | some q =>
    have : ((x - 1 : ℕ) : ℚ) = (x : ℚ) - 1 := by rw [Nat.cast_sub hx]; simp
    simp [gapLe, Within, this]

/-- `gapPairs` lists exactly the interior gaps of admissible length. -/
theorem mem_gapPairs {α : Type*} {n : ℕ} {a : ℕ → Option α} {m : Option ℚ} {l r : ℕ} :
    (l, r) ∈ gapPairs n a m ↔ IsGap n a l r ∧ gapLe (r - l) m 1 = true := by
  unfold gapPairs
  simp only [List.mem_filter, mem_zip_tail (goodIdx_sorted n a), mem_goodIdx, Bool.and_eq_true,
    decide_eq_true_eq]
  constructor
  · rintro ⟨⟨⟨h1, h2⟩, ⟨h3, h4⟩, h5, h6⟩, h7, h8⟩
    refine ⟨⟨by omega, h3, h2, h4, ?_⟩, h8⟩
    intro j hj hjr
    by_contra hne
    have := h6 j ⟨by omega, hne⟩ hj
    omega
  · rintro ⟨⟨h1, h2, h3, h4, h5⟩, h8⟩
    refine ⟨⟨⟨by omega, h3⟩, ⟨h2, h4⟩, by omega, ?_⟩, by omega, h8⟩
    rintro j ⟨hj, hne⟩ hlj
    by_contra hlt
    exact hne (h5 j hlj (by omega))

/-- A gap around a position is unique. -/
theorem Spec.IsGap.unique {α : Type*} {n : ℕ} {a : ℕ → Option α} {l r l' r' i : ℕ}
    (h : IsGap n a l r) (h' : IsGap n a l' r') (hi : l < i ∧ i < r) (hi' : l' < i ∧ i < r') :
    l = l' ∧ r = r' := by
  have h1 : ¬ l < l' := fun hlt => h'.left (h.between l' hlt (by omega))
  have h2 : ¬ l' < l := fun hlt => h.left (h'.between l hlt (by omega))
  have h3 : ¬ r < r' := fun hlt => h.right (h'.between r (by omega) hlt)
  have h4 : ¬ r' < r := fun hlt => h'.right (h.between r' (by omega) hlt)
  omega

/-- A loop over gaps whose body writes only strictly inside the gap: other positions keep their
value. -/
theorem fold_keep {K : Type*} {f : (ℕ → Option K) → ℕ × ℕ → ℕ → Option K}
    (hf : ∀ a p i, ¬ (p.1 < i ∧ i < p.2) → f a p i = a i)
    (ps : List (ℕ × ℕ)) (a : ℕ → Option K) (i : ℕ)
    (h : ∀ p ∈ ps, ¬ (p.1 < i ∧ i < p.2)) : ps.foldl f a i = a i := by
  induction ps generalizing a with
  | nil => rfl
  | cons p ps ih =>
    rw [List.foldl_cons, ih _ fun q hq => h q (List.mem_cons_of_mem _ hq), hf _ _ _ (h p (by simp))]

/-- ... and inside a gap the loop writes what its body computes from the original ends. -/
theorem fold_fill {K : Type*} {f : (ℕ → Option K) → ℕ × ℕ → ℕ → Option K}
    (hf : ∀ a p i, ¬ (p.1 < i ∧ i < p.2) → f a p i = a i)
    (hread : ∀ a a' p i, p.1 < i → i < p.2 → a p.1 = a' p.1 → a p.2 = a' p.2 → f a p i = f a' p i)
    (ps : List (ℕ × ℕ)) (a : ℕ → Option K) (p : ℕ × ℕ) (i : ℕ) (hp : p ∈ ps)
    (hi : p.1 < i ∧ i < p.2)
    (huniq : ∀ q ∈ ps, q.1 < i ∧ i < q.2 → q = p)
    (hend : ∀ q ∈ ps, ¬ (q.1 < p.1 ∧ p.1 < q.2) ∧ ¬ (q.1 < p.2 ∧ p.2 < q.2)) :
    ps.foldl f a i = f a p i := by
  induction ps generalizing a with
  | nil => simp at hp
  | cons q qs ih =>
    rw [List.foldl_cons]
    by_cases hmem : p ∈ qs
    · rw [ih _ hmem (fun r hr => huniq r (List.mem_cons_of_mem _ hr))
        (fun r hr => hend r (List.mem_cons_of_mem _ hr))]
      exact hread _ _ _ _ hi.1 hi.2 (hf _ _ _ (hend q (by simp)).1) (hf _ _ _ (hend q (by simp)).2)
    · have hq : p = q := by simpa [hmem] using hp
      subst hq
      apply fold_keep hf
      intro r hr hri
      have := huniq r (List.mem_cons_of_mem _ hr) hri
      exact hmem (this ▸ hr)

theorem fillStep_off {K : Type*} [Field K] (a : ℕ → Option K) (p : ℕ × ℕ) (i : ℕ)
    (h : ¬ (p.1 < i ∧ i < p.2)) : fillStep a p i = a i := by
  simp [fillStep, h]

theorem fillStep_read {K : Type*} [Field K] (a a' : ℕ → Option K) (p : ℕ × ℕ) (i : ℕ)
    (h1 : p.1 < i) (h2 : i < p.2) (e1 : a p.1 = a' p.1) (e2 : a p.2 = a' p.2) :
    fillStep a p i = fillStep a' p i := by
  simp [fillStep, h1, h2, e1, e2]

theorem interpStep_off {K : Type*} [Field K] [DecidableEq K] (t : ℕ → K) (a : ℕ → Option K)
    (p : ℕ × ℕ) (i : ℕ) (h : ¬ (p.1 < i ∧ i < p.2)) : interpStep t a p i = a i := by
  simp only [interpStep, if_neg h]

theorem interpStep_read {K : Type*} [Field K] [DecidableEq K] (t : ℕ → K) (a a' : ℕ → Option K)
    (p : ℕ × ℕ) (i : ℕ) (h1 : p.1 < i) (h2 : i < p.2) (e1 : a p.1 = a' p.1)
    (e2 : a p.2 = a' p.2) : interpStep t a p i = interpStep t a' p i := by
  simp only [interpStep, h1, h2, e1, e2, and_self, if_true]

/-- Interior facts shared by both interpolators. -/
theorem fold_gaps_keep {K : Type*} {f : (ℕ → Option K) → ℕ × ℕ → ℕ → Option K}
    (hf : ∀ a p i, ¬ (p.1 < i ∧ i < p.2) → f a p i = a i)
    (n : ℕ) (a b : ℕ → Option K) (m : Option ℚ) (i : ℕ)
    (h : ∀ l r, IsGap n a l r → gapLe (r - l) m 1 = true → ¬ (l < i ∧ i < r)) :
    (gapPairs n a m).foldl f b i = b i := by
  apply fold_keep hf
  rintro ⟨l, r⟩ hp
  rw [mem_gapPairs] at hp
  exact h l r hp.1 hp.2

theorem fold_gaps_fill {K : Type*} {f : (ℕ → Option K) → ℕ × ℕ → ℕ → Option K}
    (hf : ∀ a p i, ¬ (p.1 < i ∧ i < p.2) → f a p i = a i)
    (hread : ∀ a a' p i, p.1 < i → i < p.2 → a p.1 = a' p.1 → a p.2 = a' p.2 → f a p i = f a' p i)
    (n : ℕ) (a b : ℕ → Option K) (m : Option ℚ) (l r i : ℕ)
    (h : IsGap n a l r) (hm : gapLe (r - l) m 1 = true) (hi : l < i ∧ i < r) :
    (gapPairs n a m).foldl f b i = f b (l, r) i := by
  apply fold_fill hf hread _ _ (l, r) i (mem_gapPairs.mpr ⟨h, hm⟩) hi
  · rintro ⟨l', r'⟩ hq hi'
    rw [mem_gapPairs] at hq
    obtain ⟨rfl, rfl⟩ := h.unique hq.1 hi hi'
    rfl
  · rintro ⟨l', r'⟩ hq
    rw [mem_gapPairs] at hq
    exact ⟨fun hh => h.left (hq.1.between _ hh.1 hh.2), fun hh => h.right (hq.1.between _ hh.1 hh.2)⟩

theorem goodIdx_nil {α : Type*} {n : ℕ} {a : ℕ → Option α} :
    goodIdx n a = [] ↔ ∀ i < n, a i = none := by
  rw [List.eq_nil_iff_forall_not_mem]
  simp only [mem_goodIdx, not_and, not_not]

theorem goodIdx_cons {α : Type*} {n : ℕ} {a : ℕ → Option α} {g : ℕ} {gs : List ℕ}
    (h : goodIdx n a = g :: gs) : FirstGood n a g := by
  have hm : g ∈ goodIdx n a := by rw [h]; simp
  rw [mem_goodIdx] at hm
  refine ⟨hm.1, hm.2, fun j hj => ?_⟩
  by_contra hne
  have hjm : j ∈ goodIdx n a := mem_goodIdx.mpr ⟨by omega, hne⟩
  have hs := goodIdx_sorted n a
  rw [h] at hjm hs
  rcases List.mem_cons.mp hjm with rfl | hjm
  · omega
  · have := (List.pairwise_cons.mp hs).1 j hjm; omega

theorem goodIdx_last {α : Type*} {n : ℕ} {a : ℕ → Option α} (h : goodIdx n a ≠ []) :
    LastGood n a ((goodIdx n a).getLast h) := by
  have hm := List.getLast_mem h
  rw [mem_goodIdx] at hm
  refine ⟨hm.1, hm.2, fun j hj hjn => ?_⟩
  by_contra hne
  have hjm : j ∈ goodIdx n a := mem_goodIdx.mpr ⟨by omega, hne⟩
  have hs := goodIdx_sorted n a
  have hdec := List.dropLast_append_getLast h
  rw [← hdec, List.pairwise_append] at hs
  rw [← hdec, List.mem_append, List.mem_singleton] at hjm
  rcases hjm with hjm | hjm
  · have := hs.2.2 j hjm _ (List.mem_singleton.mpr rfl); omega
  · omega

theorem Spec.FirstGood.unique {α : Type*} {n : ℕ} {a : ℕ → Option α} {g g' : ℕ}
    (h : FirstGood n a g) (h' : FirstGood n a g') : g = g' := by
  by_contra hne
  rcases Nat.lt_or_gt_of_ne hne with hlt | hlt
  · exact h.2.1 (h'.2.2 _ hlt)
  · exact h'.2.1 (h.2.2 _ hlt)

theorem Spec.LastGood.unique {α : Type*} {n : ℕ} {a : ℕ → Option α} {g g' : ℕ}
    (h : LastGood n a g) (h' : LastGood n a g') : g = g' := by
  by_contra hne
  rcases Nat.lt_or_gt_of_ne hne with hlt | hlt
  · exact h'.2.1 (h.2.2 _ hlt h'.1)
  · exact h.2.1 (h'.2.2 _ hlt h.1)

/-- What the extrapolation of the ends does, pointwise. -/
theorem extrapEnds_apply {α : Type*} {n : ℕ} {a : ℕ → Option α} {m : Option ℚ} {flg : Bool}
    {g e : ℕ} (hg : FirstGood n a g) (he : LastGood n a e) {i : ℕ} (hi : i < n) :
    extrapEnds n a m flg i =
      if i < g then (if flg && gapLe g m 0 then a g else a i)
      else if e < i then (if flg && gapLe (n - (e + 1)) m 0 then a e else a i)
      else a i := by
  unfold extrapEnds
  have hne : goodIdx n a ≠ [] := fun h0 => hg.2.1 (goodIdx_nil.mp h0 _ hg.1)
  obtain ⟨g', gs, hgs⟩ := List.exists_cons_of_ne_nil hne
  obtain rfl : g' = g := (goodIdx_cons hgs).unique hg
  have hlast : (g' :: gs).getLast (by simp) = e := by
    have h1 := goodIdx_last hne
    have h2 : (goodIdx n a).getLast hne = (g' :: gs).getLast (by simp) := by simp only [hgs]
    rw [h2] at h1
    exact h1.unique he
  have hge : g' ≤ e := by
    by_contra hlt
    exact he.2.1 (hg.2.2 e (by omega))
  rw [hgs]
  simp only [hlast]
  cases flg with
  | false => simp
  | true =>
    simp only [if_true, Bool.true_and]
    have hen : e ≠ n := by have := he.1; omega
    have hge' : ¬ e < g' := by omega
    rcases Nat.lt_trichotomy e i with c5 | rfl | c5
    · have c4 : ¬ i < g' := by omega
      by_cases c2 : gapLe (n - (e + 1)) m 0 = true <;>
      by_cases c1 : gapLe g' m 0 = true <;> by_cases c3 : g' = 0 <;>
      simp [c1, c2, c3, c4, c5, c5.le, hen, hge', setRange, hi]
    · by_cases c2 : gapLe (n - (e + 1)) m 0 = true <;>
      by_cases c1 : gapLe g' m 0 = true <;> by_cases c3 : g' = 0 <;>
      simp [c1, c2, c3, hen, hge', setRange]
    · have c6 : ¬ e < i := by omega
      have c7 : ¬ e ≤ i := by omega
      by_cases c4 : i < g'
      · have c3 : g' ≠ 0 := by omega
        by_cases c2 : gapLe (n - (e + 1)) m 0 = true <;>
        by_cases c1 : gapLe g' m 0 = true <;>
        simp [c1, c2, c3, c4, c7, hen, setRange]
      · by_cases c2 : gapLe (n - (e + 1)) m 0 = true <;>
        by_cases c1 : gapLe g' m 0 = true <;> by_cases c3 : g' = 0 <;>
        simp [c1, c2, c3, c4, c6, c7, hen, setRange]

/-- Before the first and after the last valid sample there is no interior gap. -/
theorem not_gap_before {α : Type*} {n : ℕ} {a : ℕ → Option α} {l r i : ℕ}
    (h : IsGap n a l r) (hi : ∀ j, j ≤ i → a j = none) : ¬ (l < i ∧ i < r) :=
  fun hh => h.left (hi _ hh.1.le)

theorem not_gap_after {α : Type*} {n : ℕ} {a : ℕ → Option α} {l r i : ℕ}
    (h : IsGap n a l r) (hi : ∀ j, i ≤ j → j < n → a j = none) : ¬ (l < i ∧ i < r) :=
  fun hh => h.right (hi _ hh.2.le h.bound)

theorem not_gap_valid {α : Type*} {n : ℕ} {a : ℕ → Option α} {l r i : ℕ}
    (h : IsGap n a l r) (hi : a i ≠ none) : ¬ (l < i ∧ i < r) :=
  fun hh => hi (h.between _ hh.1 hh.2)

theorem exists_firstGood {α : Type*} {n : ℕ} {a : ℕ → Option α} {i : ℕ} (hi : i < n)
    (h : a i ≠ none) : ∃ g, FirstGood n a g ∧ g ≤ i := by
  classical
  have hex : ∃ g, g < n ∧ a g ≠ none := ⟨i, hi, h⟩
  refine ⟨Nat.find hex, ⟨(Nat.find_spec hex).1, (Nat.find_spec hex).2, ?_⟩, Nat.find_min' hex ⟨hi, h⟩⟩
  intro j hj
  by_contra hne
  exact Nat.find_min hex hj ⟨hj.trans (Nat.find_spec hex).1, hne⟩

theorem exists_lastGood {α : Type*} {n : ℕ} {a : ℕ → Option α} {i : ℕ} (hi : i < n)
    (h : a i ≠ none) : ∃ g, LastGood n a g ∧ i ≤ g := by
  have hne : goodIdx n a ≠ [] := fun h0 => h (goodIdx_nil.mp h0 _ hi)
  refine ⟨_, goodIdx_last hne, ?_⟩
  by_contra hlt
  exact h ((goodIdx_last hne).2.2 i (by omega) hi)

/-- Nearest valid neighbour to the left. -/
theorem exists_prev {α : Type*} {a : ℕ → Option α} {g i : ℕ} (hg : g < i) (h : a g ≠ none) :
    ∃ l, l < i ∧ a l ≠ none ∧ ∀ j, l < j → j < i → a j = none := by
  obtain ⟨l, h1, h2⟩ := exists_lastGood (n := i) hg h
  exact ⟨l, h1.1, h1.2.1, h1.2.2⟩

theorem exists_next {α : Type*} {a : ℕ → Option α} {g i : ℕ} (hg : i < g) (h : a g ≠ none) :
    ∃ r, i < r ∧ r ≤ g ∧ a r ≠ none ∧ ∀ j, i < j → j < r → a j = none := by
  classical
  have hex : ∃ r, i < r ∧ a r ≠ none := ⟨g, hg, h⟩
  refine ⟨Nat.find hex, (Nat.find_spec hex).1, Nat.find_min' hex ⟨hg, h⟩, (Nat.find_spec hex).2, ?_⟩
  intro j h1 h2
  by_contra hne
  exact Nat.find_min hex h2 ⟨h1, hne⟩

/-- Every missing sample between two valid ones lies in an interior gap. -/
theorem exists_gap {α : Type*} {n : ℕ} {a : ℕ → Option α} {g e i : ℕ} (hg : FirstGood n a g)
    (he : LastGood n a e) (h1 : g < i) (h2 : i < e) (hi : a i = none) :
    ∃ l r, IsGap n a l r ∧ l < i ∧ i < r := by
  obtain ⟨l, a1, a2, a3⟩ := exists_prev h1 hg.2.1
  obtain ⟨r, b1, b2, b3, b4⟩ := exists_next h2 he.2.1
  refine ⟨l, r, ⟨by omega, by have := he.1; omega, a2, b3, ?_⟩, a1, b1⟩
  intro j h3 h4
  rcases Nat.lt_trichotomy j i with h5 | rfl | h5
  · exact a3 j h3 h5
  · exact hi
  · exact b4 j h5 h4

end Dolfyn
