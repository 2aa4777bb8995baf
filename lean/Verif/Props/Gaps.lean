import Verif.Lemmas.Gaps
import Mathlib.Algebra.Order.Field.Basic
import Mathlib.Tactic.Positivity
import Mathlib.Tactic.NormNum
import Mathlib.Tactic.LinearCombination

/-!
C33 (gap filling) and C34 (time gaps).
-/

namespace Dolfyn
open Spec

variable {K : Type*} [Field K]

/-! ### C33: fillgaps and interpgaps -/

/-- A sample array used in the examples: `[NaN, 1, NaN, NaN, 4, NaN, 6, NaN]`. -/
def gapSample : ℕ → Option ℚ := fun i => if i = 1 ∨ i = 4 ∨ i = 6 then some i else none

/-- C33: valid samples are never changed. -/
theorem fillgaps_keeps_valid (n : ℕ) (a : ℕ → Option K) (m : Option ℚ) (flg : Bool) (i : ℕ)
    (hi : i < n) (h : a i ≠ none) : fillgaps n a m flg i = a i := by
  obtain ⟨g, hg, hgi⟩ := exists_firstGood hi h
  obtain ⟨e, he, hei⟩ := exists_lastGood hi h
  unfold fillgaps
  rw [fold_gaps_keep fillStep_off _ _ _ _ _ fun l r hgap _ => not_gap_valid hgap h,
    extrapEnds_apply hg he hi, if_neg (by omega), if_neg (by omega)]

example : (fillgaps 8 gapSample none true 4 = some 4) :=
  fillgaps_keeps_valid 8 gapSample none true 4 (by norm_num) (by simp [gapSample])

/-- C33: an interior run of missing samples no longer than the limit is filled with the straight
line between its valid neighbours; a longer run stays missing. -/
theorem fillgaps_interior (n : ℕ) (a : ℕ → Option K) (m : Option ℚ) (flg : Bool) (l r i : ℕ)
    (u v : K) (h : IsGap n a l r) (hl : a l = some u) (hr : a r = some v) (h1 : l < i)
    (h2 : i < r) :
    (Within (r - l - 1) m →
      fillgaps n a m flg i = some (u + (v - u) * ((i : K) - l) / ((r : K) - l))) ∧
    (¬ Within (r - l - 1) m → fillgaps n a m flg i = none) := by
  have hlt := h.lt
  have hb := h.bound
  obtain ⟨g, hg, hgl⟩ := exists_firstGood (by omega : l < n) h.left
  obtain ⟨e, he, hre⟩ := exists_lastGood hb h.right
  have hx := gapLe_one (m := m) (by omega : 0 < r - l)
  constructor
  · intro hw
    unfold fillgaps
    rw [fold_gaps_fill fillStep_off fillStep_read n a _ m l r i h (hx.mpr hw) ⟨h1, h2⟩]
    unfold fillStep
    simp only [h1, h2, and_self, if_true]
    rw [extrapEnds_apply hg he (by omega), extrapEnds_apply hg he hb, if_neg (by omega),
      if_neg (by omega), if_neg (by omega), if_neg (by omega), hl, hr]
    simp only [Option.some.injEq]
    have e1 : ((i - (l + 1) : ℕ) : K) + 1 = (i : K) - l := by
      rw [Nat.cast_sub (by omega)]; push_cast; ring
    have e2 : ((r - l - 1 : ℕ) : K) + 1 = (r : K) - l := by
      rw [Nat.sub_sub, Nat.cast_sub (by omega)]; push_cast; ring
    rw [e1, e2]; ring
  · intro hw
    unfold fillgaps
    rw [fold_gaps_keep fillStep_off, extrapEnds_apply hg he (by omega), if_neg (by omega),
      if_neg (by omega), h.between i h1 h2]
    rintro l' r' hgap hle hi'
    obtain ⟨rfl, rfl⟩ := h.unique hgap ⟨h1, h2⟩ hi'
    exact hw (hx.mp hle)

theorem gapSample_gap : IsGap 8 gapSample 1 4 :=
  ⟨by norm_num, by norm_num, by simp [gapSample], by simp [gapSample], by
    intro j h1 h2
    have : j = 2 ∨ j = 3 := by omega
    rcases this with rfl | rfl <;> simp [gapSample]⟩

example : fillgaps 8 gapSample (some 2) false 3 = some 3 := by
  rw [(fillgaps_interior 8 gapSample (some 2) false 1 4 3 1 4 gapSample_gap (by simp [gapSample])
    (by simp [gapSample]) (by norm_num) (by norm_num)).1 (by simp [Within])]
  norm_num

example : fillgaps 8 gapSample (some 1) false 3 = none :=
  (fillgaps_interior 8 gapSample (some 1) false 1 4 3 1 4 gapSample_gap (by simp [gapSample])
    (by simp [gapSample]) (by norm_num) (by norm_num)).2 (by simp [Within])

/-- C33: missing samples before the first valid one repeat it when extrapolation is on and there
are no more of them than the limit, and stay missing otherwise. -/
theorem fillgaps_leading (n : ℕ) (a : ℕ → Option K) (m : Option ℚ) (flg : Bool) (g i : ℕ)
    (hg : FirstGood n a g) (hi : i < g) :
    (flg = true ∧ Within g m → fillgaps n a m flg i = a g) ∧
    (¬ (flg = true ∧ Within g m) → fillgaps n a m flg i = none) := by
  obtain ⟨e, he, hge⟩ := exists_lastGood hg.1 hg.2.1
  have key : fillgaps n a m flg i = if flg && gapLe g m 0 then a g else a i := by
    unfold fillgaps
    rw [fold_gaps_keep fillStep_off _ _ _ _ _ fun l r hgap _ =>
      not_gap_before hgap fun j hj => hg.2.2 j (by omega),
      extrapEnds_apply hg he (hi.trans hg.1), if_pos hi]
  rw [key]
  have hc : (flg && gapLe g m 0) = true ↔ flg = true ∧ Within g m := by
    rw [Bool.and_eq_true, gapLe_zero]
  exact ⟨fun h => if_pos (hc.mpr h), fun h => by rw [if_neg fun c => h (hc.mp c)]; exact hg.2.2 i hi⟩

/-- C33: likewise for missing samples after the last valid one. -/
theorem fillgaps_trailing (n : ℕ) (a : ℕ → Option K) (m : Option ℚ) (flg : Bool) (e i : ℕ)
    (he : LastGood n a e) (h1 : e < i) (h2 : i < n) :
    (flg = true ∧ Within (n - (e + 1)) m → fillgaps n a m flg i = a e) ∧
    (¬ (flg = true ∧ Within (n - (e + 1)) m) → fillgaps n a m flg i = none) := by
  obtain ⟨g, hg, hge⟩ := exists_firstGood he.1 he.2.1
  have key : fillgaps n a m flg i = if flg && gapLe (n - (e + 1)) m 0 then a e else a i := by
    unfold fillgaps
    rw [fold_gaps_keep fillStep_off _ _ _ _ _ fun l r hgap _ =>
      not_gap_after hgap fun j hj hjn => he.2.2 j (by omega) hjn,
      extrapEnds_apply hg he h2, if_neg (by omega), if_pos h1]
  rw [key]
  have hc : (flg && gapLe (n - (e + 1)) m 0) = true ↔ flg = true ∧ Within (n - (e + 1)) m := by
    rw [Bool.and_eq_true, gapLe_zero]
  exact ⟨fun h => if_pos (hc.mpr h), fun h => by rw [if_neg fun c => h (hc.mp c)]; exact he.2.2 i h1 h2⟩

theorem gapSample_first : FirstGood 8 gapSample 1 :=
  ⟨by norm_num, by simp [gapSample], by intro j hj; obtain rfl : j = 0 := by omega
                                        simp [gapSample]⟩

theorem gapSample_last : LastGood 8 gapSample 6 :=
  ⟨by norm_num, by simp [gapSample], by intro j hj hn; obtain rfl : j = 7 := by omega
                                        simp [gapSample]⟩

example : fillgaps 8 gapSample (some 1) true 0 = some 1 ∧
    fillgaps 8 gapSample (some 1) true 7 = some 6 ∧
    fillgaps 8 gapSample (some 1) false 7 = none := by
  refine ⟨?_, ?_, ?_⟩
  · rw [(fillgaps_leading 8 gapSample (some 1) true 1 0 gapSample_first (by norm_num)).1
      ⟨rfl, by simp [Within]⟩]; simp [gapSample]
  · rw [(fillgaps_trailing 8 gapSample (some 1) true 6 7 gapSample_last (by norm_num)
      (by norm_num)).1 ⟨rfl, by simp [Within]⟩]; simp [gapSample]
  · exact (fillgaps_trailing 8 gapSample (some 1) false 6 7 gapSample_last (by norm_num)
      (by norm_num)).2 (by simp)

/-- C33: an array without any valid sample is returned as it is. -/
theorem fillgaps_all_missing (n : ℕ) (a : ℕ → Option K) (m : Option ℚ) (flg : Bool)
    (h : ∀ i < n, a i = none) (i : ℕ) (hi : i < n) : fillgaps n a m flg i = none := by
  have h0 : goodIdx n a = [] := goodIdx_nil.mpr h
  unfold fillgaps
  rw [fold_gaps_keep fillStep_off _ _ _ _ _ fun l r hgap _ =>
    absurd (h l (by have := hgap.bound; have := hgap.lt; omega)) hgap.left]
  unfold extrapEnds
  rw [h0]
  exact h i hi

example : fillgaps 3 (fun _ => (none : Option ℚ)) none true 1 = none :=
  fillgaps_all_missing 3 _ none true (fun _ _ => rfl) 1 (by norm_num)

/-- C33: without a limit nothing between the first and the last valid sample stays missing. -/
theorem fillgaps_no_limit_fills [CharZero K] (n : ℕ) (a : ℕ → Option K) (flg : Bool) (i : ℕ)
    (hi : i < n) {g e : ℕ} (hg : FirstGood n a g) (he : LastGood n a e) (h1 : g ≤ i)
    (h2 : i ≤ e) : fillgaps n a none flg i ≠ none := by
  by_cases h : a i = none
  · have h1' : g ≠ i := fun hh => hg.2.1 (hh ▸ h)
    have h2' : i ≠ e := fun hh => he.2.1 (hh ▸ h)
    obtain ⟨l, r, hgap, hl, hr⟩ := exists_gap hg he (by omega) (by omega) h
    obtain ⟨u, hu⟩ := Option.ne_none_iff_exists'.mp hgap.left
    obtain ⟨v, hv⟩ := Option.ne_none_iff_exists'.mp hgap.right
    rw [(fillgaps_interior n a none flg l r i u v hgap hu hv hl hr).1 (by simp [Within])]
    simp
  · rw [fillgaps_keeps_valid n a none flg i hi h]; exact h

/-- C33 for `interpgaps`: valid samples are never changed. -/
theorem interpgaps_keeps_valid [DecidableEq K] (n : ℕ) (a : ℕ → Option K) (t : ℕ → K)
    (m : Option ℚ) (flg : Bool) (i : ℕ) (hi : i < n) (h : a i ≠ none) :
    interpgaps n a t m flg i = a i := by
  obtain ⟨g, hg, hgi⟩ := exists_firstGood hi h
  obtain ⟨e, he, hei⟩ := exists_lastGood hi h
  unfold interpgaps
  rw [fold_gaps_keep (interpStep_off t) _ _ _ _ _ fun l r hgap _ => not_gap_valid hgap h,
    extrapEnds_apply hg he hi, if_neg (by omega), if_neg (by omega)]

/-- C33 for `interpgaps`: interior runs within the limit get the straight line in the given
abscissae, provided the neighbours' abscissae differ. -/
theorem interpgaps_interior [DecidableEq K] (n : ℕ) (a : ℕ → Option K) (t : ℕ → K)
    (m : Option ℚ) (flg : Bool) (l r i : ℕ) (u v : K) (h : IsGap n a l r) (hl : a l = some u)
    (hr : a r = some v) (h1 : l < i) (h2 : i < r) :
    (Within (r - l - 1) m → t l ≠ t r →
      interpgaps n a t m flg i = some (u + (v - u) * (t i - t l) / (t r - t l))) ∧
    (¬ Within (r - l - 1) m → interpgaps n a t m flg i = none) := by
  have hlt := h.lt
  have hb := h.bound
  obtain ⟨g, hg, hgl⟩ := exists_firstGood (by omega : l < n) h.left
  obtain ⟨e, he, hre⟩ := exists_lastGood hb h.right
  have hx := gapLe_one (m := m) (by omega : 0 < r - l)
  constructor
  · intro hw ht
    unfold interpgaps
    rw [fold_gaps_fill (interpStep_off t) (interpStep_read t) n a _ m l r i h (hx.mpr hw) ⟨h1, h2⟩]
    unfold interpStep npDiv
    simp only [h1, h2, and_self, if_true]
    rw [extrapEnds_apply hg he (by omega), extrapEnds_apply hg he hb, if_neg (by omega),
      if_neg (by omega), if_neg (by omega), if_neg (by omega), hl, hr,
      if_neg (sub_ne_zero.mpr (Ne.symm ht))]
    simp only [Option.some.injEq]
    ring
  · intro hw
    unfold interpgaps
    rw [fold_gaps_keep (interpStep_off t), extrapEnds_apply hg he (by omega), if_neg (by omega),
      if_neg (by omega), h.between i h1 h2]
    rintro l' r' hgap hle hi'
    obtain ⟨rfl, rfl⟩ := h.unique hgap ⟨h1, h2⟩ hi'
    exact hw (hx.mp hle)

example : interpgaps 8 gapSample (fun i => (i : ℚ) ^ 2) none false 2 = some (8 / 5) := by
  rw [(interpgaps_interior 8 gapSample (fun i => (i : ℚ) ^ 2) none false 1 4 2 1 4 gapSample_gap
    (by simp [gapSample]) (by simp [gapSample]) (by norm_num) (by norm_num)).1 (by simp [Within])
    (by norm_num)]
  norm_num

/-- C33 for `interpgaps`: the ends. -/
theorem interpgaps_ends [DecidableEq K] (n : ℕ) (a : ℕ → Option K) (t : ℕ → K) (m : Option ℚ)
    (flg : Bool) (g e i : ℕ) (hg : FirstGood n a g) (he : LastGood n a e) (hi : i < n) :
    (i < g → flg = true ∧ Within g m → interpgaps n a t m flg i = a g) ∧
    (i < g → ¬ (flg = true ∧ Within g m) → interpgaps n a t m flg i = none) ∧
    (e < i → flg = true ∧ Within (n - (e + 1)) m → interpgaps n a t m flg i = a e) ∧
    (e < i → ¬ (flg = true ∧ Within (n - (e + 1)) m) → interpgaps n a t m flg i = none) := by
  have hge : g ≤ e := by
    by_contra hlt
    exact he.2.1 (hg.2.2 e (by omega))
  have key : i < g ∨ e < i → interpgaps n a t m flg i =
      if i < g then (if flg && gapLe g m 0 then a g else a i)
      else if e < i then (if flg && gapLe (n - (e + 1)) m 0 then a e else a i)
      else a i := by
    intro hor
    unfold interpgaps
    rw [fold_gaps_keep (interpStep_off t), extrapEnds_apply hg he hi]
    intro l r hgap _
    rcases hor with h | h
    · exact not_gap_before hgap fun j hj => hg.2.2 j (by omega)
    · exact not_gap_after hgap fun j hj hjn => he.2.2 j (by omega) hjn
  have hc : (flg && gapLe g m 0) = true ↔ flg = true ∧ Within g m := by
    rw [Bool.and_eq_true, gapLe_zero]
  have hc' : (flg && gapLe (n - (e + 1)) m 0) = true ↔ flg = true ∧ Within (n - (e + 1)) m := by
    rw [Bool.and_eq_true, gapLe_zero]
  refine ⟨fun h c => ?_, fun h c => ?_, fun h c => ?_, fun h c => ?_⟩
  · rw [key (.inl h), if_pos h, if_pos (hc.mpr c)]
  · rw [key (.inl h), if_pos h, if_neg fun x => c (hc.mp x)]; exact hg.2.2 i h
  · rw [key (.inr h), if_neg (by omega), if_pos h, if_pos (hc'.mpr c)]
  · rw [key (.inr h), if_neg (by omega), if_pos h, if_neg fun x => c (hc'.mp x)]; exact he.2.2 i h hi

/-- C33: on equally spaced abscissae `interpgaps` and `fillgaps` agree inside the record. -/
theorem interpgaps_eq_fillgaps [DecidableEq K] [CharZero K] (n : ℕ) (a : ℕ → Option K) (t0 dt : K)
    (hdt : dt ≠ 0) (m : Option ℚ) (flg : Bool) (i : ℕ) (hi : i < n) :
    interpgaps n a (fun i => t0 + i * dt) m flg i = fillgaps n a m flg i := by
  by_cases hall : ∀ j < n, a j = none
  · rw [fillgaps_all_missing n a m flg hall i hi]
    unfold interpgaps
    rw [fold_gaps_keep (interpStep_off _) _ _ _ _ _ fun l r hgap _ =>
      absurd (hall l (by have := hgap.bound; have := hgap.lt; omega)) hgap.left]
    unfold extrapEnds
    rw [goodIdx_nil.mpr hall]
    exact hall i hi
  · push Not at hall
    obtain ⟨j, hj, hne⟩ := hall
    obtain ⟨g, hg, -⟩ := exists_firstGood hj hne
    obtain ⟨e, he, -⟩ := exists_lastGood hj hne
    have hends := interpgaps_ends n a (fun i => t0 + i * dt) m flg g e i hg he hi
    rcases lt_or_ge i g with h | h
    · have hl := fillgaps_leading n a m flg g i hg h
      by_cases c : flg = true ∧ Within g m
      · rw [hends.1 h c, hl.1 c]
      · rw [hends.2.1 h c, hl.2 c]
    rcases lt_or_ge e i with h' | h'
    · have hl := fillgaps_trailing n a m flg e i he h' hi
      by_cases c : flg = true ∧ Within (n - (e + 1)) m
      · rw [hends.2.2.1 h' c, hl.1 c]
      · rw [hends.2.2.2 h' c, hl.2 c]
    by_cases hv : a i = none
    · have h1' : g ≠ i := fun hh => hg.2.1 (hh ▸ hv)
      have h2' : i ≠ e := fun hh => he.2.1 (hh ▸ hv)
      obtain ⟨l, r, hgap, hl, hr⟩ := exists_gap hg he (by omega) (by omega) hv
      obtain ⟨u, hu⟩ := Option.ne_none_iff_exists'.mp hgap.left
      obtain ⟨v, hv⟩ := Option.ne_none_iff_exists'.mp hgap.right
      have A := fillgaps_interior n a m flg l r i u v hgap hu hv hl hr
      have B := interpgaps_interior n a (fun i => t0 + i * dt) m flg l r i u v hgap hu hv hl hr
      have hrl : (r : K) - l ≠ 0 := sub_ne_zero.mpr (by exact_mod_cast (by omega : r ≠ l))
      by_cases c : Within (r - l - 1) m
      · rw [A.1 c, B.1 c]
        · congr 1
          have : t0 + r * dt - (t0 + l * dt) = (r - l) * dt := by ring
          rw [this]
          have : t0 + i * dt - (t0 + l * dt) = (i - l) * dt := by ring
          rw [this]
          field_simp
        · intro heq
          have : ((r : K) - l) * dt = 0 := by linear_combination -heq
          exact (mul_ne_zero hrl hdt) this
      · rw [A.2 c, B.2 c]
    · rw [fillgaps_keeps_valid n a m flg i hi hv, interpgaps_keeps_valid n a _ m flg i hi hv]

/-! ### C34: _fill_time_gaps -/

/-- Everything `_fill_time_gaps` does, in terms of the first and last valid time. -/
theorem fillTimeGaps_apply [CharZero K] (n : ℕ) (ep : ℕ → Option K) (fs : K) {g e : ℕ}
    {tg te : K} (hg : FirstGood n ep g) (he : LastGood n ep e) (htg : ep g = some tg)
    (hte : ep e = some te) :
    ∃ out, fillTimeGaps n ep fs = .ok out ∧ ∀ i < n,
      out i = if i < g then some (tg - ((g : K) - i) * (1 / fs))
        else if e < i then some (te + ((i : K) - e) * (1 / fs))
        else fillgaps n ep none false i := by
  have hgn := hg.1
  have hen := he.1
  have hge : g ≤ e := by
    by_contra hlt
    exact he.2.1 (hg.2.2 e (by omega))
  set F := fillgaps n ep none false with hF
  have hFg : F g = some tg := by rw [hF, fillgaps_keeps_valid n ep none false g hgn hg.2.1, htg]
  have hFe : F e = some te := by rw [hF, fillgaps_keeps_valid n ep none false e hen he.2.1, hte]
  have hFl : ∀ i < g, F i = none := fun i hi =>
    (fillgaps_leading n ep none false g i hg hi).2 (by simp)
  have hFt : ∀ i, e < i → i < n → F i = none := fun i hi hn =>
    (fillgaps_trailing n ep none false e i he hi hn).2 (by simp)
  have hFirst : FirstGood n F g := ⟨hgn, by simp [hFg], hFl⟩
  -- the array after the first step
  set G : ℕ → Option K := fun i => if i < g then some (tg - ((g : K) - i) * (1 / fs)) else F i
    with hG
  have hGe : G e = some te := by simp only [hG]; rw [if_neg (by omega), hFe]
  have hLast : LastGood n G e := by
    refine ⟨hen, by simp [hGe], fun j h1 h2 => ?_⟩
    simp only [hG]
    rw [if_neg (by omega), hFt j h1 h2]
  have step1 : timeStart n F (1 / fs) = .ok G := by
    unfold timeStart
    by_cases h0 : g = 0
    · have : F 0 = some tg := h0 ▸ hFg
      rw [this]
      simp only [Option.isNone_some, Bool.false_eq_true, if_false, hG]
      congr 1
      funext i
      rw [if_neg (by omega)]
    · rw [hFl 0 (by omega)]
      simp only [Option.isNone_none, if_true]
      have hne : goodIdx n F ≠ [] := fun h => hFirst.2.1 (goodIdx_nil.mp h _ hgn)
      obtain ⟨g', gs, hgs⟩ := List.exists_cons_of_ne_nil hne
      obtain rfl : g' = g := (goodIdx_cons hgs).unique hFirst
      rw [hgs]
      simp only [hFg, Option.map_some, hG]
      congr 1
      funext i
      split
      · congr 1; ring
      · rfl
  unfold fillTimeGaps
  rw [if_neg (by omega)]
  simp only [← hF]
  rw [step1]
  simp only [timeEnd]
  by_cases h1 : e = n - 1
  · refine ⟨G, ?_, ?_⟩
    · rw [← h1, hGe]; rfl
    · intro i hi
      simp only [hG]
      split
      · rfl
      · rw [if_neg (by omega)]
  · have hl1 : G (n - 1) = none := hLast.2.2 (n - 1) (by omega) (by omega)
    rw [hl1]
    simp only [Option.isNone_none, if_true]
    have hne : goodIdx n G ≠ [] := fun h => hLast.2.1 (goodIdx_nil.mp h _ hen)
    have hrev : (goodIdx n G).reverse = e :: (goodIdx n G).dropLast.reverse := by
      have hl := (goodIdx_last hne).unique hLast
      conv_lhs => rw [← List.dropLast_append_getLast hne, hl]
      simp
    rw [hrev]
    refine ⟨_, rfl, ?_⟩
    intro i hi
    simp only [hGe, Option.map_some]
    by_cases c1 : e < i
    · rw [if_pos ⟨c1, hi⟩, if_neg (by omega), if_pos c1, Nat.cast_sub c1.le]
    · rw [if_neg (by simp [c1])]
      simp only [hG]
      split
      · rfl
      · first | rfl | rw [if_neg c1]

/-- C34: with at least one valid time the result has no missing time and keeps the valid ones. -/
theorem fill_time_gaps_complete [CharZero K] (n : ℕ) (ep : ℕ → Option K) (fs : K) (k : ℕ)
    (hk : k < n) (h : ep k ≠ none) :
    ∃ out, fillTimeGaps n ep fs = .ok out ∧ (∀ i < n, out i ≠ none) ∧
      ∀ i < n, ep i ≠ none → out i = ep i := by
  obtain ⟨g, hg, hgk⟩ := exists_firstGood hk h
  obtain ⟨e, he, hke⟩ := exists_lastGood hk h
  obtain ⟨tg, htg⟩ := Option.ne_none_iff_exists'.mp hg.2.1
  obtain ⟨te, hte⟩ := Option.ne_none_iff_exists'.mp he.2.1
  obtain ⟨out, ho, hi⟩ := fillTimeGaps_apply n ep fs hg he htg hte
  refine ⟨out, ho, fun i hn => ?_, fun i hn hv => ?_⟩
  · rw [hi i hn]
    split
    · simp
    split
    · simp
    exact fillgaps_no_limit_fills n ep false i hn hg he (by omega) (by omega)
  · rw [hi i hn, if_neg fun c => hv (hg.2.2 i c), if_neg fun c => hv (he.2.2 i c hn),
      fillgaps_keeps_valid n ep none false i hn hv]

example : ∃ out, fillTimeGaps 8 gapSample 1 = .ok out ∧ (∀ i < 8, out i ≠ none) ∧
    ∀ i < 8, gapSample i ≠ none → out i = gapSample i :=
  fill_time_gaps_complete 8 gapSample 1 1 (by norm_num) (by simp [gapSample])

/-- C34: without a valid time the call fails. -/
theorem fill_time_gaps_none (n : ℕ) (ep : ℕ → Option K) (fs : K) (h : ∀ i < n, ep i = none) :
    fillTimeGaps n ep fs = .error .indexError := by
  unfold fillTimeGaps
  by_cases hn : n = 0
  · rw [if_pos hn]
  · rw [if_neg hn]
    have hall : ∀ i < n, fillgaps n ep none false i = none :=
      fun i hi => fillgaps_all_missing n ep none false h i hi
    simp only [timeStart, hall 0 (by omega), Option.isNone_none, if_true, goodIdx_nil.mpr hall]

/-- C34: if the valid times come from a clock ticking exactly `1/fs` per sample, the result is
that clock. -/
theorem fill_time_gaps_uniform [CharZero K] (n : ℕ) (ep : ℕ → Option K) (fs t0 : K) (k : ℕ)
    (hk : k < n) (h : ep k ≠ none) (hu : ∀ i < n, ∀ t, ep i = some t → t = t0 + i * (1 / fs)) :
    ∃ out, fillTimeGaps n ep fs = .ok out ∧ ∀ i < n, out i = some (t0 + i * (1 / fs)) := by
  obtain ⟨g, hg, hgk⟩ := exists_firstGood hk h
  obtain ⟨e, he, hke⟩ := exists_lastGood hk h
  obtain ⟨tg, htg⟩ := Option.ne_none_iff_exists'.mp hg.2.1
  obtain ⟨te, hte⟩ := Option.ne_none_iff_exists'.mp he.2.1
  obtain ⟨out, ho, hi⟩ := fillTimeGaps_apply n ep fs hg he htg hte
  refine ⟨out, ho, fun i hn => ?_⟩
  rw [hi i hn]
  split
  · rw [hu g hg.1 tg htg]; congr 1; ring
  split
  · rw [hu e he.1 te hte]; congr 1; ring
  by_cases hv : ep i = none
  · have h1' : g ≠ i := fun hh => hg.2.1 (hh ▸ hv)
    have h2' : i ≠ e := fun hh => he.2.1 (hh ▸ hv)
    obtain ⟨l, r, hgap, hl, hr⟩ := exists_gap hg he (by omega) (by omega) hv
    obtain ⟨u, hu'⟩ := Option.ne_none_iff_exists'.mp hgap.left
    obtain ⟨v, hv'⟩ := Option.ne_none_iff_exists'.mp hgap.right
    rw [(fillgaps_interior n ep none false l r i u v hgap hu' hv' hl hr).1 (by simp [Within])]
    have hb := hgap.bound
    have hlt := hgap.lt
    have hrl : (r : K) - l ≠ 0 := sub_ne_zero.mpr (by exact_mod_cast (by omega : r ≠ l))
    rw [hu l (by omega) u hu', hu r hb v hv']
    congr 1
    have : (t0 + ↑r * (1 / fs) - (t0 + ↑l * (1 / fs))) = (r - l) * (1 / fs) := by ring
    rw [this, mul_assoc ((r : K) - l), mul_div_cancel_left₀ _ hrl]
    ring
  · rw [fillgaps_keeps_valid n ep none false i hn hv]
    obtain ⟨t, ht⟩ := Option.ne_none_iff_exists'.mp hv
    rw [ht, hu i hn t ht]

example : ∃ out, fillTimeGaps 8 gapSample 1 = .ok out ∧ ∀ i < 8, out i = some (0 + (i : ℚ) * (1 / 1)) :=
  fill_time_gaps_uniform 8 gapSample 1 0 1 (by norm_num) (by simp [gapSample])
    (by intro i hi t ht; simp only [gapSample] at ht; split at ht <;> simp_all)

/-- C34: increasing valid times stay increasing. -/
theorem fill_time_gaps_monotone {F : Type*} [Field F] [LinearOrder F] [IsStrictOrderedRing F]
    (n : ℕ) (ep : ℕ → Option F) (fs : F) (hfs : 0 < fs) (k : ℕ) (hk : k < n) (h : ep k ≠ none)
    (hmono : ∀ i j ti tj, i < j → j < n → ep i = some ti → ep j = some tj → ti < tj) :
    ∃ out, fillTimeGaps n ep fs = .ok out ∧
      ∀ i j ti tj, i < j → j < n → out i = some ti → out j = some tj → ti < tj := by
  obtain ⟨g, hg, hgk⟩ := exists_firstGood hk h
  obtain ⟨e, he, hke⟩ := exists_lastGood hk h
  obtain ⟨tg, htg⟩ := Option.ne_none_iff_exists'.mp hg.2.1
  obtain ⟨te, hte⟩ := Option.ne_none_iff_exists'.mp he.2.1
  obtain ⟨out, ho, hi⟩ := fillTimeGaps_apply n ep fs hg he htg hte
  refine ⟨out, ho, ?_⟩
  -- it is enough to compare neighbours
  suffices hs : ∀ i ti tj, i + 1 < n → out i = some ti → out (i + 1) = some tj → ti < tj by
    obtain ⟨out', ho', hall, -⟩ := fill_time_gaps_complete n ep fs k hk h
    obtain rfl : out = out' := by rw [ho] at ho'; exact Except.ok.inj ho'
    intro i j ti tj hij hj h1 h2
    induction j, hij using Nat.le_induction generalizing tj with
    | base => exact hs i ti tj hj h1 h2
    | succ j hij ih =>
      obtain ⟨s, hs'⟩ := Option.ne_none_iff_exists'.mp (hall j (by omega))
      exact (ih s (by omega) hs').trans (hs j s tj hj hs' h2)
  intro i ti tj hn h1 h2
  have hdt : 0 < 1 / fs := by positivity
  have hge : g ≤ e := by
    by_contra hlt
    exact he.2.1 (hg.2.2 e (by omega))
  rw [hi i (by omega)] at h1
  rw [hi (i + 1) hn] at h2
  have hgv : fillgaps n ep none false g = some tg := by
    rw [fillgaps_keeps_valid n ep none false g hg.1 hg.2.1, htg]
  have hev : fillgaps n ep none false e = some te := by
    rw [fillgaps_keeps_valid n ep none false e he.1 he.2.1, hte]
  by_cases c1 : i < g
  · rw [if_pos c1] at h1
    have e1 := Option.some.inj h1
    by_cases c2 : i + 1 < g
    · rw [if_pos c2] at h2
      have e2 := Option.some.inj h2
      push_cast at e2
      rw [← e1, ← e2]; linarith
    · obtain rfl : i + 1 = g := by omega
      rw [if_neg (by omega), if_neg (by omega), hgv] at h2
      have e2 := Option.some.inj h2
      push_cast at e1
      rw [← e1, ← e2]; linarith
  rw [if_neg c1] at h1
  rw [if_neg (by omega)] at h2
  by_cases c3 : e < i + 1
  · rw [if_pos c3] at h2
    have e2 := Option.some.inj h2
    push_cast at e2
    by_cases c4 : e < i
    · rw [if_pos c4] at h1
      have e1 := Option.some.inj h1
      rw [← e1, ← e2]; linarith
    · obtain rfl : i = e := by omega
      rw [if_neg (by omega), hev] at h1
      have e1 := Option.some.inj h1
      rw [← e1, ← e2]; linarith
  rw [if_neg c3] at h2
  rw [if_neg (by omega)] at h1
  -- both neighbours are inside: compare within one segment `[l, r]`
  have seg : ∀ l r u v p q x y, IsGap n ep l r → ep l = some u → ep r = some v → l ≤ p → p < q →
      q ≤ r → fillgaps n ep none false p = some x → fillgaps n ep none false q = some y →
      x < y := by
    intro l r u v p q x y hgap hu hv hlp hpq hqr hx hy
    have hrl : (0 : F) < r - l := by
      have : (l : F) < r := by exact_mod_cast (by have := hgap.lt; omega)
      linarith
    have huv := hmono l r u v (by have := hgap.lt; omega) hgap.bound hu hv
    have val : ∀ s z, l ≤ s → s ≤ r → fillgaps n ep none false s = some z →
        z = u + (v - u) * ((s : F) - l) / (r - l) := by
      intro s z h1 h2 h3
      rcases Nat.eq_or_lt_of_le h1 with rfl | h1
      · rw [fillgaps_keeps_valid n ep none false _ (by have := hgap.bound; omega) hgap.left, hu] at h3
        rw [← Option.some.inj h3]; simp
      rcases Nat.eq_or_lt_of_le h2 with rfl | h2
      · rw [fillgaps_keeps_valid n ep none false _ hgap.bound hgap.right, hv] at h3
        rw [← Option.some.inj h3, mul_div_assoc, div_self hrl.ne']; ring
      rw [(fillgaps_interior n ep none false l r s u v hgap hu hv h1 h2).1 (by simp [Within])] at h3
      exact (Option.some.inj h3).symm
    rw [val p x hlp (by omega) hx, val q y (by omega) hqr hy]
    have hpq' : (p : F) < q := by exact_mod_cast hpq
    have : (v - u) * ((p : F) - l) / (r - l) < (v - u) * ((q : F) - l) / (r - l) := by
      apply div_lt_div_of_pos_right _ hrl
      apply mul_lt_mul_of_pos_left _ (by linarith)
      linarith
    linarith
  by_cases hv : ep i = none
  · have h1' : g ≠ i := fun hh => hg.2.1 (hh ▸ hv)
    obtain ⟨l, r, hgap, hl, hr⟩ := exists_gap hg he (by omega) (by omega) hv
    obtain ⟨u, hu'⟩ := Option.ne_none_iff_exists'.mp hgap.left
    obtain ⟨v, hv'⟩ := Option.ne_none_iff_exists'.mp hgap.right
    exact seg l r u v i (i + 1) ti tj hgap hu' hv' (by omega) (by omega) (by omega) h1 h2
  by_cases hv1 : ep (i + 1) = none
  · have h2' : i + 1 ≠ e := fun hh => he.2.1 (hh ▸ hv1)
    obtain ⟨l, r, hgap, hl, hr⟩ := exists_gap hg he (by omega) (by omega) hv1
    obtain ⟨u, hu'⟩ := Option.ne_none_iff_exists'.mp hgap.left
    obtain ⟨v, hv'⟩ := Option.ne_none_iff_exists'.mp hgap.right
    exact seg l r u v i (i + 1) ti tj hgap hu' hv' (by omega) (by omega) (by omega) h1 h2
  · rw [fillgaps_keeps_valid n ep none false _ (by omega) hv] at h1
    rw [fillgaps_keeps_valid n ep none false _ hn hv1] at h2
    exact hmono i (i + 1) ti tj (by omega) hn h1 h2

example : ∃ out, fillTimeGaps 8 gapSample 2 = .ok out ∧
    ∀ i j ti tj, i < j → j < 8 → out i = some ti → out j = some tj → ti < tj :=
  fill_time_gaps_monotone 8 gapSample 2 (by norm_num) 1 (by norm_num) (by simp [gapSample]) (by
    intro i j ti tj hij hj h1 h2
    simp only [gapSample] at h1 h2
    split at h1 <;> split at h2 <;> simp_all
    rw [← h1, ← h2]
    exact_mod_cast hij)

end Dolfyn
