import Verif.Props.CleanDs
import Verif.Props.AdpClean
import Verif.Props.Clean
import Verif.Props.FillGaps
import Verif.Props.MedOrient

/-!
Cleaning again, or in another order (C170).
-/

namespace Dolfyn

/-! ### correlation_filter -/

section corr
variable {K : Type*} [Field K] [LinearOrder K] [IsStrictOrderedRing K]

/-- **C170.** The same of `correlation_filter` for data that is not in beam coordinates, with the correlation the first
call leaves. -/
theorem corr_filter_rotated_twice {n : ℕ} (M Minv : Matrix (Fin n) (Fin n) K) (hM : M * Minv = 1) (thresh : K)
    (fc : Bool) (corr vel : Fin n → Option K) :
    corrFilterRotated M Minv thresh (fun b => maskWrite fc none (corrBad thresh (corr b) = true) (corr b))
        (corrFilterRotated M Minv thresh corr vel) = corrFilterRotated M Minv thresh corr vel := by
  have allnone : ∀ (c v : Fin n → Option K), (∃ j, v j = none) → corrFilterRotated M Minv thresh c v = fun _ => none := by
    rintro c v ⟨j, hj⟩
    funext i
    unfold corrFilterRotated
    refine nanMulVec_none M _ j ?_ i
    unfold maskWrite
    rw [nanMulVec_none Minv v j hj j]
    split <;> rfl
  by_cases hv : ∃ j, vel j = none
  · rw [allnone corr vel hv]
    obtain ⟨j, -⟩ := hv
    rw [allnone _ _ ⟨j, rfl⟩]
  · have hs : ∃ w : Fin n → K, vel = fun j => some (w j) := by
      refine ⟨fun j => (vel j).getD 0, ?_⟩
      funext j
      rcases hj : vel j with _ | x
      · exact absurd ⟨j, hj⟩ hv
      · simp [hj]
    obtain ⟨w, rfl⟩ := hs
    obtain ⟨g1, g2⟩ := corr_filter_rotated M Minv hM thresh corr w
    by_cases hb : ∃ b x, corr b = some x ∧ x ≤ thresh
    · have := g2 hb
      obtain ⟨b, -⟩ := hb
      rw [show corrFilterRotated M Minv thresh corr (fun j => some (w j)) = fun _ => none from funext this]
      rw [allnone _ _ ⟨b, rfl⟩]
    · have hgood : ∀ b x, corr b = some x → thresh < x := by
        intro b x hx
        by_contra hc
        exact hb ⟨b, x, hx, not_lt.mp hc⟩
      rw [g1 hgood]
      have hc : (fun b => maskWrite fc none (corrBad thresh (corr b) = true) (corr b)) = corr := by
        funext b
        unfold maskWrite
        rw [if_neg]
        rcases hx : corr b with _ | x
        · simp [corrBad]
        · simp [corrBad, hgood b x hx]
      rw [hc, g1 hgood]

/-- One cell blanked by `nan_beyond_surface` (dolfyn/adp/clean.py:237-243), in all beams. -/
def surfCell (val : Option K) (fv fc fa : Bool) (c : CorrCell K) : CorrCell K :=
  { vel := fun b => maskWrite fv val True (c.vel b)
    corr := fun b => maskWrite fc val True (c.corr b)
    amp := fun b => maskWrite fa val True (c.amp b) }

/-- **C170.** Blanking cells beyond the surface with NaN and blanking cells of low correlation give the same in either
order, for float and integer arrays. -/
theorem corr_surface_commute (thresh : K) (fv fc fa : Bool) (c : CorrCell K) :
    corrMask thresh fv fc fa (surfCell none fv fc fa c) = surfCell none fv fc fa (corrMask thresh fv fc fa c) := by
  unfold corrMask surfCell maskWrite
  simp only [if_true]
  congr 1
  all_goals
    funext b
    split_ifs <;> rfl

/-- **C170** is false when cells beyond the surface are blanked with a number: a number not above the threshold counts as
a low correlation afterwards, so that the velocity is NaN in one order and the number in the other. -/
theorem corr_surface_order_false (thresh v : K) (hv : v ≤ thresh) (fc fa : Bool) (c : CorrCell K) (b : ℕ) :
    (corrMask thresh true fc fa (surfCell (some v) true fc fa c)).vel b = none ∧
      (surfCell (some v) true fc fa (corrMask thresh true fc fa c)).vel b = some v := by
  constructor
  · unfold corrMask surfCell maskWrite
    simp only [if_true]
    rw [if_pos]
    cases fc <;> simp [corrBad, hv]
  · simp [surfCell, maskWrite]
end corr

/-! ### fill_nan_ensemble_mean -/

theorem nanmean_filled {ι : Type*} (x : ι → Option ℝ) (p : ι → Bool) (m : Option ℝ) : ∀ l : List ι,
    ∃ k : ℕ, ((l.map fun j => match x j with | some v => some v | none => if p j then m else none).reduceOption).length =
        ((l.map x).reduceOption).length + (if m.isSome then k else 0) ∧
      ((l.map fun j => match x j with | some v => some v | none => if p j then m else none).reduceOption).sum =
        ((l.map x).reduceOption).sum + (if m.isSome then k * m.getD 0 else 0)
  | [] => ⟨0, by simp⟩
  | a :: l => by
    obtain ⟨k, h1, h2⟩ := nanmean_filled x p m l
    rcases hx : x a with _ | v
    · cases hp : p a with
      | false =>
        refine ⟨k, ?_, ?_⟩ <;>
        simp only [List.map_cons, hx, hp, List.reduceOption_cons_of_none, Bool.false_eq_true, if_false, h1, h2]
      | true =>
        rcases m with _ | m
        · refine ⟨k, ?_, ?_⟩ <;>
          simp only [List.map_cons, hx, hp, List.reduceOption_cons_of_none, if_true, h1, h2]
        · refine ⟨k + 1, ?_, ?_⟩
          · simp only [List.map_cons, hx, hp, List.reduceOption_cons_of_none, List.reduceOption_cons_of_some, if_true,
              List.length_cons, h1, Option.isSome_some]
            omega
          · simp only [List.map_cons, hx, hp, List.reduceOption_cons_of_none, List.reduceOption_cons_of_some, if_true,
              List.sum_cons, h2, Option.isSome_some, Option.getD_some]
            push_cast
            ring
    · refine ⟨k, ?_, ?_⟩
      · simp only [List.map_cons, hx, List.reduceOption_cons_of_some, List.length_cons, h1]
        omega
      · simp only [List.map_cons, hx, List.reduceOption_cons_of_some, List.sum_cons, h2]
        ring

theorem nanmean_fixed {ι : Type*} (x : ι → Option ℝ) (p : ι → Bool) (l : List ι) :
    nanmean (l.map fun j => match x j with
      | some v => some v
      | none => if p j then nanmean (l.map x) else none) = nanmean (l.map x) := by
  obtain ⟨k, h1, h2⟩ := nanmean_filled x p (nanmean (l.map x)) l
  by_cases he : (l.map x).reduceOption = []
  · have hm : nanmean (l.map x) = none := by unfold nanmean; simp only [he, if_true]
    rw [hm] at h1 h2 ⊢
    have h3 : ((l.map fun j => match x j with | some v => some v | none => if p j then none else none).reduceOption) = [] := by
      rw [← List.length_eq_zero_iff, h1, he]; rfl
    unfold nanmean
    simp only
    rw [if_pos h3]
  · have hm : nanmean (l.map x) = some (((l.map x).reduceOption).sum / ((l.map x).reduceOption).length) := by
      unfold nanmean; simp only [he, if_false]
    rw [hm] at h1 h2 ⊢
    simp only [Option.isSome_some, if_true, Option.getD_some] at h1 h2
    have hpos : 0 < ((l.map x).reduceOption).length := List.length_pos_iff.mpr he
    set A := (l.map fun j => match x j with
      | some v => some v
      | none => if p j then some (((l.map x).reduceOption).sum / ((l.map x).reduceOption).length) else none) with hA
    have hne : A.reduceOption ≠ [] := by
      intro h
      rw [h] at h1
      simp at h1
      omega
    unfold nanmean
    simp only
    rw [if_neg hne, h1, h2]
    congr 1
    have hq : (((l.map x).reduceOption).length : ℝ) ≠ 0 := by exact_mod_cast hpos.ne'
    have hq2 : (((l.map x).reduceOption).length : ℝ) + k ≠ 0 := by positivity
    push_cast
    field_simp

/-- **C170.** Filling with the means of the windows a second time with the same mask changes nothing. -/
theorem fill_ens_mean_twice (n nb : ℕ) (hnb : 0 < nb) (hn : nb ≤ n) (u : ℕ → Option ℝ) (mask : ℕ → Bool) :
    ∃ r s, fillEnsMean n nb u mask = .ok r ∧ fillEnsMean n nb r mask = .ok s ∧ ∀ i < n, s i = r i := by
  obtain ⟨r, h1, h2⟩ := fill_ens_mean_spec n nb hnb hn u mask
  obtain ⟨s, h3, h4⟩ := fill_ens_mean_spec n nb hnb hn r mask
  refine ⟨r, s, h1, h3, ?_⟩
  intro i hi
  set x : ℕ → Option ℝ := fun j => if mask j then none else u j with hx
  have hwin : nanmean (Spec.windowOf n nb (fun j => if mask j then none else r j) i) =
      nanmean (Spec.windowOf n nb x i) := by
    refine Eq.trans ?_ (nanmean_fixed x (fun j => !mask j) ((List.range n).filter fun j => decide (j / nb = i / nb)))
    unfold Spec.windowOf
    congr 1
    apply List.map_congr_left
    intro j hj
    rw [List.mem_filter, List.mem_range] at hj
    have hw : Spec.windowOf n nb x j = Spec.windowOf n nb x i := by
      unfold Spec.windowOf
      have := of_decide_eq_true hj.2
      simp only [this]
    have e := h2 j hj.1
    rw [hw] at e
    change r j = match x j with | some v => some v | none => nanmean (Spec.windowOf n nb x i) at e
    cases hm : mask j with
    | true => simp [hx, hm]
    | false =>
      have hxj : x j = u j := by simp [hx, hm]
      simp only [Bool.false_eq_true, if_false, e]
      rcases x j with _ | v <;> rfl
  have e1 := h2 i hi
  have e2 := h4 i hi
  rw [hwin] at e2
  change r i = match x i with | some v => some v | none => nanmean (Spec.windowOf n nb x i) at e1
  rw [e2]
  cases hm : mask i with
  | true =>
    have hxi : x i = none := by simp [hx, hm]
    rw [hxi] at e1
    simp [e1]
  | false =>
    simp only [Bool.false_eq_true, if_false]
    rcases hr : r i with _ | v
    · simp only
      rcases hxi : x i with _ | w
      · rw [hxi] at e1; simp only at e1; rw [← e1, hr]
      · rw [hxi] at e1; simp only at e1; rw [e1] at hr; cases hr
    · rfl

/-! ### fillgaps_time, fillgaps_depth -/

/-- **C170.** Filling gaps again changes nothing if the first call has left no gap. -/
theorem fillgaps_twice_partial {α : Type*} (interp : (ℕ → Option α) → ℕ → Option α) (maxgap : Option ℕ)
    (u : ℕ → Option α) (i : ℕ) (h : fillGaps interp maxgap u i ≠ none) :
    fillGaps interp maxgap (fillGaps interp maxgap u) i = fillGaps interp maxgap u i := by
  obtain ⟨x, hx⟩ := Option.ne_none_iff_exists'.mp h
  rw [fillgaps_keeps interp maxgap _ i x hx, hx]

/-- **C170** is false of gaps longer than `maxgap`: every further call fills the next `maxgap` samples. -/
theorem fillgaps_again_false {α : Type*} (interp : (ℕ → Option α) → ℕ → Option α) (m n : ℕ) (u : ℕ → Option α)
    (a b : ℕ) (h : Spec.IsHole n u a b) (hm : 0 < m) (hlong : m < b - a) (hi : ∀ v i, a ≤ i → i < b → interp v i ≠ none) :
    fillGaps interp (some m) u (a + m) = none ∧
      fillGaps interp (some m) (fillGaps interp (some m) u) (a + m) ≠ none := by
  have hh := h
  obtain ⟨h1, h2, h3, h4, h5⟩ := hh
  have l : ∀ i, a ≤ i → i < b → fillGaps interp (some m) u i = if i - a < m then interp u i else none :=
    fun i => fillgaps_limit interp m n u a b i h
  have hole : Spec.IsHole n (fillGaps interp (some m) u) (a + m) b := by
    refine ⟨by omega, h2, ?_, Or.inr ?_, ?_⟩
    · intro i i1 i2
      rw [l i (by omega) i2, if_neg (by omega)]
    · rw [l (a + m - 1) (by omega) (by omega), if_pos (by omega)]
      exact Option.ne_none_iff_exists'.mp (hi u (a + m - 1) (by omega) (by omega))
    · rcases h5 with h5 | ⟨x, hx⟩
      · exact Or.inl h5
      · exact Or.inr ⟨x, fillgaps_keeps interp (some m) u b x hx⟩
  refine ⟨by rw [l _ (by omega) (by omega), if_neg (by omega)], ?_⟩
  rw [fillgaps_limit interp m n _ (a + m) b (a + m) hole le_rfl (by omega), if_pos (by omega)]
  exact hi _ _ (by omega) (by omega)

/-! ### medfilt_orient -/

/-- A heading that goes to and fro. -/
noncomputable def toAndFro (i : ℕ) : ℝ := if i % 2 = 0 then 1 else 0

/-- **C170** is false of the median filter: a record that goes to and fro between two values is turned over by the first
call, and the second call turns it over again, so that it is not the same. -/
theorem medfilt_twice_false : medfilt 7 1 toAndFro 3 = 1 ∧ medfilt 7 1 (medfilt 7 1 toAndFro) 3 = 0 := by
  have w : ∀ i, 1 ≤ i → i < 6 → medfilt 7 1 toAndFro i = if i % 2 = 0 then 0 else 1 := by
    intro i h1 h2
    apply medfilt_majority
    unfold medWindow
    rw [show List.range (2 * 1 + 1) = [0, 1, 2] from rfl]
    interval_cases i <;> norm_num [toAndFro, List.count_cons]
  refine ⟨by rw [w 3 (by omega) (by omega)]; norm_num, ?_⟩
  apply medfilt_majority
  unfold medWindow
  rw [show List.range (2 * 1 + 1) = [0, 1, 2] from rfl]
  simp only [List.map_cons, List.map_nil]
  norm_num [w 2 (by omega) (by omega), w 3 (by omega) (by omega), w 4 (by omega) (by omega), List.count_cons]

/-! ### Instances -/

example : fillGaps (fun _ i => some (i : ℚ)) (some 1) exGap 3 = none ∧
    fillGaps (fun _ i => some (i : ℚ)) (some 1) (fillGaps (fun _ i => some (i : ℚ)) (some 1) exGap) 3 ≠ none :=
  fillgaps_again_false _ 1 8 exGap 2 5 exGap_gap (by omega) (by omega) (by simp)

example (u : ℕ → Option ℝ) : ∃ r s, fillEnsMean 10 4 u (fun i => decide (i = 2)) = .ok r ∧
    fillEnsMean 10 4 r (fun i => decide (i = 2)) = .ok s ∧ ∀ i < 10, s i = r i :=
  fill_ens_mean_twice 10 4 (by omega) (by omega) u _

example (c : CorrCell ℚ) : (corrMask 50 true true true (surfCell (some 0) true true true c)).vel 0 = none ∧
    (surfCell (some 0) true true true (corrMask 50 true true true c)).vel 0 = some 0 :=
  corr_surface_order_false 50 0 (by norm_num) true true c 0

end Dolfyn
