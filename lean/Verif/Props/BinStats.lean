import Verif.Props.Binned
import Verif.Props.Detrend
import Mathlib.Algebra.Order.BigOperators.Group.List
import Mathlib.Algebra.BigOperators.Intervals
import Mathlib.Data.List.ReduceOption

/-!
C19 (bin means, variances and standard deviations) and C67 (attribute consistency).
-/

namespace Dolfyn

/-! ### C19 -/

/-- The samples of bin `r`. -/
def Spec.binSamples {α : Type*} (x : ℕ → α) (n r : ℕ) : List α :=
  (List.range n).map fun j => x (r * n + j)

theorem row_eq_samples {α : Type*} (z : α) (len : ℕ) (x : ℕ → α) (n : ℕ) (hn : 0 < n)
    (hlen : n ≤ len) : ∃ m, reshape z len x n 0 = .ok m ∧ m.rows = len / n ∧
      ∀ r < len / n, m.row r = Spec.binSamples x n r := by
  obtain ⟨m, h1, h2, h3, h4⟩ := reshape_no_pad z len x n hn hlen
  refine ⟨m, h1, h2, fun r hr => ?_⟩
  unfold Mat2.row Spec.binSamples
  rw [h3]
  apply List.map_congr_left
  intro j hj
  exact h4 r j (by omega) (List.mem_range.mp hj)

/-- A binner, a per-call override, and the integer bin length in effect. -/
def Spec.UsesBin (b : Binner) (o : Option ℚ) (n : ℕ) : Prop :=
  o = some (n : ℚ) ∨ (o = none ∧ b.nBin = n)

theorem parseNbin_uses {b : Binner} {o : Option ℚ} {n : ℕ} (h : Spec.UsesBin b o n) :
    parseNbin b o = n := by
  rcases h with rfl | ⟨rfl, h⟩
  · rfl
  · exact h

/-- C19: `mean` gives, for every bin, the mean of exactly the valid samples of the bin (missing if
there are none). -/
theorem bin_mean_spec (b : Binner) (len : ℕ) (x : ℕ → Option ℝ) (o : Option ℚ) (n : ℕ)
    (hu : Spec.UsesBin b o n) (hn : 0 < n) (hlen : n ≤ len) :
    ∃ out, binMean b len x o = .ok out ∧ out.length = len / n ∧ ∀ r < len / n,
      let v := (Spec.binSamples x n r).reduceOption
      out[r]? = some (if v = [] then none else some (v.sum / v.length)) := by
  obtain ⟨m, h1, h2, h3⟩ := row_eq_samples (some 0) len x n hn hlen
  refine ⟨_, by rw [binMean, parseNbin_uses hu, h1]; rfl, by simp [h2], fun r hr => ?_⟩
  simp only [List.getElem?_map, h2, List.getElem?_range hr, Option.map_some, h3 r hr, nanmean]

/-- C19 for complete data: the plain arithmetic mean. -/
theorem bin_mean_complete (b : Binner) (len : ℕ) (x : ℕ → ℝ) (o : Option ℚ) (n : ℕ)
    (hu : Spec.UsesBin b o n) (hn : 0 < n) (hlen : n ≤ len) :
    ∃ out, binMean b len (fun i => some (x i)) o = .ok out ∧ out.length = len / n ∧
      ∀ r < len / n, out[r]? = some (some ((∑ j ∈ Finset.range n, x (r * n + j)) / n)) := by
  obtain ⟨out, h1, h2, h3⟩ := bin_mean_spec b len (fun i => some (x i)) o n hu hn hlen
  refine ⟨out, h1, h2, fun r hr => ?_⟩
  rw [h3 r hr]
  have := nanmean_some n hn fun j => x (r * n + j)
  exact congrArg some this

/-- C19: the average of the bin means is the mean of all binned samples. -/
theorem mean_of_bin_means (n nb : ℕ) (x : ℕ → ℝ) :
    (∑ r ∈ Finset.range nb, (∑ j ∈ Finset.range n, x (r * n + j)) / n) / nb =
      (∑ i ∈ Finset.range (nb * n), x i) / (nb * n : ℕ) := by
  have h : ∑ i ∈ Finset.range (nb * n), x i =
      ∑ r ∈ Finset.range nb, ∑ j ∈ Finset.range n, x (r * n + j) := by
    induction nb with
    | zero => simp
    | succ nb ih =>
      rw [Finset.sum_range_succ, ← ih, Nat.succ_mul, Finset.sum_range_add]
  rw [h, ← Finset.sum_div, div_div, Nat.cast_mul, mul_comm (n : ℝ)]

/-- Population variance of a list, written as a specification. -/
noncomputable def Spec.popVar (v : List ℝ) : ℝ :=
  (v.map fun x => (x - v.sum / v.length) ^ 2).sum / v.length

/-- C19: `var` gives the population variance of the valid samples of each bin and `std` its
square root. -/
theorem bin_var_spec (b : Binner) (len : ℕ) (x : ℕ → Option ℝ) (o : Option ℚ) (n : ℕ)
    (hu : Spec.UsesBin b o n) (hn : 0 < n) (hlen : n ≤ len) :
    ∃ out outS, binVar b len x o = .ok out ∧ binStd b len x o = .ok outS ∧
      out.length = len / n ∧ outS.length = len / n ∧ ∀ r < len / n,
      let v := (Spec.binSamples x n r).reduceOption
      out[r]? = some (if v = [] then none else some (Spec.popVar v)) ∧
      outS[r]? = some (if v = [] then none else some (Real.sqrt (Spec.popVar v))) := by
  obtain ⟨m, h1, h2, h3⟩ := row_eq_samples (some 0) len x n hn hlen
  refine ⟨_, _, by rw [binVar, parseNbin_uses hu, h1]; rfl,
    by rw [binStd, parseNbin_uses hu, h1]; rfl, by simp [h2], by simp [h2], fun r hr => ?_⟩
  have e : ∀ v : List ℝ, (v.map fun x => (x - v.sum / v.length) * (x - v.sum / v.length)).sum /
      v.length = Spec.popVar v := by
    intro v
    unfold Spec.popVar
    simp only [sq]
  constructor
  · simp only [List.getElem?_map, h2, List.getElem?_range hr, Option.map_some, h3 r hr, nanvar, e]
  · simp only [List.getElem?_map, h2, List.getElem?_range hr, Option.map_some, h3 r hr, nanstd,
      nanvar, e]
    split <;> rfl

/-- C19: the variance is non-negative. -/
theorem pop_var_nonneg (v : List ℝ) : 0 ≤ Spec.popVar v := by
  unfold Spec.popVar
  apply div_nonneg _ (Nat.cast_nonneg _)
  apply List.sum_nonneg
  intro y hy
  obtain ⟨x, -, rfl⟩ := List.mem_map.mp hy
  positivity

/-- C19: the variance is zero exactly for constant bins. -/
theorem pop_var_zero_iff (v : List ℝ) : Spec.popVar v = 0 ↔ ∀ x ∈ v, ∀ y ∈ v, x = y := by
  unfold Spec.popVar
  constructor
  · intro h x hx y hy
    have hlen : (v.length : ℝ) ≠ 0 := by
      have := List.length_pos_of_mem hx
      exact_mod_cast this.ne'
    have h0 : (v.map fun x => (x - v.sum / v.length) ^ 2).sum = 0 := by
      rcases div_eq_zero_iff.mp h with h | h
      · exact h
      · exact absurd h hlen
    have key : ∀ z ∈ v, z = v.sum / v.length := by
      intro z hz
      have hz' : (z - v.sum / v.length) ^ 2 ≤ 0 := by
        rw [← h0]
        apply List.single_le_sum
        · intro w hw
          obtain ⟨x, -, rfl⟩ := List.mem_map.mp hw
          positivity
        · exact List.mem_map.mpr ⟨z, hz, rfl⟩
      have : z - v.sum / v.length = 0 := by
        have := le_antisymm hz' (sq_nonneg _)
        exact pow_eq_zero_iff (two_ne_zero) |>.mp this
      linarith
    rw [key x hx, key y hy]
  · intro h
    cases v with
    | nil => simp
    | cons a l =>
      have hrep : a :: l = List.replicate (l.length + 1) a :=
        List.eq_replicate_iff.mpr ⟨by simp, fun b hb => h b hb a (by simp)⟩
      rw [hrep]
      have hne : ((l.length + 1 : ℕ) : ℝ) ≠ 0 := by positivity
      have hmean : (List.replicate (l.length + 1) a).sum / ((l.length + 1 : ℕ) : ℝ) = a := by
        rw [List.sum_replicate, nsmul_eq_mul, mul_div_cancel_left₀ _ hne]
      rw [List.length_replicate, hmean, List.map_replicate, sub_self]
      simp

/-- C19: adding a constant does not change the variance. -/
theorem pop_var_shift (v : List ℝ) (c : ℝ) : Spec.popVar (v.map (· + c)) = Spec.popVar v := by
  unfold Spec.popVar
  cases v with
  | nil => simp
  | cons a l =>
    have hne : (((a :: l).length : ℕ) : ℝ) ≠ 0 := by simp; positivity
    have hs : ((a :: l).map (· + c)).sum = (a :: l).sum + (a :: l).length * c := by
      generalize a :: l = w
      induction w with
      | nil => simp
      | cons b w ih => simp only [List.map_cons, List.sum_cons, ih, List.length_cons]; push_cast; ring
    rw [List.length_map, hs, add_div, mul_div_cancel_left₀ _ hne, List.map_map]
    congr 2
    apply List.map_congr_left
    intro x _
    simp only [Function.comp_apply]
    ring

/-- C19: scaling by `c` scales the variance by `c²`. -/
theorem pop_var_scale (v : List ℝ) (c : ℝ) :
    Spec.popVar (v.map (c * ·)) = c ^ 2 * Spec.popVar v := by
  unfold Spec.popVar
  have hs : ∀ w : List ℝ, (w.map (c * ·)).sum = c * w.sum := by
    intro w
    induction w with
    | nil => simp
    | cons b w ih => simp only [List.map_cons, List.sum_cons, ih]; ring
  have hq : ∀ (w : List ℝ) (m : ℝ), ((w.map (c * ·)).map fun x => (x - c * m) ^ 2).sum =
      c ^ 2 * (w.map fun x => (x - m) ^ 2).sum := by
    intro w m
    induction w with
    | nil => simp
    | cons b w ih => simp only [List.map_cons, List.sum_cons, ih]; ring
  rw [List.length_map, hs, mul_div_assoc, hq, mul_div_assoc]

/-- C19 at the API: shifting the data shifts every mean and leaves every variance alone. -/
theorem bin_var_shift (b : Binner) (len : ℕ) (x : ℕ → Option ℝ) (o : Option ℚ) (n : ℕ)
    (hu : Spec.UsesBin b o n) (hn : 0 < n) (hlen : n ≤ len) (c : ℝ) :
    binVar b len (fun i => (x i).map (· + c)) o = binVar b len x o := by
  obtain ⟨o1, _, h1, -, l1, -, p1⟩ := bin_var_spec b len (fun i => (x i).map (· + c)) o n hu hn hlen
  obtain ⟨o2, _, h2, -, l2, -, p2⟩ := bin_var_spec b len x o n hu hn hlen
  rw [h1, h2]
  congr 1
  apply List.ext_getElem?
  intro r
  by_cases hr : r < len / n
  · rw [(p1 r hr).1, (p2 r hr).1]
    have e : (Spec.binSamples (fun i => (x i).map (· + c)) n r).reduceOption =
        ((Spec.binSamples x n r).reduceOption).map (· + c) := by
      rw [← List.reduceOption_map]
      unfold Spec.binSamples
      rw [List.map_map]; rfl
    rw [e, pop_var_shift]
    simp
  · rw [List.getElem?_eq_none (by omega), List.getElem?_eq_none (by omega)]

example : ∃ out, binMean (mkBinner 2 1 none none) 5
      (fun i => some (if i = 0 then 1 else 3)) none = .ok out ∧ out.length = 2 := by
  obtain ⟨out, h1, h2, -⟩ := bin_mean_complete (mkBinner 2 1 none none) 5
    (fun i => if i = 0 then 1 else 3) none 2 (.inr ⟨rfl, rfl⟩) (by norm_num) (by norm_num)
  exact ⟨out, h1, h2⟩

example : Spec.popVar [1, 3] = 1 := by norm_num [Spec.popVar]

/-! ### C67 -/

section attrs
variable {V : Type*} [DecidableEq V]

theorem lookup_updAttr (k k' : String) (v : V) (l : List (String × V)) :
    (updAttr k v l).lookup k' = if k' = k then some v else l.lookup k' := by
  unfold updAttr
  split
  · rename_i h
    induction l with
    | nil => simp at h
    | cons p l ih =>
      obtain ⟨a, w⟩ := p
      by_cases hka : a = k
      · subst hka
        by_cases hk' : k' = a
        · simp [hk', List.lookup]
        · have hb : (k' == a) = false := by simpa using hk'
          simp only [List.map_cons, beq_self_eq_true, if_true, List.lookup, hb, if_neg hk']
          -- remaining list
          by_cases hany : l.any (fun p => p.1 == a) = true
          · rw [ih hany, if_neg hk']
          · have : (l.map fun p => if p.1 == a then (a, v) else p) = l := by
              conv_rhs => rw [← List.map_id l]
              apply List.map_congr_left
              intro q hq
              have : ¬ (q.1 == a) = true := fun hh => hany (List.any_eq_true.mpr ⟨q, hq, hh⟩)
              simp [this]
            rw [this]
      · have hba : (a == k) = false := by simpa using hka
        have hany : l.any (fun p => p.1 == k) = true := by simpa [hba] using h
        simp only [List.map_cons, hba, Bool.false_eq_true, if_false, List.lookup]
        cases hk' : (k' == a) with
        | true =>
          have : k' = a := by simpa using hk'
          simp only
          rw [if_neg (by rw [this]; exact hka)]
        | false => simp only; exact ih hany
  · rename_i h
    induction l with
    | nil =>
      simp only [List.nil_append, List.lookup]
      by_cases hk' : k' = k
      · simp [hk']
      · have hb : (k' == k) = false := by simpa using hk'
        simp [hk', hb]
    | cons p l ih =>
      obtain ⟨a, w⟩ := p
      simp only [List.any_cons, Bool.or_eq_true, not_or] at h
      simp only [List.cons_append, List.lookup]
      cases hk' : (k' == a) with
      | true =>
        have h1 : k' = a := by simpa using hk'
        have h2 : a ≠ k := by simpa using h.1
        simp only
        rw [if_neg (by rw [h1]; exact h2)]
      | false => exact ih h.2

/-- The comparison loop succeeds exactly when every listed attribute agrees, and then stores all. -/
theorem mergeAttrs_spec (ps : List (String × V)) (hnd : (ps.map Prod.fst).Nodup)
    (o : List (String × V)) :
    ((∀ k v w, (k, v) ∈ ps → o.lookup k = some w → w = v) →
      ∃ out, mergeAttrs ps o = .ok out ∧ ∀ k, out.lookup k = (ps.lookup k).or (o.lookup k)) ∧
    ((∃ k v w, (k, v) ∈ ps ∧ o.lookup k = some w ∧ w ≠ v) →
      mergeAttrs ps o = .error .attributeError) := by
  induction ps generalizing o with
  | nil => exact ⟨fun _ => ⟨o, rfl, fun k => by simp⟩, by simp⟩
  | cons p ps ih =>
    obtain ⟨k, v⟩ := p
    rw [List.map_cons, List.nodup_cons] at hnd
    have hkey : ∀ w, (k, w) ∉ ps := fun w hw => hnd.1 (List.mem_map.mpr ⟨(k, w), hw, rfl⟩)
    have ih' := ih hnd.2 (updAttr k v o)
    have hstep : (∀ w, o.lookup k = some w → w = v) →
        mergeAttrs ((k, v) :: ps) o = mergeAttrs ps (updAttr k v o) := by
      intro hw
      rw [mergeAttrs]
      cases hl : o.lookup k with
      | none => rfl
      | some w => simp only; rw [if_neg (by simpa using hw w hl)]
    constructor
    · intro hag
      rw [hstep fun w hw => hag k v w (by simp) hw]
      obtain ⟨out, h1, h2⟩ := ih'.1 (by
        intro k' v' w' hm hl
        rw [lookup_updAttr] at hl
        have hne : k' ≠ k := by rintro rfl; exact hkey v' hm
        rw [if_neg hne] at hl
        exact hag k' v' w' (by simp [hm]) hl)
      refine ⟨out, h1, fun k' => ?_⟩
      rw [h2, lookup_updAttr]
      by_cases hk : k' = k
      · subst hk
        have : ps.lookup k' = none := by
          rw [List.lookup_eq_none_iff]
          intro q hq
          obtain ⟨a, w⟩ := q
          simp only [bne_iff_ne, ne_eq, beq_iff_eq]
          rintro rfl
          exact hkey w hq
        rw [this, if_pos rfl]
        simp [List.lookup]
      · have hb : (k' == k) = false := by simpa using hk
        rw [if_neg hk]
        simp [List.lookup, hb]
    · rintro ⟨k', v', w', hm, hl, hne⟩
      by_cases hbad : ∃ w, o.lookup k = some w ∧ w ≠ v
      · obtain ⟨w, hw, hwv⟩ := hbad
        unfold mergeAttrs
        rw [hw]
        simp only
        rw [if_pos hwv]
      · push Not at hbad
        rw [hstep hbad]
        apply ih'.2
        rcases List.mem_cons.mp hm with heq | hm'
        · simp only [Prod.mk.injEq] at heq
          obtain ⟨rfl, rfl⟩ := heq
          exact absurd (hbad w' hl) hne
        · refine ⟨k', v', w', hm', ?_, hne⟩
          have : k' ≠ k := by rintro rfl; exact hkey v' hm'
          rw [lookup_updAttr, if_neg this, hl]

theorem updAttr_keys_nodup (k : String) (v : V) (l : List (String × V))
    (h : (l.map Prod.fst).Nodup) : ((updAttr k v l).map Prod.fst).Nodup := by
  unfold updAttr
  split
  · have : (l.map fun p => if p.1 == k then (k, v) else p).map Prod.fst = l.map Prod.fst := by
      rw [List.map_map]
      apply List.map_congr_left
      intro p _
      simp only [Function.comp_apply]
      by_cases hp : p.1 = k <;> simp [hp]
    rw [this]; exact h
  · rename_i hany
    rw [List.map_append, List.nodup_append]
    refine ⟨h, by simp, ?_⟩
    intro a ha b hb
    simp only [List.map_cons, List.map_nil, List.mem_singleton] at hb
    subst hb
    rintro rfl
    obtain ⟨p, hp, rfl⟩ := List.mem_map.mp ha
    exact hany (List.any_eq_true.mpr ⟨p, hp, by simp⟩)

theorem updAll_spec (raw own : List (String × V)) (hr : (raw.map Prod.fst).Nodup)
    (h : (own.map Prod.fst).Nodup) :
    ((updAll own raw).map Prod.fst).Nodup ∧
      ∀ k, (updAll own raw).lookup k = (raw.lookup k).or (own.lookup k) := by
  unfold updAll
  induction raw generalizing own with
  | nil => exact ⟨h, fun k => by simp⟩
  | cons p raw ih =>
    rw [List.map_cons, List.nodup_cons] at hr
    rw [List.foldl_cons]
    obtain ⟨h1, h2⟩ := ih (updAttr p.1 p.2 own) hr.2 (updAttr_keys_nodup _ _ _ h)
    refine ⟨h1, fun k => ?_⟩
    rw [h2, lookup_updAttr]
    obtain ⟨a, w⟩ := p
    by_cases hk : k = a
    · subst hk
      have : raw.lookup k = none := by
        rw [List.lookup_eq_none_iff]
        intro q hq
        simp only [bne_iff_ne, ne_eq, beq_iff_eq]
        rintro rfl
        exact hr.1 (List.mem_map.mpr ⟨q, hq, rfl⟩)
      rw [this]
      simp [List.lookup]
    · have hb : (k == a) = false := by simpa using hk
      simp [hk, List.lookup, hb]

theorem mem_iff_lookup (l : List (String × V)) (h : (l.map Prod.fst).Nodup) (k : String) (v : V) :
    (k, v) ∈ l ↔ l.lookup k = some v := by
  induction l with
  | nil => simp
  | cons p l ih =>
    obtain ⟨a, w⟩ := p
    rw [List.map_cons, List.nodup_cons] at h
    by_cases hk : k = a
    · subst hk
      simp only [List.lookup, beq_self_eq_true, List.mem_cons, Prod.mk.injEq, true_and,
        Option.some.injEq]
      constructor
      · rintro (h1 | h1)
        · exact h1.symm
        · exact absurd (List.mem_map.mpr ⟨(k, v), h1, rfl⟩) h.1
      · intro h1; exact .inl h1.symm
    · have hb : (k == a) = false := by simpa using hk
      simp only [List.lookup, hb, List.mem_cons, Prod.mk.injEq, hk, false_and, false_or]
      exact ih h.2

/-- What must agree: the raw attributes, and the binner's own four entries where the raw data has
no attribute of that name. -/
def Spec.required (own raw : List (String × V)) (k : String) : Option V :=
  (raw.lookup k).or (own.lookup k)

/-- C67: for non-empty raw data with the binner's sampling rate, attaching to an output dataset
succeeds exactly when no stored attribute disagrees with a required one, and then every required
attribute is stored and all others are kept; otherwise AttributeError. -/
theorem check_ds_spec (own raw out : List (String × V)) (selfFs : V) (shapes : List (List ℕ))
    (hown : (own.map Prod.fst).Nodup) (hraw : (raw.map Prod.fst).Nodup)
    (hsh : ∀ sh ∈ shapes, 0 ∉ sh) :
    ((∀ k v w, Spec.required own raw k = some v → out.lookup k = some w → w = v) →
      ∃ res, checkDs own selfFs selfFs shapes raw (some out) = .ok res ∧
        ∀ k, res.lookup k = (Spec.required own raw k).or (out.lookup k)) ∧
    ((∃ k v w, Spec.required own raw k = some v ∧ out.lookup k = some w ∧ w ≠ v) →
      checkDs own selfFs selfFs shapes raw (some out) = .error .attributeError) := by
  have hshape : ¬ (shapes.any fun sh => sh.any (· == 0)) = true := by
    simp only [List.any_eq_true, not_exists, not_and]
    intro sh hs x hx h0
    have : x = 0 := by simpa using h0
    exact hsh sh hs (this ▸ hx)
  obtain ⟨hnd, hlk⟩ := updAll_spec raw own hraw hown
  obtain ⟨m1, m2⟩ := mergeAttrs_spec (updAll own raw) hnd out
  have hred : checkDs own selfFs selfFs shapes raw (some out) = mergeAttrs (updAll own raw) out := by
    unfold checkDs
    rw [if_neg hshape, if_neg (by simp)]
    rfl
  rw [hred]
  constructor
  · intro h
    obtain ⟨res, h1, h2⟩ := m1 (by
      intro k v w hm hl
      rw [mem_iff_lookup _ hnd, hlk] at hm
      exact h k v w hm hl)
    exact ⟨res, h1, fun k => by rw [h2, hlk]; rfl⟩
  · rintro ⟨k, v, w, h1, h2, h3⟩
    exact m2 ⟨k, v, w, by rw [mem_iff_lookup _ hnd, hlk]; exact h1, h2, h3⟩

/-- C67: a different sampling rate or an empty variable raises whatever the attributes are. -/
theorem check_ds_rejects (own raw : List (String × V)) (out : Option (List (String × V)))
    (selfFs rawFs : V) (shapes : List (List ℕ)) :
    ((∃ sh ∈ shapes, 0 ∈ sh) → checkDs own selfFs rawFs shapes raw out = .error .runtimeError) ∧
    ((∀ sh ∈ shapes, 0 ∉ sh) → rawFs ≠ selfFs →
      checkDs own selfFs rawFs shapes raw out = .error .exception) := by
  constructor
  · rintro ⟨sh, hs, h0⟩
    unfold checkDs
    rw [if_pos]
    exact List.any_eq_true.mpr ⟨sh, hs, List.any_eq_true.mpr ⟨0, h0, rfl⟩⟩
  · intro h hne
    unfold checkDs
    rw [if_neg, if_pos hne]
    simp only [List.any_eq_true, not_exists, not_and]
    intro sh hs x hx h0
    have : x = 0 := by simpa using h0
    exact h sh hs (this ▸ hx)

/-- C67: a second result added to the dataset created by the first is always accepted. -/
theorem check_ds_twice (own raw : List (String × V)) (selfFs : V) (shapes : List (List ℕ))
    (hown : (own.map Prod.fst).Nodup) (hraw : (raw.map Prod.fst).Nodup)
    (hsh : ∀ sh ∈ shapes, 0 ∉ sh) :
    ∃ res, checkDs own selfFs selfFs shapes raw none = .ok res ∧
      ∃ res', checkDs own selfFs selfFs shapes raw (some res) = .ok res' ∧
        ∀ k, res'.lookup k = res.lookup k := by
  obtain ⟨res, h1, h2⟩ := (check_ds_spec own raw [] selfFs shapes hown hraw hsh).1 (by simp)
  have hc : checkDs own selfFs selfFs shapes raw none = checkDs own selfFs selfFs shapes raw (some []) :=
    rfl
  refine ⟨res, hc.trans h1, ?_⟩
  obtain ⟨res', h3, h4⟩ := (check_ds_spec own raw res selfFs shapes hown hraw hsh).1 (by
    intro k v w hv hw
    rw [h2, hv] at hw
    simpa using hw.symm)
  exact ⟨res', h3, fun k => by rw [h4, h2]; cases Spec.required own raw k <;> simp⟩

end attrs

example : checkDs [("fs", 8), ("n_bin", 100)] 8 8 [[5]] [("inst", 3)] (some [("n_bin", 50)])
    = .error .attributeError := by decide

example : checkDs [("fs", 8), ("n_bin", 100)] 8 8 [[5]] [("inst", 3)] (some [("n_bin", 100)])
    = .ok [("n_bin", 100), ("fs", 8), ("inst", 3)] := by decide

end Dolfyn
