import Verif.Model.Gaps
import Verif.Spec.Gaps
import Mathlib.Tactic.Ring
import Mathlib.Tactic.Linarith
import Mathlib.Data.List.Induction

/-! Helper lemmas for `group` and `slice1d_along_axis`. -/

namespace Dolfyn
open Spec

/-! ### group -/

/-- Positions where the mask rises, for a record of length `n`. -/
def upsOf (n : ℕ) (bl : ℕ → Bool) : List ℕ :=
  ((List.range (n - 1)).filter fun i => !bl i && bl (i + 1)).map (· + 1)

/-- Positions where the mask falls. -/
def dnsOf (n : ℕ) (bl : ℕ → Bool) : List ℕ :=
  ((List.range (n - 1)).filter fun i => bl i && !bl (i + 1)).map (· + 1)

theorem upsOf_succ (n : ℕ) (bl : ℕ → Bool) :
    upsOf (n + 2) bl = upsOf (n + 1) bl ++ if !bl n && bl (n + 1) then [n + 1] else [] := by
  unfold upsOf
  simp only [Nat.add_sub_cancel, show n + 2 - 1 = n + 1 from rfl, List.range_succ,
    List.filter_append, List.map_append, List.filter_singleton]
  congr 1
  cases !bl n && bl (n + 1) <;> rfl

theorem dnsOf_succ (n : ℕ) (bl : ℕ → Bool) :
    dnsOf (n + 2) bl = dnsOf (n + 1) bl ++ if bl n && !bl (n + 1) then [n + 1] else [] := by
  unfold dnsOf
  simp only [Nat.add_sub_cancel, show n + 2 - 1 = n + 1 from rfl, List.range_succ,
    List.filter_append, List.map_append, List.filter_singleton]
  congr 1
  cases bl n && !bl (n + 1) <;> rfl

/-- The rises completed with a rise at 0 when the mask starts with true. -/
def upsFull (n : ℕ) (bl : ℕ → Bool) : List ℕ := (if bl 0 then [0] else []) ++ upsOf n bl

/-- Closed runs (those that end before the record does), as pairs, and the open run. -/
structure RunState (n : ℕ) (bl : ℕ → Bool) (U D : List ℕ) : Prop where
  sorted : (U.zip D).Pairwise fun p q => p.2 < q.1
  closed : ∀ u d, (u, d) ∈ U.zip D ↔
    u < d ∧ d < n ∧ (∀ j, u ≤ j → j < d → bl j = true) ∧ (u = 0 ∨ bl (u - 1) = false) ∧
      bl d = false

/-- Loop invariant over the length of the record. -/
theorem runs_invariant (bl : ℕ → Bool) (n : ℕ) :
    (bl n = false → (upsFull (n + 1) bl).length = (dnsOf (n + 1) bl).length ∧
      RunState (n + 1) bl (upsFull (n + 1) bl) (dnsOf (n + 1) bl)) ∧
    (bl n = true → ∃ U u, upsFull (n + 1) bl = U ++ [u] ∧ U.length = (dnsOf (n + 1) bl).length ∧
      RunState (n + 1) bl U (dnsOf (n + 1) bl) ∧ u ≤ n ∧ (∀ j, u ≤ j → j ≤ n → bl j = true) ∧
      (u = 0 ∨ bl (u - 1) = false) ∧ ∀ p ∈ U.zip (dnsOf (n + 1) bl), p.2 < u) := by
  induction n with
  | zero =>
    constructor
    · intro h
      have : ∀ u d, ¬ (u < d ∧ d < 0 + 1 ∧ (∀ j, u ≤ j → j < d → bl j = true) ∧
          (u = 0 ∨ bl (u - 1) = false) ∧ bl d = false) := by rintro u d ⟨h1, h2, -⟩; omega
      refine ⟨by simp [upsFull, h, upsOf, dnsOf], ⟨by simp [upsFull, h, upsOf], fun u d => ?_⟩⟩
      simp only [this, iff_false]
      simp [upsFull, h, upsOf]
    · intro h
      have : ∀ u d, ¬ (u < d ∧ d < 0 + 1 ∧ (∀ j, u ≤ j → j < d → bl j = true) ∧
          (u = 0 ∨ bl (u - 1) = false) ∧ bl d = false) := by rintro u d ⟨h1, h2, -⟩; omega
      refine ⟨[], 0, by simp [upsFull, h, upsOf], by simp [dnsOf], ⟨by simp, fun u d => ?_⟩,
        le_rfl, ?_, .inl rfl, by simp⟩
      · simp only [this, iff_false]; simp
      · intro j _ hj; obtain rfl : j = 0 := by omega
        exact h
  | succ n ih =>
    have hU : upsFull (n + 2) bl =
        upsFull (n + 1) bl ++ if !bl n && bl (n + 1) then [n + 1] else [] := by
      rw [upsFull, upsOf_succ, upsFull, List.append_assoc]
    have hD := dnsOf_succ n bl
    rw [hU, hD]
    generalize upsFull (n + 1) bl = U at *
    generalize dnsOf (n + 1) bl = D at *
    -- a run closed before `n + 2` is closed before `n + 1` or ends at `n + 1`
    cases hn : bl n with
    | false =>
      obtain ⟨hlen, hs⟩ := ih.1 hn
      have hclosed : ∀ u d, (u, d) ∈ U.zip D ↔
          u < d ∧ d < n + 1 + 1 ∧ (∀ j, u ≤ j → j < d → bl j = true) ∧
          (u = 0 ∨ bl (u - 1) = false) ∧ bl d = false := by
        intro u d
        rw [hs.closed]
        constructor
        · rintro ⟨h1, h2, h3, h4, h5⟩; exact ⟨h1, by omega, h3, h4, h5⟩
        · rintro ⟨h1, h2, h3, h4, h5⟩
          refine ⟨h1, ?_, h3, h4, h5⟩
          by_contra hlt
          obtain rfl : d = n + 1 := by omega
          have := h3 n (by omega) (by omega)
          simp [hn] at this
      constructor
      · intro h1
        simp only [hn, h1, Bool.not_false, Bool.and_false, Bool.false_and, Bool.false_eq_true,
          if_false, List.append_nil]
        exact ⟨hlen, hs.sorted, hclosed⟩
      · intro h1
        simp only [hn, h1, Bool.not_false, Bool.and_true, Bool.false_and, Bool.false_eq_true,
          if_false, List.append_nil, if_true]
        refine ⟨U, n + 1, rfl, hlen, ⟨hs.sorted, hclosed⟩, le_rfl, ?_, .inr (by simpa using hn), ?_⟩
        · intro j hj hj'; obtain rfl : j = n + 1 := by omega
          exact h1
        · rintro ⟨u, d⟩ hp
          exact ((hs.closed u d).mp hp).2.1
    | true =>
      obtain ⟨V, u, rfl, hlen, hs, hun, htrue, hstart, hlast⟩ := ih.2 hn
      constructor
      · intro h1
        simp only [hn, h1, Bool.not_true, Bool.and_false, Bool.not_false, Bool.and_true,
          Bool.false_eq_true, if_false, List.append_nil, if_true]
        have hz : (V ++ [u]).zip (D ++ [n + 1]) = V.zip D ++ [(u, n + 1)] := by
          rw [List.zip_append hlen]; rfl
        refine ⟨by simp [hlen], ⟨?_, fun x d => ?_⟩⟩
        · rw [hz, List.pairwise_append]
          exact ⟨hs.sorted, by simp, by intro p hp q hq; simp at hq; subst hq; exact hlast p hp⟩
        · rw [hz, List.mem_append, hs.closed]
          simp only [List.mem_singleton, Prod.mk.injEq]
          constructor
          · rintro (⟨a1, a2, a3, a4, a5⟩ | ⟨rfl, rfl⟩)
            · exact ⟨a1, by omega, a3, a4, a5⟩
            · exact ⟨by omega, by omega, fun j hj hj' => htrue j hj (by omega), hstart, h1⟩
          · rintro ⟨a1, a2, a3, a4, a5⟩
            by_cases hd : d = n + 1
            · right
              subst hd
              refine ⟨?_, rfl⟩
              rcases Nat.lt_trichotomy x u with hlt | heq | hgt
              · rcases hstart with h0 | h0
                · omega
                · have := a3 (u - 1) (by omega) (by omega)
                  simp [h0] at this
              · exact heq
              · rcases a4 with h0 | h0
                · omega
                · have := htrue (x - 1) (by omega) (by omega)
                  simp [h0] at this
            · left
              exact ⟨a1, by omega, a3, a4, a5⟩
      · intro h1
        simp only [hn, h1, Bool.not_true, Bool.false_and, Bool.and_false,
          Bool.false_eq_true, if_false, List.append_nil]
        refine ⟨V, u, rfl, hlen, ⟨hs.sorted, fun x d => ?_⟩, by omega, ?_, hstart, hlast⟩
        · rw [hs.closed]
          constructor
          · rintro ⟨a1, a2, a3, a4, a5⟩; exact ⟨a1, by omega, a3, a4, a5⟩
          · rintro ⟨a1, a2, a3, a4, a5⟩
            refine ⟨a1, ?_, a3, a4, a5⟩
            by_contra hlt
            obtain rfl : d = n + 1 := by omega
            simp [h1] at a5
        · intro j hj hj'
          by_cases hjn : j = n + 1
          · rw [hjn]; exact h1
          · exact htrue j hj (by omega)

/-- Pairing every rise (with 0 added in front when needed) with the falls (with the length added
at the end when needed) gives the maximal runs. -/
theorem zip_runs (n : ℕ) (hn : 0 < n) (bl : ℕ → Bool) :
    let L := (upsFull n bl).zip (dnsOf n bl ++ if bl (n - 1) then [n] else [])
    L.Pairwise (fun p q => p.2 < q.1) ∧ ∀ u d, (u, d) ∈ L ↔ MaxRun n bl u d := by
  obtain ⟨k, rfl⟩ : ∃ k, n = k + 1 := ⟨n - 1, by omega⟩
  simp only [Nat.add_sub_cancel]
  have inv := runs_invariant bl k
  cases hk : bl k with
  | false =>
    obtain ⟨-, hs⟩ := inv.1 hk
    simp only [Bool.false_eq_true, if_false, List.append_nil]
    refine ⟨hs.sorted, fun u d => ?_⟩
    rw [hs.closed]
    constructor
    · rintro ⟨h1, h2, h3, h4, h5⟩; exact ⟨h1, by omega, h3, h4, .inr h5⟩
    · rintro ⟨h1, h2, h3, h4, h5⟩
      have hd : d ≠ k + 1 := by
        rintro rfl
        have := h3 k (by omega) (by omega)
        simp [hk] at this
      exact ⟨h1, by omega, h3, h4, h5.resolve_left hd⟩
  | true =>
    obtain ⟨V, u, hV, hlen, hs, hun, htrue, hstart, hlast⟩ := inv.2 hk
    rw [hV]
    simp only [if_true]
    have hz : (V ++ [u]).zip (dnsOf (k + 1) bl ++ [k + 1]) =
        V.zip (dnsOf (k + 1) bl) ++ [(u, k + 1)] := by
      rw [List.zip_append hlen]; rfl
    rw [hz]
    refine ⟨?_, fun x d => ?_⟩
    · rw [List.pairwise_append]
      exact ⟨hs.sorted, by simp, by intro p hp q hq; simp at hq; subst hq; exact hlast p hp⟩
    · rw [List.mem_append, hs.closed]
      simp only [List.mem_singleton, Prod.mk.injEq]
      constructor
      · rintro (⟨a1, a2, a3, a4, a5⟩ | ⟨rfl, rfl⟩)
        · exact ⟨a1, by omega, a3, a4, .inr a5⟩
        · exact ⟨by omega, le_rfl, fun j hj hj' => htrue j hj (by omega), hstart, .inl rfl⟩
      · rintro ⟨a1, a2, a3, a4, a5⟩
        by_cases hd : d = k + 1
        · right
          subst hd
          refine ⟨?_, rfl⟩
          rcases Nat.lt_trichotomy x u with hlt | heq | hgt
          · rcases hstart with h0 | h0
            · omega
            · have := a3 (u - 1) (by omega) (by omega)
              simp [h0] at this
          · exact heq
          · rcases a4 with h0 | h0
            · omega
            · have := htrue (x - 1) (by omega) (by omega)
              simp [h0] at this
        · left
          exact ⟨a1, by omega, a3, a4, a5.resolve_left hd⟩

/-! ### slice1d_along_axis -/

/-- Mixed-radix digits, least significant first. -/
def digs : ℕ → List ℕ → List ℕ
  | _, [] => []
  | k, d :: ds => (k % d) :: digs (k / d) ds

theorem digs_length (k : ℕ) (ds : List ℕ) : (digs k ds).length = ds.length := by
  induction ds generalizing k with
  | nil => rfl
  | cons d ds ih => simp [digs, ih]

theorem digs_lt (ds : List ℕ) (k : ℕ) (h : k < ds.prod) :
    ∀ p ∈ (digs k ds).zip ds, p.1 < p.2 := by
  induction ds generalizing k with
  | nil => simp [digs]
  | cons d ds ih =>
    rw [List.prod_cons] at h
    have hd : 0 < d := Nat.pos_of_ne_zero (by rintro rfl; simp at h)
    intro p hp
    rw [digs, List.zip_cons_cons, List.mem_cons] at hp
    rcases hp with rfl | hp
    · exact Nat.mod_lt _ hd
    · exact ih (k / d) (Nat.div_lt_of_lt_mul h) p hp

/-- Valid digits need no carry. -/
theorem carry_digs (ds : List ℕ) (k : ℕ) (h : k < ds.prod) : carry (digs k ds) ds = digs k ds := by
  match ds with
  | [] => simp [digs, carry]
  | [d] => simp [digs, carry]
  | d :: d' :: ds =>
    rw [List.prod_cons] at h
    have hd : 0 < d := Nat.pos_of_ne_zero (by rintro rfl; simp at h)
    simp only [digs, carry]
    rw [if_neg (by have := Nat.mod_lt k hd; omega)]

/-- Incrementing the last digit and carrying is adding one. -/
theorem carry_incr (ds : List ℕ) (k : ℕ) (h : k + 1 < ds.prod) :
    carry (incr (digs k ds)) ds = digs (k + 1) ds := by
  induction ds generalizing k with
  | nil => simp at h
  | cons d ds ih =>
    cases ds with
    | nil =>
      simp only [List.prod_cons, List.prod_nil, mul_one] at h
      simp only [digs, incr, carry]
      rw [Nat.mod_eq_of_lt (by omega), Nat.mod_eq_of_lt h]
    | cons d' ds =>
      have h' := h
      rw [List.prod_cons] at h
      have hd : 0 < d := Nat.pos_of_ne_zero (by rintro rfl; simp at h)
      have hm := Nat.mod_lt k hd
      have hdm := Nat.div_add_mod k d
      simp only [digs, incr, carry]
      by_cases c : d ≤ k % d + 1
      · have hc : k % d + 1 = d := by omega
        have hk1 : k + 1 = d * (k / d + 1) := by rw [mul_add, mul_one]; omega
        have hq : (k + 1) / d = k / d + 1 := by rw [hk1, Nat.mul_div_cancel_left _ hd]
        have hr : (k + 1) % d = 0 := by rw [hk1, Nat.mul_mod_right]
        rw [if_pos c, hq, hr]
        have := ih (k / d) (by
          rw [← hq]; exact Nat.div_lt_of_lt_mul h)
        simp only [digs, incr] at this
        rw [this]
      · have hq : (k + 1) / d = k / d := by
          rw [← hdm, add_assoc, Nat.mul_add_div hd, Nat.mul_add_div hd,
            Nat.div_eq_of_lt (by omega : k % d + 1 < d), Nat.div_eq_of_lt hm]
        have hr : (k + 1) % d = k % d + 1 := by
          have := Nat.div_add_mod (k + 1) d
          rw [hq] at this
          omega
        rw [if_neg c, hq, hr]

/-- The loop yields the digits of `k, k+1, ...`. -/
theorem odometer_eq (ds : List ℕ) (m : ℕ) : ∀ (k : ℕ) (ind : List ℕ), k + m ≤ ds.prod →
    (0 < m → carry ind ds = digs k ds) →
    odometer ds m ind = (List.range m).map fun j => digs (k + j) ds := by
  induction m with
  | zero => intros; rfl
  | succ m ih =>
    intro k ind hk hc
    rw [odometer]
    rw [hc (by omega), List.range_succ_eq_map, List.map_cons, List.map_map,
      ih (k + 1) _ (by omega) fun h0 => carry_incr ds k (by omega)]
    congr 1
    apply List.map_congr_left
    intro j _
    simp only [Function.comp_apply]
    congr 1; omega

theorem digs_zero (ds : List ℕ) : digs 0 ds = List.replicate ds.length 0 := by
  induction ds with
  | nil => rfl
  | cons d ds ih => simp [digs, ih, List.replicate_succ]

/-- Row-major product, built from the last dimension. -/
theorem prodIdx_append (ds : List ℕ) (d : ℕ) :
    prodIdx (ds ++ [d]) = (prodIdx ds).flatMap fun x => (List.range d).map fun i => x ++ [i] := by
  induction ds with
  | nil =>
    simp only [prodIdx, List.nil_append, List.map_cons, List.map_nil, List.flatMap_cons,
      List.flatMap_nil, List.append_nil]
    exact List.flatMap_pure_eq_map _ _
  | cons e ds ih =>
    simp only [List.cons_append, prodIdx, ih, List.map_flatMap, List.flatMap_assoc]
    congr 1
    funext i
    rw [List.flatMap_map]
    apply List.flatMap_congr
    intro x _
    rw [List.map_map]
    rfl

theorem range_mul (a b : ℕ) : List.range (a * b) =
    (List.range a).flatMap fun q => (List.range b).map fun r => q * b + r := by
  induction a with
  | zero => simp
  | succ a ih =>
    rw [Nat.succ_mul, List.range_add, ih, List.range_succ, List.flatMap_append]
    simp

theorem prodIdx_eq_digs (ds : List ℕ) :
    prodIdx ds = (List.range ds.prod).map fun k => (digs k ds.reverse).reverse := by
  induction ds using List.reverseRecOn with
  | nil => simp [prodIdx, digs]
  | append_singleton ds d ih =>
    rw [prodIdx_append, ih, List.prod_append, List.prod_singleton, range_mul, List.map_flatMap,
      List.flatMap_map]
    apply List.flatMap_congr
    intro q hq
    rw [List.map_map]
    apply List.map_congr_left
    intro r hr
    have hr' := List.mem_range.mp hr
    simp only [Function.comp_apply, List.reverse_append, List.reverse_cons, List.reverse_nil,
      List.nil_append, List.singleton_append, digs]
    have hd : 0 < d := by omega
    rw [show (q * d + r) % d = r by rw [mul_comm, Nat.mul_add_mod, Nat.mod_eq_of_lt hr'],
      show (q * d + r) / d = q by
        rw [mul_comm, Nat.mul_add_div hd, Nat.div_eq_of_lt hr', add_zero]]

end Dolfyn
