import Verif.Model.Turb
import Verif.Props.BinStats
import Mathlib.Algebra.Order.BigOperators.Ring.Finset
import Mathlib.Tactic.IntervalCases

/-!
C57: turbulent kinetic energy and Reynolds stresses of binned velocities.
-/

namespace Dolfyn

open Finset

/-! ### sums over the valid entries -/

theorem reduceOption_sum (n : ℕ) (f : ℕ → Option ℝ) :
    (vals n f).reduceOption.sum = ∑ i ∈ range n, (f i).getD 0 := by
  induction n with
  | zero => rfl
  | succ n ih =>
    have : vals (n + 1) f = vals n f ++ [f n] := by simp [vals, List.range_succ]
    rw [this, List.reduceOption_append, List.sum_append, ih, sum_range_succ]
    cases h : f n <;> simp [List.reduceOption]

theorem reduceOption_length (n : ℕ) (f : ℕ → Option ℝ) :
    (vals n f).reduceOption.length = ((range n).filter fun i => (f i).isSome).card := by
  induction n with
  | zero => rfl
  | succ n ih =>
    have : vals (n + 1) f = vals n f ++ [f n] := by simp [vals, List.range_succ]
    rw [this, List.reduceOption_append, List.length_append, ih, range_add_one, filter_insert]
    cases h : f n <;> simp [List.reduceOption]

/-- `nanmean` in terms of sums: `none` exactly when no entry is valid. -/
theorem nanmean_vals (n : ℕ) (f : ℕ → Option ℝ) :
    nanmean (vals n f) = if ((range n).filter fun i => (f i).isSome).card = 0 then none
      else some ((∑ i ∈ range n, (f i).getD 0) /
        ((range n).filter fun i => (f i).isSome).card) := by
  unfold nanmean
  simp only [reduceOption_sum, reduceOption_length]
  have : ((vals n f).reduceOption = []) ↔
      ((range n).filter fun i => (f i).isSome).card = 0 := by
    rw [← reduceOption_length, List.length_eq_zero_iff]
  by_cases h : (vals n f).reduceOption = []
  · rw [if_pos h, if_pos (this.mp h)]
  · rw [if_neg h, if_neg (mt this.mpr h)]

theorem nanmean_isSome_congr (n : ℕ) (f g : ℕ → Option ℝ)
    (h : ∀ i, i < n → (f i).isSome = (g i).isSome) :
    (nanmean (vals n f)).isSome = (nanmean (vals n g)).isSome := by
  rw [nanmean_vals, nanmean_vals]
  have : ((range n).filter fun i => (f i).isSome) = (range n).filter fun i => (g i).isSome :=
    filter_congr fun i hi => by rw [h i (mem_range.mp hi)]
  rw [this]
  split <;> rfl

/-- Cauchy–Schwarz for means of products over jointly valid entries: two records with the same missing
samples. -/
theorem nanmean_cauchy (n : ℕ) (f g : ℕ → Option ℝ)
    (h : ∀ i, i < n → (f i).isSome = (g i).isSome) :
    (nanmean (vals n fun j => opt2 (· * ·) (f j) (g j)) = none ∧
      nanmean (vals n fun j => opt2 (· * ·) (f j) (f j)) = none ∧
      nanmean (vals n fun j => opt2 (· * ·) (g j) (g j)) = none) ∨
    ∃ fg ff gg, nanmean (vals n fun j => opt2 (· * ·) (f j) (g j)) = some fg ∧
      nanmean (vals n fun j => opt2 (· * ·) (f j) (f j)) = some ff ∧
      nanmean (vals n fun j => opt2 (· * ·) (g j) (g j)) = some gg ∧
      0 ≤ ff ∧ 0 ≤ gg ∧ fg ^ 2 ≤ ff * gg := by
  have e : ∀ a b : ℕ → Option ℝ, (∀ i, i < n → (a i).isSome = (f i).isSome) →
      (∀ i, i < n → (b i).isSome = (f i).isSome) →
      ((range n).filter fun i => (opt2 (· * ·) (a i) (b i)).isSome) =
        (range n).filter fun i => (f i).isSome := by
    intro a b ha hb
    apply filter_congr
    intro i hi
    have h1 := ha i (mem_range.mp hi)
    have h2 := hb i (mem_range.mp hi)
    revert h1 h2
    cases a i <;> cases b i <;> cases f i <;> simp [opt2]
  have s : ∀ a b : ℕ → Option ℝ, ∑ i ∈ range n, (opt2 (· * ·) (a i) (b i)).getD 0 =
      ∑ i ∈ range n, (a i).getD 0 * (b i).getD 0 := by
    intro a b
    apply sum_congr rfl
    intro i _
    cases a i <;> cases b i <;> simp [opt2]
  have hf : ∀ i, i < n → (f i).isSome = (f i).isSome := fun _ _ => rfl
  have hg : ∀ i, i < n → (g i).isSome = (f i).isSome := fun i hi => (h i hi).symm
  simp only [nanmean_vals, e f g hf hg, e f f hf hf, e g g hg hg, s]
  by_cases hc : ((range n).filter fun i => (f i).isSome).card = 0
  · left; simp [hc]
  · right
    refine ⟨_, _, _, if_neg hc, if_neg hc, if_neg hc, ?_, ?_, ?_⟩
    · exact div_nonneg (sum_nonneg fun i _ => mul_self_nonneg _) (Nat.cast_nonneg _)
    · exact div_nonneg (sum_nonneg fun i _ => mul_self_nonneg _) (Nat.cast_nonneg _)
    · rw [div_pow, div_mul_div_comm, ← sq]
      apply div_le_div_of_nonneg_right _ (by positivity)
      have := sum_mul_sq_le_sq_mul_sq (range n) (fun i => (f i).getD 0) fun i => (g i).getD 0
      simpa only [sq] using this

/-- `nanmean` of squares is never negative. -/
theorem nanmean_sq_nonneg (n : ℕ) (f : ℕ → Option ℝ) (s : ℝ)
    (h : nanmean (vals n fun j => opt2 (· * ·) (f j) (f j)) = some s) : 0 ≤ s := by
  rcases nanmean_cauchy n f f (fun _ _ => rfl) with ⟨_, h2, _⟩ | ⟨_, ff, _, _, h2, _, h3, _⟩
  · rw [h2] at h; simp at h
  · rw [h2] at h; cases h; exact h3

/-- The validity mask after removing the mean or trend depends on the input mask only. -/
theorem detrend_isSome_congr (n : ℕ) (a b : ℕ → Option ℝ)
    (h : ∀ i, i < n → (a i).isSome = (b i).isSome) (i : ℕ) (hi : i < n) :
    (detrend n a i).isSome = (detrend n b i).isSome := by
  have hm : (nanmean (vals n a)).isSome = (nanmean (vals n b)).isSome :=
    nanmean_isSome_congr n a b h
  have h1 : ∀ j, j < n → (opt2 (· - ·) (a j) (nanmean (vals n a))).isSome =
      (opt2 (· - ·) (b j) (nanmean (vals n b))).isSome := by
    intro j hj
    have := h j hj
    revert this hm
    cases a j <;> cases b j <;> cases nanmean (vals n a) <;> cases nanmean (vals n b) <;>
      simp [opt2]
  have h2 : ∀ x : ℕ → Option ℝ,
      (nanmean (vals n fun j => opt2 (· * ·) (x j)
        (opt2 (· - ·) (a j) (nanmean (vals n a))))).isSome =
      (nanmean (vals n fun j => opt2 (· * ·) (x j)
        (opt2 (· - ·) (b j) (nanmean (vals n b))))).isSome := by
    intro x
    apply nanmean_isSome_congr
    intro j hj
    have := h1 j hj
    revert this
    cases x j <;> cases opt2 (· - ·) (a j) (nanmean (vals n a)) <;>
      cases opt2 (· - ·) (b j) (nanmean (vals n b)) <;> simp [opt2]
  unfold detrend
  simp only []
  have h3 := h1 i hi
  have h4 := h2 fun i => opt2 (· - ·) (some (i : ℝ)) (nanmean (vals n fun i => some (i : ℝ)))
  revert h3 h4
  generalize opt2 (· - ·) (a i) (nanmean (vals n a)) = p
  generalize opt2 (· - ·) (b i) (nanmean (vals n b)) = q
  generalize nanmean (vals n fun j => opt2 (· * ·)
    (opt2 (· - ·) (some (j : ℝ)) (nanmean (vals n fun i => some (i : ℝ))))
    (opt2 (· - ·) (a j) (nanmean (vals n a)))) = c
  generalize nanmean (vals n fun j => opt2 (· * ·)
    (opt2 (· - ·) (some (j : ℝ)) (nanmean (vals n fun i => some (i : ℝ))))
    (opt2 (· - ·) (b j) (nanmean (vals n b)))) = d
  generalize nanmean (vals n fun j => opt2 (· * ·)
    (opt2 (· - ·) (some (j : ℝ)) (nanmean (vals n fun i => some (i : ℝ))))
    (opt2 (· - ·) (some (j : ℝ)) (nanmean (vals n fun i => some (i : ℝ))))) = e
  generalize opt2 (· - ·) (some (i : ℝ)) (nanmean (vals n fun i => some (i : ℝ))) = x
  cases p <;> cases q <;> cases c <;> cases d <;> cases e <;> cases x <;>
    simp [opt2, npDiv]
  all_goals split_ifs <;> simp

/-! ### the binned functions -/

theorem row_vals {α : Type*} (m : Mat2 α) (r : ℕ) : m.row r = vals m.cols (m.at_ r) := rfl

/-- Shape and masks of the fluctuations. -/
theorem fluct_mask (b : Binner) (dt : Bool) (len : ℕ) (x y : ℕ → Option ℝ) (mx my : Mat2 (Option ℝ))
    (hm : ∀ i, (x i).isSome = (y i).isSome)
    (hx : fluct b dt len x = .ok mx) (hy : fluct b dt len y = .ok my) :
    mx.rows = my.rows ∧ mx.cols = my.cols ∧
      ∀ r j, j < mx.cols → (mx.at_ r j).isSome = (my.at_ r j).isSome := by
  unfold fluct at hx hy
  have key : ∀ (n pad : ℕ) (rows : ℕ) (idx : ℕ → ℕ) (r j : ℕ),
      (fillBins (some 0) x idx rows n pad r j).isSome =
        (fillBins (some 0) y idx rows n pad r j).isSome := by
    intro n pad rows idx r j
    unfold fillBins
    by_cases hp : pad = 0
    · simp only [hp, ne_eq, not_true_eq_false, if_false]
      split_ifs <;> simp [hm]
    · simp only [hp, ne_eq, not_false_eq_true, if_true, padRight, padLeft]
      split_ifs <;> simp [hm]
  have hre : ∃ R n, reshape (some 0) len x b.nBin 0 = .ok R ∧
      reshape (some 0) len y b.nBin 0 = .ok n ∧ R.rows = n.rows ∧ R.cols = n.cols ∧
      ∀ r j, (R.at_ r j).isSome = (n.at_ r j).isSome := by
    cases hR : reshape (some 0) len x b.nBin 0 with
    | error e => rw [hR] at hx; cases hx
    | ok R =>
      unfold reshape at hR ⊢
      simp only [] at hR ⊢
      split_ifs at hR ⊢
      all_goals
        cases hR
        exact ⟨_, _, rfl, rfl, rfl, rfl, fun r j => by dsimp only; exact key _ _ _ _ _ _⟩
  obtain ⟨R, S, h1, h2, h3, h4, h5⟩ := hre
  rw [h1] at hx
  rw [h2] at hy
  cases hx
  cases hy
  refine ⟨h3, h4, fun r j hj => ?_⟩
  simp only at hj ⊢
  rw [← h4]
  cases dt with
  | true => exact detrend_isSome_congr _ _ _ (fun i _ => h5 r i) j hj
  | false =>
    have e1 := nanmean_isSome_congr R.cols (R.at_ r) (S.at_ r) fun i _ => h5 r i
    rw [← row_vals, show vals R.cols (S.at_ r) = S.row r by rw [row_vals, h4]] at e1
    have e2 := h5 r j
    revert e1 e2
    simp only [Bool.false_eq_true, if_false]
    cases nanmean (R.row r) <;> cases nanmean (S.row r) <;> cases R.at_ r j <;> cases S.at_ r j <;>
      simp [opt2]

/-- The stress of two series in bin `r` as the entry of `rowProd`. -/
theorem rowProd_get (x y : Mat2 (Option ℝ)) (r : ℕ) (hr : r < x.rows) :
    (rowProd x y)[r]? =
      some (nanmean (vals x.cols fun j => opt2 (· * ·) (x.at_ r j) (y.at_ r j))) := by
  simp [rowProd, List.getElem?_range hr]

/-- C57, variances: without noise correction every reported variance is non-negative. -/
theorem tke_nonneg (b : Binner) (dt : Bool) (len : ℕ) (vel : Fin 3 → ℕ → Option ℝ)
    (out : Fin 3 → List (Option ℝ)) (h : calcTke b true none dt len vel = .ok out) (i : Fin 3)
    (r : ℕ) (s : ℝ) (hs : (out i)[r]? = some (some s)) : 0 ≤ s := by
  unfold calcTke at h
  simp only [Bool.true_eq_false, if_false] at h
  cases hu : tke1 b dt len (vel 0) with
  | error e => rw [hu] at h; cases h
  | ok u =>
    cases hv : tke1 b dt len (vel 1) with
    | error e => rw [hu, hv] at h; cases h
    | ok v =>
      cases hw : tke1 b dt len (vel 2) with
      | error e => rw [hu, hv, hw] at h; cases h
      | ok w =>
        rw [hu, hv, hw] at h
        cases h
        have key : ∀ (x : ℕ → Option ℝ) (l : List (Option ℝ)), tke1 b dt len x = .ok l →
            l[r]? = some (some s) → 0 ≤ s := by
          intro x l hl hg
          unfold tke1 at hl
          cases hm : fluct b dt len x with
          | error e => rw [hm] at hl; cases hl
          | ok m =>
            rw [hm] at hl
            cases hl
            by_cases hr : r < m.rows
            · rw [rowProd_get m m r hr] at hg
              exact nanmean_sq_nonneg _ _ s (Option.some.inj hg)
            · rw [List.getElem?_eq_none (by simp [rowProd]; omega)] at hg
              cases hg
        fin_cases i
        · exact key _ u hu hs
        · exact key _ v hv hs
        · exact key _ w hw hs

theorem calcTke_ok {b : Binner} {dt : Bool} {len : ℕ} {vel : Fin 3 → ℕ → Option ℝ}
    {out : Fin 3 → List (Option ℝ)} (h : calcTke b true none dt len vel = .ok out) :
    ∃ f : Fin 3 → Mat2 (Option ℝ), (∀ i, fluct b dt len (vel i) = .ok (f i)) ∧
      ∀ i, out i = rowProd (f i) (f i) := by
  unfold calcTke tke1 at h
  simp only [Bool.true_eq_false, if_false] at h
  cases hu : fluct b dt len (vel 0) with
  | error e => rw [hu] at h; cases h
  | ok u =>
    cases hv : fluct b dt len (vel 1) with
    | error e => rw [hu, hv] at h; cases h
    | ok v =>
      cases hw : fluct b dt len (vel 2) with
      | error e => rw [hu, hv, hw] at h; cases h
      | ok w =>
        rw [hu, hv, hw] at h
        cases h
        refine ⟨![u, v, w], fun i => ?_, fun i => ?_⟩
        · fin_cases i <;> assumption
        · fin_cases i <;> rfl

/-- C57, noise: three noise levels are squared and subtracted from the variances of the three
components, each from its own; any other number of levels raises. -/
theorem tke_noise (b : Binner) (dt : Bool) (len : ℕ) (vel : Fin 3 → ℕ → Option ℝ)
    (out : Fin 3 → List (Option ℝ)) (h : calcTke b true none dt len vel = .ok out) :
    (∀ noise : Fin 3 → ℝ, ∃ out', calcTke b true (some (List.ofFn noise)) dt len vel = .ok out' ∧
      ∀ i, (out' i).length = (out i).length ∧ ∀ (r : ℕ) (v : Option ℝ), (out i)[r]? = some v →
        (out' i)[r]? = some (v.map fun s => s - noise i ^ 2)) ∧
    ∀ l : List ℝ, l.length ≠ 3 → calcTke b true (some l) dt len vel = .error .exception := by
  obtain ⟨f, hf, ho⟩ := calcTke_ok h
  have e : ∀ i, tke1 b dt len (vel i) = .ok (rowProd (f i) (f i)) := by
    intro i
    unfold tke1
    rw [hf i]
    rfl
  constructor
  · intro noise
    refine ⟨fun i => subNoise (noise i) (out i), ?_, fun i => ⟨by simp [subNoise], fun r v hv => ?_⟩⟩
    · unfold calcTke
      rw [e 0, e 1, e 2]
      simp only [Bool.true_eq_false, if_false, bind, Except.bind, pure, Except.pure]
      have : List.ofFn noise = [noise 0, noise 1, noise 2] := by simp [List.ofFn_succ]
      rw [this]
      simp only [Except.ok.injEq]
      funext i
      fin_cases i <;> simp [ho]
    · simp only [subNoise, List.getElem?_map, hv, Option.map_some]
  · intro l hl
    unfold calcTke
    rw [e 0, e 1, e 2]
    match l, hl with
    | [], _ => rfl
    | [_], _ => rfl
    | [_, _], _ => rfl
    | [_, _, _], h => exact absurd rfl h
    | _ :: _ :: _ :: _ :: _, _ => rfl

theorem calcStress_ok {b : Binner} {dt : Bool} {len : ℕ} {vel : Fin 3 → ℕ → Option ℝ}
    {out : Fin 3 → List (Option ℝ)} (h : calcStress b dt len vel = .ok out) :
    ∃ f : Fin 3 → Mat2 (Option ℝ), (∀ i, fluct b dt len (vel i) = .ok (f i)) ∧
      ∀ i, out i = rowProd (f (crossPair i).1) (f (crossPair i).2) := by
  unfold calcStress at h
  cases hu : fluct b dt len (vel 0) with
  | error e => rw [hu] at h; cases h
  | ok u =>
    cases hv : fluct b dt len (vel 1) with
    | error e => rw [hu, hv] at h; cases h
    | ok v =>
      cases hw : fluct b dt len (vel 2) with
      | error e => rw [hu, hv, hw] at h; cases h
      | ok w =>
        rw [hu, hv, hw] at h
        cases h
        refine ⟨![u, v, w], fun i => ?_, fun i => rfl⟩
        fin_cases i <;> assumption

/-- The two velocity components of stress `i`: `u'v'`, `u'w'`, `v'w'`. -/
def Spec.StressOf (i : Fin 3) (p q : Fin 3) : Prop :=
  (i = 0 ∧ p = 0 ∧ q = 1) ∨ (i = 1 ∧ p = 0 ∧ q = 2) ∨ (i = 2 ∧ p = 1 ∧ q = 2)

/-- C57 (partial: the components must be missing at the same samples): in every bin the squared
stress is at most the product of the two variances, and all three are present or absent together. -/
theorem stress_cauchy_schwarz_partial (b : Binner) (dt : Bool) (len : ℕ)
    (vel : Fin 3 → ℕ → Option ℝ)
    (hmask : ∀ p q i, (vel p i).isSome = (vel q i).isSome)
    (tke stress : Fin 3 → List (Option ℝ)) (ht : calcTke b true none dt len vel = .ok tke)
    (hs : calcStress b dt len vel = .ok stress) (i p q : Fin 3) (hpq : Spec.StressOf i p q) :
    (stress i).length = (tke p).length ∧ (tke p).length = (tke q).length ∧
    ∀ r < (tke p).length,
      ((stress i)[r]? = some none ∧ (tke p)[r]? = some none ∧ (tke q)[r]? = some none) ∨
      ∃ c vp vq, (stress i)[r]? = some (some c) ∧ (tke p)[r]? = some (some vp) ∧
        (tke q)[r]? = some (some vq) ∧ c ^ 2 ≤ vp * vq := by
  obtain ⟨f, hf, ht'⟩ := calcTke_ok ht
  obtain ⟨g, hg, hs'⟩ := calcStress_ok hs
  have hfg : ∀ k, f k = g k := fun k => Except.ok.inj ((hf k).symm.trans (hg k))
  have hcp : crossPair i = (p, q) := by
    rcases hpq with ⟨rfl, rfl, rfl⟩ | ⟨rfl, rfl, rfl⟩ | ⟨rfl, rfl, rfl⟩ <;> rfl
  have hsi : stress i = rowProd (f p) (f q) := by rw [hs', hcp, hfg, hfg]
  obtain ⟨hr, hc, hm⟩ := fluct_mask b dt len (vel p) (vel q) (f p) (f q) (hmask p q) (hf p) (hf q)
  rw [hsi, ht', ht']
  refine ⟨by simp [rowProd], by simp [rowProd, hr], fun r hlt => ?_⟩
  have hrr : r < (f p).rows := by simpa [rowProd] using hlt
  rw [rowProd_get _ _ r hrr, rowProd_get _ _ r hrr, rowProd_get _ _ r (hr ▸ hrr), ← hc]
  rcases nanmean_cauchy (f p).cols ((f p).at_ r) ((f q).at_ r) fun j hj => hm r j hj with
    ⟨h1, h2, h3⟩ | ⟨c, vp, vq, h1, h2, h3, _, _, h4⟩
  · left; exact ⟨congrArg some h1, congrArg some h2, congrArg some h3⟩
  · right; exact ⟨c, vp, vq, congrArg some h1, congrArg some h2, congrArg some h3, h4⟩

/-- A complete component with zero mean and zero trend over five samples. -/
def gapU : ℕ → Option ℝ := fun i =>
  if i = 0 then some 2 else if i = 1 then some (-1) else if i = 2 then some (-2)
  else if i = 3 then some (-1) else some 2

/-- A component missing two of the five samples. -/
def gapV : ℕ → Option ℝ := fun i =>
  if i = 0 then some 1 else if i = 2 then some (-2) else if i = 4 then some 1 else none

theorem vals5 {α : Type*} (f : ℕ → α) : vals 5 f = [f 0, f 1, f 2, f 3, f 4] := rfl

theorem vals5_congr {α : Type*} {f g : ℕ → α} (h : ∀ j < 5, f j = g j) : vals 5 f = vals 5 g :=
  List.map_congr_left fun j hj => h j (List.mem_range.mp hj)

theorem fluct_gap (b : Binner) (hb : b.nBin = 5) (dt : Bool) (x : ℕ → Option ℝ)
    (hm : nanmean (vals 5 x) = some 0) (hd : ∀ j < 5, detrend 5 x j = x j) :
    ∃ m, fluct b dt 5 x = .ok m ∧ m.rows = 1 ∧ m.cols = 5 ∧ ∀ j < 5, m.at_ 0 j = x j := by
  obtain ⟨R, h1, h2, h3, h4⟩ := reshape_no_pad (some (0 : ℝ)) 5 x 5 (by norm_num) (by norm_num)
  have hrow : ∀ j < 5, R.at_ 0 j = x j := fun j hj => by
    have := h4 0 j (by rw [h2]; norm_num) hj
    simpa using this
  have e : ((5 : ℕ) : ℚ) = b.nBin := by rw [hb]; rfl
  rw [e] at h1
  unfold fluct
  rw [h1]
  refine ⟨_, rfl, h2, h3, fun j hj => ?_⟩
  dsimp only
  rw [h3]
  cases dt with
  | true =>
    simp only [if_true]
    rw [← hd j hj]
    unfold detrend
    simp only [vals5, hrow 0 (by norm_num), hrow 1 (by norm_num), hrow 2 (by norm_num),
      hrow 3 (by norm_num), hrow 4 (by norm_num), hrow j hj]
  | false =>
    simp only [Bool.false_eq_true, if_false]
    rw [row_vals, h3, vals5_congr hrow, hm, hrow j hj]
    cases x j <;> simp [opt2]

/-- C57 is false for components with different missing samples: the stress is averaged over the
jointly valid samples and the variances over each component's own, and the bound fails, with
and without detrending. -/
theorem stress_cauchy_schwarz_false (dt : Bool) :
    ∃ (b : Binner) (vel : Fin 3 → ℕ → Option ℝ) (tke stress : Fin 3 → List (Option ℝ))
      (c vu vv : ℝ), calcTke b true none dt 5 vel = .ok tke ∧
      calcStress b dt 5 vel = .ok stress ∧ stress 0 = [some c] ∧ tke 0 = [some vu] ∧
      tke 1 = [some vv] ∧ vu * vv < c ^ 2 := by
  have hU : nanmean (vals 5 gapU) = some 0 := by
    simp [vals5, gapU, nanmean, List.reduceOption]
    norm_num
  have hV : nanmean (vals 5 gapV) = some 0 := by
    simp [vals5, gapV, nanmean, List.reduceOption]
    norm_num
  have dU : ∀ j < 5, detrend 5 gapU j = gapU j := by
    intro j hj
    unfold detrend
    simp only [hU]
    interval_cases j <;>
      (simp [vals5, gapU, nanmean, List.reduceOption, opt2, npDiv]; try norm_num)
  have dV : ∀ j < 5, detrend 5 gapV j = gapV j := by
    intro j hj
    unfold detrend
    simp only [hV]
    interval_cases j <;>
      (simp [vals5, gapV, nanmean, List.reduceOption, opt2, npDiv]; try norm_num)
  obtain ⟨mu, u1, u2, u3, u4⟩ := fluct_gap ⟨5, 1, 5, 5⟩ rfl dt gapU hU dU
  obtain ⟨mv, v1, v2, v3, v4⟩ := fluct_gap ⟨5, 1, 5, 5⟩ rfl dt gapV hV dV
  refine ⟨⟨5, 1, 5, 5⟩, ![gapU, gapV, gapU],
    ![rowProd mu mu, rowProd mv mv, rowProd mu mu],
    fun i => rowProd ((![mu, mv, mu] : Fin 3 → Mat2 (Option ℝ)) (crossPair i).1)
      ((![mu, mv, mu] : Fin 3 → Mat2 (Option ℝ)) (crossPair i).2),
    8 / 3, 14 / 5, 2, ?_, ?_, ?_, ?_, ?_, by norm_num⟩
  · unfold calcTke tke1
    simp only [Matrix.cons_val_zero, Matrix.cons_val_one, Matrix.cons_val, u1, v1]
    rfl
  · unfold calcStress
    simp only [Matrix.cons_val_zero, Matrix.cons_val_one, Matrix.cons_val, u1, v1]
    rfl
  · show rowProd mu mv = _
    simp only [rowProd, u2, u3, vals5_congr (fun j hj => by rw [u4 j hj, v4 j hj] :
      ∀ j < 5, opt2 (· * ·) (mu.at_ 0 j) (mv.at_ 0 j) = opt2 (· * ·) (gapU j) (gapV j)),
      List.range_one, List.map_cons, List.map_nil]
    simp [vals5, gapU, gapV, nanmean, List.reduceOption, opt2]
    norm_num
  · show rowProd mu mu = _
    simp only [rowProd, u2, u3, vals5_congr (fun j hj => by rw [u4 j hj] :
      ∀ j < 5, opt2 (· * ·) (mu.at_ 0 j) (mu.at_ 0 j) = opt2 (· * ·) (gapU j) (gapU j)),
      List.range_one, List.map_cons, List.map_nil]
    simp [vals5, gapU, nanmean, List.reduceOption, opt2]
    norm_num
  · show rowProd mv mv = _
    simp only [rowProd, v2, v3, vals5_congr (fun j hj => by rw [v4 j hj] :
      ∀ j < 5, opt2 (· * ·) (mv.at_ 0 j) (mv.at_ 0 j) = opt2 (· * ·) (gapV j) (gapV j)),
      List.range_one, List.map_cons, List.map_nil]
    simp [vals5, gapV, nanmean, List.reduceOption, opt2]
    norm_num

/-- The bin functions succeed on any record of at least one bin, so the theorems above are not
vacuous. -/
theorem tke_stress_total (b : Binner) (n len : ℕ) (hb : b.nBin = n) (hn : 0 < n) (hlen : n ≤ len)
    (dt : Bool) (vel : Fin 3 → ℕ → Option ℝ) :
    (∃ t, calcTke b true none dt len vel = .ok t) ∧ ∃ s, calcStress b dt len vel = .ok s := by
  have h : ∀ x : ℕ → Option ℝ, ∃ m, fluct b dt len x = .ok m := by
    intro x
    obtain ⟨m, h1, _⟩ := row_eq_samples (some 0) len x n hn hlen
    unfold fluct
    rw [hb, h1]
    exact ⟨_, rfl⟩
  obtain ⟨u, hu⟩ := h (vel 0)
  obtain ⟨v, hv⟩ := h (vel 1)
  obtain ⟨w, hw⟩ := h (vel 2)
  constructor
  · unfold calcTke tke1
    rw [hu, hv, hw]
    exact ⟨_, rfl⟩
  · unfold calcStress
    rw [hu, hv, hw]
    exact ⟨_, rfl⟩

end Dolfyn
