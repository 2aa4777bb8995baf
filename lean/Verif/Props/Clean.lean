import Verif.Model.Clean
import Verif.Props.Binned
import Mathlib.Data.List.ReduceOption
import Mathlib.Analysis.Complex.Norm
import Mathlib.Analysis.SpecialFunctions.Complex.Arg
import Mathlib.Tactic.Ring
import Mathlib.Tactic.Linarith
import Mathlib.Tactic.LinearCombination
import Mathlib.Tactic.FieldSimp
import Mathlib.Tactic.Positivity
import Mathlib.Tactic.NormNum

/-!
C35 (clean_fill), C36 (masks), C37 and C71 (GN2002), C69 (ensemble-mean filling).
-/

namespace Dolfyn

/-! ### C35 -/

/-- The blocks `_interp_nan` interpolates over, in order. -/
def interpBlocks (n npt : ℕ) (bds : ℕ → Bool) : List (ℕ × ℕ) :=
  interpNan n npt bds (fun lo hi L => L ++ [(lo, hi)]) []

theorem interpLoop_foldl {D : Type*} (n npt : ℕ) (bds : ℕ → Bool) (interp : ℕ → ℕ → D → D) (d0 : D) :
    ∀ (k : ℕ) (s : InterpState D) (t : InterpState (List (ℕ × ℕ))),
      s.searching = t.searching → s.start = t.start → s.ntail = t.ntail → s.pos = t.pos →
      s.data = t.data.foldl (fun d p => interp p.1 p.2 d) d0 →
      (interpNanLoop n npt bds interp k s).data =
        (interpNanLoop n npt bds (fun lo hi L => L ++ [(lo, hi)]) k t).data.foldl
          (fun d p => interp p.1 p.2 d) d0 := by
  intro k
  induction k with
  | zero => intro s t _ _ _ _ h; exact h
  | succ k ih =>
    intro s t h1 h2 h3 h4 h5
    unfold interpNanLoop
    rw [h4]
    by_cases hp : t.pos < n
    · rw [if_pos hp, if_pos hp]
      apply ih
      all_goals
        unfold interpNanStep
        rw [h1, h3, h4]
        by_cases hs : t.searching = true
        · rw [if_pos hs, if_pos hs]
          by_cases hb : bds t.pos = true
          · rw [if_pos hb, if_pos hb]
            try simp [h2, h3, h4, h5]
          · rw [if_neg hb, if_neg hb]
            try simp [h1, h2, h3, h4, h5]
        · rw [if_neg hs, if_neg hs]
          simp only
          by_cases hc : ((if bds t.pos = true then 0 else t.ntail + 1) = npt ∨ t.pos + 1 = n)
          · rw [if_pos hc, if_pos hc]
            try simp [h2, h5]
          · rw [if_neg hc, if_neg hc]
            try simp [h1, h2, h3, h4, h5]
    · rw [if_neg hp, if_neg hp]; exact h5

/-- C35: `_interp_nan` is the interpolation of its blocks, one after the other. -/
theorem interpNan_blocks {D : Type*} (n npt : ℕ) (bds : ℕ → Bool) (interp : ℕ → ℕ → D → D) (d : D) :
    interpNan n npt bds interp d =
      (interpBlocks n npt bds).foldl (fun d p => interp p.1 p.2 d) d :=
  interpLoop_foldl n npt bds interp d n _ ⟨true, 0, 0, 0, []⟩ rfl rfl rfl rfl rfl

/-- What one block looks like: it starts `npt` samples before a bad sample (or at 0) and ends with
`npt` good samples or at the end of the record. -/
def GoodBlock (n npt : ℕ) (bds : ℕ → Bool) (p : ℕ × ℕ) : Prop :=
  p.2 ≤ n ∧ (∃ f, bds f = true ∧ p.1 = f - npt ∧ f < p.2) ∧
    (p.2 = n ∨ (npt ≤ p.2 ∧ ∀ j, p.2 - npt ≤ j → j < p.2 → bds j = false))

def Covered (L : List (ℕ × ℕ)) (p : ℕ) : Prop := ∃ q ∈ L, q.1 ≤ p ∧ p < q.2

structure InterpInv (n npt : ℕ) (bds : ℕ → Bool) (s : InterpState (List (ℕ × ℕ))) : Prop where
  pos_le : s.pos ≤ n
  good : ∀ p ∈ s.data, GoodBlock n npt bds p
  srch : s.searching = true → s.ntail = 0 ∧ ∀ p < s.pos, bds p = true → Covered s.data p
  tail : s.searching = false → s.ntail ≤ s.pos ∧
    ∀ j, s.pos - s.ntail ≤ j → j < s.pos → bds j = false
  nsrch : s.searching = false → ∃ f < s.pos, bds f = true ∧ s.start = f - npt ∧
    (∀ p < f, bds p = true → Covered s.data p) ∧ (s.pos = n → f + 1 = n)

theorem covered_append {L : List (ℕ × ℕ)} {p : ℕ} (q : ℕ × ℕ) (h : Covered L p) : Covered (L ++ [q]) p := by
  obtain ⟨r, hr, h1, h2⟩ := h
  exact ⟨r, List.mem_append_left _ hr, h1, h2⟩

theorem interpStep_inv (n npt : ℕ) (bds : ℕ → Bool) (s : InterpState (List (ℕ × ℕ)))
    (h : InterpInv n npt bds s) (hp : s.pos < n) :
    InterpInv n npt bds (interpNanStep n npt bds (fun lo hi L => L ++ [(lo, hi)]) s) ∧
      (interpNanStep n npt bds (fun lo hi L => L ++ [(lo, hi)]) s).pos = s.pos + 1 := by
  unfold interpNanStep
  by_cases hs : s.searching = true
  · obtain ⟨ht, hc⟩ := h.srch hs
    rw [if_pos hs]
    by_cases hb : bds s.pos = true
    · rw [if_pos hb]
      refine ⟨⟨?_, h.good, ?_, ?_, ?_⟩, rfl⟩
      · exact hp
      · intro h'; cases h'
      · intro _
        refine ⟨?_, ?_⟩
        · rw [show ({ s with start := s.pos - npt, searching := false, pos := s.pos + 1 } : InterpState _).ntail = s.ntail from rfl, ht]
          exact Nat.zero_le _
        · intro j h1 h2
          simp only [ht] at h1 h2
          omega
      · intro _
        refine ⟨s.pos, Nat.lt_succ_self _, hb, rfl, hc, fun h => h⟩
    · rw [if_neg hb]
      refine ⟨⟨hp, h.good, ?_, ?_, ?_⟩, rfl⟩
      · intro _
        refine ⟨ht, ?_⟩
        intro p hp' hbp
        have hp' : p < s.pos + 1 := hp'
        rcases Nat.lt_succ_iff_lt_or_eq.mp hp' with h1 | rfl
        · exact hc p h1 hbp
        · exact absurd hbp hb
      · intro h'; rw [show ({ s with pos := s.pos + 1 } : InterpState _).searching = s.searching from rfl, hs] at h'; cases h'
      · intro h'; rw [show ({ s with pos := s.pos + 1 } : InterpState _).searching = s.searching from rfl, hs] at h'; cases h'
  · have hs' : s.searching = false := by simpa using hs
    obtain ⟨ht1, ht2⟩ := h.tail hs'
    obtain ⟨f, hf, hbf, hst, hcf, hend⟩ := h.nsrch hs'
    rw [if_neg hs]
    simp only
    set nt := if bds s.pos = true then 0 else s.ntail + 1 with hnt
    have htail : nt ≤ s.pos + 1 ∧ ∀ j, s.pos + 1 - nt ≤ j → j < s.pos + 1 → bds j = false := by
      rw [hnt]
      by_cases hb : bds s.pos = true
      · rw [if_pos hb]; exact ⟨Nat.zero_le _, fun j h1 h2 => by omega⟩
      · rw [if_neg hb]
        refine ⟨by omega, fun j h1 h2 => ?_⟩
        rcases Nat.lt_succ_iff_lt_or_eq.mp h2 with h3 | rfl
        · exact ht2 j (by omega) h3
        · simpa using hb
    by_cases hc : nt = npt ∨ s.pos + 1 = n
    · rw [if_pos hc]
      refine ⟨⟨hp, ?_, ?_, ?_, ?_⟩, rfl⟩
      · intro p hpm
        rcases List.mem_append.mp hpm with h1 | h1
        · exact h.good p h1
        · obtain rfl := List.mem_singleton.mp h1
          refine ⟨hp, ⟨f, hbf, hst, Nat.lt_succ_of_lt hf⟩, ?_⟩
          rcases hc with hc | hc
          · right
            rw [← hc]; exact htail
          · left; exact hc
      · intro _
        refine ⟨rfl, ?_⟩
        intro p hp' hbp
        by_cases hpf : p < f
        · exact covered_append _ (hcf p hpf hbp)
        · refine ⟨(s.start, s.pos + 1), List.mem_append_right _ (List.mem_singleton.mpr rfl), ?_, hp'⟩
          simp only [hst]; omega
      · intro h'; cases h'
      · intro h'; cases h'
    · rw [if_neg hc]
      rw [not_or] at hc
      refine ⟨⟨hp, h.good, ?_, ?_, ?_⟩, rfl⟩
      · intro h'; rw [show ({ s with ntail := nt, pos := s.pos + 1 } : InterpState _).searching = s.searching from rfl, hs'] at h'; cases h'
      · intro _; exact htail
      · intro _
        exact ⟨f, Nat.lt_succ_of_lt hf, hbf, hst, hcf, fun h => absurd h hc.2⟩

theorem interpLoop_inv (n npt : ℕ) (bds : ℕ → Bool) : ∀ (k : ℕ) (s : InterpState (List (ℕ × ℕ))),
    InterpInv n npt bds s → n - s.pos ≤ k →
    InterpInv n npt bds (interpNanLoop n npt bds (fun lo hi L => L ++ [(lo, hi)]) k s) ∧
      (interpNanLoop n npt bds (fun lo hi L => L ++ [(lo, hi)]) k s).pos = n := by
  intro k
  induction k with
  | zero =>
    intro s h hk
    have := h.pos_le
    exact ⟨h, by simp only [interpNanLoop]; omega⟩
  | succ k ih =>
    intro s h hk
    unfold interpNanLoop
    by_cases hp : s.pos < n
    · rw [if_pos hp]
      obtain ⟨h1, h2⟩ := interpStep_inv n npt bds s h hp
      exact ih _ h1 (by omega)
    · rw [if_neg hp]
      have := h.pos_le
      exact ⟨h, by omega⟩

/-- C35: every block starts `npt` samples before a bad sample and ends with `npt` good samples or at
the end of the record, and every bad sample except possibly the very last one lies in a block. -/
theorem interp_blocks_spec (n npt : ℕ) (bds : ℕ → Bool) :
    (∀ p ∈ interpBlocks n npt bds, GoodBlock n npt bds p) ∧
      ∀ p, p + 1 < n → bds p = true → Covered (interpBlocks n npt bds) p := by
  have h0 : InterpInv n npt bds ⟨true, 0, 0, 0, []⟩ := by
    refine ⟨Nat.zero_le _, ?_, ?_, ?_, ?_⟩
    · intro p hp; cases hp
    · intro _; exact ⟨rfl, fun p hp => absurd hp (Nat.not_lt_zero p)⟩
    · intro h; cases h
    · intro h; cases h
  obtain ⟨h1, h2⟩ := interpLoop_inv n npt bds n _ h0 (Nat.sub_le _ _)
  refine ⟨h1.good, ?_⟩
  intro p hp hb
  unfold interpBlocks interpNan
  cases hs : (interpNanLoop n npt bds (fun lo hi L => L ++ [(lo, hi)]) n ⟨true, 0, 0, 0, []⟩).searching with
  | true => exact (h1.srch hs).2 p (by rw [h2]; omega) hb
  | false =>
    obtain ⟨f, hf, -, -, hc, he⟩ := h1.nsrch hs
    have := he h2
    exact hc p (by omega) hb

/-- What is assumed of xarray's `interpolate_na`: it never changes a sample that is present. -/
def KeepsValues {K : Type*} (interp : ℕ → ℕ → (ℕ → Option K) → (ℕ → Option K)) : Prop :=
  ∀ lo hi d i x, d i = some x → interp lo hi d i = some x

/-- C35: samples that are present and not flagged are unchanged. -/
theorem clean_fill_keeps {K : Type*} (n npt : ℕ)
    (interp : ℕ → ℕ → (ℕ → Option K) → (ℕ → Option K)) (hi : KeepsValues interp)
    (u : ℕ → Option K) (mask : ℕ → Bool) (i : ℕ) (x : K) (hm : mask i = false) (hu : u i = some x) :
    cleanFill n npt interp u mask i = some x := by
  unfold cleanFill
  simp only
  rw [interpNan_blocks]
  have key : ∀ (L : List (ℕ × ℕ)) (d : ℕ → Option K), d i = some x →
      (L.foldl (fun d p => interp p.1 p.2 d) d) i = some x := by
    intro L
    induction L with
    | nil => intro d h; exact h
    | cons p L ih => intro d h; exact ih _ (hi p.1 p.2 d i x h)
  apply key
  simp [hm, hu]

/-- C35: the flagged values have no influence on the result. -/
theorem clean_fill_forgets {K : Type*} (n npt : ℕ)
    (interp : ℕ → ℕ → (ℕ → Option K) → (ℕ → Option K))
    (u u' : ℕ → Option K) (mask : ℕ → Bool) (h : ∀ i, mask i = false → u i = u' i) :
    cleanFill n npt interp u mask = cleanFill n npt interp u' mask := by
  have e : ∀ i, (if mask i = true then none else u i) = if mask i = true then none else u' i := by
    intro i
    cases hm : mask i with
    | true => rfl
    | false => simp [h i hm]
  unfold cleanFill
  simp only [e]

/-- C35: a flagged sample outside every interpolation block is missing in the result. -/
theorem clean_fill_last {K : Type*} (n npt : ℕ)
    (interp : ℕ → ℕ → (ℕ → Option K) → (ℕ → Option K))
    (hloc : ∀ lo hi d i, ¬ (lo ≤ i ∧ i < hi) → interp lo hi d i = d i)
    (u : ℕ → Option K) (mask : ℕ → Bool) (i : ℕ) (hm : mask i = true)
    (hc : ¬ Covered (interpBlocks n npt fun j => (if mask j then none else u j).isNone) i) :
    cleanFill n npt interp u mask i = none := by
  unfold cleanFill
  simp only
  rw [interpNan_blocks]
  have key : ∀ (L : List (ℕ × ℕ)) (d : ℕ → Option K), ¬ Covered L i → d i = none →
      (L.foldl (fun d p => interp p.1 p.2 d) d) i = none := by
    intro L
    induction L with
    | nil => intro d _ h; exact h
    | cons p L ih =>
      intro d hcov h
      apply ih
      · rintro ⟨q, hq, h1⟩
        exact hcov ⟨q, List.mem_cons_of_mem _ hq, h1⟩
      · show interp p.1 p.2 d i = none
        rw [hloc _ _ _ _ fun h' => hcov ⟨p, by simp, h'⟩, h]
  apply key _ _ hc
  simp [hm]

example : interpBlocks 10 2 (fun i => i == 3 || i == 5 || i == 9) = [(1, 8)] := by decide
example : interpBlocks 10 2 (fun i => i == 1 || i == 7 || i == 8) = [(0, 4), (5, 10)] := by decide

/-! ### C69: filling with ensemble means -/

theorem ens_div {n nb i : ℕ} (hi : i < n) :
    i / nb ≤ n / nb ∧ (i / nb = n / nb → i % nb < n - n / nb * nb) := by
  constructor
  · exact Nat.div_le_div_right hi.le
  · intro h
    have h1 := Nat.div_add_mod' i nb
    have h2 := Nat.div_add_mod' n nb
    rw [h] at h1
    omega

/-- The samples of the window that contains sample `i`. -/
def Spec.windowOf (n nb : ℕ) (x : ℕ → Option ℝ) (i : ℕ) : List (Option ℝ) :=
  ((List.range n).filter fun j => j / nb = i / nb).map x

theorem window_full (n nb b : ℕ) (hnb : 0 < nb) (hb : b < n / nb) (x : ℕ → Option ℝ) :
    ((List.range n).filter fun j => decide (j / nb = b)).map x =
      (List.range nb).map fun j => x (b * nb + j) := by
  have hle : b * nb + nb ≤ n := by
    have : (b + 1) * nb ≤ n := (Nat.le_div_iff_mul_le hnb).mp hb
    rw [Nat.succ_mul] at this; exact this
  have hsplit : List.range n = List.range (b * nb) ++ ((List.range nb).map (b * nb + ·) ++
      (List.range (n - (b * nb + nb))).map (b * nb + nb + ·)) := by
    conv_lhs => rw [show n = b * nb + (nb + (n - (b * nb + nb))) by omega, List.range_add]
    congr 1
    rw [List.range_add, List.map_append, List.map_map]
    congr 1
    apply List.map_congr_left
    intro k _
    simp only [Function.comp]; omega
  rw [hsplit, List.filter_append, List.filter_append]
  have e1 : (List.range (b * nb)).filter (fun j => decide (j / nb = b)) = [] := by
    rw [List.filter_eq_nil_iff]
    intro j hj
    rw [List.mem_range] at hj
    have : j / nb < b := (Nat.div_lt_iff_lt_mul hnb).mpr hj
    simp; omega
  have e2 : ((List.range nb).map (b * nb + ·)).filter (fun j => decide (j / nb = b)) =
      (List.range nb).map (b * nb + ·) := by
    rw [List.filter_eq_self]
    intro j hj
    obtain ⟨k, hk, rfl⟩ := List.mem_map.mp hj
    rw [List.mem_range] at hk
    rw [decide_eq_true_eq, Nat.mul_comm, Nat.mul_add_div hnb, Nat.div_eq_of_lt hk, Nat.add_zero]
  have e3 : ((List.range (n - (b * nb + nb))).map (b * nb + nb + ·)).filter
      (fun j => decide (j / nb = b)) = [] := by
    rw [List.filter_eq_nil_iff]
    intro j hj
    obtain ⟨k, -, rfl⟩ := List.mem_map.mp hj
    have : b + 1 ≤ (b * nb + nb + k) / nb := by
      rw [Nat.le_div_iff_mul_le hnb, Nat.succ_mul]; omega
    simp; omega
  rw [e1, e2, e3]
  simp

theorem window_last (n nb : ℕ) (hnb : 0 < nb) (x : ℕ → Option ℝ) :
    ((List.range n).filter fun j => decide (j / nb = n / nb)).map x =
      (List.range (n - n / nb * nb)).map fun j => x (n / nb * nb + j) := by
  have hle : n / nb * nb ≤ n := Nat.div_mul_le_self _ _
  have hsplit : List.range n = List.range (n / nb * nb) ++
      (List.range (n - n / nb * nb)).map (n / nb * nb + ·) := by
    conv_lhs => rw [show n = n / nb * nb + (n - n / nb * nb) by omega, List.range_add]
  conv_lhs => rw [hsplit, List.filter_append]
  have e1 : (List.range (n / nb * nb)).filter (fun j => decide (j / nb = n / nb)) = [] := by
    rw [List.filter_eq_nil_iff]
    intro j hj
    rw [List.mem_range] at hj
    have : j / nb < n / nb := (Nat.div_lt_iff_lt_mul hnb).mpr hj
    simp; omega
  have e2 : ((List.range (n - n / nb * nb)).map (n / nb * nb + ·)).filter
      (fun j => decide (j / nb = n / nb)) = (List.range (n - n / nb * nb)).map (n / nb * nb + ·) := by
    rw [List.filter_eq_self]
    intro j hj
    obtain ⟨k, hk, rfl⟩ := List.mem_map.mp hj
    rw [List.mem_range] at hk
    have hk' : k < nb := by
      have := Nat.lt_div_mul_add (a := n) hnb
      omega
    rw [decide_eq_true_eq, Nat.mul_comm, Nat.mul_add_div hnb, Nat.div_eq_of_lt hk', Nat.add_zero]
  rw [e1, e2]
  simp

theorem nanmean_pad (L : List (Option ℝ)) (k : ℕ) :
    nanmean (L ++ (List.range k).map fun _ => none) = nanmean L := by
  have : (L ++ (List.range k).map fun _ => (none : Option ℝ)).reduceOption = L.reduceOption := by
    rw [List.reduceOption_append]
    have : ((List.range k).map fun _ => (none : Option ℝ)).reduceOption = [] := by
      induction List.range k with
      | nil => rfl
      | cons a l ih => rw [List.map_cons, List.reduceOption_cons_of_none, ih]
    rw [this, List.append_nil]
  unfold nanmean
  rw [this]

/-- C69: `fill_nan_ensemble_mean` keeps every sample that is present and unflagged and replaces
every other one by the mean of the good samples of its window (NaN when there are none); the last,
shorter window uses its own mean. -/
theorem fill_ens_mean_spec (n nb : ℕ) (hnb : 0 < nb) (hn : nb ≤ n) (u : ℕ → Option ℝ)
    (mask : ℕ → Bool) :
    ∃ r, fillEnsMean n nb u mask = .ok r ∧ ∀ i < n, r i =
      match (if mask i then none else u i) with
      | some v => some v
      | none => nanmean (Spec.windowOf n nb (fun j => if mask j then none else u j) i) := by
  set x : ℕ → Option ℝ := fun j => if mask j then none else u j with hx
  obtain ⟨m, h1, h2, h3, h4⟩ := reshape_no_pad (some 0) n x nb hnb hn
  have hcols : (ensMatrix n x m).cols = nb := by
    unfold ensMatrix
    simp only
    split_ifs
    · exact h3
    · exact h3
  have hat : ∀ b j, b * nb + j < n → j < nb → (ensMatrix n x m).at_ b j = x (b * nb + j) := by
    intro b j hbj hj
    have hdiv : (b * nb + j) / nb = b := by
      rw [Nat.mul_comm, Nat.mul_add_div hnb, Nat.div_eq_of_lt hj, Nat.add_zero]
    have hb := ens_div (nb := nb) hbj
    rw [hdiv] at hb
    have hmod : (b * nb + j) % nb = j := by
      rw [Nat.mul_comm, Nat.mul_add_mod, Nat.mod_eq_of_lt hj]
    rw [hmod] at hb
    unfold ensMatrix
    simp only [h2, h3]
    by_cases hd : n - n / nb * nb = 0
    · rw [if_pos hd]
      refine h4 b j ?_ hj
      rw [h2]
      rcases Nat.lt_or_ge b (n / nb) with h | h
      · exact h
      · have := hb.2 (le_antisymm hb.1 h); omega
    · rw [if_neg hd]
      simp only
      by_cases hlt : b < n / nb
      · rw [if_pos hlt]; exact h4 b j (by rw [h2]; exact hlt) hj
      · have hbe : b = n / nb := le_antisymm hb.1 (by omega)
        rw [if_neg hlt, if_pos (hb.2 hbe)]
        congr 1
        have := Nat.div_mul_le_self n nb
        rw [hbe]; omega
  have hrow : ∀ i < n, nanmean ((ensMatrix n x m).row (i / nb)) = nanmean (Spec.windowOf n nb x i) := by
    intro i hi
    unfold Spec.windowOf Mat2.row
    rw [hcols]
    have hb := ens_div (nb := nb) hi
    rcases Nat.lt_or_ge (i / nb) (n / nb) with hlt | hge
    · rw [window_full n nb (i / nb) hnb hlt x]
      congr 1
      apply List.map_congr_left
      intro j hj
      rw [List.mem_range] at hj
      apply hat _ _ _ hj
      have : (i / nb + 1) * nb ≤ n := (Nat.le_div_iff_mul_le hnb).mp hlt
      rw [Nat.succ_mul] at this; omega
    · have hbe : i / nb = n / nb := le_antisymm hb.1 hge
      have hi2 := hb.2 hbe
      rw [hbe, window_last n nb hnb x]
      have hlt := Nat.lt_div_mul_add (a := n) hnb
      have hle := Nat.div_mul_le_self n nb
      set d := n - n / nb * nb with hd
      have hsplit : (List.range nb).map ((ensMatrix n x m).at_ (n / nb)) =
          (List.range d).map (fun j => x (n / nb * nb + j)) ++
            (List.range (nb - d)).map fun _ => none := by
        conv_lhs => rw [show nb = d + (nb - d) by omega, List.range_add, List.map_append, List.map_map,
          ← show nb = d + (nb - d) by omega]
        congr 1
        · apply List.map_congr_left
          intro j hj
          rw [List.mem_range] at hj
          exact hat _ _ (by omega) (by omega)
        · apply List.map_congr_left
          intro j hj
          rw [List.mem_range] at hj
          simp only [Function.comp]
          unfold ensMatrix
          simp only [h2, h3]
          rw [if_neg (by omega)]
          simp only
          rw [if_neg (lt_irrefl _), if_neg (by omega)]
      rw [hsplit, nanmean_pad]
  refine ⟨_, by unfold fillEnsMean; simp only; rw [← hx, show ((nb : ℕ) : ℚ) = (nb : ℚ) from rfl, h1], ?_⟩
  intro i hi
  simp only [hcols]
  have hxi : (ensMatrix n x m).at_ (i / nb) (i % nb) = x i := by
    rw [hat _ _ (by rw [Nat.div_add_mod']; exact hi) (Nat.mod_lt _ hnb), Nat.div_add_mod']
  rw [hxi]
  show _ = match x i with
    | some v => some v
    | none => nanmean (Spec.windowOf n nb x i)
  cases hv : x i with
  | none => simp [hrow i hi]
  | some v => simp

/-- C69: a record shorter than one window raises. -/
theorem fill_ens_mean_short (n nb : ℕ) (h : n < nb) (u : ℕ → Option ℝ) (mask : ℕ → Bool) :
    fillEnsMean n nb u mask = .error .exception := by
  unfold fillEnsMean
  simp only
  rw [reshape_short]
  exact_mod_cast h

/-! ### C36 -/

section masks
variable {K : Type*} [Field K] [LinearOrder K] [IsStrictOrderedRing K]

/-- C36: `range_limit` flags exactly the samples that are missing or not strictly inside. -/
theorem range_limit_spec (u : Option K) (lo hi : K) :
    rangeLimit u lo hi = false ↔ ∃ x, u = some x ∧ lo < x ∧ x < hi := by
  unfold rangeLimit
  cases u with
  | none => simp
  | some x => simp

/-- C36: from the second sample on, `spike_thresh` flags exactly the samples that differ from
their predecessor by more than the threshold. -/
theorem spike_thresh_partial (u : ℕ → Option K) (thresh : K) (i : ℕ) :
    spikeThresh u thresh (i + 1) = true ↔
      ∃ x y, u i = some x ∧ u (i + 1) = some y ∧ thresh < |y - x| := by
  unfold spikeThresh
  simp only [Nat.add_sub_cancel, Nat.succ_ne_zero, if_false]
  cases h1 : u i with
  | none => cases u (i + 1) <;> simp [opt2]
  | some x =>
    cases h2 : u (i + 1) with
    | none => simp [opt2]
    | some y =>
      have e : y - x < -thresh ↔ thresh < x - y := by constructor <;> intro h <;> linarith
      simp [opt2, lt_abs, e]

/-- C36: the first sample is compared with zero. -/
theorem spike_thresh_first (u : ℕ → Option K) (thresh : K) :
    spikeThresh u thresh 0 = true ↔ ∃ x, u 0 = some x ∧ thresh < |x| := by
  unfold spikeThresh
  simp only [if_true]
  cases h : u 0 with
  | none => simp [opt2]
  | some x => simp [opt2, lt_abs, lt_neg]

/-- C36 fails: a constant record has no spike, but its first sample is flagged. -/
theorem spike_thresh_constant : spikeThresh (fun _ => some (20 : ℚ)) 10 0 = true := by
  rw [spike_thresh_first]
  exact ⟨20, rfl, by norm_num⟩

end masks

/-! ### C37 -/

theorem gnPass_indep {α : Type*} (T : ℕ → (ℕ → α) → ℕ → Bool) (n npt : ℕ) (hnpt : 0 < npt)
    (u : ℕ → α) (m m' : ℕ → Bool) : gnPass T n npt u m = gnPass T n npt u m' := by
  funext i
  unfold gnPass
  by_cases h1 : n - npt ≤ i
  · rw [if_pos h1, if_pos h1]
  · have h2 : i < n / npt * npt := by
      have := Nat.lt_div_mul_add (a := n) hnpt
      omega
    rw [if_neg h1, if_neg h1, if_pos h2, if_pos h2]

/-- C37: on every non-empty record, whatever the phase-space test answers, the despiking loop ends
after one or two passes without hitting its limit and returns the samples flagged by one pass:
every sample is judged in its block of `npt` samples or, near the end, in the last `npt`. -/
theorem gn2002_spec {α : Type*} (T : ℕ → (ℕ → α) → ℕ → Bool) (n npt : ℕ) (hn : 0 < n)
    (hnpt : 0 < npt) (u : ℕ → α) (fuel : ℕ) (hf : 3 ≤ fuel) :
    ∃ (mask : ℕ → Bool) (c : ℕ), gnBase T fuel n npt u = some (.ok (mask, c)) ∧ 1 ≤ c ∧ c ≤ 2 ∧
      ∀ i < n, mask i = if n - npt ≤ i then T (min npt n) (fun j => u (n - npt + j)) (i - (n - npt))
        else T npt (fun j => u (i / npt * npt + j)) (i % npt) := by
  obtain ⟨f, rfl⟩ : ∃ f, fuel = f + 3 := ⟨fuel - 3, by omega⟩
  set M := gnPass T n npt u (fun _ => false) with hM
  have hpass : ∀ m, gnPass T n npt u m = M := fun m => gnPass_indep T n npt hnpt u m _
  have hMi : ∀ i < n, M i = if n - npt ≤ i then T (min npt n) (fun j => u (n - npt + j)) (i - (n - npt))
        else T npt (fun j => u (i / npt * npt + j)) (i % npt) := by
    intro i _
    rw [hM]
    unfold gnPass
    by_cases h1 : n - npt ≤ i
    · rw [if_pos h1, if_pos h1]
    · have h2 : i < n / npt * npt := by
        have := Nat.lt_div_mul_add (a := n) hnpt
        omega
      rw [if_neg h1, if_neg h1, if_pos h2]
  have hany : (List.range n).any (fun i => decide (i = 0)) = true := by
    rw [List.any_eq_true]; exact ⟨0, List.mem_range.mpr hn, by simp⟩
  have h0 : gnBase T (f + 3) n npt u = gnLoop T n npt u (f + 2) 1 M (some (maskCount n M)) := by
    unfold gnBase
    rw [if_neg (by omega : ¬ npt = 0), if_neg (by omega : ¬ n = 0)]
    rw [show f + 3 = (f + 2) + 1 from rfl, gnLoop, if_pos hany]
    simp only [hpass]
    rw [if_neg (by norm_num)]
    simp
  rw [h0]
  rw [show f + 2 = (f + 1) + 1 from rfl, gnLoop]
  by_cases ha : (List.range n).any M = true
  · rw [if_pos ha]
    simp only [hpass]
    rw [if_neg (by norm_num), if_pos (by simp)]
    exact ⟨M, 2, rfl, by norm_num, le_refl 2, hMi⟩
  · rw [if_neg ha]
    exact ⟨M, 1, rfl, le_refl 1, by norm_num, hMi⟩

/-- C37: an empty record raises IndexError. -/
theorem gn2002_empty {α : Type*} (T : ℕ → (ℕ → α) → ℕ → Bool) (npt : ℕ) (hnpt : 0 < npt)
    (u : ℕ → α) (fuel : ℕ) : gnBase T fuel 0 npt u = some (.error .indexError) := by
  unfold gnBase; rw [if_neg (by omega), if_pos rfl]

example : ∃ (mask : ℕ → Bool) (c : ℕ),
    gnBase (fun _ v i => decide (2 < v i)) 3 5 2 (fun i => i) = some (.ok (mask, c)) ∧
      (List.range 5).map mask = [false, false, false, true, true] := by
  obtain ⟨m, c, h1, -, -, h4⟩ := gn2002_spec (fun _ v i => decide (2 < v i)) 5 2 (by norm_num)
    (by norm_num) (fun i => i) 3 le_rfl
  refine ⟨m, c, h1, ?_⟩
  rw [List.map_congr_left fun i hi => h4 i (List.mem_range.mp hi)]
  decide

/-! ### C71: the phase-space test -/

/-- C71: `_calcab` solves equations 10 and 11 of Goring and Nikora. -/
theorem calcab_spec (al s t a b : ℝ) (h : calcab al s t = .ok (a, b)) :
    Real.cos al ^ 2 * a + Real.sin al ^ 2 * b = s ^ 2 ∧
      Real.sin al ^ 2 * a + Real.cos al ^ 2 * b = t ^ 2 := by
  unfold calcab at h
  simp only at h
  split_ifs at h with hd
  have h' := Prod.ext_iff.mp (Except.ok.inj h)
  simp only at h'
  rw [← h'.1, ← h'.2]
  constructor <;> rw [← mul_div_assoc, ← mul_div_assoc, ← add_div, div_eq_iff hd] <;> ring

/-- C71: `_calcab` fails exactly when the two equations are dependent, at 45 degrees. -/
theorem calcab_singular (al s t : ℝ) : calcab al s t = .error .linAlgError ↔ Real.cos (2 * al) = 0 := by
  have e : Real.cos al ^ 2 * Real.cos al ^ 2 - Real.sin al ^ 2 * Real.sin al ^ 2 = Real.cos (2 * al) := by
    have h1 := Real.sin_sq_add_cos_sq al
    rw [Real.cos_two_mul]
    have : Real.sin al ^ 2 = 1 - Real.cos al ^ 2 := by linarith
    rw [this]; ring
  unfold calcab
  simp only [e]
  split_ifs with h
  · simp [h]
  · simp [h]

/-- C71: a sample is flagged exactly when the point (value, first difference, second difference)
lies outside the ellipsoid with half axes `sqrt a`, `sqrt b` (rotated by `alpha` in the plane of
value and second difference) and `sd`. -/
theorem phase_test_spec (u du d2u alpha a b sd : ℝ) (hr : u ^ 2 + du ^ 2 + d2u ^ 2 ≠ 0)
    (hQ : 0 < (u * Real.cos alpha + d2u * Real.sin alpha) ^ 2 / a +
      (u * Real.sin alpha - d2u * Real.cos alpha) ^ 2 / b + du ^ 2 / sd ^ 2) :
    phaseTest u du d2u alpha a b sd ↔
      1 < (u * Real.cos alpha + d2u * Real.sin alpha) ^ 2 / a +
        (u * Real.sin alpha - d2u * Real.cos alpha) ^ 2 / b + du ^ 2 / sd ^ 2 := by
  set Q := (u * Real.cos alpha + d2u * Real.sin alpha) ^ 2 / a +
        (u * Real.sin alpha - d2u * Real.cos alpha) ^ 2 / b + du ^ 2 / sd ^ 2 with hQd
  have hp : 0 < u ^ 2 + du ^ 2 + d2u ^ 2 := lt_of_le_of_ne (by positivity) hr.symm
  set r := Real.sqrt (u ^ 2 + du ^ 2 + d2u ^ 2) with hrd
  have hr0 : 0 < r := Real.sqrt_pos.mpr hp
  have hr2 : r ^ 2 = u ^ 2 + du ^ 2 + d2u ^ 2 := Real.sq_sqrt hp.le
  set ρ := Real.sqrt (du ^ 2 + u ^ 2) with hρ
  have hρ2 : ρ ^ 2 = du ^ 2 + u ^ 2 := Real.sq_sqrt (by positivity)
  have hρ0 : 0 ≤ ρ := Real.sqrt_nonneg _
  have n1 : ‖(⟨d2u, ρ⟩ : ℂ)‖ = r := by
    rw [Complex.norm_def, Complex.normSq_mk, hrd]
    congr 1; nlinarith
  have hne : (⟨d2u, ρ⟩ : ℂ) ≠ 0 := by
    intro h
    rw [h, norm_zero] at n1
    exact hr0.ne n1
  have cphi : Real.cos (arctan2 ρ d2u) = d2u / r := by
    unfold arctan2; rw [Complex.cos_arg hne, n1]
  have sphi : Real.sin (arctan2 ρ d2u) = ρ / r := by
    unfold arctan2; rw [Complex.sin_arg, n1]
  have n2 : ‖(⟨u, du⟩ : ℂ)‖ = ρ := by
    rw [Complex.norm_def, Complex.normSq_mk, hρ]
    congr 1; ring
  have c1 : Real.sin (arctan2 ρ d2u) * Real.cos (arctan2 du u) = u / r := by
    rw [sphi]
    by_cases h0 : ρ = 0
    · have hu : u = 0 := by
        have : du ^ 2 + u ^ 2 = 0 := by rw [← hρ2, h0]; ring
        nlinarith [sq_nonneg du, sq_nonneg u]
      rw [h0, hu]; simp
    · have hne2 : (⟨u, du⟩ : ℂ) ≠ 0 := by
        intro h; rw [h, norm_zero] at n2; exact h0 n2.symm
      unfold arctan2; rw [Complex.cos_arg hne2, n2]
      field_simp
  have c2 : Real.sin (arctan2 ρ d2u) * Real.sin (arctan2 du u) = du / r := by
    rw [sphi]
    by_cases h0 : ρ = 0
    · have hu : du = 0 := by
        have : du ^ 2 + u ^ 2 = 0 := by rw [← hρ2, h0]; ring
        nlinarith [sq_nonneg du, sq_nonneg u]
      rw [h0, hu]; simp
    · unfold arctan2; rw [Complex.sin_arg, n2]
      field_simp
  unfold phaseTest
  simp only
  rw [← hρ, c1, c2, cphi]
  have e : (u / r * Real.cos alpha + d2u / r * Real.sin alpha) ^ 2 / a +
      (u / r * Real.sin alpha - d2u / r * Real.cos alpha) ^ 2 / b + (du / r) ^ 2 / sd ^ 2 = Q / r ^ 2 := by
    rw [hQd, add_div, add_div, div_div, div_div, div_div, mul_comm a, mul_comm b, mul_comm (sd ^ 2),
      ← div_div, ← div_div, ← div_div]
    congr 1
    · congr 1
      · rw [← div_pow]; congr 2; ring
      · rw [← div_pow]; congr 2; ring
    · rw [div_pow]
  rw [e, ← hr2, inv_div, div_lt_iff₀ hQ]
  have : 0 < r ^ 2 := by positivity
  constructor
  · intro h
    by_contra hc
    nlinarith
  · intro h; nlinarith

example : phaseTest 3 0 0 0 1 1 1 := by
  rw [phase_test_spec] <;> simp

end Dolfyn
