import Verif.Lemmas.Misc
import Mathlib.Data.List.Nodup
import Mathlib.Order.Defs.LinearOrder

/-!
C31 (`slice1d_along_axis`) and C32 (`group`).
-/

namespace Dolfyn
open Spec

/-! ### C32: group -/

/-- A rise starts a maximal run. -/
theorem exists_run (n : ℕ) (bl : ℕ → Bool) (u : ℕ) (hu : u < n) (h1 : bl u = true)
    (h0 : u = 0 ∨ bl (u - 1) = false) : ∃ d, MaxRun n bl u d := by
  have hex : ∃ d, u < d ∧ (d = n ∨ bl d = false) := ⟨n, hu, .inl rfl⟩
  classical
  have hs := Nat.find_spec hex
  have hle : Nat.find hex ≤ n := Nat.find_min' hex ⟨hu, .inl rfl⟩
  refine ⟨Nat.find hex, hs.1, hle, fun j h2 h3 => ?_, h0, hs.2⟩
  by_contra hne
  have hf : bl j = false := by simpa using hne
  have hj : u ≠ j := by rintro rfl; simp [h1] at hf
  exact Nat.find_min hex h3 ⟨by omega, .inr hf⟩

/-- C32 (the part that holds): for a mask that starts with `False`, or has no second run,
`group` lists exactly the maximal runs of at least `min_length`, in order.
Missing for the full claim: masks that start with `True` and contain another run, for which the
claim is false (`group_wrong`). -/
theorem group_partial (n : ℕ) (bl : ℕ → Bool) (m : ℤ)
    (h : bl 0 = false ∨ ∀ i, i + 1 < n → bl i = false → bl (i + 1) = false) :
    RunsOf n bl m (group n bl m) := by
  unfold group
  by_cases hany : (List.range n).any bl = false
  · rw [if_pos hany]
    refine ⟨by simp, fun u d => ?_⟩
    simp only [List.not_mem_nil, false_iff, not_and]
    intro hr
    have h1 := hr.inside u le_rfl hr.lt
    rw [List.any_eq_false] at hany
    exact absurd h1 (hany u (List.mem_range.mpr (by have := hr.lt; have := hr.bound; omega)))
  · rw [if_neg hany]
    have hn : 0 < n := by
      rcases Nat.eq_zero_or_pos n with rfl | h0
      · simp at hany
      · exact h0
    have hz := zip_runs n hn bl
    simp only at hz ⊢
    have hups : (if bl 0 = true then (if upsOf n bl = [] then [0] else [0, (upsOf n bl).length])
        else upsOf n bl) = upsFull n bl := by
      unfold upsFull
      cases hb : bl 0 with
      | false => simp
      | true =>
        have h' : ∀ i, i + 1 < n → bl i = false → bl (i + 1) = false := by
          rcases h with h | h
          · simp [hb] at h
          · exact h
        have : upsOf n bl = [] := by
          unfold upsOf
          rw [List.map_eq_nil_iff, List.filter_eq_nil_iff]
          intro i hi
          have hi' := List.mem_range.mp hi
          cases hbi : bl i with
          | true => simp
          | false => simp [h' i (by omega) hbi]
        simp [this]
    have hdns : (if bl (n - 1) = true then (if dnsOf n bl = [] then [n] else dnsOf n bl ++ [n])
        else dnsOf n bl) = dnsOf n bl ++ if bl (n - 1) then [n] else [] := by
      cases bl (n - 1) with
      | false => simp
      | true => by_cases hd : dnsOf n bl = [] <;> simp [hd]
    have e1 : ((List.range (n - 1)).filter fun i => !bl i && bl (i + 1)).map (· + 1) = upsOf n bl :=
      rfl
    have e2 : ((List.range (n - 1)).filter fun i => bl i && !bl (i + 1)).map (· + 1) = dnsOf n bl :=
      rfl
    rw [e1, e2, hups, hdns]
    refine ⟨hz.1.filter _, fun u d => ?_⟩
    rw [List.mem_filter, hz.2]
    simp only [Bool.not_eq_true', decide_eq_false_iff_not, not_lt]

/-- Mask `F T T F T` : two runs, starts with `False`. -/
example : RunsOf 5 (fun i => i == 1 || i == 2 || i == 4) 0
      (group 5 (fun i => i == 1 || i == 2 || i == 4) 0) ∧
    group 5 (fun i => i == 1 || i == 2 || i == 4) 0 = [(1, 3), (4, 5)] :=
  ⟨group_partial 5 _ 0 (.inl rfl), by decide⟩

/-- C32 fails: whenever the mask starts with `True` and contains another run, the returned
slices are not the runs. -/
theorem group_wrong (n : ℕ) (bl : ℕ → Bool) (m : ℤ) (hm : m ≤ 1) (h0 : bl 0 = true) (i : ℕ)
    (hi : i + 1 < n) (h1 : bl i = false) (h2 : bl (i + 1) = true) :
    ¬ RunsOf n bl m (group n bl m) := by
  intro hruns
  have hany : (List.range n).any bl ≠ false := by
    rw [ne_eq, List.any_eq_false]
    intro hh
    exact hh 0 (List.mem_range.mpr (by omega)) h0
  have hmem : ∀ k, k + 1 ∈ upsOf n bl ↔ k + 1 < n ∧ bl k = false ∧ bl (k + 1) = true := by
    intro k
    unfold upsOf
    simp only [List.mem_map, List.mem_filter, List.mem_range, Bool.and_eq_true, Bool.not_eq_true']
    constructor
    · rintro ⟨j, ⟨hj, hb⟩, hjk⟩
      obtain rfl : j = k := by omega
      exact ⟨by omega, hb⟩
    · rintro ⟨hk, hb⟩
      exact ⟨k, ⟨by omega, hb⟩, rfl⟩
  -- every rise must be the start of a returned slice, hence equal to `len(ups)`
  have key : ∀ x ∈ upsOf n bl, x = (upsOf n bl).length := by
    intro x hx
    obtain ⟨k, rfl⟩ : ∃ k, x = k + 1 := by
      unfold upsOf at hx
      obtain ⟨k, -, hk⟩ := List.mem_map.mp hx
      exact ⟨k, hk.symm⟩
    obtain ⟨hk, hb1, hb2⟩ := (hmem k).mp hx
    obtain ⟨d, hd⟩ := exists_run n bl (k + 1) hk hb2 (.inr (by simpa using hb1))
    have hin := (hruns.2 (k + 1) d).mpr ⟨hd, by have := hd.lt; omega⟩
    unfold group at hin
    rw [if_neg hany] at hin
    simp only at hin
    have e1 : ((List.range (n - 1)).filter fun i => !bl i && bl (i + 1)).map (· + 1) =
      upsOf n bl := rfl
    rw [e1, if_pos h0, if_neg (List.ne_nil_of_mem hx)] at hin
    have := (List.of_mem_zip (List.mem_filter.mp hin).1).1
    simpa using this
  have hx : i + 1 ∈ upsOf n bl := (hmem i).mpr ⟨hi, h1, h2⟩
  have hnd : (upsOf n bl).Nodup := by
    unfold upsOf
    exact ((List.nodup_range).filter _).map fun a b h => by simpa using h
  have hlen : (upsOf n bl).length = 1 := by
    match hL : upsOf n bl with
    | [] => rw [hL] at hx; simp at hx
    | [a] => rfl
    | a :: b :: l =>
      rw [hL] at key hnd
      have ha := key a (by simp)
      have hb := key b (by simp)
      have : a ≠ b := by
        intro hab
        simp [hab] at hnd
      omega
  have := key (i + 1) hx
  rw [hlen] at this
  obtain rfl : i = 0 := by omega
  simp [h0] at h1

/-- Mask `T F T`: the second slice starts at 1 instead of 2. -/
example : group 3 (fun i => i == 0 || i == 2) 0 = [(0, 1), (1, 3)] := by decide

/-- `RunsOf` determines the list. -/
theorem runsOf_unique {n : ℕ} {bl : ℕ → Bool} {m : ℤ} {L L' : List (ℕ × ℕ)}
    (h : RunsOf n bl m L) (h' : RunsOf n bl m L') : L = L' := by
  have hmem : ∀ p, p ∈ L ↔ p ∈ L' := fun ⟨u, d⟩ => by rw [h.2, h'.2]
  have lt1 : ∀ p ∈ L, p.1 < p.2 := fun ⟨u, d⟩ hp => ((h.2 u d).mp hp).1.lt
  have lt2 : ∀ p ∈ L', p.1 < p.2 := fun ⟨u, d⟩ hp => ((h'.2 u d).mp hp).1.lt
  have key : ∀ (L L' : List (ℕ × ℕ)), L.Pairwise (fun p q => p.2 < q.1) →
      L'.Pairwise (fun p q => p.2 < q.1) → (∀ p ∈ L, p.1 < p.2) → (∀ p ∈ L', p.1 < p.2) →
      (∀ p, p ∈ L ↔ p ∈ L') → L = L' := by
    intro L
    induction L with
    | nil =>
      intro L' _ _ _ _ hm
      exact (List.eq_nil_iff_forall_not_mem.mpr fun p hp => by simpa using (hm p).mpr hp).symm
    | cons a L ih =>
      intro L' hp hp' hl hl' hm
      cases L' with
      | nil => exact absurd ((hm a).mp (by simp)) (by simp)
      | cons b L' =>
        obtain ⟨ha, hq⟩ := List.pairwise_cons.mp hp
        obtain ⟨hb, hq'⟩ := List.pairwise_cons.mp hp'
        have la := hl a (by simp)
        have lb := hl' b (by simp)
        have hab : a = b := by
          rcases List.mem_cons.mp ((hm a).mp (by simp)) with h | h
          · exact h
          rcases List.mem_cons.mp ((hm b).mpr (by simp)) with h2 | h2
          · exact h2.symm
          have := ha b h2
          have := hb a h
          omega
        subst hab
        rw [ih L' hq hq' (fun p hp => hl p (by simp [hp])) (fun p hp => hl' p (by simp [hp]))]
        intro p
        have hmp := hm p
        simp only [List.mem_cons] at hmp
        constructor
        · intro h
          rcases hmp.mp (.inr h) with rfl | h1
          · have := ha p h; omega
          · exact h1
        · intro h
          rcases hmp.mpr (.inr h) with rfl | h1
          · have := hb p h; omega
          · exact h1
  exact key L L' h.1 h'.1 lt1 lt2 hmem

/-! ### C31: slice1d_along_axis -/

/-- The row-major list contains exactly the index tuples below the dimensions. -/
theorem mem_prodIdx (ds : List ℕ) (x : List ℕ) : x ∈ prodIdx ds ↔ List.Forall₂ (· < ·) x ds := by
  induction ds generalizing x with
  | nil => simp [prodIdx]
  | cons d ds ih =>
    simp only [prodIdx, List.mem_flatMap, List.mem_range, List.mem_map]
    constructor
    · rintro ⟨i, hi, y, hy, rfl⟩
      exact .cons hi ((ih y).mp hy)
    · intro h
      cases h with
      | cons h1 h2 => exact ⟨_, h1, _, (ih _).mpr h2, rfl⟩

/-- ... in strictly increasing lexicographic order (so each exactly once). -/
theorem prodIdx_sorted (ds : List ℕ) : (prodIdx ds).Pairwise (List.Lex (· < ·)) := by
  induction ds with
  | nil => simp [prodIdx]
  | cons d ds ih =>
    simp only [prodIdx]
    rw [List.pairwise_flatMap]
    refine ⟨fun i _ => ?_, ?_⟩
    · rw [List.pairwise_map]
      exact ih.imp fun h => .cons h
    · refine List.pairwise_lt_range.imp fun {i j} hij => ?_
      intro x hx y hy
      obtain ⟨x', -, rfl⟩ := List.mem_map.mp hx
      obtain ⟨y', -, rfl⟩ := List.mem_map.mp hy
      exact .rel hij

/-- C31: for two or more dimensions and a valid axis, the iterator yields the index tuples of the
other dimensions in row-major order, with a full slice at the axis, and stops. -/
theorem slice1d_spec (shape : List ℕ) (axis : ℤ) (ax : ℕ) (hnd : 2 ≤ shape.length)
    (hax : ax < shape.length) (h : axis = ax ∨ axis = (ax : ℤ) - shape.length) :
    slice1d shape axis =
      .ok ((prodIdx (shape.eraseIdx ax)).map fun x => (x.map some).insertIdx ax none) := by
  unfold slice1d
  have hnorm : (if axis < 0 then axis + (shape.length : ℤ) else axis) = ax := by
    rcases h with h | h
    · rw [if_neg (by omega), h]
    · rw [if_pos (by omega), h]; omega
  simp only [hnorm]
  rw [if_neg (by omega)]
  simp only [Int.toNat_natCast]
  have hlen : (shape.eraseIdx ax).length = shape.length - 1 := List.length_eraseIdx_of_lt hax
  have hne : shape.eraseIdx ax ≠ [] := by
    intro h0
    rw [h0] at hlen
    simp at hlen
    omega
  rw [if_neg hne]
  congr 1
  rw [← hlen, ← List.length_reverse, ← digs_zero]
  rw [odometer_eq (shape.eraseIdx ax).reverse (shape.eraseIdx ax).prod 0
    (digs 0 (shape.eraseIdx ax).reverse) (by rw [List.prod_reverse]; omega)
    (fun h0 => carry_digs _ 0 (by rwa [List.prod_reverse]))]
  rw [prodIdx_eq_digs, List.map_map, List.map_map]
  apply List.map_congr_left
  intro k _
  simp

/-- Shape (2, 3, 2), axis −2: four 1-D slices. -/
example : slice1d [2, 3, 2] (-2) = .ok [[some 0, none, some 0], [some 0, none, some 1],
    [some 1, none, some 0], [some 1, none, some 1]] := by
  rw [slice1d_spec [2, 3, 2] (-2) 1 (by simp) (by simp) (.inr (by simp))]
  rfl

/-- C31: distinct yields never select the same slice. -/
theorem slice1d_nodup (shape : List ℕ) (axis : ℤ) (ys : List (List (Option ℕ)))
    (h : slice1d shape axis = .ok ys) (ax : ℕ) (hnd : 2 ≤ shape.length) (hax : ax < shape.length)
    (hax' : axis = ax ∨ axis = (ax : ℤ) - shape.length) :
    ys.Nodup ∧ ∀ y, y ∈ ys ↔
      y.length = shape.length ∧ ∀ k (hk : k < shape.length),
        y[k]? = some none ∧ k = ax ∨ ∃ v, y[k]? = some (some v) ∧ v < shape[k] ∧ k ≠ ax := by
  rw [slice1d_spec shape axis ax hnd hax hax'] at h
  replace h := Except.ok.inj h
  subst h
  have hlenE : (shape.eraseIdx ax).length = shape.length - 1 := List.length_eraseIdx_of_lt hax
  constructor
  · apply List.Nodup.map_on
    · intro x hx y hy hxy
      have h1 := congrArg (fun l => l.eraseIdx ax) hxy
      simp only [List.eraseIdx_insertIdx_self] at h1
      exact (List.map_injective_iff.mpr (Option.some_injective ℕ)) h1
    · refine (prodIdx_sorted _).imp fun {a b} hab => ?_
      rintro rfl
      exact (List.lex_irrefl (fun x => Nat.lt_irrefl x)) a hab
  · intro y
    rw [List.mem_map]
    constructor
    · rintro ⟨x, hx, rfl⟩
      rw [mem_prodIdx] at hx
      have hxl := hx.length_eq
      have hxl' : ax ≤ (x.map some).length := by rw [List.length_map, hxl, hlenE]; omega
      refine ⟨by rw [List.length_insertIdx_of_le_length hxl', List.length_map, hxl, hlenE]; omega, ?_⟩
      intro k hk
      rw [List.getElem?_insertIdx]
      rcases Nat.lt_trichotomy k ax with h1 | h1 | h1
      · right
        have hkx : k < x.length := by omega
        refine ⟨x[k], by rw [if_pos h1]; simp [hkx], ?_, by omega⟩
        have := List.Forall₂.get hx hkx (by omega)
        simpa [List.getElem_eraseIdx_of_lt _ h1] using this
      · left
        subst h1
        simp
        omega
      · right
        have hkx : k - 1 < x.length := by omega
        refine ⟨x[k - 1], by rw [if_neg (by omega), if_neg (by omega)]; simp [hkx], ?_, by omega⟩
        have := List.Forall₂.get hx hkx (by omega)
        have hge : ax ≤ k - 1 := by omega
        simp only [List.get_eq_getElem] at this
        rw [List.getElem_eraseIdx_of_ge _ hge] at this
        simpa [Nat.sub_add_cancel (by omega : 1 ≤ k)] using this
    · rintro ⟨hl, hy⟩
      have hnone : y[ax]? = some none := by
        rcases hy ax hax with h | ⟨v, -, -, h⟩
        · exact h.1
        · exact absurd rfl h
      have hsome : ∀ k (hk : k < shape.length), k ≠ ax → ∃ v, y[k]? = some (some v) ∧ v < shape[k] := by
        intro k hk hne
        rcases hy k hk with h | ⟨v, h1, h2, -⟩
        · exact absurd h.2 hne
        · exact ⟨v, h1, h2⟩
      refine ⟨(y.eraseIdx ax).map (·.getD 0), ?_, ?_⟩
      · rw [mem_prodIdx, List.forall₂_iff_get]
        have hyl : (y.eraseIdx ax).length = shape.length - 1 := by
          rw [List.length_eraseIdx_of_lt (by omega), hl]
        refine ⟨by rw [List.length_map, hyl, hlenE], ?_⟩
        intro k h1 h2
        simp only [List.get_eq_getElem, List.getElem_map]
        by_cases hk : k < ax
        · obtain ⟨v, e1, e2⟩ := hsome k (by omega) (by omega)
          rw [List.getElem_eraseIdx_of_lt _ hk, List.getElem_eraseIdx_of_lt _ hk]
          rw [List.getElem?_eq_some_iff] at e1
          obtain ⟨_, e1⟩ := e1
          rw [e1]; exact e2
        · have hk' : k + 1 < shape.length := by rw [hlenE] at h2; omega
          obtain ⟨v, e1, e2⟩ := hsome (k + 1) hk' (by omega)
          rw [List.getElem_eraseIdx_of_ge _ (by omega), List.getElem_eraseIdx_of_ge _ (by omega)]
          rw [List.getElem?_eq_some_iff] at e1
          obtain ⟨_, e1⟩ := e1
          rw [e1]; exact e2
      · have hm : ((y.eraseIdx ax).map (·.getD 0)).map some = y.eraseIdx ax := by
          rw [List.map_map]
          conv_rhs => rw [← List.map_id (y.eraseIdx ax)]
          apply List.map_congr_left
          intro z hz
          obtain ⟨k, hk, rfl⟩ := List.getElem_of_mem hz
          have hk' : k < shape.length - 1 := by
            rw [List.length_eraseIdx_of_lt (by omega), hl] at hk; exact hk
          simp only [Function.comp_apply, id_eq]
          by_cases hka : k < ax
          · obtain ⟨v, e1, -⟩ := hsome k (by omega) (by omega)
            rw [List.getElem_eraseIdx_of_lt _ hka]
            obtain ⟨_, e1⟩ := List.getElem?_eq_some_iff.mp e1
            rw [e1]; rfl
          · obtain ⟨v, e1, -⟩ := hsome (k + 1) (by omega) (by omega)
            rw [List.getElem_eraseIdx_of_ge _ (by omega)]
            obtain ⟨_, e1⟩ := List.getElem?_eq_some_iff.mp e1
            rw [e1]; rfl
        rw [hm]
        obtain ⟨hlt, hget⟩ := List.getElem?_eq_some_iff.mp hnone
        rw [← hget]
        exact List.insertIdx_eraseIdx_getElem hlt

/-- C31: one-dimensional shapes and out-of-range axes raise. -/
theorem slice1d_errors (shape : List ℕ) (axis : ℤ) :
    (shape.length = 1 → (axis = 0 ∨ axis = -1) → slice1d shape axis = .error .indexError) ∧
    (axis < -(shape.length : ℤ) ∨ (shape.length : ℤ) ≤ axis →
      slice1d shape axis = .error .valueError) := by
  constructor
  · intro h1 h2
    match shape, h1 with
    | [n], _ => rcases h2 with rfl | rfl <;> simp [slice1d]
  · intro h
    unfold slice1d
    simp only
    rw [if_pos]
    split <;> omega

end Dolfyn
