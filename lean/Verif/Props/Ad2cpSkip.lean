import Verif.Model.Ad2cpMore
import Mathlib.Data.List.Chain
import Mathlib.Data.List.Nodup
import Mathlib.Data.List.Sort
import Mathlib.Data.List.Dedup

/-!
Properties of the correction of skipped pings (`_check_index`): C93.
-/

namespace Dolfyn

/-! ### Specification -/

/-- The ensemble to which entry `i` of the index belongs, when the index consists of these ensembles. -/
def Spec.memberOf : List (List ℕ) → ℕ → ℕ
  | [], _ => 0
  | e :: r, i => if i < e.length then 0 else Spec.memberOf r (i - e.length) + 1

/-- An index whose ensembles list record types in a fixed order, where single records are skipped now and
then: at most one per ensemble, never in the first one, and never in two ensembles in a row. -/
structure Spec.SkipIndex (order : List ℕ) (es : List (List ℕ)) : Prop where
  nodup : order.Nodup
  sub : ∀ e ∈ es, List.Sublist e order
  one : ∀ e ∈ es, order.length ≤ e.length + 1
  first : es.head? = some order
  isolated : es.IsChain fun e f => e = order ∨ f = order

/-- The count of a record among the records of its type, the first one being number 0. -/
def Spec.serial (ids : List ℕ) (i : ℕ) : ℕ := (ids.take i).count (ids.getD i 0)

/-! ### Positions of a type -/

theorem adInds_append (A B : List ℕ) (a : ℕ) :
    adInds (A ++ B) a = adInds A a ++ (adInds B a).map (A.length + ·) := by
  unfold adInds
  rw [List.length_append, List.range_add, List.filter_append, List.filter_map]
  congr 1
  · apply List.filter_congr
    intro i hi
    rw [List.mem_range] at hi
    rw [List.getD_eq_getElem?_getD, List.getElem?_append_left hi, List.getD_eq_getElem?_getD]
  · congr 1
    apply List.filter_congr
    intro i _
    simp [List.getD_eq_getElem?_getD, List.getElem?_append_right]

theorem adInds_nodup : ∀ (e : List ℕ) (a : ℕ), e.Nodup → adInds e a = if a ∈ e then [e.idxOf a] else []
  | [], a, _ => by simp [adInds]
  | x :: e, a, h => by
    have hx : adInds [x] a = if x = a then [0] else [] := by
      unfold adInds; simp [List.range_succ]; split <;> simp_all
    rw [show x :: e = [x] ++ e from rfl, adInds_append, hx, adInds_nodup e a (List.nodup_cons.mp h).2]
    by_cases hxa : x = a
    · subst hxa
      have := (List.nodup_cons.mp h).1
      simp [this]
    · have hax : ¬ a = x := fun h => hxa h.symm
      by_cases ha : a ∈ e
      · simp [hxa, hax, ha, List.idxOf_cons_ne _ hxa]; omega
      · simp [hxa, hax, ha]

/-- Positions of a type together with the ensemble they belong to. -/
def Spec.occ (a : ℕ) : List (List ℕ) → ℕ → ℕ → List (ℕ × ℕ)
  | [], _, _ => []
  | e :: r, p, j =>
    if a ∈ e then (p + e.idxOf a, j) :: Spec.occ a r (p + e.length) (j + 1)
    else Spec.occ a r (p + e.length) (j + 1)

theorem occ_shift (a : ℕ) : ∀ (es : List (List ℕ)) (p q j : ℕ),
    ((Spec.occ a es p j).map Prod.fst).map (q + ·) = (Spec.occ a es (q + p) j).map Prod.fst
  | [], _, _, _ => rfl
  | e :: r, p, q, j => by
    unfold Spec.occ
    split
    · simp only [List.map_cons]
      rw [occ_shift a r, ← Nat.add_assoc, ← Nat.add_assoc]
    · rw [occ_shift a r, ← Nat.add_assoc]

theorem adInds_flatten (a : ℕ) : ∀ (es : List (List ℕ)) (j : ℕ), (∀ e ∈ es, e.Nodup) →
    adInds es.flatten a = (Spec.occ a es 0 j).map Prod.fst
  | [], _, _ => by simp [adInds, Spec.occ]
  | e :: r, j, h => by
    rw [List.flatten_cons, adInds_append, adInds_nodup e a (h e (by simp)),
      adInds_flatten a r (j + 1) (fun x hx => h x (by simp [hx])), occ_shift]
    rw [Spec.occ]
    split <;> simp

theorem occ_ens (a : ℕ) : ∀ (es : List (List ℕ)) (p j : ℕ) (x : ℕ × ℕ), x ∈ Spec.occ a es p j →
    p ≤ x.1 ∧ x.2 = j + Spec.memberOf es (x.1 - p)
  | [], _, _, x, h => by simp [Spec.occ] at h
  | e :: r, p, j, x, h => by
    have rest : x ∈ Spec.occ a r (p + e.length) (j + 1) →
        p ≤ x.1 ∧ x.2 = j + Spec.memberOf (e :: r) (x.1 - p) := by
      intro hx
      obtain ⟨h1, h2⟩ := occ_ens a r _ _ x hx
      refine ⟨by omega, ?_⟩
      unfold Spec.memberOf
      rw [if_neg (by omega), h2, show x.1 - p - e.length = x.1 - (p + e.length) by omega]
      omega
    unfold Spec.occ at h
    split at h
    · rename_i ha
      rcases List.mem_cons.mp h with rfl | h
      · refine ⟨by simp, ?_⟩
        unfold Spec.memberOf
        rw [if_pos (by simpa using List.idxOf_lt_length_iff.mpr ha)]
        rfl
      · exact rest h
    · exact rest h

/-! ### Distances -/

theorem sublist_idxOf_le {e f : List ℕ} (h : List.Sublist e f) (a : ℕ) (ha : a ∈ e) (hf : f.Nodup) :
    e.idxOf a ≤ f.idxOf a := by
  induction h with
  | slnil => simp
  | @cons l₁ l₂ x hs ih =>
    have hx : a ≠ x := fun h => (List.nodup_cons.mp hf).1 (h ▸ hs.subset ha)
    rw [List.idxOf_cons_ne _ hx.symm]
    have := ih ha (List.nodup_cons.mp hf).2
    omega
  | @cons_cons l₁ l₂ x hs ih =>
    by_cases hx : x = a
    · subst hx; simp
    · rw [List.idxOf_cons_ne _ hx, List.idxOf_cons_ne _ hx]
      have ha' : a ∈ l₁ := by
        rcases List.mem_cons.mp ha with h | h
        · exact absurd h.symm hx
        · exact h
      have := ih ha' (List.nodup_cons.mp hf).2
      omega

theorem sublist_tail_le {e f : List ℕ} (h : List.Sublist e f) (a : ℕ) (ha : a ∈ e) (hf : f.Nodup) :
    e.length - e.idxOf a ≤ f.length - f.idxOf a := by
  induction h with
  | slnil => simp
  | @cons l₁ l₂ x hs ih =>
    have hx : a ≠ x := fun h => (List.nodup_cons.mp hf).1 (h ▸ hs.subset ha)
    rw [List.idxOf_cons_ne _ hx.symm, List.length_cons]
    have := ih ha (List.nodup_cons.mp hf).2
    omega
  | @cons_cons l₁ l₂ x hs ih =>
    by_cases hx : x = a
    · subst hx; have := hs.length_le; simp; exact this
    · rw [List.idxOf_cons_ne _ hx, List.idxOf_cons_ne _ hx, List.length_cons, List.length_cons]
      have ha' : a ∈ l₁ := by
        rcases List.mem_cons.mp ha with h | h
        · exact absurd h.symm hx
        · exact h
      have := ih ha' (List.nodup_cons.mp hf).2
      omega

/-- Neighbouring records of a type: in the next ensemble and near, or in the one after it and far. -/
def Spec.nextOcc (N : ℕ) (x y : ℕ × ℕ) : Prop :=
  (y.2 = x.2 + 1 ∧ y.1 - x.1 ≤ N) ∨ (y.2 = x.2 + 2 ∧ N < y.1 - x.1)

theorem occ_chain (order : List ℕ) (hn : order.Nodup) (h2 : 2 ≤ order.length) (a : ℕ) (hao : a ∈ order) :
    ∀ (es : List (List ℕ)) (p j : ℕ), (∀ e ∈ es, List.Sublist e order) →
      (∀ e ∈ es, order.length ≤ e.length + 1) → (es.IsChain fun e f => e = order ∨ f = order) →
      (Spec.occ a es p j).IsChain (Spec.nextOcc order.length)
  | [], _, _, _, _, _ => by simp [Spec.occ]
  | e :: r, p, j, hs, h1, hc => by
    have ihr := occ_chain order hn h2 a hao r (p + e.length) (j + 1) (fun x hx => hs x (by simp [hx]))
      (fun x hx => h1 x (by simp [hx])) hc.tail
    unfold Spec.occ
    by_cases ha : a ∈ e
    · rw [if_pos ha]
      have hidx := List.idxOf_lt_length_iff.mpr ha
      have hoidx := List.idxOf_lt_length_iff.mpr hao
      rcases r with _ | ⟨f, r⟩
      · simp [Spec.occ]
      · by_cases hf : a ∈ f
        · unfold Spec.occ at ihr ⊢
          rw [if_pos hf] at ihr ⊢
          refine List.IsChain.cons_cons (.inl ⟨rfl, ?_⟩) ihr
          have t1 := sublist_tail_le (hs e (by simp)) a ha hn
          have t2 := sublist_idxOf_le (hs f (by simp)) a hf hn
          simp only
          omega
        · have hef : e = order := by
            rcases List.isChain_cons_cons.mp hc |>.1 with h | h
            · exact h
            · exact absurd (h ▸ hao) hf
          have hfl := h1 f (by simp)
          unfold Spec.occ at ihr ⊢
          rw [if_neg hf] at ihr ⊢
          rcases r with _ | ⟨g, r⟩
          · simp [Spec.occ]
          · have hg : g = order := by
              rcases List.isChain_cons_cons.mp (List.isChain_cons_cons.mp hc).2 |>.1 with h | h
              · exact absurd (h ▸ hao) hf
              · exact h
            unfold Spec.occ at ihr ⊢
            have hag : a ∈ g := hg ▸ hao
            rw [if_pos hag] at ihr ⊢
            refine List.IsChain.cons_cons (.inr ⟨rfl, ?_⟩) ihr
            subst hef
            subst hg
            simp only
            omega
    · rw [if_neg ha]; exact ihr

/-! ### The correction of one type -/

theorem count_filter_range (q : ℕ → Bool) (m k : ℕ) (h : k ≤ m) :
    ((List.range m).filter q).countP (fun j => decide (j < k)) = ((List.range k).filter q).length := by
  obtain ⟨d, rfl⟩ := Nat.exists_eq_add_of_le h
  rw [List.range_add, List.filter_append, List.countP_append]
  have e1 : ((List.range k).filter q).countP (fun j => decide (j < k)) = ((List.range k).filter q).length := by
    rw [List.countP_eq_length]
    intro j hj
    have := List.mem_range.mp (List.mem_of_mem_filter hj)
    simpa using this
  have e2 : (((List.range d).map (k + ·)).filter q).countP (fun j => decide (j < k)) = 0 := by
    rw [List.countP_eq_zero]
    intro j hj
    obtain ⟨i, _, rfl⟩ := List.mem_map.mp (List.mem_of_mem_filter hj)
    simp
  rw [e1, e2, Nat.add_zero]

theorem occ_number (N : ℕ) (L : List (ℕ × ℕ)) (hL : L.IsChain (Spec.nextOcc N)) (h0 : ∀ x ∈ L.head?, x.2 = 0) :
    ∀ (k : ℕ) (hk : k < L.length),
      (L[k]).2 = k + (adIbad N (L.map Prod.fst)).countP (fun j => decide (j < k)) := by
  intro k hk
  unfold adIbad
  rw [count_filter_range _ _ _ (by rw [List.length_map]; omega)]
  induction k with
  | zero =>
    rcases L with _ | ⟨x, L⟩
    · simp at hk
    · simpa using h0 x (by simp)
  | succ k ih =>
    have := ih (by omega)
    have hr := (List.isChain_iff_getElem.mp hL) k (by omega)
    rw [List.range_succ, List.filter_append, List.length_append]
    have g1 : (L.map Prod.fst).getD k 0 = (L[k]).1 := by
      rw [List.getD_eq_getElem _ _ (by rw [List.length_map]; omega), List.getElem_map]
    have g2 : (L.map Prod.fst).getD (k + 1) 0 = (L[k + 1]).1 := by
      rw [List.getD_eq_getElem _ _ (by rw [List.length_map]; omega), List.getElem_map]
    rcases hr with ⟨e, hle⟩ | ⟨e, hlt⟩
    · have hq : ¬ N < (L[k + 1]).1 - (L[k]).1 := by omega
      rw [e, this, List.filter_cons_of_neg (by rw [g1, g2]; simpa using hq), List.filter_nil, List.length_nil]
      omega
    · rw [e, this, List.filter_cons_of_pos (by rw [g1, g2]; simpa using hlt), List.filter_nil,
        List.length_singleton]
      omega

theorem bump_val (inds : List ℕ) (hn : inds.Nodup) (k : ℕ) (hk : k < inds.length) :
    ∀ (ibad : List ℕ) (ens : ℕ → ℕ), (ibad.foldl (adBump inds) ens) inds[k] =
      ens inds[k] + ibad.countP (fun j => decide (j < k))
  | [], _ => by simp
  | b :: l, ens => by
    rw [List.foldl_cons, bump_val inds hn k hk l, List.countP_cons]
    have : inds[k] ∈ inds.drop (b + 1) ↔ b < k := by
      rw [List.mem_drop_iff_getElem]
      constructor
      · rintro ⟨i, hi, e⟩
        have := (List.Nodup.getElem_inj_iff hn).mp e
        omega
      · intro h
        exact ⟨k - (b + 1), by omega, by congr 1; omega⟩
    unfold adBump
    by_cases h : b < k
    · rw [if_pos (this.mpr h)]; simp [h]; omega
    · rw [if_neg (fun hh => h (this.mp hh))]; simp [h]

theorem bump_other (inds : List ℕ) (i : ℕ) (hi : i ∉ inds) :
    ∀ (ibad : List ℕ) (ens : ℕ → ℕ), (ibad.foldl (adBump inds) ens) i = ens i
  | [], _ => rfl
  | b :: l, ens => by
    rw [List.foldl_cons, bump_other inds i hi l]
    unfold adBump
    rw [if_neg (fun h => hi (List.mem_of_mem_drop h))]

theorem mem_adInds (ids : List ℕ) (a i : ℕ) : i ∈ adInds ids a ↔ i < ids.length ∧ ids.getD i 0 = a := by
  simp [adInds]

theorem adInds_nodup' (ids : List ℕ) (a : ℕ) : (adInds ids a).Nodup := List.nodup_range.filter _

/-- Only the pass of its own type changes an entry. -/
theorem fix_fold (ids : List ℕ) (a i c : ℕ) (hi : i ∈ adInds ids a)
    (hc : ∀ ens : ℕ → ℕ, adFixId ids false ens a i = ens i + c) :
    ∀ (l : List ℕ) (ens : ℕ → ℕ), l.Nodup →
      (l.foldl (adFixId ids false) ens) i = ens i + if a ∈ l then c else 0
  | [], _, _ => by simp
  | b :: l, ens, hn => by
    rw [List.foldl_cons, fix_fold ids a i c hi hc l _ (List.nodup_cons.mp hn).2]
    by_cases hb : b = a
    · subst hb
      rw [hc, if_neg (List.nodup_cons.mp hn).1, if_pos (by simp), Nat.add_zero]
    · have : adFixId ids false ens b i = ens i := by
        unfold adFixId
        apply bump_other
        intro h
        exact hb (((mem_adInds _ _ _).mp h).2.symm.trans ((mem_adInds _ _ _).mp hi).2)
      rw [this]
      have : (a ∈ b :: l) ↔ a ∈ l := by
        simp [show ¬ a = b from fun h => hb h.symm]
      simp [this]

theorem adUids_nodup (ids : List ℕ) : (adUids ids).Nodup :=
  (List.perm_insertionSort (· ≤ ·) _).nodup_iff.mpr (List.nodup_dedup ids)

theorem mem_adUids (ids : List ℕ) (a : ℕ) : a ∈ adUids ids ↔ a ∈ ids := by
  unfold adUids
  rw [(List.perm_insertionSort (· ≤ ·) _).mem_iff, List.mem_dedup]

/-- The number of types. -/
theorem adUids_length (ids order : List ℕ) (hn : order.Nodup) (h : ∀ a, a ∈ ids ↔ a ∈ order) :
    (adUids ids).length = order.length := by
  apply List.Perm.length_eq
  rw [List.perm_ext_iff_of_nodup (adUids_nodup ids) hn]
  intro a
  rw [mem_adUids, h]

theorem serial_eq (ids : List ℕ) (a k : ℕ) (hk : k < (adInds ids a).length) :
    Spec.serial ids (adInds ids a)[k] = k := by
  have hm := (mem_adInds ids a _).mp (List.getElem_mem hk)
  unfold Spec.serial
  rw [hm.2]
  obtain ⟨hlt, -⟩ := hm
  set i := (adInds ids a)[k] with hi
  have hcut : adInds ids a = adInds (ids.take i) a ++ (adInds (ids.drop i) a).map ((ids.take i).length + ·) := by
    rw [← adInds_append, List.take_append_drop]
  have hlen : (adInds (ids.take i) a).length = (ids.take i).count a := by
    generalize ids.take i = l
    induction l using List.reverseRecOn with
    | nil => simp [adInds]
    | append_singleton l x ih =>
      rw [adInds_append, List.length_append, ih, List.count_append, List.length_map]
      congr 1
      unfold adInds
      by_cases hx : x = a <;> simp [List.range_succ, hx]
  have htl : (ids.take i).length = i := by rw [List.length_take]; omega
  rw [← hlen]
  -- entries of the first part are below `i`, those of the second part are not
  by_contra hne
  rcases Nat.lt_or_gt_of_ne hne with h | h
  · -- entry number `len` of the whole list is the first one of the second part, which is `i` itself
    have hmem : i ∈ adInds ids a := by rw [hi]; exact List.getElem_mem hk
    have hin : 0 ∈ adInds (ids.drop i) a := by
      rw [mem_adInds]
      have := (mem_adInds ids a i).mp hmem
      refine ⟨by rw [List.length_drop]; omega, ?_⟩
      rw [List.getD_eq_getElem?_getD, List.getElem?_drop, Nat.add_zero, ← List.getD_eq_getElem?_getD]
      exact this.2
    have hz : adInds (ids.drop i) a ≠ [] := List.ne_nil_of_mem hin
    have h0 : (adInds (ids.drop i) a)[0]'(List.length_pos_of_ne_nil hz) = 0 := by
      have hs : (adInds (ids.drop i) a).Pairwise (· < ·) := List.pairwise_lt_range.filter _
      obtain ⟨n, hn, e⟩ := List.mem_iff_getElem.mp hin
      rcases Nat.eq_zero_or_pos n with rfl | hp
      · exact e
      · have := (List.pairwise_iff_getElem.mp hs) 0 n (by omega) hn hp
        omega
    have : (adInds ids a)[(adInds (ids.take i) a).length]'(by omega) = i := by
      rw [List.getElem_of_eq hcut, List.getElem_append_right (le_refl _)]
      simp only [Nat.sub_self, List.getElem_map, h0, htl, Nat.add_zero]
    have := (List.Nodup.getElem_inj_iff (adInds_nodup' ids a)).mp (this.trans hi)
    omega
  · have hx : (adInds ids a)[k] = (adInds (ids.take i) a)[k]'h := by
      rw [List.getElem_of_eq hcut, List.getElem_append_left]
    have := (mem_adInds (ids.take i) a _).mp (List.getElem_mem h)
    rw [← hx, ← hi, htl] at this
    omega

/-- **C93**. Single skipped records: when the counters of the record types run on as if nothing had been
skipped, every record gets the number of the ensemble it belongs to. -/
theorem skip_partial (order : List ℕ) (es : List (List ℕ)) (h : Spec.SkipIndex order es)
    (h2 : 2 ≤ order.length) (hdp : ¬ (21 ∈ order ∧ 22 ∈ order)) (i : ℕ) (hi : i < es.flatten.length) :
    (adCheckIndex es.flatten false (Spec.serial es.flatten)).2 i = Spec.memberOf es i := by
  have hne : ∃ r, es = order :: r := by
    rcases es with _ | ⟨e, r⟩
    · simp at hi
    · exact ⟨r, by have := h.first; simp at this; rw [this]⟩
  have hmem : ∀ a, a ∈ es.flatten ↔ a ∈ order := by
    intro a
    rw [List.mem_flatten]
    constructor
    · rintro ⟨e, he, ha⟩; exact (h.sub e he).subset ha
    · intro ha
      obtain ⟨r, rfl⟩ := hne
      exact ⟨order, by simp, ha⟩
  have hnd : ∀ e ∈ es, e.Nodup := fun e he => h.nodup.sublist (h.sub e he)
  have hflag : (decide (21 ∈ es.flatten) && decide (22 ∈ es.flatten)) = false := by
    rw [Bool.and_eq_false_iff]
    by_contra hh
    push Not at hh
    simp only [ne_eq, decide_eq_false_iff_not, not_not] at hh
    exact hdp ⟨(hmem _).mp hh.1, (hmem _).mp hh.2⟩
  unfold adCheckIndex
  simp only [Bool.false_or, hflag]
  set a := es.flatten.getD i 0 with ha
  have hia : i ∈ adInds es.flatten a := (mem_adInds _ _ _).mpr ⟨hi, rfl⟩
  have hao : a ∈ order := by
    rw [← hmem, ha, List.getD_eq_getElem _ _ hi]
    exact List.getElem_mem hi
  obtain ⟨k, hk, hki⟩ := List.mem_iff_getElem.mp hia
  have hfix : ∀ ens : ℕ → ℕ, adFixId es.flatten false ens a i =
      ens i + (adIbad order.length (adInds es.flatten a)).countP (fun j => decide (j < k)) := by
    intro ens
    unfold adFixId
    simp only [Bool.false_eq_true, if_false, adUids_length _ order h.nodup hmem]
    have := bump_val _ (adInds_nodup' es.flatten a) k hk (adIbad order.length (adInds es.flatten a)) ens
    rwa [hki] at this
  clear_value a
  rw [fix_fold es.flatten a i _ hia hfix _ _ (adUids_nodup _), if_pos ((mem_adUids _ _).mpr ((hmem _).mpr hao))]
  have hL := adInds_flatten a es 0 hnd
  have hch := occ_chain order h.nodup h2 a hao es 0 0 h.sub h.one h.isolated
  have h0 : ∀ x ∈ (Spec.occ a es 0 0).head?, x.2 = 0 := by
    obtain ⟨r, rfl⟩ := hne
    unfold Spec.occ
    rw [if_pos hao]
    simp
  have hkL : k < (Spec.occ a es 0 0).length := by rw [hL, List.length_map] at hk; exact hk
  have hnum := occ_number order.length _ hch h0 k hkL
  have hpos : ((Spec.occ a es 0 0)[k]).1 = i := by
    rw [← hki, List.getElem_of_eq hL, List.getElem_map]
  have hens := (occ_ens a es 0 0 _ (List.getElem_mem hkL)).2
  rw [hpos, Nat.sub_zero, Nat.zero_add] at hens
  have hser : Spec.serial es.flatten i = k := by
    have := serial_eq es.flatten a k hk
    rwa [hki] at this
  rw [hser, hL, ← hnum, hens]

/-- An index of three types with two skipped records. -/
example : Spec.SkipIndex [21, 23, 28] [[21, 23, 28], [21, 28], [21, 23, 28], [23, 28], [21, 23, 28]] where
  nodup := by decide
  sub := by decide
  one := by decide
  first := rfl
  isolated := by simp

/-- **C93 is false of the code** when a record is skipped in two ensembles in a row: the gap is counted
once, and all later records of the type are numbered one too low. -/
theorem skip_two_false :
    let es := [[21, 23], [21], [21], [21, 23], [21, 23]]
    (List.range 8).map (adCheckIndex es.flatten false (Spec.serial es.flatten)).2 =
      [0, 0, 1, 2, 3, 2, 4, 3] ∧ (List.range 8).map (Spec.memberOf es) = [0, 0, 1, 2, 3, 3, 4, 4] := by
  decide

/-- **C93 is false of the code** when the first ensemble is incomplete: the type that is missing there
stays one behind for the whole file. -/
theorem skip_first_false :
    let es := [[21], [21, 23], [21, 23], [21, 23]]
    (List.range 7).map (adCheckIndex es.flatten false (Spec.serial es.flatten)).2 =
      [0, 1, 0, 2, 1, 3, 2] ∧ (List.range 7).map (Spec.memberOf es) = [0, 1, 1, 2, 2, 3, 3] := by
  decide

/-! ### Dual profiles -/

/-- **C93** (dual profiles). A type whose records come in groups of equal size, with at most one or at
least three gaps between the groups, is left alone. -/
theorem dual_groups_partial (ids : List ℕ) (ens : ℕ → ℕ) (id c : ℕ)
    (hu : ∀ k, k + 1 < (adIbad (adUids ids).length (adInds ids id)).length →
      (adIbad (adUids ids).length (adInds ids id)).getD (k + 1) 0 =
        (adIbad (adUids ids).length (adInds ids id)).getD k 0 + c)
    (hl : (adIbad (adUids ids).length (adInds ids id)).length ≠ 2) :
    adFixId ids true ens id = ens := by
  unfold adFixId
  simp only [if_true]
  generalize adIbad (adUids ids).length (adInds ids id) = ib at hu hl ⊢
  have hz : adIbadDp ib = [] := by
    unfold adIbadDp
    rw [List.map_eq_nil_iff, List.filter_eq_nil_iff]
    intro k hk
    have hk := List.mem_range.mp hk
    have hs : ((List.range (ib.length - 1)).map fun k => ib.getD (k + 1) 0 - ib.getD k 0) =
        List.replicate (ib.length - 1) c := by
      rw [List.eq_replicate_iff]
      refine ⟨by simp, fun x hx => ?_⟩
      obtain ⟨j, hj, rfl⟩ := List.mem_map.mp hx
      have := List.mem_range.mp hj
      rw [hu j (by omega)]; omega
    simp only [hs]
    rw [hu k (by omega), Nat.add_sub_cancel_left, List.count_replicate_self]
    simp only [ne_eq, decide_eq_true_eq, not_and]
    omega
  rw [hz, List.foldl_nil]

/-- Four groups of each type. -/
example : let ids := (List.replicate 4 [21, 21, 21, 22, 22, 22]).flatten
    adIbad (adUids ids).length (adInds ids 21) = [2, 5, 8] ∧
      adIbad (adUids ids).length (adInds ids 22) = [2, 5, 8] := by decide

/-- **C93 is false of the code** for a dual-profile file with exactly three groups of a type: no record is
missing, but the first of the two gaps counts as a skipped ping. -/
theorem dual_three_groups_false :
    let ids := [21, 21, 22, 22, 21, 21, 22, 22, 21, 21]
    (List.range 10).map (Spec.serial ids) = [0, 1, 0, 1, 2, 3, 2, 3, 4, 5] ∧
      (List.range 10).map (adCheckIndex ids false (Spec.serial ids)).2 = [0, 1, 0, 1, 3, 4, 2, 3, 5, 6] := by
  decide

end Dolfyn
