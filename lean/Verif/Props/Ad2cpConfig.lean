import Verif.Model.Ad2cpMore
import Verif.Model.Ad2cpRead
import Mathlib.Data.List.Sort
import Mathlib.Tactic.Linarith

/-!
Properties of the configuration of an AD2CP file (C101) and of its last ensemble (C102).
-/

namespace Dolfyn

theorem mem_npUnique (l : List ℤ) (x : ℤ) : x ∈ npUnique l ↔ x ∈ l := by
  unfold npUnique
  rw [List.mem_insertionSort, List.mem_dedup]

theorem mem_adUids (ids : List ℕ) (x : ℕ) : x ∈ adUids ids ↔ x ∈ ids := by
  unfold adUids
  rw [List.mem_insertionSort, List.mem_dedup]

theorem adConfigOf_ok {id c b : ℕ} {configs beams : List ℕ} (h : adConfigOf id configs beams = .ok (c, b)) :
    (∀ x ∈ configs, x = c) ∧ (id ≠ 23 → ∀ x ∈ beams, x = b) ∧ beams.head? = some b ∧ configs ≠ [] := by
  unfold adConfigOf at h
  split at h
  · next c' cs b' bs =>
    by_cases h1 : (cs.any fun x => decide (x ≠ c')) = true
    · rw [if_pos h1] at h; cases h
    rw [if_neg h1] at h
    rw [Bool.not_eq_true, List.any_eq_false] at h1
    by_cases h2 : (bs.any fun x => decide (x ≠ b')) = true
    · rw [if_pos h2] at h
      rcases ite_eq_iff.mp h with ⟨h3, h4⟩ | ⟨_, h4⟩
      · obtain ⟨rfl, rfl⟩ := Prod.mk.inj (Except.ok.inj h4)
        refine ⟨?_, fun hid => absurd h3.1 hid, rfl, by simp⟩
        intro x hx
        rcases List.mem_cons.mp hx with rfl | hx
        · rfl
        · simpa using h1 x hx
      · cases h4
    · rw [if_neg h2] at h
      obtain ⟨rfl, rfl⟩ := Prod.mk.inj (Except.ok.inj h)
      rw [Bool.not_eq_true, List.any_eq_false] at h2
      refine ⟨?_, fun _ => ?_, rfl, by simp⟩
      · intro x hx
        rcases List.mem_cons.mp hx with rfl | hx
        · rfl
        · simpa using h1 x hx
      · intro x hx
        rcases List.mem_cons.mp hx with rfl | hx
        · rfl
        · simpa using h2 x hx
  · cases h

theorem adConfigOf_uniform (id c b : ℕ) (configs beams : List ℕ) (h1 : configs ≠ []) (h2 : beams ≠ [])
    (hc : ∀ x ∈ configs, x = c) (hb : ∀ x ∈ beams, x = b) : adConfigOf id configs beams = .ok (c, b) := by
  unfold adConfigOf
  match configs, beams, h1, h2 with
  | c' :: cs, b' :: bs, _, _ =>
    obtain rfl : c' = c := hc c' (by simp)
    obtain rfl : b' = b := hb b' (by simp)
    simp only
    rw [if_neg, if_neg]
    · rw [Bool.not_eq_true, List.any_eq_false]
      intro x hx
      simpa using hb x (by simp [hx])
    · rw [Bool.not_eq_true, List.any_eq_false]
      intro x hx
      simpa using hc x (by simp [hx])

theorem mapM_except_mem {α β : Type*} (f : α → Except Err β) : ∀ (l : List α) (r : List β),
    l.mapM f = .ok r → (∀ b ∈ r, ∃ a ∈ l, f a = .ok b) ∧ (∀ a ∈ l, ∃ b ∈ r, f a = .ok b)
  | [], r, h => by
    rw [List.mapM_nil] at h
    obtain rfl := Except.ok.inj h
    simp
  | a :: l, r, h => by
    rw [List.mapM_cons] at h
    cases hfa : f a with
    | error e => rw [hfa] at h; cases h
    | ok b =>
      rw [hfa] at h
      cases hl : l.mapM f with
      | error e => rw [hl] at h; cases h
      | ok r' =>
        rw [hl] at h
        obtain rfl := Except.ok.inj h
        obtain ⟨i1, i2⟩ := mapM_except_mem f l r' hl
        refine ⟨fun x hx => ?_, fun x hx => ?_⟩
        · rcases List.mem_cons.mp hx with rfl | hx
          · exact ⟨a, by simp, hfa⟩
          · obtain ⟨y, hy, e⟩ := i1 x hx
            exact ⟨y, by simp [hy], e⟩
        · rcases List.mem_cons.mp hx with rfl | hx
          · exact ⟨b, by simp, hfa⟩
          · obtain ⟨y, hy, e⟩ := i2 x hx
            exact ⟨y, by simp [hy], e⟩

/-- The record types that carry data. -/
def Spec.dataTypes : List ℕ := [0x15, 0x16, 0x17, 0x18, 0x1A, 0x1C, 0x1F]

/-- **C101**. When a configuration is found, there is one for exactly the data record types of the file, and
every record of a type has that configuration word; except for bottom track, every record has the same beams,
cells and coordinate system. -/
theorem config_of_all (idx : List AdEntry) (cfg : List (ℕ × ℕ × ℕ)) (h : adCalcConfig idx = .ok cfg) :
    (∀ id, (∃ c b, (id, c, b) ∈ cfg) ↔ id ∈ Spec.dataTypes ∧ ∃ e ∈ idx, e.id = id) ∧
      ∀ id c b, (id, c, b) ∈ cfg → ∀ e ∈ idx, e.id = id → e.config = c ∧ (id ≠ 0x17 → e.beamsCy = b) := by
  unfold adCalcConfig at h
  obtain ⟨h1, h2⟩ := mapM_except_mem _ _ _ h
  have inv : ∀ id id' c b, (do
      let es := idx.filter (fun e => e.id = id)
      let (c, b) ← adConfigOf id (es.map AdEntry.config) (es.map AdEntry.beamsCy)
      pure (id, c, b) : Except Err (ℕ × ℕ × ℕ)) = .ok (id', c, b) →
      id' = id ∧ adConfigOf id ((idx.filter (fun e => e.id = id)).map AdEntry.config)
        ((idx.filter (fun e => e.id = id)).map AdEntry.beamsCy) = .ok (c, b) := by
    intro id id' c b e
    simp only at e
    cases hc : adConfigOf id ((idx.filter (fun e => e.id = id)).map AdEntry.config)
        ((idx.filter (fun e => e.id = id)).map AdEntry.beamsCy) with
    | error x => rw [hc] at e; cases e
    | ok p =>
      rw [hc] at e
      obtain ⟨c', b'⟩ := p
      have e := Prod.mk.inj (Except.ok.inj e)
      obtain ⟨rfl, rfl⟩ := Prod.mk.inj e.2
      exact ⟨e.1.symm, rfl⟩
  have hmem : ∀ id, id ∈ (adUids (idx.map AdEntry.id)).filter (fun id => id ∈ adCfgIds) ↔
      id ∈ Spec.dataTypes ∧ ∃ e ∈ idx, e.id = id := by
    intro id
    rw [List.mem_filter, mem_adUids, List.mem_map]
    have : adCfgIds = Spec.dataTypes := rfl
    rw [this, decide_eq_true_eq]
    exact and_comm
  refine ⟨fun id => ⟨?_, ?_⟩, ?_⟩
  · rintro ⟨c, b, hm⟩
    obtain ⟨id', hid', e⟩ := h1 _ hm
    obtain ⟨rfl, -⟩ := inv _ _ _ _ e
    exact (hmem _).mp hid'
  · intro hh
    obtain ⟨⟨id', c, b⟩, hm, e⟩ := h2 id ((hmem id).mpr hh)
    obtain ⟨rfl, -⟩ := inv _ _ _ _ e
    exact ⟨c, b, hm⟩
  · intro id c b hm e he hid
    obtain ⟨id', hid', e'⟩ := h1 _ hm
    obtain ⟨rfl, hc⟩ := inv _ _ _ _ e'
    obtain ⟨k1, k2, -, -⟩ := adConfigOf_ok hc
    have hf : e ∈ idx.filter (fun e => e.id = id) := List.mem_filter.mpr ⟨he, by simpa using hid⟩
    exact ⟨k1 _ (List.mem_map_of_mem hf), fun hne => k2 hne _ (List.mem_map_of_mem hf)⟩

/-- **C101** (converse). When in every data record type all records agree, a configuration is found. -/
theorem config_found (idx : List AdEntry)
    (h : ∀ e ∈ idx, ∀ e' ∈ idx, e.id = e'.id → e.id ∈ Spec.dataTypes →
      e.config = e'.config ∧ e.beamsCy = e'.beamsCy) : ∃ cfg, adCalcConfig idx = .ok cfg := by
  unfold adCalcConfig
  have key : ∀ l : List ℕ, (∀ id ∈ l, id ∈ Spec.dataTypes ∧ ∃ e ∈ idx, e.id = id) →
      ∃ cfg, (l.mapM fun id => (do
        let es := idx.filter (fun e => e.id = id)
        let (c, b) ← adConfigOf id (es.map AdEntry.config) (es.map AdEntry.beamsCy)
        pure (id, c, b) : Except Err (ℕ × ℕ × ℕ))) = .ok cfg := by
    intro l
    induction l with
    | nil => intro _; exact ⟨[], rfl⟩
    | cons id l ih =>
      intro hl
      obtain ⟨cfg, hcfg⟩ := ih fun x hx => hl x (by simp [hx])
      obtain ⟨ht, e, he, hid⟩ := hl id (by simp)
      have hf : e ∈ idx.filter (fun e => e.id = id) := List.mem_filter.mpr ⟨he, by simpa using hid⟩
      have hc : adConfigOf id ((idx.filter (fun e => e.id = id)).map AdEntry.config)
          ((idx.filter (fun e => e.id = id)).map AdEntry.beamsCy) = .ok (e.config, e.beamsCy) := by
        apply adConfigOf_uniform
        · exact fun hh => by rw [List.map_eq_nil_iff] at hh; rw [hh] at hf; simp at hf
        · exact fun hh => by rw [List.map_eq_nil_iff] at hh; rw [hh] at hf; simp at hf
        · intro x hx
          obtain ⟨e', he', rfl⟩ := List.mem_map.mp hx
          obtain ⟨a1, a2⟩ := List.mem_filter.mp he'
          have a2 : e'.id = id := by simpa using a2
          exact (h e' a1 e he (a2.trans hid.symm) (by rw [a2]; exact ht)).1
        · intro x hx
          obtain ⟨e', he', rfl⟩ := List.mem_map.mp hx
          obtain ⟨a1, a2⟩ := List.mem_filter.mp he'
          have a2 : e'.id = id := by simpa using a2
          exact (h e' a1 e he (a2.trans hid.symm) (by rw [a2]; exact ht)).2
      refine ⟨(id, e.config, e.beamsCy) :: cfg, ?_⟩
      rw [List.mapM_cons]
      simp only
      rw [hc]
      simp only at hcfg
      simp only [bind, Except.bind, pure, Except.pure] at hcfg ⊢
      rw [hcfg]
  apply key
  intro id hid
  rw [List.mem_filter, mem_adUids, List.mem_map] at hid
  exact ⟨of_decide_eq_true hid.2, hid.1⟩

/-- **C101 is false of the code** for bottom track: records with four beams in earth coordinates followed by
records with three beams in instrument coordinates are accepted, and all are read with the first ones'
configuration. -/
theorem config_bt_false :
    adConfigOf 23 [0, 0] [0 + 1024 * 0 + 4096 * 4, 0 + 1024 * 1 + 4096 * 3] = .ok (0, 4096 * 4) ∧
      (beamsCyDict (4096 * 4) 23).nBeams = some 4 ∧ (beamsCyDict (4096 * 4) 23).cy = some .enu ∧
      (beamsCyDict (1024 + 4096 * 3) 23).nBeams = some 3 ∧ (beamsCyDict (1024 + 4096 * 3) 23).cy = some .xyz := by
  refine ⟨by decide, by decide, by decide, by decide, by decide⟩

/-! ### The last ensemble -/

theorem firstArgmax_first (cnt : ℤ → ℕ) : ∀ (l : List ℤ), l ≠ [] → l.Pairwise (· < ·) →
    ∃ m, firstArgmax cnt l = some m ∧ m ∈ l ∧ ∀ d ∈ l, cnt d < cnt m ∨ (cnt d = cnt m ∧ m ≤ d)
  | [], h, _ => absurd rfl h
  | [v], _, _ => ⟨v, rfl, by simp, by simp⟩
  | v :: w :: r, _, hp => by
    rw [List.pairwise_cons] at hp
    obtain ⟨m, h1, h2, h3⟩ := firstArgmax_first cnt (w :: r) (by simp) hp.2
    rw [firstArgmax, h1]
    simp only
    by_cases hc : cnt v < cnt m
    · rw [if_pos hc]
      refine ⟨m, rfl, by simp [h2], fun d hd => ?_⟩
      rcases List.mem_cons.mp hd with rfl | hd
      · exact Or.inl hc
      · exact h3 d hd
    · rw [if_neg hc]
      refine ⟨v, rfl, by simp, fun d hd => ?_⟩
      rcases List.mem_cons.mp hd with rfl | hd
      · exact Or.inr ⟨rfl, le_refl _⟩
      · have := hp.1 d hd
        rcases h3 d hd with h | ⟨h, _⟩
        · left; omega
        · by_cases h' : cnt d = cnt v
          · exact Or.inr ⟨h', by omega⟩
          · left; omega

theorem npUnique_pairwise (l : List ℤ) : (npUnique l).Pairwise (· < ·) := by
  unfold npUnique
  have h1 := List.pairwise_insertionSort (· ≤ ·) l.dedup
  have h2 : (l.dedup.insertionSort (· ≤ ·)).Nodup :=
    (List.perm_insertionSort (· ≤ ·) l.dedup).nodup_iff.mpr (List.nodup_dedup l)
  exact (h1.and h2).imp fun ⟨a, b⟩ => lt_of_le_of_ne a b

/-- **C102**. With two or more ensembles, the last one is read exactly when its size is the most frequent
distance between ensembles (the smallest one in case of a tie). -/
theorem last_whole_spec (E : List ℕ) (eof : ℕ) (l : ℕ) (h2 : 2 ≤ E.length) (hl : E.getLast? = some l) :
    ∃ bs ∈ npDiff E, (∀ d ∈ npDiff E, (npDiff E).count d < (npDiff E).count bs ∨
        ((npDiff E).count d = (npDiff E).count bs ∧ bs ≤ d)) ∧
      adLastWhole E eof = .ok (decide ((eof : ℤ) - l = bs)) := by
  have hne : npDiff E ≠ [] := by
    match E, h2 with
    | a :: b :: r, _ => simp [npDiff]
  have hne2 : npUnique (npDiff E) ≠ [] := by
    intro h
    obtain ⟨x, hx⟩ := List.exists_mem_of_ne_nil _ hne
    rw [← mem_npUnique, h] at hx
    simp at hx
  obtain ⟨m, h1, h3, h4⟩ := firstArgmax_first (fun v => (npDiff E).count v) _ hne2 (npUnique_pairwise _)
  refine ⟨m, (mem_npUnique _ _).mp h3, fun d hd => h4 d ((mem_npUnique _ _).mpr hd), ?_⟩
  unfold adLastWhole
  rw [hl, h1]

theorem npDiff_uniform (L : ℕ) : ∀ (n x : ℕ),
    npDiff ((List.range (n + 1)).map fun i => x + i * L) = List.replicate n (L : ℤ)
  | 0, x => rfl
  | n + 1, x => by
    have e : ((List.range (n + 1 + 1)).map fun i => x + i * L) =
        x :: ((List.range (n + 1)).map fun i => (x + L) + i * L) := by
      rw [List.range_succ_eq_map, List.map_cons, List.map_map]
      congr 1
      · simp
      · apply List.map_congr_left
        intro i _
        simp only [Function.comp_apply, Nat.succ_eq_add_one]
        ring
    have e2 : ((List.range (n + 1)).map fun i => (x + L) + i * L) =
        (x + L) :: ((List.range n).map fun i => (x + L + L) + i * L) := by
      rw [List.range_succ_eq_map, List.map_cons, List.map_map]
      congr 1
      · simp
      · apply List.map_congr_left
        intro i _
        simp only [Function.comp_apply, Nat.succ_eq_add_one]
        ring
    rw [e, e2, npDiff, ← e2, npDiff_uniform L n (x + L), List.replicate_succ]
    congr 1
    push_cast
    ring

/-- **C102** (ensembles of one size). When all ensembles have the same size, the last one is read exactly
when the file holds all of it. -/
theorem last_whole_uniform (x L n eof : ℕ) :
    adLastWhole ((List.range (n + 2)).map fun i => x + i * L) eof =
      .ok (decide (eof = x + (n + 2) * L)) := by
  have hl : ((List.range (n + 2)).map fun i => x + i * L).getLast? = some (x + (n + 1) * L) := by
    rw [List.getLast?_eq_getElem?]
    simp
  obtain ⟨bs, hbs, -, h⟩ := last_whole_spec _ eof _ (by simp) hl
  rw [npDiff_uniform L (n + 1) x] at hbs
  obtain rfl := List.eq_of_mem_replicate hbs
  rw [h]
  congr 1
  rw [decide_eq_decide]
  constructor
  · intro e
    have : (eof : ℤ) = ((x + (n + 2) * L : ℕ) : ℤ) := by push_cast at e ⊢; linarith
    exact_mod_cast this
  · intro e
    rw [e]; push_cast; ring

/-- **C102 is false of the code** for a complete last ensemble of another size than the others (with a
record more or less): it is dropped. -/
theorem last_whole_false (x L M n : ℕ) (hM : M ≠ L) :
    adLastWhole ((List.range (n + 2)).map fun i => x + i * L) (x + (n + 1) * L + M) = .ok false := by
  rw [last_whole_uniform]
  congr 1
  rw [decide_eq_false_iff_not]
  intro e
  apply hM
  have : x + (n + 1) * L + M = x + (n + 1) * L + L := by rw [e]; ring
  omega

/-- An index as in C101: two record types. -/
example : ∃ cfg, adCalcConfig [⟨0, 0, 0, 21, 7, 16404, [], 0⟩, ⟨0, 0, 100, 24, 3, 4106, [], 0⟩,
    ⟨1, 1, 200, 21, 7, 16404, [], 0⟩] = .ok cfg := ⟨_, rfl⟩

/-- Sizes for C102. -/
example : adLastWhole [10, 60, 110] 160 = .ok true ∧ adLastWhole [10, 60, 110] 159 = .ok false := by
  decide

end Dolfyn
