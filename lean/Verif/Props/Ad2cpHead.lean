import Verif.Model.Ad2cpHead
import Mathlib.Data.List.Nodup
import Mathlib.Tactic.Ring

/-!
Properties of the settings in the header of an AD2CP file (C103, C104).
-/

namespace Dolfyn

theorem pget_pset {α : Type*} (d : List (Key × α)) (k k' : Key) (v : α) :
    pget (pset d k v) k' = if k' = k then some v else pget d k' := by
  unfold pset
  by_cases h : (d.any fun p => decide (p.1 = k)) = true
  · rw [if_pos h]
    induction d with
    | nil => simp at h
    | cons p d ih =>
      by_cases hp : p.1 = k
      · by_cases hk : k' = k
        · subst hk
          simp [pget, hp]
        · rw [if_neg hk]
          have hpk : ¬ p.1 = k' := fun e => hk (e ▸ hp)
          by_cases h2 : (d.any fun p => decide (p.1 = k)) = true
          · have := ih h2
            rw [if_neg hk] at this
            unfold pget at this ⊢
            rw [List.map_cons, if_pos hp, List.find?_cons_of_neg (by simpa using fun e => hk e.symm),
              List.find?_cons_of_neg (by simpa using hpk)]
            exact this
          · have hm : (d.map fun p => if p.1 = k then (k, v) else p) = d := by
              rw [Bool.not_eq_true, List.any_eq_false] at h2
              conv_rhs => rw [← List.map_id d]
              apply List.map_congr_left
              intro q hq
              rw [if_neg (by simpa using h2 q hq)]; rfl
            unfold pget
            rw [List.map_cons, if_pos hp, List.find?_cons_of_neg (by simpa using fun e => hk e.symm),
              List.find?_cons_of_neg (by simpa using hpk), hm]
      · have h2 : (d.any fun p => decide (p.1 = k)) = true := by simpa [hp] using h
        have := ih h2
        unfold pget at this ⊢
        rw [List.map_cons, if_neg hp]
        by_cases hk : p.1 = k'
        · rw [List.find?_cons_of_pos (by simpa using hk), List.find?_cons_of_pos (by simpa using hk),
            if_neg (fun e => hp (hk.trans e))]
        · rw [List.find?_cons_of_neg (by simpa using hk), List.find?_cons_of_neg (by simpa using hk)]
          exact this
  · rw [if_neg h]
    rw [Bool.not_eq_true, List.any_eq_false] at h
    unfold pget
    rw [List.find?_append]
    by_cases hk : k' = k
    · subst hk
      rw [List.find?_eq_none.mpr (fun x hx => by simpa using h x hx)]
      simp
    · rw [if_neg hk]
      rw [List.find?_cons_of_neg (by simpa using fun e => hk e.symm)]
      simp

theorem pget_mem {α : Type*} {d : List (Key × α)} {k : Key} {v : α} (h : pget d k = some v) : (k, v) ∈ d := by
  unfold pget at h
  rw [Option.map_eq_some_iff] at h
  obtain ⟨p, hp, rfl⟩ := h
  have := List.find?_some hp
  have hk : p.1 = k := by simpa using this
  rw [← hk]
  exact List.mem_of_find?_eq_some hp

theorem pset_keys_nodup {α : Type*} {d : List (Key × α)} (h : (d.map Prod.fst).Nodup) (k : Key) (v : α) :
    ((pset d k v).map Prod.fst).Nodup := by
  unfold pset
  by_cases hd : (d.any fun p => decide (p.1 = k)) = true
  · rw [if_pos hd, List.map_map]
    have : (d.map (Prod.fst ∘ fun p => if p.1 = k then (k, v) else p)) = d.map Prod.fst := by
      apply List.map_congr_left
      intro p _
      by_cases hp : p.1 = k
      · simp [hp]
      · simp [hp]
    rw [this]
    exact h
  · rw [if_neg hd, List.map_append, List.nodup_append]
    refine ⟨h, by simp, ?_⟩
    rw [Bool.not_eq_true, List.any_eq_false] at hd
    intro a ha b hb
    simp only [List.map_cons, List.map_nil, List.mem_singleton] at hb
    obtain ⟨p, hp, rfl⟩ := List.mem_map.mp ha
    rw [hb]
    simpa using hd p hp

theorem pget_of_mem {α : Type*} {d : List (Key × α)} (h : (d.map Prod.fst).Nodup) {k : Key} {v : α}
    (hm : (k, v) ∈ d) : pget d k = some v := by
  induction d with
  | nil => simp at hm
  | cons p d ih =>
    rw [List.map_cons, List.nodup_cons] at h
    rcases List.mem_cons.mp hm with rfl | hm
    · simp [pget]
    · have hp : ¬ p.1 = k := fun e => h.1 (List.mem_map.mpr ⟨_, hm, e.symm⟩)
      have := ih h.2 hm
      unfold pget at this ⊢
      rw [List.find?_cons_of_neg (by simpa using hp)]
      exact this

theorem splitFirst_append (c : Char) : ∀ (k v : Key), c ∉ k → splitFirst c (k ++ c :: v) = some (k, v)
  | [], v, _ => by simp [splitFirst]
  | x :: k, v, h => by
    have hx : ¬ x = c := fun e => h (by simp [e])
    have ih := splitFirst_append c k v fun e => h (by simp [e])
    simp [splitFirst, hx, ih]

theorem splitAll_none (c : Char) : ∀ (k : Key), c ∉ k → splitAll c k = [k]
  | [], _ => rfl
  | x :: k, h => by
    have hx : ¬ x = c := fun e => h (by simp [e])
    rw [splitAll, if_neg hx, splitAll_none c k fun e => h (by simp [e])]

theorem splitAll_append (c : Char) : ∀ (k r : Key), c ∉ k → splitAll c (k ++ c :: r) = k :: splitAll c r
  | [], r, _ => by simp [splitAll]
  | x :: k, r, h => by
    have hx : ¬ x = c := fun e => h (by simp [e])
    rw [List.cons_append, splitAll, if_neg hx, splitAll_append c k r fun e => h (by simp [e])]

/-- Texts with a separator between them. -/
def Spec.joined (c : Char) : List Key → Key
  | [] => []
  | [k] => k
  | k :: r => k ++ c :: Spec.joined c r

theorem splitAll_joined (c : Char) : ∀ (l : List Key), l ≠ [] → (∀ k ∈ l, c ∉ k) →
    splitAll c (Spec.joined c l) = l
  | [], h, _ => absurd rfl h
  | [k], _, h => splitAll_none c k (h k (by simp))
  | k :: k2 :: r, _, h => by
    rw [Spec.joined, splitAll_append c k _ (h k (by simp)),
      splitAll_joined c (k2 :: r) (by simp) fun x hx => h x (by simp [List.mem_cons.mp hx])]
    exact fun e => by simp at e

/-- The texts given with a command, in the order of the file. -/
def Spec.textsOf (cmds : List (Key × Key)) (k : Key) : List Key :=
  (cmds.filter fun c => c.1 = k).map Prod.snd

/-- A single text stays a text, several become a list. -/
def Spec.collect : List Key → Option HRaw
  | [] => none
  | [v] => some (.one v)
  | v :: w :: r => some (.many (v :: w :: r))

theorem hdLines_spec : ∀ (cmds : List (Key × Key)) (out : List (Key × HRaw)) (vs : Key → List Key),
    (∀ c ∈ cmds, ',' ∉ c.1) → (∀ k, pget out k = Spec.collect (vs k)) → (out.map Prod.fst).Nodup →
    ∃ out', hdLines out (cmds.map fun c => c.1 ++ ',' :: c.2) = .ok out' ∧ (out'.map Prod.fst).Nodup ∧
      ∀ k, pget out' k = Spec.collect (vs k ++ Spec.textsOf cmds k)
  | [], out, vs, _, h2, h3 => ⟨out, rfl, h3, fun k => by simpa [Spec.textsOf] using h2 k⟩
  | (ky, val) :: cmds, out, vs, h1, h2, h3 => by
    rw [List.map_cons, hdLines]
    have hc : ',' ∉ ky := h1 (ky, val) (by simp)
    have key : ∃ o : HRaw, hdLine out (ky ++ ',' :: val) = .ok (pset out ky o) ∧
        Spec.collect (vs ky ++ [val]) = some o := by
      unfold hdLine
      rw [splitFirst_append ',' ky val hc]
      simp only [h2 ky]
      match vs ky with
      | [] => exact ⟨_, rfl, rfl⟩
      | [v] => exact ⟨_, rfl, rfl⟩
      | v :: w :: r => exact ⟨_, rfl, rfl⟩
    obtain ⟨o, ho, hcol⟩ := key
    simp only
    rw [ho]
    obtain ⟨out', e1, e2, e3⟩ := hdLines_spec cmds (pset out ky o)
      (fun k => if k = ky then vs ky ++ [val] else vs k) (fun c hc => h1 c (by simp [hc]))
      (by
        intro k
        rw [pget_pset]
        by_cases hk : k = ky
        · rw [if_pos hk, if_pos hk, hcol]
        · rw [if_neg hk, if_neg hk, h2])
      (pset_keys_nodup h3 _ _)
    refine ⟨out', e1, e2, fun k => ?_⟩
    rw [e3 k]
    by_cases hk : k = ky
    · subst hk
      simp [Spec.textsOf]
    · have : ¬ ky = k := fun e => hk e.symm
      simp [Spec.textsOf, hk, this]

/-- The name under which a command is stored. -/
def tgt (k : Key) : Key := if isGet k then lstripGet k else k

theorem hdEntry_tgt {pInt : Key → Option ℤ} {pFloat : Key → Option ℚ} {k : Key} {v : HRaw} {n : Key} {o : HOut}
    (h : hdEntry pInt pFloat k v = .ok (n, o)) : n = tgt k := by
  unfold hdEntry at h
  unfold tgt
  by_cases hg : isGet k = true
  · rw [if_pos hg] at h ⊢
    match v with
    | .many _ => cases h
    | .one dat =>
      simp only at h
      cases hd : hdItems pInt pFloat [] (splitAll ',' dat) with
      | error e => rw [hd] at h; cases h
      | ok d => rw [hd] at h; exact (Prod.mk.inj (Except.ok.inj h)).1.symm
  · rw [if_neg hg] at h ⊢
    exact (Prod.mk.inj (Except.ok.inj h)).1.symm

theorem hdOut_other {pInt : Key → Option ℤ} {pFloat : Key → Option ℚ} (n : Key) :
    ∀ (L : List (Key × HRaw)) (out2 r : List (Key × HOut)), (∀ p ∈ L, tgt p.1 ≠ n) →
      hdOut pInt pFloat out2 L = .ok r → pget r n = pget out2 n
  | [], out2, r, _, h => by rw [hdOut] at h; rw [Except.ok.inj h]
  | (k, v) :: L, out2, r, hn, h => by
    rw [hdOut] at h
    cases he : hdEntry pInt pFloat k v with
    | error e => rw [he] at h; cases h
    | ok p =>
      obtain ⟨k2, o⟩ := p
      rw [he] at h
      rw [hdOut_other n L _ r (fun p hp => hn p (by simp [hp])) h, pget_pset, if_neg]
      rw [hdEntry_tgt he]
      exact fun e => hn (k, v) (by simp) e.symm

theorem hdOut_at {pInt : Key → Option ℤ} {pFloat : Key → Option ℚ} (k : Key) (v : HRaw) :
    ∀ (L : List (Key × HRaw)) (out2 r : List (Key × HOut)), (L.map Prod.fst).Nodup → (k, v) ∈ L →
      (∀ p ∈ L, tgt p.1 = tgt k → p.1 = k) → hdOut pInt pFloat out2 L = .ok r →
      ∃ o, hdEntry pInt pFloat k v = .ok (tgt k, o) ∧ pget r (tgt k) = some o
  | [], out2, r, _, hm, _, _ => by simp at hm
  | (k', v') :: L, out2, r, hnd, hm, hu, h => by
    rw [hdOut] at h
    rw [List.map_cons, List.nodup_cons] at hnd
    cases he : hdEntry pInt pFloat k' v' with
    | error e => rw [he] at h; cases h
    | ok p =>
      obtain ⟨k2, o⟩ := p
      rw [he] at h
      simp only at h
      rcases List.mem_cons.mp hm with e | hm
      · obtain ⟨rfl, rfl⟩ := Prod.mk.inj e
        refine ⟨o, ?_, ?_⟩
        · rw [he, hdEntry_tgt he]
        · rw [hdOut_other (tgt k) L _ r _ h, pget_pset, if_pos (hdEntry_tgt he).symm]
          intro p hp e
          have := hu p (by simp [hp]) e
          exact hnd.1 (List.mem_map.mpr ⟨p, hp, this⟩)
      · exact hdOut_at k v L _ r hnd.2 hm (fun p hp => hu p (by simp [hp])) h

/-- What is read of a command, whatever it is. -/
theorem readHead_at {pInt : Key → Option ℤ} {pFloat : Key → Option ℚ} {cmds : List (Key × Key)}
    {r : List (Key × HOut)} (hc : ∀ c ∈ cmds, ',' ∉ c.1) (k : Key) (v : HRaw)
    (hv : Spec.collect (Spec.textsOf cmds k) = some v)
    (hu : ∀ c ∈ cmds, tgt c.1 = tgt k → c.1 = k)
    (h : readHead pInt pFloat (cmds.map fun c => c.1 ++ ',' :: c.2) = .ok r) :
    ∃ o, hdEntry pInt pFloat k v = .ok (tgt k, o) ∧ pget r (tgt k) = some o := by
  obtain ⟨out, e1, e2, e3⟩ := hdLines_spec cmds [] (fun _ => []) hc (fun k => rfl) (by simp)
  unfold readHead at h
  rw [e1] at h
  have hget : pget out k = some v := by rw [e3 k]; simpa using hv
  refine hdOut_at k v out [] r e2 (pget_mem hget) ?_ h
  intro p hp ht
  have hp' := pget_of_mem e2 (k := p.1) (v := p.2) hp
  rw [e3 p.1, List.nil_append] at hp'
  have hne : Spec.textsOf cmds p.1 ≠ [] := by intro e; rw [e] at hp'; cases hp'
  obtain ⟨x, hx⟩ := List.exists_mem_of_ne_nil _ hne
  obtain ⟨c, hcm, -⟩ := List.mem_map.mp hx
  obtain ⟨h1, h2⟩ := List.mem_filter.mp hcm
  have h2 : c.1 = p.1 := by simpa using h2
  rw [← h2] at ht ⊢
  exact hu c h1 ht

/-- **C103** (plain commands). A command that does not begin with `GET` is found under its own name with its
text, or with all its texts in order when it is repeated. -/
theorem head_plain {pInt : Key → Option ℤ} {pFloat : Key → Option ℚ} {cmds : List (Key × Key)}
    {r : List (Key × HOut)} (hc : ∀ c ∈ cmds, ',' ∉ c.1) (k : Key) (v : HRaw)
    (hv : Spec.collect (Spec.textsOf cmds k) = some v) (hk : ¬ "GET".toList <+: k)
    (hu : ∀ c ∈ cmds, "GET".toList <+: c.1 → lstripGet c.1 ≠ k)
    (h : readHead pInt pFloat (cmds.map fun c => c.1 ++ ',' :: c.2) = .ok r) :
    pget r k = some (.raw v) := by
  have hg : isGet k = false := by
    unfold isGet
    rw [← Bool.not_eq_true, List.isPrefixOf_iff_prefix]
    exact hk
  have ht : tgt k = k := by unfold tgt; rw [hg]; rfl
  obtain ⟨o, h1, h2⟩ := readHead_at hc k v hv (by
    intro c hcm e
    rw [ht] at e
    unfold tgt at e
    by_cases hg' : isGet c.1 = true
    · rw [if_pos hg'] at e
      exact absurd e (hu c hcm (List.isPrefixOf_iff_prefix.mp hg'))
    · rw [if_neg hg'] at e
      exact e) h
  unfold hdEntry at h1
  rw [hg] at h1
  have := (Prod.mk.inj (Except.ok.inj h1)).2
  rw [ht] at h2
  rw [h2, ← this]

theorem hdItems_spec (pInt : Key → Option ℤ) (pFloat : Key → Option ℚ) :
    ∀ (its : List (Key × Key)) (d : List (Key × HVal)), (∀ p ∈ its, '=' ∉ p.1 ∧ '=' ∉ p.2) →
      (its.map Prod.fst).Nodup →
      ∃ d', hdItems pInt pFloat d (its.map fun p => p.1 ++ '=' :: p.2) = .ok d' ∧
        (∀ p ∈ its, pget d' p.1 = some (hdVal pInt pFloat p.2)) ∧
        ∀ k, k ∉ its.map Prod.fst → pget d' k = pget d k
  | [], d, _, _ => ⟨d, rfl, by simp, fun _ _ => rfl⟩
  | (a, b) :: its, d, h, hnd => by
    rw [List.map_cons, List.nodup_cons] at hnd
    obtain ⟨h1, h2⟩ := h (a, b) (by simp)
    obtain ⟨d', e1, e2, e3⟩ := hdItems_spec pInt pFloat its (pset d a (hdVal pInt pFloat b))
      (fun p hp => h p (by simp [hp])) hnd.2
    refine ⟨d', ?_, ?_, ?_⟩
    · rw [List.map_cons, hdItems]
      simp only
      rw [splitAll_append '=' a b h1, splitAll_none '=' b h2]
      exact e1
    · intro p hp
      rcases List.mem_cons.mp hp with rfl | hp
      · rw [e3 _ hnd.1, pget_pset, if_pos rfl]
      · exact e2 p hp
    · intro k hk
      rw [List.map_cons, List.mem_cons] at hk
      push Not at hk
      rw [e3 k hk.2, pget_pset, if_neg hk.1]

theorem isGet_append (n : Key) : isGet ("GET".toList ++ n) = true := by
  unfold isGet
  rw [List.isPrefixOf_iff_prefix]
  exact List.prefix_append _ _

theorem lstripGet_get (n : Key) (hn : ∀ c ∈ n.head?, c ≠ 'G' ∧ c ≠ 'E' ∧ c ≠ 'T') :
    lstripGet ("GET".toList ++ n) = n := by
  have e : "GET".toList ++ n = 'G' :: 'E' :: 'T' :: n := rfl
  rw [e]
  unfold lstripGet
  rw [List.dropWhile_cons_of_pos (by decide), List.dropWhile_cons_of_pos (by decide),
    List.dropWhile_cons_of_pos (by decide)]
  match n, hn with
  | [], _ => rfl
  | c :: n, hn =>
    obtain ⟨h1, h2, h3⟩ := hn c (by simp)
    rw [List.dropWhile_cons_of_neg (by simp [h1, h2, h3])]

/-- **C103** (`GET` commands). The items of a command `GETname` given once are found under `name`, each with
its value, when `name` does not begin with `G`, `E` or `T`, and no other command is stored under that name. -/
theorem head_get {pInt : Key → Option ℤ} {pFloat : Key → Option ℚ} {cmds : List (Key × Key)}
    {r : List (Key × HOut)} (hc : ∀ c ∈ cmds, ',' ∉ c.1) (n : Key) (its : List (Key × Key))
    (hn : ∀ c ∈ n.head?, c ≠ 'G' ∧ c ≠ 'E' ∧ c ≠ 'T') (h0 : its ≠ [])
    (hits : ∀ p ∈ its, '=' ∉ p.1 ∧ '=' ∉ p.2 ∧ ',' ∉ p.1 ∧ ',' ∉ p.2) (hnd : (its.map Prod.fst).Nodup)
    (hv : Spec.textsOf cmds ("GET".toList ++ n) = [Spec.joined ',' (its.map fun p => p.1 ++ '=' :: p.2)])
    (hu1 : ∀ c ∈ cmds, c.1 ≠ n)
    (hu2 : ∀ c ∈ cmds, "GET".toList <+: c.1 → lstripGet c.1 = n → c.1 = "GET".toList ++ n)
    (h : readHead pInt pFloat (cmds.map fun c => c.1 ++ ',' :: c.2) = .ok r) :
    ∃ d, pget r n = some (.items d) ∧ (∀ p ∈ its, pget d p.1 = some (hdVal pInt pFloat p.2)) ∧
      ∀ k, k ∉ its.map Prod.fst → pget d k = none := by
  set k : Key := "GET".toList ++ n with hk
  have hg : isGet k = true := isGet_append n
  have ht : tgt k = n := by unfold tgt; rw [if_pos hg]; exact lstripGet_get n hn
  obtain ⟨o, h1, h2⟩ := readHead_at hc k (.one (Spec.joined ',' (its.map fun p => p.1 ++ '=' :: p.2)))
    (by rw [hv]; rfl) (by
    intro c hcm e
    rw [ht] at e
    unfold tgt at e
    by_cases hg' : isGet c.1 = true
    · rw [if_pos hg'] at e
      exact hu2 c hcm (List.isPrefixOf_iff_prefix.mp hg') e
    · rw [if_neg hg'] at e
      exact absurd e (hu1 c hcm)) h
  obtain ⟨d, e1, e2, e3⟩ := hdItems_spec pInt pFloat its []
    (fun p hp => ⟨(hits p hp).1, (hits p hp).2.1⟩) hnd
  unfold hdEntry at h1
  rw [if_pos hg] at h1
  simp only at h1
  rw [splitAll_joined ',' _ (by simpa using h0), e1] at h1
  · have := (Prod.mk.inj (Except.ok.inj h1)).2
    rw [ht] at h2
    refine ⟨d, by rw [h2, ← this], e2, fun k hk => ?_⟩
    rw [e3 k hk]; rfl
  · intro x hx
    obtain ⟨p, hp, rfl⟩ := List.mem_map.mp hx
    obtain ⟨-, -, h3, h4⟩ := hits p hp
    intro hm
    rcases List.mem_append.mp hm with hm | hm
    · exact h3 hm
    · rcases List.mem_cons.mp hm with hm | hm
      · exact absurd hm (by decide)
      · exact h4 hm

theorem hdOut_ok {pInt : Key → Option ℤ} {pFloat : Key → Option ℚ} :
    ∀ (L : List (Key × HRaw)) (out2 : List (Key × HOut)),
      (∀ p ∈ L, ∃ q, hdEntry pInt pFloat p.1 p.2 = .ok q) → ∃ r, hdOut pInt pFloat out2 L = .ok r
  | [], out2, _ => ⟨out2, rfl⟩
  | (k, v) :: L, out2, h => by
    obtain ⟨⟨k2, o⟩, e⟩ := h (k, v) (by simp)
    rw [hdOut]
    simp only at e
    rw [e]
    exact hdOut_ok L _ fun p hp => h p (by simp [hp])

/-- **C103** (totality). The header is read when every `GET` command is given once, with a list of items. -/
theorem head_read (pInt : Key → Option ℤ) (pFloat : Key → Option ℚ) (cmds : List (Key × Key))
    (hc : ∀ c ∈ cmds, ',' ∉ c.1)
    (hget : ∀ c ∈ cmds, "GET".toList <+: c.1 → Spec.textsOf cmds c.1 = [c.2] ∧ ∃ its : List (Key × Key),
      its ≠ [] ∧ (its.map Prod.fst).Nodup ∧
      (∀ p ∈ its, '=' ∉ p.1 ∧ '=' ∉ p.2 ∧ ',' ∉ p.1 ∧ ',' ∉ p.2) ∧
      c.2 = Spec.joined ',' (its.map fun p => p.1 ++ '=' :: p.2)) :
    ∃ r, readHead pInt pFloat (cmds.map fun c => c.1 ++ ',' :: c.2) = .ok r := by
  obtain ⟨out, e1, e2, e3⟩ := hdLines_spec cmds [] (fun _ => []) hc (fun k => rfl) (by simp)
  unfold readHead
  rw [e1]
  refine hdOut_ok out [] ?_
  intro p hp
  by_cases hg : isGet p.1 = true
  · have hp' := pget_of_mem e2 (k := p.1) (v := p.2) hp
    rw [e3 p.1, List.nil_append] at hp'
    have hne : Spec.textsOf cmds p.1 ≠ [] := by intro e; rw [e] at hp'; cases hp'
    obtain ⟨x, hx⟩ := List.exists_mem_of_ne_nil _ hne
    obtain ⟨c, hcm, -⟩ := List.mem_map.mp hx
    obtain ⟨h1, h2⟩ := List.mem_filter.mp hcm
    have h2 : c.1 = p.1 := by simpa using h2
    obtain ⟨ht, its, i1, i2, i3, i4⟩ := hget c h1 (by rw [h2]; exact List.isPrefixOf_iff_prefix.mp hg)
    rw [h2] at ht
    rw [ht] at hp'
    have hp2 : p.2 = .one c.2 := (Option.some.inj hp').symm
    obtain ⟨d, e1', -, -⟩ := hdItems_spec pInt pFloat its []
      (fun p hp => ⟨(i3 p hp).1, (i3 p hp).2.1⟩) i2
    refine ⟨(lstripGet p.1, .items d), ?_⟩
    unfold hdEntry
    rw [if_pos hg, hp2]
    simp only
    rw [i4, splitAll_joined ',' _ (by simpa using i1), e1']
    intro x hx
    obtain ⟨p, hp, rfl⟩ := List.mem_map.mp hx
    obtain ⟨-, -, h3, h4⟩ := i3 p hp
    intro hm
    rcases List.mem_append.mp hm with hm | hm
    · exact h3 hm
    · rcases List.mem_cons.mp hm with hm | hm
      · exact absurd hm (by decide)
      · exact h4 hm
  · exact ⟨_, by unfold hdEntry; rw [if_neg hg]⟩

/-- **C103 is false of the code** for commands whose name begins with `G`, `E` or `T`: the settings of the
echo sounder (`GETECHO`) are stored under `CHO`, those of the trigger (`GETTRIG`) under `RIG`, so neither can be
found under its name. -/
theorem head_get_false (pInt : Key → Option ℤ) (pFloat : Key → Option ℚ) :
    readHead pInt pFloat ["GETECHO,EN=1".toList] =
        .ok [("CHO".toList, .items [("EN".toList, hdVal pInt pFloat "1".toList)])] ∧
      readHead pInt pFloat ["GETTRIG,EN=1".toList] =
        .ok [("RIG".toList, .items [("EN".toList, hdVal pInt pFloat "1".toList)])] := by
  constructor <;> rfl

/-- **C103 is false of the code** for a repeated `GET` command: the file cannot be read at all. -/
theorem head_repeat_false (pInt : Key → Option ℤ) (pFloat : Key → Option ℚ) :
    readHead pInt pFloat ["GETPLAN,A=1".toList, "GETPLAN,B=2".toList] = .error .attributeError := by
  rfl

theorem splitAll_length (c : Char) : ∀ k : Key, (splitAll c k).length = k.count c + 1
  | [] => rfl
  | x :: k => by
    have ih := splitAll_length c k
    rw [splitAll]
    split
    · rename_i h
      subst h
      simp [ih]
    · rename_i h
      rw [List.count_cons_of_ne (by simpa using h)]
      cases hs : splitAll c k with
      | nil => rw [hs] at ih; simp at ih
      | cons a b => rw [hs] at ih; simpa using ih

theorem hdItems_refused (pInt : Key → Option ℤ) (pFloat : Key → Option ℚ) : ∀ (its : List Key) (d : List (Key × HVal)),
    (∃ itm ∈ its, itm.count '=' ≠ 1) → hdItems pInt pFloat d its = .error .valueError
  | [], _, h => by obtain ⟨_, h, -⟩ := h; simp at h
  | a :: its, d, h => by
    rw [hdItems]
    have hl := splitAll_length '=' a
    split
    · rename_i k v e
      rw [e] at hl
      refine hdItems_refused pInt pFloat its _ ?_
      obtain ⟨x, hx, hx'⟩ := h
      rcases List.mem_cons.mp hx with rfl | hx
      · simp at hl; omega
      · exact ⟨x, hx, hx'⟩
    · rfl

/-- **C103**: an item without a value, or with two, is refused: the file is not read. -/
theorem head_item_refused (pInt : Key → Option ℤ) (pFloat : Key → Option ℚ) (n : Key) (its : List Key) (hn : ',' ∉ n)
    (hc : ∀ itm ∈ its, ',' ∉ itm) (h : ∃ itm ∈ its, itm.count '=' ≠ 1) :
    readHead pInt pFloat [("GET".toList ++ n) ++ ',' :: Spec.joined ',' its] = .error .valueError := by
  have h0 : its ≠ [] := by
    rintro rfl
    obtain ⟨_, h, -⟩ := h
    simp at h
  have hn' : ',' ∉ "GET".toList ++ n := by
    intro hm
    rcases List.mem_append.mp hm with hm | hm
    · exact absurd hm (by decide)
    · exact hn hm
  unfold readHead
  rw [hdLines, hdLine, splitFirst_append ',' _ _ hn']
  simp only [pget, List.find?_nil, Option.map_none, hdLines, pset, List.any_nil, Bool.false_eq_true, if_false,
    List.nil_append]
  rw [hdOut, hdEntry, if_pos (isGet_append n), splitAll_joined ',' its h0 hc, hdItems_refused pInt pFloat its [] h]

example (pInt : Key → Option ℤ) (pFloat : Key → Option ℚ) :
    readHead pInt pFloat ["GETPLAN,A=1,B".toList] = .error .valueError := by
  have := head_item_refused pInt pFloat "PLAN".toList ["A=1".toList, "B".toList] (by decide) (by decide)
    ⟨"B".toList, by decide, by decide⟩
  exact this

/-! ### Settings -/

/-- The numbers `M11`, `M12`, ... of a matrix in the header. -/
def Spec.headHasMat (d : List (Key × HVal)) (r c : ℕ) (M : ℕ → ℕ → HVal) (Q : ℕ → ℕ → ℚ) : Prop :=
  pget d "ROWS".toList = some (.int r) ∧ pget d "COLS".toList = some (.int c) ∧
    ∀ i < r, ∀ j < c, pget d (matName i j).toList = some (M i j) ∧
      (M i j = .flt (Q i j) ∨ ∃ z : ℤ, M i j = .int z ∧ Q i j = z)

theorem mapM_ok_map {α β : Type*} (f : α → Except Err β) (g : α → β) :
    ∀ l : List α, (∀ a ∈ l, f a = .ok (g a)) → l.mapM f = .ok (l.map g)
  | [], _ => rfl
  | a :: l, h => by
    rw [List.mapM_cons, h a (by simp), mapM_ok_map f g l fun b hb => h b (by simp [hb])]
    rfl

theorem headMat_spec (cfg : List (Key × HOut)) (cmd : String) (d : List (Key × HVal)) (r c : ℕ)
    (M : ℕ → ℕ → HVal) (Q : ℕ → ℕ → ℚ) (hd : pget cfg cmd.toList = some (.items d))
    (h : Spec.headHasMat d r c M Q) :
    headMat cfg cmd = .ok ((List.range r).map fun i => (List.range c).map fun j => Q i j) := by
  obtain ⟨h1, h2, h3⟩ := h
  have e1 : headItem cfg cmd "ROWS" >>= HVal.count = .ok r := by
    unfold headItem
    rw [hd]
    simp only
    rw [h1]
    simp [bind, Except.bind, HVal.count]
  have e2 : headItem cfg cmd "COLS" >>= HVal.count = .ok c := by
    unfold headItem
    rw [hd]
    simp only
    rw [h2]
    simp [bind, Except.bind, HVal.count]
  unfold headMat
  rw [e1]
  simp only [bind, Except.bind]
  simp only [bind, Except.bind] at e2
  rw [e2]
  simp only
  apply mapM_ok_map
  intro i hi
  rw [List.mem_range] at hi
  apply mapM_ok_map
  intro j hj
  rw [List.mem_range] at hj
  obtain ⟨k1, k2⟩ := h3 i hi j hj
  unfold headItem
  rw [hd]
  simp only
  rw [k1]
  simp only
  rcases k2 with k2 | ⟨z, k2, k3⟩
  · rw [k2]; rfl
  · rw [k2, k3]; rfl

/-- **C104** (burst files). For a file with burst profiles and without averaged profiles, the sampling rate is
that of the burst plan, the beam matrix holds the header's `Mij` at row `i` and column `j`, and cell number `i`
(from 1) of every profile lies at `blank + i * cell size`. -/
theorem reduce_burst (cfg : List (Key × HOut)) (p : AdProfiles) (db d : List (Key × HVal)) (sr : HVal) (r c : ℕ)
    (M : ℕ → ℕ → HVal) (Q : ℕ → ℕ → ℚ) (n : ℕ) (cell blank : ℚ) (hp : p.burst = some (n, cell, blank))
    (ha : p.avg = none) (hb : pget cfg "BURST".toList = some (.items db)) (hs : pget db "SR".toList = some sr)
    (hd : pget cfg "XFBURST".toList = some (.items d)) (h : Spec.headHasMat d r c M Q) :
    ∃ s, adReduce cfg p = .ok s ∧ s.fs = sr ∧
      s.beam2inst = (List.range r).map (fun i => (List.range c).map fun j => Q i j) ∧
      s.range = some (adRange n cell blank) ∧
      s.rangeB5 = p.b5.map (fun q => adRange q.1 q.2.1 q.2.2) ∧
      s.rangeEcho = p.echo.map (fun q => adRange q.1 q.2.1 q.2.2) := by
  have e1 : burstPlan cfg p = .ok (some (sr, "XFBURST")) := by
    unfold burstPlan headItem
    rw [hp]
    simp only
    rw [hb]
    simp only
    rw [hs, hd]
    rfl
  have e2 : avgPlan cfg p (some (sr, "XFBURST")) = .ok (some (sr, "XFBURST")) := by
    unfold avgPlan
    rw [ha]
  unfold adReduce
  rw [e1]
  simp only [bind, Except.bind]
  rw [e2]
  simp only
  rw [headMat_spec cfg "XFBURST" d r c M Q hd h]
  exact ⟨_, rfl, rfl, rfl, by rw [hp]; rfl, rfl, rfl⟩

/-- Cells are a cell size apart, the first one a cell size beyond the blanking distance. -/
theorem range_cells (n : ℕ) (cell blank : ℚ) : (adRange n cell blank).length = n ∧
    (∀ i < n, (adRange n cell blank)[i]? = some (blank + (i + 1) * cell)) := by
  refine ⟨by simp [adRange], fun i hi => ?_⟩
  unfold adRange
  rw [List.getElem?_map, List.getElem?_range hi, Option.map_some]
  congr 1
  ring

/-- **C104 is false of the code** for files with averaged profiles: the sampling rate (`fs`, in Hz) is set to
the measurement interval `MIAVG` (in seconds), also when the file has burst profiles with a rate of their own,
and the beam matrix is that of the averaging plan. -/
theorem reduce_avg_false (cfg : List (Key × HOut)) (p : AdProfiles) (da dp db d : List (Key × HVal))
    (sr mi ai bw : HVal) (r c : ℕ) (M : ℕ → ℕ → HVal) (Q : ℕ → ℕ → ℚ)
    (hp : p.burst.isSome) (ha : p.avg.isSome)
    (hb : pget cfg "BURST".toList = some (.items db)) (hs : pget db "SR".toList = some sr)
    (hx : (pget cfg "XFBURST".toList).isSome)
    (hpl : pget cfg "PLAN".toList = some (.items dp)) (hmi : pget dp "MIAVG".toList = some mi)
    (hav : pget cfg "AVG".toList = some (.items da)) (hai : pget da "AI".toList = some ai)
    (hbw : pget da "BW".toList = some bw)
    (hd : pget cfg "XFAVG".toList = some (.items d)) (h : Spec.headHasMat d r c M Q) :
    ∃ s, adReduce cfg p = .ok s ∧ s.fs = mi ∧
      s.beam2inst = (List.range r).map (fun i => (List.range c).map fun j => Q i j) := by
  obtain ⟨x, hx⟩ := Option.isSome_iff_exists.mp hx
  obtain ⟨b, hp⟩ := Option.isSome_iff_exists.mp hp
  obtain ⟨a, ha⟩ := Option.isSome_iff_exists.mp ha
  have e1 : burstPlan cfg p = .ok (some (sr, "XFBURST")) := by
    unfold burstPlan headItem
    rw [hp]
    simp only
    rw [hb]
    simp only
    rw [hs, hx]
    rfl
  have e2 : avgPlan cfg p (some (sr, "XFBURST")) = .ok (some (mi, "XFAVG")) := by
    unfold avgPlan headItem
    rw [ha]
    simp only
    rw [hd, hpl]
    simp only
    rw [hmi, hav]
    simp only
    rw [hai, hbw]
    rfl
  unfold adReduce
  rw [e1]
  simp only [bind, Except.bind]
  rw [e2]
  simp only
  rw [headMat_spec cfg "XFAVG" d r c M Q hd h]
  exact ⟨_, rfl, rfl, rfl⟩

/-- **C104 is false of the code** for a file with fifth-beam or echo profiles only: it cannot be read. -/
theorem reduce_b5_false (cfg : List (Key × HOut)) (p : AdProfiles) (h1 : p.burst = none) (h2 : p.avg = none) :
    (match adReduce cfg p with
      | .error e => some e
      | .ok _ => none) = some .unboundLocal := by
  unfold adReduce burstPlan
  rw [h1]
  simp only [bind, Except.bind, avgPlan]
  rw [h2]

/-- A header as in C103 and C104: a plain command, a repeated one, and a burst plan of 8 Hz. -/
def exHead : List (Key × Key) :=
  [("ID".toList, "STR=\"Signature\"".toList), ("BEAMCFGLIST".toList, "BEAM=1".toList),
   ("GETBURST".toList, "SR=8,NC=3".toList), ("BEAMCFGLIST".toList, "BEAM=2".toList),
   ("GETXFBURST".toList, "ROWS=1,COLS=1,M11=1".toList)]

def exInt (k : Key) : Option ℤ :=
  if k = "8".toList then some 8 else if k = "3".toList then some 3 else if k = "1".toList then some 1 else none

example : readHead exInt (fun _ => none) (exHead.map fun c => c.1 ++ ',' :: c.2) =
    .ok [("ID".toList, .raw (.one "STR=\"Signature\"".toList)),
      ("BEAMCFGLIST".toList, .raw (.many ["BEAM=1".toList, "BEAM=2".toList])),
      ("BURST".toList, .items [("SR".toList, .int 8), ("NC".toList, .int 3)]),
      ("XFBURST".toList, .items [("ROWS".toList, .int 1), ("COLS".toList, .int 1), ("M11".toList, .int 1)])] := by
  rfl

example : (∀ c ∈ exHead, ',' ∉ c.1) ∧
    Spec.textsOf exHead ("GET".toList ++ "BURST".toList) =
      [Spec.joined ',' ([("SR".toList, "8".toList), ("NC".toList, "3".toList)].map fun p => p.1 ++ '=' :: p.2)] := by
  constructor
  · decide
  · rfl

example : Spec.headHasMat [("ROWS".toList, .int 1), ("COLS".toList, .int 1), ("M11".toList, .int 1)] 1 1
    (fun _ _ => .int 1) (fun _ _ => 1) := by
  refine ⟨rfl, rfl, ?_⟩
  intro i hi j hj
  obtain rfl : i = 0 := by omega
  obtain rfl : j = 0 := by omega
  exact ⟨by decide, Or.inr ⟨1, rfl, by norm_num⟩⟩

end Dolfyn
