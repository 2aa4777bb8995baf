import Verif.Model.AdVars
import Verif.Props.Ad2cpReorg
import Verif.Props.Ad2cpBits

/-!
C175: the variables of a Signature dataset.
-/

namespace Dolfyn

theorem adBtNames_eq (config : ℕ) : adBtNames config = (adBtDefs config).map AdDef.name := by
  unfold adBtNames adBtDefs
  simp only [List.map_append, apply_ite (List.map AdDef.name)]
  rfl

theorem adEchoNames_eq (config : ℕ) : adEchoNames config = (adEchoDefs config).map AdDef.name := by
  unfold adEchoNames adEchoDefs
  simp only [List.map_append, apply_ite (List.map AdDef.name)]
  rfl

/-! ### `_altraw_reorg` -/

theorem mem_rgAltraw_iff (tag : String) (ks : List Key) (k : Key) :
    k ∈ rgAltraw tag ks ↔ k ∈ ks ∧ rgAltraw tag [k] = [k] := by
  unfold rgAltraw
  rw [List.mem_filter, List.filter_cons, List.filter_nil]
  split
  · rename_i h
    exact ⟨fun a => ⟨a.1, rfl⟩, fun a => ⟨a.1, h⟩⟩
  · rename_i h
    exact ⟨fun a => absurd a.2 h, fun a => by simp at a⟩

theorem altrawReorg_ok (tag : String) (ht : tag = "" ∨ tag = "_avg") (pw : ℕ) (ks r : List Key) :
    altrawReorg tag pw ks = .ok r ↔ r = rgAltraw tag ks ∧ rgKey "samp_altraw" tag ∈ ks ∧ rgKey "status_altraw" tag ∈ ks ∧
      rgKey "status_alt" tag ∈ ks ∧ pw < 4 := by
  have e1 : keyEnds ("_altraw" ++ tag) (rgKey "samp_altraw" tag) = true := by rcases ht with rfl | rfl <;> decide
  have e2 : keyEnds ("_altraw" ++ tag) (rgKey "status_altraw" tag) = true := by rcases ht with rfl | rfl <;> decide
  have e3 : keyEnds ("raw" ++ tag) (rgKey "status_alt" tag) = false := by rcases ht with rfl | rfl <;> decide
  have e4 : (rgKey "status_alt" tag == rgKey "status_altraw" tag) = false := by rcases ht with rfl | rfl <;> decide
  have er : ((ks.filter fun k => !(keyEnds ("raw" ++ tag) k && !keyEnds ("_altraw" ++ tag) k)).filter fun k =>
      !(k == rgKey "status_altraw" tag)).filter (fun k => !(k == rgKey "status_alt" tag)) = rgAltraw tag ks := by
    unfold rgAltraw
    rw [List.filter_filter, List.filter_filter]
    congr 1
    funext k
    cases (k == rgKey "status_altraw" tag) <;> cases (k == rgKey "status_alt" tag) <;>
      cases keyEnds ("raw" ++ tag) k <;> cases keyEnds ("_altraw" ++ tag) k <;> rfl
  unfold altrawReorg
  simp only [er]
  simp only [List.mem_filter, e1, e2, e3, e4, Bool.not_true, Bool.and_false, Bool.not_false, Bool.false_and, and_true]
  by_cases a1 : rgKey "samp_altraw" tag ∈ ks <;> by_cases a2 : rgKey "status_altraw" tag ∈ ks <;>
    by_cases a3 : rgKey "status_alt" tag ∈ ks <;> by_cases a4 : pw < 4 <;> simp [a1, a2, a3, a4, eq_comm]

/-! ### Names -/

/-- The altimeter's variables. -/
def Spec.altNames : List String :=
  ["pressure_alt", "le_dist_alt", "le_quality_alt", "ast_dist_alt", "ast_quality_alt", "ast_offset_time_alt", "nsamp_alt",
    "dsamp_alt", "samp_alt"]

set_option maxRecDepth 100000 in
theorem rg_kept_all : ∀ x ∈ rgUniverse, x.2 ≠ "status_alt" → (x.1.1 ∈ [26, 31] → x.2 ∈ Spec.altNames) →
    rgAltraw "" [rgKey x.2 x.1.2] = [rgKey x.2 x.1.2] ∧ rgAltraw "_avg" [rgKey x.2 x.1.2] = [rgKey x.2 x.1.2] := by
  decide +kernel

set_option maxRecDepth 100000 in
theorem rg_status0 : ∀ x ∈ rgUniverse, (keyIn "status0" (rgKey x.2 x.1.2) = true ↔ x.2 = "status0") := by
  decide +kernel

theorem mem_rgUniverse {id : ℕ} {tag b : String} (h : (id, tag) ∈ rgTags) (hb : b ∈ rgFixed ∨ b ∈ rgOpt) :
    ((id, tag), b) ∈ rgUniverse := by
  unfold rgUniverse
  rw [List.mem_flatMap]
  exact ⟨_, h, List.mem_map.mpr ⟨b, List.mem_append.mpr hb, rfl⟩⟩

/-- Distinct record types or names give distinct variables. -/
theorem rgKey_inj {x y : (ℕ × String) × String} (hx : x ∈ rgUniverse) (hy : y ∈ rgUniverse)
    (h : rgKey x.2 x.1.2 = rgKey y.2 y.1.2) : x = y :=
  List.inj_on_of_nodup_map rg_universe_nodup hx hy h

theorem mem_rgAll_key (present : ℕ → Bool) (has : ℕ → String → Bool) {x : (ℕ × String) × String} (hx : x ∈ rgUniverse) :
    rgKey x.2 x.1.2 ∈ rgAll present has ↔ Spec.recorded present has x.1.1 x.2 := by
  rw [mem_rgAll]
  constructor
  · rintro ⟨y, hy, hr, e⟩
    rw [rgKey_inj hx hy e]
    exact hr
  · exact fun h => ⟨x, hx, h, rfl⟩

/-! ### `_reorg` -/

/-- The variables after the raw altimeter is sorted out. -/
def rgSorted (present : ℕ → Bool) (has : ℕ → String → Bool) : List Key :=
  let k1 := if present 26 then rgAltraw "" (rgAll present has) else rgAll present has
  if present 31 then rgAltraw "_avg" k1 else k1

theorem rgDataVars_eq (present : ℕ → Bool) (has : ℕ → String → Bool) :
    rgDataVars present has = (rgSorted present has).filter fun k => !keyIn "status0" k := rfl

theorem mem_rgSorted (present : ℕ → Bool) (has : ℕ → String → Bool) {x : (ℕ × String) × String} (hx : x ∈ rgUniverse)
    (h1 : x.2 ≠ "status_alt") (h2 : x.1.1 ∈ [26, 31] → x.2 ∈ Spec.altNames) :
    rgKey x.2 x.1.2 ∈ rgSorted present has ↔ Spec.recorded present has x.1.1 x.2 := by
  obtain ⟨k1, k2⟩ := rg_kept_all x hx h1 h2
  rw [← mem_rgAll_key present has hx]
  unfold rgSorted
  simp only
  have e1 : rgKey x.2 x.1.2 ∈ (if present 26 then rgAltraw "" (rgAll present has) else rgAll present has) ↔
      rgKey x.2 x.1.2 ∈ rgAll present has := by
    split
    · rw [mem_rgAltraw_iff]; exact and_iff_left k1
    · rfl
  split
  · rw [mem_rgAltraw_iff, e1]; exact and_iff_left k2
  · exact e1

theorem rgSorted_sub (present : ℕ → Bool) (has : ℕ → String → Bool) (k : Key) (h : k ∈ rgSorted present has) :
    k ∈ rgAll present has ∧ (present 26 = true → rgAltraw "" [k] = [k]) ∧ (present 31 = true → rgAltraw "_avg" [k] = [k]) := by
  unfold rgSorted at h
  simp only at h
  by_cases h1 : present 26 = true <;> by_cases h2 : present 31 = true
  · rw [if_pos h1, if_pos h2, mem_rgAltraw_iff, mem_rgAltraw_iff] at h
    exact ⟨h.1.1, fun _ => h.1.2, fun _ => h.2⟩
  · rw [if_pos h1, if_neg h2, mem_rgAltraw_iff] at h
    exact ⟨h.1, fun _ => h.2, fun hh => absurd hh h2⟩
  · rw [if_neg h1, if_pos h2, mem_rgAltraw_iff] at h
    exact ⟨h.1, fun hh => absurd hh h1, fun _ => h.2⟩
  · rw [if_neg h1, if_neg h2] at h
    exact ⟨h, fun hh => absurd hh h1, fun hh => absurd hh h2⟩

/-- The variables that the raw altimeter of a profile needs. -/
def Spec.altComplete (present : ℕ → Bool) (has : ℕ → String → Bool) (raw prof pw : ℕ) : Prop :=
  has raw "samp_alt" = true ∧ has raw "status_alt" = true ∧ present prof = true ∧ has prof "status_alt" = true ∧ pw < 4

theorem recorded_opt (present : ℕ → Bool) (has : ℕ → String → Bool) (id : ℕ) (b : String) (h : b ∉ rgFixed)
    (h' : b ∈ rgOpt) : Spec.recorded present has id b ↔ present id = true ∧ has id b = true := by
  unfold Spec.recorded
  simp [h, h']

theorem altraw_burst_ok (present : ℕ → Bool) (has : ℕ → String → Bool) (pw : ℕ) (r : List Key) (hp : present 26 = true) :
    altrawReorg "" pw (rgAll present has) = .ok r ↔
      r = rgAltraw "" (rgAll present has) ∧ Spec.altComplete present has 26 21 pw := by
  rw [altrawReorg_ok "" (.inl rfl)]
  have e1 := mem_rgAll_key present has (x := ((26, "raw"), "samp_alt")) (mem_rgUniverse (by decide) (.inr (by decide)))
  have e2 := mem_rgAll_key present has (x := ((26, "raw"), "status_alt")) (mem_rgUniverse (by decide) (.inr (by decide)))
  have e3 := mem_rgAll_key present has (x := ((21, ""), "status_alt")) (mem_rgUniverse (by decide) (.inr (by decide)))
  rw [recorded_opt _ _ _ _ (by decide) (by decide)] at e1 e2 e3
  have k1 : rgKey "samp_altraw" "" = rgKey "samp_alt" "raw" := by decide
  have k2 : rgKey "status_altraw" "" = rgKey "status_alt" "raw" := by decide
  simp only at e1 e2 e3
  rw [k1, k2, e1, e2, e3]
  unfold Spec.altComplete
  simp [hp, and_assoc]

theorem altraw_avg_ok (present : ℕ → Bool) (has : ℕ → String → Bool) (pw : ℕ) (ks r : List Key) (hp : present 31 = true)
    (hk : ks = if present 26 then rgAltraw "" (rgAll present has) else rgAll present has) :
    altrawReorg "_avg" pw ks = .ok r ↔ r = rgAltraw "_avg" ks ∧ Spec.altComplete present has 31 22 pw := by
  rw [altrawReorg_ok "_avg" (.inr rfl)]
  have e1 := mem_rgAll_key present has (x := ((31, "raw_avg"), "samp_alt")) (mem_rgUniverse (by decide) (.inr (by decide)))
  have e2 := mem_rgAll_key present has (x := ((31, "raw_avg"), "status_alt")) (mem_rgUniverse (by decide) (.inr (by decide)))
  have e3 := mem_rgAll_key present has (x := ((22, "_avg"), "status_alt")) (mem_rgUniverse (by decide) (.inr (by decide)))
  rw [recorded_opt _ _ _ _ (by decide) (by decide)] at e1 e2 e3
  simp only at e1 e2 e3
  have hm : ∀ k, rgAltraw "" [k] = [k] → (k ∈ ks ↔ k ∈ rgAll present has) := by
    intro k h
    rw [hk]
    split
    · rw [mem_rgAltraw_iff]; exact and_iff_left h
    · rfl
  have k1 : rgKey "samp_altraw" "_avg" = rgKey "samp_alt" "raw_avg" := by decide
  have k2 : rgKey "status_altraw" "_avg" = rgKey "status_alt" "raw_avg" := by decide
  rw [k1, k2, hm _ (by decide), hm _ (by decide), hm _ (by decide), e1, e2, e3]
  unfold Spec.altComplete
  simp [hp, and_assoc]

set_option maxRecDepth 100000 in
theorem rg_status0_raw : rgAltraw "" [rgKey "status0" "raw"] = [] ∧ rgAltraw "_avg" [rgKey "status0" "raw_avg"] = [] ∧
    ∀ it ∈ rgTags, it.1 ∈ [21, 22, 23, 24, 26, 28, 31] ∧ (it.1 = 26 → it.2 = "raw") ∧ (it.1 = 31 → it.2 = "raw_avg") := by
  decide +kernel

theorem rgSorted_status0 (present : ℕ → Bool) (has : ℕ → String → Bool) :
    ((rgSorted present has).filter fun k => keyIn "status0" k) = [] ↔
      ∀ id ∈ [21, 22, 23, 24, 28], present id = true → has id "status0" = false := by
  rw [List.filter_eq_nil_iff]
  constructor
  · intro h id hid hp
    have ⟨tag, ht⟩ : ∃ tag, (id, tag) ∈ rgTags := by
      simp only [List.mem_cons, List.not_mem_nil, or_false] at hid
      rcases hid with rfl | rfl | rfl | rfl | rfl
      · exact ⟨"", by decide⟩
      · exact ⟨"_avg", by decide⟩
      · exact ⟨"_bt", by decide⟩
      · exact ⟨"_b5", by decide⟩
      · exact ⟨"_echo", by decide⟩
    have hx := mem_rgUniverse (b := "status0") ht (.inr (by decide))
    by_contra hc
    have hc : has id "status0" = true := by simpa using hc
    refine h (rgKey "status0" tag) ((mem_rgSorted present has hx (by decide : "status0" ≠ "status_alt") ?_).mpr ?_) ?_
    · intro h26
      simp only [List.mem_cons, List.not_mem_nil, or_false] at hid h26
      omega
    · exact (recorded_opt _ _ id "status0" (by decide) (by decide)).mpr ⟨hp, hc⟩
    · exact (rg_status0 _ hx).mpr rfl
  · intro h k hk hs
    obtain ⟨h1, h2, h3⟩ := rgSorted_sub present has k hk
    obtain ⟨⟨⟨id, tag⟩, b⟩, hx, hr, rfl⟩ := (mem_rgAll present has k).mp h1
    have hb : b = "status0" := (rg_status0 _ hx).mp hs
    subst hb
    obtain ⟨hp, hh⟩ := (recorded_opt _ _ id "status0" (by decide) (by decide)).mp hr
    obtain ⟨s1, s2, s3⟩ := rg_status0_raw
    have ht : (id, tag) ∈ rgTags := by
      unfold rgUniverse at hx
      obtain ⟨it, h1, h2⟩ := List.mem_flatMap.mp hx
      obtain ⟨b', -, e⟩ := List.mem_map.mp h2
      cases e
      exact h1
    obtain ⟨t1, t2, t3⟩ := s3 _ ht
    simp only at t1 t2 t3 hp hh
    by_cases c1 : id = 26
    · subst c1
      have := h2 hp
      rw [t2 rfl, s1] at this
      simp at this
    · by_cases c2 : id = 31
      · subst c2
        have := h3 hp
        rw [t3 rfl, s2] at this
        simp at this
      · have := h id (by simp only [List.mem_cons, List.not_mem_nil, or_false] at t1 ⊢; omega) hp
        rw [hh] at this
        cases this

/-- When `_reorg` succeeds. -/
theorem reorgVars_ok (present : ℕ → Bool) (has : ℕ → String → Bool) (pw pwAvg : ℕ) (r : List Key) :
    reorgVars present has pw pwAvg = .ok r ↔ r = rgDataVars present has ∧
      (present 26 = true → Spec.altComplete present has 26 21 pw) ∧
      (present 31 = true → Spec.altComplete present has 31 22 pwAvg) ∧
      ∃ id ∈ [21, 22, 23, 24, 28], present id = true ∧ has id "status0" = true := by
  have hs := rgSorted_status0 present has
  have hs' : ¬ ((rgSorted present has).filter fun k => keyIn "status0" k) = [] ↔
      ∃ id ∈ [21, 22, 23, 24, 28], present id = true ∧ has id "status0" = true := by
    rw [hs]
    push Not
    simp
  rw [← hs', rgDataVars_eq]
  unfold reorgVars
  generalize hk : (if present 26 then rgAltraw "" (rgAll present has) else rgAll present has) = ks
  have st1 : ∀ x, reorgRaw (present 26) "" pw (rgAll present has) = .ok x ↔
      x = ks ∧ (present 26 = true → Spec.altComplete present has 26 21 pw) := by
    intro x
    unfold reorgRaw
    by_cases h : present 26 = true
    · rw [if_pos h, altraw_burst_ok present has pw x h, ← hk, if_pos h]
      simp [h]
    · rw [if_neg h, ← hk, if_neg h]
      simp [h, eq_comm]
  have hd : rgSorted present has = if present 31 then rgAltraw "_avg" ks else ks := by
    unfold rgSorted
    simp only [hk]
  have st2 : ∀ x, reorgRaw (present 31) "_avg" pwAvg ks = .ok x ↔
      x = rgSorted present has ∧ (present 31 = true → Spec.altComplete present has 31 22 pwAvg) := by
    intro x
    unfold reorgRaw
    rw [hd]
    by_cases h : present 31 = true
    · rw [if_pos h, altraw_avg_ok present has pwAvg ks x h hk.symm, if_pos h]
      simp [h]
    · rw [if_neg h, if_neg h]
      simp [h, eq_comm]
  cases e1 : reorgRaw (present 26) "" pw (rgAll present has) with
  | error e =>
    simp only [bind, Except.bind]
    constructor
    · intro h; cases h
    · rintro ⟨-, h, -⟩
      have := (st1 ks).mpr ⟨rfl, h⟩
      rw [e1] at this
      cases this
  | ok x =>
    obtain ⟨rfl, c1⟩ := (st1 x).mp e1
    simp only [bind, Except.bind]
    cases e2 : reorgRaw (present 31) "_avg" pwAvg x with
    | error e =>
      constructor
      · intro h; cases h
      · rintro ⟨-, -, h, -⟩
        have := (st2 _).mpr ⟨rfl, h⟩
        rw [e2] at this
        cases this
    | ok y =>
      obtain ⟨rfl, c2⟩ := (st2 y).mp e2
      simp only
      by_cases h0 : ((rgSorted present has).filter fun k => keyIn "status0" k) = []
      · rw [if_pos h0]
        constructor
        · intro h; cases h
        · rintro ⟨-, -, -, h⟩
          exact absurd h0 h
      · rw [if_neg h0]
        simp only [pure, Except.pure, Except.ok.injEq]
        exact ⟨fun h => ⟨h.symm, c1, c2, h0⟩, fun h => h.1.symm⟩

/-! ### `_reduce` -/

theorem mem_reduceKey (ks : List Key) (ky : String) (k : Key) :
    k ∈ reduceKey ks ky ↔ k ∈ ks ∧ k ≠ rgKey ky "_b5" ∨ k = ky.toList ∧ rgKey ky "_b5" ∈ ks := by
  have hne : ky.toList ≠ rgKey ky "_b5" := by
    intro h
    have := congrArg List.length h
    unfold rgKey at this
    rw [List.length_append] at this
    have h5 : ("_b5".toList).length = 3 := by decide
    omega
  unfold reduceKey
  by_cases h : rgKey ky "_b5" ∈ ks
  · rw [if_pos h]
    simp only
    split
    · rename_i h1
      rw [List.mem_filter] at h1
      rw [List.mem_filter]
      constructor
      · intro hk; exact .inl ⟨hk.1, by simpa using hk.2⟩
      · rintro (hk | ⟨rfl, -⟩)
        · exact ⟨hk.1, by simpa using hk.2⟩
        · exact h1
    · rw [List.mem_append, List.mem_filter, List.mem_singleton]
      constructor
      · rintro (hk | hk)
        · exact .inl ⟨hk.1, by simpa using hk.2⟩
        · exact .inr ⟨hk, h⟩
      · rintro (hk | hk)
        · exact .inl ⟨hk.1, by simpa using hk.2⟩
        · exact .inr hk.1
  · rw [if_neg h]
    constructor
    · intro hk
      exact .inl ⟨hk, fun e => h (e ▸ hk)⟩
    · rintro (hk | hk)
      · exact hk.1
      · exact absurd hk.2 h

theorem foldRed_keep (k : Key) : ∀ (L : List String) (ks : List Key), (∀ n ∈ L, k ≠ rgKey n "_b5") → k ∈ ks →
    k ∈ L.foldl reduceKey ks
  | [], _, _, h => h
  | n :: L, ks, hn, h => by
    rw [List.foldl_cons]
    exact foldRed_keep k L _ (fun m hm => hn m (by simp [hm])) ((mem_reduceKey _ _ _).mpr (.inl ⟨h, hn n (by simp)⟩))

theorem foldRed_sub (k : Key) : ∀ (L : List String) (ks : List Key), k ∈ L.foldl reduceKey ks →
    k ∈ ks ∨ ∃ n ∈ L, k = n.toList
  | [], _, h => .inl h
  | n :: L, ks, h => by
    rw [List.foldl_cons] at h
    rcases foldRed_sub k L _ h with h | ⟨m, hm, e⟩
    · rcases (mem_reduceKey _ _ _).mp h with h | h
      · exact .inl h.1
      · exact .inr ⟨n, by simp, h.1⟩
    · exact .inr ⟨m, by simp [hm], e⟩

theorem rgKey_b5_inj {a b : String} (h : rgKey a "_b5" = rgKey b "_b5") : a = b := by
  unfold rgKey at h
  exact String.toList_inj.mp (List.append_cancel_right h)

theorem foldRed_reduced (n : String) : ∀ (L : List String) (ks : List Key), n ∈ L → (∀ m ∈ L, n.toList ≠ rgKey m "_b5") →
    rgKey n "_b5" ∈ ks → n.toList ∈ L.foldl reduceKey ks
  | [], _, h, _, _ => by simp at h
  | m :: L, ks, h, hn, hk => by
    rw [List.foldl_cons]
    by_cases e : n = m
    · subst e
      exact foldRed_keep _ L _ (fun x hx => hn x (by simp [hx])) ((mem_reduceKey _ _ _).mpr (.inr ⟨rfl, hk⟩))
    · refine foldRed_reduced n L _ ?_ (fun x hx => hn x (by simp [hx])) ?_
      · rcases List.mem_cons.mp h with h | h
        · exact absurd h e
        · exact h
      · exact (mem_reduceKey _ _ _).mpr (.inl ⟨hk, fun h => e (rgKey_b5_inj h)⟩)

theorem mem_reduceEcho (ks : List Key) (k : Key) (h : k ∈ ks) (hne : k ≠ "echo_echo".toList) : k ∈ reduceEcho ks := by
  unfold reduceEcho
  split
  · exact List.mem_append_left _ (List.mem_filter.mpr ⟨h, by simpa using hne⟩)
  · exact h

theorem mem_reduceEcho_echo (ks : List Key) (h : "echo_echo".toList ∈ ks) : "echo".toList ∈ reduceEcho ks := by
  unfold reduceEcho
  rw [if_pos h]
  simp

theorem reduceEcho_sub (ks : List Key) (k : Key) (h : k ∈ reduceEcho ks) : k ∈ ks ∨ k = "echo".toList := by
  unfold reduceEcho at h
  split at h
  · rcases List.mem_append.mp h with h | h
    · exact .inl (List.mem_filter.mp h).1
    · exact .inr (List.mem_singleton.mp h)
  · exact .inl h

theorem reduceOmat_ok (ks : List Key) : (∃ r, reduceOmat ks = .ok r) ↔
    ("vel_avg".toList ∈ ks → "orientmat".toList ∈ ks ∨ "orientmat_avg".toList ∈ ks) := by
  unfold reduceOmat
  constructor
  · rintro ⟨r, h⟩ h1
    rw [if_pos h1] at h
    by_cases h2 : "orientmat".toList ∈ ks
    · exact .inl h2
    · by_cases h3 : "orientmat_avg".toList ∈ ks
      · exact .inr h3
      · rw [if_neg h2, if_neg h3] at h
        cases h
  · intro h
    by_cases h1 : "vel_avg".toList ∈ ks
    · rw [if_pos h1]
      by_cases h2 : "orientmat".toList ∈ ks
      · rw [if_pos h2]
        exact ⟨_, rfl⟩
      · rw [if_neg h2, if_pos ((h h1).resolve_left h2)]
        exact ⟨_, rfl⟩
    · rw [if_neg h1]
      exact ⟨_, rfl⟩

theorem reduceOmat_keep {ks r : List Key} (h : reduceOmat ks = .ok r) (k : Key) (hk : k ∈ ks)
    (hne : k = "orientmat_avg".toList → "vel_avg".toList ∈ ks → "orientmat".toList ∈ ks) : k ∈ r := by
  unfold reduceOmat at h
  split at h
  · rename_i h1
    split at h
    · rename_i h2
      cases h
      exact hk
    · rename_i h2
      split at h
      · cases h
        exact List.mem_append_left _ (List.mem_filter.mpr ⟨hk, by simpa using fun e => h2 (hne e h1)⟩)
      · cases h
  · cases h
    exact hk

theorem reduceOmat_new {ks r : List Key} (h : reduceOmat ks = .ok r) (h1 : "vel_avg".toList ∈ ks) : "orientmat".toList ∈ r := by
  unfold reduceOmat at h
  rw [if_pos h1] at h
  split at h
  · rename_i h2
    cases h
    exact h2
  · split at h
    · cases h
      simp
    · cases h

theorem reduceOmat_sub {ks r : List Key} (h : reduceOmat ks = .ok r) (k : Key) (hk : k ∈ r) :
    k ∈ ks ∨ k = "orientmat".toList := by
  unfold reduceOmat at h
  split at h
  · split at h
    · cases h
      exact .inl hk
    · split at h
      · cases h
        rcases List.mem_append.mp hk with hk | hk
        · exact .inl (List.mem_filter.mp hk).1
        · exact .inr (List.mem_singleton.mp hk)
      · cases h
  · cases h
    exact .inl hk

/-! ### The whole -/

theorem adHasVar_burst (cfg : ℕ → ℕ) (id : ℕ) (h1 : id ≠ 28) (h2 : id ≠ 23) :
    adHasVar cfg id "samp_alt" = (cfg id).testBit 9 ∧ adHasVar cfg id "status_alt" = (cfg id).testBit 8 ∧
      adHasVar cfg id "orientmat" = (cfg id).testBit 12 ∧ adHasVar cfg id "vel" = (cfg id).testBit 5 ∧
      adHasVar cfg id "status0" = true := by
  unfold adHasVar adNamesOf adBurstNames
  rw [if_neg h1, if_neg h2]
  simp only [getbit_eq_testBit]
  cases (cfg id).testBit 5 <;> cases (cfg id).testBit 6 <;> cases (cfg id).testBit 7 <;> cases (cfg id).testBit 8 <;>
    cases (cfg id).testBit 10 <;> cases (cfg id).testBit 9 <;> cases (cfg id).testBit 12 <;>
    cases (cfg id).testBit 13 <;> cases (cfg id).testBit 14 <;> exact ⟨rfl, rfl, rfl, rfl, rfl⟩

theorem adHasVar_status0 (cfg : ℕ → ℕ) : adHasVar cfg 28 "status0" = true ∧ adHasVar cfg 23 "status0" = false := by
  constructor
  · unfold adHasVar adNamesOf adEchoNames
    simp only [getbit_eq_testBit, if_true]
    cases (cfg 28).testBit 11 <;> cases (cfg 28).testBit 12 <;> rfl
  · unfold adHasVar adNamesOf adBtNames
    simp only [getbit_eq_testBit, if_true, show ¬ (23 = 28) by decide, if_false]
    cases (cfg 23).testBit 5 <;> cases (cfg 23).testBit 8 <;> cases (cfg 23).testBit 9 <;>
      cases (cfg 23).testBit 10 <;> rfl

theorem adHasVar_of_mem {cfg : ℕ → ℕ} {id : ℕ} {v : AdVar} (h : v ∈ adNamesOf id (cfg id)) :
    adHasVar cfg id (adVarName v) = true := by
  unfold adHasVar
  rw [List.contains_iff_mem]
  exact List.mem_map.mpr ⟨v, h, rfl⟩

theorem reduced_mem : ∀ n ∈ reducedNames, n ∈ rgFixed ∨ n ∈ rgOpt := by decide

/-- Averaging with the fifth beam does not touch other variables. -/
theorem mem_fold_other {ks : List Key} {x : (ℕ × String) × String} (hx : x ∈ rgUniverse)
    (h4 : x.1.1 = 24 → x.2 ∉ reducedNames) (h1 : x.1.1 = 21 → x.2 ∉ reducedNames) :
    rgKey x.2 x.1.2 ∈ reducedNames.foldl reduceKey ks ↔ rgKey x.2 x.1.2 ∈ ks := by
  constructor
  · intro h
    rcases foldRed_sub _ _ _ h with h | ⟨n, hn, e⟩
    · exact h
    · exfalso
      have hy := mem_rgUniverse (id := 21) (tag := "") (by decide) (reduced_mem n hn)
      have e' : rgKey x.2 x.1.2 = rgKey n "" := by
        rw [e]
        unfold rgKey
        have : "".toList = [] := by decide
        rw [this, List.append_nil]
      have := rgKey_inj hx hy e'
      subst this
      exact h1 rfl hn
  · intro h
    refine foldRed_keep _ _ _ ?_ h
    intro n hn e
    have hy := mem_rgUniverse (id := 24) (tag := "_b5") (by decide) (reduced_mem n hn)
    have := rgKey_inj hx hy e
    subst this
    exact h4 rfl hn

theorem mem_rgDataVars_key (present : ℕ → Bool) (has : ℕ → String → Bool) {x : (ℕ × String) × String} (hx : x ∈ rgUniverse)
    (h1 : x.2 ≠ "status_alt") (h2 : x.1.1 ∈ [26, 31] → x.2 ∈ Spec.altNames) (h3 : x.2 ≠ "status0") :
    rgKey x.2 x.1.2 ∈ rgDataVars present has ↔ Spec.recorded present has x.1.1 x.2 := by
  rw [rgDataVars_eq, List.mem_filter, mem_rgSorted present has hx h1 h2]
  refine and_iff_left ?_
  have := mt (rg_status0 x hx).mp h3
  simpa using this

/-- The combinations of records that can be read: raw altimeter pings need samples and altimeter status, the altimeter
status in the profiles of the same kind, and a power level below 4; there is a type other than bottom track; averaged profiles
need an orientation matrix in one of the two kinds of profiles. -/
def Spec.sigReadable (present : ℕ → Bool) (cfg : ℕ → ℕ) (pw pwAvg : ℕ) : Prop :=
  (present 26 = true → (cfg 26).testBit 9 = true ∧ (cfg 26).testBit 8 = true ∧ present 21 = true ∧
      (cfg 21).testBit 8 = true ∧ pw < 4) ∧
    (present 31 = true → (cfg 31).testBit 9 = true ∧ (cfg 31).testBit 8 = true ∧ present 22 = true ∧
      (cfg 22).testBit 8 = true ∧ pwAvg < 4) ∧
    (present 21 = true ∨ present 22 = true ∨ present 24 = true ∨ present 28 = true) ∧
    (present 22 = true → (cfg 22).testBit 5 = true →
      (present 21 = true ∧ (cfg 21).testBit 12 = true) ∨ (cfg 22).testBit 12 = true)

/-- **C175**: which files become a dataset. -/
theorem sig_vars_readable (present : ℕ → Bool) (cfg : ℕ → ℕ) (pw pwAvg : ℕ) :
    (∃ ks, sigVars present cfg pw pwAvg = .ok ks) ↔ Spec.sigReadable present cfg pw pwAvg := by
  have hro := reorgVars_ok present (adHasVar cfg) pw pwAvg
  obtain ⟨b21a, b21b, b21c, b21d, b21e⟩ := adHasVar_burst cfg 21 (by decide) (by decide)
  obtain ⟨b22a, b22b, b22c, b22d, b22e⟩ := adHasVar_burst cfg 22 (by decide) (by decide)
  obtain ⟨b24a, b24b, b24c, b24d, b24e⟩ := adHasVar_burst cfg 24 (by decide) (by decide)
  obtain ⟨b26a, b26b, b26c, b26d, b26e⟩ := adHasVar_burst cfg 26 (by decide) (by decide)
  obtain ⟨b31a, b31b, b31c, b31d, b31e⟩ := adHasVar_burst cfg 31 (by decide) (by decide)
  obtain ⟨b28, b23⟩ := adHasVar_status0 cfg
  have hst : (∃ id ∈ [21, 22, 23, 24, 28], present id = true ∧ adHasVar cfg id "status0" = true) ↔
      (present 21 = true ∨ present 22 = true ∨ present 24 = true ∨ present 28 = true) := by
    simp only [List.mem_cons, List.not_mem_nil, or_false, exists_eq_or_imp, exists_eq_left, b21e, b22e, b23, b24e, b28,
      and_true, Bool.false_eq_true, and_false, false_or]
  have u1 := mem_rgUniverse (id := 22) (tag := "_avg") (b := "vel") (by decide) (.inr (by decide))
  have u2 := mem_rgUniverse (id := 21) (tag := "") (b := "orientmat") (by decide) (.inr (by decide))
  have u3 := mem_rgUniverse (id := 22) (tag := "_avg") (b := "orientmat") (by decide) (.inr (by decide))
  have k1 : rgKey "vel" "_avg" = "vel_avg".toList := by decide
  have k2 : rgKey "orientmat" "" = "orientmat".toList := by decide
  have k3 : rgKey "orientmat" "_avg" = "orientmat_avg".toList := by decide
  have m1 := (mem_fold_other (ks := rgDataVars present (adHasVar cfg)) u1 (by decide) (by decide)).trans
    (mem_rgDataVars_key present (adHasVar cfg) u1 (by decide) (by decide) (by decide))
  have m2 := (mem_fold_other (ks := rgDataVars present (adHasVar cfg)) u2 (by decide) (by decide)).trans
    (mem_rgDataVars_key present (adHasVar cfg) u2 (by decide) (by decide) (by decide))
  have m3 := (mem_fold_other (ks := rgDataVars present (adHasVar cfg)) u3 (by decide) (by decide)).trans
    (mem_rgDataVars_key present (adHasVar cfg) u3 (by decide) (by decide) (by decide))
  simp only at m1 m2 m3
  rw [k1, recorded_opt _ _ _ _ (by decide) (by decide), b22d] at m1
  rw [k2, recorded_opt _ _ _ _ (by decide) (by decide), b21c] at m2
  rw [k3, recorded_opt _ _ _ _ (by decide) (by decide), b22c] at m3
  have hred := reduceOmat_ok (reducedNames.foldl reduceKey (rgDataVars present (adHasVar cfg)))
  rw [m1, m2, m3] at hred
  have hsplit : (∃ ks, sigVars present cfg pw pwAvg = .ok ks) ↔
      (∃ r, reorgVars present (adHasVar cfg) pw pwAvg = .ok r) ∧
        ∃ r, reduceOmat (reducedNames.foldl reduceKey (rgDataVars present (adHasVar cfg))) = .ok r := by
    unfold sigVars reduceVars
    cases e : reorgVars present (adHasVar cfg) pw pwAvg with
    | error e => simp [bind, Except.bind]
    | ok r =>
      obtain ⟨rfl, -⟩ := (hro r).mp e
      simp only [bind, Except.bind]
      cases e2 : reduceOmat (reducedNames.foldl reduceKey (rgDataVars present (adHasVar cfg))) with
      | error e => simp
      | ok r => simp [pure, Except.pure]
  rw [hsplit, hred]
  unfold Spec.sigReadable
  have hro' : (∃ r, reorgVars present (adHasVar cfg) pw pwAvg = .ok r) ↔
      (present 26 = true → Spec.altComplete present (adHasVar cfg) 26 21 pw) ∧
      (present 31 = true → Spec.altComplete present (adHasVar cfg) 31 22 pwAvg) ∧
      ∃ id ∈ [21, 22, 23, 24, 28], present id = true ∧ adHasVar cfg id "status0" = true := by
    constructor
    · rintro ⟨r, h⟩
      exact ((hro r).mp h).2
    · intro h
      exact ⟨_, (hro _).mpr ⟨rfl, h⟩⟩
  rw [hro', hst]
  unfold Spec.altComplete
  rw [b26a, b26b, b21b, b31a, b31b, b22b]
  clear * -
  tauto

/-- The quantities of a record that belong into a dataset. -/
def Spec.sigMeasured : List AdVar :=
  [.cSound, .temp, .pressure, .heading, .pitch, .roll, .mag, .accel, .batt, .tempClock, .tempPress, .error, .status, .vel, .amp,
    .corr, .echo, .dist, .fom, .orientmat, .angrt, .quaternions, .pressureAlt, .leDist, .leQuality, .astDist, .astQuality,
    .astOffsetTime, .nsampAlt, .dsampAlt, .sampAlt, .pressStd, .pitchStd, .rollStd, .headingStd, .xmitEnergy]

/-- Those of the altimeter. -/
def Spec.sigAltVars : List AdVar :=
  [.pressureAlt, .leDist, .leQuality, .astDist, .astQuality, .astOffsetTime, .nsampAlt, .dsampAlt, .sampAlt]

/-- Those averaged over the burst and the fifth beam. -/
def Spec.sigShared : List AdVar := [.cSound, .temp, .pressure, .tempPress, .tempClock, .batt, .heading, .pitch, .roll]

/-- The name a quantity of a record type has in the dataset: its own and the tag of the record type; no tag for sensors of the
fifth beam, for the echo sounder, and for the orientation matrix of averaged profiles if the burst has none. -/
def Spec.sigKey (present : ℕ → Bool) (cfg : ℕ → ℕ) (id : ℕ) (tag : String) (v : AdVar) : Key :=
  if id = 24 ∧ v ∈ Spec.sigShared then (adVarName v).toList
  else if id = 28 ∧ v = .echo then "echo".toList
  else if id = 22 ∧ v = .orientmat ∧ (cfg 22).testBit 5 = true ∧ ¬ (present 21 = true ∧ (cfg 21).testBit 12 = true) then
    "orientmat".toList
  else (adVarName v).toList ++ tag.toList

theorem measured_names : ∀ v ∈ Spec.sigMeasured, (adVarName v ∈ rgFixed ∨ adVarName v ∈ rgOpt) ∧
    adVarName v ≠ "status_alt" ∧ adVarName v ≠ "status0" ∧ (adVarName v ∈ reducedNames ↔ v ∈ Spec.sigShared) ∧
    (v ∈ Spec.sigAltVars → adVarName v ∈ Spec.altNames) ∧ (adVarName v = "echo" → v = .echo) ∧
    (adVarName v = "orientmat" → v = .orientmat) := by decide

/-- **C175** (partial): every measured quantity of every record type of a file that can be read is a variable of the dataset;
of the raw altimeter pings, the altimeter's own. Missing: percent good (`percent_good_lost_false`). -/
theorem sig_vars_partial {present : ℕ → Bool} {cfg : ℕ → ℕ} {pw pwAvg : ℕ} {ks : List Key}
    (h : sigVars present cfg pw pwAvg = .ok ks) {id : ℕ} {tag : String} (hid : (id, tag) ∈ rgTags) (hp : present id = true)
    {v : AdVar} (hv : v ∈ adNamesOf id (cfg id)) (hm : v ∈ Spec.sigMeasured) (hraw : id ∈ [26, 31] → v ∈ Spec.sigAltVars) :
    Spec.sigKey present cfg id tag v ∈ ks := by
  obtain ⟨n1, n2, n3, n4, n5, n6, n7⟩ := measured_names v hm
  have hx := mem_rgUniverse hid n1
  have hrec : Spec.recorded present (adHasVar cfg) id (adVarName v) := by
    refine ⟨hp, ?_⟩
    rcases n1 with n | n
    · exact .inl n
    · exact .inr ⟨n, adHasVar_of_mem hv⟩
  have hdv : rgKey (adVarName v) tag ∈ rgDataVars present (adHasVar cfg) :=
    (mem_rgDataVars_key present (adHasVar cfg) hx n2 (fun h => n5 (hraw h)) n3).mpr hrec
  unfold sigVars at h
  cases e : reorgVars present (adHasVar cfg) pw pwAvg with
  | error e' => rw [e] at h; simp [bind, Except.bind] at h
  | ok r =>
    rw [e] at h
    obtain ⟨rfl, -⟩ := (reorgVars_ok _ _ _ _ _).mp e
    simp only [bind, Except.bind, reduceVars] at h
    generalize hF : reducedNames.foldl reduceKey (rgDataVars present (adHasVar cfg)) = F at h
    cases e2 : reduceOmat F with
    | error e' => rw [e2] at h; simp at h
    | ok r2 =>
      rw [e2] at h
      simp only [pure, Except.pure, Except.ok.injEq] at h
      subst h
      -- membership in `F` of an untouched variable, and of the matrix of the burst
      have k2 : rgKey "orientmat" "" = "orientmat".toList := by decide
      have k1 : rgKey "vel" "_avg" = "vel_avg".toList := by decide
      have k3 : rgKey "orientmat" "_avg" = "orientmat_avg".toList := by decide
      have k4 : rgKey "echo" "_echo" = "echo_echo".toList := by decide
      have u1 := mem_rgUniverse (id := 22) (tag := "_avg") (b := "vel") (by decide) (.inr (by decide))
      have u2 := mem_rgUniverse (id := 21) (tag := "") (b := "orientmat") (by decide) (.inr (by decide))
      have u3 := mem_rgUniverse (id := 22) (tag := "_avg") (b := "orientmat") (by decide) (.inr (by decide))
      have u4 := mem_rgUniverse (id := 28) (tag := "_echo") (b := "echo") (by decide) (.inr (by decide))
      have m1 := (mem_fold_other (ks := rgDataVars present (adHasVar cfg)) u1 (by decide) (by decide)).trans
        (mem_rgDataVars_key present (adHasVar cfg) u1 (by decide) (by decide) (by decide))
      have m2 := (mem_fold_other (ks := rgDataVars present (adHasVar cfg)) u2 (by decide) (by decide)).trans
        (mem_rgDataVars_key present (adHasVar cfg) u2 (by decide) (by decide) (by decide))
      simp only at m1 m2
      rw [k1, recorded_opt _ _ _ _ (by decide) (by decide), (adHasVar_burst cfg 22 (by decide) (by decide)).2.2.2.1, hF] at m1
      rw [k2, recorded_opt _ _ _ _ (by decide) (by decide), (adHasVar_burst cfg 21 (by decide) (by decide)).2.2.1, hF] at m2
      have hecho : ("echo".toList : Key) ≠ "echo_echo".toList := by decide
      have homat : ("orientmat".toList : Key) ≠ "echo_echo".toList := by decide
      have keep : rgKey (adVarName v) tag ∈ F → ((id, tag), adVarName v) ≠ ((28, "_echo"), "echo") →
          (((id, tag), adVarName v) = ((22, "_avg"), "orientmat") → "vel_avg".toList ∈ F → "orientmat".toList ∈ F) →
          rgKey (adVarName v) tag ∈ reduceEcho r2 := by
        intro hk h1 h2
        refine mem_reduceEcho _ _ (reduceOmat_keep e2 _ hk ?_) ?_
        · intro he
          rw [← k3] at he
          exact h2 (rgKey_inj hx u3 he)
        · intro he
          rw [← k4] at he
          exact h1 (rgKey_inj hx u4 he)
      unfold Spec.sigKey
      by_cases c1 : id = 24 ∧ v ∈ Spec.sigShared
      · rw [if_pos c1]
        obtain ⟨rfl, c1⟩ := c1
        have ht : tag = "_b5" := by
          have : ∀ it ∈ rgTags, it.1 = 24 → it.2 = "_b5" := by decide
          exact this _ hid rfl
        subst ht
        have hF' : (adVarName v).toList ∈ F := by
          rw [← hF]
          refine foldRed_reduced _ _ _ (n4.mpr c1) ?_ hdv
          have : ∀ n ∈ reducedNames, ∀ m ∈ reducedNames, n.toList ≠ rgKey m "_b5" := by decide
          exact this _ (n4.mpr c1)
        have hne : ∀ n ∈ reducedNames, n.toList ≠ "orientmat_avg".toList ∧ n.toList ≠ "echo_echo".toList := by decide
        refine mem_reduceEcho _ _ (reduceOmat_keep e2 _ hF' fun he => ?_) (hne _ (n4.mpr c1)).2
        exact absurd he (hne _ (n4.mpr c1)).1
      rw [if_neg c1]
      have hF21 : rgKey (adVarName v) tag ∈ F := by
        rw [← hF]
        refine foldRed_keep _ _ _ ?_ hdv
        intro n hn he
        have := rgKey_inj hx (mem_rgUniverse (id := 24) (tag := "_b5") (by decide) (reduced_mem n hn)) he
        simp only [Prod.mk.injEq] at this
        exact c1 ⟨this.1.1, n4.mp (by rw [this.2]; exact hn)⟩
      by_cases c2 : id = 28 ∧ v = .echo
      · rw [if_pos c2]
        obtain ⟨rfl, rfl⟩ := c2
        have ht : tag = "_echo" := by
          have : ∀ it ∈ rgTags, it.1 = 28 → it.2 = "_echo" := by decide
          exact this _ hid rfl
        subst ht
        refine mem_reduceEcho_echo _ ?_
        have hk : "echo_echo".toList ∈ F := by rw [← k4]; exact hF21
        exact reduceOmat_keep e2 _ hk fun he => absurd he (by decide)
      rw [if_neg c2]
      have ne28 : ((id, tag), adVarName v) ≠ ((28, "_echo"), "echo") := by
        intro he
        simp only [Prod.mk.injEq] at he
        exact c2 ⟨he.1.1, n6 he.2⟩
      by_cases c3 : id = 22 ∧ v = .orientmat ∧ (cfg 22).testBit 5 = true ∧ ¬ (present 21 = true ∧ (cfg 21).testBit 12 = true)
      · rw [if_pos c3]
        obtain ⟨rfl, rfl, c5, c6⟩ := c3
        exact mem_reduceEcho _ _ (reduceOmat_new e2 (m1.mpr ⟨hp, c5⟩)) homat
      · rw [if_neg c3]
        refine keep hF21 ne28 ?_
        intro he hva
        simp only [Prod.mk.injEq] at he
        obtain ⟨hp22, h5⟩ := m1.mp hva
        rw [m2]
        by_contra hc
        exact c3 ⟨he.1.1, n7 he.2, h5, hc⟩

/-! ### What is false -/

set_option maxRecDepth 100000 in
theorem percent_good_not_key : ∀ x ∈ rgUniverse, ∀ it ∈ rgTags, rgKey x.2 x.1.2 ≠ rgKey "percent_good" it.2 := by
  decide +kernel

/-- **C175 is false of the code** for percent good: no dataset has it, whatever the file holds. (The record calls it
`percent_good`, the dataset is filled with `prcnt_gd`.) -/
theorem percent_good_lost_false {present : ℕ → Bool} {cfg : ℕ → ℕ} {pw pwAvg : ℕ} {ks : List Key}
    (h : sigVars present cfg pw pwAvg = .ok ks) {it : ℕ × String} (hit : it ∈ rgTags) :
    rgKey (adVarName .percentGood) it.2 ∉ ks := by
  intro hk
  unfold sigVars at h
  cases e : reorgVars present (adHasVar cfg) pw pwAvg with
  | error e' => rw [e] at h; simp [bind, Except.bind] at h
  | ok r =>
    rw [e] at h
    obtain ⟨rfl, -⟩ := (reorgVars_ok _ _ _ _ _).mp e
    simp only [bind, Except.bind, reduceVars] at h
    cases e2 : reduceOmat (reducedNames.foldl reduceKey (rgDataVars present (adHasVar cfg))) with
    | error e' => rw [e2] at h; simp at h
    | ok r2 =>
      rw [e2] at h
      simp only [pure, Except.pure, Except.ok.injEq] at h
      subst h
      have d1 : ∀ it ∈ rgTags, rgKey "percent_good" it.2 ≠ "echo".toList ∧ rgKey "percent_good" it.2 ≠ "orientmat".toList ∧
          ∀ n ∈ reducedNames, rgKey "percent_good" it.2 ≠ n.toList := by decide
      obtain ⟨d1, d2, d3⟩ := d1 it hit
      rcases reduceEcho_sub _ _ hk with hk | hk
      · rcases reduceOmat_sub e2 _ hk with hk | hk
        · rcases foldRed_sub _ _ _ hk with hk | ⟨n, hn, e⟩
          · obtain ⟨x, hx, -, e⟩ := (mem_rgAll _ _ _).mp (rgDataVars_sub _ _ _ hk)
            exact percent_good_not_key x hx it hit e.symm
          · exact d3 n hn e
        · exact d2 hk
      · exact d1 hk

/-- **C175 is false of the code** for averaged profiles without orientation sensor: the file cannot be read. -/
theorem sig_avg_no_ahrs_false {present : ℕ → Bool} {cfg : ℕ → ℕ} (hp : present 22 = true) (hv : (cfg 22).testBit 5 = true)
    (h1 : present 21 = false ∨ (cfg 21).testBit 12 = false) (h2 : (cfg 22).testBit 12 = false) (pw pwAvg : ℕ) (ks : List Key) :
    sigVars present cfg pw pwAvg ≠ .ok ks := by
  intro h
  rcases ((sig_vars_readable present cfg pw pwAvg).mp ⟨ks, h⟩).2.2.2 hp hv with h | h
  · rcases h1 with h1 | h1
    · rw [h1] at h; cases h.1
    · rw [h1] at h; cases h.2
  · rw [h2] at h; cases h

/-- **C175 is false of the code** for raw altimeter pings beside profiles without altimeter: the file cannot be read. -/
theorem sig_altraw_no_altimeter_false {present : ℕ → Bool} {cfg : ℕ → ℕ} (hp : present 26 = true)
    (h1 : present 21 = false ∨ (cfg 21).testBit 8 = false) (pw pwAvg : ℕ) (ks : List Key) :
    sigVars present cfg pw pwAvg ≠ .ok ks := by
  intro h
  obtain ⟨-, -, h2, h3, -⟩ := ((sig_vars_readable present cfg pw pwAvg).mp ⟨ks, h⟩).1 hp
  rcases h1 with h1 | h1
  · rw [h1] at h2; cases h2
  · rw [h1] at h3; cases h3

/-! ### Non-vacuity -/

-- velocity, amplitude, correlation, orientation and percent good of a burst with fifth beam: everything but percent good
example : (match sigVars (fun id => id = 21 || id = 24) (fun _ => 0x30E0) 0 0 with
    | .ok ks => decide ("vel".toList ∈ ks) && decide ("vel_b5".toList ∈ ks) && decide ("heading".toList ∈ ks) &&
        decide ("heading_b5".toList ∉ ks) && decide ("orientmat".toList ∈ ks) && decide ("percent_good".toList ∉ ks)
    | .error _ => false) = true := by decide +kernel

-- averaged profiles with velocity, amplitude and correlation only
example : sigVars (fun id => id = 22) (fun _ => 0xE0) 0 0 = .error .keyError := by decide +kernel

-- raw altimeter pings and a burst without altimeter; with it
example : sigVars (fun id => id = 21 || id = 26) (fun id => if id = 21 then 0x10E0 else 0x300) 0 0 = .error .keyError := by
  decide +kernel

example : ∃ ks, sigVars (fun id => id = 21 || id = 26) (fun id => if id = 21 then 0x11E0 else 0x300) 0 0 = .ok ks :=
  (sig_vars_readable _ _ _ _).mpr (by unfold Spec.sigReadable; decide)

end Dolfyn
