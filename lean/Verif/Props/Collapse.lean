import Verif.Model.Collapse
import Verif.Props.Ad2cpBits

/-!
C171: settings that change within a Signature file, the warning of `_collapse` and the processor states.
-/

namespace Dolfyn

theorem foldl_max_ge' (l : List ℕ) (a : ℕ) : a ≤ l.foldl max a ∧ ∀ x ∈ l, x ≤ l.foldl max a := by
  induction l generalizing a with
  | nil => simp
  | cons y l ih =>
    obtain ⟨h1, h2⟩ := ih (max a y)
    refine ⟨le_trans (le_max_left _ _) h1, ?_⟩
    intro x hx
    rcases List.mem_cons.mp hx with rfl | hx
    · exact le_trans (le_max_right _ _) h1
    · exact h2 x hx

theorem foldl_max_mem' (l : List ℕ) (a : ℕ) : l.foldl max a = a ∨ l.foldl max a ∈ l := by
  induction l generalizing a with
  | nil => simp
  | cons y l ih =>
    rcases ih (max a y) with h | h
    · rw [List.foldl_cons, h]
      rcases max_choice a y with h' | h' <;> rw [h'] <;> simp
    · right; exact List.mem_cons_of_mem _ h

/-- The largest count is that of the value chosen. -/
theorem top_count (vec : List ℤ) (r : ℤ) (hr : r ∈ vec) (hm : ∀ x, vec.count x ≤ vec.count r) :
    ((npUnique vec).map (fun v => vec.count v)).foldl max 0 = vec.count r := by
  have hmem : vec.count r ∈ (npUnique vec).map (fun v => vec.count v) :=
    List.mem_map.mpr ⟨r, (mem_npUnique _ _).mpr hr, rfl⟩
  refine le_antisymm ?_ (?_)
  swap
  · exact (foldl_max_ge' _ 0).2 _ hmem
  rcases foldl_max_mem' ((npUnique vec).map (fun v => vec.count v)) 0 with h | h
  · rw [h]; exact Nat.zero_le _
  · obtain ⟨x, _, hx⟩ := List.mem_map.mp h
    rw [← hx]; exact hm x

theorem voteWarns_iff (vec : List ℤ) (r : ℤ) (hr : r ∈ vec) (hm : ∀ x, vec.count x ≤ vec.count r) :
    voteWarns vec r = true ↔
      ¬ (0 ∈ vec ∧ ∀ x ∈ vec, x = 0 ∨ x = r) ∧
      (∃ x ∈ vec, vec.count x = 1) ∧ ∀ x ∈ vec, vec.count x = 1 ∨ vec.count x = vec.count r := by
  unfold voteWarns
  simp only [top_count vec r hr hm]
  have hmem : vec.count r ∈ (npUnique vec).map (fun v => vec.count v) :=
    List.mem_map.mpr ⟨r, (mem_npUnique _ _).mpr hr, rfl⟩
  simp only [Bool.and_eq_true, Bool.not_eq_true', decide_eq_true_eq, List.all_eq_true, Bool.or_eq_true, hmem, and_true,
    mem_npUnique, hr, ← Bool.not_eq_true, List.mem_map]
  constructor
  · rintro ⟨h1, h2, x, hx, h3⟩
    exact ⟨fun ⟨a, b⟩ => h1 ⟨b, a⟩, ⟨x, hx, h3⟩, fun y hy => h2 _ ⟨y, hy, rfl⟩⟩
  · rintro ⟨h1, ⟨x, hx, h3⟩, h2⟩
    exact ⟨fun ⟨a, b⟩ => h1 ⟨b, a⟩, fun _ ⟨y, hy, e⟩ => e ▸ h2 y hy, x, hx, h3⟩

/-- The branch in which values are counted. -/
theorem collapse_branch (vec exclude : List ℤ) (a b : ℤ) (ha : a ∈ vec) (hb : b ∈ vec) (hab : a ≠ b)
    (hae : a ∉ exclude) (hbe : b ∉ exclude) :
    ∃ r, collapse vec exclude = .ok r ∧ collapseWarn vec exclude = .ok (voteWarns vec r) ∧ r ∈ vec ∧
      (∀ x, vec.count x ≤ vec.count r) ∧
      ((∀ x ∈ vec, ∀ y ∈ vec, vec.count x = vec.count y) → ∀ x ∈ vec, x ≤ r) := by
  obtain ⟨v0, vt, rfl⟩ := List.exists_cons_of_ne_nil (List.ne_nil_of_mem ha)
  have hu : ¬ ∀ x ∈ vt, x = v0 := by
    intro h
    have : ∀ x ∈ v0 :: vt, x = v0 := by
      intro x hx; rcases List.mem_cons.mp hx with rfl | hx
      · rfl
      · exact h x hx
    exact hab ((this a ha).trans (this b hb).symm)
  have h2 : isuniform (v0 :: vt) exclude = .ok false := by
    by_cases he : exclude = []
    · subst he; rw [isuniform_nil, decide_eq_false hu]
    · unfold isuniform
      rw [if_pos he, decide_eq_false]
      intro hle
      have m : ∀ x, x ∈ v0 :: vt → x ∉ exclude →
          x ∈ (v0 :: vt).dedup.filter (fun x => decide (x ∉ exclude)) := by
        intro x h1 h2
        rw [List.mem_filter, List.mem_dedup]
        exact ⟨h1, by simpa using h2⟩
      have ma := m a ha hae
      have mb := m b hb hbe
      generalize (v0 :: vt).dedup.filter (fun x => decide (x ∉ exclude)) = l at hle ma mb
      rcases l with _ | ⟨c, _ | ⟨d, l⟩⟩
      · simp at ma
      · simp at ma mb; exact hab (ma.trans mb.symm)
      · simp at hle
  obtain ⟨r, hr, h⟩ := collapseVote_spec (v0 :: vt) (by simp)
  refine ⟨r, ?_, ?_, h⟩
  · unfold collapse
    rw [isuniform_nil, decide_eq_false hu]
    simp only [bind, Except.bind, h2]
    exact hr
  · unfold collapseWarn
    rw [isuniform_nil, decide_eq_false hu]
    simp only [bind, Except.bind, h2, hr]
    rfl

/-- **C171.** When is a change announced? If two values of a setting differ, a warning is given exactly if some value
occurs only once, every value occurs once or as often as the most common one, and the values are not just zero and
the value chosen. -/
theorem collapse_warns_iff (vec exclude : List ℤ) (a b : ℤ) (ha : a ∈ vec) (hb : b ∈ vec) (hab : a ≠ b)
    (hae : a ∉ exclude) (hbe : b ∉ exclude) :
    ∃ r w, collapse vec exclude = .ok r ∧ collapseWarn vec exclude = .ok w ∧
      (w = true ↔ ¬ (0 ∈ vec ∧ ∀ x ∈ vec, x = 0 ∨ x = r) ∧ (∃ x ∈ vec, vec.count x = 1) ∧
        ∀ x ∈ vec, vec.count x = 1 ∨ ∀ y, vec.count y ≤ vec.count x) := by
  obtain ⟨r, h1, h2, h3, h4, -⟩ := collapse_branch vec exclude a b ha hb hab hae hbe
  refine ⟨r, _, h1, h2, ?_⟩
  rw [voteWarns_iff vec r h3 h4]
  refine and_congr_right fun _ => and_congr_right fun _ => forall₂_congr fun x _ => or_congr_right ?_
  exact ⟨fun e y => e ▸ h4 y, fun h => le_antisymm (h4 x) (h r)⟩

example : collapse [3, 3, 4, 3] [] = .ok 3 ∧ collapseWarn [3, 3, 4, 3] [] = .ok true := by decide +kernel

/-- **C171** (what holds). If one value differs from all others in a single ping, and it is not a zero, a warning is
given. -/
theorem collapse_warns_partial (pre post exclude : List ℤ) (v x : ℤ) (hp : ∀ y ∈ pre ++ post, y = v)
    (hn : 2 ≤ (pre ++ post).length) (hx : x ≠ v) (h0 : x ≠ 0) (hve : v ∉ exclude) (hxe : x ∉ exclude) :
    collapse (pre ++ x :: post) exclude = .ok v ∧ collapseWarn (pre ++ x :: post) exclude = .ok true := by
  have hc : ∀ y, (pre ++ x :: post).count y = (if y = v then (pre ++ post).length else 0) + if y = x then 1 else 0 := by
    intro y
    have e : (pre ++ post) = List.replicate (pre ++ post).length v := List.eq_replicate_iff.mpr ⟨rfl, hp⟩
    have : (pre ++ x :: post).count y = (pre ++ post).count y + if y = x then 1 else 0 := by
      rw [List.count_append, List.count_cons, List.count_append]
      by_cases h : x = y
      · subst h; simp; omega
      · have h' : ¬ y = x := fun e => h e.symm
        have : (x == y) = false := by simpa using h
        rw [if_neg h', this]; simp
    rw [this, e, List.count_replicate, List.length_replicate]
    by_cases h : y = v
    · subst h; simp
    · have : (v == y) = false := by simpa using fun e => h e.symm
      rw [this]; simp [h]
  have hv : v ∈ pre ++ x :: post := by
    have : v ∈ pre ++ post := by
      rcases hl : pre ++ post with _ | ⟨y, l⟩
      · rw [hl] at hn; simp at hn
      · have := hp y (by rw [hl]; simp)
        subst this; simp
    rcases List.mem_append.mp this with h | h
    · exact List.mem_append_left _ h
    · exact List.mem_append_right _ (List.mem_cons_of_mem _ h)
  have hxm : x ∈ pre ++ x :: post := by simp
  have hall : ∀ y ∈ pre ++ x :: post, y = v ∨ y = x := by
    intro y hy
    rcases List.mem_append.mp hy with h | h
    · exact Or.inl (hp y (List.mem_append_left _ h))
    · rcases List.mem_cons.mp h with h | h
      · exact Or.inr h
      · exact Or.inl (hp y (List.mem_append_right _ h))
  obtain ⟨r, h1, h2, h3, h4, -⟩ := collapse_branch _ exclude v x hv hxm (Ne.symm hx) hve hxe
  have hrv : r = v := by
    rcases hall r h3 with h | h
    · exact h
    · exfalso
      have := h4 v
      rw [hc, hc, h, if_pos rfl, if_neg hx, if_pos rfl, if_neg (Ne.symm hx)] at this
      omega
  subst hrv
  refine ⟨h1, ?_⟩
  rw [h2, (voteWarns_iff _ r h3 h4).mpr]
  refine ⟨fun ⟨_, h⟩ => ?_, ⟨x, hxm, ?_⟩, ?_⟩
  · rcases h x hxm with h | h
    · exact h0 h
    · exact hx h
  · rw [hc, if_neg hx, if_pos rfl]
  · intro y hy
    rcases hall y hy with h | h
    · right; rw [h]
    · left; rw [h, hc, if_neg hx, if_pos rfl]

example : collapseWarn ([20, 20] ++ 25 :: [20]) [] = .ok true :=
  (collapse_warns_partial [20, 20] [20] [] 20 25 (by decide) (by decide) (by decide) (by decide) (by simp) (by simp)).2

/-- **C171** (failure). If every value of a setting occurs in at least two pings, no warning is given, however many
values there are: one of them is used in silence. -/
theorem collapse_silent_false (vec exclude : List ℤ) (hv : vec ≠ []) (h2 : ∀ x ∈ vec, 2 ≤ vec.count x)
    (w : Bool) (h : collapseWarn vec exclude = .ok w) : w = false := by
  obtain ⟨v0, vt, rfl⟩ := List.exists_cons_of_ne_nil hv
  unfold collapseWarn at h
  rw [isuniform_nil] at h
  simp only [bind, Except.bind] at h
  split at h
  · exact (Except.ok.inj h).symm
  · split at h
    · cases h
    · rename_i u' hu'
      split at h
      · exact (Except.ok.inj h).symm
      · obtain ⟨r, hr, h3, h4, -⟩ := collapseVote_spec (v0 :: vt) (by simp)
        simp only [hr] at h
        replace h := Except.ok.inj h
        rw [← h, ← Bool.not_eq_true]
        intro ht
        obtain ⟨-, ⟨x, hx, hc⟩, -⟩ := (voteWarns_iff _ r h3 h4).mp ht
        have := h2 x hx
        omega

example : collapse [20, 20, 20, 25, 25, 30, 30] [] = .ok 20 ∧ collapseWarn [20, 20, 20, 25, 25, 30, 30] [] = .ok false := by
  decide +kernel

/-- **C171** (failure). Zeros are never announced, however many pings have them, as long as there is one other value
that is at least as frequent. -/
theorem collapse_zeros_silent_false (vec : List ℤ) (v : ℤ) (h0 : (0 : ℤ) ∈ vec) (hv : v ∈ vec) (hvp : 0 < v)
    (hall : ∀ x ∈ vec, x = 0 ∨ x = v) (hc : vec.count 0 ≤ vec.count v) :
    collapse vec [] = .ok v ∧ collapseWarn vec [] = .ok false := by
  obtain ⟨r, h1, h2, h3, h4, h5⟩ := collapse_branch vec [] 0 v h0 hv (ne_of_lt hvp) (by simp) (by simp)
  have hrv : r = v := by
    rcases hall r h3 with h | h
    · exfalso
      have := h4 v
      rw [h] at this
      have e : vec.count 0 = vec.count v := le_antisymm hc this
      have := h5 (by
        intro x hx y hy
        rcases hall x hx with rfl | rfl <;> rcases hall y hy with rfl | rfl <;> omega) v hv
      omega
    · exact h
  subst hrv
  refine ⟨h1, ?_⟩
  rw [h2]
  congr 1
  rw [← Bool.not_eq_true]
  intro ht
  exact ((voteWarns_iff _ r h3 h4).mp ht).1 ⟨h0, hall⟩

example : collapse [0, 0, 7, 7] [] = .ok 7 ∧ collapseWarn [0, 0, 7, 7] [] = .ok false :=
  collapse_zeros_silent_false [0, 0, 7, 7] 7 (by decide) (by decide) (by decide) (by decide) (by decide)

/-! ### Processor states -/

theorem bitSlice_one (w k : ℕ) : bitSlice w k (k + 1) = if w.testBit k then 1 else 0 := by
  rw [bitSlice_eq, Nat.testBit_eq_decide_div_mod_eq, show k + 1 - k = 1 by omega, pow_one]
  have := Nat.mod_two_eq_zero_or_one (w / 2 ^ k)
  rcases this with h | h <;> rw [h] <;> simp

theorem bit_vec (ws : List ℕ) (k : ℕ) :
    (ws.map fun w => bitSlice w k (k + 1)).map (Int.ofNat ·) = ws.map fun w => if w.testBit k then (1 : ℤ) else 0 := by
  rw [List.map_map]
  refine List.map_congr_left fun w _ => ?_
  simp only [Function.comp, bitSlice_one]
  split <;> rfl

theorem bit_count (ws : List ℕ) (k : ℕ) :
    (ws.map fun w => if w.testBit k then (1 : ℤ) else 0).count 1 = ws.countP (fun w => w.testBit k) ∧
    (ws.map fun w => if w.testBit k then (1 : ℤ) else 0).count 0 + ws.countP (fun w => w.testBit k) = ws.length := by
  induction ws with
  | nil => simp
  | cons w ws ih =>
    obtain ⟨h1, h2⟩ := ih
    cases hb : w.testBit k
    · simp only [List.map_cons, hb, List.countP_cons, List.count_cons, List.length_cons, h1] at *
      constructor
      · simp
      · simp; omega
    · simp only [List.map_cons, hb, List.countP_cons, List.count_cons, List.length_cons, h1] at *
      constructor
      · simp
      · simp; omega

/-- **C171.** The processor state in bit `k` of the status words, `m` of which are set: the attribute is 1 exactly if at
least half of the pings have it, and a warning is given exactly if it is one ping of three or more. -/
theorem proc_state (ws : List ℕ) (k : ℕ) (hne : ws ≠ []) :
    let vec := (ws.map fun w => bitSlice w k (k + 1)).map (Int.ofNat ·)
    let m := ws.countP fun w => w.testBit k
    collapse vec [] = .ok (if ws.length ≤ 2 * m then 1 else 0) ∧
      collapseWarn vec [] = .ok (decide (m = 1 ∧ 3 ≤ ws.length)) := by
  intro vec m
  obtain ⟨hc1, hc0⟩ := bit_count ws k
  rw [← bit_vec] at hc1 hc0
  change vec.count 1 = m at hc1
  change vec.count 0 + m = ws.length at hc0
  have hlen : 0 < ws.length := List.length_pos_iff.mpr hne
  have hall : ∀ x ∈ vec, x = 0 ∨ x = 1 := by
    intro x hx
    change x ∈ (ws.map fun w => bitSlice w k (k + 1)).map (Int.ofNat ·) at hx
    rw [bit_vec] at hx
    obtain ⟨w, _, rfl⟩ := List.mem_map.mp hx
    split <;> simp
  by_cases h0 : (0 : ℤ) ∈ vec
  · by_cases h1 : (1 : ℤ) ∈ vec
    · have p0 := List.count_pos_iff.mpr h0
      have p1 := List.count_pos_iff.mpr h1
      obtain ⟨r, e1, e2, h3, h4, h5⟩ := collapse_branch vec [] 0 1 h0 h1 (by decide) (by simp) (by simp)
      rw [e1, e2]
      have hv := voteWarns_iff vec r h3 h4
      by_cases hm : ws.length ≤ 2 * m
      · have hr : r = 1 := by
          rcases hall r h3 with h | h
          · exfalso
            have := h4 1
            rw [h] at this
            have e : vec.count 0 = vec.count 1 := by omega
            have := h5 (by
              intro x hx y hy
              rcases hall x hx with rfl | rfl <;> rcases hall y hy with rfl | rfl <;> omega) 1 h1
            omega
          · exact h
        subst hr
        rw [if_pos hm, decide_eq_false (by omega)]
        refine ⟨rfl, ?_⟩
        congr 1
        rw [← Bool.not_eq_true]
        exact fun ht => (hv.mp ht).1 ⟨h0, hall⟩
      · have hr : r = 0 := by
          rcases hall r h3 with h | h
          · exact h
          · exfalso
            have := h4 0
            rw [h] at this
            omega
        subst hr
        rw [if_neg hm]
        refine ⟨rfl, ?_⟩
        congr 1
        rw [Bool.eq_iff_iff, hv, decide_eq_true_eq]
        constructor
        · rintro ⟨-, ⟨x, hx, hc⟩, -⟩
          rcases hall x hx with rfl | rfl <;> omega
        · rintro ⟨ha, hb⟩
          refine ⟨?_, ⟨1, h1, by omega⟩, ?_⟩
          · rintro ⟨-, h⟩
            rcases h 1 h1 with h | h <;> simp at h
          · intro x hx
            rcases hall x hx with rfl | rfl
            · right; rfl
            · left; omega
    · have hm : m = 0 := by rw [← hc1]; exact List.count_eq_zero.mpr h1
      have hu : ∀ x ∈ vec, x = 0 := fun x hx => (hall x hx).resolve_right fun e => h1 (e ▸ hx)
      rw [hm, if_neg (by omega), decide_eq_false (by omega)]
      rcases hv : vec with _ | ⟨v0, vt⟩
      · rw [hv] at h0; simp at h0
      · rw [hv] at hu
        have hv0 := hu v0 (by simp)
        subst hv0
        have ht : ∀ x ∈ vt, x = 0 := fun x hx => hu x (List.mem_cons_of_mem _ hx)
        refine ⟨collapse_uniform 0 vt [] ht, ?_⟩
        unfold collapseWarn
        rw [isuniform_nil, decide_eq_true ht]; rfl
  · have h00 : vec.count 0 = 0 := List.count_eq_zero.mpr h0
    have hu : ∀ x ∈ vec, x = 1 := fun x hx => (hall x hx).resolve_left fun e => h0 (e ▸ hx)
    rw [if_pos (by omega), decide_eq_false (by omega)]
    rcases hv : vec with _ | ⟨v0, vt⟩
    · exfalso
      have : vec.length = ws.length := by simp [vec]
      rw [hv] at this; simp at this; omega
    · rw [hv] at hu
      have hv0 := hu v0 (by simp)
      subst hv0
      have ht : ∀ x ∈ vt, x = 1 := fun x hx => hu x (List.mem_cons_of_mem _ hx)
      refine ⟨collapse_uniform 1 vt [] ht, ?_⟩
      unfold collapseWarn
      rw [isuniform_nil, decide_eq_true ht]; rfl

/-- The value of a state and its warning. -/
def Spec.procState (ws : List ℕ) (k : ℕ) : ℤ × Bool :=
  let m := ws.countP fun w => w.testBit k
  (if ws.length ≤ 2 * m then 1 else 0, decide (m = 1 ∧ 3 ≤ ws.length))

/-- **C171.** The processor states of a file are given exactly if some ping says that they are in use (bit 15), and then
by the majority of all the pings. -/
theorem proc_idle_states (ws : List ℕ) (hne : ws ≠ []) :
    procIdle ws = .ok (if ∃ w ∈ ws, w.testBit 15 = true then
      [("proc_idle_less_3pct", Spec.procState ws 0), ("proc_idle_less_6pct", Spec.procState ws 1),
        ("proc_idle_less_12pct", Spec.procState ws 2)] else []) := by
  have hany : (ws.any (fun w => bitSlice w 15 16 = 1)) = true ↔ ∃ w ∈ ws, w.testBit 15 = true := by
    rw [List.any_eq_true]
    refine exists_congr fun w => and_congr_right fun _ => ?_
    rw [decide_eq_true_eq, bitSlice_one w 15]
    split <;> simp_all
  unfold procIdle status02data
  by_cases h : ∃ w ∈ ws, w.testBit 15 = true
  · rw [if_pos (hany.mpr h), if_pos h]
    have p0 := proc_state ws 0 hne
    have p1 := proc_state ws 1 hne
    have p2 := proc_state ws 2 hne
    simp only [Nat.zero_add, Nat.reduceAdd] at p0 p1 p2
    simp only [List.mapM_cons, List.mapM_nil, p0.1, p0.2, p1.1, p1.2, p2.1, p2.2]
    rfl
  · rw [if_neg (fun e => h (hany.mp e)), if_neg h]; rfl

example : procIdle [32769, 32768, 32768] =
    .ok [("proc_idle_less_3pct", 0, true), ("proc_idle_less_6pct", 0, false), ("proc_idle_less_12pct", 0, false)] := by
  decide +kernel

/-- **C171** (failure). A processor short of time in at least two pings, but fewer than half of them, is reported as one
with time to spare, without a warning. -/
theorem proc_idle_silent_false (ws : List ℕ) (hu : ∃ w ∈ ws, w.testBit 15 = true)
    (h2 : 2 ≤ ws.countP fun w => w.testBit 0) (hl : 2 * (ws.countP fun w => w.testBit 0) < ws.length) :
    ∃ l, procIdle ws = .ok (("proc_idle_less_3pct", 0, false) :: l) := by
  have hne : ws ≠ [] := by rintro rfl; simp at h2
  rw [proc_idle_states ws hne, if_pos hu]
  have e : Spec.procState ws 0 = (0, false) := by
    unfold Spec.procState
    simp only
    rw [if_neg (by omega), decide_eq_false (by omega)]
  rw [e]
  exact ⟨_, rfl⟩

example : ∃ l, procIdle [32769, 32769, 32768, 32768, 32768] = .ok (("proc_idle_less_3pct", 0, false) :: l) :=
  proc_idle_silent_false _ ⟨32769, by simp, by decide⟩ (by decide) (by decide)

end Dolfyn
