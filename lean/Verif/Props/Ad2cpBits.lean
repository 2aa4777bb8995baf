import Verif.Model.Ad2cp
import Mathlib.Data.Nat.Bitwise
import Mathlib.Analysis.SpecialFunctions.Complex.Log
import Mathlib.Tactic.Linarith
import Mathlib.Tactic.Ring
import Mathlib.Tactic.FieldSimp
import Mathlib.Tactic.IntervalCases

/-!
Properties of the decoding of bit fields (C48), of collapsing (C49) and of the average of two angles
(C56).
-/

namespace Dolfyn

/-! ### C48: bit fields -/

/-- **C48** (generic bit ranges). The bits `start, …, stop - 1` of a number, as a number. -/
theorem bitSlice_eq (v start stop : ℕ) :
    bitSlice v start stop = v / 2 ^ start % 2 ^ (stop - start) := by
  unfold bitSlice
  rw [Nat.and_two_pow_sub_one_eq_mod, Nat.shiftRight_eq_div_pow]

/-- **C48** (generic bit ranges). Bit `i` of a slice is bit `start + i` of the word, as long as it is in
the range; the slice has no other bits. -/
theorem bitSlice_testBit (v start stop i : ℕ) :
    (bitSlice v start stop).testBit i = (decide (start + i < stop) && v.testBit (start + i)) := by
  unfold bitSlice
  rw [Nat.testBit_and, Nat.testBit_shiftRight, Nat.testBit_two_pow_sub_one, Bool.and_comm]
  congr 1
  by_cases h : start + i < stop
  · rw [decide_eq_true h, decide_eq_true (by omega)]
  · rw [decide_eq_false h, decide_eq_false (by omega)]

theorem getbit_eq_testBit (v n : ℕ) : getbit v n = v.testBit n := by
  unfold getbit Nat.testBit
  rw [Nat.and_comm]
  by_cases h : 1 &&& (v >>> n) = 0
  · simp [h]
  · have h' : (1 &&& (v >>> n) != 0) = true := by simpa using h
    rw [h', decide_eq_true h]

/-- **C48** (beams, cells and coordinate system). Every number of cells below 1024, coordinate code and
number of beams below 16 packed into a word is decoded to itself. -/
theorem beamsCy_decode (id nCells code nBeams : ℕ) (hid : id ≠ 28 ∧ id ≠ 26 ∧ id ≠ 31)
    (hc : nCells < 1024) (hk : code < 4) :
    beamsCyDict (nCells + 1024 * code + 4096 * nBeams) id =
      ⟨nCells, some (adCyOf code), some nBeams⟩ := by
  unfold beamsCyDict
  rw [if_neg hid.1, if_neg (by omega)]
  have h3 : ∀ m : ℕ, m &&& 3 = m % 4 := fun m => Nat.and_two_pow_sub_one_eq_mod m 2
  rw [Nat.and_two_pow_sub_one_eq_mod, h3, Nat.shiftRight_eq_div_pow, Nat.shiftRight_eq_div_pow]
  have e1 : (nCells + 1024 * code + 4096 * nBeams) % 2 ^ 10 = nCells := by omega
  have e2 : (nCells + 1024 * code + 4096 * nBeams) / 2 ^ 10 % 4 = code := by omega
  have e3 : (nCells + 1024 * code + 4096 * nBeams) / 2 ^ 12 = nBeams := by omega
  rw [e1, e2, e3]

/-- The code of a coordinate system. -/
def Spec.cyCode : AdCy → ℕ
  | .enu => 0 | .xyz => 1 | .beam => 2 | .unset => 3

/-- **C48** (beams, cells and coordinate system). Packing the decoded fields gives the word back. -/
theorem beamsCy_repack (v id : ℕ) (hid : id ≠ 28 ∧ id ≠ 26 ∧ id ≠ 31) :
    ∃ c cy b, beamsCyDict v id = ⟨c, some cy, some b⟩ ∧ c < 1024 ∧
      c + 1024 * Spec.cyCode cy + 4096 * b = v := by
  refine ⟨v % 1024, adCyOf (v / 1024 % 4), v / 4096, ?_, by omega, ?_⟩
  · have := beamsCy_decode id (v % 1024) (v / 1024 % 4) (v / 4096) hid (by omega) (by omega)
    have e : v % 1024 + 1024 * (v / 1024 % 4) + 4096 * (v / 4096) = v := by omega
    rwa [e] at this
  · have h4 : v / 1024 % 4 < 4 := by omega
    have : Spec.cyCode (adCyOf (v / 1024 % 4)) = v / 1024 % 4 := by
      generalize v / 1024 % 4 = k at h4
      interval_cases k <;> rfl
    rw [this]; omega

/-- For echosounder records the whole word is the number of cells; altimeter records have one beam, and
the number of cells is the low ten bits. -/
theorem beamsCy_special (v : ℕ) :
    beamsCyDict v 28 = ⟨v, none, none⟩ ∧
    beamsCyDict v 26 = ⟨v % 1024, some .beam, some 1⟩ ∧
    beamsCyDict v 31 = ⟨v % 1024, some .beam, some 1⟩ := by
  refine ⟨rfl, ?_, ?_⟩ <;> simp [beamsCyDict] <;> exact Nat.and_two_pow_sub_one_eq_mod v 10

/-- **C48** (head configuration). The flags of a burst configuration are the bits 0–3 and 5–14 in this
order, each one once. -/
theorem headconfigBurst_bits (v : ℕ) :
    (headconfigBurst v).map Prod.snd =
      [0, 1, 2, 3, 5, 6, 7, 8, 9, 10, 11, 12, 13, 14].map v.testBit := by
  simp [headconfigBurst, getbit_eq_testBit]

/-- **C48** (head configuration). Two configurations with the same flags agree in all bits except the
unused bits 4 and 15. -/
theorem headconfigBurst_repack (v w : ℕ) (hv : v < 2 ^ 16) (hw : w < 2 ^ 16)
    (h : headconfigBurst v = headconfigBurst w) (i : ℕ) (h4 : i ≠ 4) (h15 : i ≠ 15) :
    v.testBit i = w.testBit i := by
  by_cases hi : i < 16
  · simp only [headconfigBurst, getbit_eq_testBit, List.cons.injEq, Prod.mk.injEq, true_and,
      and_true] at h
    obtain ⟨h0, h1, h2, h3, h5, h6, h7, h8, h9, h10, h11, h12, h13, h14⟩ := h
    interval_cases i <;> first | assumption | omega
  · rw [Nat.testBit_lt_two_pow (lt_of_lt_of_le hv (Nat.pow_le_pow_right (by omega) (by omega))),
      Nat.testBit_lt_two_pow (lt_of_lt_of_le hw (Nat.pow_le_pow_right (by omega) (by omega)))]

/-- **C48** (head configuration). The flags of a bottom-track configuration are the bits 0–3, 5, 8, 9
and 10. -/
theorem headconfigBt_bits (v : ℕ) :
    (headconfigBt v).map Prod.snd = [0, 1, 2, 3, 5, 8, 9, 10].map v.testBit := by
  simp [headconfigBt, getbit_eq_testBit]

/-- **C48** (status word). Packing the decoded fields with the unused bits 0, 2, 3 and 4 gives the word
back. -/
theorem status_repack (v : ℕ) (hv : v < 2 ^ 32) :
    ∃ a b c d e f g h i j k,
      (status2data v).map Prod.snd = [a, b, c, d, e, f, g, h, i, j, k] ∧
      v = v % 2 + 2 * k + 4 * (v / 4 % 8) + 32 * j + 1024 * i + 2048 * h + 4096 * g + 65536 * f +
        131072 * e + 262144 * d + 4194304 * c + 33554432 * b + 268435456 * a := by
  refine ⟨_, _, _, _, _, _, _, _, _, _, _, rfl, ?_⟩
  simp only [bitSlice_eq]
  omega

/-- **C48** (status word). Every combination of field values, together with any unused bits, packed into
a word decodes to these values. -/
theorem status_decode (a b c d e f g h i j k u0 u1 : ℕ) (ha : a < 16) (hb : b < 8) (hc : c < 8)
    (hd : d < 16) (he : e < 2) (hf : f < 2) (hg : g < 16) (hh : h < 2) (hi : i < 2) (hj : j < 32)
    (hk : k < 2) (hu0 : u0 < 2) (hu1 : u1 < 8) :
    (status2data (u0 + 2 * k + 4 * u1 + 32 * j + 1024 * i + 2048 * h + 4096 * g + 65536 * f +
        131072 * e + 262144 * d + 4194304 * c + 33554432 * b + 268435456 * a)).map Prod.snd =
      [a, b, c, d, e, f, g, h, i, j, k] := by
  simp only [status2data, List.map_cons, List.map_nil, bitSlice_eq, List.cons.injEq, and_true]
  refine ⟨?_, ?_, ?_, ?_, ?_, ?_, ?_, ?_, ?_, ?_, ?_⟩ <;> omega

/-- **C48** (altimeter status). -/
theorem altStatus_decode (a b c d e u : ℕ) (ha : a < 2) (hb : b < 2) (hc : c < 2) (hd : d < 16)
    (he : e < 8) :
    (altStatus2data (a + 2 * b + 4 * c + 8 * d + 128 * e + 1024 * u)).map Prod.snd =
      [a, b, c, d, e] := by
  simp only [altStatus2data, List.map_cons, List.map_nil, bitSlice_eq, List.cons.injEq, and_true]
  refine ⟨?_, ?_, ?_, ?_, ?_⟩ <;> omega

example : beamsCyDict 0x5014 21 = ⟨20, some .enu, some 5⟩ := by decide

/-! ### C49: collapsing -/

theorem mem_npUnique (vec : List ℤ) (x : ℤ) : x ∈ npUnique vec ↔ x ∈ vec := by
  simp [npUnique]

theorem firstArgmax_spec (cnt : ℤ → ℕ) (l : List ℤ) (w : ℤ) (h : firstArgmax cnt l = some w) :
    w ∈ l ∧ ∀ v ∈ l, cnt v ≤ cnt w := by
  induction l generalizing w with
  | nil => cases h
  | cons v r ih =>
    rw [firstArgmax] at h
    rcases h' : firstArgmax cnt r with _ | w'
    · rw [h'] at h
      replace h := Option.some.inj h
      subst h
      rcases r with _ | ⟨a, r⟩
      · simp
      · rw [firstArgmax] at h'
        rcases h2 : firstArgmax cnt r with _ | x <;> rw [h2] at h' <;> simp only at h'
        · cases h'
        · split at h' <;> cases h'
    · rw [h'] at h
      simp only at h
      obtain ⟨h1, h2⟩ := ih w' h'
      split at h
      · replace h := Option.some.inj h
        subst h
        exact ⟨by simp [h1], by simp; exact ⟨by omega, h2⟩⟩
      · replace h := Option.some.inj h
        subst h
        refine ⟨by simp, ?_⟩
        intro x hx
        rcases List.mem_cons.mp hx with rfl | hx
        · exact le_refl _
        · have := h2 x hx; omega

theorem firstArgmax_isSome (cnt : ℤ → ℕ) (v : ℤ) (r : List ℤ) :
    ∃ w, firstArgmax cnt (v :: r) = some w := by
  rw [firstArgmax]
  rcases firstArgmax cnt r with _ | w
  · exact ⟨v, rfl⟩
  · simp only; split
    · exact ⟨w, rfl⟩
    · exact ⟨v, rfl⟩

theorem foldl_max_mem (l : List ℤ) (a : ℤ) : l.foldl max a = a ∨ l.foldl max a ∈ l := by
  induction l generalizing a with
  | nil => simp
  | cons b l ih =>
    rw [List.foldl_cons]
    rcases ih (max a b) with h | h
    · rcases max_choice a b with h' | h'
      · rw [h'] at h ⊢; exact .inl h
      · rw [h'] at h ⊢; rw [h]; simp
    · exact .inr (by simp [h])

theorem foldl_max_ge (l : List ℤ) (a : ℤ) : a ≤ l.foldl max a ∧ ∀ x ∈ l, x ≤ l.foldl max a := by
  induction l generalizing a with
  | nil => simp
  | cons b l ih =>
    rw [List.foldl_cons]
    obtain ⟨h1, h2⟩ := ih (max a b)
    refine ⟨le_trans (le_max_left _ _) h1, ?_⟩
    intro x hx
    rcases List.mem_cons.mp hx with rfl | hx
    · exact le_trans (le_max_right _ _) h1
    · exact h2 x hx

/-- The vote returns an element with the largest count; if all the counts agree, the largest element. -/
theorem collapseVote_spec (vec : List ℤ) (hne : vec ≠ []) :
    ∃ r, collapseVote vec = .ok r ∧ r ∈ vec ∧ (∀ x, vec.count x ≤ vec.count r) ∧
      ((∀ x ∈ vec, ∀ y ∈ vec, vec.count x = vec.count y) → ∀ x ∈ vec, x ≤ r) := by
  obtain ⟨v0, vt, rfl⟩ := List.exists_cons_of_ne_nil hne
  set vec := v0 :: vt with hvec
  have hu : npUnique vec ≠ [] := by
    intro h
    have := (mem_npUnique vec v0).mpr (by simp [hvec])
    rw [h] at this; simp at this
  obtain ⟨u, ut, hu'⟩ := List.exists_cons_of_ne_nil hu
  unfold collapseVote
  simp only [hu', List.map_cons]
  have hall : (∀ x ∈ vec, vec.count x = vec.count u) ↔
      ((vec.count u :: ut.map (fun v => vec.count v)).all (fun e => decide (e = vec.count u))) = true := by
    rw [List.all_eq_true]
    constructor
    · intro h e he
      rcases List.mem_cons.mp he with rfl | he
      · simp
      · obtain ⟨x, hx, rfl⟩ := List.mem_map.mp he
        have : x ∈ vec := (mem_npUnique vec x).mp (by rw [hu']; simp [hx])
        simpa using h x this
    · intro h x hx
      have : x ∈ u :: ut := by rw [← hu']; exact (mem_npUnique vec x).mpr hx
      rcases List.mem_cons.mp this with rfl | hx'
      · rfl
      · have := h (vec.count x) (by simp only [List.mem_cons, List.mem_map]; exact .inr ⟨x, hx', rfl⟩)
        simpa using this
  by_cases ha : ((vec.count u :: ut.map (fun v => vec.count v)).all
      (fun e => decide (e = vec.count u))) = true
  · rw [if_pos ha]
    have hcnt := hall.mpr ha
    have hm : vec.foldl max (vec.headD u) ∈ vec := by
      rcases foldl_max_mem vec (vec.headD u) with h | h
      · rw [h]; simp [hvec]
      · exact h
    refine ⟨_, rfl, hm, ?_, fun _ x hx => (foldl_max_ge vec _).2 x hx⟩
    intro x
    by_cases hx : x ∈ vec
    · rw [hcnt x hx, hcnt _ hm]
    · rw [List.count_eq_zero_of_not_mem hx]; omega
  · rw [if_neg ha]
    obtain ⟨w, hw⟩ := firstArgmax_isSome (fun v => vec.count v) u ut
    rw [hw]
    obtain ⟨h1, h2⟩ := firstArgmax_spec _ _ _ hw
    refine ⟨w, rfl, (mem_npUnique vec w).mp (by rw [hu']; exact h1), ?_, ?_⟩
    · intro x
      by_cases hx : x ∈ vec
      · exact h2 x (by rw [← hu']; exact (mem_npUnique vec x).mpr hx)
      · rw [List.count_eq_zero_of_not_mem hx]; omega
    · intro h
      exact absurd (hall.mp fun x hx => h x hx u ((mem_npUnique vec u).mp (by rw [hu']; simp))) ha

theorem isuniform_nil (v : ℤ) (r : List ℤ) :
    isuniform (v :: r) [] = .ok (decide (∀ x ∈ r, x = v)) := by
  simp [isuniform, List.all_eq]

/-- **C49** (uniform vectors). -/
theorem collapse_uniform (v : ℤ) (r exclude : List ℤ) (h : ∀ x ∈ r, x = v) :
    collapse (v :: r) exclude = .ok v := by
  unfold collapse
  rw [isuniform_nil, decide_eq_true h]
  rfl

/-- **C49** (excluded values). When the values that are not excluded agree, the result is their common
value. -/
theorem collapse_excluded (vec exclude : List ℤ) (v : ℤ) (hv : v ∈ vec) (hve : v ∉ exclude)
    (h : ∀ x ∈ vec, x ∉ exclude → x = v) :
    collapse vec exclude = .ok v := by
  obtain ⟨v0, vt, rfl⟩ := List.exists_cons_of_ne_nil (List.ne_nil_of_mem hv)
  by_cases hu : ∀ x ∈ vt, x = v0
  · rw [collapse_uniform v0 vt exclude hu]
    rcases List.mem_cons.mp hv with rfl | hv
    · rfl
    · rw [hu v hv]
  · by_cases he : exclude = []
    · subst he
      exfalso; apply hu
      intro x hx
      rw [h x (by simp [hx]) (by simp), h v0 (by simp) (by simp)]
    · have hf : (v0 :: vt).dedup.filter (fun x => decide (x ∉ exclude)) = [v] := by
        have hnd : ((v0 :: vt).dedup.filter (fun x => decide (x ∉ exclude))).Nodup :=
          (List.nodup_dedup _).filter _
        have hall : ∀ x ∈ (v0 :: vt).dedup.filter (fun x => decide (x ∉ exclude)), x = v := by
          intro x hx
          rw [List.mem_filter, List.mem_dedup] at hx
          exact h x hx.1 (by simpa using hx.2)
        have hmem : v ∈ (v0 :: vt).dedup.filter (fun x => decide (x ∉ exclude)) := by
          rw [List.mem_filter, List.mem_dedup]
          exact ⟨hv, by simpa using hve⟩
        generalize (v0 :: vt).dedup.filter (fun x => decide (x ∉ exclude)) = l at hnd hall hmem
        rcases l with _ | ⟨a, _ | ⟨b, l⟩⟩
        · simp at hmem
        · rw [hall a (by simp)]
        · exfalso
          have h1 := hall a (by simp)
          have h2 := hall b (by simp)
          rw [h1, h2] at hnd
          simp at hnd
      unfold collapse
      rw [isuniform_nil, decide_eq_false hu]
      simp only [bind, Except.bind, isuniform]
      rw [if_pos he, hf]
      rfl

/-- **C49** (all other cases). If the vector has at least two different values that are not excluded,
the result is an element of the vector that no value exceeds in frequency; when all the values are
equally frequent it is the largest one. -/
theorem collapse_vote (vec exclude : List ℤ) (a b : ℤ) (ha : a ∈ vec) (hb : b ∈ vec) (hab : a ≠ b)
    (hae : a ∉ exclude) (hbe : b ∉ exclude) :
    ∃ r, collapse vec exclude = .ok r ∧ r ∈ vec ∧ (∀ x, vec.count x ≤ vec.count r) ∧
      ((∀ x ∈ vec, ∀ y ∈ vec, vec.count x = vec.count y) → ∀ x ∈ vec, x ≤ r) := by
  obtain ⟨v0, vt, rfl⟩ := List.exists_cons_of_ne_nil (List.ne_nil_of_mem ha)
  have hu : ¬ ∀ x ∈ vt, x = v0 := by
    intro h
    have : ∀ x ∈ v0 :: vt, x = v0 := by
      intro x hx; rcases List.mem_cons.mp hx with rfl | hx
      · rfl
      · exact h x hx
    exact hab ((this a ha).trans (this b hb).symm)
  have h2 : isuniform (v0 :: vt) exclude = .ok false := by
    by_cases he : exclude = []
    · subst he; rw [isuniform_nil, decide_eq_false hu]
    · unfold isuniform
      rw [if_pos he, decide_eq_false]
      intro hle
      have m : ∀ x, x ∈ v0 :: vt → x ∉ exclude →
          x ∈ (v0 :: vt).dedup.filter (fun x => decide (x ∉ exclude)) := by
        intro x h1 h2
        rw [List.mem_filter, List.mem_dedup]
        exact ⟨h1, by simpa using h2⟩
      have ma := m a ha hae
      have mb := m b hb hbe
      generalize (v0 :: vt).dedup.filter (fun x => decide (x ∉ exclude)) = l at hle ma mb
      rcases l with _ | ⟨c, _ | ⟨d, l⟩⟩
      · simp at ma
      · simp at ma mb; exact hab (ma.trans mb.symm)
      · simp at hle
  obtain ⟨r, hr, h⟩ := collapseVote_spec (v0 :: vt) (by simp)
  refine ⟨r, ?_, h⟩
  unfold collapse
  rw [isuniform_nil, decide_eq_false hu]
  simp only [bind, Except.bind, h2]
  exact hr

/-- **C49** (failure). When the vector is not uniform and every value is excluded, the code raises
`IndexError` instead of returning a value. -/
theorem collapse_all_excluded_false (vec exclude : List ℤ) (a b : ℤ) (ha : a ∈ vec) (hb : b ∈ vec)
    (hab : a ≠ b) (h : ∀ x ∈ vec, x ∈ exclude) : collapse vec exclude = .error .indexError := by
  obtain ⟨v0, vt, rfl⟩ := List.exists_cons_of_ne_nil (List.ne_nil_of_mem ha)
  have hu : ¬ ∀ x ∈ vt, x = v0 := by
    intro h
    have : ∀ x ∈ v0 :: vt, x = v0 := by
      intro x hx; rcases List.mem_cons.mp hx with rfl | hx
      · rfl
      · exact h x hx
    exact hab ((this a ha).trans (this b hb).symm)
  have he : exclude ≠ [] := List.ne_nil_of_mem (h a ha)
  have hf : (v0 :: vt).dedup.filter (fun x => decide (x ∉ exclude)) = [] := by
    rw [List.filter_eq_nil_iff]
    intro x hx
    rw [List.mem_dedup] at hx
    simpa using h x hx
  unfold collapse
  rw [isuniform_nil, decide_eq_false hu]
  simp only [bind, Except.bind, isuniform]
  rw [if_pos he, hf]
  rfl

/-- **C49**. Whenever a value is returned it is an element of the vector. -/
theorem collapse_mem (vec exclude : List ℤ) (r : ℤ) (h : collapse vec exclude = .ok r) : r ∈ vec := by
  rcases vec with _ | ⟨v0, vt⟩
  · cases h
  by_cases hu : ∀ x ∈ vt, x = v0
  · rw [collapse_uniform _ _ _ hu] at h
    cases h; simp
  unfold collapse at h
  rw [isuniform_nil, decide_eq_false hu] at h
  simp only [bind, Except.bind] at h
  rcases h' : isuniform (v0 :: vt) exclude with e | u
  · rw [h'] at h; cases h
  · rw [h'] at h
    cases u
    · simp only at h
      obtain ⟨r', hr, h1, -⟩ := collapseVote_spec (v0 :: vt) (by simp)
      change collapseVote (v0 :: vt) = _ at h
      rw [hr] at h
      cases h; exact h1
    · simp only [if_true] at h
      rcases hl : (v0 :: vt).dedup.filter (fun x => decide (x ∉ exclude)) with _ | ⟨a, l⟩
      · rw [hl] at h; cases h
      · rw [hl] at h
        cases h
        have : r ∈ (v0 :: vt).dedup.filter (fun x => decide (x ∉ exclude)) := by rw [hl]; simp
        rw [List.mem_filter, List.mem_dedup] at this
        exact this.1

example : collapse [3, 7, 3, 3, 0] [0] = .ok 3 ∧ collapse [3, 0, 3] [0] = .ok 3 ∧
    collapse [1, 2] [] = .ok 2 := by decide +kernel

/-! ### C56: average of two angles -/

theorem exp_add_exp (a b : ℝ) :
    Complex.exp (Complex.I * (a : ℂ)) + Complex.exp (Complex.I * (b : ℂ)) =
      ((2 * Real.cos ((a - b) / 2) : ℝ) : ℂ) *
        (Complex.cos (((a + b) / 2 : ℝ) : ℂ) + Complex.sin (((a + b) / 2 : ℝ) : ℂ) * Complex.I) := by
  rw [mul_comm Complex.I, mul_comm Complex.I, Complex.exp_mul_I, Complex.exp_mul_I]
  have h1 := Complex.cos_add_cos (a : ℂ) (b : ℂ)
  have h2 := Complex.sin_add_sin (a : ℂ) (b : ℂ)
  push_cast
  calc _ = (Complex.cos a + Complex.cos b) + (Complex.sin a + Complex.sin b) * Complex.I := by ring
    _ = _ := by rw [h1, h2]; ring

/-- **C56** (range). The average of two angles is in (−180, 180]. -/
theorem reduceAvgAngle_range (x y : ℝ) :
    ∃ r, reduceAvgAngle (some x) (some y) = (some r, none) ∧ -180 < r ∧ r ≤ 180 := by
  refine ⟨_, rfl, ?_, ?_⟩
  · rw [lt_div_iff₀ (by have := Real.pi_pos; positivity)]
    have := (Complex.arg_mem_Ioc (Complex.exp (Complex.I * ((x * (Real.pi / 180) : ℝ) : ℂ)) +
        Complex.exp (Complex.I * ((y * (Real.pi / 180) : ℝ) : ℂ)))).1
    linarith
  · rw [div_le_iff₀ (by have := Real.pi_pos; positivity)]
    have := (Complex.arg_mem_Ioc (Complex.exp (Complex.I * ((x * (Real.pi / 180) : ℝ) : ℂ)) +
        Complex.exp (Complex.I * ((y * (Real.pi / 180) : ℝ) : ℂ)))).2
    linarith

/-- **C56** (midpoint). The average of two angles less than 180 degrees apart is their midpoint modulo
360 degrees. -/
theorem reduceAvgAngle_midpoint (x y : ℝ) (h : |x - y| < 180) :
    ∃ k : ℤ, reduceAvgAngle (some x) (some y) = (some ((x + y) / 2 + 360 * k), none) := by
  have hpi := Real.pi_pos
  have hc : 0 < 2 * Real.cos ((x * (Real.pi / 180) - y * (Real.pi / 180)) / 2) := by
    have : 0 < Real.cos ((x * (Real.pi / 180) - y * (Real.pi / 180)) / 2) := by
      apply Real.cos_pos_of_mem_Ioo
      rw [abs_lt] at h
      constructor
      · have := mul_lt_mul_of_pos_right h.1 hpi; linarith
      · have := mul_lt_mul_of_pos_right h.2 hpi; linarith
    linarith
  refine ⟨⌊(Real.pi - (x * (Real.pi / 180) + y * (Real.pi / 180)) / 2) / (2 * Real.pi)⌋, ?_⟩
  unfold reduceAvgAngle
  simp only
  rw [exp_add_exp]
  have := Complex.arg_mul_cos_add_sin_mul_I_sub hc
    ((x * (Real.pi / 180) + y * (Real.pi / 180)) / 2)
  congr 2
  rw [div_eq_iff (by positivity)]
  rw [sub_eq_iff_eq_add] at this
  rw [this]
  ring

/-- **C56** (equal angles). The average of equal angles is that angle modulo 360. -/
theorem reduceAvgAngle_self (x : ℝ) :
    ∃ k : ℤ, reduceAvgAngle (some x) (some x) = (some (x + 360 * k), none) := by
  obtain ⟨k, hk⟩ := reduceAvgAngle_midpoint x x (by simp)
  exact ⟨k, by rw [hk]; ring_nf⟩

/-- **C56** (periodicity). Adding multiples of 360 to the angles changes nothing. -/
theorem reduceAvgAngle_periodic (x y : ℝ) (m n : ℤ) :
    reduceAvgAngle (some (x + 360 * m)) (some (y + 360 * n)) = reduceAvgAngle (some x) (some y) := by
  have e : ∀ (z : ℝ) (k : ℤ), Complex.exp (Complex.I * (((z + 360 * k) * (Real.pi / 180) : ℝ) : ℂ)) =
      Complex.exp (Complex.I * ((z * (Real.pi / 180) : ℝ) : ℂ)) := by
    intro z k
    rw [Complex.exp_eq_exp_iff_exists_int]
    exact ⟨k, by push_cast; ring⟩
  unfold reduceAvgAngle
  simp only [e]

/-- **C56** (false part). Headings do not stay in [0, 360): two headings of 270 degrees average to
−90. -/
theorem reduceAvgAngle_negative_false :
    reduceAvgAngle (some 270) (some 270) = (some (-90), none) := by
  obtain ⟨k, hk⟩ := reduceAvgAngle_self 270
  obtain ⟨r, hr, h1, h2⟩ := reduceAvgAngle_range 270 270
  rw [hk] at hr ⊢
  have hr' : 270 + 360 * (k : ℝ) = r := Option.some.inj (Prod.mk.inj hr).1
  rw [← hr'] at h1 h2
  have k1 : -2 < k := by
    have : (-2 : ℝ) < k := by linarith
    exact_mod_cast this
  have k2 : k < 0 := by
    have : (k : ℝ) < 0 := by linarith
    exact_mod_cast this
  have : k = -1 := by omega
  rw [this]; norm_num

/-- **C56** (opposite angles). Two opposite angles have no average; in exact arithmetic the result is
zero, whatever they are. -/
theorem reduceAvgAngle_opposite_false (x : ℝ) :
    reduceAvgAngle (some x) (some (x + 180)) = (some 0, none) := by
  unfold reduceAvgAngle
  simp only
  rw [exp_add_exp]
  have : (x * (Real.pi / 180) - (x + 180) * (Real.pi / 180)) / 2 = -(Real.pi / 2) := by ring
  rw [this, Real.cos_neg, Real.cos_pi_div_two]
  simp

/-- A variable that exists only under the second name is renamed without change. -/
theorem reduceAvgAngle_only_second (y : ℝ) : reduceAvgAngle none (some y) = (some y, none) := rfl

/-- **C142, refused records.** An echo sounder record is refused exactly when its configuration announces velocity, amplitude,
correlation, altimeter, percent good or standard deviations; a velocity record exactly when it announces echo sounder data. -/
theorem ad_struct_refused (config nb nc : ℕ) :
    (adEchoStruct config nc = .error .exception ↔ ∃ b ∈ [5, 6, 7, 8, 9, 10, 13, 14], config.testBit b = true) ∧
    ((∃ fs, adEchoStruct config nc = .ok fs) ↔ ∀ b ∈ [5, 6, 7, 8, 9, 10, 13, 14], config.testBit b = false) ∧
    (adBurstStruct config nb nc = .error .exception ↔ config.testBit 11 = true) ∧
    ((∃ fs, adBurstStruct config nb nc = .ok fs) ↔ config.testBit 11 = false) := by
  unfold adEchoStruct adBurstStruct
  simp only [getbit_eq_testBit, List.mem_cons, List.not_mem_nil, or_false, exists_eq_or_imp, exists_eq_left,
    forall_eq_or_imp, forall_eq]
  refine ⟨?_, ?_, ?_, ?_⟩
  · split <;> rename_i h
    · simp only [true_iff]
      clear * - h
      tauto
    · simp only [reduceCtorEq, false_iff]
      clear * - h
      tauto
  · split <;> rename_i h
    · simp only [reduceCtorEq, exists_false, false_iff]
      intro h'
      simp [h'] at h
    · simp only [Except.ok.injEq, exists_eq', true_iff]
      simpa [not_or] using ⟨by simpa using fun e => h (.inl e), by simpa using fun e => h (.inr (.inl e)),
        by simpa using fun e => h (.inr (.inr (.inl e))), by simpa using fun e => h (.inr (.inr (.inr (.inl e)))),
        by simpa using fun e => h (.inr (.inr (.inr (.inr (.inr (.inl e)))))),
        by simpa using fun e => h (.inr (.inr (.inr (.inr (.inl e))))),
        by simpa using fun e => h (.inr (.inr (.inr (.inr (.inr (.inr (.inl e)))))))
        , by simpa using fun e => h (.inr (.inr (.inr (.inr (.inr (.inr (.inr e)))))))⟩
  · split <;> rename_i h <;> simp [h]
  · split <;> rename_i h <;> simp [h]

example : adEchoStruct 0x800 10 ≠ .error .exception ∧ adEchoStruct 0x900 10 = .error .exception ∧
    adBurstStruct 0x800 4 10 = .error .exception := by
  decide

end Dolfyn
