import Verif.Lemmas.IoBase
import Mathlib.Data.List.TakeWhile

/-!
Properties of file type detection, file names, NaN trimming and complex variables (C41, C42, C54, C55).
-/

namespace Dolfyn

variable {T : Type}

/-! ### C41 -/

/-- **C41.** The reader is decided by the first bytes: two files that agree on the first 40 bytes get
the same reader, and a reader runs exactly on the files with its documented two-byte signature. -/
theorem reader_by_signature (file : List ℕ) :
    (readDispatch file = .ok .rdi ↔
      ∃ b rest, (b = 0x79 ∨ b = 0x7f) ∧ file = 0x7f :: b :: rest) ∧
    (readDispatch file = .ok .signature ↔ ∃ rest, file = 0xa5 :: 0x0a :: rest) ∧
    (readDispatch file = .ok .nortek ↔ ∃ rest, file = 0xa5 :: 0x05 :: rest) ∧
    (∀ t, readDispatch file = .ok t → t ≠ .lfsPointer) ∧
    (∀ e, readDispatch file = .error e → e = .ioError) := by
  have hl : ∀ a b, lfsMagic.take 2 = [a, b] → a = 118 := by
    intro a b h
    have h2 : lfsMagic.take 2 = [118, 101] := by decide
    rw [h2] at h
    simpa using (List.cons.inj h).1.symm
  rcases file with _ | ⟨a, _ | ⟨b, rest⟩⟩
  · have : getFiletype [] = none := by decide
    unfold readDispatch
    rw [this]
    simp
  · have : getFiletype [a] = none := by
      unfold getFiletype
      have : lfsMagic.length = 40 := by decide
      have h2 : [a] ≠ lfsMagic := fun h => by rw [← h] at this; simp at this
      simp [h2]
    unfold readDispatch
    rw [this]
    simp
  · unfold readDispatch getFiletype
    simp only [List.take_succ_cons, List.take_zero, List.cons.injEq, and_true]
    by_cases h1 : a = 127 ∧ b = 121 ∨ a = 127 ∧ b = 127
    · rw [if_pos h1]
      refine ⟨?_, ?_, ?_, ?_, ?_⟩
      · simp; rcases h1 with ⟨h, h'⟩ | ⟨h, h'⟩ <;> simp [h, h']
      · simp; rcases h1 with ⟨h, h'⟩ | ⟨h, h'⟩ <;> simp [h, h']
      · simp; rcases h1 with ⟨h, h'⟩ | ⟨h, h'⟩ <;> simp [h, h']
      · rintro t ⟨⟩; simp
      · rintro e ⟨⟩
    · rw [if_neg h1]
      have hr : ¬ ∃ b' rest', (b' = 121 ∨ b' = 127) ∧ a = 127 ∧ b = b' ∧ rest = rest' := by
        rintro ⟨b', r', h, ha, hb, -⟩
        subst hb
        rcases h with h | h
        · exact h1 (.inl ⟨ha, h⟩)
        · exact h1 (.inr ⟨ha, h⟩)
      by_cases h2 : a = 165 ∧ b = 10
      · rw [if_pos h2]
        refine ⟨?_, ?_, ?_, ?_, ?_⟩
        · simpa using hr
        · simp [h2.1, h2.2]
        · simp [h2.1, h2.2]
        · rintro t ⟨⟩; simp
        · rintro e ⟨⟩
      · rw [if_neg h2]
        have hs : ¬ ∃ rest', a = 165 ∧ b = 10 ∧ rest = rest' := by
          rintro ⟨r', ha, hb, -⟩
          exact h2 ⟨ha, hb⟩
        by_cases h3 : a = 165 ∧ b = 5
        · rw [if_pos h3]
          refine ⟨?_, ?_, ?_, ?_, ?_⟩
          · simpa using hr
          · simp [h3.1, h3.2]
          · simp [h3.1, h3.2]
          · rintro t ⟨⟩; simp
          · rintro e ⟨⟩
        · rw [if_neg h3]
          have hn : ¬ ∃ rest', a = 165 ∧ b = 5 ∧ rest = rest' := by
            rintro ⟨r', ha, hb, -⟩
            exact h3 ⟨ha, hb⟩
          split
          · rename_i h
            refine ⟨?_, ?_, ?_, ?_, ?_⟩
            · simpa using hr
            · simpa using hs
            · simpa using hn
            · rintro t ⟨⟩
            · rintro e ⟨⟩; rfl
          · refine ⟨?_, ?_, ?_, ?_, ?_⟩
            · simpa using hr
            · simpa using hs
            · simpa using hn
            · rintro t ⟨⟩
            · rintro e ⟨⟩; rfl
          · rename_i t h4 h5
            rcases ite_eq_iff.mp h5 with ⟨-, h⟩ | ⟨-, h⟩
            · exact (h4 (Option.some.inj h).symm).elim
            · cases h

theorem reader_prefix (f g : List ℕ) (h : f.take 40 = g.take 40) :
    getFiletype f = getFiletype g := by
  unfold getFiletype
  rw [h]

/-- A file whose first 40 bytes are the git-lfs text is refused. -/
theorem lfs_refused (rest : List ℕ) :
    getFiletype (lfsMagic ++ rest) = some .lfsPointer ∧
      readDispatch (lfsMagic ++ rest) = .error .ioError := by
  have h : getFiletype (lfsMagic ++ rest) = getFiletype lfsMagic := by
    apply reader_prefix
    rw [List.take_append_of_le_length (by decide)]
  have h2 : getFiletype lfsMagic = some .lfsPointer := by decide
  refine ⟨h.trans h2, ?_⟩
  unfold readDispatch
  rw [h, h2]

example : readDispatch [0xa5, 0x05, 1, 2] = .ok .nortek := by
  rw [(reader_by_signature _).2.2.1]
  exact ⟨_, rfl⟩

/-! ### C42 -/

/-- The last path component, with both kinds of slash as separators. -/
def Spec.baseName (s : List Char) : List Char :=
  (s.reverse.takeWhile fun c => decide (c ≠ '/' ∧ c ≠ '\\')).reverse

/-- `s` ends in the extension `e`: it is `a.e` and `e` has no dot or slash. -/
def Spec.hasExt (s e : List Char) : Prop :=
  '.' ∉ e ∧ '/' ∉ e ∧ '\\' ∉ e ∧ ∃ a, s = a ++ '.' :: e

theorem base_eq (path : List Char) :
    afterLast '/' (path.map fun c => if c = '\\' then '/' else c) = Spec.baseName path := by
  unfold afterLast Spec.baseName
  rw [← List.map_reverse]
  congr 1
  induction path.reverse with
  | nil => rfl
  | cons c l ih =>
    by_cases h1 : c = '\\'
    · subst h1; simp [List.takeWhile_cons]
    · by_cases h2 : c = '/'
      · subst h2; simp [List.takeWhile_cons]
      · simp [List.takeWhile_cons, h1, h2] at ih ⊢
        exact ih

theorem takeWhile_append_cons {α : Type} (p : α → Bool) (l m : List α) (c : α)
    (h : ∀ x ∈ l, p x = true) (hc : p c = false) : (l ++ c :: m).takeWhile p = l := by
  induction l with
  | nil => simp [hc]
  | cons a l ih =>
    rw [List.cons_append, List.takeWhile_cons, if_pos (h a (by simp)),
      ih (fun x hx => h x (by simp [hx]))]

theorem takeWhile_append_pass {α : Type} (p : α → Bool) (l m : List α)
    (h : ∀ x ∈ l, p x = true) : (l ++ m).takeWhile p = l ++ m.takeWhile p := by
  induction l with
  | nil => simp
  | cons a l ih =>
    rw [List.cons_append, List.takeWhile_cons, if_pos (h a (by simp)),
      ih (fun x hx => h x (by simp [hx])), List.cons_append]

theorem afterLast_append (c : Char) (a e : List Char) (h : c ∉ e) :
    afterLast c (a ++ c :: e) = e := by
  unfold afterLast
  rw [List.reverse_append, List.reverse_cons, List.append_assoc, List.singleton_append,
    takeWhile_append_cons _ _ _ _ _ (by simp), List.reverse_reverse]
  intro x hx
  have : x ≠ c := fun e' => h (by rw [← e']; simpa using hx)
  simpa using this

theorem afterLast_split (c : Char) (s : List Char) (h : c ∈ s) :
    ∃ a, s = a ++ c :: afterLast c s := by
  unfold afterLast
  have hd := List.takeWhile_append_dropWhile (p := fun x => x != c) (l := s.reverse)
  have hne : s.reverse.dropWhile (fun x => x != c) ≠ [] := by
    rw [Ne, List.dropWhile_eq_nil_iff]
    intro hall
    have := hall c (by simpa using h)
    simp at this
  obtain ⟨d, r, hr⟩ := List.exists_cons_of_ne_nil hne
  have hdc : d = c := by
    have := List.head_dropWhile_not (fun x => x != c) hne
    simp only [hr, List.head_cons] at this
    simpa using this
  refine ⟨r.reverse, ?_⟩
  have h3 : s = (s.reverse.takeWhile (fun x => x != c) ++ s.reverse.dropWhile (fun x => x != c)).reverse := by
    rw [hd, List.reverse_reverse]
  rw [hr, hdc, List.reverse_append, List.reverse_cons, List.append_assoc, List.singleton_append] at h3
  exact h3

theorem baseName_suffix (s : List Char) : ∃ d, s = d ++ Spec.baseName s := by
  refine ⟨(s.reverse.dropWhile fun c => decide (c ≠ '/' ∧ c ≠ '\\')).reverse, ?_⟩
  unfold Spec.baseName
  rw [← List.reverse_append, List.takeWhile_append_dropWhile, List.reverse_reverse]

/-- **C42.** The extension check fails only on a file name that already has a dot and another
extension; otherwise the result has exactly the wanted extension, is the path itself when it had the
extension and the path with `.ext` added when the file name had no dot, and checking it again changes
nothing (so the extension is never doubled). -/
theorem ext_check (path ext : List Char) (h1 : '.' ∉ ext) (h2 : '/' ∉ ext) (h3 : '\\' ∉ ext) :
    (('.' ∉ Spec.baseName path → checkFileExt path ext = .ok (path ++ '.' :: ext)) ∧
     ('.' ∈ Spec.baseName path → Spec.hasExt path ext → checkFileExt path ext = .ok path) ∧
     ('.' ∈ Spec.baseName path → ¬ Spec.hasExt path ext →
        checkFileExt path ext = .error .ioError)) ∧
    (∀ r, checkFileExt path ext = .ok r → Spec.hasExt r ext ∧ checkFileExt r ext = .ok r) := by
  have key : ∀ p : List Char, Spec.hasExt p ext →
      '.' ∈ Spec.baseName p ∧ afterLast '.' (Spec.baseName p) = ext := by
    rintro p ⟨-, -, -, a, rfl⟩
    have hb : Spec.baseName (a ++ '.' :: ext) = Spec.baseName a ++ '.' :: ext := by
      unfold Spec.baseName
      rw [List.reverse_append, List.reverse_cons, takeWhile_append_pass, List.reverse_append]
      · simp
      · intro x hx
        simp only [List.mem_append, List.mem_reverse, List.mem_singleton] at hx
        simp only [decide_eq_true_eq]
        constructor
        · rintro rfl; rcases hx with hx | hx
          · exact h2 hx
          · simp at hx
        · rintro rfl; rcases hx with hx | hx
          · exact h3 hx
          · simp at hx
    rw [hb]
    exact ⟨by simp, afterLast_append _ _ _ h1⟩
  have hok : ∀ p : List Char, Spec.hasExt p ext → checkFileExt p ext = .ok p := by
    intro p hp
    obtain ⟨ha, hb⟩ := key p hp
    unfold checkFileExt
    rw [base_eq]
    simp [ha, hb]
  have hno : '.' ∉ Spec.baseName path → checkFileExt path ext = .ok (path ++ '.' :: ext) := by
    intro h
    unfold checkFileExt
    rw [base_eq]
    simp [h]
  have hbad : '.' ∈ Spec.baseName path → ¬ Spec.hasExt path ext →
      checkFileExt path ext = .error .ioError := by
    intro h hn
    unfold checkFileExt
    rw [base_eq]
    have : afterLast '.' (Spec.baseName path) ≠ ext := by
      intro he
      apply hn
      obtain ⟨a, ha⟩ := afterLast_split '.' _ h
      obtain ⟨d, hd⟩ := baseName_suffix path
      refine ⟨h1, h2, h3, d ++ a, ?_⟩
      rw [he] at ha
      rw [List.append_assoc, ← ha, ← hd]
    simp [h, this]
  refine ⟨⟨hno, fun _ => hok path, hbad⟩, ?_⟩
  intro r hr
  have hext : Spec.hasExt r ext := by
    by_cases h : '.' ∈ Spec.baseName path
    · by_cases he : Spec.hasExt path ext
      · rw [hok path he] at hr
        cases hr
        exact he
      · rw [hbad h he] at hr
        cases hr
    · rw [hno h] at hr
      cases hr
      exact ⟨h1, h2, h3, path, rfl⟩
  exact ⟨hext, hok r hext⟩

example : checkFileExt "a.b/c\\d".toList "nc".toList = .ok "a.b/c\\d.nc".toList ∧
    checkFileExt "a/d.mat".toList "nc".toList = .error .ioError := by decide

/-! ### C54 -/

/-- Number of missing samples at the very end: the length of the longest all-bad suffix of
`bad 0 … bad (n-1)`. -/
def Spec.trailingBad (bad : ℕ → Bool) : ℕ → ℕ
  | 0 => 0
  | n + 1 => if bad n then Spec.trailingBad bad n + 1 else 0

theorem trailing_le_count (bad : ℕ → Bool) (n : ℕ) :
    Spec.trailingBad bad n ≤ (List.range n).countP bad := by
  induction n with
  | zero => simp [Spec.trailingBad]
  | succ n ih =>
    rw [List.range_succ, List.countP_append]
    by_cases h : bad n = true
    · simp [Spec.trailingBad, h]; omega
    · simp [Spec.trailingBad, h]

theorem trailing_eq_count_iff (bad : ℕ → Bool) (n : ℕ) :
    Spec.trailingBad bad n = (List.range n).countP bad ↔
      ∀ i j, i < j → j < n → bad i = true → bad j = true := by
  induction n with
  | zero => simp [Spec.trailingBad]
  | succ n ih =>
    rw [List.range_succ, List.countP_append]
    by_cases h : bad n = true
    · simp only [Spec.trailingBad, h, if_true, List.countP_singleton, add_left_inj]
      rw [ih]
      constructor
      · intro H i j hij hj hi
        rcases Nat.lt_succ_iff_lt_or_eq.mp hj with hj | rfl
        · exact H i j hij hj hi
        · exact h
      · exact fun H i j hij hj => H i j hij (by omega)
    · simp only [Spec.trailingBad, h, List.countP_singleton]
      constructor
      · intro H i j hij hj hi
        have h0 : (List.range n).countP bad = 0 := by simpa using H.symm
        rw [List.countP_eq_zero] at h0
        exact absurd hi (h0 i (by simp; omega))
      · intro H
        have h0 : (List.range n).countP bad = 0 := by
          rw [List.countP_eq_zero]
          intro i hi hb
          exact h (H i n (by simpa using hi) (by omega) hb)
        simp [h0]

/-- **C54 (partial).** On a non-empty record the trimmed length is the length minus the number of *all*
marked samples, for the time vector and for every variable of its length, other variables are left
alone and no value changes; this is the number of trailing samples to remove exactly when every marked
sample is in the trailing run, and otherwise good samples at the end are lost. -/
theorem trim_partial (l : ℕ) (hl : 0 < l) (time : ℕ → Option ℝ) (vars : List NVar) :
    ∃ n vs, handleNan l time vars = .ok (n, vs) ∧
      n = l - nanCount l time vars ∧
      List.Forall₂ (fun v w => w.row = v.row ∧ w.name = v.name ∧ w.lead = v.lead ∧
        w.len = if v.len = l then n else v.len) vars vs ∧
      n ≤ l - Spec.trailingBad (nanMask l time vars) l ∧
      (n = l - Spec.trailingBad (nanMask l time vars) l ↔
        ∀ i j, i < j → j < l → nanMask l time vars i = true → nanMask l time vars j = true) := by
  refine ⟨_, _, if_neg (by omega), rfl, ?_, ?_, ?_⟩
  · rw [List.forall₂_map_right_iff]
    rw [List.forall₂_same]
    intro v _
    by_cases h : v.len = l <;> simp [h]
  · have := trailing_le_count (nanMask l time vars) l
    unfold nanCount
    have e : (fun t => nanMask l time vars t) = nanMask l time vars := rfl
    rw [e]
    omega
  · rw [← trailing_eq_count_iff]
    have := trailing_le_count (nanMask l time vars) l
    have h2 : (List.range l).countP (nanMask l time vars) ≤ l := by
      simpa using List.countP_le_length (p := nanMask l time vars) (l := List.range l)
    have e : nanCount l time vars = (List.range l).countP (nanMask l time vars) := rfl
    rw [e]
    omega

/-- **C54 is false of the code**: one missing acceleration sample at the start of three removes the last
good sample and keeps the missing one. -/
theorem trim_counterexample :
    let v : NVar := ⟨"accel", [], 3, fun _ t => if t = 0 then none else some 1⟩
    ∃ w, handleNan 3 (fun _ => some 0) [v] = .ok (2, [w]) ∧ w.len = 2 ∧ w.row 0 0 = none ∧
      v.row 0 2 = some 1 ∧ Spec.trailingBad (nanMask 3 (fun _ => some 0) [v]) 3 = 0 := by
  intro v
  have hm : nanMask 3 (fun _ => some 0) [v] = fun t => decide (t = 0) := by
    funext t
    by_cases h : t = 0 <;> simp [nanMask, nanMark, v, h, show isImuName "accel" = true from by decide]
  have hc : nanCount 3 (fun _ => some 0) [v] = 1 := by
    unfold nanCount
    rw [hm]
    decide
  refine ⟨{ v with len := 2 }, ?_, rfl, rfl, by simp [v], ?_⟩
  · simp [handleNan, hc, v]
  · rw [hm]
    decide

/-- A missing value in a component other than the last does not count, so it survives trimming. -/
theorem trim_ignores_first_components (l : ℕ) (time : ℕ → Option ℝ) (vars : List NVar) (v : NVar)
    (k : ℕ) (hk : v.lead = [k]) (row' : ℕ → ℕ → Option ℝ) (h : row' (k - 1) = v.row (k - 1)) :
    nanCount l time ({ v with row := row' } :: vars) = nanCount l time (v :: vars) := by
  unfold nanCount nanMask
  congr 1
  funext t
  have : nanMark l { v with row := row' } t = nanMark l v t := by
    unfold nanMark
    simp only [hk, h]
  simp [this]

/-- An empty record raises. -/
theorem trim_empty (time : ℕ → Option ℝ) (vars : List NVar) :
    handleNan 0 time vars = .error .indexError := rfl

example : nanCount 3 (fun t => if t = 2 then none else some 1) [] = 1 ∧
    ∀ i j, i < j → j < 3 → nanMask 3 (fun t => if t = 2 then none else some (1:ℝ)) [] i = true →
      nanMask 3 (fun t => if t = 2 then none else some (1:ℝ)) [] j = true := by
  have hm : nanMask 3 (fun t => if t = 2 then none else some (1:ℝ)) [] = fun t => decide (t = 2) := by
    funext t
    by_cases h : t = 2 <;> simp [nanMask, h]
  constructor
  · unfold nanCount
    rw [hm]
    decide
  · rw [hm]
    intro i j h1 h2 h3
    simp at h3
    omega

end Dolfyn
