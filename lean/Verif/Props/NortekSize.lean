import Verif.Model.NortekSize
import Mathlib.Tactic.Linarith
import Mathlib.Tactic.Positivity
import Mathlib.Tactic.FieldSimp
import Mathlib.Tactic.Ring

/-!
The room the Nortek reader makes for samples (C108).
-/

namespace Dolfyn

/-- Number of records with an identifier. -/
def Spec.countId (id : ℕ) (l : List NkBlock) : ℕ := (l.filter fun r => r.id = id).length

theorem recBytes_append (a b : List NkBlock) : recBytes (a ++ b) = recBytes a + recBytes b := by
  simp [recBytes]

theorem recBytes_cons (r : NkBlock) (b : List NkBlock) : recBytes (r :: b) = r.size + recBytes b := by
  simp [recBytes]

theorem findId_skip (id : ℕ) : ∀ (a b : List NkBlock) (pos : ℕ), (∀ r ∈ a, r.id ≠ id) →
    findId id (a ++ b) pos = findId id b (pos + recBytes a)
  | [], b, pos, _ => by simp [recBytes]
  | r :: a, b, pos, h => by
    rw [List.cons_append, findId, if_neg (h r (by simp)), findId_skip id a b _ fun x hx => h x (by simp [hx]),
      recBytes_cons]
    congr 1
    ring

/-- A part of the file that begins with a record with the identifier `id` of `s` bytes, has no other such record,
and is `B` bytes long. -/
def Spec.isBlock (id s B : ℕ) (l : List NkBlock) : Prop :=
  ∃ rest, l = ⟨id, s⟩ :: rest ∧ (∀ r ∈ rest, r.id ≠ id) ∧ recBytes l = B

theorem spacingLoop_blocks (id s B : ℕ) : ∀ (k : ℕ) (bs : List (List NkBlock)) (rest : List NkBlock) (pos i : ℕ),
    (∀ b ∈ bs, Spec.isBlock id s B b) → (∀ r ∈ rest, r.id ≠ id) → recBytes rest + s = B →
    spacingLoop id k (rest ++ bs.flatten) pos i =
      if k ≤ bs.length then (pos + k * B, i + k - 1) else (pos + bs.length * B + (B - s), i + bs.length)
  | 0, bs, rest, pos, i, _, _, _ => by
    rw [spacingLoop, if_pos (by omega)]
    simp
  | k + 1, [], rest, pos, i, _, h2, h3 => by
    rw [spacingLoop, if_neg (by simp)]
    have : findId id (rest ++ List.flatten []) pos = none := by
      rw [findId_skip id rest _ pos h2]; rfl
    rw [this]
    simp only [List.flatten_nil, List.append_nil, List.length_nil, Nat.zero_mul, Nat.add_zero]
    congr 1
    omega
  | k + 1, b :: bs, rest, pos, i, h1, h2, h3 => by
    obtain ⟨rest', e, h4, h5⟩ := h1 b (by simp)
    have hb : recBytes rest' + s = B := by rw [e, recBytes_cons] at h5; simp only at h5; omega
    have hf : findId id (rest ++ (b :: bs).flatten) pos = some (rest' ++ bs.flatten, pos + B) := by
      rw [findId_skip id rest _ pos h2, List.flatten_cons, e, List.cons_append, findId, if_pos rfl]
      congr 2
      simp only
      omega
    rw [spacingLoop, hf]
    simp only
    rw [spacingLoop_blocks id s B k bs rest' (pos + B) (i + 1) (fun x hx => h1 x (by simp [hx])) h4 hb]
    simp only [List.length_cons]
    by_cases hk : k ≤ bs.length
    · rw [if_pos hk, if_pos (by omega)]
      congr 1
      · ring
      · omega
    · rw [if_neg hk, if_neg (by omega)]
      congr 1
      · have : (bs.length + 1) * B = bs.length * B + B := by ring
        omega
      · omega

theorem blocks_bytes (id s B : ℕ) : ∀ (bs : List (List NkBlock)), (∀ b ∈ bs, Spec.isBlock id s B b) →
    recBytes bs.flatten = bs.length * B
  | [], _ => by simp [recBytes]
  | b :: bs, h => by
    obtain ⟨rest, -, -, h5⟩ := h b (by simp)
    rw [List.flatten_cons, recBytes_append, blocks_bytes id s B bs fun x hx => h x (by simp [hx]), h5,
      List.length_cons]
    ring

/-- The average spacing is positive and at most the block length. -/
theorem spacing_le (id s B : ℕ) (pre : List NkBlock) (bs : List (List NkBlock)) (pos : ℕ)
    (hpre : ∀ r ∈ pre, r.id ≠ id) (hbs : ∀ b ∈ bs, Spec.isBlock id s B b) (hne : bs ≠ []) (hs : s < B) :
    ∃ d : ℚ, codeSpacing id (pre ++ bs.flatten) pos = .ok d ∧ 0 < d ∧ d ≤ B := by
  match bs, hne with
  | b :: bs, _ =>
    obtain ⟨rest, e, h4, h5⟩ := hbs b (by simp)
    have hb : recBytes rest + s = B := by rw [e, recBytes_cons] at h5; simp only at h5; omega
    have hf : findId id (pre ++ (b :: bs).flatten) pos = some (rest ++ bs.flatten, pos + recBytes pre + s) := by
      rw [findId_skip id pre _ pos hpre, List.flatten_cons, e, List.cons_append, findId, if_pos rfl]
    unfold codeSpacing
    rw [hf]
    simp only
    rw [spacingLoop_blocks id s B 50 bs rest _ 0 (fun x hx => hbs x (by simp [hx])) h4 hb]
    have hB : (0 : ℚ) < B := by exact_mod_cast (by omega : 0 < B)
    by_cases hk : 50 ≤ bs.length
    · rw [if_pos hk]
      refine ⟨_, rfl, ?_, ?_⟩
      · push_cast
        norm_num
        linarith
      · push_cast
        norm_num
    · rw [if_neg hk]
      have hsB : ((B - s : ℕ) : ℚ) = B - s := by push_cast [Nat.cast_sub hs.le]; ring
      have hlt : (s : ℚ) < B := by exact_mod_cast hs
      refine ⟨_, rfl, ?_, ?_⟩
      · apply div_pos
        · push_cast [hsB]
          have : (0 : ℚ) ≤ (bs.length : ℚ) * B := by positivity
          linarith
        · positivity
      · rw [div_le_iff₀ (by positivity)]
        push_cast [hsB]
        have : (0 : ℚ) ≤ s := by positivity
        linarith

theorem room_ge (id s B : ℕ) (pre : List NkBlock) (bs : List (List NkBlock)) (pos : ℕ) (d : ℚ)
    (hbs : ∀ b ∈ bs, Spec.isBlock id s B b) (h0 : 0 < d) (h1 : d ≤ B) :
    (bs.length : ℤ) + 1 ≤ pyInt (((pos + recBytes (pre ++ bs.flatten) : ℕ) : ℚ) / d + 1) := by
  have hq : (bs.length : ℚ) ≤ ((pos + recBytes (pre ++ bs.flatten) : ℕ) : ℚ) / d := by
    rw [le_div_iff₀ h0, recBytes_append, blocks_bytes id s B bs hbs]
    have : (bs.length : ℚ) * d ≤ bs.length * B := mul_le_mul_of_nonneg_left h1 (by positivity)
    push_cast
    have h2 : (0 : ℚ) ≤ pos := by positivity
    have h3 : (0 : ℚ) ≤ recBytes pre := by positivity
    linarith
  have h0' : (0 : ℚ) ≤ bs.length := by positivity
  unfold pyInt
  rw [if_pos (by linarith), Int.le_floor]
  have : (((bs.length : ℤ) + 1 : ℤ) : ℚ) = (bs.length : ℚ) + 1 := by push_cast; ring
  rw [this]
  linarith

/-- **C108** (Vector). When the file has one system record per second and `fs` samples in each second, with up to
`fs` samples before the first system record, there is room for all samples of the file, however long it is. -/
theorem vector_room (s B fs : ℕ) (pre : List NkBlock) (bs : List (List NkBlock)) (pos : ℕ)
    (hpre : ∀ r ∈ pre, r.id ≠ 17) (hp : Spec.countId 16 pre ≤ fs) (hbs : ∀ b ∈ bs, Spec.isBlock 17 s B b)
    (hfs : ∀ b ∈ bs, Spec.countId 16 b ≤ fs) (hne : bs ≠ []) (hs : s < B) :
    ∃ n, roomVector fs (pre ++ bs.flatten) pos = .ok n ∧
      (Spec.countId 16 (pre ++ bs.flatten) : ℤ) ≤ n := by
  obtain ⟨d, e, h0, h1⟩ := spacing_le 17 s B pre bs pos hpre hbs hne hs
  have hr := room_ge 17 s B pre bs pos d hbs h0 h1
  refine ⟨pyInt (((pos + recBytes (pre ++ bs.flatten) : ℕ) : ℚ) / d + 1) * pyInt fs, ?_, ?_⟩
  · unfold roomVector
    rw [e]
    simp only [bind, Except.bind]
    rw [if_neg h0.ne']
    rfl
  · have hf : pyInt (fs : ℚ) = fs := by
      unfold pyInt
      rw [if_pos (by positivity)]
      exact Int.floor_natCast fs
    have hc : Spec.countId 16 (pre ++ bs.flatten) ≤ (bs.length + 1) * fs := by
      have : ∀ l : List (List NkBlock), (∀ b ∈ l, Spec.countId 16 b ≤ fs) →
          Spec.countId 16 l.flatten ≤ l.length * fs := by
        intro l
        induction l with
        | nil => intro _; simp [Spec.countId]
        | cons b l ih =>
          intro h
          have h1 := h b (by simp)
          have h2 := ih fun x hx => h x (by simp [hx])
          unfold Spec.countId at h1 h2 ⊢
          rw [List.flatten_cons, List.filter_append, List.length_append, List.length_cons, Nat.succ_mul]
          omega
      have h2 := this bs hfs
      unfold Spec.countId at hp h2 ⊢
      rw [List.filter_append, List.length_append, Nat.succ_mul]
      omega
    rw [hf]
    calc (Spec.countId 16 (pre ++ bs.flatten) : ℤ) ≤ ((bs.length + 1) * fs : ℕ) := by exact_mod_cast hc
      _ = ((bs.length : ℤ) + 1) * fs := by push_cast; ring
      _ ≤ _ := mul_le_mul_of_nonneg_right hr (by positivity)

/-- As `spacing_le` for files that may hold nothing but the records sought: the spacing is 0 exactly if there is a
single one and nothing behind it. -/
theorem spacing_le' (id s B : ℕ) (pre : List NkBlock) (bs : List (List NkBlock)) (pos : ℕ)
    (hpre : ∀ r ∈ pre, r.id ≠ id) (hbs : ∀ b ∈ bs, Spec.isBlock id s B b) (hne : bs ≠ []) (hs : 0 < s) :
    ∃ d : ℚ, codeSpacing id (pre ++ bs.flatten) pos = .ok d ∧ d ≤ B ∧ (0 < d ∨ (d = 0 ∧ bs.length = 1)) := by
  match bs, hne with
  | b :: bs, _ =>
    obtain ⟨rest, e, h4, h5⟩ := hbs b (by simp)
    have hb : recBytes rest + s = B := by rw [e, recBytes_cons] at h5; simp only at h5; omega
    have hf : findId id (pre ++ (b :: bs).flatten) pos = some (rest ++ bs.flatten, pos + recBytes pre + s) := by
      rw [findId_skip id pre _ pos hpre, List.flatten_cons, e, List.cons_append, findId, if_pos rfl]
    unfold codeSpacing
    rw [hf]
    simp only
    rw [spacingLoop_blocks id s B 50 bs rest _ 0 (fun x hx => hbs x (by simp [hx])) h4 hb]
    have hB : (0 : ℚ) < B := by exact_mod_cast (by omega : 0 < B)
    by_cases hk : 50 ≤ bs.length
    · rw [if_pos hk]
      refine ⟨_, rfl, ?_, Or.inl ?_⟩
      · push_cast
        norm_num
      · push_cast
        norm_num
        linarith
    · rw [if_neg hk]
      have hsB : ((B - s : ℕ) : ℚ) = B - s := by push_cast [Nat.cast_sub (show s ≤ B by omega)]; ring
      have hlt : (s : ℚ) ≤ B := by exact_mod_cast (by omega : s ≤ B)
      refine ⟨_, rfl, ?_, ?_⟩
      · rw [div_le_iff₀ (by positivity)]
        push_cast [hsB]
        have : (0 : ℚ) ≤ s := by positivity
        linarith
      · by_cases hz : bs.length = 0 ∧ s = B
        · right
          refine ⟨?_, by rw [List.length_cons, hz.1]⟩
          rw [hz.1, hz.2]
          simp
        · left
          apply div_pos
          · push_cast [hsB]
            have h1 : (0 : ℚ) ≤ (bs.length : ℚ) * B := by positivity
            by_cases h0 : bs.length = 0
            · have : (s : ℚ) < B := by exact_mod_cast (show s < B by omega)
              linarith
            · have : (1 : ℚ) ≤ bs.length := by exact_mod_cast (show 1 ≤ bs.length by omega)
              have : (0 : ℚ) < (bs.length : ℚ) * B := by positivity
              linarith
          · positivity

/-- **C108** (AWAC). When the profiles of the file are equally far apart, there is room for all of them. -/
theorem awac_room (s B : ℕ) (pre : List NkBlock) (bs : List (List NkBlock)) (pos : ℕ)
    (hpre : ∀ r ∈ pre, r.id ≠ 32) (hbs : ∀ b ∈ bs, Spec.isBlock 32 s B b) (hne : bs ≠ []) (hs : 0 < s) :
    ∃ n, roomAwac (pre ++ bs.flatten) pos = .ok n ∧ (bs.length : ℤ) ≤ n := by
  obtain ⟨d, e, h1, h0⟩ := spacing_le' 32 s B pre bs pos hpre hbs hne hs
  unfold roomAwac
  rw [e]
  simp only [bind, Except.bind]
  rcases h0 with h0 | ⟨h0, h2⟩
  · have hr := room_ge 32 s B pre bs pos d hbs h0 h1
    refine ⟨pyInt (((pos + recBytes (pre ++ bs.flatten) : ℕ) : ℚ) / d + 1), ?_, by omega⟩
    rw [if_neg h0.ne']
    rfl
  · refine ⟨1, ?_, by omega⟩
    rw [if_pos h0]
    rfl

/-- **C108 is false of the code** for an AWAC file that begins with wave bursts between its profiles and goes on
without them: there is room for 62 of its 151 profiles. -/
theorem awac_room_false :
    roomAwac (((List.replicate 51 [⟨32, 100⟩, ⟨48, 900⟩]).flatten ++ List.replicate 100 ⟨32, 100⟩) : List NkBlock) 0
        = .ok 62 ∧
      Spec.countId 32 ((List.replicate 51 [⟨32, 100⟩, ⟨48, 900⟩]).flatten ++ List.replicate 100 ⟨32, 100⟩) = 151 := by
  constructor
  · decide +kernel
  · decide +kernel

/-- **C108 is false of the code** for a Vector sampling slower than once per second: there is no room at all. -/
theorem vector_slow_false (fs : ℚ) (h0 : 0 < fs) (h1 : fs < 1) (recs : List NkBlock) (pos : ℕ) (n : ℤ)
    (h : roomVector fs recs pos = .ok n) : n = 0 := by
  unfold roomVector at h
  cases hd : codeSpacing 17 recs pos with
  | error e => rw [hd] at h; cases h
  | ok d =>
    rw [hd] at h
    simp only [bind, Except.bind] at h
    by_cases hz : d = 0
    · rw [if_pos hz] at h; cases h
    · rw [if_neg hz] at h
      have : pyInt fs = 0 := by
        unfold pyInt
        rw [if_pos h0.le, Int.floor_eq_zero_iff]
        exact ⟨h0.le, h1⟩
      rw [← Except.ok.inj h, this, mul_zero]

/-- Blocks as in C108: a system record and two samples. -/
example : Spec.isBlock 17 28 76 [⟨17, 28⟩, ⟨16, 24⟩, ⟨16, 24⟩] :=
  ⟨[⟨16, 24⟩, ⟨16, 24⟩], rfl, by decide, by decide⟩

end Dolfyn
