import Verif.Props.RdiCount

/-!
C50: the GPS records of WinRiver files end where their size says.
-/

namespace Dolfyn

/-- Number of bytes of a step. -/
def Spec.mvSize : RdMv → ℤ
  | .rd n => n
  | .sk z => z
  | .rs n => n

theorem rdChunk_length {bs : List ℕ} {p : ℤ} {n : ℕ} (h : p.toNat + n ≤ bs.length) : (rdChunk bs p n).length = n := by
  unfold rdChunk
  rw [List.length_take, List.length_drop]
  omega

/-- Steps forward inside the file move by their total. -/
theorem rdMove_total (bs : List ℕ) : ∀ (ms : List RdMv) (p : ℤ), 0 ≤ p →
    (∀ m ∈ ms, 0 < Spec.mvSize m) → p + (ms.map Spec.mvSize).sum ≤ bs.length →
    rdMove bs p ms = .ok (p + (ms.map Spec.mvSize).sum)
  | [], p, _, _, _ => by simp [rdMove]
  | m :: ms, p, hp, hm, hl => by
    have h1 := hm m (by simp)
    rw [List.map_cons, List.sum_cons] at hl
    have hs : 0 ≤ (ms.map Spec.mvSize).sum := by
      have : ∀ l : List RdMv, (∀ m ∈ l, 0 < Spec.mvSize m) → 0 ≤ (l.map Spec.mvSize).sum := by
        intro l
        induction l with
        | nil => intro _; simp
        | cons a l ih =>
          intro h
          have h2 := h a (by simp)
          have h3 := ih fun m hm => h m (by simp [hm])
          rw [List.map_cons, List.sum_cons]
          omega
      exact this ms fun m h => hm m (by simp [h])
    have hstep : rdMove1 bs p m = .ok (p + Spec.mvSize m) := by
      cases m with
      | rd n =>
        simp only [Spec.mvSize] at h1 hl ⊢
        have hc := rdChunk_length (bs := bs) (p := p) (n := n) (by omega)
        have : rdNeed bs p n = .ok (rdChunk bs p n) := by
          unfold rdNeed rdBytes
          simp only
          rw [if_neg (by intro e; rw [e] at hc; simp at hc; omega), if_neg (by omega)]
        rw [rdMove1, this]
      | sk z =>
        simp only [Spec.mvSize] at h1 ⊢
        rw [rdMove1, rdSeek, if_neg (by omega)]
      | rs n =>
        simp only [Spec.mvSize] at h1 hl ⊢
        rw [rdMove1, rdChunk_length (by omega)]
    rw [rdMove, hstep]
    simp only
    rw [rdMove_total bs ms _ (by omega) (fun m h => hm m (by simp [h])) (by omega), List.map_cons, List.sum_cons]
    congr 1
    ring

/-- **C50.** A WinRiver record is as long as the number at its beginning says. -/
theorem rdi_winriver_size {bs : List ℕ} {s : RdState} {a b : ℕ} {rest : List ℕ} (hp : 0 ≤ s.pos)
    (h : bs.drop s.pos.toNat = a :: b :: rest) (h2 : 2 ≤ a + 256 * b) (hl : a + 256 * b ≤ rest.length + 2) :
    ∃ s', rdWinriver bs s = .ok s' ∧ s'.pos = s.pos + (a + 256 * b : ℕ) ∧ s'.nbyte = (a + 256 * b : ℕ) + 2 := by
  have hlen : bs.length = s.pos.toNat + (rest.length + 2) := by
    have := congrArg List.length h
    rw [List.length_drop, List.length_cons, List.length_cons] at this
    omega
  have hn : rdNeed bs s.pos 2 = .ok [a, b] := rdNeed_ok (r := rest) h rfl (by omega)
  have hz : leNat [a, b] = a + 256 * b := by simp [leNat]
  unfold rdWinriver
  simp only [hn, hz]
  unfold rdReads
  rw [if_neg (by omega), if_neg (by omega), rdChunk_length (by omega)]
  refine ⟨_, rfl, ?_, ?_⟩ <;> simp only <;> push_cast <;> omega

/-- **C50.** A WinRiver II record that holds no sentence is as long as its size says: identifier, size, time
stamp and `sz` bytes. -/
theorem rdi_winriver2_empty {env : RdEnv} {bs : List ℕ} {s : RdState} {a b c d : ℕ} {rest : List ℕ}
    {q : RdNmea} (hp : 0 ≤ s.pos) (h : bs.drop s.pos.toNat = a :: b :: c :: d :: rest)
    (hq : rdNmea (a + 256 * b) = some q) (h2 : 2 ≤ c + 256 * d) (he : c + 256 * d ≤ q.empty)
    (hl : 8 + (c + 256 * d) ≤ rest.length) :
    ∃ s', rdWinriver2 env bs s = .ok (s', false) ∧ s'.pos = s.pos + 12 + (c + 256 * d : ℕ) ∧
      s'.nbyte = 14 + (c + 256 * d : ℕ) := by
  have hlen : bs.length = s.pos.toNat + (rest.length + 4) := by
    have := congrArg List.length h
    rw [List.length_drop, List.length_cons, List.length_cons, List.length_cons, List.length_cons] at this
    omega
  have hn : rdNeed bs s.pos 2 = .ok [a, b] := rdNeed_ok (r := c :: d :: rest) h rfl (by omega)
  have hn2 : rdNeed bs (s.pos + 2) 2 = .ok [c, d] := by
    refine rdNeed_ok (r := rest) ?_ rfl (by omega)
    have : (s.pos + 2).toNat = s.pos.toNat + 2 := by omega
    rw [this, ← List.drop_drop, h]
    rfl
  have hz : leNat [a, b] = a + 256 * b := by simp [leNat]
  have hz2 : leNat [c, d] = c + 256 * d := by simp [leNat]
  have hm : rdMove bs (s.pos + 2) [.rd 2, .rd 8] = .ok (s.pos + 2 + 10) := by
    rw [rdMove_total bs _ _ (by omega) (by simp [Spec.mvSize]) (by simp [Spec.mvSize]; omega)]
    simp [Spec.mvSize]
  unfold rdWinriver2
  simp only [hn, hz, hq, hn2, hm, hz2]
  rw [if_pos he]
  unfold rdReads
  rw [if_neg (by omega), if_neg (by omega), rdChunk_length (by omega)]
  refine ⟨_, rfl, ?_, ?_⟩ <;> simp only <;> push_cast <;> omega

/-- Up to which size the records GGA, VTG, DBT and HDT hold no sentence. -/
def Spec.noSentence (spid : ℕ) : ℕ :=
  if spid = 4 ∨ spid = 104 then 43 else if spid = 5 ∨ spid = 105 then 22
  else if spid = 6 ∨ spid = 106 then 20 else 14

/-- **C50.** The records without sentence by their sizes. -/
theorem rdi_winriver2_short {env : RdEnv} {bs : List ℕ} {s : RdState} {a b c d : ℕ} {rest : List ℕ}
    (hp : 0 ≤ s.pos) (h : bs.drop s.pos.toNat = a :: b :: c :: d :: rest)
    (hid : a + 256 * b ∈ [4, 104, 5, 105, 6, 106, 7, 107]) (h2 : 2 ≤ c + 256 * d)
    (he : c + 256 * d ≤ Spec.noSentence (a + 256 * b)) (hl : 8 + (c + 256 * d) ≤ rest.length) :
    ∃ s', rdWinriver2 env bs s = .ok (s', false) ∧ s'.pos = s.pos + 12 + (c + 256 * d : ℕ) ∧
      s'.nbyte = 14 + (c + 256 * d : ℕ) := by
  have : ∀ i ∈ [4, 104, 5, 105, 6, 106, 7, 107], ∃ q, rdNmea i = some q ∧ q.empty = Spec.noSentence i := by
    intro i hi
    simp only [List.mem_cons, List.not_mem_nil, or_false] at hi
    rcases hi with rfl | rfl | rfl | rfl | rfl | rfl | rfl | rfl <;> exact ⟨_, rfl, rfl⟩
  obtain ⟨q, hq, hqe⟩ := this _ hid
  exact rdi_winriver2_empty hp h hq h2 (hqe ▸ he) hl

/-- Length of the sentences GGA, VTG, DBT and HDT in TRDI's format. -/
def Spec.sentenceSize (spid : ℕ) : ℕ :=
  if spid = 4 ∨ spid = 104 then 57 else if spid = 5 ∨ spid = 105 then 28
  else if spid = 6 ∨ spid = 106 then 22 else 16

/-- **C50.** A WinRiver II record with a sentence of TRDI's format is read to its end: identifier, size, time
stamp, sentence. -/
theorem rdi_winriver2_sentence {env : RdEnv} {bs : List ℕ} {s : RdState} {a b c d : ℕ} {rest : List ℕ}
    {q : RdNmea} (hp : 0 ≤ s.pos) (h : bs.drop s.pos.toNat = a :: b :: c :: d :: rest)
    (hq : rdNmea (a + 256 * b) = some q) (he : q.empty < c + 256 * d)
    (hsz : c + 256 * d = Spec.sentenceSize (a + 256 * b)) (hl : 8 + (c + 256 * d) ≤ rest.length)
    (hu : ∀ t, env.utf8 t = true) (hg : ∀ t, env.gga t = true) :
    ∃ s', rdWinriver2 env bs s = .ok (s', false) ∧ s'.pos = s.pos + 12 + (c + 256 * d : ℕ) ∧
      s'.nbyte = 14 + (c + 256 * d : ℕ) := by
  have hlen : bs.length = s.pos.toNat + (rest.length + 4) := by
    have := congrArg List.length h
    rw [List.length_drop, List.length_cons, List.length_cons, List.length_cons, List.length_cons] at this
    omega
  have hn : rdNeed bs s.pos 2 = .ok [a, b] := rdNeed_ok (r := c :: d :: rest) h rfl (by omega)
  have hn2 : rdNeed bs (s.pos + 2) 2 = .ok [c, d] := by
    refine rdNeed_ok (r := rest) ?_ rfl (by omega)
    have : (s.pos + 2).toNat = s.pos.toNat + 2 := by omega
    rw [this, ← List.drop_drop, h]
    rfl
  have hz : leNat [a, b] = a + 256 * b := by simp [leNat]
  have hz2 : leNat [c, d] = c + 256 * d := by simp [leNat]
  have hm : rdMove bs (s.pos + 2) [.rd 2, .rd 8] = .ok (s.pos + 2 + 10) := by
    rw [rdMove_total bs _ _ (by omega) (by simp [Spec.mvSize]) (by simp [Spec.mvSize]; omega)]
    simp [Spec.mvSize]
  have hbody : rdNmeaBody env bs q (s.pos + 2 + 10) = .ok (some (s.pos + 2 + 10 + (c + 256 * d : ℕ))) := by
    generalize a + 256 * b = spid at hq hsz
    unfold rdNmea at hq
    unfold Spec.sentenceSize at hsz
    have h6 : (rdChunk bs (s.pos + 2 + 10) 6).length = 6 := by
      refine rdChunk_length ?_
      split_ifs at hsz <;> omega
    unfold rdNmeaBody
    simp only [hu, if_true, h6]
    split_ifs at hq hsz with c1 c2 c3 c4
    · obtain rfl := (Option.some.inj hq).symm
      simp only
      rw [rdMove_total bs _ _ (by push_cast; omega) (by simp [Spec.mvSize]) (by simp [Spec.mvSize]; omega)]
      simp only [List.map_cons, List.map_nil, List.sum_cons, List.sum_nil, Spec.mvSize, hg, if_true]
      rw [rdChunk_length (by push_cast; omega), rdMove_total bs _ _ (by push_cast; omega) (by simp [Spec.mvSize])
        (by simp [Spec.mvSize]; omega)]
      simp only [Except.map, List.map_cons, List.map_nil, List.sum_cons, List.sum_nil, Spec.mvSize]
      rw [hsz]
      congr 2
      push_cast
      ring
    all_goals
      obtain rfl := (Option.some.inj hq).symm
      simp only
      rw [rdMove_total bs _ _ (by push_cast; omega) (by simp [Spec.mvSize]) (by simp [Spec.mvSize]; omega)]
      simp only [List.map_cons, List.map_nil, List.sum_cons, List.sum_nil, Spec.mvSize]
      rw [rdMove_total bs _ _ (by push_cast; omega) (by simp [Spec.mvSize]) (by simp [Spec.mvSize]; omega)]
      simp only [Except.map, List.map_cons, List.map_nil, List.sum_cons, List.sum_nil, Spec.mvSize]
      rw [hsz]
      congr 2
      push_cast
      ring
  unfold rdWinriver2
  simp only [hn, hz, hq, hn2, hm, hz2]
  rw [if_neg (by omega), hbody]
  refine ⟨_, rfl, ?_, ?_⟩ <;> simp only <;> push_cast <;> omega

/-- The list from the first entry at offset `o` on, when the offsets before differ. -/
theorem dropWhile_offsets (o : ℤ) : ∀ (l r : List ℤ), o ∉ l → (l ++ o :: r).dropWhile (· ≠ o) = o :: r
  | [], r, _ => by simp
  | a :: l, r, h => by
    have h1 : a ≠ o := fun e => h (by simp [e])
    rw [List.cons_append, List.dropWhile_cons_of_pos (by simpa using h1)]
    exact dropWhile_offsets o l r fun e => h (by simp [e])

theorem find_after (id : ℕ) (o : ℤ) (r : List (ℕ × ℤ)) : ∀ l : List (ℕ × ℤ), (∀ x ∈ l, x.1 ≠ id) →
    (l ++ (id, o) :: r).find? (·.1 = id) = some (id, o)
  | [], _ => by simp
  | a :: l, h => by
    have h1 : a.1 ≠ id := h a (by simp)
    rw [List.cons_append, List.find?_cons_of_neg (by simpa using h1)]
    exact find_after id o r l fun x hx => h x (by simp [hx])

/-- **C50.** A data type the reader does not know is skipped exactly: when the first header of the file puts the
type at offset `o` and the next one at `o'`, the reader advances from behind the identifier to the next type. -/
theorem rdi_unknown_skipped {bs : List ℕ} {s : RdState} {id id' : ℕ} {o o' : ℤ} {l r : List (ℕ × ℤ)}
    (hid : ¬ ∃ t, hexDigits id = 3 :: 0 :: t) (hp : 0 ≤ s.pos)
    (hs : s.idPos = l ++ (id, o) :: (id', o') :: r) (hl : ∀ x ∈ l, x.1 ≠ id ∧ x.2 ≠ o) (ho : o + 2 ≤ o') :
    ∃ s', rdNocode bs id s = .ok s' ∧ s'.pos + 2 = s.pos + (o' - o) ∧ s'.nbyte = o' - o := by
  have h1 : s.idPos.find? (·.1 = id) = some (id, o) := by
    rw [hs]; exact find_after id o _ l fun x hx => (hl x hx).1
  have h2 : (s.idPos.map (·.2)).dropWhile (· ≠ o) = o :: o' :: r.map (·.2) := by
    rw [hs, List.map_append, List.map_cons, List.map_cons]
    refine dropWhile_offsets o _ _ ?_
    intro e
    obtain ⟨x, hx, e⟩ := List.mem_map.mp e
    exact (hl x hx).2 e
  have h3 : rdNocode bs id s = rdSkipNocode bs id s := by
    unfold rdNocode
    split
    · rename_i t h; exact absurd ⟨_, h⟩ hid
    · rename_i h; exact absurd ⟨_, h⟩ hid
    · rfl
  rw [h3]
  unfold rdSkipNocode
  simp only [h1, h2]
  unfold rdSkip rdFinish
  have hm : rdMove bs s.pos [.sk (o' - o - 2)] = .ok (s.pos + (o' - o - 2)) := by
    rw [rdMove, rdMove1, rdSeek, if_neg (by omega)]
    rfl
  rw [hm]
  refine ⟨_, rfl, ?_, ?_⟩ <;> simp only <;> omega

/-- **C50 is false of the code for an unknown type at the end of the ensemble**: there is no next offset and the
reader raises `IndexError`. -/
theorem rdi_unknown_last_false {bs : List ℕ} {s : RdState} {id : ℕ} {o : ℤ} {l : List (ℕ × ℤ)}
    (hid : ¬ ∃ t, hexDigits id = 3 :: 0 :: t) (hs : s.idPos = l ++ [(id, o)])
    (hl : ∀ x ∈ l, x.1 ≠ id ∧ x.2 ≠ o) : rdNocode bs id s = .error .indexError := by
  have h1 : s.idPos.find? (·.1 = id) = some (id, o) := by
    rw [hs]; exact find_after id o _ l fun x hx => (hl x hx).1
  have h2 : (s.idPos.map (·.2)).dropWhile (· ≠ o) = [o] := by
    rw [hs, List.map_append, List.map_cons, List.map_nil]
    refine dropWhile_offsets o _ _ ?_
    intro e
    obtain ⟨x, hx, e⟩ := List.mem_map.mp e
    exact (hl x hx).2 e
  unfold rdNocode
  split
  · rename_i t h; exact absurd ⟨_, h⟩ hid
  · rename_i h; exact absurd ⟨_, h⟩ hid
  · unfold rdSkipNocode
    simp only [h1, h2]

/-- **C50.** The types `30xy` with a decimal digit `x` (attitude): the reader stays behind the identifier, the offsets of
the header then lead on. -/
theorem rdi_attitude_stays {bs : List ℕ} {s : RdState} {id d : ℕ} {t : List ℕ} (hid : hexDigits id = 3 :: 0 :: d :: t)
    (hd : d < 10) (hp : 0 ≤ s.pos) : ∃ s', rdNocode bs id s = .ok s' ∧ s'.pos = s.pos ∧ s'.nbyte = 2 := by
  unfold rdNocode
  rw [hid]
  simp only
  rw [if_pos hd]
  unfold rdSkip rdFinish
  have hm : rdMove bs s.pos [.sk 0] = .ok (s.pos + 0) := by
    rw [rdMove, rdMove1, rdSeek, if_neg (by omega)]
    rfl
  rw [hm]
  exact ⟨_, rfl, by simp, by simp⟩

/-- **C50 is false of the code for the other attitude types**: with a hexadecimal digit from `a` on (`30A0` to `30FC`)
the reader raises `ValueError` – the digit is read as a decimal one – although the header says where to go on. -/
theorem rdi_attitude_false {bs : List ℕ} {s : RdState} {id d : ℕ} {t : List ℕ} (hid : hexDigits id = 3 :: 0 :: d :: t)
    (hd : 10 ≤ d) : rdNocode bs id s = .error .valueError := by
  unfold rdNocode
  rw [hid]
  simp only
  rw [if_neg (by omega)]

example (bs : List ℕ) (s : RdState) : rdNocode bs 0x30d0 s = .error .valueError :=
  rdi_attitude_false (d := 13) (t := [0]) (by decide) (by omega)

example (bs : List ℕ) (s : RdState) (h : s.pos = 70) : ∃ s', rdNocode bs 0x3040 s = .ok s' ∧ s'.pos = 70 := by
  obtain ⟨s', h1, h2, -⟩ := rdi_attitude_stays (bs := bs) (s := s) (id := 0x3040) (d := 4) (t := [0]) (by decide)
    (by omega) (by omega)
  exact ⟨s', h1, by rw [h2, h]⟩

/-! Records at the beginning of a file. -/

example (s : RdState) (h : s.pos = 0) : ∃ s', rdWinriver [5, 0, 71, 72, 73, 9] s = .ok s' ∧ s'.pos = 5 := by
  obtain ⟨s', h1, h2, -⟩ := rdi_winriver_size (bs := [5, 0, 71, 72, 73, 9]) (s := s) (a := 5) (b := 0)
    (rest := [71, 72, 73, 9]) (by omega) (by rw [h]; rfl) (by omega) (by simp)
  exact ⟨s', h1, by rw [h2, h]; rfl⟩

example (env : RdEnv) (s : RdState) (h : s.pos = 0) :
    ∃ s', rdWinriver2 env ([4, 0, 3, 0] ++ List.replicate 20 1) s = .ok (s', false) ∧ s'.pos = 15 := by
  obtain ⟨s', h1, h2, -⟩ := rdi_winriver2_empty (env := env) (bs := [4, 0, 3, 0] ++ List.replicate 20 1) (s := s)
    (a := 4) (b := 0) (c := 3) (d := 0) (rest := List.replicate 20 1) (by omega) (by rw [h]; rfl) rfl (by omega)
    (by simp) (by simp)
  exact ⟨s', h1, by rw [h2, h]; rfl⟩

example (env : RdEnv) (hu : ∀ t, env.utf8 t = true) (hg : ∀ t, env.gga t = true) (s : RdState) (h : s.pos = 0) :
    ∃ s', rdWinriver2 env ([4, 0, 57, 0] ++ List.replicate 80 1) s = .ok (s', false) ∧ s'.pos = 69 := by
  obtain ⟨s', h1, h2, -⟩ := rdi_winriver2_sentence (env := env) (bs := [4, 0, 57, 0] ++ List.replicate 80 1)
    (s := s) (a := 4) (b := 0) (c := 57) (d := 0) (rest := List.replicate 80 1) (by omega) (by rw [h]; rfl) rfl
    (by simp) rfl (by simp) hu hg
  exact ⟨s', h1, by rw [h2, h]; rfl⟩

/-- A file whose first header lists the types 0, 2817 (unknown) and 256 at 10, 69 and 100: the unknown one is
31 bytes long. -/
example (bs : List ℕ) (s : RdState) (h : s.pos = 500) (hi : s.idPos = [(0, 10), (2817, 69), (256, 100)]) :
    ∃ s', rdNocode bs 2817 s = .ok s' ∧ s'.pos = 529 := by
  obtain ⟨s', h1, h2, -⟩ := rdi_unknown_skipped (bs := bs) (s := s) (id := 2817) (id' := 256) (o := 69)
    (o' := 100) (l := [(0, 10)]) (r := []) (by rintro ⟨t, ht⟩; simp [hexDigits] at ht) (by omega) hi (by simp) (by omega)
  exact ⟨s', h1, by omega⟩

end Dolfyn
