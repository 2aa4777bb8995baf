import Verif.Props.RdiInit

/-!
C145: where the TRDI reader resumes after bytes that belong to no ensemble.
-/

namespace Dolfyn

/-- The bytes `7F 7F` at place `q`. -/
def Spec.rdPair (bs : List ℕ) (q : ℕ) : Prop := bs[q]? = some 127 ∧ bs[q + 1]? = some 127

/-- The length announced at place `q` (two bytes, signed, behind the `7F 7F`). -/
def Spec.rdAnnounced (bs : List ℕ) (q : ℕ) (n : ℤ) : Prop :=
  ∃ a b, bs[q + 2]? = some a ∧ bs[q + 3]? = some b ∧
    n = if 32768 ≤ a + 256 * b then (a : ℤ) + 256 * b - 65536 else (a : ℤ) + 256 * b

/-- An ensemble begins at place `q`: `7F 7F`, a length, and behind that length (which does not count
the two bytes of the checksum) again `7F 7F`, or `7F 79`, which begins a waves record. -/
def Spec.rdHeadAt (bs : List ℕ) (q : ℕ) : Prop :=
  Spec.rdPair bs q ∧ ∃ n : ℤ, Spec.rdAnnounced bs q n ∧ 0 < n ∧
    bs[q + 2 + n.toNat]? = some 127 ∧
    (bs[q + 3 + n.toNat]? = some 127 ∨ bs[q + 3 + n.toNat]? = some 121)

/-- The length behind place `q`, if positive, ends inside the file. -/
def Spec.rdInside (bs : List ℕ) (q : ℕ) : Prop :=
  ∃ n : ℤ, Spec.rdAnnounced bs q n ∧ (n ≤ 0 ∨ q + 4 + n.toNat ≤ bs.length)

theorem drop_two {bs : List ℕ} {p a b : ℕ} (ha : bs[p]? = some a) (hb : bs[p + 1]? = some b) :
    bs.drop p = [a, b] ++ bs.drop (p + 2) := by
  obtain ⟨h1, e1⟩ := List.getElem?_eq_some_iff.mp ha
  obtain ⟨h2, e2⟩ := List.getElem?_eq_some_iff.mp hb
  rw [List.drop_eq_getElem_cons h1, List.drop_eq_getElem_cons h2, e1, e2]
  rfl

theorem rdI16_two (a b : ℕ) (hb : 256 * b + a < 65536) : rdI16 [a, b] =
    if 32768 ≤ a + 256 * b then (a : ℤ) + 256 * b - 65536 else (a : ℤ) + 256 * b := by
  unfold rdI16 adVal
  simp only [leNat, AdFmt.signed, AdFmt.size]
  by_cases h : 32768 ≤ a + 256 * b
  · rw [if_pos h, if_pos ⟨trivial, by norm_num; omega⟩]; push_cast; norm_num
  · rw [if_neg h, if_neg (by rintro ⟨_, h2⟩; norm_num at h2; omega)]; push_cast; ring

theorem rdBytes_two {bs : List ℕ} {p a b : ℕ} (ha : bs[p]? = some a) (hb : bs[p + 1]? = some b) :
    rdBytes bs (p : ℤ) 2 = .ok (some [a, b]) :=
  rdBytes_ok (by rw [Int.toNat_natCast]; exact drop_two ha hb) rfl (by decide)

theorem rdCheckheader_eq {bs : List ℕ} {q : ℕ} {n : ℤ} (hbytes : ∀ x ∈ bs, x < 256)
    (hn : Spec.rdAnnounced bs q n) :
    rdCheckheader bs ((q : ℤ) + 2) = if 0 < n then
      (match rdBytes bs ((q + 2 + n.toNat : ℕ) : ℤ) 2 with
      | .error e => .error e
      | .ok none => .ok (false, ((q + 2 + n.toNat : ℕ) : ℤ))
      | .ok (some d) => .ok (decide (d.getD 0 0 = 127 ∧ (d.getD 1 0 = 127 ∨ d.getD 1 0 = 121)), (q : ℤ) + 2))
      else .ok (false, (q : ℤ) + 2) := by
  obtain ⟨a, b, ha, hb, e⟩ := hn
  have hA : a < 256 := hbytes a (List.mem_of_getElem? ha)
  have hB : b < 256 := hbytes b (List.mem_of_getElem? hb)
  have e2 : ((q : ℤ) + 2) = ((q + 2 : ℕ) : ℤ) := by push_cast; rfl
  have hr := rdBytes_two (p := q + 2) ha hb
  unfold rdCheckheader rdNeed
  rw [e2, hr]
  simp only [rdI16_two a b (by omega)]
  rw [← e]
  by_cases h : 0 < n
  · rw [if_pos h, if_pos h, show ((q + 2 : ℕ) : ℤ) + n = ((q + 2 + n.toNat : ℕ) : ℤ) by push_cast; omega]
    rfl
  · rw [if_neg h, if_neg h]

/-- The test at a place where an ensemble begins. -/
theorem rdCheckheader_head {bs : List ℕ} {q : ℕ} (hbytes : ∀ x ∈ bs, x < 256) (h : Spec.rdHeadAt bs q) :
    rdCheckheader bs ((q : ℤ) + 2) = .ok (true, (q : ℤ) + 2) := by
  obtain ⟨_, n, hn, hpos, h1, h2⟩ := h
  rw [rdCheckheader_eq hbytes hn, if_pos hpos]
  have h2' : bs[q + 2 + n.toNat + 1]? = some 127 ∨ bs[q + 2 + n.toNat + 1]? = some 121 := by
    rw [show q + 2 + n.toNat + 1 = q + 3 + n.toNat by omega]; exact h2
  rcases h2' with h2' | h2'
  · rw [rdBytes_two h1 h2']; rfl
  · rw [rdBytes_two h1 h2']; rfl

/-- The test at a place where none begins, as long as the length does not lead out of the file. -/
theorem rdCheckheader_nohead {bs : List ℕ} {q : ℕ} (hbytes : ∀ x ∈ bs, x < 256) (hp : Spec.rdPair bs q)
    (hi : Spec.rdInside bs q) (h : ¬ Spec.rdHeadAt bs q) :
    rdCheckheader bs ((q : ℤ) + 2) = .ok (false, (q : ℤ) + 2) := by
  obtain ⟨n, hn, hin⟩ := hi
  rw [rdCheckheader_eq hbytes hn]
  by_cases hpos : 0 < n
  · rw [if_pos hpos]
    have hin' : q + 4 + n.toNat ≤ bs.length := by
      rcases hin with h | h
      · omega
      · exact h
    have g1 : bs[q + 2 + n.toNat]? = some (bs[q + 2 + n.toNat]'(by omega)) := List.getElem?_eq_getElem _
    have g2 : bs[q + 2 + n.toNat + 1]? = some (bs[q + 2 + n.toNat + 1]'(by omega)) := List.getElem?_eq_getElem _
    rw [rdBytes_two g1 g2]
    simp only [List.getD_cons_zero, List.getD_cons_succ]
    rw [decide_eq_false]
    rintro ⟨c1, c2⟩
    rw [c1] at g1
    refine h ⟨hp, n, hn, hpos, g1, ?_⟩
    rw [show q + 3 + n.toNat = q + 2 + n.toNat + 1 by omega, g2]
    rcases c2 with c2 | c2
    · rw [c2]; exact .inl rfl
    · rw [c2]; exact .inr rfl
  · rw [if_neg hpos]

theorem rdSearchLoop_step {bs : List ℕ} {q a b c : ℕ} (hbytes : ∀ x ∈ bs, x < 256)
    (hb : bs[q]? = some b) (ha : bs[q + 1]? = some a) (hc : bs[q + 2]? = some c)
    (hi : Spec.rdPair bs q → Spec.rdInside bs q) (h : ¬ Spec.rdHeadAt bs q) (n : ℕ) :
    rdSearchLoop bs (n + 1) a b ((q : ℤ) + 2) = rdSearchLoop bs n c a (((q + 1 : ℕ) : ℤ) + 2) := by
  have ht : rdTest bs a b ((q : ℤ) + 2) = .ok (false, (q : ℤ) + 2) := by
    unfold rdTest
    by_cases hh : a = 127 ∧ b = 127
    · rw [if_pos hh]
      have hp : Spec.rdPair bs q := ⟨by rw [hb, hh.2], by rw [ha, hh.1]⟩
      exact rdCheckheader_nohead hbytes hp (hi hp) h
    · rw [if_neg hh]
  obtain ⟨h1, e1⟩ := List.getElem?_eq_some_iff.mp hc
  have hd : bs.drop (q + 2) = c :: bs.drop (q + 2 + 1) := by rw [List.drop_eq_getElem_cons h1, e1]
  have hr := (drop_one hd).1
  rw [rdSearchLoop, ht]
  simp only
  rw [show ((q : ℤ) + 2) = ((q + 2 : ℕ) : ℤ) by push_cast; rfl, hr]
  simp only [List.getD_cons_zero]
  congr 1

theorem rdHeadAt_len {bs : List ℕ} {q : ℕ} (h : Spec.rdHeadAt bs q) : q + 4 < bs.length := by
  obtain ⟨_, n, _, hpos, h1, h2⟩ := h
  have : ∃ z, bs[q + 3 + n.toNat]? = some z := by rcases h2 with h2 | h2 <;> exact ⟨_, h2⟩
  obtain ⟨z, hz⟩ := this
  obtain ⟨h3, _⟩ := List.getElem?_eq_some_iff.mp hz
  omega

/-- From a place where the last two bytes read are neighbours, the search ends at the next ensemble. -/
theorem rdSearchLoop_next {bs : List ℕ} {q : ℕ} (hbytes : ∀ x ∈ bs, x < 256) (hq : Spec.rdHeadAt bs q) :
    ∀ (d i n a b : ℕ), i + d = q → d < n → bs[i]? = some b → bs[i + 1]? = some a →
    (∀ j, i ≤ j → j < q → ¬ Spec.rdHeadAt bs j) →
    (∀ j, i ≤ j → j < q → Spec.rdPair bs j → Spec.rdInside bs j) →
    rdSearchLoop bs n a b ((i : ℤ) + 2) = .ok (true, (q : ℤ) + 2)
  | 0, i, n, a, b, hi, hn, hb, ha, _, _ => by
    obtain ⟨m, rfl⟩ : ∃ m, n = m + 1 := ⟨n - 1, by omega⟩
    have hiq : i = q := by omega
    subst hiq
    have h1 := hq.1
    have ea : a = 127 := by have := h1.2; rw [ha] at this; exact Option.some.inj this
    have eb : b = 127 := by have := h1.1; rw [hb] at this; exact Option.some.inj this
    rw [rdSearchLoop]
    unfold rdTest
    rw [if_pos ⟨ea, eb⟩, rdCheckheader_head hbytes hq]
  | d + 1, i, n, a, b, hi, hn, hb, ha, hno, hin => by
    obtain ⟨m, rfl⟩ : ∃ m, n = m + 1 := ⟨n - 1, by omega⟩
    have hlen := rdHeadAt_len hq
    have hc : bs[i + 2]? = some (bs[i + 2]'(by omega)) := List.getElem?_eq_getElem _
    rw [rdSearchLoop_step hbytes hb ha hc (hin i le_rfl (by omega)) (hno i le_rfl (by omega))]
    exact rdSearchLoop_next hbytes hq d (i + 1) m _ a (by omega) (by omega) ha hc
      (fun j hj hjq => hno j (by omega) hjq) (fun j hj hjq => hin j (by omega) hjq)

/-- C145 (partial: the next ensemble must not begin one byte further on, bytes `7F x 7F` at the place
where the search begins are excluded, and a `7F 7F` that is no ensemble must announce a length inside the
file): the search for the next ensemble ends exactly at the first place where one begins, if that is
within its limit. -/
theorem rdi_resync_partial {bs : List ℕ} {p q : ℕ} (hbytes : ∀ x ∈ bs, x < 256) (hpq : p ≤ q)
    (hq : Spec.rdHeadAt bs q) (hlim : q < p + 30000) (hone : q ≠ p + 1)
    (hgap : q = p ∨ ¬ (bs[p]? = some 127 ∧ bs[p + 2]? = some 127))
    (hno : ∀ j, p ≤ j → j < q → ¬ Spec.rdHeadAt bs j)
    (hin : ∀ j, p ≤ j → j < q → Spec.rdPair bs j → Spec.rdInside bs j) :
    rdSearch bs p = .ok (true, (q : ℤ) + 2) := by
  have hlen := rdHeadAt_len hq
  have g0 : bs[p]? = some (bs[p]'(by omega)) := List.getElem?_eq_getElem _
  have g1 : bs[p + 1]? = some (bs[p + 1]'(by omega)) := List.getElem?_eq_getElem _
  unfold rdSearch
  rw [rdBytes_two g0 g1]
  simp only [List.getD_cons_zero, List.getD_cons_succ]
  rcases Nat.eq_or_lt_of_le hpq with rfl | hlt
  · have e0 := hq.1.1
    rw [g0] at e0
    have e0 := Option.some.inj e0
    have e1 := hq.1.2
    rw [g1] at e1
    have e1 := Option.some.inj e1
    rw [rdSearchLoop]
    unfold rdTest
    rw [if_pos ⟨e0, e1⟩, rdCheckheader_head hbytes hq]
  · have hgap' : ¬ (bs[p]? = some 127 ∧ bs[p + 2]? = some 127) := by
      rcases hgap with h | h
      · omega
      · exact h
    have g2 : bs[p + 2]? = some (bs[p + 2]'(by omega)) := List.getElem?_eq_getElem _
    have g3 : bs[p + 3]? = some (bs[p + 3]'(by omega)) := List.getElem?_eq_getElem _
    -- the first test
    have t1 : rdTest bs bs[p] bs[p + 1] ((p : ℤ) + 2) = .ok (false, (p : ℤ) + 2) := by
      unfold rdTest
      by_cases hh : bs[p] = 127 ∧ bs[p + 1] = 127
      · rw [if_pos hh]
        have hp : Spec.rdPair bs p := ⟨by rw [g0, hh.1], by rw [g1, hh.2]⟩
        exact rdCheckheader_nohead hbytes hp (hin p le_rfl hlt hp) (hno p le_rfl hlt)
      · rw [if_neg hh]
    have r1 := (drop_one (bs := bs) (p := p + 2) (c := bs[p + 2]) (r := bs.drop (p + 3))
      (List.drop_eq_getElem_cons (by omega))).1
    have r2 := (drop_one (bs := bs) (p := p + 3) (c := bs[p + 3]) (r := bs.drop (p + 4))
      (List.drop_eq_getElem_cons (by omega))).1
    have t2 : rdTest bs bs[p + 2] bs[p] ((p + 3 : ℕ) : ℤ) = .ok (false, ((p + 3 : ℕ) : ℤ)) := by
      unfold rdTest
      rw [if_neg]
      rintro ⟨x, y⟩
      exact hgap' ⟨by rw [g0, y], by rw [g2, x]⟩
    rw [show (30000 : ℕ) = 29998 + 1 + 1 from rfl, rdSearchLoop, t1]
    simp only
    rw [show ((p : ℤ) + 2) = ((p + 2 : ℕ) : ℤ) by push_cast; rfl, r1]
    simp only [List.getD_cons_zero]
    rw [show (((p + 2 : ℕ) : ℤ) + 1) = ((p + 3 : ℕ) : ℤ) by push_cast; ring, rdSearchLoop, t2]
    simp only
    rw [r2]
    simp only [List.getD_cons_zero]
    rw [show (((p + 3 : ℕ) : ℤ) + 1) = ((p + 2 : ℕ) : ℤ) + 2 by push_cast; ring]
    exact rdSearchLoop_next hbytes hq (q - (p + 2)) (p + 2) 29998 _ _ (by omega) (by omega) g2 g3
      (fun j hj hjq => hno j (by omega) hjq) (fun j hj hjq => hin j (by omega) hjq)

/-- C145: what the search accepts is preceded by two bytes `7F` among the last three read, and is followed
by a positive length behind which another `7F 7F` or `7F 79` stands: data are never read from a place
whose length is not confirmed by the record behind it. -/
theorem rdi_resync_sound {bs : List ℕ} {p r : ℕ} (hbytes : ∀ x ∈ bs, x < 256)
    (h : rdSearch bs p = .ok (true, (r : ℤ))) : ∃ a b, bs[r]? = some a ∧ bs[r + 1]? = some b ∧
      a + 256 * b < 32768 ∧ bs[r + (a + 256 * b)]? = some 127 ∧
      (bs[r + (a + 256 * b) + 1]? = some 127 ∨ bs[r + (a + 256 * b) + 1]? = some 121) := by
  have key : ∀ (q : ℤ) (r : ℕ), rdCheckheader bs q = .ok (true, (r : ℤ)) → ∃ a b, bs[r]? = some a ∧
      bs[r + 1]? = some b ∧ a + 256 * b < 32768 ∧ bs[r + (a + 256 * b)]? = some 127 ∧
      (bs[r + (a + 256 * b) + 1]? = some 127 ∨ bs[r + (a + 256 * b) + 1]? = some 121) := by
    intro q r hc
    have two : ∀ (z : ℤ) (c : List ℕ), rdBytes bs z 2 = .ok (some c) →
        ∃ a b, c = [a, b] ∧ bs[z.toNat]? = some a ∧ bs[z.toNat + 1]? = some b := by
      intro z c hz
      unfold rdBytes rdChunk at hz
      simp only at hz
      split at hz
      · simp at hz
      · split at hz
        · simp at hz
        · next h1 h2 =>
          have hz' := Option.some.inj (Except.ok.inj hz)
          rcases hd : bs.drop z.toNat with _ | ⟨a, _ | ⟨b, t⟩⟩
          · rw [hd] at h1; simp at h1
          · rw [hd] at h2; simp at h2
          · refine ⟨a, b, by rw [← hz', hd]; rfl, ?_, ?_⟩
            · have : (bs.drop z.toNat)[0]? = some a := by rw [hd]; rfl
              rwa [List.getElem?_drop, Nat.add_zero] at this
            · have : (bs.drop z.toNat)[1]? = some b := by rw [hd]; rfl
              rwa [List.getElem?_drop] at this
    unfold rdCheckheader rdNeed at hc
    split at hc
    · simp at hc
    · next c hc1 =>
      split at hc1
      · simp at hc1
      · simp at hc1
      · next c' hc2 =>
        have hcc := Except.ok.inj hc1
        subst hcc
        obtain ⟨a, b, rfl, ha, hb⟩ := two _ _ hc2
        have hA : a < 256 := hbytes a (List.mem_of_getElem? ha)
        have hB : b < 256 := hbytes b (List.mem_of_getElem? hb)
        simp only [rdI16_two a b (by omega)] at hc
        by_cases hsmall : 32768 ≤ a + 256 * b
        · simp only [if_pos hsmall] at hc
          rw [if_neg (by omega)] at hc
          simp at hc
        simp only [if_neg hsmall] at hc
        by_cases hpos : 0 < (a : ℤ) + 256 * b
        · rw [if_pos hpos] at hc
          split at hc
          · simp at hc
          · simp at hc
          · next d hd =>
            obtain ⟨x, y, rfl, hx, hy⟩ := two _ _ hd
            have hpr := Prod.mk.inj (Except.ok.inj hc)
            have hqr : q = (r : ℤ) := hpr.2
            subst hqr
            have ht := of_decide_eq_true hpr.1
            simp only [List.getD_cons_zero, List.getD_cons_succ] at ht
            have ez : ((r : ℤ) + ((a : ℤ) + 256 * b)).toNat = r + (a + 256 * b) := by omega
            rw [Int.toNat_natCast] at ha hb
            rw [ez] at hx hy
            refine ⟨a, b, ha, hb, by omega, by rw [hx, ht.1], ?_⟩
            rcases ht.2 with e | e
            · left; rw [hy, e]
            · right; rw [hy, e]
        · rw [if_neg hpos] at hc
          simp at hc
  have loop : ∀ (n a b : ℕ) (q : ℤ), rdSearchLoop bs n a b q = .ok (true, (r : ℤ)) →
      ∃ q', rdCheckheader bs q' = .ok (true, (r : ℤ)) := by
    intro n
    induction n with
    | zero => intro a b q hl; simp [rdSearchLoop] at hl
    | succ n ih =>
      intro a b q hl
      rw [rdSearchLoop] at hl
      split at hl
      · simp at hl
      · next p' ht =>
        have := (Prod.mk.inj (Except.ok.inj hl)).2
        subst this
        unfold rdTest at ht
        split at ht
        · exact ⟨_, ht⟩
        · simp at ht
      · split at hl
        · simp at hl
        · simp at hl
        · exact ih _ _ _ hl
  unfold rdSearch at h
  split at h
  · simp at h
  · simp at h
  · obtain ⟨q', hq'⟩ := loop _ _ _ _ h
    exact key q' r hq'

/-- Ensembles of one block of ambient-sound data (24 bytes). -/
def rsEns : List ℕ :=
  [127, 127, 22, 0, 0, 2, 10, 0, 16, 0, 12, 2, 1, 2, 3, 4, 12, 2, 1, 2, 3, 4, 0, 0]

/-- One byte too many in front of the ensembles. -/
def rsFile : List ℕ := [0] ++ rsEns ++ rsEns ++ rsEns

/-- C145 is false for a single byte too many: the pair formed by the second and the third byte is never
looked at, and the reader begins with the second ensemble, at 25, though one begins at 1. -/
theorem rdi_resync_false : Spec.rdHeadAt rsFile 1 ∧ rdSearch rsFile 0 = .ok (true, 25 + 2) ∧
    rdPosAfter rdYes rsFile 1 rdStart = some (25 + 24) := by
  refine ⟨⟨⟨by decide, by decide⟩, 22, ⟨22, 0, by decide, by decide, by decide⟩, by decide, by decide, .inl (by decide)⟩,
    ?_, ?_⟩ <;> decide +kernel

/-- Four stray bytes that begin with `7F 7F` and a length longer than the rest of the file. -/
def rsFile2 : List ℕ := rsEns ++ [127, 127, 255, 100] ++ rsEns ++ rsEns ++ rsEns

/-- C145 is false for stray bytes `7F 7F` that announce a length beyond the end of the file: the search is
over, and the complete ensembles that follow are not read. -/
theorem rdi_resync_stray_false : Spec.rdHeadAt rsFile2 28 ∧ rdSearch rsFile2 24 = .ok (false, 26 + 25855) ∧
    rdPosAfter rdYes rsFile2 1 rdStart = some 24 ∧ rdPosAfter rdYes rsFile2 2 rdStart = none := by
  refine ⟨⟨⟨by decide, by decide⟩, 22, ⟨22, 0, by decide, by decide, by decide⟩, by decide, by decide, .inl (by decide)⟩,
    ?_, ?_, ?_⟩ <;> decide +kernel

/-- C145 is false for the ensemble in front of the damage: a complete ensemble that is followed by a stray
byte is passed over, and the reader begins with the one at 25. -/
theorem rdi_resync_before_false :
    rdSearch (rsEns ++ [0] ++ rsEns ++ rsEns) 0 = .ok (true, 25 + 2) ∧
    rdPosAfter rdYes (rsEns ++ [0] ++ rsEns ++ rsEns) 1 rdStart = some (25 + 24) ∧
    rdPosAfter rdYes (rsEns ++ rsEns ++ rsEns) 1 rdStart = some 24 := by
  refine ⟨?_, ?_, ?_⟩ <;> decide +kernel

/-- An ensemble of which four bytes are lost, then a whole one, then a waves record. -/
def rsFile3 : List ℕ := rsEns ++ rsEns.take 20 ++ rsEns ++ [127, 121]

/-- The search goes on to the whole ensemble. -/
example : rdSearch rsFile3 (24 : ℕ) = .ok (true, ((44 : ℕ) : ℤ) + 2) :=
  rdi_resync_partial (by decide) (by decide)
    ⟨⟨by decide, by decide⟩, 22, ⟨22, 0, by decide, by decide, by decide⟩, by decide, by decide, .inr (by decide)⟩
    (by decide) (by decide) (by decide)
    (by
      intro j h1 h2 h
      rcases Nat.eq_or_lt_of_le h1 with rfl | h1
      · obtain ⟨_, n, ⟨a, b, ha, hb, e⟩, _, h3, _⟩ := h
        have ha' : some 22 = some a := ha
        have hb' : some 0 = some b := hb
        obtain rfl := Option.some.inj ha'
        obtain rfl := Option.some.inj hb'
        subst e
        exact absurd h3 (by decide)
      · have : ∀ i < 44, 24 < i → ¬ (rsFile3[i]? = some 127 ∧ rsFile3[i + 1]? = some 127) := by decide
        exact this j h2 h1 h.1)
    (by
      intro j h1 h2 h
      rcases Nat.eq_or_lt_of_le h1 with rfl | h1
      · exact ⟨22, ⟨22, 0, by decide, by decide, by decide⟩, .inr (by decide)⟩
      · have : ∀ i < 44, 24 < i → ¬ (rsFile3[i]? = some 127 ∧ rsFile3[i + 1]? = some 127) := by decide
        exact absurd h (this j h2 h1))

end Dolfyn
