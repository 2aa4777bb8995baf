import Verif.Props.NkFile
import Verif.Props.Ad2cpIndex
import Verif.Props.Ad2cpFile
import Verif.Props.RdiInit

/-!
C161: opening and reading a file comes to an end, whatever the file contains. Where it does not, `…_false`.
-/

namespace Dolfyn

/-! ### Nortek -/

/-- A sync byte, an identifier with a size field, and the size 0, anywhere in the file. -/
def Spec.ZeroSize (bytes : List ℕ) : Prop :=
  ∃ pre x r, bytes = pre ++ 165 :: x :: 0 :: 0 :: r ∧ x ≠ 16 ∧ x ≠ 81

theorem findnextAux_split (le doCs : Bool) (sum cs : ℕ) (bytes : List ℕ) (hb : ∀ x ∈ bytes, x < 256) (id : ℕ)
    (r : List ℕ) (h : findnextAux le doCs sum cs bytes = some (id, r)) :
    ∃ pre r', r = 165 :: id :: r' ∧ bytes = pre ++ r := by
  induction bytes using words.induct generalizing sum cs with
  | case1 a b rest ih =>
    have ha : a < 256 := hb a (by simp)
    have hb' : b < 256 := hb b (by simp)
    rw [findnextAux] at h
    rcases ite_eq_iff.mp h with ⟨hc, h⟩ | ⟨-, h⟩
    · obtain ⟨h2, rfl⟩ := Prod.mk.inj (Option.some.inj h)
      have h1 := hc.1
      refine ⟨[], rest, ?_, rfl⟩
      cases le
      · simp only [word, Bool.false_eq_true, if_false] at h1 h2
        rw [show a = 165 by omega, show b = id by omega]
      · simp only [word, if_true] at h1 h2
        rw [show a = 165 by omega, show b = id by omega]
    · obtain ⟨pre, r', h1, h2⟩ := ih _ _ (fun x hx => hb x (by simp [hx])) h
      exact ⟨a :: b :: pre, r', h1, by rw [h2]; rfl⟩
  | case2 t ht =>
    rcases t with _ | ⟨a, _ | ⟨b, r'⟩⟩
    · cases h
    · cases h
    · exact (ht a b r' rfl).elim

theorem nkReadId_split (le : Bool) (bytes tid : List ℕ) (hb : ∀ x ∈ bytes, x < 256) (id : ℕ) (rest : List ℕ)
    (h : nkReadId le bytes = .ok (tid, id, rest)) : ∃ pre, bytes = pre ++ 165 :: id :: rest := by
  rcases bytes with _ | ⟨a, _ | ⟨b, r⟩⟩
  · cases h
  · cases h
  · rw [nkReadId] at h
    split at h
    · split at h
      · cases h
      · rename_i id' r' hf
        obtain ⟨pre, r2, h1, h2⟩ := findnextAux_split _ _ _ _ _ (fun x hx => hb x (by simp [hx])) _ _ hf
        cases h
        refine ⟨a :: b :: pre, ?_⟩
        rw [h2, h1]; rfl
    · next ha =>
      cases h
      exact ⟨[], by rw [not_not.mp ha]; rfl⟩

/-- Without sizes of 0, every record takes the search at least two bytes further. -/
theorem findIdAt_ends (le : Bool) (id : ℕ) (bytes : List ℕ) (hb : ∀ x ∈ bytes, x < 256)
    (hz : ¬ Spec.ZeroSize bytes) : ∀ fuel pos, 0 < fuel → bytes.length < fuel + pos →
    ∃ out, findIdAt le id bytes fuel pos = some out := by
  intro fuel
  induction fuel with
  | zero => intro pos h; omega
  | succ fuel ih =>
    intro pos _ hl
    rw [findIdAt]
    rcases hr : nkReadId le (bytes.drop pos) with e | ⟨tid, i, r⟩
    · exact ⟨_, rfl⟩
    · simp only
      obtain ⟨pre, hs⟩ := nkReadId_split le _ _ (fun x hx => hb x (List.mem_of_mem_drop hx)) _ _ hr
      have hlen := nkReadId_length _ _ _ _ _ hr
      rw [List.length_drop] at hlen
      rcases hn : nkNextPos le i (bytes.length - r.length) r with _ | q
      · exact ⟨_, rfl⟩
      · simp only
        split
        · exact ⟨_, rfl⟩
        · have hq : bytes.length - r.length ≤ q := by
            unfold nkNextPos at hn
            split at hn
            · cases hn; omega
            · next h16 =>
              split at hn
              · cases hn; omega
              · next h81 =>
                split at hn
                · next a b r' =>
                  have hw : 0 < word le a b := by
                    rcases Nat.eq_zero_or_pos (word le a b) with h0 | h0
                    · have hab : a = 0 ∧ b = 0 := by
                        unfold word at h0
                        cases le <;> simp at h0 <;> omega
                      refine absurd ⟨bytes.take pos ++ pre, i, r', ?_, h16, h81⟩ hz
                      rw [List.append_assoc, ← hab.1]
                      nth_rewrite 2 [hab.1]
                      rw [← hab.2, hab.1, hab.2]
                      rw [hab.1, hab.2] at hs
                      rw [← hs, List.take_append_drop]
                    · exact h0
                  cases hn; omega
                · cases hn
          exact ih q (by omega) (by omega)

theorem spacingAt_ends (le : Bool) (id : ℕ) (bytes : List ℕ) (hb : ∀ x ∈ bytes, x < 256)
    (hz : ¬ Spec.ZeroSize bytes) : ∀ k pos i, ∃ out, spacingAt le id bytes k pos i = some out := by
  intro k
  induction k with
  | zero => intro pos i; exact ⟨_, rfl⟩
  | succ k ih =>
    intro pos i
    rw [spacingAt]
    obtain ⟨⟨f, p⟩, h⟩ := findIdAt_ends le id bytes hb hz (bytes.length + 1) pos (by omega) (by omega)
    rw [h]
    cases f
    · exact ⟨_, rfl⟩
    · exact ih p (i + 1)

theorem roomAt_ends (le : Bool) (inst : NkInst) (fs : ℚ) (bytes : List ℕ) (pos : ℕ) (hb : ∀ x ∈ bytes, x < 256)
    (hz : ¬ Spec.ZeroSize bytes) : ∃ out, roomAt le inst fs bytes pos = some out := by
  have key : ∀ id, ∃ out, codeSpacingAt le id bytes pos = some out := by
    intro id
    unfold codeSpacingAt
    obtain ⟨⟨f, p⟩, h⟩ := findIdAt_ends le id bytes hb hz (bytes.length + 1) pos (by omega) (by omega)
    rw [h]
    cases f
    · exact ⟨_, rfl⟩
    · obtain ⟨q, hq⟩ := spacingAt_ends le id bytes hb hz 50 p 0
      simp only
      rw [hq]
      exact ⟨_, rfl⟩
  unfold roomAt
  cases inst
  · obtain ⟨o, h⟩ := key 17
    simp only
    rw [h]
    rcases o with e | d
    · exact ⟨_, rfl⟩
    · simp only; split <;> exact ⟨_, rfl⟩
  · obtain ⟨o, h⟩ := key 32
    simp only
    rw [h]
    rcases o with e | d
    · exact ⟨_, rfl⟩
    · simp only; split <;> exact ⟨_, rfl⟩
  · obtain ⟨o, h⟩ := key 81
    simp only
    rw [h]
    rcases o with e | d
    · exact ⟨_, rfl⟩
    · simp only; split <;> exact ⟨_, rfl⟩

/-- **C161.** Whatever bytes a Nortek file consists of, reading it comes to an end, with data or with an
exception, unless there is a size field of 0 behind a sync byte and an identifier. -/
theorem nortek_ends_partial (doCs : Bool) (utf8 : List ℕ → Option (List Char)) (fl : List ℕ → ℝ) (round : ℝ → ℤ)
    (cosH : ℝ) (bytes : List ℕ) (hb : ∀ x ∈ bytes, x < 256) (hz : ¬ Spec.ZeroSize bytes) :
    ∃ out, nortekRead doCs utf8 fl round cosH bytes = some out := by
  unfold nortekRead
  rcases nkEndian bytes with e | le
  · exact ⟨_, rfl⟩
  rcases nkInit doCs utf8 bytes with e | o
  · exact ⟨_, rfl⟩
  simp only
  obtain ⟨N, hN⟩ := roomAt_ends le o.inst o.fs bytes (bytes.length - o.rest.length) hb hz
  rw [hN]
  rcases N with e | N
  · exact ⟨_, rfl⟩
  simp only
  rcases o.inst with _ | _ | _
  · simp only
    obtain ⟨out, ho⟩ := reader_terminates (nkCfgOf le doCs o) none o.rest
    unfold vecRead
    rw [ho]
    rcases out with e | st
    · exact ⟨_, rfl⟩
    · simp only
      split
      · exact ⟨_, rfl⟩
      · split <;> exact ⟨_, rfl⟩
  · simp only
    obtain ⟨out, ho⟩ := reader_terminates (nkCfgOf le doCs o) none o.rest
    unfold awacRead
    rw [ho]
    rcases out with e | st
    · exact ⟨_, rfl⟩
    · simp only
      split <;> exact ⟨_, rfl⟩
  · simp only
    obtain ⟨out, ho⟩ := reader_terminates (nkCfgOf le doCs o) none o.rest
    unfold vnoRead
    rw [ho]
    rcases out with e | st
    · exact ⟨_, rfl⟩
    · simp only
      split
      · exact ⟨_, rfl⟩
      · split
        · exact ⟨_, rfl⟩
        · split <;> exact ⟨_, rfl⟩

/-- At a record with the size 0 the search stands still for ever. -/
theorem findIdAt_stuck (le : Bool) (id : ℕ) (pre r : List ℕ) (x : ℕ) (h16 : x ≠ 16) (h81 : x ≠ 81) (hid : x ≠ id)
    (fuel : ℕ) : findIdAt le id (pre ++ 165 :: x :: 0 :: 0 :: r) fuel pre.length = none := by
  induction fuel with
  | zero => rfl
  | succ fuel ih =>
    rw [findIdAt, List.drop_left]
    have h1 : nkReadId le (165 :: x :: 0 :: 0 :: r) = .ok ([165, x], x, 0 :: 0 :: r) := by simp [nkReadId]
    rw [h1]
    simp only
    have h2 : nkNextPos le x ((pre ++ 165 :: x :: 0 :: 0 :: r).length - (0 :: 0 :: r).length) (0 :: 0 :: r) =
        some pre.length := by
      unfold nkNextPos
      rw [if_neg h16, if_neg h81]
      simp only [List.length_append, List.length_cons, Option.some.injEq]
      cases le <;> simp [word] <;> omega
    rw [h2]
    simp only
    rw [if_neg hid, ih]

/-- The identifier whose records are counted to make room. -/
def Spec.roomId : NkInst → ℕ
  | .adv => 17
  | .awac => 32
  | .vno => 81

/-- **C161** is false: a file that is fine up to its first data record is never opened if that record has the
size 0. This holds for every valid configuration and whatever follows, and however long one waits. -/
theorem nortek_zero_size_false (utf8 : List ℕ → Option (List Char)) (hu : Spec.Utf8 utf8) (b : Spec.NkBoard)
    (h : Spec.NkSonde) (s : Spec.NkSetup) (cs : Fin 6 → ℕ) (inst : NkInst) (t : List ℕ) (w : List Char)
    (hb : b.Valid) (hs : b.serial = Spec.prefixOf inst ++ t) (hw : firstWord (Spec.ascii b.serial) = .ok w)
    (hn : Spec.beamsOf (Spec.ascii b.serial) h ≤ 9)
    (hm : ∀ k < Spec.beamsOf (Spec.ascii b.serial) h * Spec.beamsOf (Spec.ascii b.serial) h, Spec.I16 (h.mat k))
    (h1 : Spec.Text 6 s.name) (h2 : Spec.Text 80 s.comments) (ha : 0 < s.avgInterval.val) (x : ℕ) (r : List ℕ)
    (h16 : x ≠ 16) (h81 : x ≠ 81) (hid : x ≠ Spec.roomId inst) (fl : List ℕ → ℝ) (round : ℝ → ℤ) (cosH : ℝ) :
    nortekRead false utf8 fl round cosH (Spec.nkFile true (Spec.beamsOf (Spec.ascii b.serial) h) b h s cs
      (165 :: x :: 0 :: 0 :: r)) = none ∧
    ∀ fuel, findIdAt true (Spec.roomId inst) (Spec.nkFile true (Spec.beamsOf (Spec.ascii b.serial) h) b h s cs
      (165 :: x :: 0 :: 0 :: r)) fuel
      (Spec.nkFile true (Spec.beamsOf (Spec.ascii b.serial) h) b h s cs []).length = none := by
  obtain ⟨o, g1, g2, -, -, -, -, -, -, -, g10⟩ := nortek_opens utf8 hu b h s cs (165 :: x :: 0 :: 0 :: r)
    inst t w hb hs hw hn hm h1 h2 ha
  have hp : (Spec.nkFile true (Spec.beamsOf (Spec.ascii b.serial) h) b h s cs (165 :: x :: 0 :: 0 :: r)).length -
      o.rest.length = (Spec.nkFile true (Spec.beamsOf (Spec.ascii b.serial) h) b h s cs []).length := by
    rw [nkFile_split, g10, List.length_append]
    omega
  have hst : ∀ fuel, findIdAt true (Spec.roomId inst) (Spec.nkFile true (Spec.beamsOf (Spec.ascii b.serial) h) b h s cs
      (165 :: x :: 0 :: 0 :: r)) fuel
      (Spec.nkFile true (Spec.beamsOf (Spec.ascii b.serial) h) b h s cs []).length = none := by
    intro fuel
    rw [nkFile_split]
    exact findIdAt_stuck true _ _ r x h16 h81 hid fuel
  refine ⟨?_, hst⟩
  unfold nortekRead
  rw [nkFile_endian, g1]
  simp only
  rw [hp, g2]
  have hc : codeSpacingAt true (Spec.roomId inst) (Spec.nkFile true (Spec.beamsOf (Spec.ascii b.serial) h) b h s cs
      (165 :: x :: 0 :: 0 :: r)) (Spec.nkFile true (Spec.beamsOf (Spec.ascii b.serial) h) b h s cs []).length =
      none := by
    unfold codeSpacingAt
    rw [hst]
  unfold roomAt
  cases inst
  · simp only [Spec.roomId] at hc ⊢; rw [hc]
  · simp only [Spec.roomId] at hc ⊢; rw [hc]
  · simp only [Spec.roomId] at hc ⊢; rw [hc]

/-- A Vector whose first record after the configuration has lost its contents to zeros. -/
example (fl : List ℕ → ℝ) (round : ℝ → ℤ) (cosH : ℝ) :
    nortekRead false exUtf8 fl round cosH (Spec.nkFile true 3 exNkBoard exNkSonde exNkSetup (fun _ => 0)
      [165, 18, 0, 0, 0, 0]) = none := by
  have hfw : firstWord (Spec.ascii exNkBoard.serial) = .ok ['V', 'E', 'C'] := by decide
  have hbe : Spec.beamsOf (Spec.ascii exNkBoard.serial) exNkSonde = 3 := by
    unfold Spec.beamsOf
    rw [hfw]
    rfl
  have := (nortek_zero_size_false exUtf8 exUtf8_ok exNkBoard exNkSonde exNkSetup
    (fun _ => 0) .adv [32, 52, 57, 53, 49] ['V', 'E', 'C'] ⟨by decide, by decide, by decide⟩ rfl hfw
    (by rw [hbe]; omega) (by rw [hbe]; decide) ⟨by decide, by decide⟩ ⟨by decide, by decide⟩ (by decide) 18 [0, 0]
    (by decide) (by decide) (by decide) fl round cosH).1
  rwa [hbe] at this

/-- Garbage without a size of 0 is got over. -/
example : (∀ x ∈ [3, 7, 165, 9, 1, 0, 165, 18, 165, 17, 2], x < 256) ∧
    ¬ Spec.ZeroSize [3, 7, 165, 9, 1, 0, 165, 18, 165, 17, 2] := by
  refine ⟨by decide, ?_⟩
  rintro ⟨pre, x, r, h, -, -⟩
  have : (0 : ℕ) ∈ ([3, 7, 165, 9, 1, 165, 18, 165, 17, 2] : List ℕ) := by
    have hc : List.count 0 [3, 7, 165, 9, 1, 0, 165, 18, 165, 17, 2] = 1 := by decide
    rw [h, List.count_append] at hc
    simp [List.count_cons] at hc
    omega
  simp at this

/-! ### AD2CP -/

/-- The headers the index comes to: the first at the start of the file, the next 10 bytes and the (signed) size
behind the last. -/
inductive Spec.AdHeader (file : List ℕ) : ℕ → Prop
  | start : Spec.AdHeader file 0
  | next (p q : ℕ) : Spec.AdHeader file p → (q : ℤ) = p + 10 + i16 (file.drop p) 4 → Spec.AdHeader file q

theorem adIndexStep_next {file : List ℕ} {pos p : ℕ} {st st' : AdIdxState} {e : Option AdEntry}
    (h : adIndexStep file pos st = .next p st' e) :
    pos + 10 ≤ file.length ∧ (p : ℤ) = pos + 10 + i16 (file.drop pos) 4 := by
  have hs : ∀ (z : ℤ) s1 e1, adSeekTo z s1 e1 = .next p st' e → (p : ℤ) = z := by
    intro z s1 e1 h
    unfold adSeekTo at h
    split at h
    · cases h
    · obtain ⟨rfl, -, -⟩ := AdIdxStep.next.inj h; omega
  unfold adIndexStep at h
  simp only at h
  split at h
  · cases h
  · next hl =>
    rw [List.length_drop] at hl
    refine ⟨by omega, ?_⟩
    split at h
    · split at h
      · cases h
      · split at h
        · cases h
        · exact hs _ _ _ h
    · exact hs _ _ _ h

theorem adIndexLoop_ends {file : List ℕ} (hz : ∀ p, Spec.AdHeader file p → -10 < i16 (file.drop p) 4) (nEns : ℕ) :
    ∀ fuel pos st, Spec.AdHeader file pos → 0 < fuel → file.length < fuel + pos →
    ∃ out, adIndexLoop file nEns fuel pos st = some out := by
  intro fuel
  induction fuel with
  | zero => intro pos st _ h; omega
  | succ fuel ih =>
    intro pos st hp _ hl
    rw [adIndexLoop]
    split
    · rcases hs : adIndexStep file pos st with _ | e | ⟨p, st', e⟩
      · exact ⟨_, rfl⟩
      · exact ⟨_, rfl⟩
      · obtain ⟨h1, h2⟩ := adIndexStep_next hs
        have h3 := hz pos hp
        obtain ⟨out, ho⟩ := ih p st' (.next pos p hp h2) (by omega) (by omega)
        simp only
        rw [ho]
        rcases out with e | l <;> exact ⟨_, rfl⟩
    · exact ⟨_, rfl⟩

/-- The reading of data always moves on. -/
theorem adRecAt_next {readers : ℕ → Option (List AdField)} {file : List ℕ} {p : ℕ} {r : AdRecInfo}
    (h : adRecAt readers file p = .ok r) : p + 10 ≤ r.next ∧ p < file.length := by
  unfold adRecAt at h
  rcases hh : adReadHdr file p with e | ⟨id, sz⟩
  · rw [hh] at h; cases h
  · rw [hh] at h
    replace h : adReadBody readers file p id sz = .ok r := h
    have hp : p < file.length := by
      by_contra hc
      have h0 : file.drop p = [] := List.drop_eq_nil_iff.mpr (by omega)
      unfold adReadHdr at hh
      rw [h0] at hh
      have : adRead adHeader .off [] = .error .ioError := by decide
      rw [this] at hh
      cases hh
    refine ⟨?_, hp⟩
    unfold adReadBody at h
    split at h
    · split at h
      · cases h
      · split at h
        · cases h
        · cases h; simp only; omega
    · split at h
      · split at h
        · cases h
        · cases h; simp only; omega
      · cases h; simp only; omega

theorem adReadLoop_ends {readers : ℕ → Option (List AdField)} {file : List ℕ} (ctx : AdCtx) :
    ∀ fuel p c k, 0 < fuel → file.length < fuel + p →
    ∃ out, adReadLoop (adRecAt readers file) ctx fuel p c k = some out := by
  intro fuel
  induction fuel with
  | zero => intro p c k h; omega
  | succ fuel ih =>
    intro p c k _ hl
    rw [adReadLoop]
    rcases hr : adRecAt readers file p with (_ | e) | r
    · exact ⟨_, rfl⟩
    · exact ⟨_, rfl⟩
    · simp only
      rcases adStore ctx r c k with e | ⟨w, k'⟩
      · exact ⟨_, rfl⟩
      · simp only
        split
        · exact ⟨_, rfl⟩
        · obtain ⟨h1, h2⟩ := adRecAt_next hr
          obtain ⟨out, ho⟩ := ih r.next
            (adAdvance ctx.E ctx.eof ctx.nt r.next (c + ctx.start) - ctx.start) k' (by omega) (by omega)
          rw [ho]
          rcases out with e | l <;> exact ⟨_, rfl⟩

/-- **C161.** Indexing an AD2CP file comes to an end, whatever it contains, unless the index comes to a header whose
size, as a signed number, is −10 or less (see `adIndex_loops_false`); and reading from an index always does. -/
theorem ad2cp_ends_partial (file : List ℕ) (dp : Bool)
    (hz : ∀ p, Spec.AdHeader file p → -10 < i16 (file.drop p) 4) (fuel : ℕ) (hf : file.length < fuel) :
    ∃ out, adOpen fuel file dp = some out := by
  obtain ⟨out, ho⟩ := adIndexLoop_ends hz (2 ^ 32) fuel 0 { N := fun _ => 0, last := fun _ => -1 } .start
    (by omega) (by omega)
  unfold adOpen adIndex
  rw [ho]
  rcases out with e | l <;> exact ⟨_, rfl⟩

/-- **C161.** Reading an opened AD2CP file always comes to an end. -/
theorem ad2cp_read_ends (file : List ℕ) (o : AdOpen) (start : ℕ) (stop : Option ℕ) (fuel : ℕ)
    (hf : file.length < fuel) : ∃ out, adReadOpen fuel file o start stop = some out := by
  unfold adReadOpen adReadfile
  simp only
  generalize (adEnsPos o.idx).length - (if o.whole then 0 else 1) = nt
  split
  · exact ⟨_, rfl⟩
  · split
    · exact ⟨_, rfl⟩
    · next p _ => exact adReadLoop_ends _ fuel p _ _ (by omega) (by omega)

/-- A file of two string records: sizes 2 and 40, the second cut off. -/
example : let file := [165, 10, 160, 16, 2, 0, 0, 0, 0, 0, 1, 2, 165, 10, 160, 16, 40, 0, 0, 0, 0, 0]
    ∀ p, Spec.AdHeader file p → -10 < i16 (file.drop p) 4 := by
  intro file p h
  have : p = 0 ∨ p = 12 ∨ 62 ≤ p := by
    induction h with
    | start => exact Or.inl rfl
    | next p q _ hq ih =>
      rcases ih with rfl | rfl | ih
      · have : i16 (file.drop 0) 4 = 2 := by decide
        omega
      · have : i16 (file.drop 12) 4 = 40 := by decide
        omega
      · have : file.drop p = [] := List.drop_eq_nil_iff.mpr (by simp only [file, List.length_cons, List.length_nil]; omega)
        rw [this] at hq
        have : i16 [] 4 = 0 := by decide
        omega
  rcases this with rfl | rfl | h
  · decide
  · decide
  · have : file.drop p = [] := List.drop_eq_nil_iff.mpr (by simp only [file, List.length_cons, List.length_nil]; omega)
    rw [this]; decide

/-! ### TRDI -/

theorem rdBytes_some {bs : List ℕ} {p : ℤ} {n : ℕ} {c : List ℕ} (h : rdBytes bs p n = .ok (some c)) :
    p < bs.length := by
  unfold rdBytes at h
  simp only at h
  split at h
  · cases h
  · next hc =>
    by_contra hl
    apply hc
    unfold rdChunk
    rw [List.drop_eq_nil_iff.mpr (by omega), List.take_nil]

theorem rdTest_mono {bs : List ℕ} {a b : ℕ} {p q : ℤ} {f : Bool} (h : rdTest bs a b p = .ok (f, q)) : p ≤ q := by
  unfold rdTest at h
  split at h
  · unfold rdCheckheader at h
    split at h
    · cases h
    · simp only at h
      split at h
      · split at h
        · cases h
        · obtain ⟨-, rfl⟩ := Prod.mk.inj (Except.ok.inj h); omega
        · obtain ⟨-, rfl⟩ := Prod.mk.inj (Except.ok.inj h); omega
      · obtain ⟨-, rfl⟩ := Prod.mk.inj (Except.ok.inj h); omega
  · obtain ⟨-, rfl⟩ := Prod.mk.inj (Except.ok.inj h); omega

theorem rdHdrLoop_ends {bs : List ℕ} : ∀ (fuel a b : ℕ) (p : ℤ), 0 < fuel → (bs.length : ℤ) < fuel + p →
    ∃ out, rdHdrLoop bs fuel a b p = some out ∧ ∀ f q, out = .ok (f, q) → p ≤ q := by
  intro fuel
  induction fuel with
  | zero => intro a b p h; omega
  | succ fuel ih =>
    intro a b p _ hl
    rw [rdHdrLoop]
    rcases ht : rdTest bs a b p with e | ⟨f, p'⟩
    · exact ⟨_, rfl, by simp⟩
    · have hm := rdTest_mono ht
      cases f
      · simp only
        rcases hb : rdBytes bs p' 1 with e | _ | c
        · exact ⟨_, rfl, by simp⟩
        · refine ⟨_, rfl, ?_⟩
          intro f q h
          obtain ⟨-, rfl⟩ := Prod.mk.inj (Except.ok.inj h)
          exact hm
        · have := rdBytes_some hb
          push_cast at hl
          obtain ⟨out, h1, h2⟩ := ih (c.getD 0 0) a (p' + 1) (by omega) (by omega)
          refine ⟨out, h1, ?_⟩
          intro f q h
          have := h2 f q h
          omega
      · refine ⟨_, rfl, ?_⟩
        intro f q h
        obtain ⟨-, rfl⟩ := Prod.mk.inj (Except.ok.inj h)
        exact hm

/-- The position where the next header is looked for is not in front of the last one. -/
theorem rdReadHdr_ends {bs : List ℕ} {fuel : ℕ} {p hpos : ℤ} (hp : 0 ≤ p) (hf : bs.length < fuel) :
    ∃ out, rdReadHdr bs fuel p hpos = some out ∧ (∀ q h, out = .eof q h → 0 ≤ q) ∧
      ∀ q h n l, out = .found q h n l → 0 ≤ q := by
  unfold rdReadHdr
  rcases hb : rdBytes bs p 2 with e | _ | c
  · exact ⟨_, rfl, by simp, by simp⟩
  · exact ⟨_, rfl, by simp, by simp⟩
  · simp only
    obtain ⟨out, h1, h2⟩ := rdHdrLoop_ends (bs := bs) fuel (c.getD 0 0) (c.getD 1 0) (p + 2) (by omega) (by omega)
    rw [h1]
    rcases out with e | ⟨f, q⟩
    · exact ⟨_, rfl, by simp, by simp⟩
    · have h3 := h2 f q rfl
      cases f
      · refine ⟨_, rfl, ?_, by simp⟩
        intro q' h e
        obtain ⟨rfl, -⟩ := RdHdrOut.eof.inj e
        omega
      · simp only
        rcases hr : rdHdrRaw bs q with e | ⟨nb, ndat, offs, q'⟩
        · exact ⟨_, rfl, by simp, by simp⟩
        · refine ⟨_, rfl, by simp, ?_⟩
          intro q2 h n l e
          obtain ⟨rfl, -, -, -⟩ := RdHdrOut.found.inj e
          unfold rdHdrRaw at hr
          split at hr
          · cases hr
          · cases hr
          · cases hr
          · split at hr
            · cases hr
            · cases hr; omega
            · cases hr; omega

theorem rdSpacingLoop_ends {bs : List ℕ} {fuel : ℕ} (hf : bs.length < fuel) : ∀ k i p hpos, 0 ≤ p →
    ∃ out, rdSpacingLoop bs fuel k i p hpos = some out := by
  intro k
  induction k with
  | zero => intro i p hpos _; exact ⟨_, rfl⟩
  | succ k ih =>
    intro i p hpos hp
    obtain ⟨out, h1, h2, h3⟩ := rdReadHdr_ends (hpos := hpos) hp hf
    rw [rdSpacingLoop, h1]
    rcases out with ⟨e, hp'⟩ | ⟨q, hp'⟩ | ⟨q, hp', n, l⟩
    · exact ⟨_, rfl⟩
    · exact ih _ _ _ (h2 q hp' rfl)
    · exact ih _ _ _ (h3 q hp' n l rfl)

theorem rdMove_nonneg {bs : List ℕ} : ∀ (ms : List RdMv) (p q : ℤ), 0 ≤ p → rdMove bs p ms = .ok q → 0 ≤ q
  | [], p, q, hp, h => by cases h; exact hp
  | m :: ms, p, q, hp, h => by
    rw [rdMove] at h
    rcases hm : rdMove1 bs p m with e | p'
    · rw [hm] at h; cases h
    · rw [hm] at h
      refine rdMove_nonneg ms p' q ?_ h
      unfold rdMove1 at hm
      split at hm
      · split at hm
        · cases hm
        · cases hm; omega
      · unfold rdSeek at hm
        split at hm
        · cases hm
        · cases hm; omega
      · cases hm; omega

theorem rdFinish_nonneg {bs : List ℕ} {ms : List RdMv} {n : ℤ} {s s' : RdState} (hp : 0 ≤ s.pos)
    (h : rdFinish bs ms n s = .ok s') : 0 ≤ s'.pos := by
  unfold rdFinish at h
  rcases hm : rdMove bs s.pos ms with e | p
  · rw [hm] at h; cases h
  · rw [hm] at h; cases h
    exact rdMove_nonneg ms _ _ hp hm

theorem rdFixed_nonneg {bs : List ℕ} {bb : Bool} {s s' : RdState} (hp : 0 ≤ s.pos)
    (h : rdFixed bs bb s = .ok s') : 0 ≤ s'.pos := by
  unfold rdFixed at h
  rcases hc : rdCfgseg bs bb s with e | t
  · rw [hc] at h; cases h
  · rw [hc] at h
    rw [(rdGrow_keep h).1]
    unfold rdCfgseg at hc
    split at hc
    · cases hc
    · split at hc
      · simp only at hc
        split at hc
        · cases hc
        · next s1 h1 =>
          have := rdFinish_nonneg hp h1
          obtain rfl := Except.ok.inj hc
          cases bb <;> exact this
      · cases hc

theorem rdFixedSl_keep {bs : List ℕ} {s s' : RdState} (hp : 0 ≤ s.pos) (h : rdFixedSl bs s = .ok s') :
    0 ≤ s'.pos ∧ s'.fixoffset = s.fixoffset ∧ s'.source = s.source := by
  unfold rdFixedSl at h
  split at h
  · cases h
  · refine ⟨rdFinish_nonneg (by exact hp) h, ?_⟩
    unfold rdFinish at h
    split at h
    · cases h
    · cases h; exact ⟨rfl, rfl⟩

/-- What looking through the first header leaves alone. -/
theorem rdDoubleLoop_keep {bs : List ℕ} {d : ℤ} : ∀ (os : List ℤ) (f f' : Bool) (s s' : RdState), 0 ≤ s.pos →
    rdDoubleLoop bs d os f s = .ok (f', s') →
    0 ≤ s'.pos ∧ s'.fixoffset = s.fixoffset ∧ (s.source ≠ 2 → s'.source ≠ 2)
  | [], f, f', s, s', hp, h => by
    obtain ⟨-, rfl⟩ := Prod.mk.inj (Except.ok.inj h)
    exact ⟨hp, rfl, id⟩
  | o :: os, f, f', s, s', hp, h => by
    rw [rdDoubleLoop] at h
    split at h
    · cases h
    · next ho =>
      split at h
      · cases h
      · next c hc =>
        simp only at h
        split at h
        · split at h
          · cases h
          · next s2 h2 =>
            have g := rdFixed_good h2
            have k := rdDoubleLoop_keep os _ _ _ _ (rdFixed_nonneg (by simp only; omega) h2) h
            exact ⟨k.1, k.2.1.trans g.2.1.1, fun hs => k.2.2 (g.2.2.2 hs)⟩
        · split at h
          · split at h
            · cases h
            · next s2 h2 =>
              have g := rdFixed_good h2
              have k := rdDoubleLoop_keep os _ _ _ _ (rdFixed_nonneg (by simp only; omega) h2) h
              exact ⟨k.1, k.2.1.trans g.2.1.1, fun hs => k.2.2 (g.2.2.2 hs)⟩
          · split at h
            · split at h
              · cases h
              · next s2 h2 =>
                have g := rdFixedSl_keep (by simp only; omega) h2
                have k := rdDoubleLoop_keep os _ _ _ _ g.1 h
                exact ⟨k.1, k.2.1.trans g.2.1, fun hs => k.2.2 (by rw [g.2.2]; exact hs)⟩
            · split at h
              · have k := rdDoubleLoop_keep os _ _ _ _ (by simp only; omega) h
                exact k
              · have k := rdDoubleLoop_keep os _ _ _ _ (by simp only; omega) h
                exact k

/-- **C161.** Opening a TRDI file always comes to an end. -/
theorem rdi_open_ends (bs : List ℕ) (fuel : ℕ) (hf : bs.length < fuel) : ∃ out, rdInit bs fuel = some out := by
  unfold rdInit
  obtain ⟨out, h1, h2, h3⟩ := rdReadHdr_ends (bs := bs) (p := 0) (hpos := 0) le_rfl hf
  rw [h1]
  rcases out with ⟨e, hp'⟩ | ⟨q, hp'⟩ | ⟨q, hp', n, l⟩
  · exact ⟨_, rfl⟩
  · exact ⟨_, rfl⟩
  · simp only
    split
    · exact ⟨_, rfl⟩
    · rcases hd : rdDoubleLoop bs (q - l.headD 0) l false rdBlank with e | ⟨f, s⟩
      · exact ⟨_, rfl⟩
      · simp only
        obtain ⟨⟨hp2, i⟩, h⟩ := rdSpacingLoop_ends hf 50 0 s.pos hp' (rdDoubleLoop_keep _ _ _ _ _ le_rfl hd).1
        rw [h]
        simp only
        rcases rdMake f s with e | s' <;> exact ⟨_, rfl⟩

theorem rdInit_state {bs : List ℕ} {fuel : ℕ} {s : RdState} {np : ℤ} (h : rdInit bs fuel = some (.ok (s, np))) :
    s.pos = 0 ∧ s.fixoffset = 0 ∧ s.source ≠ 2 := by
  unfold rdInit at h
  split at h
  · cases h
  · cases h
  · cases h
  · split at h
    · cases h
    · split at h
      · cases h
      · next hd =>
        split at h
        · cases h
        · split at h
          · cases h
          · next hm =>
            obtain ⟨rfl, -⟩ := Prod.mk.inj (Except.ok.inj (Option.some.inj h))
            have k := rdDoubleLoop_keep _ _ _ _ _ le_rfl hd
            unfold rdMake at hm
            split at hm
            · cases hm
            · split at hm
              · split at hm
                · cases hm
                · cases hm
                  exact ⟨rfl, k.2.1, k.2.2 (by decide)⟩
              · cases hm
                exact ⟨rfl, k.2.1, k.2.2 (by decide)⟩

/-- The states the reader comes to: an ensemble read, the counters set back. -/
inductive Spec.RdVisits (env : RdEnv) (bs : List ℕ) (s0 : RdState) : RdState → Prop
  | start : Spec.RdVisits env bs s0 s0
  | reset (s) : Spec.RdVisits env bs s0 s →
      Spec.RdVisits env bs s0 { s with ens := rdResetK s.ens, ensBB := rdResetK s.ensBB }
  | read (s s') : Spec.RdVisits env bs s0 s → rdEnsemble env bs s = .ok (some s') → Spec.RdVisits env bs s0 s'

theorem rdSearchLoop_found {bs : List ℕ} : ∀ (n a b : ℕ) (p q : ℤ), rdSearchLoop bs n a b p = .ok (true, q) →
    p ≤ q ∧ ∃ c, rdNeed bs q 2 = .ok c ∧ 0 < rdI16 c := by
  intro n
  induction n with
  | zero => intro a b p q h; cases h
  | succ n ih =>
    intro a b p q h
    rw [rdSearchLoop] at h
    rcases ht : rdTest bs a b p with e | ⟨f, p'⟩
    · rw [ht] at h; cases h
    · have hm := rdTest_mono ht
      rw [ht] at h
      cases f
      · simp only at h
        split at h
        · cases h
        · cases h
        · obtain ⟨h1, h2⟩ := ih _ _ _ _ h
          exact ⟨by omega, h2⟩
      · cases h
        refine ⟨hm, ?_⟩
        unfold rdTest at ht
        split at ht
        · unfold rdCheckheader at ht
          split at ht
          · cases ht
          · next c hc =>
            simp only at ht
            split at ht
            · next hpos =>
              split at ht
              · cases ht
              · cases ht
              · obtain ⟨-, rfl⟩ := Prod.mk.inj (Except.ok.inj ht)
                exact ⟨c, hc, hpos⟩
            · cases ht
        · cases ht

theorem rdSearch_found {bs : List ℕ} {p q : ℤ} (h : rdSearch bs p = .ok (true, q)) :
    p + 2 ≤ q ∧ p < bs.length ∧ ∃ c, rdNeed bs q 2 = .ok c ∧ 0 < rdI16 c := by
  unfold rdSearch at h
  split at h
  · cases h
  · cases h
  · next c hc =>
    obtain ⟨h1, h2⟩ := rdSearchLoop_found _ _ _ _ _ h
    exact ⟨h1, rdBytes_some hc, h2⟩

theorem rdHdrseg_nb {bs : List ℕ} {p nb q : ℤ} {offs : List ℤ} {c : List ℕ} (h : rdHdrseg bs p = .ok (nb, offs, q))
    (hc : rdNeed bs p 2 = .ok c) : nb = rdI16 c := by
  unfold rdHdrseg at h
  split at h
  · cases h
  · next hr =>
    split at h
    · cases h
    · obtain ⟨rfl, -⟩ := Prod.mk.inj (Except.ok.inj h)
      unfold rdHdrRaw at hr
      rw [hc] at hr
      split at hr
      · cases hr
      · cases hr
      · cases hr
      · next h1 _ _ =>
        cases h1
        split at hr
        · cases hr
        · cases hr; rfl
        · cases hr; rfl

/-- Without WinRiver data an ensemble takes the reader on by at least one byte. -/
theorem rdEnsemble_step {env : RdEnv} {bs : List ℕ} {s s' : RdState} (hf : s.fixoffset = 0) (hs : s.source ≠ 2)
    (hv : s.vmdasSearch = false) (h : rdEnsemble env bs s = .ok (some s')) (hw : s'.winrivprob = false) :
    s.pos < s'.pos ∧ s.pos < bs.length ∧ s'.fixoffset = 0 ∧ s'.source ≠ 2 ∧ s'.vmdasSearch = false := by
  unfold rdEnsemble at h
  split at h
  · cases h
  · cases h
  · next p hp =>
    obtain ⟨h1, h2, c, h3, h4⟩ := rdSearch_found hp
    rcases hb : rdBody env bs p s with e | t
    · rw [hb] at h; cases h
    · rw [hb] at h
      obtain rfl := Option.some.inj (Except.ok.inj h)
      rcases hh : rdHdrseg bs p with e | ⟨nb, offs, q⟩
      · unfold rdBody at hb; rw [hh] at hb; cases hb
      · have hnb := rdHdrseg_nb hh h3
        obtain ⟨k1, k2, k3, k4⟩ := rdi_in_step_partial hf hs hh (Or.inl hv) hb hw
        exact ⟨by omega, h2, k2, k3, k4.trans hv⟩

theorem rdBufferLoop_ends {env : RdEnv} {bs : List ℕ} {s0 : RdState}
    (hw : ∀ t, Spec.RdVisits env bs s0 t → t.winrivprob = false) : ∀ (fuel : ℕ) (s : RdState), Spec.RdVisits env bs s0 s →
    s.fixoffset = 0 → s.source ≠ 2 → s.vmdasSearch = false → 0 < fuel → (bs.length : ℤ) < fuel + s.pos →
    ∃ out, rdBufferLoop env bs fuel s = some out ∧ ∀ s', out = .ok (some s') → Spec.RdVisits env bs s0 s' ∧
      s'.fixoffset = 0 ∧ s'.source ≠ 2 ∧ s'.vmdasSearch = false ∧ s.pos ≤ s'.pos := by
  intro fuel
  induction fuel with
  | zero => intro s _ _ _ _ h; omega
  | succ fuel ih =>
    intro s hr hf hs hv _ hl
    rw [rdBufferLoop]
    split
    · exact ⟨_, rfl, by simp⟩
    · split
      · rcases he : rdEnsemble env bs s with e | _ | s'
        · exact ⟨_, rfl, by simp⟩
        · exact ⟨_, rfl, by simp⟩
        · have hr' : Spec.RdVisits env bs s0 s' := .read s s' hr he
          obtain ⟨k1, k2, k3, k4, k5⟩ := rdEnsemble_step hf hs hv he (hw s' hr')
          push_cast at hl
          obtain ⟨out, h1, h2⟩ := ih s' hr' k3 k4 k5 (by omega) (by omega)
          refine ⟨out, h1, ?_⟩
          intro t ht
          obtain ⟨a, b, c, d, e⟩ := h2 t ht
          exact ⟨a, b, c, d, by omega⟩
      · refine ⟨_, rfl, ?_⟩
        intro t ht
        obtain rfl := Option.some.inj (Except.ok.inj ht)
        exact ⟨hr, hf, hs, hv, le_rfl⟩

theorem rdLoad_ends {env : RdEnv} {bs : List ℕ} {s0 : RdState} {fuel : ℕ} (hl : bs.length < fuel)
    (hw : ∀ t, Spec.RdVisits env bs s0 t → t.winrivprob = false) : ∀ n (s : RdState), Spec.RdVisits env bs s0 s →
    s.fixoffset = 0 → s.source ≠ 2 → s.vmdasSearch = false → 0 ≤ s.pos →
    ∃ out, rdLoad env bs fuel n s = some out := by
  intro n
  induction n with
  | zero => intro s _ _ _ _ _; exact ⟨_, rfl⟩
  | succ n ih =>
    intro s hr hf hs hv hp
    rw [rdLoad]
    unfold rdBuffer
    obtain ⟨out, h1, h2⟩ := rdBufferLoop_ends hw fuel { s with ens := rdResetK s.ens, ensBB := rdResetK s.ensBB }
      (.reset s hr) hf hs hv (by omega) (by simp only; omega)
    rw [h1]
    rcases out with e | _ | s'
    · exact ⟨_, rfl⟩
    · exact ⟨_, rfl⟩
    · obtain ⟨a, b, c, d, e⟩ := h2 s' rfl
      obtain ⟨out, h3⟩ := ih s' a b c d (by simp only at e; omega)
      simp only
      rw [h3]
      rcases out with e | ⟨m, t⟩ <;> exact ⟨_, rfl⟩

/-- **C161.** Reading a TRDI file comes to an end, whatever it contains, if it was not written by VMDAS and the
reader meets no WinRiver data. -/
theorem rdi_ends_partial (env : RdEnv) (bs : List ℕ) (fuel : ℕ) (hf : bs.length < fuel)
    (hw : ∀ s np, rdInit bs fuel = some (.ok (s, np)) →
      s.vmdasSearch = false ∧ ∀ t, Spec.RdVisits env bs s t → t.winrivprob = false) :
    ∃ out, rdReadAll env bs fuel = some out := by
  obtain ⟨out, h⟩ := rdi_open_ends bs fuel hf
  unfold rdReadAll
  rw [h]
  rcases out with e | ⟨s, np⟩
  · exact ⟨_, rfl⟩
  · obtain ⟨h1, h2⟩ := hw s np h
    obtain ⟨k1, k2, k3⟩ := rdInit_state h
    obtain ⟨out, h3⟩ := rdLoad_ends hf h2 np.toNat s .start k2 k3 h1 (by omega)
    simp only
    rw [h3]
    rcases out with e | ⟨m, t⟩ <;> exact ⟨_, rfl⟩

/-! ### Files without WinRiver and VMDAS identifiers -/

/-- Nowhere in the file do two neighbouring bytes spell the identifier of WinRiver or VMDAS data. -/
def Spec.Unaided (bs : List ℕ) : Prop :=
  ∀ pre a b r, bs = pre ++ a :: b :: r → a + 256 * b ∉ [8192, 8226, 8448, 8449, 8450, 8451, 8452]

theorem rdNeed_two {bs : List ℕ} {p : ℤ} {c : List ℕ} (h : rdNeed bs p 2 = .ok c) :
    ∃ pre a b r, bs = pre ++ a :: b :: r ∧ leNat c = a + 256 * b := by
  unfold rdNeed rdBytes at h
  simp only at h
  have hc : c = (bs.drop p.toNat).take 2 ∧ 2 ≤ c.length := by
    split at h
    · cases h
    · cases h
    · next d hd =>
      obtain rfl := Except.ok.inj h
      split at hd
      · cases hd
      · split at hd
        · cases hd
        · next hl =>
          obtain rfl := Option.some.inj (Except.ok.inj hd)
          exact ⟨rfl, by omega⟩
  obtain ⟨h1, h2⟩ := hc
  rcases hd : bs.drop p.toNat with _ | ⟨a, _ | ⟨b, r⟩⟩
  · rw [hd] at h1; rw [h1] at h2; simp at h2
  · rw [hd] at h1; rw [h1] at h2; simp at h2
  · refine ⟨bs.take p.toNat, a, b, r, ?_, ?_⟩
    · rw [← hd, List.take_append_drop]
    · rw [h1, hd]; simp [leNat]

theorem rdBlock_unaided {env : RdEnv} {bs : List ℕ} (hu : Spec.Unaided bs) {s s' : RdState} {fail : Bool}
    (hs : s.source ≠ 2) (h : rdBlock env bs s = .ok (s', fail)) :
    s'.winrivprob = s.winrivprob ∧ s'.source ≠ 2 := by
  unfold rdBlock at h
  split at h
  · cases h
  · next c hc =>
    obtain ⟨pre, a, b, r, hb, hl⟩ := rdNeed_two hc
    have hn := hu pre a b r hb
    rw [← hl] at hn
    have g := (rdi_reader_exact (by rintro e; simp [e] at hn) (by
      intro e
      simp only [rdWinriverIds, List.mem_cons, List.not_mem_nil, or_false] at e hn
      omega) (by exact hs) h).2
    exact ⟨g.2.2.1, g.2.2.2 hs⟩

theorem rdBlocks_unaided {env : RdEnv} {bs : List ℕ} (hu : Spec.Unaided bs) : ∀ (os : List ℤ) (bo : ℤ) (s s' : RdState),
    s.source ≠ 2 → rdBlocks env bs os bo s = .ok s' → s'.winrivprob = s.winrivprob ∧ s'.source ≠ 2
  | [], bo, s, s', hs, h => by
    rw [rdBlocks] at h
    split at h
    · cases h
    · next t hb => cases h; exact rdBlock_unaided hu hs hb
    · next t hb =>
      have g := rdBlock_unaided hu hs hb
      split at h
      · cases h; exact g
      · rw [rdAdjust_pos h]; exact g
  | o :: os, bo, s, s', hs, h => by
    rw [rdBlocks] at h
    split at h
    · cases h
    · next t hb => cases h; exact rdBlock_unaided hu hs hb
    · next t hb =>
      have g := rdBlock_unaided hu hs hb
      split at h
      · cases h
      · next u hu' =>
        have hp := rdAdjust_pos hu'
        have k := rdBlocks_unaided hu os o u s' (by rw [hp]; exact g.2) h
        exact ⟨k.1.trans (by rw [hp]; exact g.1), k.2⟩

theorem rdEnsemble_unaided {env : RdEnv} {bs : List ℕ} (hu : Spec.Unaided bs) {s s' : RdState}
    (hs : s.source ≠ 2) (hv : s.vmdasSearch = false) (h : rdEnsemble env bs s = .ok (some s')) :
    s'.winrivprob = s.winrivprob ∧ s'.source ≠ 2 ∧ s'.vmdasSearch = false := by
  unfold rdEnsemble at h
  split at h
  · cases h
  · cases h
  · next p hp =>
    rcases hb : rdBody env bs p s with e | t
    · rw [hb] at h; cases h
    · rw [hb] at h
      obtain rfl := Option.some.inj (Except.ok.inj h)
      unfold rdBody at hb
      split at hb
      · cases hb
      · split at hb
        · cases hb
        · next s1 h1 =>
          have g := rdBlocks_unaided hu _ _ _ _ (by exact hs) h1
          have k := rdBlocks_keep _ _ _ _ h1
          have k3 : s1.vmdasSearch = false := k.2.2.1.trans hv
          split at hb
          · cases hb
          · next s2 h2 =>
            have h21 : s2 = s1 := by
              unfold rdVmdasAgain at h2
              rw [if_neg (by rw [k3]; simp)] at h2
              exact (Except.ok.inj h2).symm
            subst h21
            have hs' := rdCheckOffset_ok hb
            rw [hs']
            exact ⟨g.1, g.2, k3⟩

theorem rdDoubleLoop_unaided {bs : List ℕ} (hu : Spec.Unaided bs) {d : ℤ} : ∀ (os : List ℤ) (f f' : Bool)
    (s s' : RdState), rdDoubleLoop bs d os f s = .ok (f', s') →
    s'.vmdasSearch = s.vmdasSearch ∧ s'.winrivprob = s.winrivprob
  | [], f, f', s, s', h => by
    obtain ⟨-, rfl⟩ := Prod.mk.inj (Except.ok.inj h)
    exact ⟨rfl, rfl⟩
  | o :: os, f, f', s, s', h => by
    rw [rdDoubleLoop] at h
    split at h
    · cases h
    · split at h
      · cases h
      · next c hc =>
        obtain ⟨pre, a, b, r, hb, hl⟩ := rdNeed_two hc
        have hn := hu pre a b r hb
        rw [← hl] at hn
        simp only at h
        split at h
        · split at h
          · cases h
          · next s2 h2 =>
            have g := rdFixed_good h2
            have k := rdDoubleLoop_unaided hu os _ _ _ _ h
            exact ⟨k.1.trans g.2.1.2.2.1, k.2.trans g.2.2.1⟩
        · split at h
          · split at h
            · cases h
            · next s2 h2 =>
              have g := rdFixed_good h2
              have k := rdDoubleLoop_unaided hu os _ _ _ _ h
              exact ⟨k.1.trans g.2.1.2.2.1, k.2.trans g.2.2.1⟩
          · split at h
            · split at h
              · cases h
              · next s2 h2 =>
                have g := rdFixedSl_good h2
                have k := rdDoubleLoop_unaided hu os _ _ _ _ h
                exact ⟨k.1.trans g.2.1.2.2.1, k.2.trans g.2.2.1⟩
            · split at h
              · next h8 => rw [h8] at hn; simp at hn
              · have k := rdDoubleLoop_unaided hu os _ _ _ _ h
                exact k

theorem rdInit_unaided {bs : List ℕ} (hu : Spec.Unaided bs) {fuel : ℕ} {s : RdState} {np : ℤ}
    (h : rdInit bs fuel = some (.ok (s, np))) : s.vmdasSearch = false ∧ s.winrivprob = false := by
  unfold rdInit at h
  split at h
  · cases h
  · cases h
  · cases h
  · split at h
    · cases h
    · split at h
      · cases h
      · next hd =>
        split at h
        · cases h
        · split at h
          · cases h
          · next hm =>
            obtain ⟨rfl, -⟩ := Prod.mk.inj (Except.ok.inj (Option.some.inj h))
            have k := rdDoubleLoop_unaided hu _ _ _ _ _ hd
            unfold rdMake at hm
            split at hm
            · cases hm
            · split at hm
              · split at hm
                · cases hm
                · cases hm
                  exact k
              · cases hm
                exact k

/-- **C161.** Reading a TRDI file comes to an end, whatever it contains, if nowhere in it two neighbouring bytes
spell an identifier of WinRiver or VMDAS. -/
theorem rdi_ends_unaided (env : RdEnv) (bs : List ℕ) (hu : Spec.Unaided bs) (fuel : ℕ) (hf : bs.length < fuel) :
    ∃ out, rdReadAll env bs fuel = some out := by
  refine rdi_ends_partial env bs fuel hf ?_
  intro s np h
  obtain ⟨h1, h2⟩ := rdInit_unaided hu h
  refine ⟨h1, ?_⟩
  intro t ht
  have : t.winrivprob = false ∧ t.source ≠ 2 ∧ t.vmdasSearch = false := by
    induction ht with
    | start => exact ⟨h2, (rdInit_state h).2.2, h1⟩
    | reset s _ ih => exact ih
    | read s s' _ he ih =>
      obtain ⟨a, b, c⟩ := rdEnsemble_unaided hu ih.2.1 ih.2.2 he
      exact ⟨a.trans ih.1, b, c⟩
  exact this.1

/-- A file of ensembles without any byte 32 or 33 is such a file. -/
theorem unaided_of_bytes {bs : List ℕ} (h : ∀ x ∈ bs, x < 256 ∧ x ≠ 32 ∧ x ≠ 33) : Spec.Unaided bs := by
  intro pre a b r hb
  have ha := h a (by rw [hb]; simp)
  have hb' := h b (by rw [hb]; simp)
  simp only [List.mem_cons, List.not_mem_nil, or_false]
  omega

example : Spec.Unaided (Spec.rdFile [rdExampleEns, rdExampleEns, rdExampleEns]) :=
  unaided_of_bytes (by decide +kernel)

/-! ### A file that is read for ever -/

/-- A WinRiver II ensemble (`wrEns 0`) in which one byte of the header is wrong: the offset of its second data type
is 40, in the next ensemble, instead of 16. -/
def wrBad : List ℕ :=
  [127, 127, 22, 0, 0, 2, 10, 0, 40, 0, 12, 2, 1, 2, 3, 4, 34, 32, 1, 0, 0, 0, 0, 0]

/-- A regular ensemble, the one above, and four like it without the error. -/
def rdHang : List ℕ := rdExampleEns.bytes ++ wrBad ++ wrEns 0 ++ wrEns 0 ++ wrEns 0 ++ wrEns 0

theorem rdHdrLoop_more {bs : List ℕ} {m : ℕ} : ∀ (n a b : ℕ) (p : ℤ) (out : Except Err (Bool × ℤ)),
    rdHdrLoop bs n a b p = some out → rdHdrLoop bs (n + m) a b p = some out := by
  intro n
  induction n with
  | zero => intro a b p out h; cases h
  | succ n ih =>
    intro a b p out h
    rw [Nat.add_right_comm, rdHdrLoop]
    rw [rdHdrLoop] at h
    rcases ht : rdTest bs a b p with e | ⟨f, p'⟩
    · rw [ht] at h; exact h
    · rw [ht] at h
      cases f
      · simp only at h ⊢
        rcases hb : rdBytes bs p' 1 with e | _ | c
        · rw [hb] at h; exact h
        · rw [hb] at h; exact h
        · rw [hb] at h; exact ih _ _ _ _ h
      · exact h

theorem rdReadHdr_more {bs : List ℕ} {n m : ℕ} {p hp : ℤ} {out : RdHdrOut} (h : rdReadHdr bs n p hp = some out) :
    rdReadHdr bs (n + m) p hp = some out := by
  unfold rdReadHdr at h ⊢
  rcases hb : rdBytes bs p 2 with e | _ | c
  · rw [hb] at h; exact h
  · rw [hb] at h; exact h
  · rw [hb] at h
    simp only at h ⊢
    rcases hl : rdHdrLoop bs n (c.getD 0 0) (c.getD 1 0) (p + 2) with _ | o
    · rw [hl] at h; cases h
    · rw [hl] at h; rw [rdHdrLoop_more _ _ _ _ _ hl]; exact h

theorem rdSpacingLoop_more {bs : List ℕ} {n m : ℕ} : ∀ (k i : ℕ) (p hp : ℤ) (out : ℤ × ℕ),
    rdSpacingLoop bs n k i p hp = some out → rdSpacingLoop bs (n + m) k i p hp = some out := by
  intro k
  induction k with
  | zero => intro i p hp out h; exact h
  | succ k ih =>
    intro i p hp out h
    rw [rdSpacingLoop] at h ⊢
    rcases hr : rdReadHdr bs n p hp with _ | o
    · rw [hr] at h; cases h
    · rw [rdReadHdr_more hr]
      rw [hr] at h
      rcases o with ⟨e, hp'⟩ | ⟨q, hp'⟩ | ⟨q, hp', x, l⟩
      · exact h
      · exact ih _ _ _ _ h
      · exact ih _ _ _ _ h

theorem rdInit_more {bs : List ℕ} {n m : ℕ} {out : Except Err (RdState × ℤ)} (h : rdInit bs n = some out) :
    rdInit bs (n + m) = some out := by
  unfold rdInit at h ⊢
  rcases hr : rdReadHdr bs n 0 0 with _ | o
  · rw [hr] at h; cases h
  · rw [rdReadHdr_more hr]
    rw [hr] at h
    rcases o with ⟨e, hp'⟩ | ⟨q, hp'⟩ | ⟨q, hp', x, l⟩
    · exact h
    · exact h
    · simp only at h ⊢
      split at h
      · next hc => rw [if_pos hc]; exact h
      · next hc =>
        rw [if_neg hc]
        rcases hd : rdDoubleLoop bs (q - l.headD 0) l false rdBlank with e | ⟨f, s⟩
        · rw [hd] at h; exact h
        · rw [hd] at h
          simp only at h ⊢
          rcases hs : rdSpacingLoop bs n 50 0 s.pos hp' with _ | ⟨a, b⟩
          · rw [hs] at h; cases h
          · rw [rdSpacingLoop_more _ _ _ _ _ hs]
            rw [hs] at h
            exact h

/-- The reader after opening, after the regular ensemble, and after the wrong one. -/
def rdHang0 : RdState :=
  ⟨0, 59, 0, false, 0, false, false, some ⟨16, 1628, 1⟩, none, none, none, some (1, -1), none, 0,
    [(0, 14), (128, 75), (256, 142), (524, 152)]⟩

def rdHang1 : RdState :=
  ⟨160, 6, 0, false, 0, false, false, some ⟨16, 1628, 1⟩, none, none, none, some (1, 0), none, 158,
    [(0, 14), (128, 75), (256, 142), (524, 152)]⟩

def rdHang2 : RdState :=
  ⟨184, 6, -24, true, 3, false, false, some ⟨16, 1628, 1⟩, none, none, some .winriver2, some (1, -1), none, 22,
    [(0, 14), (128, 75), (256, 142), (524, 152)]⟩

/-- **C161** is false for WinRiver II files: the correction of the position found at the wrong ensemble (24 bytes
back) is applied to every ensemble after it, so that the reader comes back to the same place. As the ensemble there
has no variable leader, reading never ends. -/
theorem rdi_hangs_false : ∀ fuel, rdReadAll rdYes rdHang fuel = none := by
  have h0 : rdInit rdHang 400 = some (.ok (rdHang0, 6)) := by decide +kernel
  have e1 : rdEnsemble rdYes rdHang rdHang0 = .ok (some rdHang1) := by decide +kernel
  have e2 : rdEnsemble rdYes rdHang { rdHang1 with ens := some (1, -1) } = .ok (some rdHang2) := by decide +kernel
  have e3 : rdEnsemble rdYes rdHang rdHang2 = .ok (some rdHang2) := by decide +kernel
  have hs : ∀ n, rdBufferLoop rdYes rdHang n rdHang2 = none := by
    intro n
    induction n with
    | zero => rfl
    | succ n ih =>
      rw [rdBufferLoop, e3]
      show (if (-1 : ℤ) < 0 then rdBufferLoop rdYes rdHang n rdHang2 else _) = none
      rw [if_pos (by decide), ih]
  intro fuel
  unfold rdReadAll
  rcases hi : rdInit rdHang fuel with _ | out
  · rfl
  · have a1 := rdInit_more (m := 400) hi
    have a2 := rdInit_more (m := fuel) h0
    rw [Nat.add_comm, a1] at a2
    obtain rfl := Option.some.inj a2
    simp only
    have hl : rdLoad rdYes rdHang fuel (6 : ℤ).toNat rdHang0 = none := by
      show rdLoad rdYes rdHang fuel (5 + 1) rdHang0 = none
      rw [rdLoad]
      have hb0 : rdBuffer rdYes rdHang fuel rdHang0 = none ∨
          rdBuffer rdYes rdHang fuel rdHang0 = some (.ok (some rdHang1)) := by
        show rdBufferLoop rdYes rdHang fuel rdHang0 = none ∨
          rdBufferLoop rdYes rdHang fuel rdHang0 = some (.ok (some rdHang1))
        rcases fuel with _ | _ | n
        · exact Or.inl rfl
        · left
          rw [rdBufferLoop, e1]
          rfl
        · right
          rw [rdBufferLoop, e1]
          show (if (-1 : ℤ) < 0 then rdBufferLoop rdYes rdHang (n + 1) rdHang1 else _) = _
          rw [if_pos (by decide), rdBufferLoop]
          rfl
      rcases hb0 with hb0 | hb0
      · rw [hb0]
      · rw [hb0]
        simp only
        have hl2 : rdLoad rdYes rdHang fuel (4 + 1) rdHang1 = none := by
          rw [rdLoad]
          have : rdBuffer rdYes rdHang fuel rdHang1 = none := by
            show rdBufferLoop rdYes rdHang fuel { rdHang1 with ens := some (1, -1) } = none
            rcases fuel with _ | n
            · rfl
            · rw [rdBufferLoop, e2]
              show (if (-1 : ℤ) < 0 then rdBufferLoop rdYes rdHang n rdHang2 else _) = _
              rw [if_pos (by decide), hs]
          rw [this]
        rw [hl2]
    rw [hl]

end Dolfyn
