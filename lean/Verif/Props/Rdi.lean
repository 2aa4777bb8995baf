import Verif.Model.Rdi
import Mathlib.Tactic.Linarith
import Mathlib.Tactic.Ring

/-!
Properties of the TRDI reader: byte accounting and position after an ensemble (C50).
-/

namespace Dolfyn

/-! ### Steps -/

/-- Bytes a step moves by (a string read is bounded by the file and is excluded below). -/
def RdMv.size : RdMv → ℤ
  | .rd n => n
  | .sk z => z
  | .rs n => n

/-- Not a string read. -/
def RdMv.hard : RdMv → Bool
  | .rs _ => false
  | _ => true

/-- Sum of the sizes. -/
def mvSum (ms : List RdMv) : ℤ := (ms.map RdMv.size).sum

theorem rdSeek_ok {p z q : ℤ} (h : rdSeek p z = .ok q) : q = p + z := by
  unfold rdSeek at h
  split at h
  · exact absurd h (by simp)
  · exact (Except.ok.inj h).symm

theorem rdMove_pos {bs : List ℕ} : ∀ (ms : List RdMv) (p q : ℤ), (∀ m ∈ ms, m.hard = true) →
    rdMove bs p ms = .ok q → q = p + mvSum ms
  | [], p, q, _, h => by
    have := Except.ok.inj h
    simp [mvSum, this]
  | m :: ms, p, q, hh, h => by
    rw [rdMove] at h
    have hm := hh m (by simp)
    have hms : ∀ m ∈ ms, m.hard = true := fun x hx => hh x (by simp [hx])
    have hs : mvSum (m :: ms) = m.size + mvSum ms := by simp [mvSum]
    cases hx : rdMove1 bs p m with
    | error e => rw [hx] at h; exact absurd h (by simp)
    | ok p' =>
      rw [hx] at h
      have ih := rdMove_pos ms p' q hms h
      have hp : p' = p + m.size := by
        cases m with
        | rd n =>
          simp only [rdMove1] at hx
          cases hy : rdNeed bs p n with
          | error e => rw [hy] at hx; exact absurd hx (by simp)
          | ok c => rw [hy] at hx; exact (Except.ok.inj hx).symm
        | sk z => exact rdSeek_ok hx
        | rs n => simp [RdMv.hard] at hm
      rw [ih, hp, hs]; ring

theorem rdFinish_pos {bs : List ℕ} {ms : List RdMv} {n : ℤ} {s s' : RdState}
    (hm : ∀ m ∈ ms, m.hard = true) (h : rdFinish bs ms n s = .ok s') :
    s' = { s with pos := s.pos + mvSum ms, nbyte := n } := by
  unfold rdFinish at h
  cases hx : rdMove bs s.pos ms with
  | error e => rw [hx] at h; exact absurd h (by simp)
  | ok p =>
    rw [hx] at h
    rw [← rdMove_pos ms _ _ hm hx]
    exact (Except.ok.inj h).symm

/-! ### Steps of the readers add up to the reported counts -/

theorem rdFixed_sum (ver : ℕ) : mvSum (rdFixedMoves ver) = rdFixedNbyte ver := by
  unfold rdFixedMoves rdFixedNbyte mvSum
  split_ifs <;> simp [RdMv.size] <;> omega

theorem rdFixed_hard (ver : ℕ) : ∀ m ∈ rdFixedMoves ver, m.hard = true := by
  unfold rdFixedMoves
  split_ifs <;> decide

theorem rdVar_sum (f : RdFixed) : mvSum (rdVarMoves ++ (rdVarExtra f).1) = 40 + (rdVarExtra f).2 := by
  unfold rdVarMoves rdVarExtra mvSum
  split_ifs <;> simp [RdMv.size]

theorem rdVar_hard (f : RdFixed) : ∀ m ∈ rdVarMoves ++ (rdVarExtra f).1, m.hard = true := by
  unfold rdVarMoves rdVarExtra
  split_ifs <;> decide

theorem rdBottom_sum (ver : ℕ) (w : Bool) {source : ℕ} (h : source ≠ 2) :
    mvSum (rdBottomMoves source ver w) = rdBottomNbyte ver w - 2 := by
  unfold rdBottomMoves rdBottomNbyte mvSum
  rw [if_neg h, if_neg h]
  split_ifs <;> simp [RdMv.size] <;> omega

theorem rdBottom_hard (source ver : ℕ) (w : Bool) : ∀ m ∈ rdBottomMoves source ver w, m.hard = true := by
  unfold rdBottomMoves
  split_ifs <;> decide

/-- C50: in a WinRiver file (`_source == 2`) the bottom-track reader moves 12 bytes less than it
reports, whatever the firmware. -/
theorem rdi_bottom_winriver_short (ver : ℕ) (w : Bool) :
    mvSum (rdBottomMoves 2 ver w) = rdBottomNbyte ver w - 2 - 12 := by
  unfold rdBottomMoves rdBottomNbyte mvSum
  rw [if_pos rfl, if_pos rfl]
  split_ifs <;> simp [RdMv.size] <;> omega

/-! ### Every reader -/

/-- What no reader touches, and that the WinRiver flag is never cleared. -/
def RdKeep (s s' : RdState) : Prop :=
  s'.fixoffset = s.fixoffset ∧ s'.hdrNbyte = s.hdrNbyte ∧ s'.vmdasSearch = s.vmdasSearch ∧
    (s.winrivprob = true → s'.winrivprob = true)

theorem RdKeep.refl (s : RdState) : RdKeep s s := ⟨rfl, rfl, rfl, id⟩

theorem RdKeep.trans {a b c : RdState} (h : RdKeep a b) (g : RdKeep b c) : RdKeep a c :=
  ⟨g.1.trans h.1, g.2.1.trans h.2.1, g.2.2.1.trans h.2.2.1, fun x => g.2.2.2 (h.2.2.2 x)⟩

/-- The conclusion about a data-type reader: it moves by the bytes it reports, less the two of the
identifier. -/
def RdExact (s s' : RdState) : Prop := s'.pos = s.pos + s'.nbyte - 2

theorem rdGrow_keep {s s' : RdState} (h : rdGrow s = .ok s') :
    s'.pos = s.pos ∧ s'.nbyte = s.nbyte ∧ RdKeep s s' ∧ s'.source = s.source
      ∧ s'.winrivprob = s.winrivprob := by
  unfold rdGrow at h
  split at h
  · obtain rfl := Except.ok.inj h
    exact ⟨rfl, rfl, RdKeep.refl _, rfl, rfl⟩
  · split at h
    · exact absurd h (by simp)
    · obtain rfl := Except.ok.inj h
      split_ifs <;> exact ⟨rfl, rfl, ⟨rfl, rfl, rfl, id⟩, rfl, rfl⟩

/-- Outcome shared by all readers outside WinRiver. -/
def RdGood (s s' : RdState) : Prop :=
  RdExact s s' ∧ RdKeep s s' ∧ s'.winrivprob = s.winrivprob ∧ (s.source ≠ 2 → s'.source ≠ 2)

theorem rdFinish_good {bs : List ℕ} {ms : List RdMv} {n : ℤ} {s s' : RdState}
    (hm : ∀ m ∈ ms, m.hard = true) (hs : mvSum ms = n - 2) (h : rdFinish bs ms n s = .ok s') :
    RdGood s s' := by
  rw [rdFinish_pos hm h]
  refine ⟨?_, ⟨rfl, rfl, rfl, id⟩, rfl, id⟩
  simp only [RdExact]
  rw [hs]; ring

theorem rdFixed_good {bs : List ℕ} {bb : Bool} {s s' : RdState} (h : rdFixed bs bb s = .ok s') :
    RdGood s s' := by
  unfold rdFixed at h
  cases hc : rdCfgseg bs bb s with
  | error e => rw [hc] at h; exact absurd h (by simp)
  | ok t =>
    rw [hc] at h
    unfold rdCfgseg at hc
    cases hn : rdNeed bs s.pos 5 with
    | error e => rw [hn] at hc; exact absurd hc (by simp)
    | ok c =>
      rw [hn] at hc
      simp only at hc
      split at hc
      · cases hf : rdFinish bs (rdFixedMoves (rdFixedCfg bs s.pos).ver)
          (rdFixedNbyte (rdFixedCfg bs s.pos).ver) s with
        | error e => rw [hf] at hc; exact absurd hc (by simp)
        | ok u =>
          rw [hf] at hc
          have hu := rdFinish_pos (rdFixed_hard _) hf
          have ht := Except.ok.inj hc
          have key : t.pos = s.pos + t.nbyte ∧ RdKeep s t ∧ t.source = s.source
              ∧ t.winrivprob = s.winrivprob := by
            rw [← ht, hu]
            cases bb <;> exact ⟨by simp [rdFixed_sum], ⟨rfl, rfl, rfl, id⟩, rfl, rfl⟩
          obtain ⟨h1, h2, h3, h4, h5⟩ := rdGrow_keep h
          refine ⟨?_, ?_, ?_, ?_⟩
          · show s'.pos = s.pos + s'.nbyte - 2
            rw [h1, h2]; simp only; rw [key.1]; ring
          · exact (key.2.1.trans (b := t) ⟨rfl, rfl, rfl, id⟩).trans h3
          · rw [h5]; exact key.2.2.2
          · rw [h4]; simp only; rw [key.2.2.1]; exact id
      · exact absurd hc (by simp)

theorem rdVar_good {bs : List ℕ} {bb : Bool} {s s' : RdState} (h : rdVar bs bb s = .ok s') :
    RdGood s s' := by
  unfold rdVar at h
  cases hc : rdCount bb s with
  | error e => rw [hc] at h; exact absurd h (by simp)
  | ok t =>
    rw [hc] at h
    have ht : t.pos = s.pos ∧ RdKeep s t ∧ t.source = s.source ∧ t.winrivprob = s.winrivprob := by
      unfold rdCount at hc
      split at hc <;> split at hc
      · exact absurd hc (by simp)
      · obtain rfl := Except.ok.inj hc
        exact ⟨rfl, ⟨rfl, rfl, rfl, id⟩, rfl, rfl⟩
      · exact absurd hc (by simp)
      · obtain rfl := Except.ok.inj hc
        exact ⟨rfl, ⟨rfl, rfl, rfl, id⟩, rfl, rfl⟩
    simp only at h
    split at h
    · exact absurd h (by simp)
    · exact absurd h (by simp)
    · split at h
      · next f _ _ _ =>
        have g := rdFinish_good (rdVar_hard _) (by rw [rdVar_sum]; ring) h
        obtain ⟨a, b, c, d⟩ := g
        refine ⟨?_, ht.2.1.trans b, c.trans ht.2.2.2, ?_⟩
        · show s'.pos = s.pos + s'.nbyte - 2
          rw [show s'.pos = t.pos + s'.nbyte - 2 from a, ht.1]
        · rw [← ht.2.2.1]; exact d
      · exact absurd h (by simp)

theorem rdCells_good {bs : List ℕ} {w bb : ℕ} {s s' : RdState} (h : rdCells bs w bb s = .ok s') :
    RdGood s s' := by
  unfold rdCells at h
  split at h
  · exact absurd h (by simp)
  · split at h
    · exact absurd h (by simp)
    · refine rdFinish_good (by simp [RdMv.hard]) ?_ h
      simp [mvSum, RdMv.size]

theorem rdSkip_good {bs : List ℕ} {n : ℤ} {s s' : RdState} (h : rdSkip bs n s = .ok s') : RdGood s s' :=
  rdFinish_good (by simp [RdMv.hard]) (by simp [mvSum, RdMv.size]) h

theorem rdSkipCol_good {bs : List ℕ} {n : ℕ} {s s' : RdState} (h : rdSkipCol bs n s = .ok s') :
    RdGood s s' := by
  unfold rdSkipCol at h
  split at h
  · exact absurd h (by simp)
  · exact rdFinish_good (by simp [RdMv.hard]) (by simp [mvSum, RdMv.size]) h

theorem rdNocode_good {bs : List ℕ} {id : ℕ} {s s' : RdState} (h : rdNocode bs id s = .ok s') :
    RdGood s s' := by
  unfold rdNocode at h
  split at h
  · split at h
    · exact rdSkip_good h
    · exact absurd h (by simp)
  · exact absurd h (by simp)
  · unfold rdSkipNocode at h
    split at h
    · exact absurd h (by simp)
    · simp only at h
      split at h
      · exact rdSkip_good h
      · exact absurd h (by simp)

theorem rdVmdas_good {env : RdEnv} {bs : List ℕ} {s s' : RdState} (h : rdVmdas env bs s = .ok s') :
    RdGood s s' := by
  unfold rdVmdas at h
  simp only at h
  cases hf : rdFinish bs rdVmdasMoves (2 + 76) { s with prog := some .vmdas, source := 1 } with
  | error e => rw [hf] at h; exact absurd h (by simp)
  | ok u =>
    rw [hf] at h
    simp only at h
    split at h
    · have g := rdFinish_pos (by decide) hf
      obtain rfl := Except.ok.inj h
      rw [g]
      refine ⟨?_, ⟨rfl, rfl, rfl, id⟩, rfl, fun _ => by simp⟩
      show s.pos + mvSum rdVmdasMoves = s.pos + (2 + 76) - 2
      rw [show mvSum rdVmdasMoves = 76 by decide]; ring
    · exact absurd h (by simp)

theorem rdBottom_good {bs : List ℕ} {s s' : RdState} (hs : s.source ≠ 2) (h : rdBottom bs s = .ok s') :
    RdGood s s' := by
  unfold rdBottom at h
  split at h
  · exact absurd h (by simp)
  · exact rdFinish_good (rdBottom_hard _ _ _) (rdBottom_sum _ _ hs) h

theorem rdFixedSl_good {bs : List ℕ} {s s' : RdState} (h : rdFixedSl bs s = .ok s') : RdGood s s' := by
  unfold rdFixedSl at h
  split at h
  · exact absurd h (by simp)
  · next c _ =>
    have g := rdFinish_good (by decide) (by decide) h
    exact ⟨g.1, RdKeep.trans (b := { s with sl := _ }) ⟨rfl, rfl, rfl, id⟩ g.2.1, g.2.2.1, g.2.2.2⟩

/-- C50: every data-type reader outside WinRiver moves by exactly the bytes it reports, for every
identifier (known or not), configuration and file. -/
theorem rdi_reader_exact {env : RdEnv} {bs : List ℕ} {id : ℕ} {s s' : RdState} {fail : Bool}
    (hid : id ≠ 8226) (hw : id ∉ rdWinriverIds) (hs : s.source ≠ 2)
    (h : rdDat env bs id s = .ok (s', fail)) :
    fail = false ∧ RdGood s s' := by
  unfold rdDat at h
  rw [if_neg hid] at h
  cases hp : rdPlain env bs id s with
  | error e => rw [hp] at h; exact absurd h (by simp [Except.map])
  | ok t =>
    rw [hp] at h
    obtain ⟨rfl, rfl⟩ := Prod.mk.inj (Except.ok.inj h)
    refine ⟨rfl, ?_⟩
    unfold rdPlain at hp
    split_ifs at hp
    · exact rdFixed_good hp
    · exact rdFixed_good hp
    · exact rdFixedSl_good hp
    · exact rdVar_good hp
    · exact rdVar_good hp
    · exact rdBottom_good hs hp
    · exact rdVmdas_good hp
    · exact rdFinish_good (by decide) (by decide) hp
    · split at hp
      · exact rdCells_good hp
      · exact rdSkip_good hp
      · exact rdSkipCol_good hp
      · exact rdNocode_good hp

/-- C50: the WinRiver readers move by the bytes they report as well, unless a WinRiver II sentence is
unknown or cannot be decoded. -/
theorem rdi_winriver_exact {bs : List ℕ} {s s' : RdState} (h : rdWinriver bs s = .ok s') :
    RdExact s s' ∧ RdKeep s s' ∧ s'.winrivprob = true := by
  unfold rdWinriver at h
  simp only at h
  split at h
  · exact absurd h (by simp)
  · split at h
    · exact absurd h (by simp)
    · obtain rfl := Except.ok.inj h
      exact ⟨by simp only [RdExact]; ring, ⟨rfl, rfl, rfl, fun _ => rfl⟩, rfl⟩

theorem rdi_winriver2_exact {env : RdEnv} {bs : List ℕ} {s s' : RdState} {fail : Bool}
    (h : rdWinriver2 env bs s = .ok (s', fail)) :
    RdKeep s s' ∧ s'.winrivprob = true ∧
      (fail = false → (∀ c, rdNeed bs s.pos 2 = .ok c → (rdNmea (leNat c)).isSome) → RdExact s s') := by
  unfold rdWinriver2 at h
  simp only at h
  split at h
  · exact absurd h (by simp)
  · next c hc =>
    split at h
    · next hq =>
      obtain ⟨rfl, rfl⟩ := Prod.mk.inj (Except.ok.inj h)
      refine ⟨⟨rfl, rfl, rfl, fun _ => rfl⟩, rfl, fun _ hh => ?_⟩
      have := hh c hc
      rw [hq] at this; exact absurd this (by simp)
    · split at h
      · exact absurd h (by simp)
      · exact absurd h (by simp)
      · split at h
        · split at h
          · exact absurd h (by simp)
          · obtain ⟨rfl, rfl⟩ := Prod.mk.inj (Except.ok.inj h)
            exact ⟨⟨rfl, rfl, rfl, fun _ => rfl⟩, rfl, fun _ _ => by simp only [RdExact]; ring⟩
        · split at h
          · exact absurd h (by simp)
          · obtain ⟨rfl, rfl⟩ := Prod.mk.inj (Except.ok.inj h)
            exact ⟨⟨rfl, rfl, rfl, fun _ => rfl⟩, rfl, fun hf => absurd hf (by simp)⟩
          · obtain ⟨rfl, rfl⟩ := Prod.mk.inj (Except.ok.inj h)
            exact ⟨⟨rfl, rfl, rfl, fun _ => rfl⟩, rfl, fun _ _ => by simp only [RdExact]; ring⟩

/-- Any reader keeps the sticky offset, the length in the header and the search flag. -/
theorem rdDat_keep {env : RdEnv} {bs : List ℕ} {id : ℕ} {s s' : RdState} {fail : Bool}
    (h : rdDat env bs id s = .ok (s', fail)) : RdKeep s s' := by
  unfold rdDat at h
  split at h
  · exact (rdi_winriver2_exact h).1
  · cases hp : rdPlain env bs id s with
    | error e => rw [hp] at h; exact absurd h (by simp [Except.map])
    | ok t =>
      rw [hp] at h
      obtain ⟨rfl, rfl⟩ := Prod.mk.inj (Except.ok.inj h)
      unfold rdPlain at hp
      split_ifs at hp
      · exact (rdFixed_good hp).2.1
      · exact (rdFixed_good hp).2.1
      · exact (rdFixedSl_good hp).2.1
      · exact (rdVar_good hp).2.1
      · exact (rdVar_good hp).2.1
      · unfold rdBottom at hp
        split at hp
        · exact absurd hp (by simp)
        · rw [rdFinish_pos (rdBottom_hard _ _ _) hp]
          exact ⟨rfl, rfl, rfl, fun x => x⟩
      · exact (rdVmdas_good hp).2.1
      · exact (rdFinish_good (by decide) (by decide) hp).2.1
      · exact (rdi_winriver_exact hp).2.1
      · split at hp
        · exact (rdCells_good hp).2.1
        · exact (rdSkip_good hp).2.1
        · exact (rdSkipCol_good hp).2.1
        · exact (rdNocode_good hp).2.1

theorem rdBlock_keep {env : RdEnv} {bs : List ℕ} {s s' : RdState} {fail : Bool}
    (h : rdBlock env bs s = .ok (s', fail)) : RdKeep s s' := by
  unfold rdBlock at h
  split at h
  · exact absurd h (by simp)
  · exact RdKeep.trans (b := { s with pos := s.pos + 2 }) ⟨rfl, rfl, rfl, id⟩ (rdDat_keep h)

theorem rdAdjust_pos {s s' : RdState} {z : ℤ} (h : rdAdjust s z = .ok s') :
    s' = { s with pos := s.pos + z } := by
  unfold rdAdjust at h
  split at h
  · next hz =>
    obtain rfl := Except.ok.inj h
    rw [hz, add_zero]
  · cases hx : rdSeek s.pos z with
    | error e => rw [hx] at h; exact absurd h (by simp [Except.map])
    | ok p =>
      rw [hx] at h
      rw [← rdSeek_ok hx]
      exact (Except.ok.inj h).symm

theorem rdBlocks_keep {env : RdEnv} {bs : List ℕ} : ∀ (os : List ℤ) (bo : ℤ) (s s' : RdState),
    rdBlocks env bs os bo s = .ok s' → RdKeep s s'
  | [], bo, s, s', h => by
    rw [rdBlocks] at h
    split at h
    · exact absurd h (by simp)
    · next t hb => obtain rfl := Except.ok.inj h; exact rdBlock_keep hb
    · next t hb =>
      split at h
      · obtain rfl := Except.ok.inj h; exact rdBlock_keep hb
      · rw [rdAdjust_pos h]
        exact (rdBlock_keep hb).trans ⟨rfl, rfl, rfl, id⟩
  | o :: os, bo, s, s', h => by
    rw [rdBlocks] at h
    split at h
    · exact absurd h (by simp)
    · next t hb => obtain rfl := Except.ok.inj h; exact rdBlock_keep hb
    · next t hb =>
      split at h
      · exact absurd h (by simp)
      · next u hu =>
        have := rdBlocks_keep os o u s' h
        rw [rdAdjust_pos hu] at this
        exact (rdBlock_keep hb).trans (RdKeep.trans ⟨rfl, rfl, rfl, id⟩ this)

theorem rdVmdasAgain_keep {env : RdEnv} {bs : List ℕ} {s s' : RdState}
    (h : rdVmdasAgain env bs s = .ok s') : RdKeep s s' := by
  unfold rdVmdasAgain at h
  split at h
  · split at h
    · exact absurd h (by simp)
    · split at h
      · exact absurd h (by simp)
      · split at h
        · exact absurd h (by simp)
        · obtain rfl := Except.ok.inj h; exact ⟨rfl, rfl, rfl, id⟩
        · next p _ _ _ _ =>
          split at h
          · exact RdKeep.trans (b := { s with pos := p + 2 }) ⟨rfl, rfl, rfl, id⟩ (rdVmdas_good h).2.1
          · obtain rfl := Except.ok.inj h; exact ⟨rfl, rfl, rfl, id⟩
  · obtain rfl := Except.ok.inj h; exact RdKeep.refl _

theorem rdCheckOffset_ok {offset : ℤ} {s s' : RdState} (h : rdCheckOffset offset s = .ok s') :
    s' = { s with
      pos := s.pos + (4 + (if offset ≠ 4 ∧ s.fixoffset = 0 then offset - 4 else s.fixoffset))
      fixoffset := if offset ≠ 4 ∧ s.fixoffset = 0 then offset - 4 else s.fixoffset } := by
  unfold rdCheckOffset at h
  simp only at h
  generalize (if offset ≠ 4 ∧ s.fixoffset = 0 then offset - 4 else s.fixoffset) = f at h ⊢
  cases hx : rdSeek s.pos (4 + f) with
  | error e => rw [hx] at h; exact absurd h (by simp [Except.map])
  | ok p =>
    rw [hx] at h
    rw [← rdSeek_ok hx]
    exact (Except.ok.inj h).symm

/-- C50: as long as no sticky correction has been stored, the reader stands at the start of the next
ensemble after every ensemble, whatever the data-type readers did (WinRiver bottom tracking, unknown
sentences, abandoned ensembles, the VMDAS search). -/
theorem rdi_realigned {env : RdEnv} {bs : List ℕ} {p q nb : ℤ} {offs : List ℤ} {s s' : RdState}
    (hf : s.fixoffset = 0) (hh : rdHdrseg bs p = .ok (nb, offs, q)) (h : rdBody env bs p s = .ok s') :
    s'.pos = (p - 2) + nb + 2 := by
  unfold rdBody at h
  rw [hh] at h
  simp only at h
  split at h
  · exact absurd h (by simp)
  · next s1 h1 =>
    split at h
    · exact absurd h (by simp)
    · next s2 h2 =>
      have k1 := rdBlocks_keep _ _ _ _ h1
      have k2 := rdVmdasAgain_keep h2
      have hfix : s2.fixoffset = 0 := by rw [k2.1, k1.1]; exact hf
      have hnb : s2.hdrNbyte = nb := by rw [k2.2.1, k1.2.1]
      rw [rdCheckOffset_ok h]
      simp only [hfix, hnb, and_true]
      by_cases ho : nb + 2 - (s2.pos - (p - 2)) = 4
      · rw [if_neg (by simpa using ho)]; omega
      · rw [if_pos ho]; omega

/-! ### The correction stays zero outside WinRiver -/

theorem rdBlock_good {env : RdEnv} {bs : List ℕ} {s s' : RdState} {fail : Bool}
    (hs : s.source ≠ 2) (hw : s'.winrivprob = false) (h : rdBlock env bs s = .ok (s', fail)) :
    fail = false ∧ s'.pos = s.pos + s'.nbyte ∧ s'.source ≠ 2 := by
  unfold rdBlock at h
  split at h
  · exact absurd h (by simp)
  · next c _ =>
    have h8 : leNat c ≠ 8226 := by
      intro e
      rw [e] at h
      unfold rdDat at h
      rw [if_pos rfl] at h
      have := (rdi_winriver2_exact h).2.1
      rw [hw] at this; exact absurd this (by simp)
    have hwi : leNat c ∉ rdWinriverIds := by
      intro e
      have e' := e
      unfold rdDat at h
      rw [if_neg h8] at h
      unfold rdPlain at h
      simp only [rdWinriverIds, List.mem_cons, List.not_mem_nil, or_false] at e'
      rw [if_neg (by omega : ¬ leNat c = 0), if_neg (by omega : ¬ leNat c = 1),
        if_neg (by omega : ¬ leNat c = 16), if_neg (by omega : ¬ leNat c = 128),
        if_neg (by omega : ¬ leNat c = 129), if_neg (by omega : ¬ leNat c = 1536),
        if_neg (by omega : ¬ leNat c = 8192), if_neg (by omega : ¬ leNat c = 16640), if_pos e] at h
      cases hp : rdWinriver bs { s with pos := s.pos + 2 } with
      | error e => rw [hp] at h; exact absurd h (by simp [Except.map])
      | ok t =>
        rw [hp] at h
        obtain ⟨rfl, rfl⟩ := Prod.mk.inj (Except.ok.inj h)
        have := (rdi_winriver_exact hp).2.2
        rw [hw] at this; exact absurd this (by simp)
    obtain ⟨hfail, g⟩ := rdi_reader_exact h8 hwi (s := { s with pos := s.pos + 2 }) hs h
    refine ⟨hfail, ?_, g.2.2.2 hs⟩
    rw [show s'.pos = s.pos + 2 + s'.nbyte - 2 from g.1]; ring

theorem rdBlocks_exact {env : RdEnv} {bs : List ℕ} (start : ℤ) : ∀ (os : List ℤ) (bo : ℤ) (s s' : RdState),
    s.source ≠ 2 → s.pos = start + bo → rdBlocks env bs os bo s = .ok s' → s'.winrivprob = false →
    s'.pos = start + s'.hdrNbyte - 2 ∧ s'.source ≠ 2
  | [], bo, s, s', hs, hp, h, hw => by
    rw [rdBlocks] at h
    split at h
    · exact absurd h (by simp)
    · next t hb =>
      obtain rfl := Except.ok.inj h
      exact absurd (rdBlock_good hs hw hb).1 (by simp)
    · next t hb =>
      split at h
      · next hwr =>
        obtain rfl := Except.ok.inj h
        rw [hw] at hwr; exact absurd hwr (by simp)
      · next hwr =>
        have g := rdBlock_good hs (by simpa using hwr) hb
        rw [rdAdjust_pos h]
        simp only
        refine ⟨?_, g.2.2⟩
        rw [g.2.1, hp]; ring
  | o :: os, bo, s, s', hs, hp, h, hw => by
    rw [rdBlocks] at h
    split at h
    · exact absurd h (by simp)
    · next t hb =>
      obtain rfl := Except.ok.inj h
      exact absurd (rdBlock_good hs hw hb).1 (by simp)
    · next t hb =>
      split at h
      · exact absurd h (by simp)
      · next u hu =>
        have hu' := rdAdjust_pos hu
        have ht : t.winrivprob = false := by
          by_contra hc
          have k := rdBlocks_keep os o u s' h
          have : s'.winrivprob = true := k.2.2.2 (by rw [hu']; simpa using hc)
          rw [hw] at this; exact absurd this (by simp)
        have g := rdBlock_good hs ht hb
        refine rdBlocks_exact start os o u s' ?_ ?_ h hw
        · rw [hu']; exact g.2.2
        · rw [hu']; simp only; rw [g.2.1, hp]; ring

theorem adElems_length (fmt : AdFmt) : ∀ (n : ℕ) (l : List ℕ), (adElems fmt n l).length = n
  | 0, _ => rfl
  | n + 1, l => by simp [adElems, adElems_length fmt n]

theorem rdHdrseg_shape {bs : List ℕ} {p nb q : ℤ} {offs : List ℤ} (h : rdHdrseg bs p = .ok (nb, offs, q)) :
    q = p + 4 + 2 * offs.length := by
  unfold rdHdrseg at h
  cases hr : rdHdrRaw bs p with
  | error e => rw [hr] at h; exact absurd h (by simp)
  | ok x =>
    obtain ⟨nb', ndat, offs', q'⟩ := x
    rw [hr] at h
    simp only at h
    split at h
    · exact absurd h (by simp)
    · next hn =>
      obtain ⟨rfl, h2⟩ := Prod.mk.inj (Except.ok.inj h)
      obtain ⟨rfl, rfl⟩ := Prod.mk.inj h2
      unfold rdHdrRaw at hr
      split at hr
      · exact absurd hr (by simp)
      · exact absurd hr (by simp)
      · exact absurd hr (by simp)
      · split at hr
        · exact absurd hr (by simp)
        · have := (Prod.mk.inj (Prod.mk.inj (Prod.mk.inj (Except.ok.inj hr)).2).2).1
          exact absurd this.symm (fun e => hn (Or.inr e))
        · obtain ⟨_, h2⟩ := Prod.mk.inj (Except.ok.inj hr)
          obtain ⟨_, h3⟩ := Prod.mk.inj h2
          obtain ⟨rfl, rfl⟩ := Prod.mk.inj h3
          rw [adElems_length]

/-- C50 (partial: WinRiver blocks excluded): an ensemble without WinRiver blocks is read with exact
byte accounting, so the correction stays zero and the next ensemble starts where the reader stands.
The VMDAS block, if the file has one, is found in its place. -/
theorem rdi_in_step_partial {env : RdEnv} {bs : List ℕ} {p q nb : ℤ} {offs : List ℤ} {s s' : RdState}
    (hf : s.fixoffset = 0) (hs : s.source ≠ 2)
    (hh : rdHdrseg bs p = .ok (nb, offs, q))
    (hv : s.vmdasSearch = false ∨ ∀ s1, rdBlocks env bs offs.tail (6 + 2 * offs.length)
      { s with pos := q, nbyte := 4 + 2 * offs.length, hdrNbyte := nb, readVmdas := false } = .ok s1 →
      s1.readVmdas = true)
    (h : rdBody env bs p s = .ok s') (hw : s'.winrivprob = false) :
    s'.pos = (p - 2) + nb + 2 ∧ s'.fixoffset = 0 ∧ s'.source ≠ 2 ∧ s'.vmdasSearch = s.vmdasSearch := by
  refine ⟨rdi_realigned hf hh h, ?_⟩
  unfold rdBody at h
  rw [hh] at h
  simp only at h
  split at h
  · exact absurd h (by simp)
  · next s1 h1 =>
    split at h
    · exact absurd h (by simp)
    · next s2 h2 =>
      have k1 := rdBlocks_keep _ _ _ _ h1
      have hno : s2 = s1 := by
        unfold rdVmdasAgain at h2
        rw [if_neg] at h2
        · exact (Except.ok.inj h2).symm
        · rintro ⟨a, b⟩
          rcases hv with hv | hv
          · rw [k1.2.2.1] at a
            rw [hv] at a; exact absurd a (by simp)
          · exact b (hv s1 h1)
      subst hno
      have hfix : s2.fixoffset = 0 := by rw [k1.1]; exact hf
      have hnb : s2.hdrNbyte = nb := by rw [k1.2.1]
      have hs' := rdCheckOffset_ok h
      have hw2 : s2.winrivprob = false := by rw [hs'] at hw; exact hw
      have hq : q = p - 2 + (6 + 2 * (offs.length : ℤ)) := by rw [rdHdrseg_shape hh]; ring
      have e := rdBlocks_exact (p - 2) offs.tail (6 + 2 * offs.length)
        { s with pos := q, nbyte := 4 + 2 * offs.length, hdrNbyte := nb, readVmdas := false } s2 hs hq h1 hw2
      have ho : nb + 2 - (s2.pos - (p - 2)) = 4 := by rw [e.1, hnb]; ring
      rw [hs']
      simp only [hfix, hnb, ho]
      exact ⟨by simp, e.2, k1.2.2.1⟩

/-! ### WinRiver -/

/-- C50 is false for bottom tracking in WinRiver files: every such block leaves the reader 12 bytes
behind what it reports. -/
theorem rdi_reader_exact_false {env : RdEnv} {bs : List ℕ} {s s' : RdState} {fail : Bool}
    (hs : s.source = 2) (h : rdDat env bs 1536 s = .ok (s', fail)) :
    s'.pos = s.pos + s'.nbyte - 2 - 12 := by
  unfold rdDat at h
  rw [if_neg (by decide)] at h
  cases hp : rdPlain env bs 1536 s with
  | error e => rw [hp] at h; exact absurd h (by simp [Except.map])
  | ok t =>
    rw [hp] at h
    obtain ⟨rfl, rfl⟩ := Prod.mk.inj (Except.ok.inj h)
    unfold rdPlain at hp
    rw [if_neg (by decide), if_neg (by decide), if_neg (by decide), if_neg (by decide), if_neg (by decide),
      if_pos rfl] at hp
    unfold rdBottom at hp
    split at hp
    · exact absurd hp (by simp)
    · rw [rdFinish_pos (rdBottom_hard _ _ _) hp]
      simp only
      rw [hs, rdi_bottom_winriver_short]; ring

/-- A reader at the start of a file. -/
def rdStart : RdState :=
  ⟨0, 0, 0, false, 0, false, false, some ⟨16, 1628, 1⟩, none, none, none, some (1, -1), none, 0, []⟩

/-- Decisions that accept everything. -/
def rdYes : RdEnv := ⟨fun _ => true, fun _ => true, fun _ _ _ => true⟩

/-- Bottom tracking in a WinRiver file: the reader does return. -/
example : (rdDat rdYes (List.replicate 100 0) 1536 { rdStart with source := 2, winrivprob := true }).isOk := by
  decide

/-- An ensemble with an ambient-sound block and a WinRiver II block of unknown kind with `a` further
bytes. -/
def wrEns (a : ℕ) : List ℕ :=
  [127, 127, 22 + a, 0, 0, 2, 10, 0, 16, 0, 12, 2, 1, 2, 3, 4, 34, 32, 1, 0] ++ List.replicate a 0 ++ [0, 0, 0, 0]

/-- Four ensembles; only the first has a longer WinRiver II block. -/
def wrFile : List ℕ := wrEns 3 ++ wrEns 1 ++ wrEns 1 ++ wrEns 1 ++ wrEns 1

/-- Where the reader stands after `n` ensembles, or `none` if it stopped. -/
def rdPosAfter (env : RdEnv) (bs : List ℕ) : ℕ → RdState → Option ℤ
  | 0, s => some s.pos
  | n + 1, s =>
    match rdEnsemble env bs s with
    | .ok (some s') => rdPosAfter env bs n s'
    | _ => none

/-- C50 is false across ensembles: the correction found at the first ensemble (3 bytes) is used for the
second, which would need 1, and the reader ends two bytes inside the third ensemble; that one is lost:
the next header accepted is the fourth (at 77, after which the reader stands at 104). -/
theorem rdi_in_step_false :
    (wrEns 3).length = 27 ∧ (wrEns 1).length = 25 ∧
    rdPosAfter rdYes wrFile 1 rdStart = some 27 ∧
    rdPosAfter rdYes wrFile 2 rdStart = some (27 + 25 + 2) ∧
    rdPosAfter rdYes wrFile 3 rdStart = some (27 + 25 + 25 + 25 + 2) := by
  decide +kernel

/-- An ensemble of one cell without WinRiver blocks meets the hypotheses of `rdi_in_step_partial`. -/
def plainEns : List ℕ :=
  [127, 127, 26, 0, 0, 2, 10, 0, 16, 0, 12, 2, 1, 2, 3, 4, 0, 1, 1, 2, 3, 4, 5, 6, 7, 8] ++ [0, 0]

example : rdHdrseg (plainEns ++ plainEns) 2 = .ok (26, [10, 16], 10) ∧
    (rdBody rdYes (plainEns ++ plainEns) 2 rdStart).map (fun s => (s.pos, s.fixoffset, s.winrivprob))
      = .ok (28, 0, false) := by
  decide +kernel

end Dolfyn
