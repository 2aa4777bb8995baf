import Verif.Props.Rdi
import Mathlib.Data.List.Flatten

/-!
How many ensembles of a TRDI file are read (C51).
-/

namespace Dolfyn

/-! ### Files -/

/-- Two bytes, least significant first. -/
def Spec.le16 (n : ℕ) : List ℕ := [n % 256, n / 256]

/-- A data block: identifier and payload. -/
structure Spec.RdBlk where
  id : ℕ
  pl : List ℕ

def Spec.RdBlk.bytes (b : Spec.RdBlk) : List ℕ := Spec.le16 b.id ++ b.pl

/-- An ensemble in the PD0 format: its data blocks and the four bytes at the end (reserved and
checksum). -/
structure Spec.RdEns where
  spare : ℕ
  blks : List Spec.RdBlk
  tail : List ℕ

/-- Offsets of the data blocks. -/
def Spec.rdOffsets : ℕ → List Spec.RdBlk → List ℕ
  | _, [] => []
  | o, b :: r => o :: Spec.rdOffsets (o + b.bytes.length) r

/-- Number of bytes up to the checksum. -/
def Spec.RdEns.nbyte (e : Spec.RdEns) : ℕ := 8 + 2 * e.blks.length + (e.blks.flatMap Spec.RdBlk.bytes).length

/-- The bytes of an ensemble. -/
def Spec.RdEns.bytes (e : Spec.RdEns) : List ℕ :=
  [127, 127] ++ (Spec.le16 e.nbyte ++ ([e.spare] ++ ([e.blks.length]
    ++ ((Spec.rdOffsets (6 + 2 * e.blks.length) e.blks).flatMap Spec.le16
    ++ (e.blks.flatMap Spec.RdBlk.bytes ++ e.tail)))))

/-- Bytes a block must have at least, for an instrument with configuration `f`: what the firmware
writes for this type. Types that are only skipped may have any length. -/
def Spec.rdMin (f : RdFixed) (id : ℕ) : Option ℕ :=
  if id = 256 then some (8 * f.nCells)
  else if id ∈ [512, 768, 1024, 1280] then some (4 * f.nCells)
  else if id = 1536 then
    some (68 + (if 530 ≤ f.ver then 11 else 0) + (if 1620 ≤ f.ver then 4 else 0) + (if 5610 ≤ f.ver then 4 else 0))
  else if id = 16640 then some 7
  else if id ∈ [259, 515, 524, 1027, 3000, 3841, 8211, 12800, 12288, 12496, 12504, 17408, 17409, 22531, 22532,
    22785, 22786, 28673, 770, 771, 1793, 1794, 1795, 2560, 2816, 3072, 3328] then some 0
  else none

/-- A fixed leader for the configuration `f`. -/
def Spec.rdFixedBlk (f : RdFixed) (b : Spec.RdBlk) : Prop :=
  b.id = 0 ∧ 57 ≤ b.pl.length ∧ b.pl.getD 0 0 = f.fw ∧ 100 * f.fw + b.pl.getD 1 0 = f.ver ∧
    b.pl.getD 7 0 = f.nCells ∧ b.pl.getD 3 0 % 4 ≠ 3 ∧ b.pl.getD 2 0 % 8 ≠ 7 ∧ b.pl.getD 4 0 < 2

/-- A complete ensemble of an instrument with configuration `f`: fixed leader, variable leader, and
any further blocks of known kinds. -/
structure Spec.RdEns.Ok (f : RdFixed) (e : Spec.RdEns) : Prop where
  tail : e.tail.length = 4
  small : e.nbyte < 32768
  count : e.blks.length < 256
  shape : ∃ fx vr rest, e.blks = fx :: vr :: rest ∧ Spec.rdFixedBlk f fx ∧ vr.id = 128 ∧ 65 ≤ vr.pl.length ∧
    ∀ b ∈ rest, b.id < 65536 ∧ ∃ m, Spec.rdMin f b.id = some m ∧ m ≤ b.pl.length

/-- The outer form of an ensemble: the end, the length and the number of blocks. -/
structure Spec.RdEns.Framed (e : Spec.RdEns) : Prop where
  tail : e.tail.length = 4
  small : e.nbyte < 32768
  count : 2 ≤ e.blks.length

theorem Spec.RdEns.Ok.framed {f : RdFixed} {e : Spec.RdEns} (h : e.Ok f) : e.Framed where
  tail := h.tail
  small := h.small
  count := by
    obtain ⟨fx, vr, rest, hb, _⟩ := h.shape
    rw [hb]; simp

/-! ### Reads succeed -/

theorem rdNeed_ok {bs c r : List ℕ} {p : ℤ} {n : ℕ} (h : bs.drop p.toNat = c ++ r) (hl : c.length = n)
    (hn : 0 < n) : rdNeed bs p n = .ok c := by
  have hc : rdChunk bs p n = c := by rw [rdChunk, h, List.take_left' hl]
  have hne : c ≠ [] := by intro e; rw [e] at hl; simp at hl; omega
  unfold rdNeed rdBytes
  simp only [hc, hl]
  rw [if_neg hne, if_neg (lt_irrefl n)]

theorem rdBytes_ok {bs c r : List ℕ} {p : ℤ} {n : ℕ} (h : bs.drop p.toNat = c ++ r) (hl : c.length = n)
    (hn : 0 < n) : rdBytes bs p n = .ok (some c) := by
  have hc : rdChunk bs p n = c := by rw [rdChunk, h, List.take_left' hl]
  have hne : c ≠ [] := by intro e; rw [e] at hl; simp at hl; omega
  unfold rdBytes
  simp only [hc, hl]
  rw [if_neg hne, if_neg (lt_irrefl n)]

theorem rdNeed_len {bs : List ℕ} {p : ℤ} {n : ℕ} (h0 : 0 ≤ p) (h : p + n ≤ bs.length) (hn : 0 < n) :
    ∃ c, rdNeed bs p n = .ok c ∧ c = rdChunk bs p n := by
  refine ⟨rdChunk bs p n, ?_, rfl⟩
  refine rdNeed_ok (r := (bs.drop p.toNat).drop n) ?_ ?_ hn
  · rw [rdChunk, List.take_append_drop]
  · rw [rdChunk, List.length_take, List.length_drop]; omega

/-- A step forward. -/
def RdMv.fwd : RdMv → Bool
  | .rd n => decide (0 < n)
  | .sk z => decide (0 ≤ z)
  | .rs _ => false

theorem rdMove_ok {bs : List ℕ} : ∀ (ms : List RdMv) (p : ℤ), (∀ m ∈ ms, m.fwd = true) → 0 ≤ p →
    p + mvSum ms ≤ bs.length → rdMove bs p ms = .ok (p + mvSum ms)
  | [], p, _, _, _ => by simp [rdMove, mvSum]
  | m :: ms, p, hh, h0, hl => by
    have hm := hh m (by simp)
    have hms : ∀ m ∈ ms, m.fwd = true := fun x hx => hh x (by simp [hx])
    have hs : mvSum (m :: ms) = m.size + mvSum ms := by simp [mvSum]
    have hnn : 0 ≤ mvSum ms := by
      unfold mvSum
      apply List.sum_nonneg
      intro x hx
      obtain ⟨y, hy, rfl⟩ := List.mem_map.mp hx
      have := hms y hy
      cases y with
      | rd n => simp [RdMv.size]
      | sk z => simpa [RdMv.fwd, RdMv.size] using this
      | rs n => simp [RdMv.fwd] at this
    rw [hs] at hl
    have h1 : rdMove1 bs p m = .ok (p + m.size) := by
      cases m with
      | rd n =>
        simp only [RdMv.fwd, decide_eq_true_eq] at hm
        simp only [RdMv.size] at hl
        obtain ⟨c, hc, _⟩ := rdNeed_len (bs := bs) (p := p) (n := n) h0 (by omega) hm
        simp only [rdMove1, hc, RdMv.size]
      | sk z =>
        simp only [RdMv.fwd, decide_eq_true_eq] at hm
        simp only [rdMove1, rdSeek, RdMv.size]
        rw [if_neg (by omega)]
      | rs n => simp [RdMv.fwd] at hm
    have hsz : 0 ≤ m.size := by
      cases m with
      | rd n => simp [RdMv.size]
      | sk z => simpa [RdMv.fwd, RdMv.size] using hm
      | rs n => simp [RdMv.fwd] at hm
    rw [rdMove, h1, hs]
    simp only
    rw [rdMove_ok ms (p + m.size) hms (by omega) (by omega), add_assoc]

theorem rdFinish_ok {bs : List ℕ} {ms : List RdMv} {n : ℤ} {s : RdState} (hm : ∀ m ∈ ms, m.fwd = true)
    (h0 : 0 ≤ s.pos) (hl : s.pos + mvSum ms ≤ bs.length) :
    rdFinish bs ms n s = .ok { s with pos := s.pos + mvSum ms, nbyte := n } := by
  unfold rdFinish
  rw [rdMove_ok ms s.pos hm h0 hl]

/-- A single seek cannot run out of the file. -/
theorem rdFinish_skip {bs : List ℕ} {z n : ℤ} {s : RdState} (h0 : 0 ≤ s.pos) (hz : 0 ≤ z) :
    rdFinish bs [.sk z] n s = .ok { s with pos := s.pos + z, nbyte := n } := by
  have : rdMove bs s.pos [.sk z] = .ok (s.pos + z) := by
    simp only [rdMove, rdMove1, rdSeek, if_neg (by omega : ¬ s.pos + z < 0)]
  unfold rdFinish
  rw [this]

theorem rdFixed_fwd (ver : ℕ) : ∀ m ∈ rdFixedMoves ver, m.fwd = true := by
  unfold rdFixedMoves
  split_ifs <;> decide

theorem rdVar_fwd (f : RdFixed) : ∀ m ∈ rdVarMoves ++ (rdVarExtra f).1, m.fwd = true := by
  unfold rdVarMoves rdVarExtra
  split_ifs <;> decide

theorem rdVarExtra_le (f : RdFixed) : (rdVarExtra f).2 ≤ 25 := by
  unfold rdVarExtra
  split_ifs <;> simp only <;> omega

theorem rdBottom_fwd (ver : ℕ) (w : Bool) {source : ℕ} (h : source ≠ 2) :
    ∀ m ∈ rdBottomMoves source ver w, m.fwd = true := by
  unfold rdBottomMoves
  rw [if_neg h, if_neg h]
  split_ifs <;> decide

/-! ### Blocks -/

/-- The state between the blocks of a regular file. -/
structure RdInv (f : RdFixed) (s : RdState) : Prop where
  cfg : s.cfg = some f
  ens : ∃ n k, s.ens = some (n, k) ∧ f.nCells ≤ n
  source : s.source ≠ 2
  prog : s.prog = none
  win : s.winrivprob = false

theorem rdDat_ok {env : RdEnv} {bs : List ℕ} {f : RdFixed} {s : RdState} {id m : ℕ} (hf : 0 < f.nCells)
    (hi : RdInv f s) (hm : Spec.rdMin f id = some m) (h0 : 0 ≤ s.pos) (hl : s.pos + m ≤ bs.length) :
    ∃ p nb, rdDat env bs id s = .ok ({ s with pos := p, nbyte := nb }, false) := by
  obtain ⟨n, k, he, hn⟩ := hi.ens
  have hcell : ∀ w, s.pos + (4 * f.nCells * w : ℕ) ≤ bs.length → 0 < w →
      ∃ p nb, rdCells bs w 0 s = .ok { s with pos := p, nbyte := nb } := by
    intro w hw h0w
    have e : rdCells bs w 0 s = rdFinish bs [.rd (4 * f.nCells * w)] (2 + 4 * f.nCells * w) s := by
      have hp : rdProfile 0 s = .ok (f.nCells, n) := by
        unfold rdProfile
        rw [if_neg (by decide), if_neg (by decide), he, hi.cfg]
      unfold rdCells
      rw [hp]
      simp only
      rw [if_neg (by omega)]
    rw [e]
    refine ⟨_, _, rdFinish_ok ?_ h0 ?_⟩
    · intro x hx
      rw [List.mem_singleton] at hx
      rw [hx]
      simp only [RdMv.fwd, decide_eq_true_eq]
      positivity
    · simpa [mvSum, RdMv.size] using hw
  have hcol : ∀ c, ∃ p nb, rdSkipCol bs c s = .ok { s with pos := p, nbyte := nb } := by
    intro c
    have e : rdSkipCol bs c s = rdFinish bs [.sk ((c * f.nCells : ℕ) : ℤ)] (2 + (c * f.nCells : ℕ)) s := by
      unfold rdSkipCol
      rw [hi.cfg]
    rw [e]
    exact ⟨_, _, rdFinish_skip h0 (Int.natCast_nonneg _)⟩
  have hskip : ∀ c : ℕ, ∃ p nb, rdSkip bs c s = .ok { s with pos := p, nbyte := nb } := fun c =>
    ⟨_, _, rdFinish_skip h0 (Int.natCast_nonneg _)⟩
  have lift : ∀ {x : Except Err RdState}, (∃ p nb, x = .ok { s with pos := p, nbyte := nb }) →
      ∃ p nb, x.map (·, false) = .ok (({ s with pos := p, nbyte := nb } : RdState), false) := by
    rintro x ⟨p, nb, rfl⟩
    exact ⟨p, nb, rfl⟩
  unfold Spec.rdMin at hm
  by_cases h1 : id = 256
  · rw [if_pos h1] at hm
    obtain rfl := Option.some.inj hm
    subst h1
    refine lift (hcell 2 ?_ (by decide))
    push_cast at hl ⊢; linarith
  rw [if_neg h1] at hm
  by_cases h2 : id ∈ [512, 768, 1024, 1280]
  · rw [if_pos h2] at hm
    obtain rfl := Option.some.inj hm
    simp only [List.mem_cons, List.not_mem_nil, or_false] at h2
    rcases h2 with rfl | rfl | rfl | rfl <;>
    · refine lift (hcell 1 ?_ (by decide))
      push_cast at hl ⊢; linarith
  rw [if_neg h2] at hm
  by_cases h3 : id = 1536
  · rw [if_pos h3] at hm
    have hm' := Option.some.inj hm
    subst h3
    refine lift ?_
    have e : rdPlain env bs 1536 s = rdFinish bs (rdBottomMoves s.source f.ver false)
        (rdBottomNbyte f.ver false) s := by
      unfold rdPlain
      rw [if_neg (by decide), if_neg (by decide), if_neg (by decide), if_neg (by decide), if_neg (by decide),
        if_pos rfl]
      have : decide (s.prog = some .winriver) = false := by rw [hi.prog]; decide
      unfold rdBottom
      rw [hi.cfg, this]
    rw [e]
    refine ⟨_, _, rdFinish_ok (rdBottom_fwd _ _ hi.source) h0 ?_⟩
    rw [rdBottom_sum _ _ hi.source]
    unfold rdBottomNbyte
    subst hm'
    simp only [Bool.false_eq_true, not_false_eq_true, and_true]
    push_cast at hl
    split_ifs at hl ⊢ <;> omega
  rw [if_neg h3] at hm
  by_cases h4 : id = 16640
  · rw [if_pos h4] at hm
    obtain rfl := Option.some.inj hm
    subst h4
    refine lift ?_
    exact ⟨_, _, rdFinish_ok (by decide) h0 (by
      rw [show mvSum [RdMv.rd 1, .rd 1, .rd 4, .rd 1] = 7 by decide]; exact_mod_cast hl)⟩
  rw [if_neg h4] at hm
  split at hm
  · next h5 =>
    simp only [List.mem_cons, List.not_mem_nil, or_false] at h5
    rcases h5 with rfl | rfl | rfl | rfl | rfl | rfl | rfl | rfl | rfl | rfl | rfl | rfl | rfl | rfl | rfl | rfl
      | rfl | rfl | rfl | rfl | rfl | rfl | rfl | rfl | rfl | rfl | rfl
    all_goals first
      | exact lift (hskip _)
      | exact lift (hcol _)
  · exact absurd hm (by simp)

theorem leNat_le16 {n : ℕ} : leNat (Spec.le16 n) = n := by
  simp only [Spec.le16, leNat]; omega

theorem rdI16_le16 {n : ℕ} (h : n < 32768) : rdI16 (Spec.le16 n) = n := by
  unfold rdI16 adVal
  rw [leNat_le16]
  simp only [AdFmt.signed, AdFmt.size]
  rw [if_neg]
  rintro ⟨_, h2⟩
  norm_num at h2
  omega

/-- What reading a block leaves. -/
theorem rdBlock_ok {env : RdEnv} {bs r : List ℕ} {f : RdFixed} {s : RdState} {b : Spec.RdBlk} {m : ℕ}
    (hf : 0 < f.nCells) (hi : RdInv f s) (h0 : 0 ≤ s.pos)
    (hm : Spec.rdMin f b.id = some m) (hl : m ≤ b.pl.length)
    (hb : bs.drop s.pos.toNat = b.bytes ++ r) :
    ∃ p nb, rdBlock env bs s = .ok ({ s with pos := p, nbyte := nb }, false) := by
  have hlen : s.pos + b.bytes.length ≤ bs.length := by
    have := congrArg List.length hb
    rw [List.length_drop, List.length_append] at this
    have hpos : 0 < b.bytes.length := by simp [Spec.RdBlk.bytes, Spec.le16]
    omega
  have h2 : rdNeed bs s.pos 2 = .ok (Spec.le16 b.id) := by
    refine rdNeed_ok (r := b.pl ++ r) ?_ rfl (by decide)
    rw [hb, Spec.RdBlk.bytes, List.append_assoc]
  unfold rdBlock
  rw [h2]
  simp only
  rw [leNat_le16]
  have hbl : b.bytes.length = 2 + b.pl.length := by simp [Spec.RdBlk.bytes, Spec.le16]; omega
  obtain ⟨p, nb, h⟩ := rdDat_ok (env := env) (bs := bs) (s := { s with pos := s.pos + 2 }) hf
    ⟨hi.cfg, hi.ens, hi.source, hi.prog, hi.win⟩ hm (by simp only; omega) (by simp only; omega)
  exact ⟨p, nb, h⟩

theorem rdAdjust_ok {s : RdState} {z : ℤ} (h : 0 ≤ s.pos + z) :
    rdAdjust s z = .ok { s with pos := s.pos + z } := by
  unfold rdAdjust
  split_ifs with hz
  · rw [hz, add_zero]
  · simp only [rdSeek, if_neg (by omega : ¬ s.pos + z < 0), Except.map]

theorem drop_toNat_add {bs c r : List ℕ} {p : ℤ} (h0 : 0 ≤ p) (h : bs.drop p.toNat = c ++ r) :
    bs.drop (p + c.length).toNat = r := by
  rw [Int.toNat_add h0 (Int.natCast_nonneg _), Int.toNat_natCast, ← List.drop_drop, h, List.drop_left' rfl]

theorem drop_len {bs c r : List ℕ} {p : ℤ} (h0 : 0 ≤ p) (hc : 0 < c.length) (h : bs.drop p.toNat = c ++ r) :
    p + c.length ≤ bs.length := by
  have := congrArg List.length h
  rw [List.length_drop, List.length_append] at this
  omega

theorem getD_take_lt {l : List ℕ} {i n : ℕ} (h : i < n) : (l.take n).getD i 0 = l.getD i 0 := by
  simp only [List.getD_eq_getElem?_getD, List.getElem?_take, if_pos h]

theorem getD_take_append_lt {l r : List ℕ} {i n : ℕ} (h : i < n) (hl : n ≤ l.length) :
    ((l ++ r).take n).getD i 0 = l.getD i 0 := by
  rw [getD_take_lt h]
  simp only [List.getD_eq_getElem?_getD, List.getElem?_append_left (by omega : i < l.length)]

theorem RdBlk_len (b : Spec.RdBlk) : b.bytes.length = 2 + b.pl.length := by
  simp [Spec.RdBlk.bytes, Spec.le16]; omega

theorem rdFixedNbyte_le (ver : ℕ) : rdFixedNbyte ver ≤ 57 := by
  unfold rdFixedNbyte
  split_ifs <;> omega

/-- The fixed leader. -/
theorem rdBlock_fixed {env : RdEnv} {bs r : List ℕ} {f : RdFixed} {s : RdState} {b : Spec.RdBlk} {n : ℕ}
    (hb : Spec.rdFixedBlk f b) (he : s.ens = some (n, -1)) (h0 : 0 ≤ s.pos)
    (hd : bs.drop s.pos.toNat = b.bytes ++ r) :
    ∃ p nb, rdBlock env bs s = .ok ({ s with
      pos := p, nbyte := nb, cfg := some f, ens := some (max n f.nCells, -1) }, false) := by
  obtain ⟨hid, hl, hfw, hver, hnc, ha, hfr, hsim⟩ := hb
  have hlen := drop_len h0 (by rw [RdBlk_len]; omega) hd
  rw [RdBlk_len] at hlen
  have h2 : rdNeed bs s.pos 2 = .ok (Spec.le16 b.id) := by
    refine rdNeed_ok (r := b.pl ++ r) ?_ rfl (by decide)
    rw [hd, Spec.RdBlk.bytes, List.append_assoc]
  have hd2 : bs.drop (s.pos + 2).toNat = b.pl ++ r := by
    have := drop_toNat_add (c := Spec.le16 b.id) (r := b.pl ++ r) h0 (by
      rw [hd, Spec.RdBlk.bytes, List.append_assoc])
    simpa [Spec.le16] using this
  unfold rdBlock
  rw [h2]
  simp only
  rw [leNat_le16, hid]
  unfold rdDat
  rw [if_neg (by decide)]
  have key : ∃ p nb, rdPlain env bs 0 { s with pos := s.pos + 2 }
      = .ok { s with pos := p, nbyte := nb, cfg := some f, ens := some (max n f.nCells, -1) } := by
    unfold rdPlain
    rw [if_pos rfl]
    have h5 : rdNeed bs (s.pos + 2) 5 = .ok (b.pl.take 5) := by
      refine rdNeed_ok (r := b.pl.drop 5 ++ r) ?_ ?_ (by decide)
      · rw [hd2, ← List.append_assoc, List.take_append_drop]
      · rw [List.length_take]; omega
    have hcf : rdFixedCfg bs (s.pos + 2) = f := by
      unfold rdFixedCfg rdChunk
      rw [hd2]
      simp only [getD_take_append_lt (show 0 < 8 by decide) (by omega : 8 ≤ b.pl.length),
        getD_take_append_lt (show 1 < 8 by decide) (by omega : 8 ≤ b.pl.length),
        getD_take_append_lt (show 7 < 8 by decide) (by omega : 8 ≤ b.pl.length), hfw, hver, hnc]
    have hok : rdFixedOk (b.pl.take 5) = true := by
      unfold rdFixedOk
      rw [getD_take_lt (by decide), getD_take_lt (by decide), getD_take_lt (by decide)]
      exact decide_eq_true ⟨ha, hfr, hsim⟩
    have hfin := rdFinish_ok (bs := bs) (n := rdFixedNbyte f.ver) (s := { s with pos := s.pos + 2 })
      (rdFixed_fwd f.ver) (by simp only; omega) (by
        simp only; rw [rdFixed_sum]; have := rdFixedNbyte_le f.ver; omega)
    unfold rdFixed rdCfgseg
    simp only
    rw [h5]
    simp only
    rw [if_pos hok, hcf, hfin]
    simp only [Bool.false_eq_true, if_false]
    unfold rdGrow
    simp only [he]
    by_cases hn : n < f.nCells
    · rw [if_pos hn, Nat.max_eq_right hn.le]
      exact ⟨_, _, rfl⟩
    · rw [if_neg hn, Nat.max_eq_left (by omega)]
      exact ⟨_, _, rfl⟩
  obtain ⟨p, nb, h⟩ := key
  exact ⟨p, nb, by rw [h]; rfl⟩

/-- The variable leader. -/
theorem rdBlock_var {env : RdEnv} {bs r : List ℕ} {f : RdFixed} {s : RdState} {b : Spec.RdBlk} {n : ℕ}
    (hid : b.id = 128) (hl : 65 ≤ b.pl.length) (hc : s.cfg = some f) (he : s.ens = some (n, -1))
    (h0 : 0 ≤ s.pos) (hd : bs.drop s.pos.toNat = b.bytes ++ r) :
    ∃ p nb, rdBlock env bs s = .ok ({ s with pos := p, nbyte := nb, ens := some (n, 0) }, false) := by
  have hlen := drop_len h0 (by rw [RdBlk_len]; omega) hd
  rw [RdBlk_len] at hlen
  have h2 : rdNeed bs s.pos 2 = .ok (Spec.le16 b.id) := by
    refine rdNeed_ok (r := b.pl ++ r) ?_ rfl (by decide)
    rw [hd, Spec.RdBlk.bytes, List.append_assoc]
  unfold rdBlock
  rw [h2]
  simp only
  rw [leNat_le16, hid]
  have key : ∃ p nb, rdPlain env bs 128 { s with pos := s.pos + 2 }
      = .ok { s with pos := p, nbyte := nb, ens := some (n, 0) } := by
    unfold rdPlain
    rw [if_neg (by decide), if_neg (by decide), if_neg (by decide), if_pos rfl]
    have hfin := rdFinish_ok (bs := bs) (n := 2 + 40 + (rdVarExtra f).2)
      (s := { s with pos := s.pos + 2, ens := some (n, 0) })
      (rdVar_fwd f) (by simp only; omega) (by
        simp only; rw [rdVar_sum]; have := rdVarExtra_le f; omega)
    have hcount : rdCount false { s with pos := s.pos + 2 }
        = .ok { s with pos := s.pos + 2, ens := some (n, 0) } := by
      unfold rdCount
      rw [if_neg (by decide)]
      simp only [he]
      rfl
    refine ⟨_, _, Eq.trans ?_ hfin⟩
    unfold rdVar
    rw [hcount]
    simp only [hc, true_or, if_true]
  obtain ⟨p, nb, h⟩ := key
  unfold rdDat
  rw [if_neg (by decide)]
  exact ⟨p, nb, by rw [h]; rfl⟩

/-- The remaining blocks. -/
theorem rdBlocks_rest {env : RdEnv} {bs : List ℕ} {f : RdFixed} (hf : 0 < f.nCells) (start : ℕ) :
    ∀ (rest : List Spec.RdBlk) (b : Spec.RdBlk) (bo : ℕ) (s : RdState) (r : List ℕ), RdInv f s →
    s.pos = start + bo → 0 ≤ start + s.hdrNbyte - 2 →
    (∀ x ∈ b :: rest, x.id < 65536 ∧ ∃ m, Spec.rdMin f x.id = some m ∧ m ≤ x.pl.length) →
    bs.drop (start + bo) = (b :: rest).flatMap Spec.RdBlk.bytes ++ r →
    ∃ p nb, rdBlocks env bs ((Spec.rdOffsets (bo + b.bytes.length) rest).map (fun x : ℕ => (x : ℤ))) bo s
      = .ok { s with pos := p, nbyte := nb }
  | [], b, bo, s, r, hi, hp, hh, hx, hd => by
    obtain ⟨_, m, hm, hl⟩ := hx b (by simp)
    have hpn : s.pos.toNat = start + bo := by omega
    rw [← hpn] at hd
    rw [List.flatMap_cons, List.flatMap_nil, List.append_nil] at hd
    obtain ⟨p, nb, h⟩ := rdBlock_ok (env := env) hf hi (by omega) hm hl hd
    have hpe := (rdBlock_good hi.source (s' := { s with pos := p, nbyte := nb }) hi.win h).2.1
    simp only at hpe
    simp only [Spec.rdOffsets, List.map_nil]
    rw [rdBlocks, h]
    simp only [hi.win]
    rw [if_neg (by decide)]
    exact ⟨_, _, rdAdjust_ok (by simp only; omega)⟩
  | b' :: rest, b, bo, s, r, hi, hp, hh, hx, hd => by
    obtain ⟨_, m, hm, hl⟩ := hx b (by simp)
    have hpn : s.pos.toNat = start + bo := by omega
    have hd' := hd
    rw [← hpn] at hd
    rw [List.flatMap_cons, List.append_assoc] at hd
    obtain ⟨p, nb, h⟩ := rdBlock_ok (env := env) hf hi (by omega) hm hl hd
    have hpe := (rdBlock_good hi.source (s' := { s with pos := p, nbyte := nb }) hi.win h).2.1
    simp only at hpe
    simp only [Spec.rdOffsets, List.map_cons]
    rw [rdBlocks, h]
    simp only
    rw [rdAdjust_ok (by simp only; omega)]
    simp only
    have hd2 : bs.drop (start + (bo + b.bytes.length)) = (b' :: rest).flatMap Spec.RdBlk.bytes ++ r := by
      rw [← add_assoc, ← List.drop_drop, hd', List.flatMap_cons, List.append_assoc, List.drop_left' rfl]
    obtain ⟨p2, nb2, h2⟩ := rdBlocks_rest hf start rest b' (bo + b.bytes.length)
      { s with pos := p + (((bo + b.bytes.length : ℕ) : ℤ) - (bo + nb)), nbyte := nb } r
      ⟨hi.cfg, hi.ens, hi.source, hi.prog, hi.win⟩ (by simp only; push_cast; omega) hh
      (fun x hxm => hx x (by simp at hxm ⊢; tauto)) hd2
    exact ⟨p2, nb2, h2⟩

/-! ### A whole ensemble -/

theorem adElems_le16 : ∀ (l : List ℕ) (r : List ℕ),
    adElems .H l.length (l.flatMap Spec.le16 ++ r) = l.map (fun x : ℕ => (x : ℤ))
  | [], _ => rfl
  | a :: l, r => by
    have h1 : ((a :: l).flatMap Spec.le16 ++ r).take 2 = Spec.le16 a := by
      rw [List.flatMap_cons, List.append_assoc]; exact List.take_left' rfl
    have h2 : ((a :: l).flatMap Spec.le16 ++ r).drop 2 = l.flatMap Spec.le16 ++ r := by
      rw [List.flatMap_cons, List.append_assoc]; exact List.drop_left' rfl
    rw [List.length_cons, adElems]
    simp only [AdFmt.size]
    rw [h1, h2, adElems_le16 l r, List.map_cons]
    congr 1
    unfold adVal
    rw [leNat_le16, if_neg (by simp [AdFmt.signed])]

theorem rdOffsets_length : ∀ (l : List Spec.RdBlk) (o : ℕ), (Spec.rdOffsets o l).length = l.length
  | [], _ => rfl
  | b :: l, o => by simp [Spec.rdOffsets, rdOffsets_length l]

theorem flatMap_le16_length (l : List ℕ) : (l.flatMap Spec.le16).length = 2 * l.length := by
  induction l with
  | nil => rfl
  | cons a l ih => rw [List.flatMap_cons, List.length_append, ih, List.length_cons]; simp [Spec.le16]; omega

theorem framed_length {e : Spec.RdEns} (h : e.Framed) : e.bytes.length = e.nbyte + 2 := by
  simp only [Spec.RdEns.bytes, Spec.RdEns.nbyte, List.length_append, flatMap_le16_length, rdOffsets_length, h.tail]
  simp [Spec.le16]
  omega

theorem RdEns_length {f : RdFixed} {e : Spec.RdEns} (h : e.Ok f) : e.bytes.length = e.nbyte + 2 :=
  framed_length h.framed

/-- The header of an ensemble. -/
theorem framed_hdrRaw {e : Spec.RdEns} {bs r : List ℕ} {start : ℕ} (h : e.Framed)
    (hd : bs.drop start = e.bytes ++ r) :
    rdHdrRaw bs ((start : ℤ) + 2) = .ok (e.nbyte, e.blks.length,
      (Spec.rdOffsets (6 + 2 * e.blks.length) e.blks).map (fun x : ℕ => (x : ℤ)),
      (start : ℤ) + 2 + 4 + 2 * e.blks.length) := by
  have hcount := h.count
  have d0 : bs.drop ((start : ℤ)).toNat = [127, 127] ++ (Spec.le16 e.nbyte ++ ([e.spare] ++ ([e.blks.length]
      ++ ((Spec.rdOffsets (6 + 2 * e.blks.length) e.blks).flatMap Spec.le16
      ++ (e.blks.flatMap Spec.RdBlk.bytes ++ e.tail)))) ++ r) := by
    rw [Int.toNat_natCast, hd, Spec.RdEns.bytes, List.append_assoc]
  have d1 := drop_toNat_add (by omega) d0
  rw [List.append_assoc] at d1
  have d2 := drop_toNat_add (by omega) d1
  rw [List.append_assoc] at d2
  have d3 := drop_toNat_add (by omega) d2
  rw [List.append_assoc] at d3
  have d4 := drop_toNat_add (by omega) d3
  rw [List.append_assoc] at d4
  simp only [List.length_cons, List.length_nil, Spec.le16, zero_add, Nat.reduceAdd, Nat.cast_ofNat,
    Nat.cast_one] at d1 d2 d3 d4
  have hl : ((Spec.rdOffsets (6 + 2 * e.blks.length) e.blks).flatMap Spec.le16).length = 2 * e.blks.length := by
    rw [flatMap_le16_length, rdOffsets_length]
  have hi : rdI16 [e.nbyte % 256, e.nbyte / 256] = e.nbyte := rdI16_le16 h.small
  have he := adElems_le16 (Spec.rdOffsets (6 + 2 * e.blks.length) e.blks) []
  rw [rdOffsets_length, List.append_nil] at he
  unfold rdHdrRaw
  rw [rdNeed_ok (n := 2) d1 rfl (by decide), rdNeed_ok (n := 1) d2 rfl (by decide),
    rdNeed_ok (n := 1) (p := (start : ℤ) + 2 + 3) (by rw [show (start : ℤ) + 2 + 3 = (start : ℤ) + 2 + 2 + 1 by ring]; exact d3)
      rfl (by decide)]
  simp only [List.getD_cons_zero]
  rw [rdBytes_ok (p := (start : ℤ) + 2 + 4)
    (by rw [show (start : ℤ) + 2 + 4 = (start : ℤ) + 2 + 2 + 1 + 1 by ring]; exact d4) hl (by omega)]
  simp only
  rw [hi, he]

theorem rdHdrRaw_ok {f : RdFixed} {e : Spec.RdEns} {bs r : List ℕ} {start : ℕ} (h : e.Ok f)
    (hd : bs.drop start = e.bytes ++ r) :
    rdHdrRaw bs ((start : ℤ) + 2) = .ok (e.nbyte, e.blks.length,
      (Spec.rdOffsets (6 + 2 * e.blks.length) e.blks).map (fun x : ℕ => (x : ℤ)),
      (start : ℤ) + 2 + 4 + 2 * e.blks.length) := framed_hdrRaw h.framed hd

/-- The header of an ensemble. -/
theorem framed_hdrseg {e : Spec.RdEns} {bs r : List ℕ} {start : ℕ} (h : e.Framed)
    (hd : bs.drop start = e.bytes ++ r) :
    rdHdrseg bs ((start : ℤ) + 2) = .ok (e.nbyte,
      (Spec.rdOffsets (6 + 2 * e.blks.length) e.blks).map (fun x : ℕ => (x : ℤ)),
      (start : ℤ) + 2 + 4 + 2 * e.blks.length) := by
  have hcount := h.count
  unfold rdHdrseg
  rw [framed_hdrRaw h hd]
  simp only
  rw [if_neg]
  rintro (h1 | h1)
  · omega
  · have := congrArg List.length h1
    rw [List.length_map, rdOffsets_length] at this
    simp at this
    rw [this] at hcount
    simp at hcount

theorem rdHdrseg_ok {f : RdFixed} {e : Spec.RdEns} {bs r : List ℕ} {start : ℕ} (h : e.Ok f)
    (hd : bs.drop start = e.bytes ++ r) :
    rdHdrseg bs ((start : ℤ) + 2) = .ok (e.nbyte,
      (Spec.rdOffsets (6 + 2 * e.blks.length) e.blks).map (fun x : ℕ => (x : ℤ)),
      (start : ℤ) + 2 + 4 + 2 * e.blks.length) := framed_hdrseg h.framed hd

/-- The state of the reader in front of an ensemble of a regular file. -/
structure RdReady (f : RdFixed) (n : ℕ) (s : RdState) : Prop where
  ens : s.ens = some (n, -1)
  cells : f.nCells ≤ n
  fix : s.fixoffset = 0
  source : s.source ≠ 2
  prog : s.prog = none
  win : s.winrivprob = false
  vmdas : s.vmdasSearch = false

/-- `RdReady` without a condition on the number of cells. -/
structure RdFront (n : ℕ) (s : RdState) : Prop where
  ens : s.ens = some (n, -1)
  fix : s.fixoffset = 0
  source : s.source ≠ 2
  prog : s.prog = none
  win : s.winrivprob = false
  vmdas : s.vmdasSearch = false

theorem RdReady.front {f : RdFixed} {n : ℕ} {s : RdState} (h : RdReady f n s) : RdFront n s :=
  ⟨h.ens, h.fix, h.source, h.prog, h.win, h.vmdas⟩

theorem rdBlocks_ens {env : RdEnv} {bs r : List ℕ} {f : RdFixed} {n : ℕ} {s : RdState} {e : Spec.RdEns}
    {start : ℕ} (hf : 0 < f.nCells) (he : e.Ok f) (hs : s.ens = some (n, -1))
    (hso : s.source ≠ 2) (hpr : s.prog = none) (hwi : s.winrivprob = false) (hnb : 0 ≤ start + s.hdrNbyte - 2)
    (hp : s.pos = start + (6 + 2 * e.blks.length : ℕ))
    (hd : bs.drop (start + (6 + 2 * e.blks.length)) = e.blks.flatMap Spec.RdBlk.bytes ++ r) :
    ∃ p nb, rdBlocks env bs
      ((Spec.rdOffsets (6 + 2 * e.blks.length) e.blks).map (fun x : ℕ => (x : ℤ))).tail
      (6 + 2 * e.blks.length : ℕ) s
      = .ok { s with pos := p, nbyte := nb, cfg := some f, ens := some (max n f.nCells, 0) } := by
  obtain ⟨fx, vr, rest, hb, hfx, hvid, hvl, hrest⟩ := he.shape
  generalize 6 + 2 * e.blks.length = bo at *
  rw [hb] at hd ⊢
  simp only [Spec.rdOffsets, List.map_cons, List.tail_cons]
  have hpn : s.pos.toNat = start + bo := by omega
  have hd1 : bs.drop s.pos.toNat = fx.bytes ++ ((vr :: rest).flatMap Spec.RdBlk.bytes ++ r) := by
    rw [hpn, hd, List.flatMap_cons, List.append_assoc]
  obtain ⟨p1, nb1, h1⟩ := rdBlock_fixed (env := env) hfx hs (by omega) hd1
  have e1 := (rdBlock_good hso (s' := { s with
    pos := p1, nbyte := nb1, cfg := some f, ens := some (max n f.nCells, -1) }) hwi h1).2.1
  simp only at e1
  rw [rdBlocks, h1]
  simp only
  rw [rdAdjust_ok (by simp only; omega)]
  simp only
  have hd2' : bs.drop (start + (bo + fx.bytes.length)) = vr.bytes ++ (rest.flatMap Spec.RdBlk.bytes ++ r) := by
    rw [← add_assoc, ← List.drop_drop, hd, List.flatMap_cons, List.append_assoc, List.drop_left' rfl,
      List.flatMap_cons, List.append_assoc]
  have hpos2 : p1 + (((bo + fx.bytes.length : ℕ) : ℤ) - (bo + nb1))
      = ((start + (bo + fx.bytes.length) : ℕ) : ℤ) := by push_cast; omega
  rw [hpos2]
  obtain ⟨p2, nb2, h2⟩ := rdBlock_var (env := env) (f := f) (n := max n f.nCells) (b := vr)
    (s := { s with
        pos := ((start + (bo + fx.bytes.length) : ℕ) : ℤ), nbyte := nb1, cfg := some f, ens := some (max n f.nCells, -1) })
    hvid hvl rfl rfl (by simp only; omega) (by simp only [Int.toNat_natCast]; exact hd2')
  have e2 := (rdBlock_good (s := { s with
    pos := ((start + (bo + fx.bytes.length) : ℕ) : ℤ), nbyte := nb1, cfg := some f, ens := some (max n f.nCells, -1) }) hso
    (s' := { s with pos := p2, nbyte := nb2, cfg := some f, ens := some (max n f.nCells, 0) }) hwi h2).2.1
  simp only at e2
  cases rest with
  | nil =>
    simp only [Spec.rdOffsets, List.map_nil]
    rw [rdBlocks, h2]
    simp only [hwi]
    rw [if_neg (by decide)]
    rw [rdAdjust_ok (by simp only; omega)]
    exact ⟨_, _, rfl⟩
  | cons b rest =>
    simp only [Spec.rdOffsets, List.map_cons]
    rw [rdBlocks, h2]
    simp only
    rw [rdAdjust_ok (by simp only; omega)]
    simp only
    have hd3 : bs.drop (start + (bo + fx.bytes.length + vr.bytes.length))
        = (b :: rest).flatMap Spec.RdBlk.bytes ++ r := by
      rw [← add_assoc, ← List.drop_drop, hd2', List.drop_left' rfl]
    obtain ⟨p3, nb3, h3⟩ := rdBlocks_rest (env := env) hf start rest b (bo + fx.bytes.length + vr.bytes.length)
      { s with
        pos := p2 + (((bo + fx.bytes.length + vr.bytes.length : ℕ) : ℤ) - (((bo + fx.bytes.length : ℕ) : ℤ) + nb2))
        nbyte := nb2, cfg := some f, ens := some (max n f.nCells, 0) } r
      ⟨rfl, ⟨max n f.nCells, 0, rfl, Nat.le_max_right _ _⟩, hso, hpr, hwi⟩ (by simp only; push_cast at e2 ⊢; omega) hnb hrest hd3
    exact ⟨p3, nb3, h3⟩

theorem rdBody_ok {env : RdEnv} {bs r : List ℕ} {f : RdFixed} {n : ℕ} {s : RdState} {e : Spec.RdEns}
    {start : ℕ} (hf : 0 < f.nCells) (he : e.Ok f) (hs : RdFront n s) (hd : bs.drop start = e.bytes ++ r) :
    ∃ nb, rdBody env bs ((start : ℤ) + 2) s = .ok { s with
      pos := ((start + e.bytes.length : ℕ) : ℤ), nbyte := nb, cfg := some f, ens := some (max n f.nCells, 0)
      hdrNbyte := e.nbyte, readVmdas := false } := by
  have hh := rdHdrseg_ok he hd
  have hol : (((Spec.rdOffsets (6 + 2 * e.blks.length) e.blks).map (fun x : ℕ => (x : ℤ))).length : ℤ)
      = e.blks.length := by rw [List.length_map, rdOffsets_length]
  have hd' : bs.drop (start + (6 + 2 * e.blks.length)) = e.blks.flatMap Spec.RdBlk.bytes ++ (e.tail ++ r) := by
    rw [← List.drop_drop, hd, Spec.RdEns.bytes]
    simp only [← List.append_assoc]
    rw [List.append_assoc (_ ++ e.blks.flatMap Spec.RdBlk.bytes), List.append_assoc]
    rw [List.drop_left']
    · rw [List.append_assoc]
    · simp only [List.length_append, flatMap_le16_length, rdOffsets_length]
      simp [Spec.le16]
  have hnb2 : 2 ≤ e.nbyte := by unfold Spec.RdEns.nbyte; omega
  obtain ⟨p, nb, hb⟩ := rdBlocks_ens (env := env)
    (s := { s with
      pos := (start : ℤ) + 2 + 4 + 2 * e.blks.length, nbyte := 4 + 2 * e.blks.length
      hdrNbyte := e.nbyte, readVmdas := false })
    hf he hs.ens hs.source hs.prog hs.win (by simp only; omega) (by simp only; push_cast; ring) hd'
  have hstart : (start : ℤ) + 2 + 4 + 2 * e.blks.length = start + ((6 + 2 * e.blks.length : ℕ) : ℤ) := by
    push_cast; ring
  have hpos := (rdBlocks_exact (start : ℤ) _ ((6 + 2 * e.blks.length : ℕ) : ℤ) { s with
      pos := (start : ℤ) + 2 + 4 + 2 * e.blks.length, nbyte := 4 + 2 * e.blks.length
      hdrNbyte := e.nbyte, readVmdas := false } _ hs.source hstart hb hs.win).1
  simp only at hpos
  have hlen := RdEns_length he
  unfold rdBody
  rw [hh]
  simp only [hol]
  rw [show (6 + 2 * (e.blks.length : ℤ)) = ((6 + 2 * e.blks.length : ℕ) : ℤ) by push_cast; ring, hb]
  simp only
  unfold rdVmdasAgain
  simp only [hs.vmdas, Bool.false_eq_true, false_and, if_false]
  unfold rdCheckOffset
  simp only [hs.fix, and_true]
  rw [if_neg (by rw [hpos]; intro hc; exact hc (by ring))]
  simp only [rdSeek]
  rw [if_neg (by omega)]
  refine ⟨nb, ?_⟩
  simp only [Except.map]
  have : p + (4 + 0) = ((start + e.bytes.length : ℕ) : ℤ) := by rw [hpos, hlen]; push_cast; ring
  rw [this]

/-! ### Searching -/

/-- In front of an ensemble that is followed by another one, the search succeeds at once. -/
theorem framed_search {e : Spec.RdEns} {bs r : List ℕ} {start : ℕ} (he : e.Framed)
    (hd : bs.drop start = e.bytes ++ (127 :: 127 :: r)) :
    rdSearch bs start = .ok (true, (start : ℤ) + 2) := by
  have d0 : bs.drop ((start : ℤ)).toNat = [127, 127] ++ (Spec.le16 e.nbyte ++ ([e.spare] ++ ([e.blks.length]
      ++ ((Spec.rdOffsets (6 + 2 * e.blks.length) e.blks).flatMap Spec.le16
      ++ (e.blks.flatMap Spec.RdBlk.bytes ++ e.tail)))) ++ (127 :: 127 :: r)) := by
    rw [Int.toNat_natCast, hd, Spec.RdEns.bytes, List.append_assoc]
  have d1 := drop_toNat_add (by omega) d0
  rw [List.append_assoc] at d1
  simp only [List.length_cons, List.length_nil, zero_add, Nat.reduceAdd, Nat.cast_ofNat] at d1
  have d9 : bs.drop ((start : ℤ) + 2 + e.nbyte).toNat = [127, 127] ++ r := by
    rw [show ((start : ℤ) + 2 + e.nbyte).toNat = start + e.bytes.length by rw [framed_length he]; omega,
      ← List.drop_drop, hd, List.drop_left' rfl]
    rfl
  have hpos : (0 : ℤ) < e.nbyte := by unfold Spec.RdEns.nbyte; push_cast; omega
  have hc : rdCheckheader bs ((start : ℤ) + 2) = .ok (true, (start : ℤ) + 2) := by
    unfold rdCheckheader
    rw [rdNeed_ok (n := 2) d1 rfl (by decide)]
    simp only [rdI16_le16 he.small, hpos, if_true]
    rw [rdBytes_ok (n := 2) d9 rfl (by decide)]
    rfl
  unfold rdSearch
  rw [rdBytes_ok (n := 2) d0 rfl (by decide)]
  simp only [List.getD_cons_zero, List.getD_cons_succ]
  rw [rdSearchLoop]
  unfold rdTest
  rw [if_pos ⟨rfl, rfl⟩, hc]

theorem rdSearch_ok {f : RdFixed} {e : Spec.RdEns} {bs r : List ℕ} {start : ℕ} (he : e.Ok f)
    (hd : bs.drop start = e.bytes ++ (127 :: 127 :: r)) :
    rdSearch bs start = .ok (true, (start : ℤ) + 2) := framed_search he.framed hd

/-- In front of the last ensemble of a file the search fails: there is no header behind it. -/
theorem framed_search_last {e : Spec.RdEns} {bs : List ℕ} {start : ℕ} (he : e.Framed)
    (hd : bs.drop start = e.bytes) : ∃ p, rdSearch bs start = .ok (false, p) := by
  have d0 : bs.drop ((start : ℤ)).toNat = [127, 127] ++ (Spec.le16 e.nbyte ++ ([e.spare] ++ ([e.blks.length]
      ++ ((Spec.rdOffsets (6 + 2 * e.blks.length) e.blks).flatMap Spec.le16
      ++ (e.blks.flatMap Spec.RdBlk.bytes ++ e.tail))))) := by
    rw [Int.toNat_natCast, hd, Spec.RdEns.bytes]
  have d1 := drop_toNat_add (by omega) d0
  simp only [List.length_cons, List.length_nil, zero_add, Nat.reduceAdd, Nat.cast_ofNat] at d1
  have d9 : bs.drop ((start : ℤ) + 2 + e.nbyte).toNat = [] := by
    rw [show ((start : ℤ) + 2 + e.nbyte).toNat = start + e.bytes.length by rw [framed_length he]; omega,
      ← List.drop_drop, hd, List.drop_length]
  have hpos : (0 : ℤ) < e.nbyte := by unfold Spec.RdEns.nbyte; push_cast; omega
  have heof : ∀ n, rdBytes bs ((start : ℤ) + 2 + e.nbyte) n = .ok none := by
    intro n
    unfold rdBytes rdChunk
    rw [d9]
    simp
  have hc : rdCheckheader bs ((start : ℤ) + 2) = .ok (false, (start : ℤ) + 2 + e.nbyte) := by
    unfold rdCheckheader
    rw [rdNeed_ok (n := 2) d1 rfl (by decide)]
    simp only [rdI16_le16 he.small, hpos, if_true]
    rw [heof]
  refine ⟨(start : ℤ) + 2 + e.nbyte, ?_⟩
  unfold rdSearch
  rw [rdBytes_ok (n := 2) d0 rfl (by decide)]
  simp only [List.getD_cons_zero, List.getD_cons_succ]
  rw [rdSearchLoop]
  unfold rdTest
  rw [if_pos ⟨rfl, rfl⟩, hc]
  simp only
  rw [heof]

theorem rdSearch_last {f : RdFixed} {e : Spec.RdEns} {bs : List ℕ} {start : ℕ} (he : e.Ok f)
    (hd : bs.drop start = e.bytes) : ∃ p, rdSearch bs start = .ok (false, p) := framed_search_last he.framed hd

/-! ### The number of ensembles -/

/-- The bytes of a file. -/
def Spec.rdFile (es : List Spec.RdEns) : List ℕ := es.flatMap Spec.RdEns.bytes

/-- The state of the reader between ensembles. -/
def RdBetween (f : RdFixed) (n : ℕ) (s : RdState) : Prop :=
  RdReady f n { s with ens := rdResetK s.ens, ensBB := rdResetK s.ensBB }

theorem bytes_cons2 (e : Spec.RdEns) : ∃ r, e.bytes = 127 :: 127 :: r := ⟨_, rfl⟩

/-- C51 (the code): of a file of `n` complete ensembles exactly `n - 1` are read, if the number of
ensembles asked for allows it. -/
theorem rdi_reads_all_but_last {env : RdEnv} {f : RdFixed} (hf : 0 < f.nCells) {cells fuel : ℕ} (hfuel : 2 ≤ fuel)
    {bs : List ℕ} : ∀ (nens : ℕ) (es : List Spec.RdEns) (start : ℕ) (s : RdState), (∀ e ∈ es, e.Ok f) →
    bs.drop start = Spec.rdFile es → s.pos = start → RdBetween f cells s →
    ∃ t, rdLoad env bs fuel nens s = some (.ok (min nens (es.length - 1), t))
  | 0, es, start, s, _, _, _, _ => ⟨s, by simp [rdLoad]⟩
  | nens + 1, [], start, s, _, hd, hp, hb => by
    refine ⟨s, ?_⟩
    obtain ⟨fu, rfl⟩ : ∃ fu, fuel = fu + 1 := ⟨fuel - 1, by omega⟩
    have hse : rdSearch bs s.pos = .ok (false, s.pos) := by
      unfold rdSearch rdBytes rdChunk
      rw [hp, Int.toNat_natCast, hd]
      simp [Spec.rdFile]
    have hens := hb.ens
    simp only at hens
    rw [rdLoad]
    unfold rdBuffer
    rw [rdBufferLoop]
    simp only [hens]
    rw [if_pos (by decide)]
    unfold rdEnsemble
    simp only [hse]
    simp
  | nens + 1, [e], start, s, hok, hd, hp, hb => by
    refine ⟨s, ?_⟩
    obtain ⟨fu, rfl⟩ : ∃ fu, fuel = fu + 1 := ⟨fuel - 1, by omega⟩
    have hd' : bs.drop start = e.bytes := by rw [hd]; simp [Spec.rdFile]
    obtain ⟨q, hse⟩ := rdSearch_last (hok e (by simp)) hd'
    have hens := hb.ens
    simp only at hens
    rw [rdLoad]
    unfold rdBuffer
    rw [rdBufferLoop]
    simp only [hens]
    rw [if_pos (by decide)]
    unfold rdEnsemble
    simp only [hp, hse]
    simp
  | nens + 1, e :: e' :: es, start, s, hok, hd, hp, hb => by
    obtain ⟨fu, rfl⟩ : ∃ fu, fuel = fu + 2 := ⟨fuel - 2, by omega⟩
    obtain ⟨r, hr⟩ := bytes_cons2 e'
    have hd' : bs.drop start = e.bytes ++ (Spec.rdFile (e' :: es)) := by
      rw [hd, Spec.rdFile, List.flatMap_cons]; rfl
    have hd'' : bs.drop start = e.bytes ++ (127 :: 127 :: (r ++ es.flatMap Spec.RdEns.bytes)) := by
      rw [hd', Spec.rdFile, List.flatMap_cons, hr]; rfl
    have hse := rdSearch_ok (hok e (by simp)) hd''
    obtain ⟨nb, hbody⟩ := rdBody_ok (env := env) hf (hok e (by simp)) hb.front hd'
    rw [Nat.max_eq_left hb.cells] at hbody
    have hens := hb.ens
    simp only at hens
    set s1 : RdState := { s with
      ens := some (cells, 0), ensBB := rdResetK s.ensBB
      pos := ((start + e.bytes.length : ℕ) : ℤ), nbyte := nb, cfg := some f
      hdrNbyte := e.nbyte, readVmdas := false } with hs1
    have hbuf : rdBuffer env bs (fu + 2) s = some (.ok (some s1)) := by
      unfold rdBuffer
      rw [rdBufferLoop]
      simp only [hens]
      rw [if_pos (by decide)]
      have hre : rdEnsemble env bs { s with ens := some (cells, -1), ensBB := rdResetK s.ensBB }
          = .ok (some s1) := by
        unfold rdEnsemble
        simp only [hp, hse]
        have hb' := hbody
        rw [hens] at hb'
        rw [hp] at hb'
        rw [hb']
        rfl
      rw [hre]
      simp only
      rw [rdBufferLoop]
      simp only [hs1]
      rw [if_neg (by decide)]
    have hbet : RdBetween f cells s1 := by
      refine ⟨rfl, hb.cells, hb.fix, hb.source, hb.prog, hb.win, hb.vmdas⟩
    have hd2 : bs.drop (start + e.bytes.length) = Spec.rdFile (e' :: es) := by
      rw [← List.drop_drop, hd', List.drop_left' rfl]
    obtain ⟨t, ht⟩ := rdi_reads_all_but_last (env := env) hf hfuel nens (e' :: es) (start + e.bytes.length) s1
      (fun x hx => hok x (by simp at hx ⊢; tauto)) hd2 rfl hbet
    refine ⟨t, ?_⟩
    rw [rdLoad, hbuf]
    simp only [ht]
    congr 3
    simp only [List.length_cons]
    omega

/-- C51 is false: no file of complete ensembles, however long, has all of them read. -/
theorem rdi_reads_all_false {env : RdEnv} {f : RdFixed} (hf : 0 < f.nCells) {cells nens : ℕ}
    {es : List Spec.RdEns} (hne : es ≠ []) (hok : ∀ e ∈ es, e.Ok f) {s : RdState} (hp : s.pos = 0)
    (hs : RdBetween f cells s) :
    ∃ m t, rdLoad env (Spec.rdFile es) 2 nens s = some (.ok (m, t)) ∧ m < es.length := by
  obtain ⟨t, ht⟩ := rdi_reads_all_but_last (env := env) (bs := Spec.rdFile es) hf (le_refl 2) nens es 0 s hok rfl
    (by simpa using hp) hs
  refine ⟨_, t, ht, ?_⟩
  have : 0 < es.length := List.length_pos_of_ne_nil hne
  omega

/-- A complete ensemble of one cell: leaders, velocity and an unused block. -/
def rdExampleEns : Spec.RdEns :=
  ⟨0, [⟨0, [16, 28, 0, 0, 0, 0, 4, 1] ++ List.replicate 51 0⟩, ⟨128, List.replicate 65 7⟩,
    ⟨256, [1, 2, 3, 4, 5, 6, 7, 8]⟩, ⟨524, [1, 2]⟩], [0, 0, 9, 9]⟩

set_option maxRecDepth 10000 in
theorem rdExampleEns_ok : rdExampleEns.Ok ⟨16, 1628, 1⟩ where
  tail := rfl
  small := by decide
  count := by decide
  shape := by
    refine ⟨_, _, _, rfl, ?_, rfl, by decide, ?_⟩
    · unfold Spec.rdFixedBlk; decide
    · intro b hb
      fin_cases hb
      · exact ⟨by decide, 8, by decide, by decide⟩
      · exact ⟨by decide, 0, by decide, by decide⟩

example : RdBetween ⟨16, 1628, 1⟩ 1 rdStart := ⟨rfl, le_refl _, rfl, by decide, rfl, rfl, rfl⟩

/-- Three ensembles: two are read. -/
example : (rdLoad rdYes (Spec.rdFile [rdExampleEns, rdExampleEns, rdExampleEns]) 2 10 rdStart).map
    (fun r => r.map (·.1)) = some (.ok 2) := by
  decide +kernel

end Dolfyn
