import Verif.Model.RdiVals
import Verif.Props.RdiInit
import Verif.Props.Ad2cp

/-!
The values that the TRDI reader returns (C122).
-/

namespace Dolfyn

/-! ### The memory does not influence the reading -/

theorem rdBlockV_fst (env : RdEnv) (bs : List ℕ) (s : RdState) (m : RdMem) :
    (rdBlockV env bs s m).map (fun x => (x.1, x.2.2)) = rdBlock env bs s := by
  unfold rdBlockV rdBlock
  cases rdNeed bs s.pos 2 with
  | error e => rfl
  | ok c =>
    simp only
    cases rdDat env bs (leNat c) { s with pos := s.pos + 2 } with
    | error e => rfl
    | ok x => rfl

theorem rdBlocksV_fst (env : RdEnv) (bs : List ℕ) : ∀ (os : List ℤ) (bo : ℤ) (s : RdState) (m : RdMem),
    (rdBlocksV env bs os bo s m).map (·.1) = rdBlocks env bs os bo s
  | [], bo, s, m => by
    rw [rdBlocksV, rdBlocks, ← rdBlockV_fst env bs s m]
    rcases rdBlockV env bs s m with e | ⟨s', m', b⟩
    · rfl
    · cases b
      · simp only [Except.map]
        split_ifs
        · rfl
        · cases rdAdjust s' (s'.hdrNbyte - 2 - (bo + s'.nbyte)) <;> rfl
      · rfl
  | o :: os, bo, s, m => by
    rw [rdBlocksV, rdBlocks, ← rdBlockV_fst env bs s m]
    rcases rdBlockV env bs s m with e | ⟨s', m', b⟩
    · rfl
    · cases b
      · simp only [Except.map]
        cases rdAdjust s' (o - (bo + s'.nbyte)) with
        | error e => rfl
        | ok s'' => exact rdBlocksV_fst env bs os o s'' m'
      · rfl

theorem rdBodyV_fst (env : RdEnv) (bs : List ℕ) (p : ℤ) (s : RdState) (m : RdMem) :
    (rdBodyV env bs p s m).map (·.1) = rdBody env bs p s := by
  unfold rdBodyV rdBody
  cases rdHdrseg bs p with
  | error e => rfl
  | ok x =>
    obtain ⟨nb, offs, q⟩ := x
    simp only
    rw [← rdBlocksV_fst env bs _ _ _ m]
    rcases rdBlocksV env bs offs.tail (6 + 2 * offs.length)
      { s with pos := q, nbyte := 4 + 2 * offs.length, hdrNbyte := nb, readVmdas := false } m with e | ⟨s1, m1⟩
    · rfl
    · simp only [Except.map]
      cases rdVmdasAgain env bs s1 with
      | error e => rfl
      | ok s2 =>
        simp only
        cases rdCheckOffset (s2.hdrNbyte + 2 - (s2.pos - (p - 2))) s2 <;> rfl

theorem rdBufferLoopV_fst (env : RdEnv) (bs : List ℕ) : ∀ (n : ℕ) (s : RdState) (m : RdMem),
    (rdBufferLoopV env bs n s m).map (fun r => r.map fun o => o.map (·.1)) = rdBufferLoop env bs n s
  | 0, _, _ => rfl
  | n + 1, s, m => by
    rw [rdBufferLoopV, rdBufferLoop]
    cases s.ens with
    | none => rfl
    | some x =>
      obtain ⟨c, k⟩ := x
      simp only
      by_cases hk : k < 0
      · rw [if_pos hk, if_pos hk]
        unfold rdEnsembleV rdEnsemble
        rcases rdSearch bs s.pos with e | ⟨b, p⟩
        · rfl
        · cases b
          · rfl
          · simp only
            rw [← rdBodyV_fst env bs p s m]
            rcases rdBodyV env bs p s m with e | ⟨s', m'⟩
            · rfl
            · simp only [Except.map]
              exact rdBufferLoopV_fst env bs n s' m'
      · rw [if_neg hk, if_neg hk]
        rfl

/-- The reading with values moves through the file exactly as the reading without: same ensembles, same
errors. -/
theorem rdBufferV_fst (env : RdEnv) (bs : List ℕ) (fuel : ℕ) (s : RdState) (m : RdMem) :
    (rdBufferV env bs fuel s m).map (fun r => r.map fun o => o.map (·.1)) = rdBuffer env bs fuel s :=
  rdBufferLoopV_fst env bs fuel _ m

/-! ### Storing a block -/

/-- What a block of a regular file stores. -/
def blkStore (f : RdFixed) (b : Spec.RdBlk) (m : RdMem) : RdMem := rdStore f 0 f.nCells 0 b.id b.pl m

theorem rdAt_append {fmt : AdFmt} {c r : List ℕ} {i : ℕ} (h : i + fmt.size ≤ c.length) :
    rdAt fmt (c ++ r) i = rdAt fmt c i := by
  unfold rdAt
  rw [List.drop_append_of_le_length (by omega), List.take_append_of_le_length (by rw [List.length_drop]; omega)]

theorem perBeam_congr {k : ℕ} {g h : ℕ → ℚ} (e : ∀ b < k, g b = h b) : perBeam k g = perBeam k h := by
  funext c b
  unfold perBeam
  split_ifs with hb
  · rw [e b hb]
  · rfl

theorem rdVarVals_append {f : RdFixed} {c r : List ℕ} (h : 54 ≤ c.length) (v : RdVals) :
    rdVarVals f (c ++ r) v = rdVarVals f c v := by
  have a : ∀ fmt i, i + 4 ≤ 54 → rdAt fmt (c ++ r) i = rdAt fmt c i := by
    intro fmt i hi
    apply rdAt_append
    have : fmt.size ≤ 4 := by cases fmt <;> simp [AdFmt.size]
    omega
  unfold rdVarVals
  rw [a .H 0 (by decide), a .B 9 (by decide), a .H 10 (by decide), a .H 12 (by decide), a .H 14 (by decide),
    a .H 16 (by decide), a .h 18 (by decide), a .h 20 (by decide), a .h 22 (by decide), a .h 24 (by decide),
    a .B 26 (by decide), a .B 27 (by decide), a .B 28 (by decide), a .B 29 (by decide), a .B 30 (by decide),
    a .B 31 (by decide), a .I 50 (by decide), a .I 46 (by decide)]
  rw [perBeam_congr (g := fun j => ((rdAt .b (c ++ r) (32 + j) % 256 : ℤ) : ℚ))
    (h := fun j => ((rdAt .b c (32 + j) % 256 : ℤ) : ℚ)) (fun b hb => by rw [a .b (32 + b) (by omega)])]

theorem rdVarClock_append {f : RdFixed} {c r : List ℕ} (h : 63 ≤ c.length) :
    rdVarClock f (c ++ r) = rdVarClock f c := by
  funext i
  have a : ∀ j, j < 63 → (c ++ r).getD j 0 = c.getD j 0 := by
    intro j hj
    rw [List.getD_append _ _ _ _ (by omega)]
  unfold rdVarClock
  by_cases hi : 7 ≤ i
  · rw [if_pos hi, if_pos hi]
  rw [a 56 (by omega), a 55 (by omega), a (56 + i) (by omega), a (2 + i) (by omega)]

theorem rdCellVals_append {fmt : AdFmt} {scale : ℚ} {n : ℕ} {c r : List ℕ} (h : 4 * n * fmt.size ≤ c.length)
    (old : ℕ → ℕ → Option ℚ) : rdCellVals fmt scale n (c ++ r) old = rdCellVals fmt scale n c old := by
  funext cell beam
  unfold rdCellVals
  split_ifs with hc
  · rw [rdAt_append]
    refine le_trans ?_ h
    have : 4 * cell + beam + 1 ≤ 4 * n := by omega
    calc (4 * cell + beam) * fmt.size + fmt.size = (4 * cell + beam + 1) * fmt.size := by ring
      _ ≤ 4 * n * fmt.size := Nat.mul_le_mul_right _ this
  · rfl

theorem rdBottomVals_append {f : RdFixed} {c r : List ℕ} (h : 68 ≤ c.length) (h' : 530 ≤ f.ver → 79 ≤ c.length)
    (v : RdVals) : rdBottomVals f (c ++ r) v = rdBottomVals f c v := by
  have a : ∀ fmt i, i + fmt.size ≤ 68 → rdAt fmt (c ++ r) i = rdAt fmt c i :=
    fun fmt i hi => rdAt_append (by omega)
  have hm : ∀ b < 4, (if 530 ≤ f.ver then (rdAt .B (c ++ r) (75 + b) : ℚ) * (65536 / 100) else 0)
      = if 530 ≤ f.ver then (rdAt .B c (75 + b) : ℚ) * (65536 / 100) else 0 := by
    intro b hb
    by_cases hv : 530 ≤ f.ver
    · rw [if_pos hv, if_pos hv, rdAt_append (by have := h' hv; simp only [AdFmt.size]; omega)]
    · rw [if_neg hv, if_neg hv]
  unfold rdBottomVals rdBottomValsAt
  simp only
  congr 1
  · exact perBeam_congr fun b hb => by rw [a .B (38 + b) (by simp only [AdFmt.size]; omega)]
  congr 1
  · exact perBeam_congr fun b hb => by rw [a .B (34 + b) (by simp only [AdFmt.size]; omega)]
  congr 1
  · exact perBeam_congr fun b hb => by rw [a .B (30 + b) (by simp only [AdFmt.size]; omega)]
  congr 1
  · exact perBeam_congr fun b hb => by rw [a .h (22 + 2 * b) (by simp only [AdFmt.size]; omega)]
  congr 1
  exact perBeam_congr fun b hb => by rw [a .H (14 + 2 * b) (by simp only [AdFmt.size]; omega), hm b hb]

theorem rdAltVals_append {c r : List ℕ} (h : 7 ≤ c.length) (v : RdVals) :
    rdAltVals (c ++ r) v = rdAltVals c v := by
  have a : ∀ fmt i, i + fmt.size ≤ 7 → rdAt fmt (c ++ r) i = rdAt fmt c i :=
    fun fmt i hi => rdAt_append (by omega)
  unfold rdAltVals
  rw [a .B 0 (by decide), a .B 1 (by decide), a .I 2 (by decide), a .B 6 (by decide)]

/-- A block of a regular file other than the leaders stores its payload. -/
theorem rdStoreAt_blk {bs r : List ℕ} {f : RdFixed} {s s' : RdState} {b : Spec.RdBlk} {k : ℕ} (m : RdMem)
    (hi : RdInv f s) (hens : s'.ens = s.ens) (hm : Spec.rdMin f b.id = some k) (hl : k ≤ b.pl.length)
    (hd : bs.drop s.pos.toNat = b.pl ++ r) : rdStoreAt bs b.id s s' m = blkStore f b m := by
  obtain ⟨id, pl⟩ := b
  simp only at hm hl hd ⊢
  obtain ⟨n, kk, he, hn⟩ := hi.ens
  unfold rdStoreAt blkStore
  rw [hi.cfg, hens, Nat.sub_self, hd]
  simp only [Option.getD_some]
  have hprof : ∀ j, rdProfileOf j = 0 → rdCellsOf j s = f.nCells := by
    intro j hj
    unfold rdCellsOf rdProfile
    rw [hj, if_neg (by decide), if_neg (by decide), he, hi.cfg]
  unfold Spec.rdMin at hm
  have hsrc : s.source ≠ 2 := hi.source
  have cell : ∀ nm fmt q, rdCellInfo id = some (nm, fmt, q, 0) → 4 * f.nCells * fmt.size ≤ pl.length →
      id ≠ 0 → id ≠ 1 → id ≠ 128 → id ≠ 129 → id ≠ 1536 → id ≠ 16640 →
      rdStore f s.source (rdCellsOf id s) 0 id (pl ++ r) m = rdStore f 0 f.nCells 0 id pl m := by
    intro nm fmt q hinfo hlen h0 h1 h2 h3 h4 h5
    rw [hprof id (by unfold rdProfileOf; rw [hinfo]; rfl)]
    unfold rdStore
    simp only [h0, h1, h2, h3, h4, h5, false_or, if_false, hinfo]
    unfold rdStoreCells
    simp only [Nat.zero_ne_one, if_false]
    rw [rdCellVals_append hlen]
  by_cases h256 : id = 256
  · rw [if_pos h256] at hm
    have := Option.some.inj hm
    exact cell .vel .h (1 / 1000) (by rw [h256]; rfl) (by simp only [AdFmt.size]; omega) (by omega) (by omega)
      (by omega) (by omega) (by omega) (by omega)
  rw [if_neg h256] at hm
  by_cases h4 : id ∈ [512, 768, 1024, 1280]
  · rw [if_pos h4] at hm
    have := Option.some.inj hm
    have hlen : 4 * f.nCells * AdFmt.B.size ≤ pl.length := by simp only [AdFmt.size]; omega
    simp only [List.mem_cons, List.not_mem_nil, or_false] at h4
    rcases h4 with h | h | h | h
    · exact cell .corr .B 1 (by rw [h]; rfl) hlen (by omega) (by omega) (by omega) (by omega) (by omega) (by omega)
    · exact cell .amp .B 1 (by rw [h]; rfl) hlen (by omega) (by omega) (by omega) (by omega) (by omega) (by omega)
    · exact cell .prcntGd .B 1 (by rw [h]; rfl) hlen (by omega) (by omega) (by omega) (by omega) (by omega) (by omega)
    · exact cell .status .B 1 (by rw [h]; rfl) hlen (by omega) (by omega) (by omega) (by omega) (by omega) (by omega)
  rw [if_neg h4] at hm
  by_cases hbt : id = 1536
  · rw [if_pos hbt] at hm
    have hk := Option.some.inj hm
    subst hbt
    unfold rdStore
    simp only [hsrc, OfNat.ofNat_ne_zero, OfNat.ofNat_ne_one, Nat.reduceEqDiff, false_or, if_false, if_true]
    rw [rdBottomVals_append (by omega) (fun hv => by rw [if_pos hv] at hk; omega)]
  rw [if_neg hbt] at hm
  by_cases hal : id = 16640
  · rw [if_pos hal] at hm
    have hk := Option.some.inj hm
    subst hal
    unfold rdStore
    simp only [OfNat.ofNat_ne_zero, OfNat.ofNat_ne_one, Nat.reduceEqDiff, false_or, if_false, if_true]
    rw [rdAltVals_append (by omega)]
  rw [if_neg hal] at hm
  by_cases hsk : id ∈ [259, 515, 524, 1027, 3000, 3841, 8211, 12800, 12288, 12496, 12504, 17408, 17409, 22531,
    22532, 22785, 22786, 28673, 770, 771, 1793, 1794, 1795, 2560, 2816, 3072, 3328]
  · have hno : ∀ j ∈ [259, 515, 524, 1027, 3000, 3841, 8211, 12800, 12288, 12496, 12504, 17408, 17409, 22531,
        22532, 22785, 22786, 28673, 770, 771, 1793, 1794, 1795, 2560, 2816, 3072, 3328],
        j ≠ 0 ∧ j ≠ 1 ∧ j ≠ 128 ∧ j ≠ 129 ∧ j ≠ 1536 ∧ j ≠ 16640 ∧ rdCellInfo j = none := by decide
    obtain ⟨h0, h1, h2, h3, h5, h6, h7⟩ := hno id hsk
    unfold rdStore
    simp only [h0, h1, h2, h3, h5, h6, h7, false_or, if_false]
  · rw [if_neg hsk] at hm
    exact absurd hm (by simp)

/-- What the enlargement of the ensemble by `d` cells does to the memory. -/
def growMem (d : ℕ) (m : RdMem) : RdMem := if d = 0 then m else { m with nb := rdZeros, rtc := fun _ => 0, flag := d }

theorem growMem_zero (m : RdMem) : growMem 0 m = m := if_pos rfl

theorem rdStoreAt_fixed {bs r : List ℕ} {f : RdFixed} {s s' : RdState} {b : Spec.RdBlk} (m : RdMem) {d : ℕ}
    (hens : ensCells s'.ens - ensCells s.ens = d) (hid : b.id = 0) (hl : 57 ≤ b.pl.length)
    (hd : bs.drop s.pos.toNat = b.pl ++ r) : rdStoreAt bs b.id s s' m = blkStore f b (growMem d m) := by
  unfold rdStoreAt blkStore rdStore growMem
  rw [hens, hid, hd]
  simp only [true_or, if_true, rdKeep]
  rw [List.take_append_of_le_length hl]
  split_ifs <;> rfl

theorem rdStoreAt_var {bs r : List ℕ} {f : RdFixed} {s s' : RdState} {b : Spec.RdBlk} (m : RdMem)
    (hc : s.cfg = some f) (hid : b.id = 128) (hl : 65 ≤ b.pl.length)
    (hd : bs.drop s.pos.toNat = b.pl ++ r) : rdStoreAt bs b.id s s' m = blkStore f b m := by
  unfold rdStoreAt blkStore rdStore
  rw [hid, hc, hd]
  simp only [OfNat.ofNat_ne_zero, OfNat.ofNat_ne_one, false_or, if_false, true_or, if_true, Option.getD_some]
  rw [rdVarVals_append (by omega), rdVarClock_append (by omega)]

theorem rdBlockV_of {env : RdEnv} {bs : List ℕ} {s s' : RdState} {fail : Bool} {b : Spec.RdBlk} {r : List ℕ}
    (m : RdMem) (hd : bs.drop s.pos.toNat = b.bytes ++ r) (h : rdBlock env bs s = .ok (s', fail)) :
    rdBlockV env bs s m = .ok (s', rdStoreAt bs b.id { s with pos := s.pos + 2 } s' m, fail) := by
  have h2 : rdNeed bs s.pos 2 = .ok (Spec.le16 b.id) := by
    refine rdNeed_ok (r := b.pl ++ r) ?_ rfl (by decide)
    rw [hd, Spec.RdBlk.bytes, List.append_assoc]
  unfold rdBlock at h
  unfold rdBlockV
  rw [h2] at h ⊢
  simp only [leNat_le16] at h ⊢
  rw [h]

theorem blk_payload {bs r : List ℕ} {p : ℤ} {b : Spec.RdBlk} (h0 : 0 ≤ p) (hd : bs.drop p.toNat = b.bytes ++ r) :
    bs.drop (p + 2).toNat = b.pl ++ r := by
  have := drop_toNat_add (c := Spec.le16 b.id) (r := b.pl ++ r) h0 (by
    rw [hd, Spec.RdBlk.bytes, List.append_assoc])
  simpa [Spec.le16] using this

/-! ### Storing an ensemble -/

/-- What the blocks of an ensemble store, in order. -/
def ensStore (f : RdFixed) (bs : List Spec.RdBlk) (m : RdMem) : RdMem := bs.foldl (fun m b => blkStore f b m) m

theorem rdBlocksV_rest {env : RdEnv} {bs : List ℕ} {f : RdFixed} (hf : 0 < f.nCells) (start : ℕ) :
    ∀ (rest : List Spec.RdBlk) (b : Spec.RdBlk) (bo : ℕ) (s : RdState) (m : RdMem) (r : List ℕ), RdInv f s →
    s.pos = start + bo → 0 ≤ start + s.hdrNbyte - 2 →
    (∀ x ∈ b :: rest, x.id < 65536 ∧ ∃ m, Spec.rdMin f x.id = some m ∧ m ≤ x.pl.length) →
    bs.drop (start + bo) = (b :: rest).flatMap Spec.RdBlk.bytes ++ r →
    ∃ t, rdBlocksV env bs ((Spec.rdOffsets (bo + b.bytes.length) rest).map (fun x : ℕ => (x : ℤ))) bo s m
      = .ok (t, ensStore f (b :: rest) m)
  | [], b, bo, s, m, r, hi, hp, hh, hx, hd => by
    obtain ⟨_, k, hm, hl⟩ := hx b (by simp)
    have hpn : s.pos.toNat = start + bo := by omega
    rw [← hpn] at hd
    rw [List.flatMap_cons, List.flatMap_nil, List.append_nil] at hd
    obtain ⟨p, nb, h⟩ := rdBlock_ok (env := env) hf hi (by omega) hm hl hd
    have hpe := (rdBlock_good hi.source (s' := { s with pos := p, nbyte := nb }) hi.win h).2.1
    simp only at hpe
    simp only [Spec.rdOffsets, List.map_nil]
    rw [rdBlocksV, rdBlockV_of m hd h]
    simp only
    rw [rdStoreAt_blk (f := f) (s := { s with pos := s.pos + 2 }) (s' := { s with pos := p, nbyte := nb }) m ⟨hi.cfg, hi.ens, hi.source, hi.prog, hi.win⟩ rfl hm hl
      (blk_payload (by omega) hd)]
    simp only [hi.win]
    rw [if_neg (by decide)]
    rw [rdAdjust_ok (by simp only; omega)]
    exact ⟨_, rfl⟩
  | b' :: rest, b, bo, s, m, r, hi, hp, hh, hx, hd => by
    obtain ⟨_, k, hm, hl⟩ := hx b (by simp)
    have hpn : s.pos.toNat = start + bo := by omega
    have hd' := hd
    rw [← hpn] at hd
    rw [List.flatMap_cons, List.append_assoc] at hd
    obtain ⟨p, nb, h⟩ := rdBlock_ok (env := env) hf hi (by omega) hm hl hd
    have hpe := (rdBlock_good hi.source (s' := { s with pos := p, nbyte := nb }) hi.win h).2.1
    simp only at hpe
    simp only [Spec.rdOffsets, List.map_cons]
    rw [rdBlocksV, rdBlockV_of m hd h]
    simp only
    rw [rdAdjust_ok (by simp only; omega)]
    simp only
    have hd2 : bs.drop (start + (bo + b.bytes.length)) = (b' :: rest).flatMap Spec.RdBlk.bytes ++ r := by
      rw [← add_assoc, ← List.drop_drop, hd', List.flatMap_cons, List.append_assoc, List.drop_left' rfl]
    rw [rdStoreAt_blk (f := f) (s := { s with pos := s.pos + 2 }) (s' := { s with pos := p, nbyte := nb }) m ⟨hi.cfg, hi.ens, hi.source, hi.prog, hi.win⟩ rfl hm hl
      (blk_payload (by omega) hd)]
    exact rdBlocksV_rest hf start rest b' (bo + b.bytes.length)
      { s with pos := p + (((bo + b.bytes.length : ℕ) : ℤ) - (bo + nb)), nbyte := nb } (blkStore f b m) r
      ⟨hi.cfg, hi.ens, hi.source, hi.prog, hi.win⟩ (by simp only; push_cast; omega) hh
      (fun x hxm => hx x (by simp at hxm ⊢; tauto)) hd2

theorem rdBlocksV_ens {env : RdEnv} {bs r : List ℕ} {f : RdFixed} {n : ℕ} {s : RdState} {e : Spec.RdEns}
    {start : ℕ} (m : RdMem) (hf : 0 < f.nCells) (he : e.Ok f) (hs : s.ens = some (n, -1))
    (hso : s.source ≠ 2) (hpr : s.prog = none) (hwi : s.winrivprob = false) (hnb : 0 ≤ start + s.hdrNbyte - 2)
    (hp : s.pos = start + (6 + 2 * e.blks.length : ℕ))
    (hd : bs.drop (start + (6 + 2 * e.blks.length)) = e.blks.flatMap Spec.RdBlk.bytes ++ r) :
    ∃ t, rdBlocksV env bs
      ((Spec.rdOffsets (6 + 2 * e.blks.length) e.blks).map (fun x : ℕ => (x : ℤ))).tail
      (6 + 2 * e.blks.length : ℕ) s m = .ok (t, ensStore f e.blks (growMem (f.nCells - n) m)) := by
  obtain ⟨fx, vr, rest, hb, hfx, hvid, hvl, hrest⟩ := he.shape
  generalize 6 + 2 * e.blks.length = bo at *
  rw [hb] at hd ⊢
  simp only [Spec.rdOffsets, List.map_cons, List.tail_cons]
  have hpn : s.pos.toNat = start + bo := by omega
  have hd1 : bs.drop s.pos.toNat = fx.bytes ++ ((vr :: rest).flatMap Spec.RdBlk.bytes ++ r) := by
    rw [hpn, hd, List.flatMap_cons, List.append_assoc]
  obtain ⟨p1, nb1, h1⟩ := rdBlock_fixed (env := env) hfx hs (by omega) hd1
  have e1 := (rdBlock_good hso (s' := { s with
    pos := p1, nbyte := nb1, cfg := some f, ens := some (max n f.nCells, -1) }) hwi h1).2.1
  simp only at e1
  rw [rdBlocksV, rdBlockV_of m hd1 h1]
  simp only
  rw [rdAdjust_ok (by simp only; omega)]
  simp only
  rw [rdStoreAt_fixed (f := f) (s := { s with pos := s.pos + 2 })
    (s' := { s with
    pos := p1, nbyte := nb1, cfg := some f, ens := some (max n f.nCells, -1) }) m (d := f.nCells - n)
    (by simp only [ensCells, hs, Option.map_some, Option.getD_some]; omega) hfx.1 hfx.2.1
    (blk_payload (by omega) hd1)]
  have hd2' : bs.drop (start + (bo + fx.bytes.length)) = vr.bytes ++ (rest.flatMap Spec.RdBlk.bytes ++ r) := by
    rw [← add_assoc, ← List.drop_drop, hd, List.flatMap_cons, List.append_assoc, List.drop_left' rfl,
      List.flatMap_cons, List.append_assoc]
  have hpos2 : p1 + (((bo + fx.bytes.length : ℕ) : ℤ) - (bo + nb1))
      = ((start + (bo + fx.bytes.length) : ℕ) : ℤ) := by push_cast; omega
  rw [hpos2]
  have hd2'' : bs.drop (((start + (bo + fx.bytes.length) : ℕ) : ℤ)).toNat
      = vr.bytes ++ (rest.flatMap Spec.RdBlk.bytes ++ r) := by rw [Int.toNat_natCast]; exact hd2'
  obtain ⟨p2, nb2, h2⟩ := rdBlock_var (env := env) (f := f) (n := max n f.nCells) (b := vr)
    (s := { s with
        pos := ((start + (bo + fx.bytes.length) : ℕ) : ℤ), nbyte := nb1, cfg := some f, ens := some (max n f.nCells, -1) })
    hvid hvl rfl rfl (by simp only; omega) hd2''
  have e2 := (rdBlock_good (s := { s with
    pos := ((start + (bo + fx.bytes.length) : ℕ) : ℤ), nbyte := nb1, cfg := some f, ens := some (max n f.nCells, -1) }) hso
    (s' := { s with pos := p2, nbyte := nb2, cfg := some f, ens := some (max n f.nCells, 0) }) hwi h2).2.1
  simp only at e2
  have hst : rdStoreAt bs vr.id { s with
      pos := ((start + (bo + fx.bytes.length) : ℕ) : ℤ) + 2, nbyte := nb1, cfg := some f, ens := some (max n f.nCells, -1) }
      { s with pos := p2, nbyte := nb2, cfg := some f, ens := some (max n f.nCells, 0) } (blkStore f fx (growMem (f.nCells - n) m))
      = blkStore f vr (blkStore f fx (growMem (f.nCells - n) m)) :=
    rdStoreAt_var (blkStore f fx (growMem (f.nCells - n) m)) rfl hvid hvl (blk_payload (by omega) hd2'')
  cases rest with
  | nil =>
    simp only [Spec.rdOffsets, List.map_nil]
    rw [rdBlocksV, rdBlockV_of _ hd2'' h2]
    simp only
    rw [hst]
    simp only [hwi]
    rw [if_neg (by decide)]
    rw [rdAdjust_ok (by simp only; omega)]
    exact ⟨_, rfl⟩
  | cons b rest =>
    simp only [Spec.rdOffsets, List.map_cons]
    rw [rdBlocksV, rdBlockV_of _ hd2'' h2]
    simp only
    rw [rdAdjust_ok (by simp only; omega), hst]
    simp only
    have hd3 : bs.drop (start + (bo + fx.bytes.length + vr.bytes.length))
        = (b :: rest).flatMap Spec.RdBlk.bytes ++ r := by
      rw [← add_assoc, ← List.drop_drop, hd2', List.drop_left' rfl]
    exact rdBlocksV_rest (env := env) hf start rest b (bo + fx.bytes.length + vr.bytes.length)
      { s with
        pos := p2 + (((bo + fx.bytes.length + vr.bytes.length : ℕ) : ℤ) - (((bo + fx.bytes.length : ℕ) : ℤ) + nb2))
        nbyte := nb2, cfg := some f, ens := some (max n f.nCells, 0) } _ r
      ⟨rfl, ⟨max n f.nCells, 0, rfl, Nat.le_max_right _ _⟩, hso, hpr, hwi⟩ (by simp only; push_cast at e2 ⊢; omega) hnb hrest hd3

theorem rdBodyV_ok {env : RdEnv} {bs r : List ℕ} {f : RdFixed} {n : ℕ} {s : RdState} {e : Spec.RdEns}
    {start : ℕ} (m : RdMem) (hf : 0 < f.nCells) (he : e.Ok f) (hs : RdFront n s)
    (hd : bs.drop start = e.bytes ++ r) :
    ∃ nb, rdBodyV env bs ((start : ℤ) + 2) s m = .ok ({ s with
      pos := ((start + e.bytes.length : ℕ) : ℤ), nbyte := nb, cfg := some f, ens := some (max n f.nCells, 0)
      hdrNbyte := e.nbyte, readVmdas := false }, ensStore f e.blks (growMem (f.nCells - n) m)) := by
  obtain ⟨nb, hbody⟩ := rdBody_ok (env := env) hf he hs hd
  refine ⟨nb, ?_⟩
  have hfst := rdBodyV_fst env bs ((start : ℤ) + 2) s m
  rw [hbody] at hfst
  have hh := rdHdrseg_ok he hd
  have hol : (((Spec.rdOffsets (6 + 2 * e.blks.length) e.blks).map (fun x : ℕ => (x : ℤ))).length : ℤ)
      = e.blks.length := by rw [List.length_map, rdOffsets_length]
  have hd' : bs.drop (start + (6 + 2 * e.blks.length)) = e.blks.flatMap Spec.RdBlk.bytes ++ (e.tail ++ r) := by
    rw [← List.drop_drop, hd, Spec.RdEns.bytes]
    simp only [← List.append_assoc]
    rw [List.append_assoc (_ ++ e.blks.flatMap Spec.RdBlk.bytes), List.append_assoc]
    rw [List.drop_left']
    · rw [List.append_assoc]
    · simp only [List.length_append, flatMap_le16_length, rdOffsets_length]
      simp [Spec.le16]
  have hnb2 : 2 ≤ e.nbyte := by unfold Spec.RdEns.nbyte; omega
  obtain ⟨t, hb⟩ := rdBlocksV_ens (env := env)
    (s := { s with
      pos := (start : ℤ) + 2 + 4 + 2 * e.blks.length, nbyte := 4 + 2 * e.blks.length
      hdrNbyte := e.nbyte, readVmdas := false }) m
    hf he hs.ens hs.source hs.prog hs.win (by simp only; omega) (by simp only; push_cast; ring) hd'
  have hsnd : ∀ x, rdBodyV env bs ((start : ℤ) + 2) s m = .ok x → x.2 = ensStore f e.blks (growMem (f.nCells - n) m) := by
    intro x hx
    unfold rdBodyV at hx
    rw [hh] at hx
    simp only [hol] at hx
    rw [show (6 + 2 * (e.blks.length : ℤ)) = ((6 + 2 * e.blks.length : ℕ) : ℤ) by push_cast; ring, hb] at hx
    simp only at hx
    rcases hv : rdVmdasAgain env bs t with er | s2
    · rw [hv] at hx; cases hx
    · rw [hv] at hx
      simp only at hx
      rcases hc : rdCheckOffset (s2.hdrNbyte + 2 - (s2.pos - ((start : ℤ) + 2 - 2))) s2 with er | s3
      · rw [hc] at hx; cases hx
      · rw [hc] at hx
        cases hx
        rfl
  rcases hx : rdBodyV env bs ((start : ℤ) + 2) s m with er | ⟨x, mm⟩
  · rw [hx] at hfst; cases hfst
  · rw [hx] at hfst
    have h2 := hsnd _ hx
    simp only at h2
    rw [h2]
    have h1 : x = _ := Except.ok.inj hfst
    rw [h1]

/-! ### The columns of the dataset -/

/-- The memory behind an ensemble that has been copied into the dataset. -/
def ensAfter (f : RdFixed) (e : Spec.RdEns) (m : RdMem) : RdMem := rdCleaned (ensStore f e.blks m)

/-- The column of an ensemble. -/
def ensCol (f : RdFixed) (n : ℕ) (e : Spec.RdEns) (m : RdMem) : RdColV :=
  ⟨(ensAfter f e m).seen, (ensAfter f e m).nb, n, rdColTime (ensAfter f e m).rtc⟩

/-- The columns of consecutive ensembles. -/
def ensCols (f : RdFixed) (n : ℕ) : List Spec.RdEns → RdMem → List RdColV
  | [], _ => []
  | e :: es, m => ensCol f n e m :: ensCols f n es (ensAfter f e m)

theorem rdStore_flag {f : RdFixed} {src n id : ℕ} {c : List ℕ} {m : RdMem} :
    (rdStore f src n 0 id c m).flag = m.flag := by
  unfold rdStore
  split_ifs <;> try rfl
  · exact absurd rfl ‹_›
  · rcases rdCellInfo id with _ | ⟨nm', fmt, q, p⟩
    · rfl
    · unfold rdStoreCells
      simp only
      split_ifs <;> rfl

theorem ensStore_flag {f : RdFixed} (bs : List Spec.RdBlk) (m : RdMem) : (ensStore f bs m).flag = m.flag := by
  unfold ensStore
  induction bs generalizing m with
  | nil => rfl
  | cons b bs ih => rw [List.foldl_cons, ih]; exact rdStore_flag

theorem rdEmit_ok {n : ℕ} {m : RdMem} {o : RdOutV} (hf : m.flag = 0) (ho : ∀ nm, o.rows nm = n) :
    ∃ o', rdEmit n m o = .ok o' ∧ (∀ nm, o'.rows nm = n) ∧
      o'.cols = o.cols ++ [RdColV.mk m.seen m.nb n (rdColTime m.rtc)] := by
  have hr : ∀ r, rdRows m.flag n r = r := by intro r; unfold rdRows; rw [hf]; simp
  unfold rdEmit
  rw [if_pos (by intro nm _ _; rw [hr, ho])]
  refine ⟨_, rfl, ?_, rfl⟩
  intro nm
  simp only [hr, ho, ite_self]

/-- The memory in front of the ensembles. -/
def memAt (f : RdFixed) : List Spec.RdEns → RdMem → RdMem
  | [], m => m
  | e :: es, m => memAt f es (ensAfter f e m)

theorem rdBetween_cells {f : RdFixed} {cells : ℕ} {s : RdState} (h : RdBetween f cells s) : ensCells s.ens = cells := by
  have := h.ens
  simp only at this
  unfold rdResetK at this
  unfold ensCells
  cases he : s.ens with
  | none => rw [he] at this; cases this
  | some x =>
    rw [he] at this
    simp only [Option.map_some, Option.some.injEq, Prod.mk.injEq] at this
    simpa using this.1

/-- The columns that reading `nens` ensembles of a regular file adds to the dataset. -/
theorem rdi_columns {env : RdEnv} {f : RdFixed} (hf : 0 < f.nCells) {cells fuel : ℕ} (hfuel : 2 ≤ fuel)
    {bs : List ℕ} : ∀ (nens : ℕ) (es : List Spec.RdEns) (start : ℕ) (s : RdState) (m : RdMem) (o : RdOutV),
    (∀ e ∈ es, e.Ok f) → bs.drop start = Spec.rdFile es → s.pos = start → RdBetween f cells s → m.flag = 0 →
    (∀ nm, o.rows nm = cells) →
    ∃ t m' o', rdLoadV env bs fuel nens s m o = some (.ok (t, m', o')) ∧
      o'.cols = o.cols ++ ensCols f cells (es.take (min nens (es.length - 1))) m ∧ (∀ nm, o'.rows nm = cells) ∧
      m' = memAt f (es.take (min nens (es.length - 1))) m ∧ ensCells t.ens = cells
  | 0, es, start, s, m, o, _, _, _, hb, _, ho =>
    ⟨s, m, o, by simp [rdLoadV], by simp [ensCols], ho, by simp [memAt], rdBetween_cells hb⟩
  | nens + 1, [], start, s, m, o, _, hd, hp, hb, _, ho => by
    refine ⟨s, m, o, ?_, by simp [ensCols], ho, by simp [memAt], rdBetween_cells hb⟩
    obtain ⟨fu, rfl⟩ : ∃ fu, fuel = fu + 1 := ⟨fuel - 1, by omega⟩
    have hse : rdSearch bs s.pos = .ok (false, s.pos) := by
      unfold rdSearch rdBytes rdChunk
      rw [hp, Int.toNat_natCast, hd]
      simp [Spec.rdFile]
    have hens := hb.ens
    simp only at hens
    rw [rdLoadV]
    unfold rdBufferV
    rw [rdBufferLoopV]
    simp only [hens]
    rw [if_pos (by decide)]
    unfold rdEnsembleV
    simp only [hse]
  | nens + 1, [e], start, s, m, o, hok, hd, hp, hb, _, ho => by
    refine ⟨s, m, o, ?_, by simp [ensCols], ho, by simp [memAt], rdBetween_cells hb⟩
    obtain ⟨fu, rfl⟩ : ∃ fu, fuel = fu + 1 := ⟨fuel - 1, by omega⟩
    have hd' : bs.drop start = e.bytes := by rw [hd]; simp [Spec.rdFile]
    obtain ⟨q, hse⟩ := rdSearch_last (hok e (by simp)) hd'
    have hens := hb.ens
    simp only at hens
    rw [rdLoadV]
    unfold rdBufferV
    rw [rdBufferLoopV]
    simp only [hens]
    rw [if_pos (by decide)]
    unfold rdEnsembleV
    simp only [hp, hse]
  | nens + 1, e :: e' :: es, start, s, m, o, hok, hd, hp, hb, hfl, ho => by
    obtain ⟨fu, rfl⟩ : ∃ fu, fuel = fu + 2 := ⟨fuel - 2, by omega⟩
    obtain ⟨r, hr⟩ := bytes_cons2 e'
    have hd' : bs.drop start = e.bytes ++ (Spec.rdFile (e' :: es)) := by
      rw [hd, Spec.rdFile, List.flatMap_cons]; rfl
    have hd'' : bs.drop start = e.bytes ++ (127 :: 127 :: (r ++ es.flatMap Spec.RdEns.bytes)) := by
      rw [hd', Spec.rdFile, List.flatMap_cons, hr]; rfl
    have hse := rdSearch_ok (hok e (by simp)) hd''
    obtain ⟨nb, hbody⟩ := rdBodyV_ok (env := env) m hf (hok e (by simp)) hb.front hd'
    rw [Nat.max_eq_left hb.cells, Nat.sub_eq_zero_of_le hb.cells, growMem_zero] at hbody
    have hens := hb.ens
    simp only at hens
    set s1 : RdState := { s with
      ens := some (cells, 0), ensBB := rdResetK s.ensBB
      pos := ((start + e.bytes.length : ℕ) : ℤ), nbyte := nb, cfg := some f
      hdrNbyte := e.nbyte, readVmdas := false } with hs1
    have hbuf : rdBufferV env bs (fu + 2) s m = some (.ok (some (s1, ensStore f e.blks m))) := by
      unfold rdBufferV
      rw [rdBufferLoopV]
      simp only [hens]
      rw [if_pos (by decide)]
      have hre : rdEnsembleV env bs { s with ens := some (cells, -1), ensBB := rdResetK s.ensBB } m
          = .ok (some (s1, ensStore f e.blks m)) := by
        unfold rdEnsembleV
        simp only [hp, hse]
        have hb' := hbody
        rw [hens] at hb'
        rw [hp] at hb'
        rw [hb']
        rfl
      rw [hre]
      simp only
      rw [rdBufferLoopV]
      simp only [hs1]
      rw [if_neg (by decide)]
    have hbet : RdBetween f cells s1 := by
      refine ⟨rfl, hb.cells, hb.fix, hb.source, hb.prog, hb.win, hb.vmdas⟩
    have hd2 : bs.drop (start + e.bytes.length) = Spec.rdFile (e' :: es) := by
      rw [← List.drop_drop, hd', List.drop_left' rfl]
    have hfl' : (ensAfter f e m).flag = 0 := by
      have := ensStore_flag (f := f) e.blks m
      rw [hfl] at this
      exact this
    obtain ⟨o1, he1, hr1, hc1⟩ := rdEmit_ok (o := o) hfl' ho
    obtain ⟨t, m', o', ht, hcols, hrows, hmem, hcel⟩ := rdi_columns (env := env) hf hfuel nens (e' :: es)
      (start + e.bytes.length) s1 (ensAfter f e m) o1
      (fun x hx => hok x (by simp at hx ⊢; tauto)) hd2 rfl hbet hfl' hr1
    refine ⟨t, m', o', ?_, ?_, hrows, ?_, hcel⟩
    · rw [rdLoadV, hbuf]
      simp only
      have hc : ensCells s1.ens = cells := rfl
      rw [hc, show rdCleaned (ensStore f e.blks m) = ensAfter f e m from rfl, he1]
      simp only
      rw [← ht]
      congr 1
      rw [← hfl']
    · rw [hcols, hc1, List.append_assoc]
      congr 1
      rw [show min (nens + 1) ((e :: e' :: es).length - 1) = min nens ((e' :: es).length - 1) + 1 by
        simp only [List.length_cons]; omega]
      rw [List.take_succ_cons]
      rfl
    · rw [hmem, show min (nens + 1) ((e :: e' :: es).length - 1) = min nens ((e' :: es).length - 1) + 1 by
        simp only [List.length_cons]; omega]
      rw [List.take_succ_cons]
      rfl

theorem ensCols_get {f : RdFixed} {n : ℕ} : ∀ (es : List Spec.RdEns) (m : RdMem) (i : ℕ) (e : Spec.RdEns),
    es[i]? = some e → (ensCols f n es m)[i]? = some (ensCol f n e (memAt f (es.take i) m))
  | e' :: es, m, 0, e, h => by
    simp only [List.getElem?_cons_zero] at h
    cases h
    rfl
  | e' :: es, m, i + 1, e, h => by
    simp only [List.getElem?_cons_succ] at h
    exact ensCols_get es (ensAfter f e' m) i e h

theorem ensCols_length {f : RdFixed} {n : ℕ} : ∀ (es : List Spec.RdEns) (m : RdMem),
    (ensCols f n es m).length = es.length
  | [], _ => rfl
  | e :: es, m => by rw [ensCols, List.length_cons, ensCols_length es, List.length_cons]

/-! ### What a block changes -/

/-- The data type that carries a variable (TRDI, *PD0 output data format*). -/
def Spec.rdId : RdName → ℕ
  | .vel => 256
  | .corr => 512
  | .amp => 768
  | .prcntGd => 1024
  | .status => 1280
  | .velSl => 272
  | .corrSl => 528
  | .ampSl => 784
  | .prcntGdSl => 1040
  | .statusSl => 1296
  | .distBt | .velBt | .corrBt | .ampBt | .prcntGdBt => 1536
  | .altDist | .altRssi | .altEval | .altStatus => 16640
  | _ => 128

theorem vput_ne {nm k : RdName} {x : ℕ → ℕ → Option ℚ} {v : RdVals} (h : k ≠ nm) : vput nm x v k = v k :=
  if_neg h

theorem vput_eq {nm : RdName} {x : ℕ → ℕ → Option ℚ} {v : RdVals} : vput nm x v nm = x := if_pos rfl

theorem rdVarVals_other {f : RdFixed} {c : List ℕ} {v : RdVals} {nm : RdName} (h : Spec.rdId nm ≠ 128) :
    rdVarVals f c v nm = v nm := by
  unfold rdVarVals
  cases nm <;> first
    | exact absurd rfl h
    | (split_ifs <;> simp [vput])

theorem rdBottomVals_other {f : RdFixed} {c : List ℕ} {v : RdVals} {nm : RdName} (h : Spec.rdId nm ≠ 1536) :
    rdBottomVals f c v nm = v nm := by
  unfold rdBottomVals rdBottomValsAt
  cases nm <;> first
    | exact absurd rfl h
    | simp [vput]

theorem rdAltVals_other {c : List ℕ} {v : RdVals} {nm : RdName} (h : Spec.rdId nm ≠ 16640) :
    rdAltVals c v nm = v nm := by
  unfold rdAltVals
  cases nm <;> first
    | exact absurd rfl h
    | simp [vput]

theorem rdCellInfo_id {id : ℕ} {nm : RdName} {fmt : AdFmt} {q : ℚ} {p : ℕ}
    (h : rdCellInfo id = some (nm, fmt, q, p)) : (p = 1 ∨ id = Spec.rdId nm) ∧ nm.profile = true := by
  unfold rdCellInfo at h
  rcases ite_eq_iff.mp h with ⟨h1, h⟩ | ⟨-, h⟩
  · cases h; exact ⟨.inr h1, rfl⟩
  rcases ite_eq_iff.mp h with ⟨h1, h⟩ | ⟨-, h⟩
  · cases h; exact ⟨.inl rfl, rfl⟩
  rcases ite_eq_iff.mp h with ⟨h1, h⟩ | ⟨-, h⟩
  · cases h; exact ⟨.inr h1, rfl⟩
  rcases ite_eq_iff.mp h with ⟨h1, h⟩ | ⟨-, h⟩
  · cases h; exact ⟨.inr h1, rfl⟩
  rcases ite_eq_iff.mp h with ⟨h1, h⟩ | ⟨-, h⟩
  · cases h; exact ⟨.inl rfl, rfl⟩
  rcases ite_eq_iff.mp h with ⟨h1, h⟩ | ⟨-, h⟩
  · cases h; exact ⟨.inr h1, rfl⟩
  rcases ite_eq_iff.mp h with ⟨h1, h⟩ | ⟨-, h⟩
  · cases h; exact ⟨.inr h1, rfl⟩
  rcases ite_eq_iff.mp h with ⟨h1, h⟩ | ⟨-, h⟩
  · cases h; exact ⟨.inl rfl, rfl⟩
  rcases ite_eq_iff.mp h with ⟨h1, h⟩ | ⟨-, h⟩
  · cases h; exact ⟨.inr h1, rfl⟩
  rcases ite_eq_iff.mp h with ⟨h1, h⟩ | ⟨-, h⟩
  · cases h; exact ⟨.inr h1, rfl⟩
  rcases ite_eq_iff.mp h with ⟨h1, h⟩ | ⟨-, h⟩
  · cases h; exact ⟨.inl rfl, rfl⟩
  rcases ite_eq_iff.mp h with ⟨h1, h⟩ | ⟨-, h⟩
  · cases h; exact ⟨.inr h1, rfl⟩
  rcases ite_eq_iff.mp h with ⟨h1, h⟩ | ⟨-, h⟩
  · cases h; exact ⟨.inr h1, rfl⟩
  rcases ite_eq_iff.mp h with ⟨h1, h⟩ | ⟨-, h⟩
  · cases h; exact ⟨.inl rfl, rfl⟩
  rcases ite_eq_iff.mp h with ⟨h1, h⟩ | ⟨-, h⟩
  · cases h; exact ⟨.inr h1, rfl⟩
  cases h

theorem blkStore_other {f : RdFixed} {b : Spec.RdBlk} {m : RdMem} {nm : RdName} (h : b.id ≠ Spec.rdId nm)
    (h129 : b.id ≠ 129) : (blkStore f b m).nb nm = m.nb nm := by
  unfold blkStore rdStore
  by_cases h0 : b.id = 0 ∨ b.id = 1
  · rw [if_pos h0]; rfl
  rw [if_neg h0]
  by_cases h1 : b.id = 128 ∨ b.id = 129
  · rw [if_pos h1]
    exact rdVarVals_other (fun hc => by rcases h1 with h1 | h1 <;> simp_all)
  rw [if_neg h1]
  by_cases h2 : b.id = 1536
  · rw [if_pos h2]
    exact rdBottomVals_other (fun hc => h (h2.trans hc.symm))
  rw [if_neg h2]
  by_cases h3 : b.id = 16640
  · rw [if_pos h3]
    exact rdAltVals_other (fun hc => h (h3.trans hc.symm))
  rw [if_neg h3]
  rcases hi : rdCellInfo b.id with _ | ⟨nm', fmt, q, p⟩
  · rfl
  · simp only
    unfold rdStoreCells
    simp only
    obtain ⟨hc, -⟩ := rdCellInfo_id hi
    split_ifs with hp
    · rfl
    · refine vput_ne fun hn => ?_
      rcases hc with hc | hc
      · exact hp hc
      · exact h (by rw [hc, hn])

theorem blkStore_clock {f : RdFixed} {b : Spec.RdBlk} {m : RdMem} (h : b.id ≠ 128) (h129 : b.id ≠ 129) :
    (blkStore f b m).rtc = m.rtc := by
  unfold blkStore rdStore
  by_cases h0 : b.id = 0 ∨ b.id = 1
  · rw [if_pos h0]; rfl
  rw [if_neg h0, if_neg (by tauto)]
  by_cases h2 : b.id = 1536
  · rw [if_pos h2]; rfl
  rw [if_neg h2]
  by_cases h3 : b.id = 16640
  · rw [if_pos h3]
  rw [if_neg h3]
  · rcases rdCellInfo b.id with _ | ⟨nm', fmt, q, p⟩
    · rfl
    · simp only
      unfold rdStoreCells
      simp only
      split_ifs <;> rfl

theorem ensStore_append {f : RdFixed} (a b : List Spec.RdBlk) (m : RdMem) :
    ensStore f (a ++ b) m = ensStore f b (ensStore f a m) := List.foldl_append

theorem ensStore_other {f : RdFixed} {nm : RdName} : ∀ (bs : List Spec.RdBlk) (m : RdMem),
    (∀ b ∈ bs, b.id ≠ Spec.rdId nm ∧ b.id ≠ 129) → (ensStore f bs m).nb nm = m.nb nm
  | [], _, _ => rfl
  | b :: bs, m, h => by
    rw [show ensStore f (b :: bs) m = ensStore f bs (blkStore f b m) from rfl,
      ensStore_other bs _ (fun x hx => h x (by simp [hx])), blkStore_other (h b (by simp)).1 (h b (by simp)).2]

theorem ensStore_clock {f : RdFixed} : ∀ (bs : List Spec.RdBlk) (m : RdMem),
    (∀ b ∈ bs, b.id ≠ 128 ∧ b.id ≠ 129) → (ensStore f bs m).rtc = m.rtc
  | [], _, _ => rfl
  | b :: bs, m, h => by
    rw [show ensStore f (b :: bs) m = ensStore f bs (blkStore f b m) from rfl,
      ensStore_clock bs _ (fun x hx => h x (by simp [hx])), blkStore_clock (h b (by simp)).1 (h b (by simp)).2]

/-! ### Names -/

theorem mem_seenAdd {x : RdName} {seen vals : List RdName} (h : x ∈ seen) : x ∈ seenAdd seen vals := by
  unfold seenAdd
  cases vals with
  | nil => exact h
  | cons v r =>
    simp only
    split_ifs
    · exact h
    · exact List.mem_append_left _ h

theorem mem_seenAdd_head {v : RdName} {seen r : List RdName} : v ∈ seenAdd seen (v :: r) := by
  unfold seenAdd
  simp only
  split_ifs with h
  · exact h
  · simp

/-- Once the first name of a group is there, all are. -/
def GroupOk (a : RdName) (r seen : List RdName) : Prop := a ∈ seen → ∀ x ∈ r, x ∈ seen

theorem groupOk_add {a : RdName} {r seen vals : List RdName} (h : GroupOk a r seen)
    (hv : vals = a :: r ∨ a ∉ vals) : GroupOk a r (seenAdd seen vals) := by
  intro ha x hx
  rcases hv with rfl | hv
  · unfold seenAdd
    simp only
    split_ifs with hs
    · exact h hs x hx
    · simp [hx]
  · by_cases hs : a ∈ seen
    · exact mem_seenAdd (h hs x hx)
    · exfalso
      unfold seenAdd at ha
      cases vals with
      | nil => exact hs ha
      | cons v t =>
        simp only at ha
        split_ifs at ha
        · exact hs ha
        · rcases List.mem_append.mp ha with h1 | h1
          · exact hs h1
          · exact hv h1

/-- The four groups. -/
structure SeenOk (seen : List RdName) : Prop where
  leader : GroupOk .number [.builtin, .cSound, .depth, .heading, .pitch, .roll, .salinity, .temp,
    .preping, .headingStd, .pitchStd, .rollStd, .adc] seen
  press : GroupOk .pressure [.pressureStd] seen
  bottom : GroupOk .distBt [.velBt, .corrBt, .ampBt, .prcntGdBt] seen
  alt : GroupOk .altDist [.altRssi, .altEval, .altStatus] seen

theorem seenOk_blk {f : RdFixed} {b : Spec.RdBlk} {m : RdMem} (h : SeenOk m.seen) :
    SeenOk (blkStore f b m).seen := by
  have one : ∀ vals, (vals = RdName.number :: [.builtin, .cSound, .depth, .heading, .pitch, .roll, .salinity, .temp,
      .preping, .headingStd, .pitchStd, .rollStd, .adc] ∨ RdName.number ∉ vals) →
      (vals = RdName.pressure :: [.pressureStd] ∨ RdName.pressure ∉ vals) →
      (vals = RdName.distBt :: [.velBt, .corrBt, .ampBt, .prcntGdBt] ∨ RdName.distBt ∉ vals) →
      (vals = RdName.altDist :: [.altRssi, .altEval, .altStatus] ∨ RdName.altDist ∉ vals) →
      ∀ seen, SeenOk seen → SeenOk (seenAdd seen vals) := fun vals h1 h2 h3 h4 seen hs =>
    ⟨groupOk_add hs.leader h1, groupOk_add hs.press h2, groupOk_add hs.bottom h3, groupOk_add hs.alt h4⟩
  unfold blkStore rdStore
  by_cases h0 : b.id = 0 ∨ b.id = 1
  · rw [if_pos h0]; exact h
  rw [if_neg h0]
  by_cases h1 : b.id = 128 ∨ b.id = 129
  · rw [if_pos h1]
    simp only
    unfold rdVarSeen
    simp only
    split_ifs
    · exact one _ (.inl rfl) (.inr (by decide)) (.inr (by decide)) (.inr (by decide)) _ h
    · exact one _ (.inr (by decide)) (.inl rfl) (.inr (by decide)) (.inr (by decide)) _
        (one _ (.inl rfl) (.inr (by decide)) (.inr (by decide)) (.inr (by decide)) _ h)
  rw [if_neg h1]
  by_cases h2 : b.id = 1536
  · rw [if_pos h2]
    exact one _ (.inr (by decide)) (.inr (by decide)) (.inl rfl) (.inr (by decide)) _ h
  rw [if_neg h2]
  by_cases h3 : b.id = 16640
  · rw [if_pos h3]
    exact one _ (.inr (by decide)) (.inr (by decide)) (.inr (by decide)) (.inl rfl) _ h
  rw [if_neg h3]
  rcases hi : rdCellInfo b.id with _ | ⟨nm', fmt, q, p⟩
  · exact h
  · have hp := (rdCellInfo_id hi).2
    have : SeenOk (seenAdd m.seen [nm']) := by
      refine one _ (.inr ?_) (.inr ?_) (.inr ?_) (.inr ?_) _ h <;>
        (intro hc; simp only [List.mem_singleton] at hc; rw [← hc] at hp; exact absurd hp (by decide))
    simp only
    unfold rdStoreCells
    simp only
    split_ifs <;> exact this

theorem seenOk_ens {f : RdFixed} : ∀ (bs : List Spec.RdBlk) (m : RdMem), SeenOk m.seen →
    SeenOk (ensStore f bs m).seen
  | [], _, h => h
  | b :: bs, m, h => seenOk_ens bs (blkStore f b m) (seenOk_blk h)

theorem seenOk_memAt {f : RdFixed} : ∀ (es : List Spec.RdEns) (m : RdMem), SeenOk m.seen →
    SeenOk (memAt f es m).seen
  | [], _, h => h
  | e :: es, m, h => seenOk_memAt es (ensAfter f e m) (seenOk_ens (f := f) e.blks m h)

theorem blkStore_seen {f : RdFixed} {b : Spec.RdBlk} {m : RdMem} {x : RdName} (h : x ∈ m.seen) :
    x ∈ (blkStore f b m).seen := by
  unfold blkStore rdStore
  by_cases h0 : b.id = 0 ∨ b.id = 1
  · rw [if_pos h0]; exact h
  rw [if_neg h0]
  by_cases h1 : b.id = 128 ∨ b.id = 129
  · rw [if_pos h1]
    simp only
    unfold rdVarSeen
    simp only
    split_ifs
    · exact mem_seenAdd h
    · exact mem_seenAdd (mem_seenAdd h)
  rw [if_neg h1]
  by_cases h2 : b.id = 1536
  · rw [if_pos h2]
    exact mem_seenAdd (vals := [RdName.distBt, RdName.velBt, RdName.corrBt, RdName.ampBt, RdName.prcntGdBt]) h
  rw [if_neg h2]
  by_cases h3 : b.id = 16640
  · rw [if_pos h3]
    exact mem_seenAdd (vals := [RdName.altDist, RdName.altRssi, RdName.altEval, RdName.altStatus]) h
  rw [if_neg h3]
  · rcases rdCellInfo b.id with _ | ⟨nm', fmt, q, p⟩
    · exact h
    · simp only
      unfold rdStoreCells
      simp only
      split_ifs <;> exact mem_seenAdd (vals := [nm']) h

theorem ensStore_seen {f : RdFixed} {x : RdName} : ∀ (bs : List Spec.RdBlk) (m : RdMem), x ∈ m.seen →
    x ∈ (ensStore f bs m).seen
  | [], _, h => h
  | b :: bs, m, h => ensStore_seen bs (blkStore f b m) (blkStore_seen h)

/-! ### Values in records -/

/-- A record of values in given formats. -/
def Spec.record (l : List (AdFmt × ℤ)) : List ℕ := l.flatMap fun x => Spec.encVal x.1 x.2

theorem rdAt_enc {fmt : AdFmt} {v : ℤ} {pre post : List ℕ} (h : Spec.inRange fmt v) :
    rdAt fmt (pre ++ (Spec.encVal fmt v ++ post)) pre.length = v := by
  unfold rdAt
  rw [List.drop_left' rfl, List.take_left' (encVal_length fmt v), adVal_encVal fmt v h]

theorem record_length (l : List (AdFmt × ℤ)) : (Spec.record l).length = (l.map (·.1.size)).sum := by
  unfold Spec.record
  rw [List.length_flatMap]
  simp only [encVal_length]

/-- A value of a record is read at its offset. -/
theorem rdAt_record {l : List (AdFmt × ℤ)} {r : List ℕ} {j i : ℕ} {fmt : AdFmt} {v : ℤ}
    (hr : ∀ x ∈ l, Spec.inRange x.1 x.2) (hj : l[j]? = some (fmt, v)) (hi : ((l.take j).map (·.1.size)).sum = i) :
    rdAt fmt (Spec.record l ++ r) i = v := by
  have hlt : j < l.length := by
    by_contra hc
    rw [List.getElem?_eq_none (by omega)] at hj
    cases hj
  have hget : l[j] = (fmt, v) := by rw [List.getElem?_eq_getElem hlt] at hj; exact Option.some.inj hj
  have hsplit : l = l.take j ++ (fmt, v) :: l.drop (j + 1) := by
    rw [← hget, List.cons_getElem_drop_succ, List.take_append_drop]
  have hb : Spec.record l ++ r = Spec.record (l.take j) ++ (Spec.encVal fmt v ++ (Spec.record (l.drop (j + 1)) ++ r)) := by
    conv_lhs => rw [hsplit]
    unfold Spec.record
    rw [List.flatMap_append, List.flatMap_cons]
    simp only [List.append_assoc]
  rw [hb, ← hi, ← record_length]
  exact rdAt_enc (hr (fmt, v) (List.mem_of_getElem? hj))

/-- The values `w cell beam` of `n` cells and four beams, cell by cell. -/
def Spec.cellRecord (fmt : AdFmt) (n : ℕ) (w : ℕ → ℕ → ℤ) : List ℕ :=
  Spec.record ((List.range (4 * n)).map fun j => (fmt, w (j / 4) (j % 4)))

theorem rdAt_cell {fmt : AdFmt} {n : ℕ} {w : ℕ → ℕ → ℤ} {r : List ℕ}
    (hw : ∀ c < n, ∀ k < 4, Spec.inRange fmt (w c k)) {c k : ℕ} (hc : c < n) (hk : k < 4) :
    rdAt fmt (Spec.cellRecord fmt n w ++ r) ((4 * c + k) * fmt.size) = w c k := by
  have hlt : 4 * c + k < 4 * n := by omega
  refine rdAt_record (j := 4 * c + k) ?_ ?_ ?_
  · intro x hx
    obtain ⟨j, hj, rfl⟩ := List.mem_map.mp hx
    have := List.mem_range.mp hj
    exact hw _ (by omega) _ (by omega)
  · rw [List.getElem?_map, List.getElem?_range hlt]
    simp only [Option.map_some]
    rw [show (4 * c + k) / 4 = c by omega, show (4 * c + k) % 4 = k by omega]
  · rw [← List.map_take, List.map_map]
    have : ((fun x : AdFmt × ℤ => x.1.size) ∘ fun j => (fmt, w (j / 4) (j % 4))) = fun _ => fmt.size := rfl
    rw [this, List.map_const', List.sum_replicate, List.length_take, List.length_range, smul_eq_mul,
      Nat.min_eq_left hlt.le]

/-! ### The dataset -/

/-- `o` is the dataset read from a file of regular ensembles: `read_rdi` with `nens` ensembles, up to the
assembly of the xarray object. -/
def RdReadOf (env : RdEnv) (f : RdFixed) (cells : ℕ) (es : List Spec.RdEns) (nens : ℕ) (o : RdOutV) : Prop :=
  ∃ fuel s t m, 2 ≤ fuel ∧ s.pos = 0 ∧ RdBetween f cells s ∧
    rdLoadV env (Spec.rdFile es) fuel nens s rdMem0 (rdOut0 cells) = some (.ok (t, m, o))

theorem rdReadOf_cols {env : RdEnv} {f : RdFixed} (hf : 0 < f.nCells) {cells nens : ℕ} {es : List Spec.RdEns}
    (hok : ∀ e ∈ es, e.Ok f) {o : RdOutV} (h : RdReadOf env f cells es nens o) :
    f.nCells ≤ cells ∧ o.cols = ensCols f cells (es.take (min nens (es.length - 1))) rdMem0 := by
  obtain ⟨fuel, s, t, m, hfu, hp, hb, hl⟩ := h
  obtain ⟨t', m', o', h1, h2, -⟩ := rdi_columns (env := env) (bs := Spec.rdFile es) hf hfu nens es 0 s rdMem0
    (rdOut0 cells) hok rfl (by simpa using hp) hb rfl (fun _ => rfl)
  rw [hl] at h1
  simp only [Option.some.injEq, Except.ok.injEq, Prod.mk.injEq] at h1
  obtain ⟨-, -, rfl⟩ := h1
  exact ⟨hb.cells, h2⟩

theorem rdReadOf_col {env : RdEnv} {f : RdFixed} (hf : 0 < f.nCells) {cells nens : ℕ} {es : List Spec.RdEns}
    (hok : ∀ e ∈ es, e.Ok f) {o : RdOutV} (h : RdReadOf env f cells es nens o) {i : ℕ} {e : Spec.RdEns}
    (hi : i < min nens (es.length - 1)) (he : es[i]? = some e) :
    o.cols[i]? = some (ensCol f cells e (memAt f (es.take i) rdMem0)) := by
  rw [(rdReadOf_cols hf hok h).2]
  have : (es.take (min nens (es.length - 1)))[i]? = some e := by
    rw [List.getElem?_take_of_lt hi, he]
  rw [ensCols_get _ _ _ _ this, List.take_take, Nat.min_eq_left hi.le]

/-- C122: reading succeeds and gives a column for every ensemble read. -/
theorem rdi_reads_columns {env : RdEnv} {f : RdFixed} (hf : 0 < f.nCells) {cells nens : ℕ} {es : List Spec.RdEns}
    (hok : ∀ e ∈ es, e.Ok f) {s : RdState} (hp : s.pos = 0) (hb : RdBetween f cells s) :
    ∃ t m o, rdLoadV env (Spec.rdFile es) 2 nens s rdMem0 (rdOut0 cells) = some (.ok (t, m, o)) ∧
      o.cols.length = min nens (es.length - 1) := by
  obtain ⟨t, m, o, h1, h2, -⟩ := rdi_columns (env := env) (bs := Spec.rdFile es) hf (le_refl 2) nens es 0 s rdMem0
    (rdOut0 cells) hok rfl (by simpa using hp) hb rfl (fun _ => rfl)
  refine ⟨t, m, o, h1, ?_⟩
  rw [h2, rdOut0, List.nil_append, ensCols_length, List.length_take]
  omega

theorem ok_ids {f : RdFixed} {e : Spec.RdEns} (h : e.Ok f) : ∀ b ∈ e.blks, b.id ≠ 129 := by
  obtain ⟨fx, vr, rest, hb, hfx, hvid, _, hrest⟩ := h.shape
  intro b hm
  rw [hb] at hm
  rcases List.mem_cons.mp hm with rfl | hm
  · rw [hfx.1]; decide
  rcases List.mem_cons.mp hm with rfl | hm
  · rw [hvid]; decide
  · intro hc
    obtain ⟨_, k, hk, _⟩ := hrest b hm
    rw [hc] at hk
    exact absurd hk (by simp [Spec.rdMin])

/-- `b` is the last block of its type. -/
def Spec.LastBlk (e : Spec.RdEns) (b : Spec.RdBlk) : Prop :=
  ∃ pre post, e.blks = pre ++ b :: post ∧ ∀ x ∈ post, x.id ≠ b.id

theorem ensStore_last {f : RdFixed} {e : Spec.RdEns} (he : e.Ok f) {b : Spec.RdBlk} {pre post : List Spec.RdBlk}
    (hb : e.blks = pre ++ b :: post) (hpost : ∀ x ∈ post, x.id ≠ b.id) (m : RdMem) {nm : RdName}
    (hid : b.id = Spec.rdId nm) :
    (ensStore f e.blks m).nb nm = (blkStore f b (ensStore f pre m)).nb nm := by
  rw [hb, ensStore_append]
  refine ensStore_other post (blkStore f b (ensStore f pre m)) (fun x hx => ⟨?_, ?_⟩)
  · rw [← hid]; exact hpost x hx
  · exact ok_ids he x (by rw [hb]; simp [hx])

/-- The cell data: variable, type, format and unit (TRDI, *PD0 output data format*: velocities in mm/s). -/
def Spec.rdCell : RdName → Option (AdFmt × ℚ)
  | .vel => some (.h, 1 / 1000)
  | .corr => some (.B, 1)
  | .amp => some (.B, 1)
  | .prcntGd => some (.B, 1)
  | .status => some (.B, 1)
  | _ => none

theorem rdCell_info {nm : RdName} {fmt : AdFmt} {q : ℚ} (h : Spec.rdCell nm = some (fmt, q)) :
    rdCellInfo (Spec.rdId nm) = some (nm, fmt, q, 0) ∧ nm.profile = true ∧
      Spec.rdId nm ∈ [256, 512, 768, 1024, 1280] := by
  cases nm <;> simp only [Spec.rdCell, reduceCtorEq] at h <;>
    (obtain ⟨rfl, rfl⟩ := Prod.mk.inj (Option.some.inj h); exact ⟨rfl, rfl, by decide⟩)

theorem blkStore_cell {f : RdFixed} {b : Spec.RdBlk} {m : RdMem} {nm : RdName} {fmt : AdFmt} {q : ℚ}
    (h : Spec.rdCell nm = some (fmt, q)) (hid : b.id = Spec.rdId nm) :
    blkStore f b m = { m with
      seen := seenAdd m.seen [nm], nb := vput nm (rdCellVals fmt q f.nCells b.pl (m.nb nm)) m.nb } := by
  obtain ⟨h1, -, h3⟩ := rdCell_info h
  have hne : ∀ j ∈ [256, 512, 768, 1024, 1280], j ≠ 0 ∧ j ≠ 1 ∧ j ≠ 128 ∧ j ≠ 129 ∧ j ≠ 1536 ∧ j ≠ 16640 := by
    decide
  obtain ⟨n0, n1, n2, n3, n4, n5⟩ := hne _ h3
  unfold blkStore rdStore
  rw [hid, h1]
  simp only [n0, n1, n2, n3, n4, n5, false_or, if_false]
  rfl

theorem col_cell_values {f : RdFixed} {cells : ℕ} {e : Spec.RdEns} {m : RdMem} (heok : e.Ok f) {o : RdOutV} {i : ℕ}
    (hcol : o.cols[i]? = some (ensCol f cells e m)) (hcells : f.nCells ≤ cells) {nm : RdName} {fmt : AdFmt} {q : ℚ}
    (hnm : Spec.rdCell nm = some (fmt, q)) {b : Spec.RdBlk} (hb : Spec.LastBlk e b) (hid : b.id = Spec.rdId nm)
    {w : ℕ → ℕ → ℤ} {extra : List ℕ} (hpl : b.pl = Spec.cellRecord fmt f.nCells w ++ extra)
    (hw : ∀ c < f.nCells, ∀ k < 4, Spec.inRange fmt (w c k)) (junk : RdName → ℕ → ℕ → ℕ → ℚ)
    {c k : ℕ} (hc : c < f.nCells) (hk : k < 4) :
    rdElem junk o nm c k i = if nm = .vel ∧ w c k = -32768 then none else some (w c k * q) := by
  obtain ⟨pre, post, hbl, hpost⟩ := hb
  have hstore := ensStore_last heok hbl hpost m hid
  have hblk := blkStore_cell (f := f) (m := ensStore f pre m) hnm hid
  obtain ⟨-, hprof, -⟩ := rdCell_info hnm
  have hseen : nm ∈ (ensCol f cells e m).names := by
    show nm ∈ (ensStore f e.blks m).seen
    rw [hbl, ensStore_append]
    refine ensStore_seen post (blkStore f b (ensStore f pre m)) ?_
    rw [hblk]
    exact mem_seenAdd_head
  have hval : (ensStore f e.blks m).nb nm c k = some (w c k * q) := by
    rw [hstore, hblk]
    simp only [vput_eq]
    unfold rdCellVals
    rw [if_pos ⟨hc, hk⟩, hpl, rdAt_cell hw hc hk]
  unfold rdElem
  rw [hcol]
  simp only
  rw [if_pos hseen, if_neg (by show ¬ (nm.profile = true ∧ cells ≤ c); omega)]
  show rdClean (ensStore f e.blks m).nb nm c k = _
  unfold rdClean
  by_cases hv : nm = .vel
  · subst hv
    simp only [vput_eq, hval, true_and]
    have hq : q = 1 / 1000 := by
      simp only [Spec.rdCell] at hnm
      exact (Prod.mk.inj (Option.some.inj hnm)).2.symm
    have : (some ((w c k : ℚ) * q) = some (-32768 / 1000 : ℚ)) ↔ w c k = -32768 := by
      rw [hq, Option.some.injEq]
      constructor
      · intro hx
        have : (w c k : ℚ) = -32768 := by linarith
        exact_mod_cast this
      · intro hx
        rw [hx]; norm_num
    simp only [this]
  · rw [vput_ne hv, hval, if_neg (by tauto)]

/-- C122 (cell data): every velocity, correlation, amplitude, percentage and status of an ensemble that was
read is the recorded number in its unit, at its cell, beam and ensemble; the velocity -32768 mm/s, by
which the instrument marks bad data, becomes NaN. -/
theorem rdi_cell_values {env : RdEnv} {f : RdFixed} (hf : 0 < f.nCells) {cells nens : ℕ} {es : List Spec.RdEns}
    (hok : ∀ e ∈ es, e.Ok f) {o : RdOutV} (h : RdReadOf env f cells es nens o) {i : ℕ} {e : Spec.RdEns}
    (hi : i < min nens (es.length - 1)) (he : es[i]? = some e) {nm : RdName} {fmt : AdFmt} {q : ℚ}
    (hnm : Spec.rdCell nm = some (fmt, q)) {b : Spec.RdBlk} (hb : Spec.LastBlk e b) (hid : b.id = Spec.rdId nm)
    {w : ℕ → ℕ → ℤ} {extra : List ℕ} (hpl : b.pl = Spec.cellRecord fmt f.nCells w ++ extra)
    (hw : ∀ c < f.nCells, ∀ k < 4, Spec.inRange fmt (w c k)) (junk : RdName → ℕ → ℕ → ℕ → ℚ)
    {c k : ℕ} (hc : c < f.nCells) (hk : k < 4) :
    rdElem junk o nm c k i = if nm = .vel ∧ w c k = -32768 then none else some (w c k * q) :=
  col_cell_values (hok e (List.mem_of_getElem? he)) (rdReadOf_col hf hok h hi he) (rdReadOf_cols hf hok h).1 hnm hb hid hpl
    hw junk hc hk

/-! ### Leader -/

/-- The variable leader of TRDI's PD0 format, from the ensemble number to the second clock. -/
structure Spec.RdLeader where
  number : ℤ
  clock : Fin 7 → ℤ
  numberMsb : ℤ
  bit : ℤ
  soundSpeed : ℤ
  depth : ℤ
  heading : ℤ
  pitch : ℤ
  roll : ℤ
  salinity : ℤ
  temp : ℤ
  wait : Fin 3 → ℤ
  headingStd : ℤ
  pitchStd : ℤ
  rollStd : ℤ
  adc : Fin 8 → ℤ
  error : ℤ
  spare : ℤ
  pressure : ℤ
  pressureStd : ℤ
  spare2 : ℤ
  century : ℤ
  clock2 : Fin 7 → ℤ

/-- The fields in the order and formats of the file. -/
def Spec.RdLeader.fields (L : Spec.RdLeader) : List (AdFmt × ℤ) :=
  [(.H, L.number), (.B, L.clock 0), (.B, L.clock 1), (.B, L.clock 2), (.B, L.clock 3), (.B, L.clock 4),
    (.B, L.clock 5), (.B, L.clock 6), (.B, L.numberMsb), (.H, L.bit), (.H, L.soundSpeed), (.H, L.depth),
    (.H, L.heading), (.h, L.pitch), (.h, L.roll), (.h, L.salinity), (.h, L.temp), (.B, L.wait 0), (.B, L.wait 1),
    (.B, L.wait 2), (.B, L.headingStd), (.B, L.pitchStd), (.B, L.rollStd), (.B, L.adc 0), (.B, L.adc 1), (.B, L.adc 2),
    (.B, L.adc 3), (.B, L.adc 4), (.B, L.adc 5), (.B, L.adc 6), (.B, L.adc 7), (.I, L.error), (.H, L.spare),
    (.I, L.pressure), (.I, L.pressureStd), (.B, L.spare2), (.B, L.century), (.B, L.clock2 0), (.B, L.clock2 1),
    (.B, L.clock2 2), (.B, L.clock2 3), (.B, L.clock2 4), (.B, L.clock2 5), (.B, L.clock2 6)]

/-- The quantity a leader field stands for, in the unit of the dataset: degrees, °C, m, seconds, dbar; `k` is
the channel. -/
def Spec.RdLeader.value (L : Spec.RdLeader) : RdName → ℕ → Option ℚ
  | .builtin, _ => some (if L.bit = 0 then 0 else 1)
  | .cSound, _ => some L.soundSpeed
  | .depth, _ => some (L.depth / 10)
  | .heading, _ => some (L.heading / 100)
  | .pitch, _ => some (L.pitch / 100)
  | .roll, _ => some (L.roll / 100)
  | .salinity, _ => some L.salinity
  | .temp, _ => some (L.temp / 100)
  | .preping, _ => some (60 * L.wait 0 + L.wait 1 + L.wait 2 / 100)
  | .headingStd, _ => some L.headingStd
  | .pitchStd, _ => some (L.pitchStd / 10)
  | .rollStd, _ => some (L.rollStd / 10)
  | .adc, k => if h : k < 8 then some (L.adc ⟨k, h⟩) else none
  | .pressure, _ => some (L.pressure / 1000)
  | .pressureStd, _ => some (L.pressureStd / 1000)
  | _, _ => none

theorem rdAt_b {c : List ℕ} {i : ℕ} : rdAt .b c i % 256 = rdAt .B c i % 256 := by
  unfold rdAt adVal
  simp only [AdFmt.signed, AdFmt.size]
  split_ifs <;> norm_num

/-- Sizes of the fields. -/
theorem leader_sizes (L : Spec.RdLeader) : L.fields.map (·.1.size) = [2, 1, 1, 1, 1, 1, 1, 1, 1, 2, 2, 2, 2, 2, 2, 2,
    2, 1, 1, 1, 1, 1, 1, 1, 1, 1, 1, 1, 1, 1, 1, 4, 2, 4, 4, 1, 1, 1, 1, 1, 1, 1, 1, 1] := rfl

set_option maxHeartbeats 400000 in
/-- What the leader stores. -/
theorem rdVarVals_leader {f : RdFixed} {L : Spec.RdLeader} {extra : List ℕ} {v : RdVals}
    (hr : ∀ x ∈ L.fields, Spec.inRange x.1 x.2) {nm : RdName} {k : ℕ} {q : ℚ} (hv : L.value nm k = some q)
    (hp : nm = .pressure ∨ nm = .pressureStd → rdHasPressure f = true) (c : ℕ) :
    rdVarVals f (Spec.record L.fields ++ extra) v nm c k = some q := by
  have at' : ∀ (fmt : AdFmt) (j i : ℕ) (w : ℤ), L.fields[j]? = some (fmt, w) →
      ([2, 1, 1, 1, 1, 1, 1, 1, 1, 2, 2, 2, 2, 2, 2, 2, 2, 1, 1, 1, 1, 1, 1, 1, 1, 1, 1, 1, 1, 1, 1, 4, 2, 4, 4, 1, 1,
        1, 1, 1, 1, 1, 1, 1].take j).sum = i → rdAt fmt (Spec.record L.fields ++ extra) i = w :=
    fun fmt j i w h1 h2 => rdAt_record hr h1 (by rw [List.map_take, leader_sizes, h2])
  have hnp : nm ≠ .pressure → nm ≠ .pressureStd → ∀ u : RdVals, ∀ a b,
      (if rdHasPressure f = true then vput .pressureStd a (vput .pressure b u) else u) nm = u nm := by
    intro h1 h2 u a b
    split_ifs
    · rw [vput_ne h2, vput_ne h1]
    · rfl
  unfold rdVarVals
  cases nm <;> simp only [Spec.RdLeader.value, reduceCtorEq] at hv
  case pressure =>
    simp only [hp (Or.inl rfl), if_true, vput, reduceCtorEq, if_false, sc]
    rw [at' .I 33 46 L.pressure rfl (by decide), ← hv]
  case pressureStd =>
    simp only [hp (Or.inr rfl), if_true, vput, sc]
    rw [at' .I 34 50 L.pressureStd rfl (by decide), ← hv]
  all_goals
    rw [hnp (by decide) (by decide)]
    simp only [vput, reduceCtorEq, if_false, if_true, sc, perBeam]
  case builtin => rw [at' .H 9 10 L.bit rfl (by decide), ← hv]
  case cSound => rw [at' .H 10 12 L.soundSpeed rfl (by decide), ← hv]
  case depth => rw [at' .H 11 14 L.depth rfl (by decide), ← hv, mul_one_div]
  case heading => rw [at' .H 12 16 L.heading rfl (by decide), ← hv, mul_one_div]
  case pitch => rw [at' .h 13 18 L.pitch rfl (by decide), ← hv, mul_one_div]
  case roll => rw [at' .h 14 20 L.roll rfl (by decide), ← hv, mul_one_div]
  case salinity => rw [at' .h 15 22 L.salinity rfl (by decide), ← hv]
  case temp => rw [at' .h 16 24 L.temp rfl (by decide), ← hv, mul_one_div]
  case preping =>
    rw [at' .B 17 26 (L.wait 0) rfl (by decide), at' .B 18 27 (L.wait 1) rfl (by decide), at' .B 19 28 (L.wait 2) rfl (by decide), ← hv]
    congr 1; ring
  case headingStd => rw [at' .B 20 29 L.headingStd rfl (by decide), ← hv]
  case pitchStd => rw [at' .B 21 30 L.pitchStd rfl (by decide), ← hv, mul_one_div]
  case rollStd => rw [at' .B 22 31 L.rollStd rfl (by decide), ← hv, mul_one_div]
  case adc =>
    split_ifs at hv with h8
    rw [if_pos h8, rdAt_b]
    have : rdAt .B (Spec.record L.fields ++ extra) (32 + k) = L.adc ⟨k, h8⟩ := by
      interval_cases k
      · exact at' .B 23 32 _ rfl (by decide)
      · exact at' .B 24 33 _ rfl (by decide)
      · exact at' .B 25 34 _ rfl (by decide)
      · exact at' .B 26 35 _ rfl (by decide)
      · exact at' .B 27 36 _ rfl (by decide)
      · exact at' .B 28 37 _ rfl (by decide)
      · exact at' .B 29 38 _ rfl (by decide)
      · exact at' .B 30 39 _ rfl (by decide)
    have hrange : Spec.inRange .B (L.adc ⟨k, h8⟩) := by
      refine hr (.B, L.adc ⟨k, h8⟩) ?_
      interval_cases k <;> simp [Spec.RdLeader.fields]
    rw [this, ← hv]
    have h2 : 0 ≤ L.adc ⟨k, h8⟩ ∧ L.adc ⟨k, h8⟩ < 256 := by
      simpa [Spec.inRange, AdFmt.signed, AdFmt.size] using hrange
    rw [Int.emod_eq_of_lt h2.1 h2.2]

theorem leader_split {f : RdFixed} {e : Spec.RdEns} (he : e.Ok f) {b : Spec.RdBlk} (hm : b ∈ e.blks) (hid : b.id = 128) :
    ∃ fx rest, e.blks = fx :: b :: rest ∧ fx.id = 0 ∧ (∀ x ∈ rest, x.id ≠ 128 ∧ x.id ≠ 129) := by
  obtain ⟨fx, vr, rest, hb, hfx, hvid, _, hrest⟩ := he.shape
  have hr : ∀ x ∈ rest, x.id ≠ 128 ∧ x.id ≠ 129 := by
    intro x hx
    obtain ⟨_, k, hk, _⟩ := hrest x hx
    constructor <;>
    · intro hc
      rw [hc] at hk
      exact absurd hk (by simp [Spec.rdMin])
  rw [hb] at hm
  rcases List.mem_cons.mp hm with rfl | hm
  · rw [hfx.1] at hid; exact absurd hid (by decide)
  rcases List.mem_cons.mp hm with rfl | hm
  · exact ⟨fx, rest, hb, hfx.1, hr⟩
  · exact absurd hid (hr b hm).1

theorem leader_last {f : RdFixed} {e : Spec.RdEns} (he : e.Ok f) {b : Spec.RdBlk} (hm : b ∈ e.blks) (hid : b.id = 128) :
    Spec.LastBlk e b := by
  obtain ⟨fx, rest, hb, _, hr⟩ := leader_split he hm hid
  exact ⟨[fx], rest, hb, fun x hx => by rw [hid]; exact (hr x hx).1⟩

/-- The names of a group are in the dataset when a block of the group was read. -/
theorem col_names {f : RdFixed} {cells : ℕ} {e : Spec.RdEns} {m : RdMem} (hm : SeenOk m.seen) {b : Spec.RdBlk}
    (hb : b ∈ e.blks) {nm : RdName}
    (h : ∀ m', SeenOk m'.seen → nm ∈ (blkStore f b m').seen) :
    nm ∈ (ensCol f cells e m).names := by
  show nm ∈ (ensStore f e.blks m).seen
  obtain ⟨pre, post, hbl⟩ := List.append_of_mem hb
  rw [hbl, ensStore_append]
  exact ensStore_seen post (blkStore f b (ensStore f pre m)) (h _ (seenOk_ens pre m hm))

theorem seenOk_start {f : RdFixed} (es : List Spec.RdEns) : SeenOk (memAt f es rdMem0).seen :=
  seenOk_memAt es rdMem0 ⟨fun h => absurd h (by decide), fun h => absurd h (by decide), fun h => absurd h (by decide),
    fun h => absurd h (by decide)⟩

theorem col_leader_values {f : RdFixed} {cells : ℕ} {e : Spec.RdEns} {m : RdMem} (heok : e.Ok f) {o : RdOutV} {i : ℕ}
    (hcol : o.cols[i]? = some (ensCol f cells e m)) (hm : SeenOk m.seen) {b : Spec.RdBlk} (hb : b ∈ e.blks) (hid : b.id = 128)
    {L : Spec.RdLeader} {extra : List ℕ} (hpl : b.pl = Spec.record L.fields ++ extra)
    (hr : ∀ x ∈ L.fields, Spec.inRange x.1 x.2) {nm : RdName} {k : ℕ} {q : ℚ} (hv : L.value nm k = some q)
    (hp : nm = .pressure ∨ nm = .pressureStd → rdHasPressure f = true) (junk : RdName → ℕ → ℕ → ℕ → ℚ) :
    rdElem junk o nm 0 k i = some q := by
  have hidn : Spec.rdId nm = 128 ∧ nm.profile = false ∧ nm ≠ .vel := by
    cases nm <;> first
      | exact ⟨rfl, rfl, by decide⟩
      | (simp only [Spec.RdLeader.value, reduceCtorEq] at hv)
  obtain ⟨pre, post, hbl, hpost⟩ := leader_last heok hb hid
  have hblk : ∀ m', blkStore f b m' =
      { m' with nb := rdVarVals f b.pl m'.nb, rtc := rdVarClock f b.pl, seen := rdVarSeen f m'.seen } := by
    intro m'
    unfold blkStore rdStore
    rw [hid]; rfl
  have hname : nm ∈ (ensCol f cells e m).names := by
    refine col_names hm hb (fun m' hm' => ?_)
    rw [hblk]
    have h1 : ∀ s, SeenOk s → ∀ x ∈ RdName.number :: [.builtin, .cSound, .depth, .heading, .pitch, .roll, .salinity,
        .temp, .preping, .headingStd, .pitchStd, .rollStd, .adc], x ∈ seenAdd s (RdName.number :: [.builtin, .cSound,
        .depth, .heading, .pitch, .roll, .salinity, .temp, .preping, .headingStd, .pitchStd, .rollStd, .adc]) := by
      intro s hs x hx
      rcases List.mem_cons.mp hx with rfl | hx
      · exact mem_seenAdd_head
      · exact groupOk_add hs.leader (Or.inl rfl) mem_seenAdd_head x hx
    have hok' := groupOk_add (vals := RdName.number :: [.builtin, .cSound, .depth, .heading, .pitch, .roll, .salinity,
      .temp, .preping, .headingStd, .pitchStd, .rollStd, .adc]) hm'.press (Or.inr (by decide))
    show nm ∈ rdVarSeen f m'.seen
    unfold rdVarSeen
    simp only
    by_cases hpn : nm = .pressure ∨ nm = .pressureStd
    · have hpr := hp hpn
      rw [if_neg (by
        unfold rdHasPressure at hpr
        simp only [Bool.and_eq_true, Bool.not_eq_true'] at hpr
        simp [hpr.1.1, hpr.1.2])]
      rcases hpn with rfl | rfl
      · exact mem_seenAdd_head
      · exact groupOk_add hok' (Or.inl rfl) mem_seenAdd_head _ (by simp)
    · have : nm ∈ RdName.number :: [.builtin, .cSound, .depth, .heading, .pitch, .roll, .salinity,
        .temp, .preping, .headingStd, .pitchStd, .rollStd, .adc] := by
        cases nm <;> first
          | decide
          | (exfalso; exact hpn (by decide))
          | (exfalso; simp only [Spec.RdLeader.value, reduceCtorEq] at hv)
      split_ifs
      · exact h1 _ hm' _ this
      · exact mem_seenAdd (h1 _ hm' _ this)
  unfold rdElem
  rw [hcol]
  simp only
  rw [if_pos hname, if_neg (by rw [hidn.2.1]; simp)]
  show rdClean (ensStore f e.blks m).nb nm 0 k = _
  unfold rdClean
  rw [vput_ne hidn.2.2, ensStore_last heok hbl hpost _ (hid.trans hidn.1.symm), hblk, hpl]
  exact rdVarVals_leader hr hv hp 0

/-- C122 (leader): every leader variable of an ensemble that was read is the recorded number in its unit. -/
theorem rdi_leader_values {env : RdEnv} {f : RdFixed} (hf : 0 < f.nCells) {cells nens : ℕ} {es : List Spec.RdEns}
    (hok : ∀ e ∈ es, e.Ok f) {o : RdOutV} (h : RdReadOf env f cells es nens o) {i : ℕ} {e : Spec.RdEns}
    (hi : i < min nens (es.length - 1)) (he : es[i]? = some e) {b : Spec.RdBlk} (hb : b ∈ e.blks) (hid : b.id = 128)
    {L : Spec.RdLeader} {extra : List ℕ} (hpl : b.pl = Spec.record L.fields ++ extra)
    (hr : ∀ x ∈ L.fields, Spec.inRange x.1 x.2) {nm : RdName} {k : ℕ} {q : ℚ} (hv : L.value nm k = some q)
    (hp : nm = .pressure ∨ nm = .pressureStd → rdHasPressure f = true) (junk : RdName → ℕ → ℕ → ℕ → ℚ) :
    rdElem junk o nm 0 k i = some q :=
  col_leader_values (hok e (List.mem_of_getElem? he)) (rdReadOf_col hf hok h hi he) (seenOk_start _) hb hid hpl hr hv hp junk

/-- The clock by which an ensemble is dated: years below 100 are in the century from 2000. -/
def Spec.RdLeader.year (f : RdFixed) (L : Spec.RdLeader) : ℤ :=
  let y := if rdHasCentury f then 100 * L.century + L.clock2 0 else L.clock 0
  if y < 100 then 2000 + y else y

/-- The other items of the clock. -/
def Spec.RdLeader.item (f : RdFixed) (L : Spec.RdLeader) (i : Fin 7) : ℤ :=
  if rdHasCentury f then L.clock2 i else L.clock i

theorem getD_record {l : List (AdFmt × ℤ)} {r : List ℕ} {j i : ℕ} {v : ℤ}
    (hr : ∀ x ∈ l, Spec.inRange x.1 x.2) (hj : l[j]? = some (.B, v)) (hi : ((l.take j).map (·.1.size)).sum = i) :
    (((Spec.record l ++ r).getD i 0 : ℕ) : ℤ) = v := by
  have h := rdAt_record (r := r) hr hj hi
  rw [← h]
  have hB : ∀ bs : List ℕ, adVal .B bs = leNat bs := by
    intro bs
    unfold adVal
    simp only
    exact if_neg (fun hc => absurd hc.1 (by decide))
  unfold rdAt
  rw [hB]
  simp only [AdFmt.size]
  rw [List.getD_eq_getElem?_getD]
  cases hx : (Spec.record l ++ r)[i]? with
  | none =>
    rw [List.drop_eq_nil_of_le (List.getElem?_eq_none_iff.mp hx)]
    rfl
  | some a =>
    obtain ⟨hlt, ha⟩ := List.getElem?_eq_some_iff.mp hx
    rw [List.drop_eq_getElem_cons hlt, ha]
    simp [leNat]

/-- What the leader stores in the clock. -/
theorem rdVarClock_leader {f : RdFixed} {L : Spec.RdLeader} {extra : List ℕ}
    (hr : ∀ x ∈ L.fields, Spec.inRange x.1 x.2) :
    ((rdVarClock f (Spec.record L.fields ++ extra) 0 : ℕ) : ℤ) =
      (if rdHasCentury f then 100 * L.century + L.clock2 0 else L.clock 0) ∧
    ∀ i : Fin 7, i ≠ 0 → ((rdVarClock f (Spec.record L.fields ++ extra) i : ℕ) : ℤ) = L.item f i := by
  have at' : ∀ (j i : ℕ) (w : ℤ), L.fields[j]? = some (.B, w) →
      ([2, 1, 1, 1, 1, 1, 1, 1, 1, 2, 2, 2, 2, 2, 2, 2, 2, 1, 1, 1, 1, 1, 1, 1, 1, 1, 1, 1, 1, 1, 1, 4, 2, 4, 4, 1, 1,
        1, 1, 1, 1, 1, 1, 1].take j).sum = i → (((Spec.record L.fields ++ extra).getD i 0 : ℕ) : ℤ) = w :=
    fun j i w h1 h2 => getD_record hr h1 (by rw [List.map_take, leader_sizes, h2])
  constructor
  · unfold rdVarClock
    rw [if_neg (by decide)]
    by_cases hc : rdHasCentury f = true
    · simp only [hc, if_true]
      push_cast
      rw [at' 37 56 (L.clock2 0) rfl (by decide), at' 36 55 L.century rfl (by decide)]
      ring
    · simp only [hc]
      exact at' 1 2 _ rfl (by decide)
  · intro i hi
    unfold rdVarClock Spec.RdLeader.item
    rw [if_neg (by omega)]
    have hi' : (i : ℕ) ≠ 0 := fun hc => hi (Fin.ext hc)
    split_ifs
    · fin_cases i
      · exact absurd rfl hi
      · exact at' 38 57 _ rfl (by decide)
      · exact at' 39 58 _ rfl (by decide)
      · exact at' 40 59 _ rfl (by decide)
      · exact at' 41 60 _ rfl (by decide)
      · exact at' 42 61 _ rfl (by decide)
      · exact at' 43 62 _ rfl (by decide)
    · fin_cases i
      · exact absurd rfl hi
      · exact at' 2 3 _ rfl (by decide)
      · exact at' 3 4 _ rfl (by decide)
      · exact at' 4 5 _ rfl (by decide)
      · exact at' 5 6 _ rfl (by decide)
      · exact at' 6 7 _ rfl (by decide)
      · exact at' 7 8 _ rfl (by decide)

theorem col_time_values {f : RdFixed} {cells : ℕ} {e : Spec.RdEns} {m : RdMem} (heok : e.Ok f) {o : RdOutV} {i : ℕ}
    (hcol : o.cols[i]? = some (ensCol f cells e m)) {b : Spec.RdBlk} (hb : b ∈ e.blks) (hid : b.id = 128)
    {L : Spec.RdLeader} {extra : List ℕ} (hpl : b.pl = Spec.record L.fields ++ extra)
    (hr : ∀ x ∈ L.fields, Spec.inRange x.1 x.2) (t : CivilTime) (us : ℕ) (hy : t.year = L.year f)
    (hmo : (t.month : ℤ) = L.item f 1) (hd : (t.day : ℤ) = L.item f 2) (hh : (t.hour : ℤ) = L.item f 3)
    (hmi : (t.minute : ℤ) = L.item f 4) (hs : (t.second : ℤ) = L.item f 5) (hus : (us : ℤ) = L.item f 6) :
    o.cols[i]?.map (·.time) = some (if t.valid ∧ us < 100 then some (date2epoch t (us * 10000)) else none) := by
  rw [hcol]
  simp only [Option.map_some, ensCol, ensAfter, rdCleaned]
  obtain ⟨fx, rest, hbl, hfx, hrest⟩ := leader_split heok hb hid
  have hclock : (ensStore f e.blks m).rtc = rdVarClock f b.pl := by
    rw [hbl]
    show (ensStore f rest (blkStore f b (blkStore f fx _))).rtc = _
    rw [ensStore_clock rest _ hrest]
    unfold blkStore rdStore
    rw [hid]
    rfl
  rw [hclock, hpl]
  obtain ⟨h0, h1⟩ := rdVarClock_leader (f := f) (extra := extra) hr
  set c := rdVarClock f (Spec.record L.fields ++ extra)
  have hyear : ((rdCentury c 0 : ℕ) : ℤ) = t.year := by
    rw [hy]
    unfold rdCentury Spec.RdLeader.year
    simp only
    rw [← h0]
    by_cases hlt : c 0 < 100
    · rw [if_pos ⟨trivial, hlt⟩, if_pos (by exact_mod_cast hlt)]
      push_cast; ring
    · rw [if_neg (fun hc => hlt hc.2), if_neg (by exact_mod_cast hlt)]
  have hrest' : ∀ k : Fin 7, k ≠ 0 → ((rdCentury c k : ℕ) : ℤ) = L.item f k := by
    intro k hk
    rw [← h1 k hk]
    unfold rdCentury
    rw [if_neg (fun hc => hk (Fin.ext hc.1))]
  have e1 := hrest' 1 (by decide)
  have e2 := hrest' 2 (by decide)
  have e3 := hrest' 3 (by decide)
  have e4 := hrest' 4 (by decide)
  have e5 := hrest' 5 (by decide)
  have e6 := hrest' 6 (by decide)
  rw [← hmo] at e1; rw [← hd] at e2; rw [← hh] at e3; rw [← hmi] at e4; rw [← hs] at e5; rw [← hus] at e6
  have f1 : rdCentury c 1 = t.month := by exact_mod_cast e1
  have f2 : rdCentury c 2 = t.day := by exact_mod_cast e2
  have f3 : rdCentury c 3 = t.hour := by exact_mod_cast e3
  have f4 : rdCentury c 4 = t.minute := by exact_mod_cast e4
  have f5 : rdCentury c 5 = t.second := by exact_mod_cast e5
  have f6 : rdCentury c 6 = us := by exact_mod_cast e6
  unfold rdColTime
  simp only [hyear, f1, f2, f3, f4, f5, f6]
  have : us * 10000 < 1000000 ↔ us < 100 := by omega
  simp only [this]

/-- C122 (time): the time of a column is that of its leader's clock, with hundredths of seconds; NaN if the
clock shows no date. -/
theorem rdi_time_values {env : RdEnv} {f : RdFixed} (hf : 0 < f.nCells) {cells nens : ℕ} {es : List Spec.RdEns}
    (hok : ∀ e ∈ es, e.Ok f) {o : RdOutV} (h : RdReadOf env f cells es nens o) {i : ℕ} {e : Spec.RdEns}
    (hi : i < min nens (es.length - 1)) (he : es[i]? = some e) {b : Spec.RdBlk} (hb : b ∈ e.blks) (hid : b.id = 128)
    {L : Spec.RdLeader} {extra : List ℕ} (hpl : b.pl = Spec.record L.fields ++ extra)
    (hr : ∀ x ∈ L.fields, Spec.inRange x.1 x.2) (t : CivilTime) (us : ℕ) (hy : t.year = L.year f)
    (hmo : (t.month : ℤ) = L.item f 1) (hd : (t.day : ℤ) = L.item f 2) (hh : (t.hour : ℤ) = L.item f 3)
    (hmi : (t.minute : ℤ) = L.item f 4) (hs : (t.second : ℤ) = L.item f 5) (hus : (us : ℤ) = L.item f 6) :
    o.cols[i]?.map (·.time) = some (if t.valid ∧ us < 100 then some (date2epoch t (us * 10000)) else none) :=
  col_time_values (hok e (List.mem_of_getElem? he)) (rdReadOf_col hf hok h hi he) hb hid hpl hr t us hy hmo hd hh hmi hs hus

/-! ### Bottom track and altimeter -/

theorem rdAt_skip {fmt : AdFmt} {p c : List ℕ} {n i : ℕ} (hp : p.length = n) : rdAt fmt (p ++ c) (n + i) = rdAt fmt c i := by
  unfold rdAt
  rw [List.drop_append, List.drop_eq_nil_of_le (by omega), List.nil_append, hp, Nat.add_sub_cancel_left]

/-- The bottom-track record of PD0 behind its settings. -/
structure Spec.RdBottom where
  range : Fin 4 → ℤ
  vel : Fin 4 → ℤ
  corr : Fin 4 → ℤ
  amp : Fin 4 → ℤ
  good : Fin 4 → ℤ
  msb : Fin 4 → ℤ

/-- Range, velocity, correlation, amplitude and percentage of good pings. -/
def Spec.RdBottom.fields (R : Spec.RdBottom) : List (AdFmt × ℤ) :=
  [(.H, R.range 0), (.H, R.range 1), (.H, R.range 2), (.H, R.range 3), (.h, R.vel 0), (.h, R.vel 1), (.h, R.vel 2),
    (.h, R.vel 3), (.B, R.corr 0), (.B, R.corr 1), (.B, R.corr 2), (.B, R.corr 3), (.B, R.amp 0), (.B, R.amp 1),
    (.B, R.amp 2), (.B, R.amp 3), (.B, R.good 0), (.B, R.good 1), (.B, R.good 2), (.B, R.good 3)]

/-- The high bytes of the range. -/
def Spec.RdBottom.high (R : Spec.RdBottom) : List (AdFmt × ℤ) :=
  [(.B, R.msb 0), (.B, R.msb 1), (.B, R.msb 2), (.B, R.msb 3)]

/-- The quantities in the units of the dataset: m and m/s. Ranges have 24 bits from firmware 5.3 on. -/
def Spec.RdBottom.value (f : RdFixed) (R : Spec.RdBottom) (k : Fin 4) : RdName → Option ℚ
  | .distBt => some ((R.range k + if 530 ≤ f.ver then 65536 * R.msb k else 0 : ℤ) / 100)
  | .velBt => some (R.vel k / 1000)
  | .corrBt => some (R.corr k)
  | .ampBt => some (R.amp k)
  | .prcntGdBt => some (R.good k)
  | _ => none

set_option maxHeartbeats 400000 in
theorem rdBottomVals_value {f : RdFixed} {R : Spec.RdBottom} {lead gap extra : List ℕ} {v : RdVals}
    (hl : lead.length = 14) (hg : gap.length = 33) (hr : ∀ x ∈ R.fields ++ R.high, Spec.inRange x.1 x.2)
    {nm : RdName} {k : Fin 4} {q : ℚ} (hv : R.value f k nm = some q) (c : ℕ) :
    rdBottomVals f (lead ++ (Spec.record R.fields ++ (gap ++ (Spec.record R.high ++ extra)))) v nm c k = some q := by
  have hsz : R.fields.map (·.1.size) = [2, 2, 2, 2, 2, 2, 2, 2, 1, 1, 1, 1, 1, 1, 1, 1, 1, 1, 1, 1] := rfl
  have hsz' : R.high.map (·.1.size) = [1, 1, 1, 1] := rfl
  have at' : ∀ (fmt : AdFmt) (j i : ℕ) (w : ℤ), R.fields[j]? = some (fmt, w) →
      ([2, 2, 2, 2, 2, 2, 2, 2, 1, 1, 1, 1, 1, 1, 1, 1, 1, 1, 1, 1].take j).sum = i →
      rdAt fmt (lead ++ (Spec.record R.fields ++ (gap ++ (Spec.record R.high ++ extra)))) (14 + i) = w := by
    intro fmt j i w h1 h2
    rw [rdAt_skip hl]
    refine rdAt_record (fun x hx => hr x (List.mem_append_left _ hx)) h1 ?_
    rw [List.map_take, hsz, h2]
  have hi' : ∀ (j i : ℕ) (w : ℤ), R.high[j]? = some (.B, w) → ([1, 1, 1, 1].take j).sum = i →
      rdAt .B (lead ++ (Spec.record R.fields ++ (gap ++ (Spec.record R.high ++ extra)))) (75 + i) = w := by
    intro j i w h1 h2
    rw [show 75 + i = 14 + (28 + (33 + i)) by omega, rdAt_skip hl,
      rdAt_skip (by rw [record_length, hsz]; decide), rdAt_skip hg]
    refine rdAt_record (fun x hx => hr x (List.mem_append_right _ hx)) h1 ?_
    rw [List.map_take, hsz', h2]
  have hk : (k : ℕ) < 4 := k.2
  unfold rdBottomVals rdBottomValsAt
  cases nm <;> simp only [Spec.RdBottom.value, reduceCtorEq] at hv
  all_goals simp only [vput, reduceCtorEq, if_false, if_true, perBeam, hk]
  case distBt =>
    rw [← hv]
    have e1 : rdAt .H (lead ++ (Spec.record R.fields ++ (gap ++ (Spec.record R.high ++ extra)))) (14 + 2 * (k : ℕ)) =
        R.range k := by
      fin_cases k
      · exact at' .H 0 0 _ rfl (by decide)
      · exact at' .H 1 2 _ rfl (by decide)
      · exact at' .H 2 4 _ rfl (by decide)
      · exact at' .H 3 6 _ rfl (by decide)
    have e2 : rdAt .B (lead ++ (Spec.record R.fields ++ (gap ++ (Spec.record R.high ++ extra)))) (75 + (k : ℕ)) =
        R.msb k := by
      fin_cases k
      · exact hi' 0 0 _ rfl (by decide)
      · exact hi' 1 1 _ rfl (by decide)
      · exact hi' 2 2 _ rfl (by decide)
      · exact hi' 3 3 _ rfl (by decide)
    rw [e1, e2]
    congr 1
    split_ifs <;> push_cast <;> ring
  case velBt =>
    rw [← hv]
    have e1 : rdAt .h (lead ++ (Spec.record R.fields ++ (gap ++ (Spec.record R.high ++ extra)))) (22 + 2 * (k : ℕ)) =
        R.vel k := by
      fin_cases k
      · exact at' .h 4 8 _ rfl (by decide)
      · exact at' .h 5 10 _ rfl (by decide)
      · exact at' .h 6 12 _ rfl (by decide)
      · exact at' .h 7 14 _ rfl (by decide)
    rw [e1]
    congr 1
    ring
  case corrBt =>
    rw [← hv]
    congr 2
    fin_cases k
    · exact at' .B 8 16 _ rfl (by decide)
    · exact at' .B 9 17 _ rfl (by decide)
    · exact at' .B 10 18 _ rfl (by decide)
    · exact at' .B 11 19 _ rfl (by decide)
  case ampBt =>
    rw [← hv]
    congr 2
    fin_cases k
    · exact at' .B 12 20 _ rfl (by decide)
    · exact at' .B 13 21 _ rfl (by decide)
    · exact at' .B 14 22 _ rfl (by decide)
    · exact at' .B 15 23 _ rfl (by decide)
  case prcntGdBt =>
    rw [← hv]
    congr 2
    fin_cases k
    · exact at' .B 16 24 _ rfl (by decide)
    · exact at' .B 17 25 _ rfl (by decide)
    · exact at' .B 18 26 _ rfl (by decide)
    · exact at' .B 19 27 _ rfl (by decide)

theorem blkStore_bottom {f : RdFixed} {b : Spec.RdBlk} {m : RdMem} (hid : b.id = 1536) :
    blkStore f b m = { m with
      nb := rdBottomVals f b.pl m.nb, seen := seenAdd m.seen (RdName.distBt :: [.velBt, .corrBt, .ampBt, .prcntGdBt]) } := by
  unfold blkStore rdStore
  rw [hid]; rfl

theorem blkStore_alt {f : RdFixed} {b : Spec.RdBlk} {m : RdMem} (hid : b.id = 16640) :
    blkStore f b m = { m with
      nb := rdAltVals b.pl m.nb, seen := seenAdd m.seen (RdName.altDist :: [.altRssi, .altEval, .altStatus]) } := by
  unfold blkStore rdStore
  rw [hid]; rfl

theorem col_bottom_values {f : RdFixed} {cells : ℕ} {e : Spec.RdEns} {m : RdMem} (heok : e.Ok f) {o : RdOutV} {i : ℕ}
    (hcol : o.cols[i]? = some (ensCol f cells e m)) (hm : SeenOk m.seen) {b : Spec.RdBlk} (hb : Spec.LastBlk e b)
    (hid : b.id = 1536) {R : Spec.RdBottom} {lead gap extra : List ℕ}
    (hpl : b.pl = lead ++ (Spec.record R.fields ++ (gap ++ (Spec.record R.high ++ extra))))
    (hl : lead.length = 14) (hg : gap.length = 33) (hr : ∀ x ∈ R.fields ++ R.high, Spec.inRange x.1 x.2)
    {nm : RdName} {k : Fin 4} {q : ℚ} (hv : R.value f k nm = some q) (junk : RdName → ℕ → ℕ → ℕ → ℚ) :
    rdElem junk o nm 0 k i = some q := by
  have hidn : nm ∈ RdName.distBt :: [.velBt, .corrBt, .ampBt, .prcntGdBt] ∧ Spec.rdId nm = 1536 ∧
      nm.profile = false ∧ nm ≠ .vel := by
    cases nm <;> first
      | exact ⟨by decide, rfl, rfl, by decide⟩
      | (simp only [Spec.RdBottom.value, reduceCtorEq] at hv)
  obtain ⟨pre, post, hbl, hpost⟩ := hb
  have hname : nm ∈ (ensCol f cells e m).names := by
    refine col_names hm (b := b) (by rw [hbl]; simp) (fun m' hm' => ?_)
    rw [blkStore_bottom hid]
    rcases List.mem_cons.mp hidn.1 with rfl | hx
    · exact mem_seenAdd_head
    · exact groupOk_add hm'.bottom (Or.inl rfl) mem_seenAdd_head _ hx
  unfold rdElem
  rw [hcol]
  simp only
  rw [if_pos hname, if_neg (by rw [hidn.2.2.1]; simp)]
  show rdClean (ensStore f e.blks m).nb nm 0 k = _
  unfold rdClean
  rw [vput_ne hidn.2.2.2, ensStore_last heok hbl hpost _ (hid.trans hidn.2.1.symm), blkStore_bottom hid, hpl]
  exact rdBottomVals_value hl hg hr hv 0

/-- C122 (bottom track): when an ensemble holds a bottom-track record, its ranges, velocities, correlations,
amplitudes and percentages are those of the record. -/
theorem rdi_bottom_values {env : RdEnv} {f : RdFixed} (hf : 0 < f.nCells) {cells nens : ℕ} {es : List Spec.RdEns}
    (hok : ∀ e ∈ es, e.Ok f) {o : RdOutV} (h : RdReadOf env f cells es nens o) {i : ℕ} {e : Spec.RdEns}
    (hi : i < min nens (es.length - 1)) (he : es[i]? = some e) {b : Spec.RdBlk} (hb : Spec.LastBlk e b)
    (hid : b.id = 1536) {R : Spec.RdBottom} {lead gap extra : List ℕ}
    (hpl : b.pl = lead ++ (Spec.record R.fields ++ (gap ++ (Spec.record R.high ++ extra))))
    (hl : lead.length = 14) (hg : gap.length = 33) (hr : ∀ x ∈ R.fields ++ R.high, Spec.inRange x.1 x.2)
    {nm : RdName} {k : Fin 4} {q : ℚ} (hv : R.value f k nm = some q) (junk : RdName → ℕ → ℕ → ℕ → ℚ) :
    rdElem junk o nm 0 k i = some q :=
  col_bottom_values (hok e (List.mem_of_getElem? he)) (rdReadOf_col hf hok h hi he) (seenOk_start _) hb hid hpl hl hg hr hv junk

/-- The altimeter record: evaluation amplitude, signal strength, range in mm, status. -/
def Spec.rdAlt (eval rssi dist status : ℤ) : List (AdFmt × ℤ) := [(.B, eval), (.B, rssi), (.I, dist), (.B, status)]

theorem col_alt_values {f : RdFixed} {cells : ℕ} {e : Spec.RdEns} {m : RdMem} (heok : e.Ok f) {o : RdOutV} {i : ℕ}
    (hcol : o.cols[i]? = some (ensCol f cells e m)) (hm : SeenOk m.seen) {b : Spec.RdBlk} (hb : Spec.LastBlk e b)
    (hid : b.id = 16640) {ev rssi dist st : ℤ} {extra : List ℕ}
    (hpl : b.pl = Spec.record (Spec.rdAlt ev rssi dist st) ++ extra)
    (hr : ∀ x ∈ Spec.rdAlt ev rssi dist st, Spec.inRange x.1 x.2) (junk : RdName → ℕ → ℕ → ℕ → ℚ) :
    rdElem junk o .altEval 0 0 i = some (ev : ℚ) ∧ rdElem junk o .altRssi 0 0 i = some (rssi : ℚ) ∧
      rdElem junk o .altDist 0 0 i = some ((dist : ℚ) / 1000) ∧ rdElem junk o .altStatus 0 0 i = some (st : ℚ) := by
  obtain ⟨pre, post, hbl, hpost⟩ := hb
  have go : ∀ nm ∈ RdName.altDist :: [.altRssi, .altEval, .altStatus],
      rdElem junk o nm 0 0 i = rdAltVals b.pl (ensStore f pre m).nb nm 0 0 := by
    intro nm hx
    have hidn : Spec.rdId nm = 16640 ∧ nm.profile = false ∧ nm ≠ .vel := by
      revert nm; decide
    have hname : nm ∈ (ensCol f cells e m).names := by
      refine col_names hm (b := b) (by rw [hbl]; simp) (fun m' hm' => ?_)
      rw [blkStore_alt hid]
      rcases List.mem_cons.mp hx with rfl | hx
      · exact mem_seenAdd_head
      · exact groupOk_add hm'.alt (Or.inl rfl) mem_seenAdd_head _ hx
    unfold rdElem
    rw [hcol]
    simp only
    rw [if_pos hname, if_neg (by rw [hidn.2.1]; simp)]
    show rdClean (ensStore f e.blks m).nb nm 0 0 = _
    unfold rdClean
    rw [vput_ne hidn.2.2, ensStore_last heok hbl hpost _ (hid.trans hidn.1.symm), blkStore_alt hid]
  rw [go _ (by decide), go _ (by decide), go _ (by decide), go _ (by decide), hpl]
  unfold rdAltVals
  simp only [vput, reduceCtorEq, if_false, if_true, sc]
  rw [rdAt_record (j := 0) (i := 0) hr rfl rfl, rdAt_record (j := 1) (i := 1) hr rfl rfl,
    rdAt_record (j := 2) (i := 2) hr rfl rfl, rdAt_record (j := 3) (i := 6) hr rfl rfl]
  exact ⟨rfl, rfl, rfl, rfl⟩

/-- C122 (altimeter): the variables of the vertical beam are those of the record. -/
theorem rdi_alt_values {env : RdEnv} {f : RdFixed} (hf : 0 < f.nCells) {cells nens : ℕ} {es : List Spec.RdEns}
    (hok : ∀ e ∈ es, e.Ok f) {o : RdOutV} (h : RdReadOf env f cells es nens o) {i : ℕ} {e : Spec.RdEns}
    (hi : i < min nens (es.length - 1)) (he : es[i]? = some e) {b : Spec.RdBlk} (hb : Spec.LastBlk e b)
    (hid : b.id = 16640) {ev rssi dist st : ℤ} {extra : List ℕ}
    (hpl : b.pl = Spec.record (Spec.rdAlt ev rssi dist st) ++ extra)
    (hr : ∀ x ∈ Spec.rdAlt ev rssi dist st, Spec.inRange x.1 x.2) (junk : RdName → ℕ → ℕ → ℕ → ℚ) :
    rdElem junk o .altEval 0 0 i = some (ev : ℚ) ∧ rdElem junk o .altRssi 0 0 i = some (rssi : ℚ) ∧
      rdElem junk o .altDist 0 0 i = some ((dist : ℚ) / 1000) ∧ rdElem junk o .altStatus 0 0 i = some (st : ℚ) :=
  col_alt_values (hok e (List.mem_of_getElem? he)) (rdReadOf_col hf hok h hi he) (seenOk_start _) hb hid hpl hr junk

/-! ### Not so -/

/-- C122 (refuted in general): when an ensemble lacks a bottom-track record the dataset does not show a gap but
the values of the ensemble before. -/
theorem rdi_bottom_stale {env : RdEnv} {f : RdFixed} (hf : 0 < f.nCells) {cells nens : ℕ} {es : List Spec.RdEns}
    (hok : ∀ e ∈ es, e.Ok f) {o : RdOutV} (h : RdReadOf env f cells es nens o) {i : ℕ} {e e' : Spec.RdEns}
    (hi : i + 1 < min nens (es.length - 1)) (he : es[i]? = some e) (he' : es[i + 1]? = some e')
    (hno : ∀ b ∈ e'.blks, b.id ≠ 1536) {b : Spec.RdBlk} (hb : b ∈ e.blks) (hid : b.id = 1536)
    {nm : RdName} (hnm : nm ∈ RdName.distBt :: [.velBt, .corrBt, .ampBt, .prcntGdBt]) (c k : ℕ)
    (junk : RdName → ℕ → ℕ → ℕ → ℚ) :
    rdElem junk o nm c k (i + 1) = rdElem junk o nm c k i := by
  have hcol := rdReadOf_col hf hok h (by omega) he
  have hcol' := rdReadOf_col hf hok h hi he'
  have heok' := hok e' (List.mem_of_getElem? he')
  have hidn : Spec.rdId nm = 1536 ∧ nm.profile = false ∧ nm ≠ .vel := by
    revert nm; decide
  have hname : nm ∈ (ensCol f cells e (memAt f (es.take i) rdMem0)).names := by
    refine col_names (seenOk_start _) hb (fun m' hm' => ?_)
    rw [blkStore_bottom hid]
    rcases List.mem_cons.mp hnm with rfl | hx
    · exact mem_seenAdd_head
    · exact groupOk_add hm'.bottom (Or.inl rfl) mem_seenAdd_head _ hx
  have hmem : memAt f (es.take (i + 1)) rdMem0 = ensAfter f e (memAt f (es.take i) rdMem0) := by
    rw [List.take_add_one, he]
    have hap : ∀ (l : List Spec.RdEns) (m : RdMem), memAt f (l ++ [e]) m = ensAfter f e (memAt f l m) := by
      intro l
      induction l with
      | nil => intro m; rfl
      | cons a l ih => intro m; exact ih (ensAfter f a m)
    exact hap _ _
  have hname' : nm ∈ (ensCol f cells e' (memAt f (es.take (i + 1)) rdMem0)).names := by
    rw [hmem]
    exact ensStore_seen e'.blks (ensAfter f e (memAt f (es.take i) rdMem0)) hname
  unfold rdElem
  rw [hcol, hcol']
  simp only
  rw [if_pos hname, if_pos hname', if_neg (by rw [hidn.2.1]; simp), if_neg (by rw [hidn.2.1]; simp), hmem]
  show rdClean (ensStore f e'.blks (ensAfter f e (memAt f (es.take i) rdMem0))).nb nm c k =
    (ensAfter f e (memAt f (es.take i) rdMem0)).nb nm c k
  unfold rdClean
  rw [vput_ne hidn.2.2, ensStore_other e'.blks (ensAfter f e (memAt f (es.take i) rdMem0)) (fun x hx =>
    ⟨by rw [hidn.1]; exact hno x hx, ok_ids heok' x hx⟩)]

/-- C122 (refuted): the mark -32768 for bad bottom-track velocities is not made a NaN; it comes out as
-32.768 m/s. -/
theorem rdi_bottom_bad {env : RdEnv} {f : RdFixed} (hf : 0 < f.nCells) {cells nens : ℕ} {es : List Spec.RdEns}
    (hok : ∀ e ∈ es, e.Ok f) {o : RdOutV} (h : RdReadOf env f cells es nens o) {i : ℕ} {e : Spec.RdEns}
    (hi : i < min nens (es.length - 1)) (he : es[i]? = some e) {b : Spec.RdBlk} (hb : Spec.LastBlk e b)
    (hid : b.id = 1536) {R : Spec.RdBottom} {lead gap extra : List ℕ}
    (hpl : b.pl = lead ++ (Spec.record R.fields ++ (gap ++ (Spec.record R.high ++ extra))))
    (hl : lead.length = 14) (hg : gap.length = 33) (hr : ∀ x ∈ R.fields ++ R.high, Spec.inRange x.1 x.2)
    {k : Fin 4} (hbad : R.vel k = -32768) (junk : RdName → ℕ → ℕ → ℕ → ℚ) :
    rdElem junk o .velBt 0 k i = some (-32768 / 1000) := by
  refine rdi_bottom_values hf hok h hi he hb hid hpl hl hg hr ?_ junk
  show some ((R.vel k : ℚ) / 1000) = _
  rw [hbad]; norm_num

/-! ### A file -/

/-- A leader: 2021-03-04 05:06:07.08, heading 123.45°, pitch -1.5°, 10.25 °C, 12.5 dbar. -/
def exLeader : Spec.RdLeader where
  number := 7
  clock := ![21, 3, 4, 5, 6, 7, 8]
  numberMsb := 0
  bit := 0
  soundSpeed := 1500
  depth := 35
  heading := 12345
  pitch := -150
  roll := 20
  salinity := 35
  temp := 1025
  wait := ![0, 1, 50]
  headingStd := 1
  pitchStd := 2
  rollStd := 3
  adc := ![1, 2, 3, 4, 5, 6, 7, 200]
  error := 0
  spare := 0
  pressure := 12500
  pressureStd := 10
  spare2 := 0
  century := 20
  clock2 := ![21, 3, 4, 5, 6, 7, 8]

/-- A bottom-track record with a bad third beam. -/
def exBottom : Spec.RdBottom where
  range := ![1000, 1010, 1020, 1030]
  vel := ![100, -100, -32768, 5]
  corr := ![200, 201, 202, 203]
  amp := ![80, 81, 82, 83]
  good := ![100, 99, 98, 97]
  msb := ![0, 0, 1, 0]

/-- Velocities of two cells; the last is bad. -/
def exVel (c k : ℕ) : ℤ := if c = 1 ∧ k = 3 then -32768 else 1000 * c - 10 * k

/-- An ensemble of two cells, with or without bottom track. -/
def exEns (bottom : Bool) : Spec.RdEns :=
  ⟨0, [⟨0, [16, 28, 0, 0, 0, 0, 4, 2] ++ List.replicate 51 0⟩, ⟨128, Spec.record exLeader.fields ++ [0, 0]⟩,
    ⟨256, Spec.cellRecord .h 2 exVel ++ []⟩] ++ (if bottom then
    [⟨1536, List.replicate 14 0 ++ (Spec.record exBottom.fields ++ (List.replicate 33 0 ++
      (Spec.record exBottom.high ++ [0, 0, 0, 0, 0, 0])))⟩] else []), [0, 0, 9, 9]⟩

set_option maxRecDepth 10000 in
theorem exEns_ok (bottom : Bool) : (exEns bottom).Ok ⟨16, 1628, 2⟩ where
  tail := rfl
  small := by cases bottom <;> decide +kernel
  count := by cases bottom <;> decide +kernel
  shape := by
    refine ⟨_, _, _, rfl, ?_, rfl, by decide +kernel, ?_⟩
    · unfold Spec.rdFixedBlk; decide +kernel
    · intro b hb
      cases bottom
      · fin_cases hb
        exact ⟨by decide, 16, by decide, by decide +kernel⟩
      · fin_cases hb
        · exact ⟨by decide, 16, by decide, by decide +kernel⟩
        · exact ⟨by decide, 83, by decide, by decide +kernel⟩

instance (fmt : AdFmt) (v : ℤ) : Decidable (Spec.inRange fmt v) := by unfold Spec.inRange; infer_instance

/-- Three ensembles, of which two are read; the second has no bottom track. -/
def exFile : List Spec.RdEns := [exEns true, exEns false, exEns true]

theorem exFile_ok : ∀ e ∈ exFile, e.Ok ⟨16, 1628, 2⟩ := by
  intro e he
  fin_cases he <;> exact exEns_ok _

/-- A reader at the start of that file. -/
def exStart : RdState := { rdStart with ens := some (2, -1) }

theorem exStart_between : RdBetween ⟨16, 1628, 2⟩ 2 exStart := ⟨rfl, le_refl _, rfl, by decide, rfl, rfl, rfl⟩

theorem exFile_read : ∃ o, RdReadOf rdYes ⟨16, 1628, 2⟩ 2 exFile 10 o ∧ o.cols.length = 2 := by
  obtain ⟨t, m, o, h1, h2⟩ := rdi_reads_columns (env := rdYes) (nens := 10) (f := ⟨16, 1628, 2⟩) (by decide) exFile_ok
    (s := exStart) rfl exStart_between
  exact ⟨o, ⟨2, exStart, t, m, le_refl _, rfl, exStart_between, h1⟩, h2⟩

/-- The heading, pitch, pressure and velocities of the file; NaN for the bad velocity. -/
example (junk : RdName → ℕ → ℕ → ℕ → ℚ) : ∃ o, RdReadOf rdYes ⟨16, 1628, 2⟩ 2 exFile 10 o ∧
    rdElem junk o .heading 0 0 1 = some (12345 / 100) ∧ rdElem junk o .pitch 0 0 1 = some (-150 / 100) ∧
    rdElem junk o .pressure 0 0 1 = some (12500 / 1000) ∧ rdElem junk o .adc 0 7 1 = some 200 ∧
    rdElem junk o .vel 1 2 1 = some (980 * (1 / 1000)) ∧ rdElem junk o .vel 1 3 1 = none ∧
    o.cols[1]?.map (·.time) = some (some (date2epoch ⟨2021, 3, 4, 5, 6, 7⟩ 80000)) := by
  obtain ⟨o, ho, -⟩ := exFile_read
  have lead := fun nm k q hv hp => rdi_leader_values (f := ⟨16, 1628, 2⟩) (by decide) exFile_ok ho (i := 1)
    (e := exEns false) (by decide) rfl (b := ⟨128, Spec.record exLeader.fields ++ [0, 0]⟩) (by simp [exEns]) rfl
    (L := exLeader) (extra := [0, 0]) rfl (by decide +kernel) (nm := nm) (k := k) (q := q) hv hp junk
  have cell := fun c k hc hk => rdi_cell_values (f := ⟨16, 1628, 2⟩) (by decide) exFile_ok ho (i := 1)
    (e := exEns false) (by decide) rfl (nm := .vel) (b := ⟨256, Spec.cellRecord .h 2 exVel ++ []⟩) rfl
    ⟨[⟨0, [16, 28, 0, 0, 0, 0, 4, 2] ++ List.replicate 51 0⟩, ⟨128, Spec.record exLeader.fields ++ [0, 0]⟩], [], rfl,
      by simp⟩ rfl (w := exVel) (extra := []) rfl (by decide +kernel) junk (c := c) (k := k) hc hk
  refine ⟨o, ho, lead _ _ _ rfl (by decide), lead _ _ _ ?_ (by decide), lead _ _ _ rfl (by decide),
    lead _ _ _ rfl (by decide), ?_, ?_, ?_⟩
  · norm_num [Spec.RdLeader.value, exLeader]
  · rw [cell 1 2 (by decide) (by decide)]
    norm_num [exVel]
  · rw [cell 1 3 (by decide) (by decide)]
    norm_num [exVel]
  · exact rdi_time_values (f := ⟨16, 1628, 2⟩) (by decide) exFile_ok ho (i := 1)
      (e := exEns false) (by decide) rfl (b := ⟨128, Spec.record exLeader.fields ++ [0, 0]⟩) (by simp [exEns]) rfl
      (L := exLeader) (extra := [0, 0]) rfl (by decide +kernel) ⟨2021, 3, 4, 5, 6, 7⟩ 8 (by decide +kernel)
      (by decide +kernel) (by decide +kernel) (by decide +kernel) (by decide +kernel) (by decide +kernel)
      (by decide +kernel)

/-- C122 (refuted): the second ensemble has no bottom track, yet the dataset shows one in its column: a
range of 10.00 m, and -32.768 m/s in the bad beam. -/
theorem rdi_bottom_false (junk : RdName → ℕ → ℕ → ℕ → ℚ) :
    ∃ env f cells es o e, (∀ e ∈ es, e.Ok f) ∧ RdReadOf env f cells es 10 o ∧ es[1]? = some e ∧
      (∀ b ∈ e.blks, b.id ≠ 1536) ∧ rdElem junk o .distBt 0 0 1 = some 10 ∧
      rdElem junk o .velBt 0 2 1 = some (-32768 / 1000) := by
  obtain ⟨o, ho, -⟩ := exFile_read
  have hlast : Spec.LastBlk (exEns true) ⟨1536, List.replicate 14 0 ++ (Spec.record exBottom.fields ++
      (List.replicate 33 0 ++ (Spec.record exBottom.high ++ [0, 0, 0, 0, 0, 0])))⟩ :=
    ⟨[⟨0, [16, 28, 0, 0, 0, 0, 4, 2] ++ List.replicate 51 0⟩, ⟨128, Spec.record exLeader.fields ++ [0, 0]⟩,
      ⟨256, Spec.cellRecord .h 2 exVel ++ []⟩], [], rfl, by simp⟩
  have stale := fun nm hnm c k => rdi_bottom_stale (f := ⟨16, 1628, 2⟩) (by decide) exFile_ok ho (i := 0)
    (e := exEns true) (e' := exEns false) (by decide) rfl rfl (by intro b hb; fin_cases hb <;> decide)
    (b := ⟨1536, List.replicate 14 0 ++ (Spec.record exBottom.fields ++
      (List.replicate 33 0 ++ (Spec.record exBottom.high ++ [0, 0, 0, 0, 0, 0])))⟩) (by simp [exEns]) rfl (nm := nm) hnm
    c k junk
  refine ⟨rdYes, ⟨16, 1628, 2⟩, 2, exFile, o, exEns false, exFile_ok, ho, rfl,
    by intro b hb; fin_cases hb <;> decide, ?_, ?_⟩
  · rw [stale .distBt (by decide) 0 0]
    refine rdi_bottom_values (f := ⟨16, 1628, 2⟩) (by decide) exFile_ok ho (i := 0) (by decide) rfl hlast rfl
      (R := exBottom) rfl rfl rfl (by decide +kernel) (k := 0) ?_ junk
    norm_num [Spec.RdBottom.value, exBottom]
  · rw [stale .velBt (by decide) 0 2]
    exact rdi_bottom_bad (f := ⟨16, 1628, 2⟩) (by decide) exFile_ok ho (i := 0) (by decide) rfl hlast rfl
      (R := exBottom) rfl rfl rfl (by decide +kernel) (k := 2) rfl junk

end Dolfyn
