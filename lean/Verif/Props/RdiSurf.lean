import Verif.Model.RdiSurf
import Verif.Props.RdiCfg

/-!
Surface-layer profiles of RiverPro and StreamPro files (C167).
-/

namespace Dolfyn

/-! ### Files -/

/-- The surface-layer leader in force behind a block. -/
def Spec.slAfter (sl : Option (ℕ × ℕ × ℕ)) (b : Spec.RdBlk) : Option (ℕ × ℕ × ℕ) :=
  if b.id = 16 then some (b.pl.getD 0 0, leNat ((b.pl.drop 1).take 2), leNat ((b.pl.drop 3).take 2)) else sl

/-- A block behind the leaders: one of the known kinds, a surface-layer leader, or surface-layer data of the number of
cells that the leader in force announces, no more than the `cells` of the ensemble. -/
def Spec.SlOk (f : RdFixed) (cells : ℕ) (sl : Option (ℕ × ℕ × ℕ)) (b : Spec.RdBlk) : Prop :=
  (∃ k, Spec.rdMin f b.id = some k ∧ k ≤ b.pl.length) ∨ (b.id = 16 ∧ 5 ≤ b.pl.length) ∨
    ∃ n g, sl = some (n, g) ∧ 0 < n ∧ n ≤ cells ∧
      ((b.id = 272 ∧ 8 * n ≤ b.pl.length) ∨ (b.id ∈ [528, 784, 1040, 1296] ∧ 4 * n ≤ b.pl.length))

/-- The blocks behind the leaders, in order. -/
def Spec.SlRest (f : RdFixed) (cells : ℕ) : Option (ℕ × ℕ × ℕ) → List Spec.RdBlk → Prop
  | _, [] => True
  | sl, b :: r => b.id < 65536 ∧ Spec.SlOk f cells sl b ∧ Spec.SlRest f cells (Spec.slAfter sl b) r

/-- The leader in force behind blocks. -/
def Spec.slFold (sl : Option (ℕ × ℕ × ℕ)) (bs : List Spec.RdBlk) : Option (ℕ × ℕ × ℕ) := bs.foldl Spec.slAfter sl

/-- A complete ensemble, with surface layer. -/
structure Spec.RdEns.OkSl (f : RdFixed) (cells : ℕ) (sl : Option (ℕ × ℕ × ℕ)) (e : Spec.RdEns) : Prop where
  tail : e.tail.length = 4
  small : e.nbyte < 32768
  shape : ∃ fx vr rest, e.blks = fx :: vr :: rest ∧ Spec.rdFixedBlk f fx ∧ vr.id = 128 ∧ 65 ≤ vr.pl.length ∧
    Spec.SlRest f cells sl rest

theorem Spec.RdEns.OkSl.framed {f : RdFixed} {cells : ℕ} {sl : Option (ℕ × ℕ × ℕ)} {e : Spec.RdEns}
    (h : e.OkSl f cells sl) : e.Framed where
  tail := h.tail
  small := h.small
  count := by
    obtain ⟨fx, vr, rest, hb, _⟩ := h.shape
    rw [hb]; simp

/-- Complete ensembles, one after the other. -/
def Spec.SlFile (f : RdFixed) (cells : ℕ) : Option (ℕ × ℕ × ℕ) → List Spec.RdEns → Prop
  | _, [] => True
  | sl, e :: es => e.OkSl f cells sl ∧ Spec.SlFile f cells (Spec.slFold sl e.blks) es

/-- The leader in force behind ensembles. -/
def Spec.slEns (sl : Option (ℕ × ℕ × ℕ)) (es : List Spec.RdEns) : Option (ℕ × ℕ × ℕ) :=
  es.foldl (fun sl e => Spec.slFold sl e.blks) sl

/-! ### Blocks -/

/-- The state between blocks. -/
structure SlInv (f : RdFixed) (cells : ℕ) (s : RdState) : Prop where
  cfg : s.cfg = some f
  ens : ∃ k, s.ens = some (cells, k)
  le : f.nCells ≤ cells
  source : s.source ≠ 2
  prog : s.prog = none
  win : s.winrivprob = false

theorem SlInv.inv {f : RdFixed} {cells : ℕ} {s : RdState} (h : SlInv f cells s) : RdInv f s :=
  ⟨h.cfg, by obtain ⟨k, hk⟩ := h.ens; exact ⟨cells, k, hk, h.le⟩, h.source, h.prog, h.win⟩

theorem rdMin_ne16 {f : RdFixed} {id k : ℕ} (h : Spec.rdMin f id = some k) : id ≠ 16 := by
  rintro rfl; simp [Spec.rdMin] at h

theorem slAfter_ne {sl : Option (ℕ × ℕ × ℕ)} {b : Spec.RdBlk} (h : b.id ≠ 16) : Spec.slAfter sl b = sl := if_neg h

theorem rdChunk_drop {bs c r : List ℕ} {p : ℤ} {i k : ℕ} (h0 : 0 ≤ p) (h : bs.drop p.toNat = c ++ r)
    (hl : i + k ≤ c.length) : rdChunk bs (p + i) k = (c.drop i).take k := by
  unfold rdChunk
  rw [Int.toNat_add h0 (Int.natCast_nonneg _), Int.toNat_natCast, ← List.drop_drop, h,
    List.drop_append_of_le_length (by omega), List.take_append_of_le_length (by rw [List.length_drop]; omega)]

/-- What reading a block leaves, with the surface-layer blocks. -/
theorem slBlock_ok {env : RdEnv} {bs r : List ℕ} {f : RdFixed} {cells : ℕ} {s : RdState} {b : Spec.RdBlk}
    (hf : 0 < f.nCells) (hi : SlInv f cells s) (h0 : 0 ≤ s.pos) (hb : Spec.SlOk f cells s.sl b)
    (hd : bs.drop s.pos.toNat = b.bytes ++ r) :
    ∃ p nb, rdBlock env bs s = .ok ({ s with pos := p, nbyte := nb, sl := Spec.slAfter s.sl b }, false) := by
  rcases hb with ⟨k, hk, hl⟩ | ⟨hid, hl⟩ | ⟨n, g, hsl, hn, hnc, hcase⟩
  · obtain ⟨p, nb, h⟩ := rdBlock_ok (env := env) hf hi.inv h0 hk hl hd
    refine ⟨p, nb, ?_⟩
    rw [slAfter_ne (rdMin_ne16 hk)]
    exact h
  all_goals
    have hbl : b.bytes.length = 2 + b.pl.length := by simp [Spec.RdBlk.bytes, Spec.le16]; omega
    have hlen : s.pos + b.bytes.length ≤ bs.length := drop_len h0 (by omega) hd
    have h2 : rdNeed bs s.pos 2 = .ok (Spec.le16 b.id) := by
      refine rdNeed_ok (r := b.pl ++ r) ?_ rfl (by decide)
      rw [hd, Spec.RdBlk.bytes, List.append_assoc]
    have hpl : bs.drop (s.pos + 2).toNat = b.pl ++ r := by
      have := drop_toNat_add (c := Spec.le16 b.id) (r := b.pl ++ r) h0 (by
        rw [hd, Spec.RdBlk.bytes, List.append_assoc])
      simpa [Spec.le16] using this
  · have e : rdBlock env bs s = (rdFixedSl bs { s with pos := s.pos + 2 }).map (·, false) := by
      unfold rdBlock
      rw [h2]
      simp only [leNat_le16, hid]
      rfl
    obtain ⟨c0, hc, hc0⟩ := rdNeed_len (bs := bs) (p := s.pos + 2) (n := 1) (by omega) (by omega) (by decide)
    rw [e]
    unfold rdFixedSl
    simp only
    rw [hc]
    simp only
    rw [rdFinish_ok (by decide) (by simp only; omega) (by
      rw [show mvSum [RdMv.rd 1, .rd 2, .rd 2] = 5 by decide]; simp only; omega)]
    refine ⟨s.pos + 2 + mvSum [RdMv.rd 1, .rd 2, .rd 2], 2 + 5, ?_⟩
    simp only [Except.map]
    have g0 : c0.getD 0 0 = b.pl.getD 0 0 := by
      rw [hc0, rdChunk, hpl]
      exact getD_take_append_lt (by omega) (by omega)
    have g1 : rdChunk bs (s.pos + 2 + 1) 2 = (b.pl.drop 1).take 2 := rdChunk_drop (i := 1) (by omega) hpl (by omega)
    have g3 : rdChunk bs (s.pos + 2 + 3) 2 = (b.pl.drop 3).take 2 := rdChunk_drop (i := 3) (by omega) hpl (by omega)
    rw [g0, g1, g3, Spec.slAfter, if_pos hid]
  · obtain ⟨k, hk⟩ := hi.ens
    have hprof : rdProfile 2 { s with pos := s.pos + 2 } = .ok (n, cells) := by
      unfold rdProfile
      rw [if_neg (by decide), if_pos rfl]
      simp only [hk, hsl]
    have hcell : ∀ w, 0 < w → 4 * n * w ≤ b.pl.length → ∃ p nb,
        rdCells bs w 2 { s with pos := s.pos + 2 } = .ok { s with pos := p, nbyte := nb } := by
      intro w hw hwl
      unfold rdCells
      rw [hprof]
      simp only
      rw [if_neg (by omega)]
      refine ⟨_, _, rdFinish_ok ?_ (by simp only; omega) ?_⟩
      · intro x hx
        rw [List.mem_singleton] at hx
        rw [hx]
        simp only [RdMv.fwd, decide_eq_true_eq]
        positivity
      · rw [show mvSum [RdMv.rd (4 * n * w)] = ((4 * n * w : ℕ) : ℤ) by simp [mvSum, RdMv.size]]
        simp only
        omega
    have go : ∀ w, rdBlock env bs s = (rdCells bs w 2 { s with pos := s.pos + 2 }).map (·, false) → 0 < w →
        4 * n * w ≤ b.pl.length → b.id ≠ 16 →
        ∃ p nb, rdBlock env bs s = .ok ({ s with pos := p, nbyte := nb, sl := Spec.slAfter s.sl b }, false) := by
      intro w he hw hwl hne
      obtain ⟨p, nb, h⟩ := hcell w hw hwl
      refine ⟨p, nb, ?_⟩
      rw [he, h, slAfter_ne hne]
      rfl
    rcases hcase with ⟨hid, hl⟩ | ⟨hid, hl⟩
    · refine go 2 ?_ (by decide) (by omega) (by omega)
      unfold rdBlock
      rw [h2]
      simp only [leNat_le16, hid]
      rfl
    · simp only [List.mem_cons, List.not_mem_nil, or_false] at hid
      refine go 1 ?_ (by decide) (by omega) (by omega)
      unfold rdBlock
      rw [h2]
      simp only [leNat_le16]
      rcases hid with hid | hid | hid | hid <;> (rw [hid]; rfl)

/-! ### Storing -/

/-- Cells of a block. -/
def slN (f : RdFixed) (sl : Option (ℕ × ℕ × ℕ)) (id : ℕ) : ℕ :=
  if rdProfileOf id = 2 then (sl.map (·.1)).getD 0 else f.nCells

/-- What a block stores. -/
def slStore (f : RdFixed) (sl : Option (ℕ × ℕ × ℕ)) (b : Spec.RdBlk) (m : RdMem) : RdMem :=
  rdStore f 0 (slN f sl b.id) 0 b.id b.pl m

theorem slN_known {f : RdFixed} {sl : Option (ℕ × ℕ × ℕ)} {id k : ℕ} (h : Spec.rdMin f id = some k) :
    slN f sl id = f.nCells := by
  have hall : ∀ j ∈ [512, 768, 1024, 1280, 256, 1536, 16640, 259, 515, 524, 1027, 3000, 3841, 8211, 12800, 12288, 12496,
      12504, 17408, 17409, 22531, 22532, 22785, 22786, 28673, 770, 771, 1793, 1794, 1795, 2560, 2816, 3072, 3328],
      rdProfileOf j ≠ 2 := by decide
  unfold slN
  refine if_neg (hall id ?_)
  by_contra hc
  simp only [List.mem_cons, List.not_mem_nil, or_false, not_or] at hc
  unfold Spec.rdMin at h
  rw [if_neg (by omega), if_neg (by simp only [List.mem_cons, List.not_mem_nil, or_false]; omega), if_neg (by omega),
    if_neg (by omega), if_neg (by simp only [List.mem_cons, List.not_mem_nil, or_false]; omega)] at h
  cases h

theorem rdStore_16 {f : RdFixed} {src n g : ℕ} {c : List ℕ} {m : RdMem} : rdStore f src n g 16 c m = m := rfl

theorem slStoreAt {bs r : List ℕ} {f : RdFixed} {cells : ℕ} {s s' : RdState} {b : Spec.RdBlk} (m : RdMem)
    (hi : SlInv f cells s) (hens : s'.ens = s.ens) (hb : Spec.SlOk f cells s.sl b)
    (hd : bs.drop s.pos.toNat = b.pl ++ r) : rdStoreAt bs b.id s s' m = slStore f s.sl b m := by
  rcases hb with ⟨k, hk, hl⟩ | ⟨hid, hl⟩ | ⟨n, g, hsl, hn, hnc, hcase⟩
  · rw [rdStoreAt_blk m hi.inv hens hk hl hd]
    unfold slStore blkStore
    rw [slN_known hk]
  · unfold rdStoreAt slStore
    rw [hid, rdStore_16, rdStore_16]
  · obtain ⟨k, hk⟩ := hi.ens
    have hprof : rdProfile 2 s = .ok (n, cells) := by
      unfold rdProfile
      rw [if_neg (by decide), if_pos rfl]
      simp only [hk, hsl]
    have cell : ∀ nm fmt q, rdCellInfo b.id = some (nm, fmt, q, 2) → 4 * n * fmt.size ≤ b.pl.length →
        b.id ≠ 0 → b.id ≠ 1 → b.id ≠ 128 → b.id ≠ 129 → b.id ≠ 1536 → b.id ≠ 16640 →
        rdStoreAt bs b.id s s' m = slStore f s.sl b m := by
      intro nm fmt q hinfo hlen h0 h1 h2 h3 h4 h5
      have hp2 : rdProfileOf b.id = 2 := by unfold rdProfileOf; rw [hinfo]; rfl
      unfold rdStoreAt slStore slN rdCellsOf
      rw [hp2, hprof, hd, if_pos rfl, hsl]
      simp only [Option.map_some, Option.getD_some]
      unfold rdStore
      simp only [h0, h1, h2, h3, h4, h5, false_or, if_false, hinfo]
      unfold rdStoreCells
      simp only [OfNat.ofNat_ne_one, if_false]
      rw [rdCellVals_append hlen]
    rcases hcase with ⟨hid, hl⟩ | ⟨hid, hl⟩
    · exact cell .velSl .h (1 / 1000) (by rw [hid]; rfl) (by simp only [AdFmt.size]; omega) (by omega) (by omega)
        (by omega) (by omega) (by omega) (by omega)
    · have hlen : 4 * n * AdFmt.B.size ≤ b.pl.length := by simp only [AdFmt.size]; omega
      simp only [List.mem_cons, List.not_mem_nil, or_false] at hid
      rcases hid with h | h | h | h
      · exact cell .corrSl .B 1 (by rw [h]; rfl) hlen (by omega) (by omega) (by omega) (by omega) (by omega) (by omega)
      · exact cell .ampSl .B 1 (by rw [h]; rfl) hlen (by omega) (by omega) (by omega) (by omega) (by omega) (by omega)
      · exact cell .prcntGdSl .B 1 (by rw [h]; rfl) hlen (by omega) (by omega) (by omega) (by omega) (by omega) (by omega)
      · exact cell .statusSl .B 1 (by rw [h]; rfl) hlen (by omega) (by omega) (by omega) (by omega) (by omega) (by omega)

/-- What blocks store, in order. -/
def slStores (f : RdFixed) : Option (ℕ × ℕ × ℕ) → List Spec.RdBlk → RdMem → RdMem
  | _, [], m => m
  | sl, b :: r, m => slStores f (Spec.slAfter sl b) r (slStore f sl b m)

theorem slBlocksV_rest {env : RdEnv} {bs : List ℕ} {f : RdFixed} {cells : ℕ} (hf : 0 < f.nCells) (start : ℕ) :
    ∀ (rest : List Spec.RdBlk) (b : Spec.RdBlk) (bo : ℕ) (s : RdState) (m : RdMem) (r : List ℕ), SlInv f cells s →
    s.pos = start + bo → 0 ≤ start + s.hdrNbyte - 2 → Spec.SlRest f cells s.sl (b :: rest) →
    bs.drop (start + bo) = (b :: rest).flatMap Spec.RdBlk.bytes ++ r →
    ∃ p nb, rdBlocksV env bs ((Spec.rdOffsets (bo + b.bytes.length) rest).map (fun x : ℕ => (x : ℤ))) bo s m
      = .ok ({ s with pos := p, nbyte := nb, sl := Spec.slFold s.sl (b :: rest) }, slStores f s.sl (b :: rest) m)
  | [], b, bo, s, m, r, hi, hp, hh, hx, hd => by
    obtain ⟨-, hb, -⟩ := hx
    have hpn : s.pos.toNat = start + bo := by omega
    rw [← hpn] at hd
    rw [List.flatMap_cons, List.flatMap_nil, List.append_nil] at hd
    obtain ⟨p, nb, h⟩ := slBlock_ok (env := env) hf hi (by omega) hb hd
    have hpe := (rdBlock_good hi.source (s' := { s with pos := p, nbyte := nb, sl := Spec.slAfter s.sl b }) hi.win h).2.1
    simp only at hpe
    simp only [Spec.rdOffsets, List.map_nil]
    rw [rdBlocksV, rdBlockV_of m hd h]
    simp only
    rw [slStoreAt (f := f) (cells := cells) (s := { s with pos := s.pos + 2 })
      (s' := { s with pos := p, nbyte := nb, sl := Spec.slAfter s.sl b }) m
      ⟨hi.cfg, hi.ens, hi.le, hi.source, hi.prog, hi.win⟩ rfl hb (blk_payload (by omega) hd)]
    simp only [hi.win]
    rw [if_neg (by decide)]
    rw [rdAdjust_ok (by simp only; omega)]
    exact ⟨_, _, rfl⟩
  | b' :: rest, b, bo, s, m, r, hi, hp, hh, hx, hd => by
    obtain ⟨-, hb, hx⟩ := hx
    have hpn : s.pos.toNat = start + bo := by omega
    have hd' := hd
    rw [← hpn] at hd
    rw [List.flatMap_cons, List.append_assoc] at hd
    obtain ⟨p, nb, h⟩ := slBlock_ok (env := env) hf hi (by omega) hb hd
    have hpe := (rdBlock_good hi.source (s' := { s with pos := p, nbyte := nb, sl := Spec.slAfter s.sl b }) hi.win h).2.1
    simp only at hpe
    simp only [Spec.rdOffsets, List.map_cons]
    rw [rdBlocksV, rdBlockV_of m hd h]
    simp only
    rw [rdAdjust_ok (by simp only; omega)]
    simp only
    have hd2 : bs.drop (start + (bo + b.bytes.length)) = (b' :: rest).flatMap Spec.RdBlk.bytes ++ r := by
      rw [← add_assoc, ← List.drop_drop, hd', List.flatMap_cons, List.append_assoc, List.drop_left' rfl]
    rw [slStoreAt (f := f) (cells := cells) (s := { s with pos := s.pos + 2 })
      (s' := { s with pos := p, nbyte := nb, sl := Spec.slAfter s.sl b }) m
      ⟨hi.cfg, hi.ens, hi.le, hi.source, hi.prog, hi.win⟩ rfl hb (blk_payload (by omega) hd)]
    obtain ⟨p2, nb2, h2⟩ := slBlocksV_rest hf start rest b' (bo + b.bytes.length)
      { s with pos := p + (((bo + b.bytes.length : ℕ) : ℤ) - (bo + nb)), nbyte := nb, sl := Spec.slAfter s.sl b }
      (slStore f s.sl b m) r
      ⟨hi.cfg, hi.ens, hi.le, hi.source, hi.prog, hi.win⟩ (by simp only; push_cast; omega) hh hx hd2
    exact ⟨p2, nb2, h2⟩

/-! ### Ensembles -/

theorem slBlocksV_ens {env : RdEnv} {bs r : List ℕ} {f : RdFixed} {n : ℕ} {s : RdState} {e : Spec.RdEns}
    {start : ℕ} (m : RdMem) (hf : 0 < f.nCells) (hfn : f.nCells ≤ n) (he : e.OkSl f n s.sl) (hs : s.ens = some (n, -1))
    (hso : s.source ≠ 2) (hpr : s.prog = none) (hwi : s.winrivprob = false) (hnb : 0 ≤ start + s.hdrNbyte - 2)
    (hp : s.pos = start + (6 + 2 * e.blks.length : ℕ))
    (hd : bs.drop (start + (6 + 2 * e.blks.length)) = e.blks.flatMap Spec.RdBlk.bytes ++ r) :
    ∃ p nb, rdBlocksV env bs
      ((Spec.rdOffsets (6 + 2 * e.blks.length) e.blks).map (fun x : ℕ => (x : ℤ))).tail
      (6 + 2 * e.blks.length : ℕ) s m
      = .ok ({ s with
          pos := p, nbyte := nb, cfg := some f, ens := some (n, 0), sl := Spec.slFold s.sl e.blks },
          slStores f s.sl e.blks m) := by
  obtain ⟨fx, vr, rest, hb, hfx, hvid, hvl, hrest⟩ := he.shape
  generalize 6 + 2 * e.blks.length = bo at *
  rw [hb] at hd ⊢
  simp only [Spec.rdOffsets, List.map_cons, List.tail_cons]
  have hf16 : fx.id ≠ 16 := by rw [hfx.1]; decide
  have hv16 : vr.id ≠ 16 := by rw [hvid]; decide
  have hsl : Spec.slFold s.sl (fx :: vr :: rest) = Spec.slFold s.sl rest := by
    unfold Spec.slFold
    rw [List.foldl_cons, List.foldl_cons, slAfter_ne hf16, slAfter_ne hv16]
  have hst0 : slStores f s.sl (fx :: vr :: rest) m = slStores f s.sl rest (blkStore f vr (blkStore f fx m)) := by
    have h1 : ∀ m, slStore f s.sl fx m = blkStore f fx m := fun m => by
      unfold slStore blkStore; rw [hfx.1]; rfl
    have h2 : ∀ m, slStore f s.sl vr m = blkStore f vr m := fun m => by
      unfold slStore blkStore; rw [hvid]; rfl
    rw [slStores, slStores, slAfter_ne hf16, slAfter_ne hv16, h1, h2]
  rw [hsl, hst0]
  have hpn : s.pos.toNat = start + bo := by omega
  have hd1 : bs.drop s.pos.toNat = fx.bytes ++ ((vr :: rest).flatMap Spec.RdBlk.bytes ++ r) := by
    rw [hpn, hd, List.flatMap_cons, List.append_assoc]
  obtain ⟨p1, nb1, h1⟩ := rdBlock_fixed (env := env) hfx hs (by omega) hd1
  rw [Nat.max_eq_left hfn] at h1
  have e1 := (rdBlock_good hso (s' := { s with
    pos := p1, nbyte := nb1, cfg := some f, ens := some (n, -1) }) hwi h1).2.1
  simp only at e1
  rw [rdBlocksV, rdBlockV_of m hd1 h1]
  simp only
  rw [rdAdjust_ok (by simp only; omega)]
  simp only
  rw [rdStoreAt_fixed (f := f) (s := { s with pos := s.pos + 2 })
    (s' := { s with pos := p1, nbyte := nb1, cfg := some f, ens := some (n, -1) }) m (d := 0)
    (by simp only [ensCells, hs, Option.map_some, Option.getD_some]; omega) hfx.1 hfx.2.1
    (blk_payload (by omega) hd1), growMem_zero]
  have hd2' : bs.drop (start + (bo + fx.bytes.length)) = vr.bytes ++ (rest.flatMap Spec.RdBlk.bytes ++ r) := by
    rw [← add_assoc, ← List.drop_drop, hd, List.flatMap_cons, List.append_assoc, List.drop_left' rfl,
      List.flatMap_cons, List.append_assoc]
  have hpos2 : p1 + (((bo + fx.bytes.length : ℕ) : ℤ) - (bo + nb1))
      = ((start + (bo + fx.bytes.length) : ℕ) : ℤ) := by push_cast; omega
  rw [hpos2]
  have hd2'' : bs.drop (((start + (bo + fx.bytes.length) : ℕ) : ℤ)).toNat
      = vr.bytes ++ (rest.flatMap Spec.RdBlk.bytes ++ r) := by rw [Int.toNat_natCast]; exact hd2'
  obtain ⟨p2, nb2, h2⟩ := rdBlock_var (env := env) (f := f) (n := n) (b := vr)
    (s := { s with
        pos := ((start + (bo + fx.bytes.length) : ℕ) : ℤ), nbyte := nb1, cfg := some f, ens := some (n, -1) })
    hvid hvl rfl rfl (by simp only; omega) hd2''
  have e2 := (rdBlock_good (s := { s with
    pos := ((start + (bo + fx.bytes.length) : ℕ) : ℤ), nbyte := nb1, cfg := some f, ens := some (n, -1) }) hso
    (s' := { s with pos := p2, nbyte := nb2, cfg := some f, ens := some (n, 0) }) hwi h2).2.1
  simp only at e2
  have hst : rdStoreAt bs vr.id { s with
      pos := ((start + (bo + fx.bytes.length) : ℕ) : ℤ) + 2, nbyte := nb1, cfg := some f, ens := some (n, -1) }
      { s with pos := p2, nbyte := nb2, cfg := some f, ens := some (n, 0) } (blkStore f fx m)
      = blkStore f vr (blkStore f fx m) :=
    rdStoreAt_var (blkStore f fx m) rfl hvid hvl (blk_payload (by omega) hd2'')
  cases rest with
  | nil =>
    simp only [Spec.rdOffsets, List.map_nil]
    rw [rdBlocksV, rdBlockV_of _ hd2'' h2]
    simp only
    rw [hst]
    simp only [hwi]
    rw [if_neg (by decide)]
    rw [rdAdjust_ok (by simp only; omega)]
    exact ⟨_, _, rfl⟩
  | cons b rest =>
    simp only [Spec.rdOffsets, List.map_cons]
    rw [rdBlocksV, rdBlockV_of _ hd2'' h2]
    simp only
    rw [rdAdjust_ok (by simp only; omega), hst]
    simp only
    have hd3 : bs.drop (start + (bo + fx.bytes.length + vr.bytes.length))
        = (b :: rest).flatMap Spec.RdBlk.bytes ++ r := by
      rw [← add_assoc, ← List.drop_drop, hd2', List.drop_left' rfl]
    obtain ⟨p3, nb3, h3⟩ := slBlocksV_rest (env := env) (cells := n) hf start rest b (bo + fx.bytes.length + vr.bytes.length)
      { s with
        pos := p2 + (((bo + fx.bytes.length + vr.bytes.length : ℕ) : ℤ) - (((bo + fx.bytes.length : ℕ) : ℤ) + nb2))
        nbyte := nb2, cfg := some f, ens := some (n, 0) } (blkStore f vr (blkStore f fx m)) r
      ⟨rfl, ⟨0, rfl⟩, hfn, hso, hpr, hwi⟩ (by simp only; push_cast at e2 ⊢; omega) hnb hrest hd3
    exact ⟨p3, nb3, h3⟩

theorem slBodyV_ok {env : RdEnv} {bs r : List ℕ} {f : RdFixed} {n : ℕ} {s : RdState} {e : Spec.RdEns}
    {start : ℕ} (m : RdMem) (hf : 0 < f.nCells) (hfn : f.nCells ≤ n) (he : e.OkSl f n s.sl) (hs : RdFront n s)
    (hd : bs.drop start = e.bytes ++ r) :
    ∃ nb, rdBodyV env bs ((start : ℤ) + 2) s m = .ok ({ s with
      pos := ((start + e.bytes.length : ℕ) : ℤ), nbyte := nb, cfg := some f, ens := some (n, 0)
      hdrNbyte := e.nbyte, readVmdas := false, sl := Spec.slFold s.sl e.blks }, slStores f s.sl e.blks m) := by
  have hh := framed_hdrseg he.framed hd
  have hol : (((Spec.rdOffsets (6 + 2 * e.blks.length) e.blks).map (fun x : ℕ => (x : ℤ))).length : ℤ)
      = e.blks.length := by rw [List.length_map, rdOffsets_length]
  have hd' : bs.drop (start + (6 + 2 * e.blks.length)) = e.blks.flatMap Spec.RdBlk.bytes ++ (e.tail ++ r) := by
    rw [← List.drop_drop, hd, Spec.RdEns.bytes]
    simp only [← List.append_assoc]
    rw [List.append_assoc (_ ++ e.blks.flatMap Spec.RdBlk.bytes), List.append_assoc]
    rw [List.drop_left']
    · rw [List.append_assoc]
    · simp only [List.length_append, flatMap_le16_length, rdOffsets_length]
      simp [Spec.le16]
  have hnb2 : 2 ≤ e.nbyte := by unfold Spec.RdEns.nbyte; omega
  obtain ⟨p, nb, hb⟩ := slBlocksV_ens (env := env)
    (s := { s with
      pos := (start : ℤ) + 2 + 4 + 2 * e.blks.length, nbyte := 4 + 2 * e.blks.length
      hdrNbyte := e.nbyte, readVmdas := false }) m
    hf hfn he hs.ens hs.source hs.prog hs.win (by simp only; omega) (by simp only; push_cast; ring) hd'
  have hb1 : rdBlocks env bs ((Spec.rdOffsets (6 + 2 * e.blks.length) e.blks).map (fun x : ℕ => (x : ℤ))).tail
      ((6 + 2 * e.blks.length : ℕ) : ℤ) { s with
      pos := (start : ℤ) + 2 + 4 + 2 * e.blks.length, nbyte := 4 + 2 * e.blks.length
      hdrNbyte := e.nbyte, readVmdas := false } = .ok { s with
      pos := p, nbyte := nb, cfg := some f, ens := some (n, 0), sl := Spec.slFold s.sl e.blks
      hdrNbyte := e.nbyte, readVmdas := false } := by
    rw [← rdBlocksV_fst env bs _ _ _ m, hb]
    rfl
  have hstart : (start : ℤ) + 2 + 4 + 2 * e.blks.length = start + ((6 + 2 * e.blks.length : ℕ) : ℤ) := by
    push_cast; ring
  have hpos := (rdBlocks_exact (start : ℤ) _ ((6 + 2 * e.blks.length : ℕ) : ℤ) { s with
      pos := (start : ℤ) + 2 + 4 + 2 * e.blks.length, nbyte := 4 + 2 * e.blks.length
      hdrNbyte := e.nbyte, readVmdas := false } _ hs.source hstart hb1 hs.win).1
  simp only at hpos
  have hlen := framed_length he.framed
  unfold rdBodyV
  rw [hh]
  simp only [hol]
  rw [show (6 + 2 * (e.blks.length : ℤ)) = ((6 + 2 * e.blks.length : ℕ) : ℤ) by push_cast; ring, hb]
  simp only
  unfold rdVmdasAgain
  simp only [hs.vmdas, Bool.false_eq_true, false_and, if_false]
  unfold rdCheckOffset
  simp only [hs.fix, and_true]
  rw [if_neg (by rw [hpos]; intro hc; exact hc (by ring))]
  simp only [rdSeek]
  rw [if_neg (by omega)]
  refine ⟨nb, ?_⟩
  simp only [Except.map]
  have : p + (4 + 0) = ((start + e.bytes.length : ℕ) : ℤ) := by rw [hpos, hlen]; push_cast; ring
  rw [this]

/-! ### The columns of the dataset -/

/-- The memory behind an ensemble that has been copied into the dataset. -/
def slEnsAfter (f : RdFixed) (sl : Option (ℕ × ℕ × ℕ)) (e : Spec.RdEns) (m : RdMem) : RdMem :=
  rdCleaned (slStores f sl e.blks m)

/-- The column of an ensemble. -/
def slCol (f : RdFixed) (n : ℕ) (sl : Option (ℕ × ℕ × ℕ)) (e : Spec.RdEns) (m : RdMem) : RdColV :=
  ⟨(slEnsAfter f sl e m).seen, (slEnsAfter f sl e m).nb, n, rdColTime (slEnsAfter f sl e m).rtc⟩

/-- The columns of consecutive ensembles. -/
def slCols (f : RdFixed) (n : ℕ) : Option (ℕ × ℕ × ℕ) → List Spec.RdEns → RdMem → List RdColV
  | _, [], _ => []
  | sl, e :: es, m => slCol f n sl e m :: slCols f n (Spec.slFold sl e.blks) es (slEnsAfter f sl e m)

/-- The memory in front of the ensembles. -/
def slMemAt (f : RdFixed) : Option (ℕ × ℕ × ℕ) → List Spec.RdEns → RdMem → RdMem
  | _, [], m => m
  | sl, e :: es, m => slMemAt f (Spec.slFold sl e.blks) es (slEnsAfter f sl e m)

theorem slStores_flag {f : RdFixed} : ∀ (bs : List Spec.RdBlk) (sl : Option (ℕ × ℕ × ℕ)) (m : RdMem),
    (slStores f sl bs m).flag = m.flag
  | [], _, _ => rfl
  | b :: bs, sl, m => by rw [slStores, slStores_flag bs]; exact rdStore_flag

/-- The columns that reading `nens` ensembles of a file with surface layers adds to the dataset, and the leader that is
in force at the end. -/
theorem sl_columns {env : RdEnv} {f : RdFixed} (hf : 0 < f.nCells) {cells fuel : ℕ} (hfuel : 2 ≤ fuel)
    {bs : List ℕ} : ∀ (nens : ℕ) (es : List Spec.RdEns) (start : ℕ) (s : RdState) (m : RdMem) (o : RdOutV),
    Spec.SlFile f cells s.sl es → bs.drop start = Spec.rdFile es → s.pos = start → RdBetween f cells s → m.flag = 0 →
    (∀ nm, o.rows nm = cells) →
    ∃ t m' o', rdLoadV env bs fuel nens s m o = some (.ok (t, m', o')) ∧
      o'.cols = o.cols ++ slCols f cells s.sl (es.take (min nens (es.length - 1))) m ∧ (∀ nm, o'.rows nm = cells) ∧
      m' = slMemAt f s.sl (es.take (min nens (es.length - 1))) m ∧ ensCells t.ens = cells ∧
      t.sl = Spec.slEns s.sl (es.take (min nens (es.length - 1)))
  | 0, es, start, s, m, o, _, _, _, hb, _, ho =>
    ⟨s, m, o, by simp [rdLoadV], by simp [slCols], ho, by simp [slMemAt], rdBetween_cells hb, by simp [Spec.slEns]⟩
  | nens + 1, [], start, s, m, o, _, hd, hp, hb, _, ho => by
    refine ⟨s, m, o, ?_, by simp [slCols], ho, by simp [slMemAt], rdBetween_cells hb, by simp [Spec.slEns]⟩
    obtain ⟨fu, rfl⟩ : ∃ fu, fuel = fu + 1 := ⟨fuel - 1, by omega⟩
    have hse : rdSearch bs s.pos = .ok (false, s.pos) := by
      unfold rdSearch rdBytes rdChunk
      rw [hp, Int.toNat_natCast, hd]
      simp [Spec.rdFile]
    have hens := hb.ens
    simp only at hens
    rw [rdLoadV]
    unfold rdBufferV
    rw [rdBufferLoopV]
    simp only [hens]
    rw [if_pos (by decide)]
    unfold rdEnsembleV
    simp only [hse]
  | nens + 1, [e], start, s, m, o, hok, hd, hp, hb, _, ho => by
    refine ⟨s, m, o, ?_, by simp [slCols], ho, by simp [slMemAt], rdBetween_cells hb, by simp [Spec.slEns]⟩
    obtain ⟨fu, rfl⟩ : ∃ fu, fuel = fu + 1 := ⟨fuel - 1, by omega⟩
    have hd' : bs.drop start = e.bytes := by rw [hd]; simp [Spec.rdFile]
    obtain ⟨q, hse⟩ := framed_search_last hok.1.framed hd'
    have hens := hb.ens
    simp only at hens
    rw [rdLoadV]
    unfold rdBufferV
    rw [rdBufferLoopV]
    simp only [hens]
    rw [if_pos (by decide)]
    unfold rdEnsembleV
    simp only [hp, hse]
  | nens + 1, e :: e' :: es, start, s, m, o, hok, hd, hp, hb, hfl, ho => by
    obtain ⟨fu, rfl⟩ : ∃ fu, fuel = fu + 2 := ⟨fuel - 2, by omega⟩
    obtain ⟨r, hr⟩ := bytes_cons2 e'
    have hd' : bs.drop start = e.bytes ++ (Spec.rdFile (e' :: es)) := by
      rw [hd, Spec.rdFile, List.flatMap_cons]; rfl
    have hd'' : bs.drop start = e.bytes ++ (127 :: 127 :: (r ++ es.flatMap Spec.RdEns.bytes)) := by
      rw [hd', Spec.rdFile, List.flatMap_cons, hr]; rfl
    have hse := framed_search hok.1.framed hd''
    obtain ⟨nb, hbody⟩ := slBodyV_ok (env := env) m hf hb.cells
      (s := { s with ens := rdResetK s.ens, ensBB := rdResetK s.ensBB }) hok.1 hb.front hd'
    have hens := hb.ens
    simp only at hens
    set s1 : RdState := { s with
      ens := some (cells, 0), ensBB := rdResetK s.ensBB
      pos := ((start + e.bytes.length : ℕ) : ℤ), nbyte := nb, cfg := some f
      hdrNbyte := e.nbyte, readVmdas := false, sl := Spec.slFold s.sl e.blks } with hs1
    have hbuf : rdBufferV env bs (fu + 2) s m = some (.ok (some (s1, slStores f s.sl e.blks m))) := by
      unfold rdBufferV
      rw [rdBufferLoopV]
      simp only [hens]
      rw [if_pos (by decide)]
      have hre : rdEnsembleV env bs { s with ens := some (cells, -1), ensBB := rdResetK s.ensBB } m
          = .ok (some (s1, slStores f s.sl e.blks m)) := by
        unfold rdEnsembleV
        simp only [hp, hse]
        have hb' := hbody
        rw [hens] at hb'
        rw [hp] at hb'
        rw [hb']
        rfl
      rw [hre]
      simp only
      rw [rdBufferLoopV]
      simp only [hs1]
      rw [if_neg (by decide)]
    have hbet : RdBetween f cells s1 := by
      refine ⟨rfl, hb.cells, hb.fix, hb.source, hb.prog, hb.win, hb.vmdas⟩
    have hd2 : bs.drop (start + e.bytes.length) = Spec.rdFile (e' :: es) := by
      rw [← List.drop_drop, hd', List.drop_left' rfl]
    have hfl' : (slEnsAfter f s.sl e m).flag = 0 := by
      have := slStores_flag (f := f) e.blks s.sl m
      rw [hfl] at this
      exact this
    obtain ⟨o1, he1, hr1, hc1⟩ := rdEmit_ok (o := o) hfl' ho
    obtain ⟨t, m', o', ht, hcols, hrows, hmem, hcel, hsl⟩ := sl_columns (env := env) hf hfuel nens (e' :: es)
      (start + e.bytes.length) s1 (slEnsAfter f s.sl e m) o1 hok.2 hd2 rfl hbet hfl' hr1
    have htk : (e :: e' :: es).take (min (nens + 1) ((e :: e' :: es).length - 1))
        = e :: (e' :: es).take (min nens ((e' :: es).length - 1)) := by
      rw [show min (nens + 1) ((e :: e' :: es).length - 1) = min nens ((e' :: es).length - 1) + 1 by
        simp only [List.length_cons]; omega, List.take_succ_cons]
    refine ⟨t, m', o', ?_, ?_, hrows, ?_, hcel, ?_⟩
    · rw [rdLoadV, hbuf]
      simp only
      have hc : ensCells s1.ens = cells := rfl
      rw [hc, show rdCleaned (slStores f s.sl e.blks m) = slEnsAfter f s.sl e m from rfl, he1]
      simp only
      rw [← ht]
      congr 1
      rw [← hfl']
    · rw [hcols, hc1, List.append_assoc, htk]
      rfl
    · rw [hmem, htk]
      rfl
    · rw [hsl, htk]
      rfl

/-! ### What a block changes -/

theorem slStore_eq {f : RdFixed} {sl : Option (ℕ × ℕ × ℕ)} {b : Spec.RdBlk} {m : RdMem} :
    slStore f sl b m = blkStore ⟨f.fw, f.ver, slN f sl b.id⟩ b m := rfl

theorem slStores_append {f : RdFixed} : ∀ (a c : List Spec.RdBlk) (sl : Option (ℕ × ℕ × ℕ)) (m : RdMem),
    slStores f sl (a ++ c) m = slStores f (Spec.slFold sl a) c (slStores f sl a m)
  | [], _, _, _ => rfl
  | b :: a, c, sl, m => slStores_append a c (Spec.slAfter sl b) (slStore f sl b m)

theorem slStores_other {f : RdFixed} {nm : RdName} : ∀ (bs : List Spec.RdBlk) (sl : Option (ℕ × ℕ × ℕ)) (m : RdMem),
    (∀ b ∈ bs, b.id ≠ Spec.rdId nm ∧ b.id ≠ 129) → (slStores f sl bs m).nb nm = m.nb nm
  | [], _, _, _ => rfl
  | b :: bs, sl, m, h => by
    rw [slStores, slStores_other bs _ _ (fun x hx => h x (by simp [hx])), slStore_eq]
    exact blkStore_other (h b (by simp)).1 (h b (by simp)).2

theorem slStores_seen {f : RdFixed} {x : RdName} : ∀ (bs : List Spec.RdBlk) (sl : Option (ℕ × ℕ × ℕ)) (m : RdMem),
    x ∈ m.seen → x ∈ (slStores f sl bs m).seen
  | [], _, _, h => h
  | b :: bs, sl, m, h => slStores_seen bs _ _ (by rw [slStore_eq]; exact blkStore_seen h)

theorem slOk_ne129 {f : RdFixed} {cells : ℕ} {sl : Option (ℕ × ℕ × ℕ)} {b : Spec.RdBlk} (h : Spec.SlOk f cells sl b) :
    b.id ≠ 129 := by
  rcases h with ⟨k, hk, -⟩ | ⟨hid, -⟩ | ⟨n, g, -, -, -, ⟨hid, -⟩ | ⟨hid, -⟩⟩
  · intro hc
    rw [hc] at hk
    simp [Spec.rdMin] at hk
  · omega
  · omega
  · simp only [List.mem_cons, List.not_mem_nil, or_false] at hid
    omega

theorem slRest_ne129 {f : RdFixed} {cells : ℕ} : ∀ (bs : List Spec.RdBlk) (sl : Option (ℕ × ℕ × ℕ)),
    Spec.SlRest f cells sl bs → ∀ b ∈ bs, b.id ≠ 129
  | [], _, _, b, hb => by simp at hb
  | a :: bs, sl, h, b, hb => by
    rcases List.mem_cons.mp hb with rfl | hb
    · exact slOk_ne129 h.2.1
    · exact slRest_ne129 bs _ h.2.2 b hb

theorem okSl_ne129 {f : RdFixed} {cells : ℕ} {sl : Option (ℕ × ℕ × ℕ)} {e : Spec.RdEns} (h : e.OkSl f cells sl) :
    ∀ b ∈ e.blks, b.id ≠ 129 := by
  obtain ⟨fx, vr, rest, hb, hfx, hvid, _, hrest⟩ := h.shape
  intro b hm
  rw [hb] at hm
  rcases List.mem_cons.mp hm with rfl | hm
  · rw [hfx.1]; decide
  rcases List.mem_cons.mp hm with rfl | hm
  · rw [hvid]; decide
  · exact slRest_ne129 rest _ hrest b hm

/-- The surface-layer variables: format and unit (TRDI, *RiverPro/StreamPro output data format*: velocities in mm/s). -/
def Spec.slCell : RdName → Option (AdFmt × ℚ)
  | .velSl => some (.h, 1 / 1000)
  | .corrSl => some (.B, 1)
  | .ampSl => some (.B, 1)
  | .prcntGdSl => some (.B, 1)
  | .statusSl => some (.B, 1)
  | _ => none

theorem slCell_info {nm : RdName} {fmt : AdFmt} {q : ℚ} (h : Spec.slCell nm = some (fmt, q)) :
    rdCellInfo (Spec.rdId nm) = some (nm, fmt, q, 2) ∧ nm.profile = true ∧ nm.surface = true ∧ nm ≠ .vel ∧
      Spec.rdId nm ∈ [272, 528, 784, 1040, 1296] := by
  cases nm <;> simp only [Spec.slCell, reduceCtorEq] at h <;>
    (obtain ⟨rfl, rfl⟩ := Prod.mk.inj (Option.some.inj h); exact ⟨rfl, rfl, rfl, by decide, by decide⟩)

theorem slStore_cell {f : RdFixed} {sl : Option (ℕ × ℕ × ℕ)} {b : Spec.RdBlk} {m : RdMem} {nm : RdName} {fmt : AdFmt}
    {q : ℚ} (h : Spec.slCell nm = some (fmt, q)) (hid : b.id = Spec.rdId nm) {n : ℕ} {g : ℕ × ℕ}
    (hsl : sl = some (n, g)) :
    slStore f sl b m = { m with
      seen := seenAdd m.seen [nm], nb := vput nm (rdCellVals fmt q n b.pl (m.nb nm)) m.nb } := by
  obtain ⟨h1, -, -, -, h3⟩ := slCell_info h
  have hne : ∀ j ∈ [272, 528, 784, 1040, 1296], j ≠ 0 ∧ j ≠ 1 ∧ j ≠ 128 ∧ j ≠ 129 ∧ j ≠ 1536 ∧ j ≠ 16640 := by
    decide
  obtain ⟨n0, n1, n2, n3, n4, n5⟩ := hne _ h3
  have hn : slN f sl b.id = n := by
    unfold slN rdProfileOf
    rw [hid, h1, hsl]
    rfl
  unfold slStore rdStore
  rw [hn, hid, h1]
  simp only [n0, n1, n2, n3, n4, n5, false_or, if_false]
  rfl

theorem slFile_get {f : RdFixed} {cells : ℕ} : ∀ (es : List Spec.RdEns) (sl : Option (ℕ × ℕ × ℕ)) (i : ℕ) (e : Spec.RdEns),
    Spec.SlFile f cells sl es → es[i]? = some e → e.OkSl f cells (Spec.slEns sl (es.take i))
  | a :: es, sl, 0, e, h, he => by
    simp only [List.getElem?_cons_zero] at he
    cases he
    exact h.1
  | a :: es, sl, i + 1, e, h, he => by
    simp only [List.getElem?_cons_succ] at he
    exact slFile_get es (Spec.slFold sl a.blks) i e h.2 he

theorem slCols_get {f : RdFixed} {n : ℕ} : ∀ (es : List Spec.RdEns) (sl : Option (ℕ × ℕ × ℕ)) (m : RdMem) (i : ℕ)
    (e : Spec.RdEns), es[i]? = some e →
    (slCols f n sl es m)[i]? = some (slCol f n (Spec.slEns sl (es.take i)) e (slMemAt f sl (es.take i) m))
  | a :: es, sl, m, 0, e, h => by
    simp only [List.getElem?_cons_zero] at h
    cases h
    rfl
  | a :: es, sl, m, i + 1, e, h => by
    simp only [List.getElem?_cons_succ] at h
    exact slCols_get es (Spec.slFold sl a.blks) (slEnsAfter f sl a m) i e h

theorem slMemAt_snoc {f : RdFixed} : ∀ (es : List Spec.RdEns) (sl : Option (ℕ × ℕ × ℕ)) (m : RdMem) (i : ℕ) (e : Spec.RdEns),
    es[i]? = some e → slMemAt f sl (es.take (i + 1)) m
      = slEnsAfter f (Spec.slEns sl (es.take i)) e (slMemAt f sl (es.take i) m)
  | a :: es, sl, m, 0, e, h => by
    simp only [List.getElem?_cons_zero] at h
    cases h
    rfl
  | a :: es, sl, m, i + 1, e, h => by
    simp only [List.getElem?_cons_succ] at h
    exact slMemAt_snoc es (Spec.slFold sl a.blks) (slEnsAfter f sl a m) i e h

theorem rdClean_ne {v : RdVals} {nm : RdName} (h : nm ≠ .vel) : rdClean v nm = v nm := vput_ne h

/-! ### The dataset -/

/-- `r` is what `read_rdi` returns for the file of the ensembles `es`, asked for `nens` ensembles; `sl` is the leader
that the initialisation found. -/
def RdSlOf (env : RdEnv) (junk : RdName → ℕ → ℕ → ℕ → ℚ) (f : RdFixed) (cells : ℕ) (sl : Option (ℕ × ℕ × ℕ))
    (es : List Spec.RdEns) (nens : ℕ) (r : Except Err RdSlDs) : Prop :=
  ∃ fuel s, 2 ≤ fuel ∧ s.pos = 0 ∧ s.sl = sl ∧ RdBetween f cells s ∧
    rdReadSl env junk (Spec.rdFile es) fuel nens s rdMem0 (rdOut0 cells) = some r

/-- The arrays behind a dataset. -/
theorem rdSlOf_arrays {env : RdEnv} {junk : RdName → ℕ → ℕ → ℕ → ℚ} {f : RdFixed} (hf : 0 < f.nCells) {cells nens : ℕ}
    {sl : Option (ℕ × ℕ × ℕ)} {es : List Spec.RdEns} (hok : Spec.SlFile f cells sl es) {r : Except Err RdSlDs}
    (h : RdSlOf env junk f cells sl es nens r) :
    ∃ o, o.cols = slCols f cells sl (es.take (min nens (es.length - 1))) rdMem0 ∧ (∀ nm, o.rows nm = cells) ∧
      f.nCells ≤ cells ∧
      r = rdAssembleSl junk cells (Spec.slEns sl (es.take (min nens (es.length - 1))))
        (slMemAt f sl (es.take (min nens (es.length - 1))) rdMem0) o := by
  obtain ⟨fuel, s, hfu, hp, hs, hb, hl⟩ := h
  subst hs
  obtain ⟨t, m, o, h1, h2, h3, h4, h5, h6⟩ := sl_columns (env := env) (bs := Spec.rdFile es) hf hfu nens es 0 s rdMem0
    (rdOut0 cells) hok rfl (by simpa using hp) hb rfl (fun _ => rfl)
  refine ⟨o, by simpa [rdOut0] using h2, h3, hb.cells, ?_⟩
  unfold rdReadSl at hl
  rw [h1] at hl
  simp only at hl
  rw [← Option.some.inj hl, h5, h4, h6]

theorem assembleSl_elem {junk : RdName → ℕ → ℕ → ℕ → ℚ} {cells : ℕ} {g : ℕ × ℕ × ℕ} {m : RdMem} {o : RdOutV}
    {ds : RdSlDs} (h : rdAssembleSl junk cells (some g) m o = .ok ds) :
    ds.rangeSl = some (rdRangeSl g) ∧ (∃ l, ds.ds.rotateVars = .vel :: .velSl :: l) ∧ ds.ds.names = m.seen ∧
      ∀ nm b c i, ds.ds.elem nm b c i
        = if nm.surface = true ∧ g.1 ≤ c then none else rdElem junk o nm c b i := by
  unfold rdAssembleSl at h
  unfold rdAssemble at h
  split at h
  · cases h
  · next d hd =>
    split at hd
    · cases hd
    · split at hd
      · cases hd
      · split at hd
        · cases hd
        · obtain rfl := Except.ok.inj hd
          simp only at h
          split at h
          · cases h
          · obtain rfl := Except.ok.inj h
            exact ⟨rfl, ⟨_, rfl⟩, rfl, fun _ _ _ _ => rfl⟩

/-- C167: every surface-layer value of an ensemble that is read stands in the dataset, at its cell and beam and in its
unit, as far as the last leader counts cells. There is no exception for the value that marks missing velocities. -/
theorem surface_values {env : RdEnv} {junk : RdName → ℕ → ℕ → ℕ → ℚ} {f : RdFixed} (hf : 0 < f.nCells)
    {cells nens : ℕ} {sl : Option (ℕ × ℕ × ℕ)} {es : List Spec.RdEns} (hok : Spec.SlFile f cells sl es) {ds : RdSlDs}
    (h : RdSlOf env junk f cells sl es nens (.ok ds)) {i : ℕ} {e : Spec.RdEns} (hi : i < min nens (es.length - 1))
    (he : es[i]? = some e) {nm : RdName} {fmt : AdFmt} {q : ℚ} (hnm : Spec.slCell nm = some (fmt, q))
    {b : Spec.RdBlk} {pre post : List Spec.RdBlk} (hb : e.blks = pre ++ b :: post) (hpost : ∀ x ∈ post, x.id ≠ b.id)
    (hid : b.id = Spec.rdId nm) {n : ℕ} {g : ℕ × ℕ}
    (hsl : Spec.slFold (Spec.slEns sl (es.take i)) pre = some (n, g)) (hn : n ≤ cells) {w : ℕ → ℕ → ℤ} {extra : List ℕ}
    (hpl : b.pl = Spec.cellRecord fmt n w ++ extra) (hw : ∀ c < n, ∀ k < 4, Spec.inRange fmt (w c k))
    {last : ℕ × ℕ × ℕ} (hlast : Spec.slEns sl (es.take (min nens (es.length - 1))) = some last)
    {c k : ℕ} (hc : c < n) (hcl : c < last.1) (hk : k < 4) :
    ds.ds.elem nm k c i = some ((w c k : ℚ) * q) := by
  obtain ⟨o, hcols, hrows, hfc, hr⟩ := rdSlOf_arrays hf hok h
  rw [hlast] at hr
  obtain ⟨-, -, -, hel⟩ := assembleSl_elem hr.symm
  obtain ⟨-, hprof, -, hvel, -⟩ := slCell_info hnm
  rw [hel, if_neg (by omega)]
  have hget : (es.take (min nens (es.length - 1)))[i]? = some e := by rw [List.getElem?_take_of_lt hi, he]
  have htk : (es.take (min nens (es.length - 1))).take i = es.take i := by
    rw [List.take_take, Nat.min_eq_left hi.le]
  have hcol : o.cols[i]? = some (slCol f cells (Spec.slEns sl (es.take i)) e (slMemAt f sl (es.take i) rdMem0)) := by
    rw [hcols, slCols_get _ _ _ _ _ hget, htk]
  generalize slMemAt f sl (es.take i) rdMem0 = m at hcol
  have hens := slFile_get es sl i e hok he
  generalize Spec.slEns sl (es.take i) = sli at *
  have hst : slStores f sli e.blks m
      = slStores f (Spec.slFold sli (pre ++ [b])) post (slStore f (some (n, g)) b (slStores f sli pre m)) := by
    rw [hb, show pre ++ b :: post = pre ++ [b] ++ post by simp, slStores_append, slStores_append, hsl]
    rfl
  have hval : (slStores f sli e.blks m).nb nm c k = some ((w c k : ℚ) * q) := by
    rw [hst, slStores_other post _ _ (fun x hx => ⟨by rw [← hid]; exact hpost x hx,
      okSl_ne129 hens x (by rw [hb]; simp [hx])⟩), slStore_cell hnm hid rfl]
    simp only [vput_eq]
    unfold rdCellVals
    rw [if_pos ⟨hc, hk⟩, hpl, rdAt_cell hw hc hk]
  have hseen : nm ∈ (slStores f sli e.blks m).seen := by
    rw [hst]
    refine slStores_seen post _ _ ?_
    rw [slStore_cell hnm hid rfl]
    exact mem_seenAdd_head
  unfold rdElem
  rw [hcol]
  simp only
  rw [if_pos (show nm ∈ (slCol f cells sli e m).names from hseen),
    if_neg (by show ¬ (nm.profile = true ∧ cells ≤ c); omega)]
  show rdClean (slStores f sli e.blks m).nb nm c k = _
  rw [rdClean_ne hvel, hval]

/-- C167 is false: a missing surface-layer velocity (recorded as -32768, in the main profile turned into NaN) stands in
the dataset as a velocity of -32.768 m/s, in every file. -/
theorem surface_missing_false {env : RdEnv} {junk : RdName → ℕ → ℕ → ℕ → ℚ} {f : RdFixed} (hf : 0 < f.nCells)
    {cells nens : ℕ} {sl : Option (ℕ × ℕ × ℕ)} {es : List Spec.RdEns} (hok : Spec.SlFile f cells sl es) {ds : RdSlDs}
    (h : RdSlOf env junk f cells sl es nens (.ok ds)) {i : ℕ} {e : Spec.RdEns} (hi : i < min nens (es.length - 1))
    (he : es[i]? = some e) {b : Spec.RdBlk} {pre post : List Spec.RdBlk} (hb : e.blks = pre ++ b :: post)
    (hpost : ∀ x ∈ post, x.id ≠ b.id) (hid : b.id = 272) {n : ℕ} {g : ℕ × ℕ}
    (hsl : Spec.slFold (Spec.slEns sl (es.take i)) pre = some (n, g)) (hn : n ≤ cells) {w : ℕ → ℕ → ℤ} {extra : List ℕ}
    (hpl : b.pl = Spec.cellRecord .h n w ++ extra) (hw : ∀ c < n, ∀ k < 4, Spec.inRange .h (w c k))
    {last : ℕ × ℕ × ℕ} (hlast : Spec.slEns sl (es.take (min nens (es.length - 1))) = some last)
    {c k : ℕ} (hc : c < n) (hcl : c < last.1) (hk : k < 4) (hmiss : w c k = -32768) :
    ds.ds.elem .velSl k c i = some (-32768 / 1000) := by
  rw [surface_values hf hok h hi he (nm := .velSl) rfl hb hpost hid hsl hn hpl hw hlast hc hcl hk, hmiss]
  norm_num

/-- C167: the distances of the surface-layer cells are those of the last leader, one for each of its cells, and no
value of a surface-layer variable is kept behind them. -/
theorem surface_range {env : RdEnv} {junk : RdName → ℕ → ℕ → ℕ → ℚ} {f : RdFixed} (hf : 0 < f.nCells)
    {cells nens : ℕ} {sl : Option (ℕ × ℕ × ℕ)} {es : List Spec.RdEns} (hok : Spec.SlFile f cells sl es) {ds : RdSlDs}
    (h : RdSlOf env junk f cells sl es nens (.ok ds)) {n size first : ℕ}
    (hlast : Spec.slEns sl (es.take (min nens (es.length - 1))) = some (n, size, first)) :
    ∃ l, ds.rangeSl = some l ∧ l.length = n ∧ (∀ c < n, l[c]? = some ((first : ℚ) / 100 + c * (size / 100))) ∧
      ∀ nm b c i, nm.surface = true → n ≤ c → ds.ds.elem nm b c i = none := by
  obtain ⟨o, -, -, -, hr⟩ := rdSlOf_arrays hf hok h
  rw [hlast] at hr
  obtain ⟨h1, -, -, hel⟩ := assembleSl_elem hr.symm
  refine ⟨_, h1, by simp [rdRangeSl], ?_, ?_⟩
  · intro c hc
    unfold rdRangeSl
    simp only
    rw [List.getElem?_map, List.getElem?_range hc, Option.map_some]
    congr 1
    ring
  · intro nm b c i hs hc
    rw [hel, if_pos ⟨hs, hc⟩]

/-- C167 is false: cells that an ensemble does not have are not missing. Where its surface layer has fewer cells than
the last one of the file, the dataset repeats the value of the ensemble before. -/
theorem surface_stale_false {env : RdEnv} {junk : RdName → ℕ → ℕ → ℕ → ℚ} {f : RdFixed} (hf : 0 < f.nCells)
    {cells nens : ℕ} {sl : Option (ℕ × ℕ × ℕ)} {es : List Spec.RdEns} (hok : Spec.SlFile f cells sl es) {ds : RdSlDs}
    (h : RdSlOf env junk f cells sl es nens (.ok ds)) {i : ℕ} {d e : Spec.RdEns}
    (hi : i + 1 < min nens (es.length - 1)) (hd : es[i]? = some d) (he : es[i + 1]? = some e) {nm : RdName} {fmt : AdFmt} {q : ℚ}
    (hnm : Spec.slCell nm = some (fmt, q)) (hdb : ∃ x ∈ d.blks, x.id = Spec.rdId nm)
    {b : Spec.RdBlk} {pre post : List Spec.RdBlk} (hb : e.blks = pre ++ b :: post)
    (hpre : ∀ x ∈ pre, x.id ≠ b.id) (hpost : ∀ x ∈ post, x.id ≠ b.id)
    (hid : b.id = Spec.rdId nm) {n : ℕ} {g : ℕ × ℕ}
    (hsl : Spec.slFold (Spec.slEns sl (es.take (i + 1))) pre = some (n, g))
    {last : ℕ × ℕ × ℕ} (hlast : Spec.slEns sl (es.take (min nens (es.length - 1))) = some last)
    {c k : ℕ} (hc : n ≤ c) (hcl : c < last.1) (hcc : c < cells) :
    ds.ds.elem nm k c (i + 1) = ds.ds.elem nm k c i := by
  obtain ⟨o, hcols, hrows, hfc, hr⟩ := rdSlOf_arrays hf hok h
  rw [hlast] at hr
  obtain ⟨-, -, -, hel⟩ := assembleSl_elem hr.symm
  obtain ⟨-, hprof, -, hvel, -⟩ := slCell_info hnm
  rw [hel, hel, if_neg (by omega), if_neg (by omega)]
  have hcol : ∀ j x, j < min nens (es.length - 1) → es[j]? = some x →
      o.cols[j]? = some (slCol f cells (Spec.slEns sl (es.take j)) x (slMemAt f sl (es.take j) rdMem0)) := by
    intro j x hj hx
    have hget : (es.take (min nens (es.length - 1)))[j]? = some x := by rw [List.getElem?_take_of_lt hj, hx]
    rw [hcols, slCols_get _ _ _ _ _ hget, List.take_take, Nat.min_eq_left hj.le]
  have c1 := hcol (i + 1) e hi he
  have c0 := hcol i d (by omega) hd
  rw [slMemAt_snoc es sl rdMem0 i d hd] at c1
  have hens := slFile_get es sl (i + 1) e hok he
  generalize slMemAt f sl (es.take i) rdMem0 = m at *
  generalize Spec.slEns sl (es.take i) = sli at *
  generalize Spec.slEns sl (es.take (i + 1)) = slj at *
  have hst : ∀ m, slStores f slj e.blks m
      = slStores f (Spec.slFold slj (pre ++ [b])) post (slStore f (some (n, g)) b (slStores f slj pre m)) := by
    intro m
    rw [hb, show pre ++ b :: post = pre ++ [b] ++ post by simp, slStores_append, slStores_append, hsl]
    rfl
  have hval : ∀ m, (slStores f slj e.blks m).nb nm c k = m.nb nm c k := by
    intro m
    rw [hst, slStores_other post _ _ (fun x hx => ⟨by rw [← hid]; exact hpost x hx,
      okSl_ne129 hens x (by rw [hb]; simp [hx])⟩), slStore_cell hnm hid rfl]
    simp only [vput_eq]
    unfold rdCellVals
    rw [if_neg (by omega), slStores_other pre _ _ (fun x hx => ⟨by rw [← hid]; exact hpre x hx,
      okSl_ne129 hens x (by rw [hb]; simp [hx])⟩)]
  have hseen1 : ∀ m, nm ∈ (slStores f slj e.blks m).seen := by
    intro m
    rw [hst]
    refine slStores_seen post _ _ ?_
    rw [slStore_cell hnm hid rfl]
    exact mem_seenAdd_head
  have hseen0 : nm ∈ (slStores f sli d.blks m).seen := by
    obtain ⟨x, hx, hxid⟩ := hdb
    obtain ⟨p, r, hpr⟩ := List.append_of_mem hx
    rw [hpr, slStores_append, slStores]
    refine slStores_seen r _ _ ?_
    obtain ⟨h1, -, -, -, h3⟩ := slCell_info hnm
    have hne : ∀ j ∈ [272, 528, 784, 1040, 1296], j ≠ 0 ∧ j ≠ 1 ∧ j ≠ 128 ∧ j ≠ 129 ∧ j ≠ 1536 ∧ j ≠ 16640 := by
      decide
    obtain ⟨n0, n1, n2, n3, n4, n5⟩ := hne _ h3
    unfold slStore rdStore
    rw [hxid, h1]
    simp only [n0, n1, n2, n3, n4, n5, false_or, if_false]
    exact mem_seenAdd_head
  unfold rdElem
  rw [c1, c0]
  simp only
  rw [if_pos (show nm ∈ (slCol f cells slj e _).names from hseen1 _),
    if_pos (show nm ∈ (slCol f cells sli d m).names from hseen0),
    if_neg (by show ¬ (nm.profile = true ∧ cells ≤ c); omega),
    if_neg (by show ¬ (nm.profile = true ∧ cells ≤ c); omega)]
  show rdClean (slStores f slj e.blks (slEnsAfter f sli d m)).nb nm c k = rdClean (slStores f sli d.blks m).nb nm c k
  rw [rdClean_ne hvel, hval]
  rfl

/-- C167 is false: a leader puts `vel_sl` on the list of variables to rotate, whether or not there are surface-layer
velocities. -/
theorem surface_rotate_false {env : RdEnv} {junk : RdName → ℕ → ℕ → ℕ → ℚ} {f : RdFixed} (hf : 0 < f.nCells)
    {cells nens : ℕ} {sl : Option (ℕ × ℕ × ℕ)} {es : List Spec.RdEns} (hok : Spec.SlFile f cells sl es) {ds : RdSlDs}
    (h : RdSlOf env junk f cells sl es nens (.ok ds)) {last : ℕ × ℕ × ℕ}
    (hlast : Spec.slEns sl (es.take (min nens (es.length - 1))) = some last) :
    RdName.velSl ∈ ds.ds.rotateVars := by
  obtain ⟨o, -, -, -, hr⟩ := rdSlOf_arrays hf hok h
  rw [hlast] at hr
  obtain ⟨-, ⟨l, hl⟩, -, -⟩ := assembleSl_elem hr.symm
  rw [hl]
  simp

/-- C167 is false: an ensemble whose surface layer has more cells than the main profile cannot be read. -/
theorem surface_too_many_false {env : RdEnv} {bs r : List ℕ} {s : RdState} {b : Spec.RdBlk} (m : RdMem)
    (hid : b.id ∈ [272, 528, 784, 1040, 1296]) {cells n : ℕ} {k : ℤ} {g : ℕ × ℕ} (hens : s.ens = some (cells, k))
    (hsl : s.sl = some (n, g)) (hn : cells < n) (hd : bs.drop s.pos.toNat = b.bytes ++ r) :
    rdBlockV env bs s m = .error .valueError := by
  have h2 : rdNeed bs s.pos 2 = .ok (Spec.le16 b.id) := by
    refine rdNeed_ok (r := b.pl ++ r) ?_ rfl (by decide)
    rw [hd, Spec.RdBlk.bytes, List.append_assoc]
  have hprof : rdProfile 2 { s with pos := s.pos + 2 } = .ok (n, cells) := by
    unfold rdProfile
    rw [if_neg (by decide), if_pos rfl]
    simp only [hens, hsl]
  have hcell : ∀ w, rdCells bs w 2 { s with pos := s.pos + 2 } = .error .valueError := by
    intro w
    unfold rdCells
    rw [hprof]
    simp only
    rw [if_pos hn]
  have hdat : rdDat env bs b.id { s with pos := s.pos + 2 } = .error .valueError := by
    simp only [List.mem_cons, List.not_mem_nil, or_false] at hid
    rcases hid with hid | hid | hid | hid | hid <;> rw [hid]
    · exact congrArg (Except.map (·, false)) (hcell 2)
    · exact congrArg (Except.map (·, false)) (hcell 1)
    · exact congrArg (Except.map (·, false)) (hcell 1)
    · exact congrArg (Except.map (·, false)) (hcell 1)
    · exact congrArg (Except.map (·, false)) (hcell 1)
  unfold rdBlockV
  rw [h2]
  simp only [leNat_le16]
  rw [hdat]

/-! ### Example files -/

/-- The velocities of an example surface layer: -32768 in the last beam. -/
def slExVel (j : ℤ) (c k : ℕ) : ℤ := if k = 3 then -32768 else 100 * j + 10 * c + k

/-- An ensemble of two cells and a surface layer of `n` cells of 10 cm, the first at 25 cm; with or without velocities. -/
def slExEns (n : ℕ) (j : ℤ) (vel : Bool) : Spec.RdEns :=
  ⟨0, [⟨0, [16, 28, 0, 0, 0, 0, 4, 2] ++ List.replicate 51 0⟩, ⟨128, Spec.record exLeader.fields ++ [0, 0]⟩,
    ⟨256, Spec.cellRecord .h 2 exVel ++ []⟩, ⟨16, [n, 10, 0, 25, 0]⟩] ++
    (if vel then [⟨272, Spec.cellRecord .h n (slExVel j) ++ []⟩] else []), [0, 0, 9, 9]⟩

theorem slExEns_ok {n : ℕ} (h0 : 0 < n) (h : n ≤ 2) {j : ℤ} {vel : Bool} (sl : Option (ℕ × ℕ × ℕ))
    (hs : (slExEns n j vel).nbyte < 32768) (hl : 8 * n ≤ (Spec.cellRecord .h n (slExVel j) ++ []).length) :
    (slExEns n j vel).OkSl ⟨16, 1628, 2⟩ 2 sl where
  tail := rfl
  small := hs
  shape := by
    refine ⟨_, _, _, rfl, ?_, rfl, by decide +kernel, ?_⟩
    · unfold Spec.rdFixedBlk; decide +kernel
    · cases vel
      · exact ⟨by decide, .inl ⟨16, by decide, by decide +kernel⟩, (by decide : (16 : ℕ) < 65536),
          .inr (.inl ⟨rfl, (by decide : 5 ≤ 5)⟩), trivial⟩
      · exact ⟨by decide, .inl ⟨16, by decide, by decide +kernel⟩, (by decide : (16 : ℕ) < 65536),
          .inr (.inl ⟨rfl, (by decide : 5 ≤ 5)⟩), (by decide : (272 : ℕ) < 65536),
          .inr (.inr ⟨n, (10, 25), rfl, h0, h, .inl ⟨rfl, hl⟩⟩), trivial⟩

/-- Four ensembles, of which three are read: surface layers of 2, 1 and 2 cells. -/
def slExFile : List Spec.RdEns := [slExEns 2 1 true, slExEns 1 2 true, slExEns 2 3 true, slExEns 2 4 true]

/-- Surface layers of 2, 1 and 1 cells. -/
def slExCut : List Spec.RdEns := [slExEns 2 1 true, slExEns 1 2 true, slExEns 1 3 true, slExEns 1 4 true]

/-- Surface-layer leaders without velocities. -/
def slExBare : List Spec.RdEns := [slExEns 2 1 false, slExEns 2 2 false, slExEns 2 3 false]

theorem slExFile_ok : Spec.SlFile ⟨16, 1628, 2⟩ 2 none slExFile := by
  refine ⟨slExEns_ok ?_ ?_ _ ?_ ?_, slExEns_ok ?_ ?_ _ ?_ ?_, slExEns_ok ?_ ?_ _ ?_ ?_, slExEns_ok ?_ ?_ _ ?_ ?_,
    trivial⟩ <;> decide +kernel

theorem slExCut_ok : Spec.SlFile ⟨16, 1628, 2⟩ 2 none slExCut := by
  refine ⟨slExEns_ok ?_ ?_ _ ?_ ?_, slExEns_ok ?_ ?_ _ ?_ ?_, slExEns_ok ?_ ?_ _ ?_ ?_, slExEns_ok ?_ ?_ _ ?_ ?_,
    trivial⟩ <;> decide +kernel

theorem slExBare_ok : Spec.SlFile ⟨16, 1628, 2⟩ 2 none slExBare := by
  refine ⟨slExEns_ok ?_ ?_ _ ?_ ?_, slExEns_ok ?_ ?_ _ ?_ ?_, slExEns_ok ?_ ?_ _ ?_ ?_, trivial⟩ <;> decide +kernel

/-- What `p` sees in the dataset of a file. -/
def slExLook (es : List Spec.RdEns) (p : RdSlDs → Bool) : Bool :=
  match rdReadSl rdYes (fun _ _ _ _ => 0) (Spec.rdFile es) 2 10 exStart rdMem0 (rdOut0 2) with
  | some (.ok d) => p d
  | _ => false

theorem slExLook_of {es : List Spec.RdEns} {p : RdSlDs → Bool} (h : slExLook es p = true) :
    ∃ ds, RdSlOf rdYes (fun _ _ _ _ => 0) ⟨16, 1628, 2⟩ 2 none es 10 (.ok ds) ∧ p ds = true := by
  unfold slExLook at h
  split at h
  · next d hd => exact ⟨d, ⟨2, exStart, le_refl _, rfl, rfl, exStart_between, hd⟩, h⟩
  · cases h

/-- The hypotheses of `surface_values` and `surface_missing_false` are met: the first cell of the second ensemble. -/
example : ∃ ds, RdSlOf rdYes (fun _ _ _ _ => 0) ⟨16, 1628, 2⟩ 2 none slExFile 10 (.ok ds) ∧
    ds.ds.elem .velSl 2 0 1 = some (((202 : ℤ) : ℚ) * (1 / 1000)) ∧ ds.ds.elem .velSl 3 0 1 = some (-32768 / 1000) := by
  obtain ⟨ds, h, -⟩ := slExLook_of (es := slExFile) (p := fun _ => true) (by decide +kernel)
  refine ⟨ds, h, ?_, ?_⟩
  · exact surface_values (by decide) slExFile_ok h (i := 1) (by decide) rfl (nm := .velSl) rfl
      (b := ⟨272, Spec.cellRecord .h 1 (slExVel 2) ++ []⟩) (pre := [_, _, _, _]) (post := []) rfl (by simp) rfl
      (n := 1) (g := (10, 25)) rfl (by decide) rfl (by decide +kernel) (last := (2, 10, 25)) rfl (by decide)
      (by decide) (by decide)
  · exact surface_missing_false (by decide) slExFile_ok h (i := 1) (by decide) rfl
      (b := ⟨272, Spec.cellRecord .h 1 (slExVel 2) ++ []⟩) (pre := [_, _, _, _]) (post := []) rfl (by simp) rfl
      (n := 1) (g := (10, 25)) rfl (by decide) rfl (by decide +kernel) (last := (2, 10, 25)) rfl (by decide)
      (by decide) (by decide) (by decide)

/-- C167 is false: the second ensemble recorded one surface-layer cell, and the dataset shows a second one, of the
first ensemble; in another file the second cell of the first ensemble was recorded and is cut off, because the last
ensemble has one cell; and in a third `vel_sl` is to be rotated and is not there. -/
theorem surface_false :
    (∃ ds, RdSlOf rdYes (fun _ _ _ _ => 0) ⟨16, 1628, 2⟩ 2 none slExFile 10 (.ok ds) ∧
      ds.ds.elem .velSl 0 1 0 = some (110 / 1000) ∧ ds.ds.elem .velSl 0 1 1 = some (110 / 1000)) ∧
    (∃ ds, RdSlOf rdYes (fun _ _ _ _ => 0) ⟨16, 1628, 2⟩ 2 none slExCut 10 (.ok ds) ∧
      ds.ds.elem .velSl 0 1 0 = none ∧ ds.ds.elem .velSl 0 0 0 = some (100 / 1000)) ∧
    ∃ ds, RdSlOf rdYes (fun _ _ _ _ => 0) ⟨16, 1628, 2⟩ 2 none slExBare 10 (.ok ds) ∧
      RdName.velSl ∈ ds.ds.rotateVars ∧ RdName.velSl ∉ ds.ds.names := by
  obtain ⟨a, ha, pa⟩ := slExLook_of (es := slExFile) (p := fun d => decide (d.ds.elem .velSl 0 1 0 = some (110 / 1000) ∧
    d.ds.elem .velSl 0 1 1 = some (110 / 1000))) (by decide +kernel)
  obtain ⟨b, hb, pb⟩ := slExLook_of (es := slExCut) (p := fun d => decide (d.ds.elem .velSl 0 1 0 = none ∧
    d.ds.elem .velSl 0 0 0 = some (100 / 1000))) (by decide +kernel)
  obtain ⟨c, hc, pc⟩ := slExLook_of (es := slExBare) (p := fun d => decide (RdName.velSl ∉ d.ds.names)) (by decide +kernel)
  exact ⟨⟨a, ha, of_decide_eq_true pa⟩, ⟨b, hb, of_decide_eq_true pb⟩,
    ⟨c, hc, surface_rotate_false (by decide) slExBare_ok hc (last := (2, 10, 25)) rfl, of_decide_eq_true pc⟩⟩

/-- The hypotheses of `surface_range` and `surface_stale_false` are met. -/
example : ∃ ds l, RdSlOf rdYes (fun _ _ _ _ => 0) ⟨16, 1628, 2⟩ 2 none slExFile 10 (.ok ds) ∧
    ds.rangeSl = some l ∧ l[1]? = some (35 / 100) ∧ ds.ds.elem .velSl 0 1 1 = ds.ds.elem .velSl 0 1 0 := by
  obtain ⟨ds, h, -⟩ := slExLook_of (es := slExFile) (p := fun _ => true) (by decide +kernel)
  obtain ⟨l, h1, -, h2, -⟩ := surface_range (by decide) slExFile_ok h (n := 2) (size := 10) (first := 25) rfl
  refine ⟨ds, l, h, h1, ?_, ?_⟩
  · rw [h2 1 (by decide)]
    norm_num
  · exact surface_stale_false (by decide) slExFile_ok h (i := 0) (d := slExEns 2 1 true) (e := slExEns 1 2 true)
      (by decide) rfl rfl (nm := .velSl) rfl ⟨⟨272, Spec.cellRecord .h 2 (slExVel 1) ++ []⟩, by simp [slExEns], rfl⟩
      (b := ⟨272, Spec.cellRecord .h 1 (slExVel 2) ++ []⟩) (pre := [_, _, _, _]) (post := []) rfl
      (by decide +kernel) (by simp) rfl (n := 1) (g := (10, 25)) rfl (last := (2, 10, 25)) rfl (by decide) (by decide)
      (by decide)

/-- A surface layer of three cells over a main profile of two. -/
example : rdBlockV rdYes ((⟨272, List.replicate 24 1⟩ : Spec.RdBlk).bytes ++ [])
    { exStart with sl := some (3, 10, 25) } rdMem0 = .error .valueError :=
  surface_too_many_false (b := ⟨272, List.replicate 24 1⟩) (cells := 2) (k := -1) (n := 3) (g := (10, 25)) rdMem0
    (by decide) rfl rfl (by decide) rfl

end Dolfyn
