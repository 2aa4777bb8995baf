import Verif.Model.RdiInit
import Verif.Props.RdiCount
import Mathlib.Tactic.FieldSimp
import Mathlib.Tactic.Positivity

/-!
The number of ensembles read by default (C90).
-/

namespace Dolfyn

/-- The bytes of an ensemble behind its header. -/
def Spec.RdEns.body (e : Spec.RdEns) : List ℕ := e.blks.flatMap Spec.RdBlk.bytes ++ e.tail

/-- No byte behind the header is `7F`, so that nothing there can be taken for a header. -/
def Spec.RdEns.Quiet (e : Spec.RdEns) : Prop := ∀ x ∈ e.body, x ≠ 127

/-! ### Headers -/

theorem RdEns_split (e : Spec.RdEns) : ∃ h : List ℕ, e.bytes = h ++ e.body ∧ h.length = 6 + 2 * e.blks.length := by
  refine ⟨[127, 127] ++ (Spec.le16 e.nbyte ++ ([e.spare] ++ ([e.blks.length]
    ++ (Spec.rdOffsets (6 + 2 * e.blks.length) e.blks).flatMap Spec.le16))), ?_, ?_⟩
  · simp [Spec.RdEns.bytes, Spec.RdEns.body]
  · simp only [List.length_append, flatMap_le16_length, rdOffsets_length, Spec.le16, List.length_cons,
      List.length_nil]
    omega

theorem RdEns_body_len {f : RdFixed} {e : Spec.RdEns} (h : e.Ok f) : 2 ≤ e.body.length := by
  rw [Spec.RdEns.body, List.length_append, h.tail]; omega

theorem rdCheckheader_ok {f : RdFixed} {e : Spec.RdEns} {bs r : List ℕ} {start : ℕ} (he : e.Ok f)
    (hd : bs.drop start = e.bytes ++ (127 :: 127 :: r)) :
    rdCheckheader bs ((start : ℤ) + 2) = .ok (true, (start : ℤ) + 2) := by
  have d0 : bs.drop ((start : ℤ)).toNat = [127, 127] ++ (Spec.le16 e.nbyte ++ ([e.spare] ++ ([e.blks.length]
      ++ ((Spec.rdOffsets (6 + 2 * e.blks.length) e.blks).flatMap Spec.le16
      ++ (e.blks.flatMap Spec.RdBlk.bytes ++ e.tail)))) ++ (127 :: 127 :: r)) := by
    rw [Int.toNat_natCast, hd, Spec.RdEns.bytes, List.append_assoc]
  have d1 := drop_toNat_add (by omega) d0
  rw [List.append_assoc] at d1
  simp only [List.length_cons, List.length_nil, zero_add, Nat.reduceAdd, Nat.cast_ofNat] at d1
  have d9 : bs.drop ((start : ℤ) + 2 + e.nbyte).toNat = [127, 127] ++ r := by
    rw [show ((start : ℤ) + 2 + e.nbyte).toNat = start + e.bytes.length by rw [RdEns_length he]; omega,
      ← List.drop_drop, hd, List.drop_left' rfl]
    rfl
  have hpos : (0 : ℤ) < e.nbyte := by unfold Spec.RdEns.nbyte; push_cast; omega
  unfold rdCheckheader
  rw [rdNeed_ok (n := 2) d1 rfl (by decide)]
  simp only [rdI16_le16 he.small, hpos, if_true]
  rw [rdBytes_ok (n := 2) d9 rfl (by decide)]
  rfl

theorem drop_one {bs r : List ℕ} {p c : ℕ} (h : bs.drop p = c :: r) :
    rdBytes bs (p : ℤ) 1 = .ok (some [c]) ∧ bs.drop (p + 1) = r := by
  refine ⟨rdBytes_ok (c := [c]) (r := r) (by rw [Int.toNat_natCast, h]; rfl) rfl (by decide), ?_⟩
  rw [← List.drop_drop, h]; rfl

theorem rdTest_no {bs : List ℕ} {a b : ℕ} {p : ℤ} (h : ¬ (a = 127 ∧ b = 127)) : rdTest bs a b p = .ok (false, p) := by
  unfold rdTest; rw [if_neg h]

/-- Over bytes other than `7F` the search for a header goes on to the next ensemble. -/
theorem rdHdrLoop_scan {f : RdFixed} {e : Spec.RdEns} {bs r : List ℕ} (he : e.Ok f) :
    ∀ (m : List ℕ) (p fuel a b : ℕ), a ≠ 127 → (∀ x ∈ m, x ≠ 127) →
    bs.drop p = m ++ (e.bytes ++ (127 :: 127 :: r)) → m.length + 3 ≤ fuel →
    rdHdrLoop bs fuel a b p = some (.ok (true, ((p + m.length : ℕ) : ℤ) + 2))
  | [], p, fuel, a, b, ha, _, hd, hfu => by
    obtain ⟨fu, rfl⟩ : ∃ fu, fuel = fu + 3 := ⟨fuel - 3, by simp at hfu; omega⟩
    rw [List.nil_append] at hd
    obtain ⟨q, hq⟩ := bytes_cons2 e
    have hd0 : bs.drop p = 127 :: (127 :: (q ++ (127 :: 127 :: r))) := by rw [hd, hq]; rfl
    obtain ⟨h1, hd1⟩ := drop_one hd0
    obtain ⟨h2, _⟩ := drop_one hd1
    have hc := rdCheckheader_ok he hd
    rw [rdHdrLoop, rdTest_no (fun x => ha x.1)]
    simp only [h1, List.getD_cons_zero]
    rw [rdHdrLoop, rdTest_no (fun x => ha x.2)]
    simp only
    have e1 : ((p : ℤ) + 1) = ((p + 1 : ℕ) : ℤ) := by push_cast; ring
    rw [e1, h2]
    simp only [List.getD_cons_zero]
    rw [rdHdrLoop]
    unfold rdTest
    have e2 : (((p + 1 : ℕ) : ℤ) + 1) = (p : ℤ) + 2 := by push_cast; ring
    rw [if_pos ⟨rfl, rfl⟩, e2, hc]
    simp
  | x :: m, p, fuel, a, b, ha, hm, hd, hfu => by
    obtain ⟨fu, rfl⟩ : ∃ fu, fuel = fu + 1 := ⟨fuel - 1, by simp at hfu; omega⟩
    obtain ⟨h1, hd1⟩ := drop_one (show bs.drop p = x :: (m ++ (e.bytes ++ (127 :: 127 :: r))) from hd)
    rw [rdHdrLoop, rdTest_no (fun y => ha y.1)]
    simp only [h1, List.getD_cons_zero]
    have e1 : ((p : ℤ) + 1) = ((p + 1 : ℕ) : ℤ) := by push_cast; ring
    rw [e1, rdHdrLoop_scan he m (p + 1) fu x a (hm x (by simp)) (fun y hy => hm y (by simp [hy])) hd1
      (by simp at hfu; omega)]
    rw [List.length_cons]
    congr 4
    push_cast; ring

/-- `read_hdr` in the middle of a regular file. -/
theorem rdReadHdr_next {f : RdFixed} {e : Spec.RdEns} {bs r m : List ℕ} {p fuel : ℕ} {hp : ℤ} (he : e.Ok f)
    (hm2 : 2 ≤ m.length) (hm : ∀ x ∈ m, x ≠ 127)
    (hd : bs.drop p = m ++ (e.bytes ++ (127 :: 127 :: r))) (hfu : m.length + 3 ≤ fuel) :
    rdReadHdr bs fuel p hp = some (.found ((p + m.length + (6 + 2 * e.blks.length) : ℕ) : ℤ)
      ((p + m.length : ℕ) : ℤ) e.blks.length
      ((Spec.rdOffsets (6 + 2 * e.blks.length) e.blks).map (fun x : ℕ => (x : ℤ)))) := by
  obtain ⟨x, y, m', rfl⟩ : ∃ x y m', m = x :: y :: m' := by
    match m, hm2 with
    | x :: y :: m', _ => exact ⟨x, y, m', rfl⟩
  have h2 : rdBytes bs (p : ℤ) 2 = .ok (some [x, y]) :=
    rdBytes_ok (c := [x, y]) (r := m' ++ (e.bytes ++ (127 :: 127 :: r)))
      (by rw [Int.toNat_natCast, hd]; rfl) rfl (by decide)
  have hd2 : bs.drop (p + 2) = m' ++ (e.bytes ++ (127 :: 127 :: r)) := by
    rw [← List.drop_drop, hd]; rfl
  have hs := rdHdrLoop_scan he m' (p + 2) fuel x y (hm x (by simp)) (fun z hz => hm z (by simp [hz])) hd2
    (by simp at hfu; omega)
  have hd3 : bs.drop (p + 2 + m'.length) = e.bytes ++ (127 :: 127 :: r) := by
    rw [← List.drop_drop, hd2, List.drop_left' rfl]
  have hraw := rdHdrRaw_ok he hd3
  unfold rdReadHdr
  rw [h2]
  simp only [List.getD_cons_zero, List.getD_cons_succ]
  have e1 : ((p : ℤ) + 2) = ((p + 2 : ℕ) : ℤ) := by push_cast; ring
  rw [e1, hs]
  simp only
  rw [hraw]
  simp only [List.length_cons]
  congr 2 <;> (push_cast; ring)

/-- `read_hdr` at the start of the file. -/
theorem rdReadHdr_first {f : RdFixed} {e : Spec.RdEns} {bs r : List ℕ} {fuel : ℕ} {hp : ℤ} (he : e.Ok f)
    (hd : bs = e.bytes ++ (127 :: 127 :: r)) (hfu : 1 ≤ fuel) :
    rdReadHdr bs fuel 0 hp = some (.found ((6 + 2 * e.blks.length : ℕ) : ℤ) 0 e.blks.length
      ((Spec.rdOffsets (6 + 2 * e.blks.length) e.blks).map (fun x : ℕ => (x : ℤ)))) := by
  obtain ⟨fu, rfl⟩ : ∃ fu, fuel = fu + 1 := ⟨fuel - 1, by omega⟩
  obtain ⟨q, hq⟩ := bytes_cons2 e
  have hd0 : bs.drop 0 = e.bytes ++ (127 :: 127 :: r) := by rw [List.drop_zero, hd]
  have h2 : rdBytes bs 0 2 = .ok (some [127, 127]) :=
    rdBytes_ok (c := [127, 127]) (r := q ++ (127 :: 127 :: r))
      (by rw [Int.toNat_zero, hd0, hq]; rfl) rfl (by decide)
  have hc := rdCheckheader_ok he (start := 0) hd0
  have hraw := rdHdrRaw_ok he (start := 0) hd0
  simp only [Nat.cast_zero] at hc hraw
  unfold rdReadHdr
  rw [h2]
  simp only [List.getD_cons_zero, List.getD_cons_succ]
  rw [rdHdrLoop]
  unfold rdTest
  rw [if_pos ⟨rfl, rfl⟩, hc]
  simp only
  rw [hraw]
  simp only
  congr 2 <;> (push_cast; ring)

theorem rdFile_cons2 (e e' : Spec.RdEns) (es : List Spec.RdEns) :
    ∃ r, Spec.rdFile (e :: e' :: es) = e.bytes ++ (127 :: 127 :: r) := by
  obtain ⟨q, hq⟩ := bytes_cons2 e'
  refine ⟨q ++ Spec.rdFile es, ?_⟩
  simp [Spec.rdFile, hq]

/-- The headers of `k` further ensembles are found one after the other. -/
theorem rdSpacingLoop_ok {f : RdFixed} {bs : List ℕ} {fuel : ℕ} (hfu : bs.length + 3 ≤ fuel) :
    ∀ (k i p : ℕ) (m : List ℕ) (es : List Spec.RdEns) (hp : ℤ), k + 1 ≤ es.length →
    (∀ e ∈ es, e.Ok f) → (∀ e ∈ es, e.Quiet) → 2 ≤ m.length → (∀ x ∈ m, x ≠ 127) →
    bs.drop p = m ++ Spec.rdFile es →
    rdSpacingLoop bs fuel (k + 1 - 1) i p hp = some (if k = 0 then hp else
      ((p + m.length + (Spec.rdFile (es.take (k - 1))).length : ℕ) : ℤ), i + k - 1)
  | 0, i, p, m, es, hp, _, _, _, _, _, _ => by simp [rdSpacingLoop]
  | k + 1, i, p, m, [], hp, hk, _, _, _, _, _ => by simp at hk
  | k + 1, i, p, m, [e], hp, hk, _, _, _, _, _ => by simp at hk
  | k + 1, i, p, m, e :: e' :: es, hp, hk, hok, hq, hm2, hm, hd => by
    have he := hok e (by simp)
    obtain ⟨r, hr⟩ := rdFile_cons2 e e' es
    obtain ⟨h, hb, hl⟩ := RdEns_split e
    have hd' := hd
    rw [hr] at hd
    have hml : m.length + 3 ≤ fuel := by
      have := congrArg List.length hd
      rw [List.length_drop, List.length_append] at this
      omega
    have hnext := rdReadHdr_next (hp := hp) he hm2 hm hd hml
    have hd2 : bs.drop (p + m.length + (6 + 2 * e.blks.length)) = e.body ++ Spec.rdFile (e' :: es) := by
      rw [← hl, ← List.drop_drop, ← List.drop_drop, hd', List.drop_left' rfl]
      rw [show Spec.rdFile (e :: e' :: es) = e.bytes ++ Spec.rdFile (e' :: es) by simp [Spec.rdFile], hb,
        List.append_assoc, List.drop_left' rfl]
    have ih := rdSpacingLoop_ok hfu k (i + 1) (p + m.length + (6 + 2 * e.blks.length)) e.body (e' :: es)
      ((p + m.length : ℕ) : ℤ) (by simp at hk ⊢; omega) (fun x hx => hok x (by simp at hx ⊢; tauto))
      (fun x hx => hq x (by simp at hx ⊢; tauto)) (RdEns_body_len he) (hq e (by simp)) hd2
    rw [show k + 1 + 1 - 1 = k + 1 by omega, rdSpacingLoop, hnext]
    simp only
    rw [show k + 1 - 1 = k by omega] at ih
    rw [ih, if_neg (by omega : ¬ (k + 1 = 0))]
    congr 2
    · rcases Nat.eq_zero_or_pos k with rfl | hk0
      · simp [Spec.rdFile]
      · rw [if_neg (by omega)]
        obtain ⟨j, rfl⟩ : ∃ j, k = j + 1 := ⟨k - 1, by omega⟩
        have hbl : e.bytes.length = 6 + 2 * e.blks.length + e.body.length := by
          rw [hb, List.length_append, hl]
        simp only [Nat.add_sub_cancel, List.take_succ_cons, Spec.rdFile, List.flatMap_cons, List.length_append, hbl]
        push_cast; ring
    · omega

/-! ### The data types of the first ensemble -/

theorem rdDouble_fixed {bs r : List ℕ} {f : RdFixed} {s : RdState} {b : Spec.RdBlk}
    (hb : Spec.rdFixedBlk f b) (he : s.ens = none) (h0 : 0 ≤ s.pos) (hd : bs.drop s.pos.toNat = b.pl ++ r) :
    ∃ p nb, rdFixed bs false s = .ok { s with pos := p, nbyte := nb, cfg := some f } := by
  obtain ⟨hid, hl, hfw, hver, hnc, ha, hfr, hsim⟩ := hb
  have hlen := drop_len h0 (by omega) hd
  have h5 : rdNeed bs s.pos 5 = .ok (b.pl.take 5) := by
    refine rdNeed_ok (r := b.pl.drop 5 ++ r) ?_ ?_ (by decide)
    · rw [hd, ← List.append_assoc, List.take_append_drop]
    · rw [List.length_take]; omega
  have hcf : rdFixedCfg bs s.pos = f := by
    unfold rdFixedCfg rdChunk
    rw [hd]
    simp only [getD_take_append_lt (show 0 < 8 by decide) (by omega : 8 ≤ b.pl.length),
      getD_take_append_lt (show 1 < 8 by decide) (by omega : 8 ≤ b.pl.length),
      getD_take_append_lt (show 7 < 8 by decide) (by omega : 8 ≤ b.pl.length), hfw, hver, hnc]
  have hok : rdFixedOk (b.pl.take 5) = true := by
    unfold rdFixedOk
    rw [getD_take_lt (by decide), getD_take_lt (by decide), getD_take_lt (by decide)]
    exact decide_eq_true ⟨ha, hfr, hsim⟩
  have hfin := rdFinish_ok (bs := bs) (n := rdFixedNbyte f.ver) (s := s)
    (rdFixed_fwd f.ver) (by omega) (by rw [rdFixed_sum]; have := rdFixedNbyte_le f.ver; omega)
  unfold rdFixed rdCfgseg
  rw [h5]
  simp only
  rw [if_pos hok, hcf, hfin]
  simp only [Bool.false_eq_true, if_false]
  unfold rdGrow
  simp only [he]
  exact ⟨_, _, rfl⟩

/-- Blocks that are neither leaders nor VMDAS only leave their positions behind. -/
theorem rdDoubleLoop_rest {bs : List ℕ} : ∀ (rest : List Spec.RdBlk) (o : ℕ) (s : RdState) (r : List ℕ),
    (∀ b ∈ rest, b.id < 65536 ∧ b.id ≠ 0 ∧ b.id ≠ 1 ∧ b.id ≠ 16 ∧ b.id ≠ 8192) →
    bs.drop o = rest.flatMap Spec.RdBlk.bytes ++ r → rest ≠ [] →
    ∃ pl ids, pl ∈ rest.map Spec.RdBlk.pl ∧
      rdDoubleLoop bs 0 ((Spec.rdOffsets o rest).map (fun x : ℕ => (x : ℤ))) false s
      = .ok (false, { s with
          pos := ((o + (rest.flatMap Spec.RdBlk.bytes).length - pl.length : ℕ) : ℤ), idPos := ids }) ∧
      bs.drop (o + (rest.flatMap Spec.RdBlk.bytes).length - pl.length) = pl ++ r
  | [], _, _, _, _, _, hne => absurd rfl hne
  | b :: rest, o, s, r, hx, hd, _ => by
    obtain ⟨h1, h2, h3, h4, h5⟩ := hx b (by simp)
    rw [List.flatMap_cons, List.append_assoc] at hd
    have hn : rdNeed bs ((o : ℤ) + 0) 2 = .ok (Spec.le16 b.id) := by
      refine rdNeed_ok (r := b.pl ++ (rest.flatMap Spec.RdBlk.bytes ++ r)) ?_ rfl (by decide)
      rw [add_zero, Int.toNat_natCast, hd, Spec.RdBlk.bytes, List.append_assoc]
    have hd2 : bs.drop (o + b.bytes.length) = rest.flatMap Spec.RdBlk.bytes ++ r := by
      rw [← List.drop_drop, hd, List.drop_left' rfl]
    simp only [Spec.rdOffsets, List.map_cons]
    rw [rdDoubleLoop, if_neg (by omega), hn]
    simp only
    rw [leNat_le16, if_neg h3, if_neg h2, if_neg h4, if_neg h5]
    rcases eq_or_ne rest [] with rfl | hne
    · refine ⟨b.pl, dictPut b.id o s.idPos, by simp, ?_, ?_⟩
      · simp only [Spec.rdOffsets, List.map_nil, rdDoubleLoop]
        congr 3
        simp only [List.flatMap_cons, List.flatMap_nil, List.append_nil, RdBlk_len]
        omega
      · simp only [List.flatMap_cons, List.flatMap_nil, List.append_nil, RdBlk_len]
        rw [show o + (2 + b.pl.length) - b.pl.length = o + 2 by omega, ← List.drop_drop, hd]
        simp [Spec.RdBlk.bytes, Spec.le16]
    · obtain ⟨pl, ids, hpl, hl, hdl⟩ := rdDoubleLoop_rest rest (o + b.bytes.length)
        { s with pos := (o : ℤ) + 0 + 2, idPos := dictPut b.id o s.idPos } r
        (fun x hxm => hx x (by simp [hxm])) hd2 hne
      refine ⟨pl, ids, by simp only [List.map_cons, List.mem_cons]; exact Or.inr hpl, ?_, ?_⟩
      · rw [hl]
        congr 3
        rw [List.flatMap_cons, List.length_append]
        congr 1
        omega
      · rw [List.flatMap_cons, List.length_append, ← add_assoc]
        exact hdl

theorem dictPut_find (id : ℕ) (o : ℤ) (i : ℕ) : ∀ l : List (ℕ × ℤ),
    (dictPut id o l).find? (·.1 = i) = if i = id then some (id, o) else l.find? (·.1 = i)
  | [] => by
    rw [dictPut]
    by_cases h : i = id
    · subst h; simp
    · rw [if_neg h]
      simp [Ne.symm h]
  | (j, x) :: l => by
    rw [dictPut]
    by_cases h1 : j = id
    · rw [if_pos h1]
      subst h1
      by_cases h : i = j
      · subst h; simp
      · rw [if_neg h, List.find?_cons_of_neg (by simpa using Ne.symm h), List.find?_cons_of_neg (by simpa using Ne.symm h)]
    · rw [if_neg h1]
      by_cases h2 : j = i
      · subst h2
        rw [List.find?_cons_of_pos (by simp), if_neg h1, List.find?_cons_of_pos (by simp)]
      · rw [List.find?_cons_of_neg (by simpa using h2), dictPut_find id o i l, List.find?_cons_of_neg (by simpa using h2)]

/-- **C50.** Opening the file notes for every identifier of the first ensemble where its block is; of several blocks with
the same identifier it is the last one. -/
theorem rdi_positions {bs : List ℕ} : ∀ (rest : List Spec.RdBlk) (o : ℕ) (s : RdState) (r : List ℕ),
    (∀ b ∈ rest, b.id < 65536 ∧ b.id ≠ 0 ∧ b.id ≠ 1 ∧ b.id ≠ 16 ∧ b.id ≠ 8192) →
    bs.drop o = rest.flatMap Spec.RdBlk.bytes ++ r →
    ∃ s', rdDoubleLoop bs 0 ((Spec.rdOffsets o rest).map (fun x : ℕ => (x : ℤ))) false s = .ok (false, s') ∧
      (∀ i, (∀ b ∈ rest, b.id ≠ i) → s'.idPos.find? (·.1 = i) = s.idPos.find? (·.1 = i)) ∧
      ∀ pre b post, rest = pre ++ b :: post → (∀ c ∈ post, c.id ≠ b.id) →
        s'.idPos.find? (·.1 = b.id) = some (b.id, ((o + (pre.flatMap Spec.RdBlk.bytes).length : ℕ) : ℤ))
  | [], o, s, _, _, _ => by
    refine ⟨s, by simp [Spec.rdOffsets, rdDoubleLoop], fun _ _ => rfl, ?_⟩
    intro pre b post h
    simp at h
  | b :: rest, o, s, r, hx, hd => by
    obtain ⟨h1, h2, h3, h4, h5⟩ := hx b (by simp)
    rw [List.flatMap_cons, List.append_assoc] at hd
    have hn : rdNeed bs ((o : ℤ) + 0) 2 = .ok (Spec.le16 b.id) := by
      refine rdNeed_ok (r := b.pl ++ (rest.flatMap Spec.RdBlk.bytes ++ r)) ?_ rfl (by decide)
      rw [add_zero, Int.toNat_natCast, hd, Spec.RdBlk.bytes, List.append_assoc]
    have hd2 : bs.drop (o + b.bytes.length) = rest.flatMap Spec.RdBlk.bytes ++ r := by
      rw [← List.drop_drop, hd, List.drop_left' rfl]
    simp only [Spec.rdOffsets, List.map_cons]
    rw [rdDoubleLoop, if_neg (by omega), hn]
    simp only
    rw [leNat_le16, if_neg h3, if_neg h2, if_neg h4, if_neg h5]
    obtain ⟨s', k1, k2, k3⟩ := rdi_positions rest (o + b.bytes.length)
      { s with pos := (o : ℤ) + 0 + 2, idPos := dictPut b.id o s.idPos } r (fun x hxm => hx x (by simp [hxm])) hd2
    refine ⟨s', k1, ?_, ?_⟩
    · intro i hi
      rw [k2 i fun c hc => hi c (by simp [hc]), dictPut_find, if_neg (Ne.symm (hi b (by simp)))]
    · intro pre c post hp hc
      cases pre with
      | nil =>
        simp only [List.nil_append, List.cons.injEq] at hp
        obtain ⟨rfl, rfl⟩ := hp
        rw [k2 b.id hc, dictPut_find, if_pos rfl]
        simp
      | cons a pre =>
        simp only [List.cons_append, List.cons.injEq] at hp
        obtain ⟨rfl, hp⟩ := hp
        rw [k3 pre c post hp hc, List.flatMap_cons, List.length_append, add_assoc]

example : ∃ s', rdDoubleLoop ([⟨8226, [1, 2]⟩, ⟨512, [3]⟩, ⟨8226, [5]⟩].flatMap Spec.RdBlk.bytes) 0 [0, 4, 7] false
    rdBlank = .ok (false, s') ∧ s'.idPos.find? (·.1 = 8226) = some (8226, 7) := by
  obtain ⟨s', h1, -, h2⟩ := rdi_positions (bs := [⟨8226, [1, 2]⟩, ⟨512, [3]⟩, ⟨8226, [5]⟩].flatMap Spec.RdBlk.bytes)
    [⟨8226, [1, 2]⟩, ⟨512, [3]⟩, ⟨8226, [5]⟩] 0 rdBlank [] (by
      intro b hb
      simp only [List.mem_cons, List.not_mem_nil, or_false] at hb
      rcases hb with rfl | rfl | rfl <;> simp) (by simp)
  exact ⟨s', h1, h2 [⟨8226, [1, 2]⟩, ⟨512, [3]⟩] ⟨8226, [5]⟩ [] rfl (by simp)⟩

/-- **C50.** Opening recognises a dual profile exactly when one of the blocks of the first ensemble is a second fixed
leader (identifier 1), wherever in the ensemble it stands. -/
theorem rdi_dual_found {bs : List ℕ} {d : ℤ} : ∀ (os : List ℤ) (fnd : Bool) (s : RdState) (fnd' : Bool) (s' : RdState),
    rdDoubleLoop bs d os fnd s = .ok (fnd', s') →
    (fnd' = true ↔ fnd = true ∨ ∃ o ∈ os, ∃ c, rdNeed bs (o + d) 2 = .ok c ∧ leNat c = 1)
  | [], fnd, s, fnd', s', h => by
    cases h
    simp
  | o :: os, fnd, s, fnd', s', h => by
    rw [rdDoubleLoop] at h
    by_cases h0 : o + d < 0
    · rw [if_pos h0] at h; cases h
    rw [if_neg h0] at h
    cases hn : rdNeed bs (o + d) 2 with
    | error e => rw [hn] at h; cases h
    | ok c =>
      rw [hn] at h
      simp only at h
      by_cases h1 : leNat c = 1
      · rw [if_pos h1] at h
        split at h
        · cases h
        · have := rdi_dual_found os _ _ _ _ h
          simp only [true_or, iff_true] at this
          simp only [this, true_iff]
          exact Or.inr ⟨o, by simp, c, hn, h1⟩
      · have key : (∃ o' ∈ o :: os, ∃ c, rdNeed bs (o' + d) 2 = .ok c ∧ leNat c = 1) ↔
            ∃ o' ∈ os, ∃ c, rdNeed bs (o' + d) 2 = .ok c ∧ leNat c = 1 := by
          constructor
          · rintro ⟨o', ho, c', hc, h1'⟩
            rcases List.mem_cons.mp ho with rfl | ho
            · rw [hn] at hc
              cases hc
              exact absurd h1' h1
            · exact ⟨o', ho, c', hc, h1'⟩
          · rintro ⟨o', ho, x⟩
            exact ⟨o', List.mem_cons_of_mem _ ho, x⟩
        rw [key]
        rw [if_neg h1] at h
        by_cases h2 : leNat c = 0
        · rw [if_pos h2] at h
          split at h
          · cases h
          · exact rdi_dual_found os _ _ _ _ h
        rw [if_neg h2] at h
        by_cases h3 : leNat c = 16
        · rw [if_pos h3] at h
          split at h
          · cases h
          · exact rdi_dual_found os _ _ _ _ h
        rw [if_neg h3] at h
        by_cases h4 : leNat c = 8192
        · rw [if_pos h4] at h
          exact rdi_dual_found os _ _ _ _ h
        rw [if_neg h4] at h
        exact rdi_dual_found os _ _ _ _ h

/-- Two fixed leaders, the second one being that of the second profile. -/
example : ∃ s', rdDoubleLoop (([⟨0, 16 :: 28 :: List.replicate 57 0⟩, ⟨1, 16 :: 28 :: List.replicate 57 0⟩] :
    List Spec.RdBlk).flatMap Spec.RdBlk.bytes) 0 [0, 61] false rdBlank = .ok (true, s') := by
  have : ∃ x, rdDoubleLoop (([⟨0, 16 :: 28 :: List.replicate 57 0⟩, ⟨1, 16 :: 28 :: List.replicate 57 0⟩] :
    List Spec.RdBlk).flatMap Spec.RdBlk.bytes) 0 [0, 61] false rdBlank = .ok x := by
    cases h : rdDoubleLoop (([⟨0, 16 :: 28 :: List.replicate 57 0⟩, ⟨1, 16 :: 28 :: List.replicate 57 0⟩] :
      List Spec.RdBlk).flatMap Spec.RdBlk.bytes) 0 [0, 61] false rdBlank with
    | ok x => exact ⟨x, rfl⟩
    | error e => 
      exfalso
      revert h
      cases e <;> decide +kernel
  obtain ⟨⟨f, s'⟩, hx⟩ := this
  refine ⟨s', ?_⟩
  rw [hx, (rdi_dual_found _ _ _ _ _ hx).mpr (Or.inr ⟨61, by simp, [1, 0], by decide +kernel, by decide⟩)]

theorem rdMin_known {f : RdFixed} {id m : ℕ} (h : Spec.rdMin f id = some m) :
    id ≠ 0 ∧ id ≠ 1 ∧ id ≠ 16 ∧ id ≠ 8192 := by
  refine ⟨?_, ?_, ?_, ?_⟩ <;> (rintro rfl; simp [Spec.rdMin] at h)

theorem length_le_flatMap {α β : Type} {g : α → List β} {b : α} : ∀ {l : List α}, b ∈ l →
    (g b).length ≤ (l.flatMap g).length
  | a :: l, h => by
    rw [List.flatMap_cons, List.length_append]
    rcases List.mem_cons.mp h with rfl | h
    · omega
    · have := length_le_flatMap (g := g) h; omega

/-- The first ensemble: its configuration is read, and the file is left inside of its last block. -/
theorem rdDoubleLoop_ens {bs r : List ℕ} {f : RdFixed} {e : Spec.RdEns} (he : e.Ok f)
    (hd : bs.drop (6 + 2 * e.blks.length) = e.body ++ r) :
    ∃ nb ids m, (∀ x ∈ m, x ∈ e.body) ∧ 4 ≤ m.length ∧
      rdDoubleLoop bs 0 ((Spec.rdOffsets (6 + 2 * e.blks.length) e.blks).map (fun x : ℕ => (x : ℤ))) false rdBlank
      = .ok (false, { rdBlank with
          pos := ((6 + 2 * e.blks.length + e.body.length - m.length : ℕ) : ℤ), idPos := ids, cfg := some f
          nbyte := nb }) ∧
      bs.drop (6 + 2 * e.blks.length + e.body.length - m.length) = m ++ r ∧ m.length ≤ e.body.length := by
  obtain ⟨fx, vr, rest, hb, hfx, hvid, hvl, hrest⟩ := he.shape
  have hbody : e.body = (fx :: vr :: rest).flatMap Spec.RdBlk.bytes ++ e.tail := by rw [Spec.RdEns.body, hb]
  generalize 6 + 2 * e.blks.length = o at *
  rw [hbody, List.append_assoc, List.flatMap_cons, List.append_assoc] at hd
  have hid := hfx.1
  have hn : rdNeed bs ((o : ℤ) + 0) 2 = .ok (Spec.le16 fx.id) := by
    refine rdNeed_ok (r := fx.pl ++ ((vr :: rest).flatMap Spec.RdBlk.bytes ++ (e.tail ++ r))) ?_ rfl (by decide)
    rw [add_zero, Int.toNat_natCast, hd, Spec.RdBlk.bytes, List.append_assoc]
  have hd1 : bs.drop ((o : ℤ) + 0 + 2).toNat = fx.pl ++ ((vr :: rest).flatMap Spec.RdBlk.bytes ++ (e.tail ++ r)) := by
    rw [show ((o : ℤ) + 0 + 2).toNat = o + 2 by omega, ← List.drop_drop, hd]
    simp [Spec.RdBlk.bytes, Spec.le16]
  have hd2 : bs.drop (o + fx.bytes.length) = (vr :: rest).flatMap Spec.RdBlk.bytes ++ (e.tail ++ r) := by
    rw [← List.drop_drop, hd, List.drop_left' rfl]
  obtain ⟨p1, nb1, h1⟩ := rdDouble_fixed (bs := bs)
    (s := { rdBlank with pos := (o : ℤ) + 0 + 2, idPos := dictPut 0 o [] }) hfx rfl (by simp only; omega) hd1
  obtain ⟨pl, ids, hpl, h2, hdl⟩ := rdDoubleLoop_rest (vr :: rest) (o + fx.bytes.length)
    { rdBlank with pos := p1, nbyte := nb1, cfg := some f, idPos := dictPut 0 o [] } (e.tail ++ r)
    (by
      intro b hbm
      rcases List.mem_cons.mp hbm with rfl | hbm
      · rw [hvid]; decide
      · obtain ⟨hlt, m, hm, _⟩ := hrest b hbm
        exact ⟨hlt, rdMin_known hm⟩) hd2 (by simp)
  have hple : pl.length ≤ ((vr :: rest).flatMap Spec.RdBlk.bytes).length := by
    obtain ⟨b, hbm, rfl⟩ := List.mem_map.mp hpl
    have : b.bytes.length ≤ ((vr :: rest).flatMap Spec.RdBlk.bytes).length :=
      length_le_flatMap hbm
    rw [RdBlk_len] at this
    omega
  have hbl : e.body.length = fx.bytes.length + ((vr :: rest).flatMap Spec.RdBlk.bytes).length + 4 := by
    rw [hbody, List.flatMap_cons, List.length_append, List.length_append, he.tail]
  refine ⟨nb1, ids, pl ++ e.tail, ?_, ?_, ?_, ?_, ?_⟩
  · intro x hx
    rw [hbody]
    rcases List.mem_append.mp hx with hx | hx
    · obtain ⟨b, hbm, rfl⟩ := List.mem_map.mp hpl
      refine List.mem_append.mpr (Or.inl (List.mem_flatMap.mpr ⟨b, List.mem_cons_of_mem _ hbm, ?_⟩))
      rw [Spec.RdBlk.bytes]
      exact List.mem_append.mpr (Or.inr hx)
    · exact List.mem_append.mpr (Or.inr hx)
  · rw [List.length_append, he.tail]; omega
  · rw [hb]
    simp only [Spec.rdOffsets, List.map_cons]
    rw [rdDoubleLoop, if_neg (by omega), hn]
    simp only
    rw [leNat_le16, hid, if_neg (by decide), if_pos rfl]
    have hbl0 : rdBlank.idPos = [] := rfl
    rw [hbl0, h1]
    simp only [Spec.rdOffsets, List.map_cons] at h2
    simp only
    rw [h2]
    congr 3
    rw [List.length_append, he.tail, hbl]
    congr 1
    omega
  · rw [List.length_append, he.tail, hbl, List.append_assoc, ← hdl]
    congr 1
    omega
  · rw [List.length_append, he.tail, hbl]
    omega

/-! ### The default number of ensembles -/

theorem rdFile_length {L : ℕ} : ∀ (es : List Spec.RdEns), (∀ e ∈ es, e.bytes.length = L) →
    (Spec.rdFile es).length = es.length * L
  | [], _ => by simp [Spec.rdFile]
  | e :: es, h => by
    have ih := rdFile_length es (fun x hx => h x (by simp [hx]))
    rw [show Spec.rdFile (e :: es) = e.bytes ++ Spec.rdFile es by simp [Spec.rdFile], List.length_append,
      h e (by simp), ih, List.length_cons]
    ring

/-- What `read_rdi` reads by default from a regular file of at least 52 ensembles of `L` bytes: the estimate
`file size / (0.995 L + 2)`, or all but the last ensemble if that is less. -/
theorem rdi_default_count {env : RdEnv} {f : RdFixed} (hf : 0 < f.nCells) {es : List Spec.RdEns} {L fuel : ℕ}
    (hn : 52 ≤ es.length) (hok : ∀ e ∈ es, e.Ok f) (hq : ∀ e ∈ es, e.Quiet) (hL : ∀ e ∈ es, e.bytes.length = L)
    (hfu : (Spec.rdFile es).length + 3 ≤ fuel) :
    rdReadAll env (Spec.rdFile es) fuel = some (.ok
      (min (⌊((es.length * L : ℕ) : ℚ) / (L * (995 / 1000) + 2)⌋).toNat (es.length - 1))) := by
  obtain ⟨e, e', rest, rfl⟩ : ∃ e e' rest, es = e :: e' :: rest := by
    match es, hn with
    | e :: e' :: rest, _ => exact ⟨e, e', rest, rfl⟩
  set bs := Spec.rdFile (e :: e' :: rest) with hbs
  have he := hok e (by simp)
  obtain ⟨r, hr⟩ := rdFile_cons2 e e' rest
  obtain ⟨h, hb, hl⟩ := RdEns_split e
  have hfirst := rdReadHdr_first (hp := 0) he (bs := bs) hr (by omega : 1 ≤ fuel)
  have hcount : 2 ≤ e.blks.length := by
    obtain ⟨fx, vr, rest, hb, _⟩ := he.shape
    rw [hb]; simp
  have hd : bs.drop (6 + 2 * e.blks.length) = e.body ++ Spec.rdFile (e' :: rest) := by
    rw [hbs, show Spec.rdFile (e :: e' :: rest) = e.bytes ++ Spec.rdFile (e' :: rest) by simp [Spec.rdFile], hb,
      ← hl, List.append_assoc, List.drop_left' rfl]
  obtain ⟨nb, ids, m, hm, hm4, hdl, hdm, hmle⟩ := rdDoubleLoop_ens he hd
  have hsp := rdSpacingLoop_ok hfu 50 0 _ m (e' :: rest) 0 (by simp at hn ⊢; omega)
    (fun x hx => hok x (by simp at hx ⊢; tauto)) (fun x hx => hq x (by simp at hx ⊢; tauto)) (by omega)
    (fun x hx => hq e (by simp) x (hm x hx)) hdm
  have hbl : e.bytes.length = 6 + 2 * e.blks.length + e.body.length := by rw [hb, List.length_append, hl]
  have htake : (Spec.rdFile ((e' :: rest).take 49)).length = 49 * L := by
    rw [rdFile_length _ (fun x hx => hL x (List.mem_cons_of_mem _ (List.mem_of_mem_take hx))), List.length_take]
    simp at hn
    congr 1
    simp
    omega
  have hend : 6 + 2 * e.blks.length + e.body.length - m.length + m.length + (Spec.rdFile ((e' :: rest).take 49)).length
      = 50 * L := by
    rw [htake, ← hL e (by simp), hbl]
    omega
  simp only [Nat.add_sub_cancel, zero_add, Nat.reduceSub, Nat.reduceAdd] at hsp
  rw [if_neg (by decide), hend] at hsp
  have hlen : bs.length = (e :: e' :: rest).length * L := rdFile_length _ hL
  have hoff : (((Spec.rdOffsets (6 + 2 * e.blks.length) e.blks).map (fun x : ℕ => (x : ℤ))).headD 0 : ℤ)
      = ((6 + 2 * e.blks.length : ℕ) : ℤ) ∧
      ¬ (Spec.rdOffsets (6 + 2 * e.blks.length) e.blks).map (fun x : ℕ => (x : ℤ)) = [] := by
    obtain ⟨fx, vr, rest, hb, _⟩ := he.shape
    generalize 6 + 2 * e.blks.length = o
    rw [hb]
    exact ⟨rfl, by simp [Spec.rdOffsets]⟩
  have hinit : rdInit bs fuel = some (.ok ({ rdBlank with
      pos := 0, idPos := ids, cfg := some f, nbyte := nb, ens := some (f.nCells, -1) },
      ⌊(((e :: e' :: rest).length * L : ℕ) : ℚ) / (L * (995 / 1000) + 2)⌋)) := by
    unfold rdInit
    rw [hfirst]
    simp only
    rw [if_neg (by rintro (x | x); · omega
                   · exact hoff.2 x), hoff.1, sub_self, hdl]
    simp only
    rw [hsp]
    simp only [rdMake, Bool.false_eq_true, if_false]
    unfold rdNpings rdSize
    rw [hlen]
    have e1 : (((50 * L : ℕ) : ℤ) : ℚ) / ((49 : ℕ) + 1) * (995 / 1000) + 2 = L * (995 / 1000) + 2 := by
      push_cast; ring
    rw [e1]
  unfold rdReadAll
  rw [hinit]
  simp only
  obtain ⟨t, ht⟩ := rdi_reads_all_but_last (env := env) (bs := bs) hf (by omega : 2 ≤ fuel)
    (⌊(((e :: e' :: rest).length * L : ℕ) : ℚ) / (L * (995 / 1000) + 2)⌋).toNat (e :: e' :: rest) 0
    { rdBlank with pos := 0, idPos := ids, cfg := some f, nbyte := nb, ens := some (f.nCells, -1) }
    hok rfl rfl ⟨rfl, le_refl _, rfl, by simp [rdBlank], rfl, rfl, rfl⟩
  rw [ht]

/-- C90 (partial: ensembles of at least 400 bytes): the default estimate does not lose ensembles. -/
theorem rdi_default_partial {env : RdEnv} {f : RdFixed} (hf : 0 < f.nCells) {es : List Spec.RdEns} {L fuel : ℕ}
    (hn : 52 ≤ es.length) (hok : ∀ e ∈ es, e.Ok f) (hq : ∀ e ∈ es, e.Quiet) (hL : ∀ e ∈ es, e.bytes.length = L)
    (hfu : (Spec.rdFile es).length + 3 ≤ fuel) (h400 : 400 ≤ L) :
    rdReadAll env (Spec.rdFile es) fuel = some (.ok (es.length - 1)) := by
  rw [rdi_default_count hf hn hok hq hL hfu]
  have hL' : (400 : ℚ) ≤ L := by exact_mod_cast h400
  have hge : (es.length : ℤ) ≤ ⌊((es.length * L : ℕ) : ℚ) / (L * (995 / 1000) + 2)⌋ := by
    rw [Int.le_floor, le_div_iff₀ (by positivity)]
    push_cast
    have : (0 : ℚ) ≤ es.length := by positivity
    nlinarith
  congr 2
  omega

/-- C90 is false for ensembles of less than 400 bytes: as soon as the file is long enough, reading it with
the default settings silently loses ensembles that are there to be read. -/
theorem rdi_default_false {env : RdEnv} {f : RdFixed} (hf : 0 < f.nCells) {es : List Spec.RdEns} {L fuel : ℕ}
    (hn : 52 ≤ es.length) (hok : ∀ e ∈ es, e.Ok f) (hq : ∀ e ∈ es, e.Quiet) (hL : ∀ e ∈ es, e.bytes.length = L)
    (hfu : (Spec.rdFile es).length + 3 ≤ fuel) (hlong : 995 * L + 2000 < es.length * (2000 - 5 * L)) :
    ∃ m, rdReadAll env (Spec.rdFile es) fuel = some (.ok m) ∧ m < es.length - 1 := by
  refine ⟨_, rdi_default_count hf hn hok hq hL hfu, ?_⟩
  have hlt : ⌊((es.length * L : ℕ) : ℚ) / (L * (995 / 1000) + 2)⌋ < (es.length : ℤ) - 1 := by
    rw [Int.floor_lt, div_lt_iff₀ (by positivity)]
    push_cast
    have h5 : 5 * L ≤ 2000 := by
      by_contra hc
      rw [Nat.sub_eq_zero_of_le (by omega)] at hlong
      omega
    have : (995 * L + 2000 : ℚ) < es.length * (2000 - 5 * L) := by
      have := (Nat.cast_lt (α := ℚ)).mpr hlong
      push_cast [Nat.cast_sub h5] at this
      exact this
    nlinarith
  omega

/-- The loss grows with the file: at least the share `(2000 - 5 L) / (995 L + 2000)` of the ensembles. -/
theorem rdi_default_loss {env : RdEnv} {f : RdFixed} (hf : 0 < f.nCells) {es : List Spec.RdEns} {L fuel : ℕ}
    (hn : 52 ≤ es.length) (hok : ∀ e ∈ es, e.Ok f) (hq : ∀ e ∈ es, e.Quiet) (hL : ∀ e ∈ es, e.bytes.length = L)
    (hfu : (Spec.rdFile es).length + 3 ≤ fuel) {m : ℕ} (h : rdReadAll env (Spec.rdFile es) fuel = some (.ok m)) :
    (m : ℚ) * (995 * L + 2000) ≤ es.length * (1000 * L) := by
  rw [rdi_default_count hf hn hok hq hL hfu] at h
  have hm := Except.ok.inj (Option.some.inj h)
  have h0 : (0 : ℤ) ≤ ⌊((es.length * L : ℕ) : ℚ) / (L * (995 / 1000) + 2)⌋ := Int.floor_nonneg.mpr (by positivity)
  have h1 : (m : ℤ) ≤ ⌊((es.length * L : ℕ) : ℚ) / (L * (995 / 1000) + 2)⌋ := by omega
  rw [Int.le_floor, le_div_iff₀ (by positivity)] at h1
  push_cast at h1
  linarith

theorem rdExampleEns_quiet : rdExampleEns.Quiet := by
  unfold Spec.RdEns.Quiet; decide +kernel

theorem rdExampleEns_len : rdExampleEns.bytes.length = 160 := by decide +kernel

/-- 200 ensembles of 160 bytes: 198 of them are read by default, 199 could be. -/
example : rdReadAll rdYes (Spec.rdFile (List.replicate 200 rdExampleEns)) 40000 = some (.ok 198) := by
  rw [rdi_default_count (f := ⟨16, 1628, 1⟩) (L := 160) (by decide) (by rw [List.length_replicate]; decide)
    (by intro e he; rw [List.eq_of_mem_replicate he]; exact rdExampleEns_ok)
    (by intro e he; rw [List.eq_of_mem_replicate he]; exact rdExampleEns_quiet)
    (by intro e he; rw [List.eq_of_mem_replicate he]; exact rdExampleEns_len)
    (by
      rw [rdFile_length (L := 160) _
        (by intro e he; rw [List.eq_of_mem_replicate he]; exact rdExampleEns_len), List.length_replicate]; decide)]
  simp only [List.length_replicate]
  rw [show ⌊((200 * 160 : ℕ) : ℚ) / (((160 : ℕ) : ℚ) * (995 / 1000) + 2)⌋ = 198 by
    rw [Int.floor_eq_iff]; norm_num]
  rfl

end Dolfyn
