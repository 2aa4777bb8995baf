import Verif.Model.AdAlt
import Verif.Props.Ad2cp
import Verif.Props.Ad2cpBits

/-!
C174: raw altimeter records of AD2CP files.
-/

namespace Dolfyn

theorem adBurstNames_eq (config : ℕ) : adBurstNames config = (adBurstDefs config).map AdDef.name := by
  unfold adBurstNames adBurstDefs
  simp only [List.map_append, apply_ite (List.map AdDef.name)]
  rfl

/-! ### Native alignment -/

/-- Every field starts at a multiple of its size without padding. -/
def adAligned (off : ℕ) : List AdField → Prop
  | [] => True
  | fd :: fs => fd.fmt.size ∣ off ∧ adAligned (off + fd.bytes) fs

theorem adNatSizeFrom_ge (off : ℕ) (fs : List AdField) : off + adNbyte fs ≤ adNatSizeFrom off fs := by
  induction fs generalizing off with
  | nil => simp [adNatSizeFrom, adNbyte]
  | cons fd fs ih =>
    rw [adNatSizeFrom]
    have h := ih ((off + fd.fmt.size - 1) / fd.fmt.size * fd.fmt.size + fd.bytes)
    have hs := AdFmt.size_pos fd.fmt
    have : off ≤ (off + fd.fmt.size - 1) / fd.fmt.size * fd.fmt.size := by
      cases fd.fmt <;> simp only [AdFmt.size] <;> omega
    simp only [adNbyte, List.map_cons, List.sum_cons] at h ⊢
    omega

theorem adNatSizeFrom_eq_iff (off : ℕ) (fs : List AdField) : adNatSizeFrom off fs = off + adNbyte fs ↔ adAligned off fs := by
  induction fs generalizing off with
  | nil => simp [adNatSizeFrom, adNbyte, adAligned]
  | cons fd fs ih =>
    rw [adNatSizeFrom, adAligned]
    by_cases hd : fd.fmt.size ∣ off
    · have e : (off + fd.fmt.size - 1) / fd.fmt.size * fd.fmt.size = off := by
        revert hd
        cases fd.fmt <;> simp only [AdFmt.size] <;> intro hd <;> omega
      have := ih (off + fd.bytes)
      rw [e]
      simp only [adNbyte, List.map_cons, List.sum_cons, hd, true_and] at this ⊢
      rw [← this, add_assoc]
    · have e : off < (off + fd.fmt.size - 1) / fd.fmt.size * fd.fmt.size := by
        revert hd
        cases fd.fmt <;> simp only [AdFmt.size] <;> intro hd <;> omega
      have h := adNatSizeFrom_ge ((off + fd.fmt.size - 1) / fd.fmt.size * fd.fmt.size + fd.bytes) fs
      simp only [hd, false_and, iff_false]
      simp only [adNbyte, List.map_cons, List.sum_cons] at h ⊢
      omega

theorem adAligned_append (off : ℕ) (a b : List AdField) :
    adAligned off (a ++ b) ↔ adAligned off a ∧ adAligned (off + adNbyte a) b := by
  induction a generalizing off with
  | nil => simp [adAligned, adNbyte]
  | cons fd a ih =>
    rw [List.cons_append, adAligned, adAligned, ih, and_assoc]
    simp only [adNbyte, List.map_cons, List.sum_cons, add_assoc]

theorem adAligned_ite (off : ℕ) (c : Prop) [Decidable c] (l : List AdField) :
    adAligned off (if c then l else []) ↔ (c → adAligned off l) := by
  split <;> simp [adAligned, *]

theorem adNbyte_ite (c : Prop) [Decidable c] (l : List AdField) :
    adNbyte (if c then l else []) = if c then adNbyte l else 0 := by
  split <;> simp [adNbyte]

theorem adNbyte_app (a b : List AdField) : adNbyte (a ++ b) = adNbyte a + adNbyte b := by
  simp [adNbyte]

/-! ### The fields -/

/-- The fields in front of the number of raw altimeter samples. -/
def Spec.altPre (config nb nc : ℕ) : List AdField :=
  adBurstHdr
    ++ (if config.testBit 5 then [⟨.h, 0, nb * nc⟩] else [])
    ++ (if config.testBit 6 then [⟨.B, 0, nb * nc⟩] else [])
    ++ (if config.testBit 7 then [⟨.B, 0, nb * nc⟩] else [])
    ++ (if config.testBit 8 then [⟨.f, 0, 1⟩, ⟨.H, 0, 1⟩, ⟨.H, 0, 1⟩] else [])
    ++ (if config.testBit 10 then [⟨.f, 0, 1⟩, ⟨.H, 0, 1⟩, ⟨.h, 0, 1⟩, ⟨.f, 0, 1⟩, ⟨.B, 7, 1⟩] else [])

/-- The fields behind the samples: orientation, percent good, standard deviations. -/
def Spec.altPost (config nc : ℕ) : List AdField :=
  (if config.testBit 12 then [⟨.f, 0, 9⟩, ⟨.f, 0, 4⟩, ⟨.f, 0, 3⟩] else [])
    ++ (if config.testBit 13 then [⟨.B, 0, nc⟩] else [])
    ++ (if config.testBit 14 then [⟨.h, 0, 1⟩, ⟨.h, 0, 1⟩, ⟨.h, 0, 1⟩, ⟨.h, 0, 1⟩, ⟨.H, 22, 1⟩] else [])

/-- The fields of a raw altimeter record with `sz` samples: number of samples, distance, samples. -/
def Spec.altFields (config nb nc sz : ℕ) : List AdField :=
  Spec.altPre config nb nc ++ (⟨.I, 0, 1⟩ :: ⟨.H, 0, 1⟩ :: ⟨.h, 0, sz⟩ :: Spec.altPost config nc)

theorem altFields_struct (config nb nc : ℕ) (h9 : config.testBit 9 = true) (h11 : config.testBit 11 = false) :
    adBurstStruct config nb nc = .ok (Spec.altFields config nb nc 1) := by
  unfold adBurstStruct Spec.altFields Spec.altPre Spec.altPost adAhrs
  simp only [getbit_eq_testBit, h9, h11, Bool.false_eq_true, if_false, if_true]
  simp only [List.append_assoc, List.cons_append, List.nil_append]

theorem altNames_idx (config nb nc : ℕ) (h9 : config.testBit 9 = true) :
    (adBurstNames config).idxOf? .nsampAlt = some (Spec.altPre config nb nc).length := by
  unfold adBurstNames Spec.altPre
  simp only [getbit_eq_testBit, h9, if_true]
  cases config.testBit 5 <;> cases config.testBit 6 <;> cases config.testBit 7 <;> cases config.testBit 8 <;>
    cases config.testBit 10 <;> rfl

/-- The bytes of velocity, amplitude and correlation. -/
def Spec.cellBytes (config nb nc : ℕ) : ℕ :=
  nb * nc * ((if config.testBit 5 then 2 else 0) + (if config.testBit 6 then 1 else 0) + if config.testBit 7 then 1 else 0)

/-- The records that need no padding: the profiles take a multiple of four bytes; the number of samples is odd if
orientation data follow; the number of cells is even if percent good and standard deviations follow. -/
def Spec.altFits (config nb nc sz : ℕ) : Prop :=
  4 ∣ Spec.cellBytes config nb nc ∧ (config.testBit 12 = true → sz % 2 = 1) ∧
    (config.testBit 13 = true → config.testBit 14 = true → nc % 2 = 0)

set_option linter.unusedSimpArgs false in
theorem altPre_aligned (config nb nc : ℕ) (h : 1 ≤ nb * nc) :
    (adAligned 0 (Spec.altPre config nb nc) ↔
      ((config.testBit 8 = true ∨ config.testBit 10 = true) → 4 ∣ Spec.cellBytes config nb nc)) ∧
    ∃ k, adNbyte (Spec.altPre config nb nc) = Spec.cellBytes config nb nc + 4 * k := by
  have hcnt : ∀ n, 1 ≤ n → (if 1 < n then n else 1) = n := by intro n hn; split <;> omega
  have h0 : adAligned 0 adBurstHdr := by
    simp [adAligned, adBurstHdr, AdFmt.size, AdField.bytes, AdField.count]
  have h1 : (List.map AdField.bytes adBurstHdr).sum = 76 := by decide
  unfold Spec.altPre Spec.cellBytes
  generalize nb * nc = n at *
  have hb : (if 1 < n then n else 1) = n := hcnt n h
  constructor
  · simp only [adAligned_append, adAligned_ite, adNbyte_app, adNbyte_ite, h0, true_and, adAligned, adNbyte, List.map_cons,
      List.map_nil, List.sum_cons, List.sum_nil, AdField.bytes, AdField.count, hb, h1, AdFmt.size]
    cases config.testBit 5 <;> cases config.testBit 6 <;> cases config.testBit 7 <;> cases config.testBit 8 <;>
      cases config.testBit 10 <;> simp [adNbyte, AdField.bytes, AdField.count, AdFmt.size, hb, h1] <;> omega
  · simp only [adNbyte_app, adNbyte_ite, adNbyte, List.map_cons, List.map_nil, List.sum_cons, List.sum_nil, AdField.bytes, AdField.count, hb, h1, AdFmt.size]
    cases config.testBit 5 <;> cases config.testBit 6 <;> cases config.testBit 7 <;> cases config.testBit 8 <;>
      cases config.testBit 10 <;> simp [adNbyte, AdField.bytes, AdField.count, AdFmt.size, hb, h1] <;>
      first
        | exact ⟨19, by omega⟩
        | exact ⟨21, by omega⟩
        | exact ⟨24, by omega⟩
        | exact ⟨26, by omega⟩

set_option linter.unusedSimpArgs false in
theorem altFields_aligned (config nb nc sz : ℕ) (h : 1 ≤ nb * nc) (hc : 1 ≤ nc) (hs : 1 ≤ sz) :
    adAligned 0 (Spec.altFields config nb nc sz) ↔ Spec.altFits config nb nc sz := by
  obtain ⟨hp, k, hk⟩ := altPre_aligned config nb nc h
  have hcnt : ∀ n, 1 ≤ n → (if 1 < n then n else 1) = n := by intro n hn; split <;> omega
  unfold Spec.altFields Spec.altFits
  rw [adAligned_append, hp, hk]
  simp only [adAligned, Spec.altPost, adAligned_append, adAligned_ite, adNbyte_app, adNbyte_ite, adNbyte, List.map_cons,
      List.map_nil, List.sum_cons, List.sum_nil, AdFmt.size, AdField.bytes, AdField.count, hcnt sz hs, hcnt nc hc]
  generalize Spec.cellBytes config nb nc = P
  cases config.testBit 8 <;> cases config.testBit 10 <;> cases config.testBit 12 <;> cases config.testBit 13 <;>
    cases config.testBit 14 <;>
    simp [adNbyte, AdField.bytes, AdField.count, AdFmt.size, hcnt sz hs, hcnt nc hc] <;> omega

/-- A format without a count reads one number, so zero samples take the room of one. -/
theorem altFields_zero (config nb nc : ℕ) :
    (adAligned 0 (Spec.altFields config nb nc 0) ↔ adAligned 0 (Spec.altFields config nb nc 1)) := by
  unfold Spec.altFields
  rw [adAligned_append, adAligned_append]
  simp [adAligned, AdField.bytes, AdField.count, AdFmt.size]

/-! ### Reading -/

theorem encodes_split : ∀ {a b : List AdField} {vss : List (List ℤ)} {bs : List ℕ}, Spec.Encodes (a ++ b) vss bs →
    ∃ v1 v2 b1 b2, vss = v1 ++ v2 ∧ bs = b1 ++ b2 ∧ Spec.Encodes a v1 b1 ∧ Spec.Encodes b v2 b2 ∧ v1.length = a.length
  | [], _, vss, bs, h => ⟨[], vss, [], bs, rfl, rfl, .nil, h, rfl⟩
  | fd :: a, b, _, _, h => by
    cases h with
    | @cons _ _ vs vss pad r hn h1 hr hp h =>
      obtain ⟨v1, v2, b1, b2, e1, e2, e3, e4, e5⟩ := encodes_split h
      exact ⟨vs :: v1, v2, vs.flatMap (Spec.encVal fd.fmt) ++ pad ++ b1, b2, by rw [e1]; rfl, by rw [e2]; simp, .cons hn h1 hr hp e3, e4, by simp [e5]⟩

/-- The number of samples stands behind the fields in front of it. -/
theorem alt_count {config nb nc sz : ℕ} {vss : List (List ℤ)} {bs : List ℕ}
    (h : Spec.Encodes (Spec.altFields config nb nc sz) vss bs) (rest : List ℕ)
    (hv : vss.getD (Spec.altPre config nb nc).length [] = [(sz : ℤ)]) :
    (((bs ++ rest).drop (adNbyte (Spec.altPre config nb nc))).take 4).length = 4 ∧
      leNat (((bs ++ rest).drop (adNbyte (Spec.altPre config nb nc))).take 4) = sz := by
  obtain ⟨v1, v2, b1, b2, rfl, rfl, h1, h2, hl⟩ := encodes_split h
  cases h2 with
  | @cons _ _ vs vss pad r hn h1' hr hp h3 =>
    rw [← hl, List.getD_append_right _ _ _ _ le_rfl, Nat.sub_self, List.getD_cons_zero] at hv
    subst hv
    have hpad : pad = [] := List.length_eq_zero_iff.mp hp
    subst hpad
    have h4 : (Spec.encVal .I (sz : ℤ)).length = 4 := encVal_length _ _
    have e : (b1 ++ ([(sz : ℤ)].flatMap (Spec.encVal .I) ++ [] ++ r) ++ rest).drop (adNbyte (Spec.altPre config nb nc))
        = Spec.encVal .I (sz : ℤ) ++ (r ++ rest) := by
      rw [List.append_assoc, List.drop_left' (encodes_length h1)]
      simp
    rw [e, List.take_left' h4]
    refine ⟨h4, ?_⟩
    have hr' : Spec.inRange .I (sz : ℤ) := hr _ (by simp)
    simp only [Spec.inRange, AdFmt.signed, AdFmt.size, Bool.false_eq_true, if_false] at hr'
    unfold Spec.encVal
    rw [leNat_encNat] <;> simp only [AdFmt.size] <;> omega

theorem altFields_set (config nb nc a b : ℕ) :
    (Spec.altFields config nb nc a).set ((Spec.altPre config nb nc).length + 2)
      { (Spec.altFields config nb nc a).getD ((Spec.altPre config nb nc).length + 2) ⟨.h, 0, 1⟩ with n := b } =
      Spec.altFields config nb nc b := by
  unfold Spec.altFields
  rw [List.getD_append_right _ _ _ _ (by omega), List.set_append_right _ _ (by omega), Nat.add_sub_cancel_left]
  rfl

theorem altFields_getD (config nb nc a : ℕ) :
    ((Spec.altFields config nb nc a).getD ((Spec.altPre config nb nc).length + 2) ⟨.h, 0, 1⟩).n = a := by
  unfold Spec.altFields
  rw [List.getD_append_right _ _ _ _ (by omega), Nat.add_sub_cancel_left]
  rfl

theorem altFields_take (config nb nc a : ℕ) :
    (Spec.altFields config nb nc a).take (Spec.altPre config nb nc).length = Spec.altPre config nb nc := by
  unfold Spec.altFields
  rw [List.take_left]

theorem adReadN_encodes {fs : List AdField} {vss : List (List ℤ)} {bs : List ℕ} (h : Spec.Encodes fs vss bs)
    (rest : List ℕ) : adReadN fs (adNbyte fs) (bs ++ rest) = .ok (vss.map Spec.item, rest) := by
  have hl := encodes_length h
  unfold adReadN
  simp only [List.take_left' hl, List.drop_left' hl]
  rw [if_neg (by simpa using hl), if_neg (by simp), adUnpack_encodes h]
  simp [adGroup_encodes h, bind, Except.bind, pure, Except.pure]

theorem adReadN_ne {fs : List AdField} {n : ℕ} (h : n ≠ adNbyte fs) (rest : List ℕ) :
    adReadN fs n rest = .error .ioError ∨ adReadN fs n rest = .error .structError := by
  unfold adReadN
  simp only
  split
  · exact .inl rfl
  · exact .inr rfl

/-- The fields in front of the number of samples take no padding in a record that takes none. -/
theorem altPre_of_fits {config nb nc sz : ℕ} (h : 1 ≤ nb * nc) (hf : Spec.altFits config nb nc sz) :
    adNatSize (Spec.altPre config nb nc) = adNbyte (Spec.altPre config nb nc) := by
  have := (adNatSizeFrom_eq_iff 0 _).mpr ((altPre_aligned config nb nc h).1.mpr fun _ => hf.1)
  rwa [zero_add] at this

/-- The reader of raw altimeter records with `sz` samples. -/
def Spec.altRdr (config nb nc sz : ℕ) : AdAltRdr :=
  ⟨Spec.altFields config nb nc sz, adNbyte (Spec.altFields config nb nc sz), true⟩

theorem alt_first {config nb nc sz : ℕ} (h9 : config.testBit 9 = true) (hn : 1 ≤ nb * nc) (hc : 1 ≤ nc)
    (hf : Spec.altFits config nb nc sz) {vss : List (List ℤ)} {bs : List ℕ} (hs : 1 ≤ sz)
    (h : Spec.Encodes (Spec.altFields config nb nc sz) vss bs)
    (hv : vss.getD (Spec.altPre config nb nc).length [] = [(sz : ℤ)]) (rest : List ℕ) :
    adAltRead (adBurstNames config) (adAltInit (Spec.altFields config nb nc 1)) (bs ++ rest) =
      .ok (vss.map Spec.item, Spec.altRdr config nb nc sz, rest) := by
  obtain ⟨k1, k2⟩ := alt_count h rest hv
  have e := (adNatSizeFrom_eq_iff 0 _).mpr ((altFields_aligned config nb nc sz hn hc hs).mpr hf)
  rw [zero_add] at e
  unfold adAltRead adAltInit
  rw [altNames_idx config nb nc h9]
  simp only [altFields_take, altPre_of_fits hn hf, k1, k2, ne_eq, not_true, if_false, Bool.false_eq_true, altFields_set]
  unfold adNatSize
  rw [e, adReadN_encodes h]
  rfl

theorem alt_next {config nb nc sz : ℕ} (h9 : config.testBit 9 = true) (hn : 1 ≤ nb * nc)
    (hf : Spec.altFits config nb nc sz) {vss : List (List ℤ)} {bs : List ℕ}
    (h : Spec.Encodes (Spec.altFields config nb nc sz) vss bs)
    (hv : vss.getD (Spec.altPre config nb nc).length [] = [(sz : ℤ)]) (rest : List ℕ) :
    adAltRead (adBurstNames config) (Spec.altRdr config nb nc sz) (bs ++ rest) =
      .ok (vss.map Spec.item, Spec.altRdr config nb nc sz, rest) := by
  obtain ⟨k1, k2⟩ := alt_count h rest hv
  unfold adAltRead Spec.altRdr
  rw [altNames_idx config nb nc h9]
  simp only [altFields_take, altPre_of_fits hn hf, k1, k2, ne_eq, not_true, if_false, if_true, altFields_getD]
  rw [adReadN_encodes h]
  rfl

theorem alt_rest {config nb nc sz : ℕ} (h9 : config.testBit 9 = true) (hn : 1 ≤ nb * nc)
    (hf : Spec.altFits config nb nc sz) :
    ∀ (recs : List (List (List ℤ) × List ℕ × List ℕ)),
      (∀ p ∈ recs, Spec.Encodes (Spec.altFields config nb nc sz) p.1 p.2.1 ∧
        p.1.getD (Spec.altPre config nb nc).length [] = [(sz : ℤ)]) →
      adAltSeq (adBurstNames config) (Spec.altRdr config nb nc sz) (recs.map fun p => p.2.1 ++ p.2.2) =
        .ok (recs.map fun p => p.1.map Spec.item)
  | [], _ => rfl
  | p :: recs, hr => by
    obtain ⟨h1, h2⟩ := hr p (by simp)
    rw [List.map_cons, adAltSeq, alt_next h9 hn hf h1 h2]
    simp only [bind, Except.bind, alt_rest h9 hn hf recs fun q hq => hr q (by simp [hq])]
    rfl

/-- **C174** (partial): the raw altimeter records of a file, all with `sz` samples, are read with the values that were
encoded, provided that the record needs no padding (`Spec.altFits`). Each record is given with its values, its bytes and the
bytes of the file behind it. -/
theorem altraw_read_partial {config nb nc sz : ℕ} (h9 : config.testBit 9 = true) (h11 : config.testBit 11 = false)
    (hn : 1 ≤ nb * nc) (hc : 1 ≤ nc) (hs : 1 ≤ sz) (hf : Spec.altFits config nb nc sz)
    (recs : List (List (List ℤ) × List ℕ × List ℕ))
    (hr : ∀ p ∈ recs, Spec.Encodes (Spec.altFields config nb nc sz) p.1 p.2.1 ∧
      p.1.getD (Spec.altPre config nb nc).length [] = [(sz : ℤ)]) :
    ∃ fs, adBurstStruct config nb nc = .ok fs ∧
      adAltSeq (adBurstNames config) (adAltInit fs) (recs.map fun p => p.2.1 ++ p.2.2) =
        .ok (recs.map fun p => p.1.map Spec.item) := by
  refine ⟨_, altFields_struct config nb nc h9 h11, ?_⟩
  cases recs with
  | nil => rfl
  | cons p recs =>
    obtain ⟨h1, h2⟩ := hr p (by simp)
    rw [List.map_cons, adAltSeq, alt_first h9 hn hc hf hs h1 h2]
    simp only [bind, Except.bind, alt_rest h9 hn hf recs fun q hq => hr q (by simp [hq])]
    rfl

/-- **C174**: a record with another number of samples than the first one ends the reading. -/
theorem altraw_other_size {config nb nc sz sz' : ℕ} (h9 : config.testBit 9 = true) (hn : 1 ≤ nb * nc)
    (hf : Spec.altFits config nb nc sz) (hne : sz' ≠ sz) {vss : List (List ℤ)} {bs : List ℕ}
    (h : Spec.Encodes (Spec.altFields config nb nc sz') vss bs)
    (hv : vss.getD (Spec.altPre config nb nc).length [] = [(sz' : ℤ)]) (rest : List ℕ) :
    adAltRead (adBurstNames config) (Spec.altRdr config nb nc sz) (bs ++ rest) = .error .exception := by
  obtain ⟨k1, k2⟩ := alt_count h rest hv
  unfold adAltRead Spec.altRdr
  rw [altNames_idx config nb nc h9]
  simp only [altFields_take, altPre_of_fits hn hf, k1, k2, ne_eq, not_true, if_false, if_true, altFields_getD, hne,
    not_false_eq_true]

/-- **C174 is false of the code** for every record that would need padding: the first one ends the reading of the file. The
size of the record is computed with the padding of C structures, its contents are unpacked without. -/
theorem altraw_unreadable_false {config nb nc sz : ℕ} (h9 : config.testBit 9 = true) (h11 : config.testBit 11 = false)
    (hn : 1 ≤ nb * nc) (hc : 1 ≤ nc) (hs : 1 ≤ sz) (hf : ¬ Spec.altFits config nb nc sz) {vss : List (List ℤ)} {bs : List ℕ}
    (h : Spec.Encodes (Spec.altFields config nb nc sz) vss bs)
    (hv : vss.getD (Spec.altPre config nb nc).length [] = [(sz : ℤ)]) (rest : List ℕ) :
    ∃ fs, adBurstStruct config nb nc = .ok fs ∧
      (adAltRead (adBurstNames config) (adAltInit fs) (bs ++ rest) = .error .ioError ∨
        adAltRead (adBurstNames config) (adAltInit fs) (bs ++ rest) = .error .structError) := by
  refine ⟨_, altFields_struct config nb nc h9 h11, ?_⟩
  unfold adAltRead adAltInit
  rw [altNames_idx config nb nc h9]
  simp only [altFields_take, Bool.false_eq_true, if_false, altFields_set]
  split
  · exact .inr rfl
  · rename_i hb
    have key : adNatSize (Spec.altFields config nb nc
          (leNat (((bs ++ rest).drop (adNatSize (Spec.altPre config nb nc))).take 4))) ≠
        adNbyte (Spec.altFields config nb nc
          (leNat (((bs ++ rest).drop (adNatSize (Spec.altPre config nb nc))).take 4))) := by
      by_cases h4 : 4 ∣ Spec.cellBytes config nb nc
      · have e := (adNatSizeFrom_eq_iff 0 _).mpr ((altPre_aligned config nb nc hn).1.mpr fun _ => h4)
        rw [zero_add] at e
        unfold adNatSize
        rw [e, (alt_count h rest hv).2]
        have := mt (fun h => (adNatSizeFrom_eq_iff 0 _).mp h)
          (mt (altFields_aligned config nb nc sz hn hc hs).mp hf)
        rwa [zero_add] at this
      · generalize leNat (((bs ++ rest).drop (adNatSize (Spec.altPre config nb nc))).take 4) = k
        have hk : ¬ adAligned 0 (Spec.altFields config nb nc k) := by
          rcases Nat.eq_zero_or_pos k with rfl | hk
          · rw [altFields_zero, altFields_aligned config nb nc 1 hn hc le_rfl]
            exact fun hh => h4 hh.1
          · rw [altFields_aligned config nb nc k hn hc hk]
            exact fun hh => h4 hh.1
        have := mt (fun h => (adNatSizeFrom_eq_iff 0 _).mp h) hk
        rwa [zero_add] at this
    rcases adReadN_ne key (bs ++ rest) with e | e
    · left; rw [e]; rfl
    · right; rw [e]; rfl

/-- **C174 is false of the code** in particular for every file with orientation data and an even number of samples. -/
theorem altraw_orientation_false {config nb nc sz : ℕ} (h9 : config.testBit 9 = true) (h11 : config.testBit 11 = false)
    (h12 : config.testBit 12 = true) (hn : 1 ≤ nb * nc) (hc : 1 ≤ nc) (hs : 1 ≤ sz) (he : sz % 2 = 0)
    {vss : List (List ℤ)} {bs : List ℕ} (h : Spec.Encodes (Spec.altFields config nb nc sz) vss bs)
    (hv : vss.getD (Spec.altPre config nb nc).length [] = [(sz : ℤ)]) (rest : List ℕ) :
    ∃ fs, adBurstStruct config nb nc = .ok fs ∧
      (adAltRead (adBurstNames config) (adAltInit fs) (bs ++ rest) = .error .ioError ∨
        adAltRead (adBurstNames config) (adAltInit fs) (bs ++ rest) = .error .structError) :=
  altraw_unreadable_false h9 h11 hn hc hs (fun hf => by have := hf.2.1 h12; omega) h hv rest

/-- **C174**: without the flag of raw altimeter data the record is refused. -/
theorem altraw_flag {config : ℕ} (h9 : config.testBit 9 = false) (r : AdAltRdr) (rest : List ℕ) :
    adAltRead (adBurstNames config) r rest = .error .valueError := by
  have : (adBurstNames config).idxOf? .nsampAlt = none := by
    unfold adBurstNames
    simp only [getbit_eq_testBit, h9]
    cases config.testBit 5 <;> cases config.testBit 6 <;> cases config.testBit 7 <;> cases config.testBit 8 <;>
      cases config.testBit 10 <;> cases config.testBit 12 <;> cases config.testBit 13 <;> cases config.testBit 14 <;> rfl
  unfold adAltRead
  rw [this]

/-- **C174** (partial): a sample that is not negative is stored as its 256th part. -/
theorem altraw_sample_partial (v : ℤ) (h0 : 0 ≤ v) (h1 : v < 32768) : adAltSample v = (v : ℚ) / 256 := by
  unfold adAltSample
  rw [Int.emod_eq_of_lt h0 (by omega)]

/-- **C174 is false of the code** for every negative sample: the array has no sign, so the value comes out 256 too large. -/
theorem altraw_negative_false (v : ℤ) (h0 : v < 0) (h1 : -32768 ≤ v) : adAltSample v = (v : ℚ) / 256 + 256 := by
  unfold adAltSample
  have : v % 65536 = v + 65536 := by omega
  rw [this]
  push_cast
  ring

/-! ### Non-vacuity -/

/-- Record `nb = nc = 1`, no profiles; values counted from `k`. -/
def exAltVals (sz : ℕ) : List (List ℤ) :=
  (List.replicate 23 [1]) ++ [[1, -2, 3], [4, -5, 6]] ++ List.replicate 11 [2] ++
    [[(sz : ℤ)], [7], (List.range sz).map fun i : ℕ => (i : ℤ) * 100 - 50]

def exAltBytes : List AdField → List (List ℤ) → List ℕ
  | fd :: fs, vs :: vss => vs.flatMap (Spec.encVal fd.fmt) ++ List.replicate fd.pad 0 ++ exAltBytes fs vss
  | _, _ => []

/-- A decidable form of `Spec.Encodes` with zeros between the values. -/
def exAltOk : List AdField → List (List ℤ) → Bool
  | [], [] => true
  | fd :: fs, vs :: vss => decide (vs.length = fd.n) && decide (1 ≤ fd.n) &&
      (vs.all fun v => if fd.fmt.signed then decide (-(2 ^ (8 * fd.fmt.size - 1)) ≤ v ∧ v < 2 ^ (8 * fd.fmt.size - 1))
        else decide (0 ≤ v ∧ v < 2 ^ (8 * fd.fmt.size))) && exAltOk fs vss
  | _, _ => false

theorem exAlt_encodes : ∀ (fs : List AdField) (vss : List (List ℤ)), exAltOk fs vss = true →
    Spec.Encodes fs vss (exAltBytes fs vss)
  | [], [], _ => .nil
  | fd :: fs, vs :: vss, h => by
    simp only [exAltOk, Bool.and_eq_true, decide_eq_true_eq, List.all_eq_true] at h
    obtain ⟨⟨⟨h1, h2⟩, h3⟩, h4⟩ := h
    refine .cons h1 h2 ?_ (by simp) (exAlt_encodes fs vss h4)
    intro v hv
    have := h3 v hv
    unfold Spec.inRange
    split at this <;> simp_all
  | [], _ :: _, h => by simp [exAltOk] at h
  | _ :: _, [], h => by simp [exAltOk] at h

-- a file of two records with three samples each, other bytes between them
example : ∃ fs, adBurstStruct 0x200 1 1 = .ok fs ∧
    adAltSeq (adBurstNames 0x200) (adAltInit fs)
      [exAltBytes (Spec.altFields 0x200 1 1 3) (exAltVals 3) ++ [165, 10, 26],
        exAltBytes (Spec.altFields 0x200 1 1 3) (exAltVals 3)] =
      .ok [(exAltVals 3).map Spec.item, (exAltVals 3).map Spec.item] := by
  have he : Spec.Encodes (Spec.altFields 0x200 1 1 3) (exAltVals 3) (exAltBytes (Spec.altFields 0x200 1 1 3) (exAltVals 3)) :=
    exAlt_encodes _ _ (by decide)
  have := altraw_read_partial (config := 0x200) (nb := 1) (nc := 1) (sz := 3) (by decide) (by decide) (by decide) (by decide)
    (by decide) ⟨by decide, by decide, by decide⟩
    [(exAltVals 3, exAltBytes (Spec.altFields 0x200 1 1 3) (exAltVals 3), [165, 10, 26]),
      (exAltVals 3, exAltBytes (Spec.altFields 0x200 1 1 3) (exAltVals 3), [])]
    (by
      intro p hp
      simp only [List.mem_cons, List.not_mem_nil, or_false] at hp
      rcases hp with rfl | rfl <;> exact ⟨he, by decide⟩)
  simpa using this

-- two samples and orientation data: unreadable
example : ∃ e, adAltRead (adBurstNames 0x1200) (adAltInit (Spec.altFields 0x1200 1 1 1))
    (exAltBytes (Spec.altFields 0x1200 1 1 2)
      (exAltVals 2 ++ [[1, 0, 0, 0, 1, 0, 0, 0, 1], [0, 0, 0, 1], [1, 2, 3]])) = .error e := ⟨.ioError, by decide +kernel⟩

example : adAltSample (-1) = 65535 / 256 ∧ adAltSample 100 = 100 / 256 := by
  constructor <;> norm_num [adAltSample]

end Dolfyn
