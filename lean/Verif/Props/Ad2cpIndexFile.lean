import Verif.Model.Ad2cpIndexFile
import Verif.Props.Ad2cpFile

/-! C144: the index file of an AD2CP file. -/

namespace Dolfyn

/-! ### The bytes of an entry -/

/-- The numbers of an entry fit their formats. -/
structure Spec.EntryFits (e : AdEntry) : Prop where
  ens : e.ens < 2 ^ 64
  hw : e.hwEns < 2 ^ 32
  pos : e.pos < 2 ^ 64
  id : e.id < 2 ^ 16
  config : e.config < 2 ^ 16
  beams : e.beamsCy < 2 ^ 16
  date : ∃ a b c d x y u, e.date = [a, b, c, d, x, y, u] ∧ a < 256 ∧ b < 256 ∧ c < 256 ∧ d < 256 ∧ x < 256 ∧ y < 256 ∧
    u < 2 ^ 16
  ver : e.dVer < 256

theorem lePack_length (k v : ℕ) : (lePack k v).length = k := by
  induction k generalizing v with
  | zero => rfl
  | succ k ih => simp [lePack, ih]

theorem leNat_lePack (k v : ℕ) (h : v < 256 ^ k) : leNat (lePack k v) = v := by
  induction k generalizing v with
  | zero => simp at h; subst h; rfl
  | succ k ih =>
    rw [lePack, leNat, ih (v / 256) (by rw [pow_succ] at h; omega)]
    omega

theorem packEntry_length (e : AdEntry) : (adPackEntry e).length = 37 := by
  simp [adPackEntry, lePack_length]

theorem leAt_append (a b c : List ℕ) (o k : ℕ) (h1 : a.length = o) (h2 : b.length = k) :
    leAt (a ++ b ++ c) o k = leNat b := by
  unfold leAt
  rw [List.append_assoc, List.drop_left' h1, List.take_left' h2]

/-- An entry is read back as it was written. -/
theorem parse_pack (e : AdEntry) (h : Spec.EntryFits e) : adParseEntry (adPackEntry e) = e := by
  obtain ⟨a, b, c, d, x, y, u, hd, ha, hb, hc, hd', hx, hy, hu⟩ := h.date
  obtain ⟨ens, hw, pos, id, config, beams, date, ver⟩ := e
  obtain ⟨h1, h2, h3, h4, h5, h6, -, h8⟩ := h
  simp only at hd h1 h2 h3 h4 h5 h6 h8
  subst hd
  simp only [adPackEntry, lePack, List.nil_append, List.cons_append, List.getD_cons_zero, List.getD_cons_succ, adParseEntry,
    leAt, List.drop_succ_cons, List.drop_zero, List.take_succ_cons, List.take_zero, leNat, AdEntry.mk.injEq, List.cons.injEq,
    and_true, true_and]
  norm_num at h1 h2 h3 h4 h5 h6 hu
  and_intros <;> omega

theorem flatMap_pack_length (es : List AdEntry) : (es.flatMap adPackEntry).length = es.length * 37 := by
  induction es with
  | nil => rfl
  | cons e es ih => rw [List.flatMap_cons, List.length_append, ih, packEntry_length, List.length_cons]; ring

theorem drop_pack (es : List AdEntry) (i : ℕ) : (es.flatMap adPackEntry).drop (i * 37) = (es.drop i).flatMap adPackEntry := by
  induction i generalizing es with
  | zero => simp
  | succ i ih =>
    rcases es with _ | ⟨e, es⟩
    · simp
    · rw [List.flatMap_cons, List.drop_succ_cons, ← ih es, show (i + 1) * 37 = 37 + i * 37 by ring, ← List.drop_drop,
        List.drop_left' (packEntry_length e)]

/-- All entries of an index file are read back. -/
theorem parse_index (es : List AdEntry) (hne : es ≠ []) (h : ∀ e ∈ es, Spec.EntryFits e) :
    adParseIndex (adIndexBytes es) = .ok es := by
  have hm : adIndexMagic.length = 10 := rfl
  have hhead : (adIndexMagic ++ lePack 2 1).length = 12 := rfl
  have h12 : (adIndexBytes es).take 12 = adIndexMagic ++ lePack 2 1 := by
    unfold adIndexBytes
    rw [List.take_left' hhead]
  have hent : adParseEntries (es.flatMap adPackEntry) = es := by
    unfold adParseEntries
    rw [flatMap_pack_length, Nat.mul_div_cancel _ (by norm_num)]
    apply List.ext_getElem
    · simp
    · intro i h1 h2
      rw [List.getElem_map, List.getElem_range, drop_pack, List.drop_eq_getElem_cons h2, List.flatMap_cons,
        List.take_left' (packEntry_length _), parse_pack _ (h _ (List.getElem_mem h2))]
  unfold adParseIndex
  rw [if_pos (by unfold adIndexBytes; rw [List.append_assoc, List.take_left' hm]), h12, if_neg (by rw [hhead]; omega),
    if_pos]
  · have hd : (adIndexBytes es).drop 12 = es.flatMap adPackEntry := by
      unfold adIndexBytes
      rw [List.drop_left' hhead]
    simp only [hd, hent, if_neg hne]
  · unfold leAt adIndexBytes
    rw [List.append_assoc, List.drop_left' hm, List.take_left' (lePack_length 2 1)]
    rfl

/-! ### The index file after `_create_index` -/

/-- The entries on the disk are those of the index, when it succeeds. -/
theorem trace_loop (file : List ℕ) (nEns fuel pos : ℕ) (st : AdIdxState) :
    adIndexLoop file nEns fuel pos st = (adIndexTrace file nEns fuel pos st).map fun x =>
      match x.2 with
      | none => .ok x.1
      | some e => .error e := by
  induction fuel generalizing pos st with
  | zero => rfl
  | succ fuel ih =>
    rw [adIndexLoop, adIndexTrace]
    by_cases h : st.N 21 < nEns
    · rw [if_pos h, if_pos h]
      rcases adIndexStep file pos st with _ | e | ⟨p, st', entry⟩
      · rfl
      · rfl
      · simp only [ih]
        rcases adIndexTrace file nEns fuel p st' with _ | ⟨es, _ | e⟩ <;> rfl
    · rw [if_neg h, if_neg h]
      rfl

theorem trace_records (rs : List Spec.AdRec) (pre rest : List ℕ) (st : AdIdxState) (nEns f : ℕ)
    (hok : ∀ r ∈ rs, r.ok) (B : ℤ) (hB : B + rs.length < 2 ^ 32) (hl : ∀ i, st.last i ≤ B)
    (hh : ∀ r ∈ rs, (r.hw : ℤ) ≤ B) (hN : st.N 21 + rs.length < nEns) :
    (runState st rs).N 21 < nEns ∧
    adIndexTrace (pre ++ rs.flatMap Spec.AdRec.bytes ++ rest) nEns (rs.length + f) pre.length st =
      (adIndexTrace (pre ++ rs.flatMap Spec.AdRec.bytes ++ rest) nEns f
          (pre.length + (rs.flatMap Spec.AdRec.bytes).length) (runState st rs)).map fun x =>
        (runEntries pre.length st rs ++ x.1, x.2) := by
  induction rs generalizing pre st B with
  | nil =>
    refine ⟨by simpa [runState] using hN, ?_⟩
    simp only [List.flatMap_nil, List.append_nil, List.length_nil, Nat.zero_add, Nat.add_zero, runState, runEntries,
      List.nil_append]
    rcases adIndexTrace (pre ++ rest) nEns f pre.length st with _ | ⟨es, r⟩ <;> rfl
  | cons r rs ih =>
    have hr := hok r (by simp)
    simp only [List.length_cons] at hB hN ⊢
    push_cast at hB
    obtain ⟨b1, b2⟩ := stepState_bounds st r B hl (hh r (by simp))
    obtain ⟨i1, i2⟩ := ih (pre ++ r.bytes) (stepState st r) (fun x hx => hok x (by simp [hx])) (B + 1)
      (by omega) b1 (fun x hx => by have := hh x (by simp [hx]); omega)
      (by have := b2 21; omega)
    refine ⟨i1, ?_⟩
    have hfile : pre ++ (r :: rs).flatMap Spec.AdRec.bytes ++ rest =
        pre ++ r.bytes ++ (rs.flatMap Spec.AdRec.bytes ++ rest) := by
      simp [List.flatMap_cons]
    have hfile2 : pre ++ r.bytes ++ rs.flatMap Spec.AdRec.bytes ++ rest =
        pre ++ r.bytes ++ (rs.flatMap Spec.AdRec.bytes ++ rest) := by simp
    have hp : (pre ++ r.bytes).length = pre.length + 10 + r.body.length := by
      rw [List.length_append, bytes_length r hr.1]; omega
    have hp2 : (pre ++ r.bytes).length + (rs.flatMap Spec.AdRec.bytes).length =
        pre.length + ((r :: rs).flatMap Spec.AdRec.bytes).length := by
      simp [List.flatMap_cons]; omega
    rw [show rs.length + 1 + f = (rs.length + f) + 1 by omega, adIndexTrace, if_pos (by omega), hfile,
      adIndexStep_rec pre _ r st hr B (by omega) (hl r.id) (hh r (by simp))]
    simp only
    rw [hfile2, hp2, hp] at i2
    rw [i2]
    simp only [runState, runEntries]
    rcases adIndexTrace (pre ++ r.bytes ++ (rs.flatMap Spec.AdRec.bytes ++ rest)) nEns f
      (pre.length + ((r :: rs).flatMap Spec.AdRec.bytes).length) (runState (stepState st r) rs)
      with _ | ⟨l, e⟩
    · rfl
    · simp only [Option.map_some]
      split <;> simp

/-! ### The entries of a file fit their formats -/

theorem getD_lt (l : List ℕ) (h : ∀ b ∈ l, b < 256) (i : ℕ) : l.getD i 0 < 256 := by
  rw [List.getD_eq_getElem?_getD]
  rcases hq : l[i]? with _ | x
  · simp
  · exact h x (List.mem_of_getElem? hq)

theorem u16_lt (l : List ℕ) (h : ∀ b ∈ l, b < 256) (i : ℕ) : u16 l i < 2 ^ 16 := by
  have h1 := getD_lt l h i
  have h2 := getD_lt l h (i + 1)
  unfold u16
  omega

theorem runEntries_fits (rs : List Spec.AdRec) (p : ℕ) (st : AdIdxState) (B : ℤ) (M : ℕ)
    (hok : ∀ r ∈ rs, r.ok) (hb : ∀ r ∈ rs, r.id < 256 ∧ ∀ b ∈ r.body, b < 256)
    (hB : B + rs.length < 2 ^ 32) (hl : ∀ i, st.last i ≤ B) (hh : ∀ r ∈ rs, (r.hw : ℤ) ≤ B)
    (hN : ∀ i, st.N i ≤ M) (hM : M + rs.length < 2 ^ 64) (hp : p + Spec.sizeOf rs < 2 ^ 64) :
    ∀ e ∈ runEntries p st rs, Spec.EntryFits e := by
  induction rs generalizing p st B M with
  | nil => simp [runEntries]
  | cons r rs ih =>
    obtain ⟨b1, b2⟩ := stepState_bounds st r B hl (hh r (by simp))
    simp only [List.length_cons] at hB hM
    push_cast at hB
    have hsz : Spec.sizeOf (r :: rs) = 10 + r.body.length + Spec.sizeOf rs := by simp [Spec.sizeOf]
    have hrest := ih (p + 10 + r.body.length) (stepState st r) (B + 1) (M + 1) (fun x hx => hok x (by simp [hx]))
      (fun x hx => hb x (by simp [hx])) (by omega) b1 (fun x hx => by have := hh x (by simp [hx]); omega)
      (fun i => by have := b2 i; have := hN i; omega) (by omega) (by omega)
    intro e he
    rw [runEntries] at he
    rcases List.mem_append.mp he with he | he
    · split at he
      · rename_i hm
        rw [List.mem_singleton.mp he]
        obtain ⟨hid, hby⟩ := hb r (by simp)
        obtain ⟨-, -, hdat⟩ := hok r (by simp)
        have hfix := adFixEns_le (st.last r.id) r.hw B (hl r.id) (hh r (by simp))
        refine ⟨?_, ?_, ?_, ?_, u16_lt _ hby 2, u16_lt _ hby 30, ?_, getD_lt _ hby 0⟩
        · have := hN r.id
          simp only [stepEntry]
          split <;> omega
        · simp only [stepEntry]
          omega
        · simp only [stepEntry]
          omega
        · simp only [stepEntry]
          omega
        · have := (hdat hm).2
          exact ⟨_, _, _, _, _, _, _, rfl, getD_lt _ hby 8, by omega, getD_lt _ hby 10, getD_lt _ hby 11,
            getD_lt _ hby 12, getD_lt _ hby 13, u16_lt _ hby 14⟩
      · cases he
    · exact hrest e he

/-! ### Reading again -/

/-- A file of complete records, with at least one data record, small enough for the formats of the index. -/
structure Spec.AdFileOk (rs : List Spec.AdRec) : Prop where
  ok : ∀ r ∈ rs, r.ok
  bytes : ∀ r ∈ rs, r.id < 256 ∧ ∀ b ∈ r.body, b < 256
  counters : ∀ r ∈ rs, r.hw + rs.length < 2 ^ 32
  count : rs.length < 2 ^ 32
  size : Spec.sizeOf rs < 2 ^ 64
  some : ∃ r ∈ rs, r.id ∈ adIds

theorem fileOk_entries (rs : List Spec.AdRec) (h : Spec.AdFileOk rs) :
    runEntries 0 { N := fun _ => 0, last := fun _ => -1 } rs ≠ [] ∧
      ∀ e ∈ runEntries 0 { N := fun _ => 0, last := fun _ => -1 } rs, Spec.EntryFits e := by
  constructor
  · obtain ⟨r, hr, hi⟩ := h.some
    intro h0
    have := runEntries_ids rs 0 { N := fun _ => 0, last := fun _ => -1 }
    rw [h0] at this
    have hm : r.id ∈ (rs.filter (fun r => r.id ∈ adIds)).map Spec.AdRec.id :=
      List.mem_map_of_mem (List.mem_filter.mpr ⟨hr, by simpa using hi⟩)
    rw [← this] at hm
    cases hm
  · have h64 : (2 : ℕ) ^ 32 ≤ 2 ^ 64 := Nat.pow_le_pow_right (by norm_num) (by norm_num)
    refine runEntries_fits rs 0 _ (2 ^ 32 - 1 - rs.length) 0 h.ok h.bytes (by omega) ?_ ?_ (fun _ => le_refl _) ?_ ?_
    · intro i
      have := h.count
      simp only
      omega
    · intro r hr
      have := h.counters r hr
      omega
    · have := h.count; omega
    · have := h.size; omega

theorem fileOk_trace (rs : List Spec.AdRec) (h : Spec.AdFileOk rs) (tail : List ℕ) (fuel : ℕ) (hf : rs.length < fuel) :
    (tail.length < 10 → adIndexTrace (rs.flatMap Spec.AdRec.bytes ++ tail) (2 ^ 32) fuel 0
      { N := fun _ => 0, last := fun _ => -1 } = some (runEntries 0 { N := fun _ => 0, last := fun _ => -1 } rs, none)) ∧
    (10 ≤ tail.length → tail.getD 2 0 ∈ adIds → tail.length < 46 + adSeek (tail.getD 2 0) →
      adIndexTrace (rs.flatMap Spec.AdRec.bytes ++ tail) (2 ^ 32) fuel 0
      { N := fun _ => 0, last := fun _ => -1 } =
        some (runEntries 0 { N := fun _ => 0, last := fun _ => -1 } rs, some .structError)) := by
  obtain ⟨f, rfl⟩ : ∃ f, fuel = rs.length + (f + 1) := ⟨fuel - rs.length - 1, by omega⟩
  have hc := h.count
  have hB : ((2 : ℤ) ^ 32 - 1 - rs.length) + rs.length < 2 ^ 32 := by omega
  obtain ⟨h1, h2⟩ := trace_records rs [] tail { N := fun _ => 0, last := fun _ => -1 }
    (2 ^ 32) (f + 1) h.ok (2 ^ 32 - 1 - rs.length) hB (by intro i; simp only; omega)
    (by intro r hr; have := h.counters r hr; omega) (by simp only; omega)
  rw [adIndexTrace, if_pos h1, adIndexStep] at h2
  simp only [List.nil_append, List.length_nil, Nat.zero_add, List.drop_left] at h2
  constructor
  · intro ht
    rw [if_pos ht] at h2
    rw [h2]
    simp
  · intro ht hid hcut
    rw [if_neg (by omega), if_pos hid, if_pos hcut] at h2
    rw [h2]
    simp

/-- The result of `get_index` from a list of entries. -/
def Spec.indexResult (es : List AdEntry) (dp : Bool) : List AdEntry × Bool :=
  (adRenumber es dp, (adCheckIndex (es.map AdEntry.id) dp fun _ => 0).1)

/-- **C144 (reading again).** For a file of complete records the first call makes an index file; a second call, which uses that
index file, has the same result, and so has a call that makes it anew. -/
theorem index_again_partial (rs : List Spec.AdRec) (h : Spec.AdFileOk rs) (tail : List ℕ) (ht : tail.length < 10) (fuel : ℕ)
    (hf : rs.length < fuel) (dp : Bool) :
    ∃ es f, adIndex fuel (rs.flatMap Spec.AdRec.bytes ++ tail) = some (.ok es) ∧
      adGetIndex fuel (rs.flatMap Spec.AdRec.bytes ++ tail) none false false dp =
        some (.ok (Spec.indexResult es dp), some f) ∧
      adGetIndex fuel (rs.flatMap Spec.AdRec.bytes ++ tail) (some f) false false dp =
        some (.ok (Spec.indexResult es dp), some f) ∧
      ∀ (old : Option (List ℕ)) (rebuild debug : Bool), rebuild = true ∨ debug = true →
        adGetIndex fuel (rs.flatMap Spec.AdRec.bytes ++ tail) old rebuild debug dp =
        some (.ok (Spec.indexResult es dp), some f) := by
  obtain ⟨h1, h2⟩ := fileOk_entries rs h
  have h3 := (fileOk_trace rs h tail fuel hf).1 ht
  have hp := parse_index _ h1 h2
  refine ⟨runEntries 0 { N := fun _ => 0, last := fun _ => -1 } rs, adIndexBytes (runEntries 0 { N := fun _ => 0, last := fun _ => -1 } rs),
    ?_, ?_, ?_, ?_⟩
  · unfold adIndex
    rw [trace_loop, h3]
    rfl
  · unfold adGetIndex
    simp only [h3, hp, bind, Except.bind, pure, Except.pure]
    rfl
  · unfold adGetIndex
    simp only [hp, bind, Except.bind, pure, Except.pure, Bool.or_false]
    rfl
  · intro old rebuild debug hr
    have hr : (rebuild || debug) = true := by simpa using hr
    unfold adGetIndex
    simp only [h3, hp, bind, Except.bind, pure, Except.pure, hr]
    rcases old <;> rfl

/-- **C144 is false for a file that has changed.** Once there is an index file, the result does not depend on the data at all:
a file to which records have been added since (or another file under the same name) is read with the old index. -/
theorem index_stale_false (fuel : ℕ) (data data' b : List ℕ) (dp : Bool) :
    adGetIndex fuel data (some b) false false dp = adGetIndex fuel data' (some b) false false dp := rfl

/-- A file with one record more than its index. -/
theorem index_stale_witness_false :
    ∃ (rs : List Spec.AdRec) (r : Spec.AdRec) (f : List ℕ) (a b : List AdEntry × Bool), Spec.AdFileOk (rs ++ [r]) ∧
      adGetIndex 10 (rs.flatMap Spec.AdRec.bytes) none false false false = some (.ok a, some f) ∧
      adGetIndex 10 ((rs ++ [r]).flatMap Spec.AdRec.bytes) (some f) false false false = some (.ok a, some f) ∧
      (∃ f', adGetIndex 10 ((rs ++ [r]).flatMap Spec.AdRec.bytes) (some f) true false false = some (.ok b, some f')) ∧
      a.1.length = 2 ∧ b.1.length = 3 := by
  refine ⟨exRecs, ⟨165, 10, 22, 16, [0, 0, 0, 0], exBody 7⟩, adIndexBytes (runEntries 0 { N := fun _ => 0, last := fun _ => -1 } exRecs),
    Spec.indexResult (runEntries 0 { N := fun _ => 0, last := fun _ => -1 } exRecs) false,
    Spec.indexResult (runEntries 0 { N := fun _ => 0, last := fun _ => -1 } (exRecs ++ [⟨165, 10, 22, 16, [0, 0, 0, 0], exBody 7⟩])) false,
    ?_, ?_, ?_, ?_, ?_, ?_⟩
  · constructor
    · unfold Spec.AdRec.ok; decide +kernel
    · decide +kernel
    · decide +kernel
    · decide +kernel
    · decide +kernel
    · decide +kernel
  · decide +kernel
  · decide +kernel
  · exact ⟨adIndexBytes (runEntries 0 { N := fun _ => 0, last := fun _ => -1 } (exRecs ++ [⟨165, 10, 22, 16, [0, 0, 0, 0], exBody 7⟩])),
      by decide +kernel⟩
  · decide +kernel
  · decide +kernel

/-- **C144 is false for a file that ends inside a record.** The first call raises `struct.error`, but leaves an index file with the
complete records before; every later call uses it without an error. -/
theorem index_truncated_false (rs : List Spec.AdRec) (h : Spec.AdFileOk rs) (tail : List ℕ) (ht : 10 ≤ tail.length)
    (hid : tail.getD 2 0 ∈ adIds) (hcut : tail.length < 46 + adSeek (tail.getD 2 0)) (fuel : ℕ) (hf : rs.length < fuel) (dp : Bool) :
    ∃ f r, adGetIndex fuel (rs.flatMap Spec.AdRec.bytes ++ tail) none false false dp = some (.error .structError, some f) ∧
      adGetIndex fuel (rs.flatMap Spec.AdRec.bytes ++ tail) (some f) false false dp = some (.ok r, some f) := by
  obtain ⟨h1, h2⟩ := fileOk_entries rs h
  have h3 := (fileOk_trace rs h tail fuel hf).2 ht hid hcut
  have hp := parse_index _ h1 h2
  refine ⟨adIndexBytes (runEntries 0 { N := fun _ => 0, last := fun _ => -1 } rs),
    Spec.indexResult (runEntries 0 { N := fun _ => 0, last := fun _ => -1 } rs) dp, ?_, ?_⟩
  · unfold adGetIndex
    simp only [h3]
  · unfold adGetIndex
    simp only [hp, bind, Except.bind, pure, Except.pure, Bool.or_false]
    rfl

/-- **C144 is false for index files without a version**, for which there is a data type: none of them can be used. -/
theorem index_unversioned_false (fuel : ℕ) (data b : List ℕ) (hb : b.take 10 ≠ adIndexMagic) (dp : Bool) :
    adGetIndex fuel data (some b) false false dp = some (.error .valueError, some b) := by
  unfold adGetIndex adParseIndex
  simp only [if_neg hb, bind, Except.bind, Bool.or_false]

/-- A velocity record cut off after its header. -/
example : ∃ tail : List ℕ, 10 ≤ tail.length ∧ tail.getD 2 0 ∈ adIds ∧ tail.length < 46 + adSeek (tail.getD 2 0) :=
  ⟨[165, 10, 21, 16, 76, 0, 0, 0, 0, 0], by decide, by decide, by decide⟩

end Dolfyn
