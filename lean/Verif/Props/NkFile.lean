import Verif.Model.NkFile
import Verif.Props.VecFile
import Verif.Props.NortekInit

/-!
C108, C146, C147: Nortek files from the first byte to the dataset.
-/

namespace Dolfyn

/-! ### The spacing of records, byte by byte -/

/-- The record is as long as its size field says (in words of two bytes); velocity records of the Vector and the
Vectrino have none and are 24 and 22 bytes long. -/
def Spec.nkSized (le : Bool) (r : NkRec) : Prop :=
  (r.id = 16 ∧ r.body.length = 20) ∨ (r.id = 81 ∧ r.body.length = 18) ∨
    (r.id ≠ 16 ∧ r.id ≠ 81 ∧ ∃ a b t, r.body = a :: b :: t ∧ 2 * word le a b = r.body.length + 4)

theorem encode_len (r : NkRec) : r.encode.length = r.body.length + 4 := by
  simp [NkRec.encode]

theorem recBytes_blocks (recs : List NkRec) : recBytes (Spec.blocks recs) = (recs.flatMap NkRec.encode).length := by
  induction recs with
  | nil => rfl
  | cons r recs ih =>
    rw [List.flatMap_cons, List.length_append, ← ih]
    rfl

theorem nkNextPos_sized {le : Bool} {r : NkRec} (h : Spec.nkSized le r) (p : ℕ) (post : List ℕ) :
    nkNextPos le r.id (p + 2) (r.body ++ [r.k0, r.k1] ++ post) = some (p + r.encode.length) := by
  rw [encode_len]
  unfold nkNextPos
  rcases h with ⟨h1, h2⟩ | ⟨h1, h2⟩ | ⟨h1, h2, a, b, t, h3, h4⟩
  · rw [if_pos h1, h2]
  · rw [if_neg (by omega), if_pos h1, h2]
  · rw [if_neg h1, if_neg h2, h3]
    rw [h3] at h4
    simp only [List.cons_append, h4, Option.some.injEq]
    omega

/-- One step of `findnextid` over a record of the file. -/
theorem findIdAt_step {le : Bool} {id : ℕ} {pre : List ℕ} {r : NkRec} {recs : List NkRec} {fuel : ℕ}
    (h : Spec.nkSized le r) :
    findIdAt le id (pre ++ (r :: recs).flatMap NkRec.encode) (fuel + 1) pre.length =
      if r.id = id then some (true, (pre ++ r.encode).length)
      else findIdAt le id (pre ++ (r :: recs).flatMap NkRec.encode) fuel (pre ++ r.encode).length := by
  have e1 : (pre ++ (r :: recs).flatMap NkRec.encode).drop pre.length =
      165 :: r.id :: (r.body ++ [r.k0, r.k1] ++ recs.flatMap NkRec.encode) := by
    rw [List.drop_left' rfl, List.flatMap_cons]
    simp [NkRec.encode]
  have e2 : nkReadId le (165 :: r.id :: (r.body ++ [r.k0, r.k1] ++ recs.flatMap NkRec.encode)) =
      .ok ([165, r.id], r.id, r.body ++ [r.k0, r.k1] ++ recs.flatMap NkRec.encode) := rfl
  have e3 : (pre ++ (r :: recs).flatMap NkRec.encode).length -
      (r.body ++ [r.k0, r.k1] ++ recs.flatMap NkRec.encode).length = pre.length + 2 := by
    rw [List.flatMap_cons]
    simp only [List.length_append, encode_len, List.length_cons, List.length_nil]
    omega
  rw [findIdAt, e1, e2]
  simp only
  rw [e3, nkNextPos_sized h]
  simp only [List.length_append]

theorem findIdAt_records {le : Bool} {id : ℕ} (recs : List NkRec) : ∀ (pre : List ℕ) (fuel : ℕ),
    (∀ r ∈ recs, Spec.nkSized le r) → recs.length < fuel →
    ((∀ r ∈ recs, r.id ≠ id) ∧ findId id (Spec.blocks recs) pre.length = none ∧
      findIdAt le id (pre ++ recs.flatMap NkRec.encode) fuel pre.length =
        some (false, (pre ++ recs.flatMap NkRec.encode).length)) ∨
    (∃ a b, recs = a ++ b ∧
      findId id (Spec.blocks recs) pre.length = some (Spec.blocks b, (pre ++ a.flatMap NkRec.encode).length) ∧
      findIdAt le id (pre ++ recs.flatMap NkRec.encode) fuel pre.length =
        some (true, (pre ++ a.flatMap NkRec.encode).length)) := by
  induction recs with
  | nil =>
    intro pre fuel _ hf
    obtain ⟨fuel, rfl⟩ : ∃ k, fuel = k + 1 := ⟨fuel - 1, by simp at hf; omega⟩
    refine Or.inl ⟨by simp, rfl, ?_⟩
    rw [findIdAt, List.flatMap_nil, List.append_nil, List.drop_length]
    simp [nkReadId]
  | cons r recs ih =>
    intro pre fuel hs hf
    rw [List.length_cons] at hf
    obtain ⟨fuel, rfl⟩ : ∃ k, fuel = k + 1 := ⟨fuel - 1, by omega⟩
    have hstep := findIdAt_step (le := le) (id := id) (pre := pre) (recs := recs) (fuel := fuel) (hs r (by simp))
    have hb : Spec.blocks (r :: recs) = ⟨r.id, r.encode.length⟩ :: Spec.blocks recs := rfl
    by_cases hr : r.id = id
    · refine Or.inr ⟨[r], recs, rfl, ?_, ?_⟩
      · rw [hb, findId, if_pos hr]
        simp
      · rw [hstep, if_pos hr]
        simp
    · rw [if_neg hr] at hstep
      have e : pre ++ (r :: recs).flatMap NkRec.encode = (pre ++ r.encode) ++ recs.flatMap NkRec.encode := by
        rw [List.flatMap_cons, List.append_assoc]
      have hf' : findId id (Spec.blocks (r :: recs)) pre.length =
          findId id (Spec.blocks recs) (pre ++ r.encode).length := by
        rw [hb, findId, if_neg hr, List.length_append]
      rcases ih (pre ++ r.encode) fuel (fun q hq => hs q (by simp [hq])) (by omega) with
        ⟨h1, h2, h3⟩ | ⟨a, b, h1, h2, h3⟩
      · refine Or.inl ⟨?_, ?_, ?_⟩
        · intro q hq
          rcases List.mem_cons.mp hq with rfl | hq
          · exact hr
          · exact h1 q hq
        · rw [hf', h2]
        · rw [hstep, e, h3]
      · refine Or.inr ⟨r :: a, b, by rw [h1]; rfl, ?_, ?_⟩
        · rw [hf', h2, List.flatMap_cons, List.append_assoc]
        · rw [hstep, e, h3, List.flatMap_cons, List.append_assoc]

theorem flatMap_encode_length (recs : List NkRec) : recs.length ≤ (recs.flatMap NkRec.encode).length := by
  induction recs with
  | nil => simp
  | cons r recs ih =>
    rw [List.flatMap_cons, List.length_append, encode_len, List.length_cons]
    omega

theorem spacingAt_records {le : Bool} {id : ℕ} : ∀ (k : ℕ) (recs : List NkRec) (pre : List ℕ) (i : ℕ),
    (∀ r ∈ recs, Spec.nkSized le r) →
    spacingAt le id (pre ++ recs.flatMap NkRec.encode) k pre.length i =
      some (spacingLoop id k (Spec.blocks recs) pre.length i)
  | 0, recs, pre, i, _ => by rw [spacingAt, spacingLoop]
  | k + 1, recs, pre, i, hs => by
    have hl := flatMap_encode_length recs
    rw [spacingAt, spacingLoop]
    rcases findIdAt_records (id := id) recs pre ((pre ++ recs.flatMap NkRec.encode).length + 1) hs
        (by rw [List.length_append]; omega) with ⟨h1, h2, h3⟩ | ⟨a, b, h1, h2, h3⟩
    · rw [h2, h3]
      simp only [List.length_append, recBytes_blocks]
    · rw [h2, h3]
      simp only
      have e : pre ++ recs.flatMap NkRec.encode = (pre ++ a.flatMap NkRec.encode) ++ b.flatMap NkRec.encode := by
        rw [h1, List.flatMap_append, List.append_assoc]
      rw [e]
      exact spacingAt_records k b (pre ++ a.flatMap NkRec.encode) (i + 1) fun r hr => hs r (by rw [h1]; simp [hr])

/-- **C108.** On a file of complete records the search for the spacing, which reads the bytes of the file and
follows the size fields, gives what the records say. -/
theorem code_spacing_bytes {le : Bool} (id : ℕ) (pre : List ℕ) (recs : List NkRec)
    (hs : ∀ r ∈ recs, Spec.nkSized le r) :
    codeSpacingAt le id (pre ++ recs.flatMap NkRec.encode) pre.length =
      match codeSpacing id (Spec.blocks recs) pre.length with
      | .error _ => some (.error .eof)
      | .ok d => some (.ok d) := by
  have hl := flatMap_encode_length recs
  unfold codeSpacingAt codeSpacing
  rcases findIdAt_records (id := id) recs pre ((pre ++ recs.flatMap NkRec.encode).length + 1) hs
      (by rw [List.length_append]; omega) with ⟨h1, h2, h3⟩ | ⟨a, b, h1, h2, h3⟩
  · rw [h2, h3]
  · rw [h2, h3]
    simp only
    have e : pre ++ recs.flatMap NkRec.encode = (pre ++ a.flatMap NkRec.encode) ++ b.flatMap NkRec.encode := by
      rw [h1, List.flatMap_append, List.append_assoc]
    rw [e, spacingAt_records 50 b (pre ++ a.flatMap NkRec.encode) 0 fun r hr => hs r (by rw [h1]; simp [hr])]

/-- **C108.** Room for a Vector. -/
theorem room_vector_bytes {le : Bool} (fs : ℚ) (pre : List ℕ) (recs : List NkRec)
    (hs : ∀ r ∈ recs, Spec.nkSized le r) {n : ℤ} (h : roomVector fs (Spec.blocks recs) pre.length = .ok n) :
    roomAt le .adv fs (pre ++ recs.flatMap NkRec.encode) pre.length = some (.ok n) := by
  unfold roomVector at h
  unfold roomAt
  simp only
  rw [code_spacing_bytes 17 pre recs hs]
  cases hd : codeSpacing 17 (Spec.blocks recs) pre.length with
  | error e => rw [hd] at h; simp [bind, Except.bind] at h
  | ok d =>
    rw [hd] at h
    simp only [bind, Except.bind] at h
    simp only
    split_ifs at h with h0
    rw [if_neg h0, List.length_append, ← recBytes_blocks]
    replace h := Except.ok.inj h
    rw [← h]

/-- **C108.** Room for an AWAC. -/
theorem room_awac_bytes {le : Bool} (fs : ℚ) (pre : List ℕ) (recs : List NkRec)
    (hs : ∀ r ∈ recs, Spec.nkSized le r) {n : ℤ} (h : roomAwac (Spec.blocks recs) pre.length = .ok n) :
    roomAt le .awac fs (pre ++ recs.flatMap NkRec.encode) pre.length = some (.ok n) := by
  unfold roomAwac at h
  unfold roomAt
  simp only
  rw [code_spacing_bytes 32 pre recs hs]
  cases hd : codeSpacing 32 (Spec.blocks recs) pre.length with
  | error e => rw [hd] at h; simp [bind, Except.bind] at h
  | ok d =>
    rw [hd] at h
    simp only [bind, Except.bind] at h
    simp only
    split_ifs at h with h0
    · rw [if_pos h0]
      replace h := Except.ok.inj h
      rw [← h]
    · rw [if_neg h0, List.length_append, ← recBytes_blocks]
      replace h := Except.ok.inj h
      rw [← h]

/-- **C108 is false of the code for a damaged size field**: a record whose size field is zero, in front of the
first record of the kind sought, keeps the reader where it is forever. -/
theorem findnextid_zero_false {le : Bool} {id : ℕ} (pre post : List ℕ) (i : ℕ) (h : i ≠ id) (h1 : i ≠ 16)
    (h2 : i ≠ 81) (fuel : ℕ) :
    findIdAt le id (pre ++ 165 :: i :: 0 :: 0 :: post) fuel pre.length = none := by
  induction fuel with
  | zero => rfl
  | succ fuel ih =>
    rw [findIdAt, List.drop_left' rfl]
    have e : nkReadId le (165 :: i :: 0 :: 0 :: post) = .ok ([165, i], i, 0 :: 0 :: post) := rfl
    rw [e]
    simp only
    have hp : nkNextPos le i ((pre ++ 165 :: i :: 0 :: 0 :: post).length - (0 :: 0 :: post).length) (0 :: 0 :: post)
        = some pre.length := by
      unfold nkNextPos
      rw [if_neg h1, if_neg h2]
      simp only [List.length_append, List.length_cons, Option.some.injEq]
      have : word le 0 0 = 0 := by cases le <;> rfl
      rw [this]
      omega
    rw [hp]
    simp only
    rw [if_neg h]
    exact ih

/-! ### AWAC files -/

/-- The numbers of an AWAC profile. -/
structure Spec.AwacVals where
  size : List ℕ
  spare : List ℕ
  t : CivilTime
  er : ℤ
  a1 : ℤ
  ba : ℤ
  cs : ℤ
  he : ℤ
  pi : ℤ
  ro : ℤ
  p : ℤ
  st : ℕ
  te : ℤ
  v : ℕ → ℕ → ℤ
  a : ℕ → ℕ → ℕ

/-- Numbers a profile can hold, except negative headings, tilts and temperatures (see C109). -/
def Spec.AwacVals.ok (n nbins : ℕ) (x : Spec.AwacVals) : Prop :=
  x.size.length = 2 ∧ x.spare.length = 88 ∧ x.t.valid ∧ 1990 ≤ x.t.year ∧ x.t.year ≤ 2089 ∧ Spec.U16 x.er ∧
    Spec.U16 x.a1 ∧ Spec.U16 x.ba ∧ Spec.U16 x.cs ∧ Spec.U16 x.he ∧ Spec.U16 x.pi ∧ Spec.U16 x.ro ∧
    (0 ≤ x.p ∧ x.p < 16777216) ∧ Spec.U16 x.te ∧ ∀ b k, b < n → k < nbins → Spec.I16 (x.v b k)

/-- The bytes of the record. -/
def Spec.AwacVals.bytes (le : Bool) (n nbins : ℕ) (x : Spec.AwacVals) : List ℕ :=
  Spec.awacBytes le n nbins x.size x.spare x.t x.er x.a1 x.ba x.cs x.he x.pi x.ro x.p x.st x.te x.v x.a

/-- Record `r` of the file holds profile `k`. -/
def Spec.profAt (recs : List NkRec) (k : ℕ) (r : NkRec) : Prop :=
  ∃ pre post, recs = pre ++ r :: post ∧ r.id = 0x20 ∧ pre.countP Spec.isSample = k

/-- A recording of an AWAC without waves: complete records; profiles of the right contents; no records of other
instruments. -/
structure Spec.AwacRecording (cfg : NkCfg) (recs : List NkRec) : Prop where
  wf : ∀ r ∈ recs, Spec.nkWF cfg r
  awac : ∀ r ∈ recs, r.id ≠ 0x10 ∧ r.id ≠ 0x51 ∧ r.id ≠ 0x11 ∧ r.id ≠ 0x71
  vals : ∀ r ∈ recs, r.id = 0x20 → ∃ x : Spec.AwacVals, x.ok cfg.nBeams cfg.nBins ∧
    r.body = x.bytes cfg.le cfg.nBeams cfg.nBins
  some : ∃ r ∈ recs, r.id = 0x20
  nocheck : ∀ r ∈ recs, r.id ≠ 7

theorem date2epoch_pos {t : CivilTime} (h : 1990 ≤ t.year) : 0 < date2epoch t 0 := by
  unfold date2epoch
  have h1 : (719163 : ℤ) ≤ dateOrdinal t.year t.month t.day := by
    unfold dateOrdinal
    omega
  have h2 : (0 : ℤ) < (dateOrdinal t.year t.month t.day - 719163) * 86400 + t.hour * 3600 + t.minute * 60 +
      t.second := by
    have : (719164 : ℤ) ≤ dateOrdinal t.year t.month t.day := by
      unfold dateOrdinal
      omega
    omega
  have h3 : (0 : ℚ) < (((dateOrdinal t.year t.month t.day - 719163) * 86400 + t.hour * 3600 + t.minute * 60 +
      t.second : ℤ) : ℚ) := by exact_mod_cast h2
  simpa using h3

theorem isSample_awac {r : NkRec} (h : r.id ≠ 0x10 ∧ r.id ≠ 0x51 ∧ r.id ≠ 0x11 ∧ r.id ≠ 0x71) :
    Spec.isSample r = true ↔ r.id = 0x20 := by
  simp [Spec.isSample, h.1, h.2.1]

/-- What the arrays hold after the records. -/
theorem awacStore_records {cfg : NkCfg} {N : ℕ} (recs : List NkRec) : ∀ (k : ℕ) (s : ℕ → Option AwacProfile),
    (∀ r ∈ recs, r.id ≠ 0x10 ∧ r.id ≠ 0x51 ∧ r.id ≠ 0x11 ∧ r.id ≠ 0x71) →
    (∀ r ∈ recs, r.id = 0x20 → ∃ d, awacProfile cfg.le cfg.nBeams cfg.nBins r.body = .ok d) →
    (∀ r ∈ recs, r.id ≠ 7) → k + recs.countP Spec.isSample ≤ N →
    ∃ s', awacStore cfg N s (placedList k recs) = .ok s' ∧
      (∀ i, i < k ∨ k + recs.countP Spec.isSample ≤ i → s' i = s i) ∧
      ∀ pre r post, recs = pre ++ r :: post → r.id = 0x20 →
        ∃ d, awacProfile cfg.le cfg.nBeams cfg.nBins r.body = .ok d ∧ s' (k + pre.countP Spec.isSample) = some d := by
  induction recs with
  | nil => exact fun k s _ _ _ _ => ⟨s, rfl, fun _ _ => rfl, fun pre r post h => by simp at h⟩
  | cons r recs ih =>
    intro k s h1 h2 h7 h3
    have hr := h1 r (by simp)
    rw [List.countP_cons] at h3
    by_cases h20 : r.id = 0x20
    · have hs : Spec.isSample r = true := (isSample_awac hr).mpr h20
      rw [if_pos hs] at h3
      obtain ⟨d, hd⟩ := h2 r (by simp) h20
      obtain ⟨s', hs', hk, hv⟩ := ih (k + 1) (Function.update s k (some d)) (fun q hq => h1 q (by simp [hq]))
        (fun q hq => h2 q (by simp [hq])) (fun q hq => h7 q (by simp [hq])) (by omega)
      refine ⟨s', ?_, ?_, ?_⟩
      · have hp : awacPut cfg N s (Spec.placed k r) = .ok (Function.update s k (some d)) := by
          unfold Spec.placed awacPut
          rw [if_pos hs]
          simp only
          rw [if_neg (by simpa using h20), if_neg (by omega), hd]
        rw [placedList, awacStore, hp]
        simp only [hs, if_true]
        exact hs'
      · intro i hi
        rw [List.countP_cons, if_pos hs] at hi
        rw [hk i (by omega), Function.update_of_ne (by omega)]
      · intro pre q post e hq
        rcases pre with _ | ⟨a, pre⟩
        · simp only [List.nil_append, List.cons.injEq] at e
          obtain ⟨rfl, rfl⟩ := e
          refine ⟨d, hd, ?_⟩
          rw [List.countP_nil, Nat.add_zero, hk k (by omega), Function.update_self]
        · simp only [List.cons_append, List.cons.injEq] at e
          obtain ⟨rfl, e⟩ := e
          obtain ⟨d', hd', hv'⟩ := hv pre q post e hq
          refine ⟨d', hd', ?_⟩
          rw [List.countP_cons, if_pos hs, ← hv']
          congr 1
          omega
    · have hs : ¬ Spec.isSample r = true := fun e => h20 ((isSample_awac hr).mp e)
      rw [if_neg hs] at h3
      obtain ⟨s', hs', hk, hv⟩ := ih k s (fun q hq => h1 q (by simp [hq])) (fun q hq => h2 q (by simp [hq]))
        (fun q hq => h7 q (by simp [hq])) (by omega)
      refine ⟨s', ?_, ?_, ?_⟩
      · have hp : awacPut cfg N s (Spec.placed k r) = .ok s := by
          unfold Spec.placed
          rw [if_neg hs, if_neg hr.2.2.1, if_neg hr.2.2.2]
          rw [awacPut, if_neg (h7 r (by simp)), if_neg hr.2.2.2]
        rw [placedList, awacStore, hp]
        simp only [Bool.not_eq_true] at hs
        simp only [hs, Bool.false_eq_true, if_false, Nat.add_zero]
        exact hs'
      · intro i hi
        rw [List.countP_cons, if_neg hs] at hi
        exact hk i hi
      · intro pre q post e hq
        rcases pre with _ | ⟨a, pre⟩
        · simp only [List.nil_append, List.cons.injEq] at e
          obtain ⟨rfl, rfl⟩ := e
          exact absurd hq h20
        · simp only [List.cons_append, List.cons.injEq] at e
          obtain ⟨rfl, e⟩ := e
          obtain ⟨d', hd', hv'⟩ := hv pre q post e hq
          refine ⟨d', hd', ?_⟩
          rw [List.countP_cons, if_neg hs, ← hv', Nat.add_zero]

/-- The record of the `k`-th profile. -/
theorem prof_exists {recs : List NkRec} (h : ∀ r ∈ recs, r.id ≠ 0x10 ∧ r.id ≠ 0x51 ∧ r.id ≠ 0x11 ∧ r.id ≠ 0x71) :
    ∀ k, k < recs.countP Spec.isSample → ∃ r, Spec.profAt recs k r := by
  induction recs with
  | nil => intro k hk; simp at hk
  | cons r recs ih =>
    intro k hk
    rw [List.countP_cons] at hk
    have hr := h r (by simp)
    have ih' := ih fun q hq => h q (by simp [hq])
    by_cases h20 : r.id = 0x20
    · have hs : Spec.isSample r = true := (isSample_awac hr).mpr h20
      rw [if_pos hs] at hk
      rcases k with _ | k
      · exact ⟨r, [], recs, rfl, h20, rfl⟩
      · obtain ⟨q, pre, post, e, hq, hc⟩ := ih' k (by omega)
        exact ⟨q, r :: pre, post, by rw [e]; rfl, hq, by rw [List.countP_cons, if_pos hs, hc]⟩
    · have hs : ¬ Spec.isSample r = true := fun e => h20 ((isSample_awac hr).mp e)
      rw [if_neg hs] at hk
      obtain ⟨q, pre, post, e, hq, hc⟩ := ih' k (by omega)
      exact ⟨q, r :: pre, post, by rw [e]; rfl, hq, by rw [List.countP_cons, if_neg hs, hc, Nat.add_zero]⟩

/-- **C147.** Reading the records of an AWAC with room for at least all of them gives a dataset with exactly as many
times as there are profiles, each with the recorded time and the recorded numbers in physical units, and with the
ranges that belong to the setup. -/
theorem awac_file_partial {cfg : NkCfg} {recs : List NkRec} (h : Spec.AwacRecording cfg recs) (hcs : cfg.doCs = false)
    (hb : cfg.nBeams ≤ 3) (round : ℝ → ℤ) (cosH : ℝ) (freq binLength blank : ℕ) (N : ℕ) (fs : ℚ)
    (hN : recs.countP Spec.isSample ≤ N) {cs bd : ℝ} {rg : ℕ → ℝ}
    (hr : awacRange round cosH freq binLength blank = .ok (cs, bd, rg)) :
    ∃ ds, awacRead cfg round cosH freq binLength blank N fs (recs.flatMap NkRec.encode) = some (.ok ds) ∧
      ds.n = recs.countP Spec.isSample ∧ ds.cellSize = cs ∧ ds.blankDist = bd ∧ ds.range = rg ∧
      ∀ k r x, Spec.profAt recs k r → x.ok cfg.nBeams cfg.nBins →
        r.body = Spec.AwacVals.bytes cfg.le cfg.nBeams cfg.nBins x →
        ds.time k = some ((date2epoch x.t 0 : ℚ) : ℝ) ∧ ds.error k = x.er ∧ ds.batt k = some ((x.ba : ℚ) / 10) ∧
        ds.cSound k = some ((x.cs : ℚ) / 10) ∧ ds.heading k = some ((x.he : ℚ) / 10) ∧ ds.pitch k = some ((x.pi : ℚ) / 10) ∧
        ds.roll k = some ((x.ro : ℚ) / 10) ∧ ds.pressure k = some ((x.p : ℚ) / 1000) ∧ ds.status k = some (x.st : ℚ) ∧
        ds.temp k = some ((x.te : ℚ) / 100) ∧
        ∀ b j, b < cfg.nBeams → j < cfg.nBins → ds.vel b j k = some ((x.v b j : ℚ) / 1000) ∧ ds.amp b j k = x.a b j := by
  have hdec : ∀ x : Spec.AwacVals, x.ok cfg.nBeams cfg.nBins →
      ∃ d, awacProfile cfg.le cfg.nBeams cfg.nBins (x.bytes cfg.le cfg.nBeams cfg.nBins) = .ok d ∧
      d.time = x.t ∧ d.error = x.er ∧ d.ana1 = x.a1 ∧ d.batt = x.ba / 10 ∧ d.cSound = x.cs / 10 ∧
      d.heading = x.he / 10 ∧ d.pitch = x.pi / 10 ∧ d.roll = x.ro / 10 ∧ d.pressure = x.p / 1000 ∧
      d.status = x.st ∧ d.temp = x.te / 100 ∧
      (∀ b k, b < cfg.nBeams → k < cfg.nBins → d.vel b k = some ((x.v b k : ℚ) / 1000) ∧ d.amp b k = x.a b k) ∧
      (∀ b k, cfg.nBeams ≤ b → d.vel b k = none) := by
    rintro x ⟨k1, k2, k3, k4, k5, k6, k7, k8, k9, k10, k11, k12, k13, k14, k15⟩
    exact awac_profile_stored cfg.le cfg.nBeams cfg.nBins hb x.size x.spare k1 k2 x.t k3 k4 k5 x.er x.a1 x.ba x.cs x.he
      x.pi x.ro x.p x.st x.te x.v x.a k6 k7 k8 k9 k10 k11 k12 k13 k14 k15
  obtain ⟨s, hs, hs0, hs1⟩ := awacStore_records (cfg := cfg) (N := N) recs 0 (fun _ => none) h.awac
    (fun r hr h20 => by
      obtain ⟨x, hx, e⟩ := h.vals r hr h20
      obtain ⟨d, hd, -⟩ := hdec x hx
      exact ⟨d, by rw [e]; exact hd⟩) h.nocheck (by omega)
  have hlen := flatMap_encode_length recs
  have himu : Spec.imuAfterSample 0 recs := by
    intro pre r post e hr
    exact absurd hr (h.awac r (by rw [e]; simp)).2.2.2
  obtain ⟨im, hread⟩ := nkLoop_records cfg hcs recs ⟨recs.flatMap NkRec.encode, 0, [], false⟩
    ((recs.flatMap NkRec.encode).length + 1) (by omega) rfl h.wf himu
  have hread' : nkReadfile cfg none (recs.flatMap NkRec.encode) = some (.ok ⟨[], 0 + recs.countP Spec.isSample,
      [] ++ placedList 0 recs, im⟩) := hread
  -- values at the profiles
  have hval : ∀ k r x, Spec.profAt recs k r → x.ok cfg.nBeams cfg.nBins →
      r.body = Spec.AwacVals.bytes cfg.le cfg.nBeams cfg.nBins x → ∃ d,
      awacProfile cfg.le cfg.nBeams cfg.nBins (x.bytes cfg.le cfg.nBeams cfg.nBins) = .ok d ∧ s k = some d := by
    rintro k r x ⟨pre, post, e, h20, hc⟩ hx eb
    obtain ⟨d, hd, hv⟩ := hs1 pre r post e h20
    refine ⟨d, by rw [← eb]; exact hd, ?_⟩
    rw [← hc, ← hv, Nat.zero_add]
  have hall : ∀ k < recs.countP Spec.isSample, ∃ d x, s k = some d ∧ d.time = x ∧ 1990 ≤ x.year := by
    intro k hk
    obtain ⟨r, hr⟩ := prof_exists h.awac k hk
    obtain ⟨pre, post, e, h20, hc⟩ := id hr
    obtain ⟨x, hx, eb⟩ := h.vals r (by rw [e]; simp) h20
    obtain ⟨d, hd, hv⟩ := hval k r x hr hx eb
    obtain ⟨d', hd', ht, -⟩ := hdec x hx
    rw [hd] at hd'
    obtain rfl := Except.ok.inj hd'
    exact ⟨d, x.t, hv, ht, hx.2.2.2.1⟩
  have hnone : ∀ k, recs.countP Spec.isSample ≤ k → s k = none := fun k hk => hs0 k (by omega)
  have hpos : 0 < recs.countP Spec.isSample := by
    obtain ⟨r, hr, h20⟩ := h.some
    rw [List.countP_pos_iff]
    exact ⟨r, hr, (isSample_awac (h.awac r hr)).mpr h20⟩
  set t : ℕ → Option ℝ := fun i => (s i).map fun d => ((date2epoch d.time 0 : ℚ) : ℝ) with ht
  have hcount : nanCount N t [] = N - recs.countP Spec.isSample := by
    unfold nanCount
    refine countP_range_ge N (recs.countP Spec.isSample) _ ?_
    intro i _
    unfold nanMask
    rw [List.any_nil, Bool.or_false]
    by_cases hi : recs.countP Spec.isSample ≤ i
    · simp [ht, hnone i hi, hi]
    · obtain ⟨d, x, hd, -⟩ := hall i (by omega)
      simp [ht, hd, hi]
  have hhan : handleNan N t [] = .ok (recs.countP Spec.isSample, []) := by
    unfold handleNan
    rw [if_neg (by omega)]
    simp only [List.map_nil, hcount]
    congr 2
    omega
  have hfill : ∃ t', vecFillTime (recs.countP Spec.isSample) t fs = .ok t' ∧
      ∀ i < recs.countP Spec.isSample, t' i = t i := by
    have hne : ∀ i < recs.countP Spec.isSample, t i ≠ some 0 ∧ t i ≠ none := by
      intro i hi
      obtain ⟨d, x, hd, hx, hy⟩ := hall i hi
      have hp := date2epoch_pos (t := d.time) (by rw [hx]; exact hy)
      have hp' : (0 : ℝ) < ((date2epoch d.time 0 : ℚ) : ℝ) := by exact_mod_cast hp
      constructor
      · simp only [ht, hd, Option.map_some, ne_eq, Option.some.injEq]
        exact hp'.ne'
      · simp [ht, hd]
    unfold vecFillTime
    simp only
    rw [if_neg ?_]
    · refine ⟨_, rfl, ?_⟩
      intro i hi
      rw [if_neg (hne i hi).1]
    · rintro ⟨i, hi, e⟩
      rw [if_neg (hne i hi).1] at e
      exact (hne i hi).2 e
  obtain ⟨t', ht', ht''⟩ := hfill
  have hprof : (([] : List NkWrite) ++ placedList 0 recs).any NkWrite.isProf = true := by
    obtain ⟨r, hr, h20⟩ := h.some
    obtain ⟨pre, post, e⟩ := List.append_of_mem hr
    have hsr : Spec.isSample r = true := (isSample_awac (h.awac r hr)).mpr h20
    rw [List.nil_append, e, placedList_append, placedList, List.any_append, List.any_cons]
    simp [Spec.placed, hsr, NkWrite.isProf]
  unfold awacRead
  rw [hread']
  simp only
  rw [List.nil_append, hs, ← List.nil_append (placedList 0 recs), hprof]
  simp only
  unfold awacSci
  simp only [if_true]
  rw [hr]
  simp only
  rw [← ht, hhan]
  simp only
  rw [ht']
  refine ⟨_, rfl, rfl, rfl, rfl, rfl, ?_⟩
  intro k r x hp hx eb
  obtain ⟨d, hd, hv⟩ := hval k r x hp hx eb
  obtain ⟨d', hd', g1, g2, g3, g4, g5, g6, g7, g8, g9, g10, g11, g12, -⟩ := hdec x hx
  rw [hd] at hd'
  obtain rfl := Except.ok.inj hd'
  have hk : k < recs.countP Spec.isSample := by
    by_contra hk
    rw [hnone k (by omega)] at hv
    simp at hv
  simp only [hv, Option.map_some, Option.getD_some, Option.bind_some, g2, g4, g5, g6, g7, g8, g9, g10, g11]
  refine ⟨?_, trivial, trivial, trivial, trivial, trivial, trivial, trivial, by push_cast; rfl, trivial, ?_⟩
  · rw [ht'' k hk]
    simp only [ht, hv, Option.map_some, g1]
  · intro b j h1 h2
    exact g12 b j h1 h2

/-! ### Whole files -/

/-- Room for a Vector, strictly: at least one slot stays free. -/
theorem vector_room_lt (s B fs : ℕ) (pre : List NkBlock) (bs : List (List NkBlock)) (pos : ℕ)
    (hpre : ∀ r ∈ pre, r.id ≠ 17) (hp : Spec.countId 16 pre < fs) (hbs : ∀ b ∈ bs, Spec.isBlock 17 s B b)
    (hfs : ∀ b ∈ bs, Spec.countId 16 b ≤ fs) (hne : bs ≠ []) (hs : s < B) :
    ∃ n, roomVector fs (pre ++ bs.flatten) pos = .ok n ∧ (Spec.countId 16 (pre ++ bs.flatten) : ℤ) < n := by
  obtain ⟨d, e, h0, h1⟩ := spacing_le 17 s B pre bs pos hpre hbs hne hs
  have hr := room_ge 17 s B pre bs pos d hbs h0 h1
  have hf : pyInt (fs : ℚ) = fs := by
    unfold pyInt
    rw [if_pos (by positivity)]
    exact Int.floor_natCast fs
  have hc : Spec.countId 16 (pre ++ bs.flatten) < (bs.length + 1) * fs := by
    have : ∀ l : List (List NkBlock), (∀ b ∈ l, Spec.countId 16 b ≤ fs) →
        Spec.countId 16 l.flatten ≤ l.length * fs := by
      intro l
      induction l with
      | nil => intro _; simp [Spec.countId]
      | cons b l ih =>
        intro h
        have h1 := h b (by simp)
        have h2 := ih fun x hx => h x (by simp [hx])
        unfold Spec.countId at h1 h2 ⊢
        rw [List.flatten_cons, List.filter_append, List.length_append, List.length_cons, Nat.succ_mul]
        omega
    have h2 := this bs hfs
    unfold Spec.countId at hp h2 ⊢
    rw [List.filter_append, List.length_append, Nat.succ_mul]
    omega
  refine ⟨pyInt (((pos + recBytes (pre ++ bs.flatten) : ℕ) : ℚ) / d + 1) * pyInt fs, ?_, ?_⟩
  · unfold roomVector
    rw [e]
    simp only [bind, Except.bind]
    rw [if_neg h0.ne']
    rfl
  · rw [hf]
    calc (Spec.countId 16 (pre ++ bs.flatten) : ℤ) < ((bs.length + 1) * fs : ℕ) := by exact_mod_cast hc
      _ = ((bs.length : ℤ) + 1) * fs := by push_cast; ring
      _ ≤ _ := mul_le_mul_of_nonneg_right hr (by positivity)

theorem nkFile_split (le : Bool) (n : ℕ) (b : Spec.NkBoard) (h : Spec.NkSonde) (s : Spec.NkSetup) (cs : Fin 6 → ℕ)
    (rest : List ℕ) : Spec.nkFile le n b h s cs rest = Spec.nkFile le n b h s cs [] ++ rest := by
  unfold Spec.nkFile
  simp only [List.append_assoc, List.append_nil]

theorem nkFile_endian (n : ℕ) (b : Spec.NkBoard) (h : Spec.NkSonde) (s : Spec.NkSetup) (cs : Fin 6 → ℕ)
    (rest : List ℕ) : nkEndian (Spec.nkFile true n b h s cs rest) = .ok true := by
  have h0 : b.bytes true = [24, 0] ++ Spec.pairs 21 fun i => b.field true (1 + i) :=
    (pairs_split (n := 22) (b.field true) (show 1 ≤ 22 by omega)).trans rfl
  unfold Spec.nkFile
  rw [h0, List.append_assoc]
  exact nkEndian_le _

theorem countId_awac (recs : List NkRec) (h : ∀ r ∈ recs, r.id ≠ 0x10 ∧ r.id ≠ 0x51 ∧ r.id ≠ 0x11 ∧ r.id ≠ 0x71) :
    Spec.countId 32 (Spec.blocks recs) = recs.countP Spec.isSample := by
  induction recs with
  | nil => rfl
  | cons r recs ih =>
    have h1 := ih fun q hq => h q (by simp [hq])
    have h2 := isSample_awac (h r (by simp))
    unfold Spec.countId Spec.blocks at h1 ⊢
    rw [List.map_cons, List.countP_cons]
    by_cases hr : r.id = 32
    · rw [List.filter_cons_of_pos (by simp [hr]), List.length_cons, h1, if_pos (h2.mpr hr)]
    · rw [List.filter_cons_of_neg (by simp [hr]), h1, if_neg (fun e => hr (h2.mp e))]
      rfl

theorem countId_isBlock {id s B : ℕ} (bs : List (List NkBlock)) (h : ∀ b ∈ bs, Spec.isBlock id s B b) :
    Spec.countId id bs.flatten = bs.length := by
  induction bs with
  | nil => rfl
  | cons b bs ih =>
    have h1 := ih fun x hx => h x (by simp [hx])
    obtain ⟨rest, e, h2, -⟩ := h b (by simp)
    have h3 : rest.filter (fun r => r.id = id) = [] := by
      rw [List.filter_eq_nil_iff]
      intro r hr
      simpa using h2 r hr
    unfold Spec.countId at h1 ⊢
    rw [List.flatten_cons, List.filter_append, List.length_append, h1, e, List.filter_cons_of_pos (by simp), h3]
    simp only [List.length_cons, List.length_nil]
    omega

/-- **C147.** A whole AWAC file, from its first byte: the three records of the configuration, then records with
profiles equally far apart. Reading it gives the configuration recorded (C128, C129) and a dataset with exactly the
recorded profiles: times, values in physical units, and ranges by the recorded frequency, cell length and blanking. -/
theorem awac_whole_partial (utf8 : List ℕ → Option (List Char)) (hu : Spec.Utf8 utf8) (b : Spec.NkBoard)
    (h : Spec.NkSonde) (s : Spec.NkSetup) (cs : Fin 6 → ℕ) (t : List ℕ) (w : List Char)
    (hb : b.Valid) (hs : b.serial = Spec.prefixOf .awac ++ t) (hw : firstWord (Spec.ascii b.serial) = .ok w)
    (hn : Spec.beamsOf (Spec.ascii b.serial) h ≤ 9)
    (hm : ∀ k < Spec.beamsOf (Spec.ascii b.serial) h * Spec.beamsOf (Spec.ascii b.serial) h, Spec.I16 (h.mat k))
    (h1 : Spec.Text 6 s.name) (h2 : Spec.Text 80 s.comments) (ha : 0 < s.avgInterval.val) (hbe : s.nBeams.val ≤ 3)
    {recs : List NkRec} (hrec : Spec.AwacRecording ⟨true, false, false, s.nBeams.val, s.nBins.val⟩ recs)
    (hsz : ∀ r ∈ recs, Spec.nkSized true r)
    {size B : ℕ} {pre : List NkBlock} {bs : List (List NkBlock)} (e : Spec.blocks recs = pre ++ bs.flatten)
    (hpre : ∀ r ∈ pre, r.id ≠ 32) (hbs : ∀ b ∈ bs, Spec.isBlock 32 size B b) (hsize : 0 < size)
    (round : ℝ → ℤ) (cosH : ℝ) (fl : List ℕ → ℝ) {cell bd : ℝ} {rg : ℕ → ℝ}
    (hr : awacRange round cosH h.freqKHz.val s.binLength.val s.blank.val = .ok (cell, bd, rg)) :
    ∃ o ds, nortekRead false utf8 fl round cosH (Spec.nkFile true (Spec.beamsOf (Spec.ascii b.serial) h) b h s cs
        (recs.flatMap NkRec.encode)) = some (.ok (.awac o ds)) ∧
      o.fs = 1 / s.avgInterval.val ∧ o.frame = Spec.frameOf s.axes ∧ o.hdw = b.meaning ∧ o.user = s.meaning true ∧
      (∀ i < o.head.nBeam, ∀ j < o.head.nBeam, o.head.mat i j = (h.mat (o.head.nBeam * i + j) : ℚ) / 4096) ∧
      ds.n = recs.countP Spec.isSample ∧ ds.cellSize = cell ∧ ds.blankDist = bd ∧ ds.range = rg ∧
      ∀ k r x, Spec.profAt recs k r → x.ok s.nBeams.val s.nBins.val →
        r.body = Spec.AwacVals.bytes true s.nBeams.val s.nBins.val x →
        ds.time k = some ((date2epoch x.t 0 : ℚ) : ℝ) ∧ ds.error k = x.er ∧ ds.batt k = some ((x.ba : ℚ) / 10) ∧
        ds.cSound k = some ((x.cs : ℚ) / 10) ∧ ds.heading k = some ((x.he : ℚ) / 10) ∧
        ds.pitch k = some ((x.pi : ℚ) / 10) ∧ ds.roll k = some ((x.ro : ℚ) / 10) ∧
        ds.pressure k = some ((x.p : ℚ) / 1000) ∧ ds.status k = some (x.st : ℚ) ∧
        ds.temp k = some ((x.te : ℚ) / 100) ∧
        ∀ b j, b < s.nBeams.val → j < s.nBins.val →
          ds.vel b j k = some ((x.v b j : ℚ) / 1000) ∧ ds.amp b j k = x.a b j := by
  obtain ⟨o, g1, g2, g3, g4, g5, g6, g7, g8, g9, g10⟩ := nortek_opens utf8 hu b h s cs (recs.flatMap NkRec.encode)
    .awac t w hb hs hw hn hm h1 h2 ha
  have hpos : 0 < Spec.countId 32 (Spec.blocks recs) := by
    rw [countId_awac recs hrec.awac, List.countP_pos_iff]
    obtain ⟨r, hr, h20⟩ := hrec.some
    exact ⟨r, hr, (isSample_awac (hrec.awac r hr)).mpr h20⟩
  have hcnt : Spec.countId 32 (Spec.blocks recs) = bs.length := by
    have h3 : pre.filter (fun r => r.id = 32) = [] := by
      rw [List.filter_eq_nil_iff]
      intro r hr
      simpa using hpre r hr
    have h4 := countId_isBlock bs hbs
    unfold Spec.countId at h4 ⊢
    rw [e, List.filter_append, List.length_append, h4, h3]
    simp
  have hne : bs ≠ [] := by
    rintro rfl
    rw [hcnt] at hpos
    simp at hpos
  have hroom := awac_room size B pre bs
    (Spec.nkFile true (Spec.beamsOf (Spec.ascii b.serial) h) b h s cs []).length hpre hbs hne hsize
  rw [← e] at hroom
  obtain ⟨N, hN, hN'⟩ := hroom
  have hroom := room_awac_bytes o.fs _ recs hsz hN
  obtain ⟨ds, d1, d2, d3, d4, d5, d6⟩ := awac_file_partial hrec rfl hbe round cosH h.freqKHz.val s.binLength.val
    s.blank.val N.toNat o.fs (by rw [← countId_awac recs hrec.awac, hcnt]; omega) hr
  refine ⟨o, ds, ?_, ?_, g4, g5, g9, g8, d2, d3, d4, d5, d6⟩
  · unfold nortekRead
    rw [nkFile_endian, g1]
    simp only
    have hp : (Spec.nkFile true (Spec.beamsOf (Spec.ascii b.serial) h) b h s cs (recs.flatMap NkRec.encode)).length -
        o.rest.length = (Spec.nkFile true (Spec.beamsOf (Spec.ascii b.serial) h) b h s cs []).length := by
      rw [nkFile_split, g10, List.length_append]
      omega
    have hcfg : nkCfgOf true false o = ⟨true, false, false, s.nBeams.val, s.nBins.val⟩ := by
      unfold nkCfgOf
      rw [g2, g9]
      rfl
    rw [hp, g2, nkFile_split, hroom]
    simp only
    rw [hcfg, g6, g9, g10]
    have d1' : awacRead ⟨true, false, false, s.nBeams.val, s.nBins.val⟩ round cosH h.freqKHz.val
        (s.meaning true).binLength (s.meaning true).blank N.toNat o.fs (recs.flatMap NkRec.encode) = some (.ok ds) := d1
    rw [d1']
    rfl
  · rw [g3]
    rfl

/-- **C146.** A whole Vector file, from its first byte: the three records of the configuration for continuous
sampling, then one second of data behind the other, with a full IMU record for every sample. Reading it gives the
configuration recorded (C128, C129) and exactly the recorded samples. -/
theorem vector_whole_partial (utf8 : List ℕ → Option (List Char)) (hu : Spec.Utf8 utf8) (b : Spec.NkBoard)
    (h : Spec.NkSonde) (s : Spec.NkSetup) (cs : Fin 6 → ℕ) (t : List ℕ) (w : List Char)
    (hb : b.Valid) (hs : b.serial = Spec.prefixOf .adv ++ t) (hw : firstWord (Spec.ascii b.serial) = .ok w)
    (hn : Spec.beamsOf (Spec.ascii b.serial) h ≤ 9)
    (hm : ∀ k < Spec.beamsOf (Spec.ascii b.serial) h * Spec.beamsOf (Spec.ascii b.serial) h, Spec.I16 (h.mat k))
    (h1 : Spec.Text 6 s.name) (h2 : Spec.Text 80 s.comments) (hburst : s.nBurst.val = 0)
    {fs a : ℕ} {t0 : ℝ} (hfs : s.avgInterval.val * fs = 512) (ht0 : 0 < t0) (hA : a = 195 ∨ a = 204 ∨ a = 211)
    {recs : List NkRec} (hrec : Spec.VecRecording ⟨true, false, false, s.nBeams.val, s.nBins.val⟩ fs t0 a recs)
    (hsz : ∀ r ∈ recs, Spec.nkSized true r)
    {size B : ℕ} {pre : List NkBlock} {bs : List (List NkBlock)} (e : Spec.blocks recs = pre ++ bs.flatten)
    (hpre : ∀ r ∈ pre, r.id ≠ 17) (hp : Spec.countId 16 pre < fs) (hbs : ∀ b ∈ bs, Spec.isBlock 17 size B b)
    (hfsb : ∀ b ∈ bs, Spec.countId 16 b ≤ fs) (hne : bs ≠ []) (hsize : size < B)
    (round : ℝ → ℤ) (cosH : ℝ) (fl : List ℕ → ℝ) :
    ∃ o ds, nortekRead false utf8 fl round cosH (Spec.nkFile true (Spec.beamsOf (Spec.ascii b.serial) h) b h s cs
        (recs.flatMap NkRec.encode)) = some (.ok (.vec o ds)) ∧
      o.fs = fs ∧ o.frame = Spec.frameOf s.axes ∧ o.hdw = b.meaning ∧ o.user = s.meaning true ∧
      (∀ i < o.head.nBeam, ∀ j < o.head.nBeam, o.head.mat i j = (h.mat (o.head.nBeam * i + j) : ℚ) / 4096) ∧
      (∀ k r x, Spec.sampleAt recs k r → x.ok → r.body = Spec.VecVals.bytes true x →
        (∀ b, ds.vel k b = some ((x.v b : ℚ) * (if s.fine then 1 / 10 else 1) / 1000)) ∧ (∀ b, ds.amp k b = x.m b) ∧
        (∀ b, ds.corr k b = x.c b) ∧ ds.pressure k = x.p / 1000 ∧ ds.time k = some (t0 + k / (fs : ℝ))) ∧
      (∀ k r x, Spec.sysAt recs k r → x.ok → r.body = Spec.VecSysVals.bytes true x →
        (∀ p ∈ Spec.sysVars, p.1 ds k = some ((p.2 x : ℚ) : ℝ)) ∧ ds.status k = x.st ∧ ds.error k = x.er) ∧
      (∀ k r, Spec.imuAt recs k r →
        ds.imu k = some (sciImu fs a (imuDecode fl a (r.body.drop 4))) ∧ ds.imuType = some a) ∧
      ((∀ k < recs.countP Spec.isSample, ∃ r, Spec.imuAt recs k r) → (∃ k r, Spec.imuAt recs k r) →
        ds.n = recs.countP Spec.isSample) ∧
      (∀ k k' r r' x x', Spec.sysAt recs k r → x.ok → r.body = Spec.VecSysVals.bytes true x →
        Spec.sysAt recs k' r' → x'.ok → r'.body = Spec.VecSysVals.bytes true x' →
        (∀ j q, Spec.sysAt recs j q → ¬ (k < j ∧ j < k')) → ∀ i, k < i → i < k' →
        ∀ p ∈ Spec.sysVars, p.1 ds i =
          some ((p.2 x : ℝ) + ((p.2 x' : ℝ) - (p.2 x : ℝ)) * ((i : ℝ) - k) / ((k' : ℝ) - k))) ∧
      ((∀ k r, ¬ Spec.imuAt recs k r) → (recs.countP Spec.isSample < ds.n ∧ ds.imuType = none) ∧
        ∀ i < ds.n, recs.countP Spec.isSample ≤ i → ∀ b, ds.vel i b = none) ∧
      (∀ i < ds.n, (∀ j q, Spec.sysAt recs j q → i < j) ∨ (∀ j q, Spec.sysAt recs j q → j < i) →
        ∀ p ∈ Spec.sysVars, p.1 ds i = none) ∧
      ∀ q : Bool, (∀ k r x, Spec.sysAt recs k r → x.ok → r.body = Spec.VecSysVals.bytes true x →
        x.st % 2 = if q then 1 else 0) → ∀ i < ds.n, ds.down i = q := by
  have ha : 0 < s.avgInterval.val := by
    rcases Nat.eq_zero_or_pos s.avgInterval.val with h0 | h0
    · rw [h0] at hfs; omega
    · exact h0
  have hfs0 : 0 < fs := by
    rcases Nat.eq_zero_or_pos fs with h0 | h0
    · rw [h0] at hfs; omega
    · exact h0
  obtain ⟨o, g1, g2, g3, g4, g5, g6, g7, g8, g9, g10⟩ := nortek_opens utf8 hu b h s cs (recs.flatMap NkRec.encode)
    .adv t w hb hs hw hn hm h1 h2 ha
  have hofs : o.fs = fs := by
    rw [g3, div_eq_iff (by exact_mod_cast ha.ne')]
    have : ((s.avgInterval.val * fs : ℕ) : ℚ) = 512 := by rw [hfs]; norm_num
    push_cast at this
    rw [mul_comm, this]
    rfl
  have hroom := vector_room_lt size B fs pre bs
    (Spec.nkFile true (Spec.beamsOf (Spec.ascii b.serial) h) b h s cs []).length hpre hp hbs hfsb hne hsize
  rw [← e] at hroom
  obtain ⟨N, hN, hN'⟩ := hroom
  rw [countId_blocks recs hrec.vector] at hN'
  have hroom := room_vector_bytes (fs : ℚ) _ recs hsz hN
  obtain ⟨ds, d1, d2, d3, d4, d7, d8, d5, d6, d11, d9, d10⟩ := vector_file_partial hrec hA rfl (by exact_mod_cast hfs0) ht0
    (if s.fine then 1 / 10 else 1) fl N.toNat (by omega) (fun k r hk => by
      have := sysAt_le hk
      omega)
  refine ⟨o, ds, ?_, hofs, g4, g5, g9, g8, ?_, d4, d5, d6, d7, ?_,
    fun i hi => d8 i (by omega), fun q hq i hi => d10 q hq i (by omega)⟩
  · unfold nortekRead
    rw [nkFile_endian, g1]
    simp only
    have hp : (Spec.nkFile true (Spec.beamsOf (Spec.ascii b.serial) h) b h s cs (recs.flatMap NkRec.encode)).length -
        o.rest.length = (Spec.nkFile true (Spec.beamsOf (Spec.ascii b.serial) h) b h s cs []).length := by
      rw [nkFile_split, g10, List.length_append]
      omega
    have hcfg : nkCfgOf true false o = ⟨true, false, false, s.nBeams.val, s.nBins.val⟩ := by
      unfold nkCfgOf
      rw [g2, g9]
      rfl
    rw [hp, g2, nkFile_split, hofs, hroom]
    simp only
    rw [hcfg, g9, g10]
    have d1' : vecRead ⟨true, false, false, s.nBeams.val, s.nBins.val⟩ (s.meaning true).velScale fl N.toNat
        (s.meaning true).nBurst fs (recs.flatMap NkRec.encode) = some (.ok ds) := by
      rw [show (s.meaning true).nBurst = s.nBurst.val from rfl, hburst]
      exact d1
    rw [d1']
    rfl
  · intro k r x hk hx hbod
    obtain ⟨q1, q2, q3, q4⟩ := d2 k r x hk hx hbod
    refine ⟨q1, q2, q3, q4, ?_⟩
    refine (d3 k ?_).trans ?_
    · obtain ⟨pre', post', e', hid, hc⟩ := hk
      have : k < recs.countP Spec.isSample := by
        rw [e', List.countP_append, List.countP_cons, hc]
        have : Spec.isSample r = true := by simp [Spec.isSample, hid]
        rw [if_pos this]
        omega
      omega
    · simp
  · intro hno
    obtain ⟨⟨e1, e3⟩, e2⟩ := d9 hno
    rw [e1]
    exact ⟨⟨by omega, e3⟩, fun i hi hS => (e2 i hi hS).1⟩

/-! ### Files that meet the hypotheses -/

/-- A profile of the example: three beams, two cells, `k` minutes after noon. -/
def exProf (k : ℕ) : Spec.AwacVals where
  size := [69, 0]
  spare := List.replicate 88 0
  t := ⟨2012, 6, 12, 12, k, 0⟩
  er := 0
  a1 := 3
  ba := 121
  cs := 14950
  he := 1875
  pi := 12
  ro := 7
  p := 70000
  st := 1
  te := 1234
  v := fun b j => 100 * b - j - k
  a := fun b j => 80 + b + j

/-- The record. -/
def exProfRec (k : ℕ) : NkRec := ⟨0x20, (exProf k).bytes true 3 2, 0, 0⟩

/-- Two profiles. -/
def exAwacRecs : List NkRec := [exProfRec 0, exProfRec 1]

/-- Three beams, two cells. -/
def exAwacSetup : Spec.NkSetup := { exNkSetup with nBins := 2, binLength := 256, blank := 100, avgInterval := 60 }

/-- Head of 1 MHz. -/
def exAwacSonde : Spec.NkSonde := { exNkSonde with freqKHz := 1000 }

/-- Serial number `WPR 1287`. -/
def exAwacBoard : Spec.NkBoard := { exNkBoard with serial := [87, 80, 82, 32, 49, 50, 56, 55] }

theorem exProf_ok (k : ℕ) (h : k < 2) : (exProf k).ok 3 2 := by
  refine ⟨rfl, by simp [exProf], ?_, ?_, ?_, ?_, ?_, ?_, ?_, ?_, ?_, ?_, ?_, ?_, ?_⟩
  · have : k = 0 ∨ k = 1 := by omega
    rcases this with rfl | rfl <;> decide
  · simp [exProf]
  · simp [exProf]
  all_goals first | (simp only [exProf, Spec.U16]; omega) | skip
  intro b j hb hj
  simp only [exProf, Spec.I16]
  omega

theorem exAwac_recording : Spec.AwacRecording ⟨true, false, false, 3, 2⟩ exAwacRecs := by
  have hmem : ∀ r ∈ exAwacRecs, ∃ k < 2, r = exProfRec k := by
    intro r hr
    simp only [exAwacRecs, List.mem_cons, List.not_mem_nil, or_false] at hr
    rcases hr with rfl | rfl
    · exact ⟨0, by omega, rfl⟩
    · exact ⟨1, by omega, rfl⟩
  refine ⟨?_, ?_, ?_, ⟨exProfRec 0, by simp [exAwacRecs], rfl⟩, ?_⟩
  · intro r hr
    obtain ⟨k, hk, rfl⟩ := hmem r hr
    left
    have : k = 0 ∨ k = 1 := by omega
    rcases this with rfl | rfl <;> decide +kernel
  · intro r hr
    obtain ⟨k, hk, rfl⟩ := hmem r hr
    simp [exProfRec]
  · intro r hr _
    obtain ⟨k, hk, rfl⟩ := hmem r hr
    exact ⟨exProf k, exProf_ok k hk, rfl⟩
  · intro r hr
    obtain ⟨k, hk, rfl⟩ := hmem r hr
    simp [exProfRec]

theorem exAwac_sized (k : ℕ) (h : k < 2) : Spec.nkSized true (exProfRec k) := by
  right; right
  refine ⟨by simp [exProfRec], by simp [exProfRec], 69, 0, ((exProf k).bytes true 3 2).drop 2, rfl, ?_⟩
  have : k = 0 ∨ k = 1 := by omega
  rcases this with rfl | rfl <;> decide +kernel

example (round : ℝ → ℤ) (cosH : ℝ) (fl : List ℕ → ℝ) :
    ∃ o ds, nortekRead false exUtf8 fl round cosH (Spec.nkFile true 3 exAwacBoard exAwacSonde exAwacSetup (fun _ => 0)
        (exAwacRecs.flatMap NkRec.encode)) = some (.ok (.awac o ds)) ∧ ds.n = 2 ∧ o.fs = 1 / 60 ∧
      ds.heading 1 = some (1875 / 10) ∧ ds.vel 2 1 1 = some (198 / 1000) ∧ ds.time 1 = some 1339502460 := by
  have hfw : firstWord (Spec.ascii exAwacBoard.serial) = .ok ['W', 'P', 'R'] := by decide
  have hbe : Spec.beamsOf (Spec.ascii exAwacBoard.serial) exAwacSonde = 3 := by
    unfold Spec.beamsOf
    rw [hfw]
    rfl
  have hrange : ∃ x, awacRange round cosH exAwacSonde.freqKHz.val exAwacSetup.binLength.val exAwacSetup.blank.val =
      .ok x := by
    have hco : awacCoef exAwacSonde.freqKHz.val = some (478 / 10000) := by
      unfold awacCoef
      rw [if_neg (by decide), if_pos (by decide)]
    unfold awacRange
    rw [hco]
    exact ⟨_, rfl⟩
  obtain ⟨⟨c0, c1, c2⟩, hrange⟩ := hrange
  obtain ⟨o, ds, h1, h2, -, -, -, -, h3, -, -, -, h4⟩ := awac_whole_partial exUtf8 exUtf8_ok exAwacBoard exAwacSonde
    exAwacSetup (fun _ => 0) [32, 49, 50, 56, 55] _ ⟨by decide, by decide, by decide⟩ rfl hfw (by rw [hbe]; omega)
    (by rw [hbe]; decide) ⟨by decide, by decide⟩ ⟨by decide, by decide⟩ (by decide) (by decide)
    (recs := exAwacRecs) exAwac_recording (by
      intro r hr
      simp only [exAwacRecs, List.mem_cons, List.not_mem_nil, or_false] at hr
      rcases hr with rfl | rfl
      · exact exAwac_sized 0 (by omega)
      · exact exAwac_sized 1 (by omega))
    (size := 138) (B := 138) (pre := []) (bs := [[⟨32, 138⟩], [⟨32, 138⟩]]) (by decide +kernel) (by simp) (by
      intro b hb
      simp only [List.mem_cons, List.not_mem_nil, or_false, or_self] at hb
      subst hb
      exact ⟨[], rfl, by simp, rfl⟩) (by omega) round cosH fl
    hrange
  rw [hbe] at h1
  obtain ⟨q1, -, -, -, q2, -, -, -, -, -, q3⟩ := h4 1 (exProfRec 1) (exProf 1) ⟨[exProfRec 0], [], rfl, rfl, by decide⟩
    (exProf_ok 1 (by omega)) rfl
  refine ⟨o, ds, h1, ?_, ?_, ?_, ?_, ?_⟩
  · rw [h3]; decide
  · rw [h2]; norm_num [exAwacSetup]
  · rw [q2]; norm_num [exProf]
  · rw [(q3 2 1 (by decide) (by decide)).1]; norm_num [exProf]
  · rw [q1]
    have : date2epoch (exProf 1).t 0 = 1339502460 := by decide +kernel
    rw [this]
    norm_num

/-- The setup of the three seconds at 1 Hz: an averaging interval of 512 ticks, no bursts. -/
def exVecSetup : Spec.NkSetup := { exNkSetup with avgInterval := 512, nBurst := 0 }

example (round : ℝ → ℤ) (cosH : ℝ) (fl : List ℕ → ℝ) :
    ∃ o ds, nortekRead false exUtf8 fl round cosH (Spec.nkFile true 3 exNkBoard exNkSonde exVecSetup (fun _ => 0)
        (exVecRecs.flatMap NkRec.encode)) = some (.ok (.vec o ds)) ∧ o.fs = 1 ∧
      ds.vel 0 0 = some (-1234 / 10000) ∧ ds.time 2 = some 1339502402 := by
  have hfw : firstWord (Spec.ascii exNkBoard.serial) = .ok ['V', 'E', 'C'] := by decide
  have hbe : Spec.beamsOf (Spec.ascii exNkBoard.serial) exNkSonde = 3 := by
    unfold Spec.beamsOf
    rw [hfw]
    rfl
  have hrec : Spec.VecRecording ⟨true, false, false, exVecSetup.nBeams.val, exVecSetup.nBins.val⟩ ((1 : ℕ) : ℚ)
      1339502400 204 exVecRecs := by
    rw [Nat.cast_one]
    exact exVecRecs_recording
  obtain ⟨o, ds, h1, h2, -, -, -, -, h3, -⟩ := vector_whole_partial exUtf8 exUtf8_ok exNkBoard exNkSonde exVecSetup
    (fun _ => 0) [32, 52, 57, 53, 49] _ ⟨by decide, by decide, by decide⟩ rfl hfw (by rw [hbe]; omega)
    (by rw [hbe]; decide) ⟨by decide, by decide⟩ ⟨by decide, by decide⟩ rfl (fs := 1) rfl (by norm_num) (by simp)
    hrec (by
      intro r hr
      simp only [exVecRecs, List.mem_cons, List.not_mem_nil, or_false] at hr
      rcases hr with rfl | rfl | rfl | rfl | rfl | rfl
      · right; right; exact ⟨by decide, by decide, 14, 0, _, rfl, by decide +kernel⟩
      · left; exact ⟨rfl, by decide +kernel⟩
      · right; right; exact ⟨by decide, by decide, 14, 0, _, rfl, by decide +kernel⟩
      · left; exact ⟨rfl, by decide +kernel⟩
      · right; right; exact ⟨by decide, by decide, 14, 0, _, rfl, by decide +kernel⟩
      · left; exact ⟨rfl, by decide +kernel⟩)
    (size := 28) (B := 52) (pre := []) (bs := [[⟨17, 28⟩, ⟨16, 24⟩], [⟨17, 28⟩, ⟨16, 24⟩], [⟨17, 28⟩, ⟨16, 24⟩]])
    (by decide +kernel) (by simp) (by decide) (by
      intro b hb
      simp only [List.mem_cons, List.not_mem_nil, or_false, or_self] at hb
      subst hb
      exact ⟨[⟨16, 24⟩], rfl, by simp, rfl⟩) (by decide) (by simp) (by omega) round cosH fl
  rw [hbe] at h1
  have hv := (h3 0 _ (exVals (-1234)) ⟨exVecRecs.take 1, _, rfl, rfl, by decide⟩
    (exVals_ok _ (by unfold Spec.I16; omega)) rfl).1 0
  have ht := (h3 2 _ (exVals 3000) ⟨exVecRecs.take 5, _, rfl, rfl, by decide⟩
    (exVals_ok _ (by unfold Spec.I16; omega)) rfl).2.2.2.2
  refine ⟨o, ds, h1, by rw [h2]; norm_num, ?_, ?_⟩
  · rw [hv]
    simp [exVals, exVecSetup, exNkSetup]
    norm_num
  · rw [ht]
    norm_num

example (fuel : ℕ) : findIdAt true 17 [165, 7, 0, 0, 165, 17] fuel 0 = none :=
  findnextid_zero_false [] [165, 17] 7 (by decide) (by decide) (by decide) fuel

end Dolfyn
