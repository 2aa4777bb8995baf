import Verif.Props.VecFile

/-!
C173: what a record that cannot be read costs.
-/

namespace Dolfyn

/-! ### Lemmas -/

theorem words_append_even (le : Bool) (a b : List ℕ) (h : a.length % 2 = 0) :
    words le (a ++ b) = words le a ++ words le b := by
  induction a using words.induct with
  | case1 x y r ih =>
    simp only [List.cons_append, words]
    rw [ih (by simp at h; omega)]
  | case2 t ht =>
    rcases t with _ | ⟨x, _ | ⟨y, r⟩⟩
    · simp [words]
    · simp at h
    · exact (ht x y r rfl).elim

theorem words_length (le : Bool) (a : List ℕ) : (words le a).length = a.length / 2 := by
  induction a using words.induct with
  | case1 x y r ih =>
    simp only [words, List.length_cons, ih]
    omega
  | case2 t ht =>
    rcases t with _ | ⟨x, _ | ⟨y, r⟩⟩
    · simp [words]
    · simp [words]
    · exact (ht x y r rfl).elim

theorem wordAt_append_left (le : Bool) (a b : List ℕ) (i : ℕ) (h : 2 * i + 1 < a.length) :
    Spec.wordAt le (a ++ b) i = Spec.wordAt le a i := by
  unfold Spec.wordAt
  rw [List.getD_append _ _ _ _ (by omega), List.getD_append _ _ _ _ h]

theorem sum_wordAt (le : Bool) (a b : List ℕ) (h : a.length % 2 = 0) :
    ((List.range (a.length / 2)).map (Spec.wordAt le (a ++ b))).sum = (words le a).sum := by
  have e : (List.range (a.length / 2)).map (Spec.wordAt le (a ++ b)) = words le a := by
    apply List.ext_getElem
    · simp [words_length]
    · intro i h1 h2
      rw [List.length_map, List.length_range] at h1
      rw [List.getElem_map, List.getElem_range, wordAt_append_left le a b i (by omega),
        ← words_getD le a i (by omega), List.getD_eq_getElem _ _ h2]
  rw [e]

/-- Behind bytes whose sum stands in the word that follows, the search finds the sync byte. -/
theorem syncAt_behind (le : Bool) (a tail : List ℕ) (k0 k1 : ℕ) (h : a.length % 2 = 0) :
    Spec.syncAt le true (a ++ k0 :: k1 :: tail) (a.length / 2 + 1) ↔
      (1 < tail.length ∧ tail.getD 0 0 = 165 ∧ word le k0 k1 = (0xb58c + (words le a).sum) % 65536) := by
  have e1 : 2 * (a.length / 2 + 1) = a.length + 2 := by omega
  have g : ∀ j, (a ++ k0 :: k1 :: tail).getD (a.length + 2 + j) 0 = tail.getD j 0 := by
    intro j
    rw [List.getD_append_right _ _ _ _ (by omega), show a.length + 2 + j - a.length = j + 1 + 1 by omega]
    simp
  have hw : Spec.wordAt le (a ++ k0 :: k1 :: tail) (a.length / 2) = word le k0 k1 := by
    unfold Spec.wordAt
    rw [show 2 * (a.length / 2) = a.length by omega, List.getD_append_right _ _ _ _ (by omega),
      List.getD_append_right _ _ _ _ (by omega)]
    simp
  unfold Spec.syncAt
  rw [e1]
  have g0 := g 0
  rw [Nat.add_zero] at g0
  rw [g0]
  constructor
  · rintro ⟨h1, h2, h3⟩
    obtain ⟨m, hm, h4⟩ := h3 rfl
    obtain rfl : m = a.length / 2 := by omega
    rw [hw, sum_wordAt le a _ h] at h4
    exact ⟨by simp at h1; omega, h2, h4⟩
  · rintro ⟨h1, h2, h3⟩
    refine ⟨by simp; omega, h2, fun _ => ⟨a.length / 2, rfl, ?_⟩⟩
    rw [hw, sum_wordAt le a _ h]
    exact h3

theorem syncAt_append (le : Bool) (a b : List ℕ) (p : ℕ) (hp : 2 * p + 1 < a.length) :
    Spec.syncAt le true (a ++ b) p ↔ Spec.syncAt le true a p := by
  unfold Spec.syncAt
  have hs : ∀ m, p = m + 1 → ((List.range m).map (Spec.wordAt le (a ++ b))) = (List.range m).map (Spec.wordAt le a) := by
    intro m hm
    apply List.map_congr_left
    intro i hi
    exact wordAt_append_left le a b i (by simp at hi; omega)
  rw [List.getD_append _ _ _ _ (by omega)]
  constructor
  · rintro ⟨-, h2, h3⟩
    refine ⟨hp, h2, fun _ => ?_⟩
    obtain ⟨m, hm, h4⟩ := h3 rfl
    rw [hs m hm, wordAt_append_left le a b m (by omega)] at h4
    exact ⟨m, hm, h4⟩
  · rintro ⟨-, h2, h3⟩
    refine ⟨by simp; omega, h2, fun _ => ?_⟩
    obtain ⟨m, hm, h4⟩ := h3 rfl
    refine ⟨m, hm, ?_⟩
    rw [hs m hm, wordAt_append_left le a b m (by omega)]
    exact h4

/-- The reading loop up to the end of a number of complete records. -/
theorem nkLoop_prefix (cfg : NkCfg) (hcs : cfg.doCs = false) (tail : List ℕ) (recs : List NkRec) (s : NkState)
    (fuel : ℕ) (hrest : s.rest = recs.flatMap NkRec.encode ++ tail)
    (hwf : ∀ r ∈ recs, Spec.nkWF cfg r) (himu : Spec.imuAfterSample s.c recs) :
    ∃ im, nkLoop cfg none (fuel + recs.length) s = nkLoop cfg none fuel ⟨tail, s.c + recs.countP Spec.isSample,
      s.log ++ placedList s.c recs, im⟩ := by
  induction recs generalizing s with
  | nil =>
    have hr : s.rest = tail := by simpa using hrest
    rcases s with ⟨rest, c, log, im⟩
    simp only at hr
    subst hr
    exact ⟨im, by simp [placedList]⟩
  | cons r recs ih =>
    have h0 : r.id = 0x71 → 0 < s.c := fun h => by simpa using himu [] r recs rfl h
    have hstep := nkReadNext_record cfg hcs s r (recs.flatMap NkRec.encode ++ tail)
      (by rw [hrest]; simp) (hwf r (by simp)) h0
    rw [List.length_cons, ← add_assoc, nkLoop, hstep]
    simp only [nkResync, Bool.false_eq_true, if_false]
    obtain ⟨im, hi⟩ := ih
      ⟨recs.flatMap NkRec.encode ++ tail, s.c + (if Spec.isSample r then 1 else 0),
        s.log ++ [Spec.placed s.c r], s.imu || r.id == 0x71⟩ rfl (fun r hr => hwf r (by simp [hr])) (by
        intro pre r' post he hr'
        have := himu (r :: pre) r' post (by rw [he]; rfl) hr'
        rw [List.countP_cons] at this
        simp only
        omega)
    refine ⟨im, ?_⟩
    rw [hi]
    simp only [placedList, List.countP_cons, List.append_assoc, List.singleton_append]
    congr 2
    omega

theorem records_length_le (recs : List NkRec) : recs.length ≤ (recs.flatMap NkRec.encode).length := by
  induction recs with
  | nil => simp
  | cons r recs ih =>
    rw [List.flatMap_cons, List.length_append, List.length_cons]
    simp only [NkRec.encode, List.length_cons]
    omega

/-! ### C173: records of an unknown kind -/

/-- The reader has no function for records of this kind. -/
def Spec.unknownKind (id : ℕ) : Prop :=
  id ∉ [0x00, 0x04, 0x05, 0x07, 0x0f, 0x10, 0x11, 0x12, 0x20, 0x30, 0x31, 0x36, 0x50, 0x51, 0x71]

/-- A record with an even number of bytes, all of them bytes, whose checksum is right. -/
def Spec.intact (le : Bool) (r : NkRec) : Prop :=
  r.body.length % 2 = 0 ∧ (∀ b ∈ r.encode, b < 256) ∧ Spec.goodChecksum le [165, r.id] r.body r.k0 r.k1

theorem nkReadNext_unknown (cfg : NkCfg) (s : NkState) (id : ℕ) (rest : List ℕ) (h : Spec.unknownKind id)
    (hr : s.rest = 165 :: id :: rest) : nkReadNext cfg s = .ok (true, s) := by
  unfold Spec.unknownKind at h
  simp only [List.mem_cons, List.not_mem_nil, or_false, not_or] at h
  unfold nkReadNext
  have hid : nkReadId cfg.le s.rest = .ok ([165, id], id, rest) := by rw [hr]; rfl
  rw [hid]
  simp only
  unfold nkRecord
  have hf : nkFixedLen cfg id = none := by
    unfold nkFixedLen
    simp [h]
  rw [hf]
  simp only
  rw [if_neg (by omega), if_neg (by omega), if_neg (by omega), if_neg (by omega), ← hr]

/-- **C173 (partial).** A record of an unknown kind with the right checksum costs nothing but itself, wherever it stands:
the reader visits the other records, in file order, and puts each where it would put it without the unknown record —
provided that no place inside the unknown record looks like the end of a record, and for records whose *kind* is unknown
(see `unknown_imu_unreadable_false` for IMU records of an unknown type). -/
theorem unknown_record_skipped_partial (cfg : NkCfg) (hcs : cfg.doCs = false) (pre post : List NkRec) (u : NkRec)
    (hwf : ∀ r ∈ pre ++ post, Spec.nkWF cfg r) (himu : Spec.imuAfterSample 0 (pre ++ post))
    (hpost : ∀ b ∈ post.flatMap NkRec.encode, b < 256)
    (hk : Spec.unknownKind u.id) (hu : Spec.intact cfg.le u) (hno : ∀ p, ¬ Spec.syncAt cfg.le true u.encode p) :
    ∃ st st', nkReadfile cfg none ((pre ++ u :: post).flatMap NkRec.encode) = some (.ok st) ∧
      nkReadfile cfg none ((pre ++ post).flatMap NkRec.encode) = some (.ok st') ∧
      st.log = st'.log ∧ st.c = st'.c ∧ st.log.length = pre.length + post.length ∧
      ∀ p r q, pre ++ post = p ++ r :: q → st.log[p.length]? = some (Spec.placed (p.countP Spec.isSample) r) := by
  obtain ⟨st', h1, h2, h3, -, h5⟩ := records_placed cfg hcs (pre ++ post) hwf himu
  obtain ⟨im', h1'⟩ := nkLoop_records cfg hcs (pre ++ post) ⟨(pre ++ post).flatMap NkRec.encode, 0, [], false⟩
    (((pre ++ post).flatMap NkRec.encode).length + 1) (by have := records_length_le (pre ++ post); omega) rfl hwf himu
  have hst : st'.log = placedList 0 (pre ++ post) := by
    have := h1.symm.trans h1'
    simp only [Option.some.injEq, Except.ok.injEq] at this
    rw [this]
    simp
  obtain ⟨hl, hb, hg⟩ := hu
  suffices hmain : ∃ st, nkReadfile cfg none ((pre ++ u :: post).flatMap NkRec.encode) = some (.ok st) ∧
      st.log = placedList 0 (pre ++ post) ∧ st.c = (pre ++ post).countP Spec.isSample by
    obtain ⟨st, a1, a2, a3⟩ := hmain
    rw [← hst] at a2
    exact ⟨st, st', a1, h1, a2, a3.trans h3.symm, by rw [a2, h2, List.length_append], fun p r q e => by
      rw [a2]; exact h5 p r q e⟩
  have hbytes : (pre ++ u :: post).flatMap NkRec.encode =
      pre.flatMap NkRec.encode ++ (u.encode ++ post.flatMap NkRec.encode) := by simp
  have hpre : Spec.imuAfterSample 0 pre := by
    intro p r q e hr
    exact himu p r (q ++ post) (by rw [e]; simp) hr
  have hlp := records_length_le pre
  have hlq := records_length_le post
  obtain ⟨im, hloop⟩ := nkLoop_prefix cfg hcs (u.encode ++ post.flatMap NkRec.encode) pre
    ⟨(pre ++ u :: post).flatMap NkRec.encode, 0, [], false⟩
    (((pre ++ u :: post).flatMap NkRec.encode).length - pre.length + 1) hbytes
    (fun r hr => hwf r (by simp [hr])) hpre
  have hlenu : u.encode.length = u.body.length + 4 := by simp [NkRec.encode]
  have hlen : ((pre ++ u :: post).flatMap NkRec.encode).length =
      (pre.flatMap NkRec.encode).length + (u.body.length + 4 + (post.flatMap NkRec.encode).length) := by
    rw [hbytes, List.length_append, List.length_append, hlenu]
  unfold nkReadfile
  rw [show ((pre ++ u :: post).flatMap NkRec.encode).length + 1 =
    ((pre ++ u :: post).flatMap NkRec.encode).length - pre.length + 1 + pre.length by omega, hloop, nkLoop]
  have henc : u.encode = (165 :: u.id :: u.body) ++ [u.k0, u.k1] := by simp [NkRec.encode]
  rw [nkReadNext_unknown cfg _ u.id ((u.body ++ [u.k0, u.k1]) ++ post.flatMap NkRec.encode) hk
    (by simp [NkRec.encode])]
  simp only [nkResync, if_true]
  have hall : ∀ b ∈ u.encode ++ post.flatMap NkRec.encode, b < 256 := by
    intro b hb'
    rcases List.mem_append.mp hb' with h | h
    · exact hb b h
    · exact hpost b h
  obtain ⟨hn, hs⟩ := resync_search cfg.le true (u.encode ++ post.flatMap NkRec.encode) hall
  have hE : (165 :: u.id :: u.body).length % 2 = 0 := by simp; omega
  have hbefore : ∀ q, q < (165 :: u.id :: u.body).length / 2 + 1 →
      ¬ Spec.syncAt cfg.le true (u.encode ++ post.flatMap NkRec.encode) q := by
    intro q hq
    rw [syncAt_append cfg.le _ _ q (by rw [hlenu]; simp at hq; omega)]
    exact hno q
  rcases post with _ | ⟨r, post⟩
  · have : findnext cfg.le true (u.encode ++ ([] : List NkRec).flatMap NkRec.encode) = none := by
      rw [hn]
      intro p
      simp only [List.flatMap_nil, List.append_nil]
      exact hno p
    rw [this]
    exact ⟨_, rfl, by simp, by simp⟩
  · have hsync : Spec.syncAt cfg.le true (u.encode ++ (r :: post).flatMap NkRec.encode)
        ((165 :: u.id :: u.body).length / 2 + 1) := by
      have e : u.encode ++ (r :: post).flatMap NkRec.encode =
          (165 :: u.id :: u.body) ++ u.k0 :: u.k1 :: (r :: post).flatMap NkRec.encode := by
        simp [NkRec.encode]
      rw [e, syncAt_behind _ _ _ _ _ hE]
      refine ⟨by simp [NkRec.encode], by simp [NkRec.encode], ?_⟩
      rw [← hg, add_comm]
      rfl
    rw [(hs _ _).mpr ⟨_, hsync, hbefore, rfl, rfl⟩]
    simp only [Option.map_some]
    have hdrop : (u.encode ++ (r :: post).flatMap NkRec.encode).drop (2 * ((165 :: u.id :: u.body).length / 2 + 1)) =
        (r :: post).flatMap NkRec.encode := by
      rw [List.drop_append_of_le_length (by rw [hlenu]; simp; omega), List.drop_of_length_le (by rw [hlenu]; simp; omega)]
      rfl
    rw [hdrop]
    obtain ⟨im2, h2⟩ := nkLoop_records cfg hcs (r :: post)
      ⟨(r :: post).flatMap NkRec.encode, 0 + pre.countP Spec.isSample, [] ++ placedList 0 pre, im⟩
      (((pre ++ u :: r :: post).flatMap NkRec.encode).length - pre.length) (by omega) rfl
      (fun r hr => hwf r (List.mem_append_right _ hr)) (by
        intro p r' q e hr'
        have := himu (pre ++ p) r' q (by rw [e]; simp) hr'
        rw [List.countP_append] at this
        simp only
        omega)
    refine ⟨_, h2, ?_, ?_⟩
    · simp only [List.nil_append, zero_add]
      rw [placedList_append, zero_add]
    · simp only [List.countP_append, zero_add]

/-- A record of kind 0x80 between two samples. -/
example : ∃ st, nkReadfile ⟨true, false, false, 3, 1⟩ none
    ([⟨0x10, List.replicate 20 7, 0, 0⟩, ⟨0x80, [4, 0, 1, 2], 54, 56⟩, ⟨0x10, List.replicate 20 8, 0, 0⟩].flatMap NkRec.encode) =
      some (.ok st) ∧ st.log = [.sample 0 0x10 (List.replicate 20 7), .sample 1 0x10 (List.replicate 20 8)] := by
  have hwf : ∀ r ∈ [(⟨0x10, List.replicate 20 7, 0, 0⟩ : NkRec)] ++ [⟨0x10, List.replicate 20 8, 0, 0⟩],
      Spec.nkWF ⟨true, false, false, 3, 1⟩ r := by
    intro r hr
    simp only [List.cons_append, List.nil_append, List.mem_cons, List.not_mem_nil, or_false] at hr
    rcases hr with rfl | rfl <;> exact .inl rfl
  obtain ⟨st, st', h1, h2, -, -, h3, h4⟩ := unknown_record_skipped_partial ⟨true, false, false, 3, 1⟩ rfl
    [⟨0x10, List.replicate 20 7, 0, 0⟩] [⟨0x10, List.replicate 20 8, 0, 0⟩] ⟨0x80, [4, 0, 1, 2], 54, 56⟩ hwf (by
      intro p r q e hr
      have : r ∈ [(⟨0x10, List.replicate 20 7, 0, 0⟩ : NkRec)] ++ [⟨0x10, List.replicate 20 8, 0, 0⟩] := by rw [e]; simp
      simp only [List.cons_append, List.nil_append, List.mem_cons, List.not_mem_nil, or_false] at this
      rcases this with rfl | rfl <;> simp at hr) (by decide) (by unfold Spec.unknownKind; decide)
    ⟨rfl, by decide, by unfold Spec.goodChecksum; decide⟩ (by
      rintro p ⟨hp, h165, hc⟩
      obtain ⟨m, rfl, -⟩ := hc rfl
      have hm : m < 3 := by simp [NkRec.encode] at hp; omega
      interval_cases m <;> simp [NkRec.encode] at h165)
  refine ⟨st, h1, ?_⟩
  have g0 := h4 [] _ _ rfl
  have g1 := h4 [⟨0x10, List.replicate 20 7, 0, 0⟩] _ [] rfl
  apply List.ext_getElem?
  intro i
  rcases i with _ | _ | i
  · exact g0
  · exact g1
  · rw [List.getElem?_eq_none (by simp at h3; omega), List.getElem?_eq_none (by simp)]

/-! ### C173: IMU records of an unknown type -/

/-- **C173 is false of the code** for IMU records of an unknown type: the reader never resumes at the record behind an
intact one (unless the record announces the impossible size of 36443 words, or 23183 in the other byte order), and the next
sample that is found replaces the last one that was read. -/
theorem unknown_imu_loses_next_false (cfg : NkCfg) (s : NkState) (u : NkRec) (tail : List ℕ)
    (hrest : s.rest = u.encode ++ tail) (htail : ∀ b ∈ tail, b < 256) (hid : u.id = 0x71) (h4 : 4 ≤ u.body.length)
    (hn : nkImuLen (u.body.getD 3 0) = none) (hu : Spec.intact cfg.le u)
    (hsz : word cfg.le (u.body.getD 0 0) (u.body.getD 1 0) ≠ 65536 - word cfg.le 165 0x71) :
    ∃ s1, nkReadNext cfg s = .ok (true, s1) ∧ s1.c = s.c - 1 ∧
      ∀ s2, nkResync cfg true s1 = some s2 → s2.rest ≠ tail ∧ s2.c = s.c - 1 := by
  obtain ⟨hl, hb, hg⟩ := hu
  obtain ⟨id, body, k0, k1⟩ := u
  simp only at hid h4 hn hl hg hsz
  subst hid
  rcases body with _ | ⟨h0, _ | ⟨h1, _ | ⟨h2, _ | ⟨ahrs, body⟩⟩⟩⟩
  · simp at h4
  · simp at h4
  · simp at h4
  · simp at h4
  have hn' : nkImuLen ahrs = none := hn
  have hsz' : word cfg.le h0 h1 ≠ 65536 - word cfg.le 165 0x71 := hsz
  clear hsz
  have hr : s.rest = 165 :: 0x71 :: h0 :: h1 :: h2 :: ahrs :: (body ++ k0 :: k1 :: tail) := by
    rw [hrest]; simp [NkRec.encode]
  refine ⟨_, unknown_imu_rewinds cfg s h0 h1 h2 ahrs _ hr hn', rfl, ?_⟩
  intro s2 h
  unfold nkResync at h
  rw [if_pos rfl] at h
  simp only [Option.map_eq_some_iff] at h
  obtain ⟨⟨id', r⟩, hf, rfl⟩ := h
  refine ⟨?_, rfl⟩
  simp only
  rintro rfl
  have hmem : ∀ b ∈ h2 :: ahrs :: (body ++ k0 :: k1 :: r), b < 256 := by
    intro b hb'
    have : b ∈ NkRec.encode ⟨0x71, h0 :: h1 :: h2 :: ahrs :: body, k0, k1⟩ ∨ b ∈ r := by
      simp only [NkRec.encode, List.mem_cons, List.mem_append, List.not_mem_nil, or_false, List.cons_append] at hb' ⊢
      clear * - hb'
      tauto
    rcases this with h | h
    · exact hb b h
    · exact htail b h
  obtain ⟨p, hp, -, hd, -⟩ := ((resync_search cfg.le true _ hmem).2 id' r).mp hf
  have hlen : 2 * p = (h2 :: ahrs :: body).length + 2 := by
    have e := congrArg List.length hd
    have hlt := hp.1
    rw [List.length_drop] at e
    simp only [List.length_cons, List.length_append] at e hlt ⊢
    omega
  have hev : (h2 :: ahrs :: body).length % 2 = 0 := by simp at hl ⊢; omega
  obtain rfl : p = (h2 :: ahrs :: body).length / 2 + 1 := by omega
  have e : h2 :: ahrs :: (body ++ k0 :: k1 :: r) = (h2 :: ahrs :: body) ++ k0 :: k1 :: r := by simp
  rw [e, syncAt_behind _ _ _ _ _ hev] at hp
  have hsum := hp.2.2
  unfold Spec.goodChecksum at hg
  rw [hsum] at hg
  have hw : words cfg.le ([165, 0x71] ++ h0 :: h1 :: h2 :: ahrs :: body) =
      word cfg.le 165 0x71 :: word cfg.le h0 h1 :: words cfg.le (h2 :: ahrs :: body) := by
    simp [words]
  rw [hw, List.sum_cons, List.sum_cons] at hg
  have b0 : h0 < 256 := hb h0 (by simp [NkRec.encode])
  have b1 : h1 < 256 := hb h1 (by simp [NkRec.encode])
  have w1 : word cfg.le h0 h1 < 65536 := by unfold word; split <;> omega
  have w2 : 0 < word cfg.le 165 0x71 ∧ word cfg.le 165 0x71 < 65536 := by unfold word; split <;> omega
  generalize (words cfg.le (h2 :: ahrs :: body)).sum = S at *
  generalize word cfg.le h0 h1 = W at *
  generalize word cfg.le 165 0x71 = V at *
  omega

example : nkImuLen ((⟨0x71, 24 :: 0 :: 1 :: 210 :: List.replicate 40 0, 74, 249⟩ : NkRec).body.getD 3 0) = none ∧
    Spec.intact true ⟨0x71, 24 :: 0 :: 1 :: 210 :: List.replicate 40 0, 74, 249⟩ ∧
    word true 24 0 ≠ 65536 - word true 165 0x71 := by
  refine ⟨by decide, ⟨rfl, by decide, by unfold Spec.goodChecksum; decide⟩, by decide⟩

/-- The number of samples that were stored, and the counter at the end. -/
def Spec.sampleCount : Option (Except Err NkState) → Option (ℕ × ℕ)
  | some (.ok st) => some (st.log.countP fun w => match w with | .sample _ _ _ => true | _ => false, st.c)
  | _ => none

/-- A sample record with the right checksum. -/
def exIntactSample (v : ℕ) : NkRec :=
  ⟨0x10, v :: List.replicate 19 0, (0xb58c + 0x10a5 + v) % 256, (0xb58c + 0x10a5 + v) / 256⟩

/-- An IMU record of type 210, 48 bytes, with the right checksum. -/
def exImu210 : NkRec := ⟨0x71, 24 :: 0 :: 1 :: 210 :: List.replicate 40 0, 74, 249⟩

/-- **C173 is false of the code**, an example: of four samples behind a first one and an IMU record of type 210, all with the
right checksums, none is read; the first sample is in the way of the next. -/
theorem unknown_imu_loses_rest_false :
    (∀ v < 5, Spec.goodChecksum true [165, 0x10] (exIntactSample v).body (exIntactSample v).k0 (exIntactSample v).k1) ∧
    Spec.goodChecksum true [165, 0x71] exImu210.body exImu210.k0 exImu210.k1 ∧
    Spec.sampleCount (nkReadfile exCfg none
      ((exIntactSample 0 :: [1, 2, 3, 4].map exIntactSample).flatMap NkRec.encode)) = some (5, 5) ∧
    Spec.sampleCount (nkReadfile exCfg none
      ((exIntactSample 0 :: exImu210 :: [1, 2, 3, 4].map exIntactSample).flatMap NkRec.encode)) = some (1, 0) := by
  unfold Spec.goodChecksum
  decide +kernel

theorem vecStore_other {le : Bool} {scale : ℚ} {fl : List ℕ → ℝ} {N : ℕ} (us : List NkWrite)
    (h : ∀ w ∈ us, ∃ id body, w = .other id body) (s : VecRaw) : vecStore le scale fl N s us = .ok s := by
  induction us with
  | nil => rfl
  | cons w us ih =>
    obtain ⟨id, body, rfl⟩ := h w (by simp)
    rw [vecStore, vecPut]
    exact ih fun w hw => h w (by simp [hw])

/-- Entries that have nothing to do with the IMU. -/
def Spec.noImu : NkWrite → Prop
  | .imu _ _ _ => False
  | .other id _ => id ≠ 0x71
  | _ => True

theorem imuExtra_append (b : Bool) (us vs : List NkWrite) (h : ∀ w ∈ us, Spec.noImu w) :
    imuExtra b (us ++ vs) = imuExtra b vs := by
  induction us with
  | nil => rfl
  | cons w us ih =>
    have h1 := h w (by simp)
    have h2 := ih fun w hw => h w (by simp [hw])
    rw [List.cons_append]
    cases w with
    | imu c a body => exact h1.elim
    | other id body => rw [imuExtra, if_neg h1]; exact h2
    | sample c id body => exact h2
    | sys c body => exact h2

theorem imuExtra_unknowns (b : Bool) (as : List ℕ) (h : ∀ a ∈ as, a ≠ 210) (c a : ℕ) (body : List ℕ) (vs us : List NkWrite)
    (hu : ∀ w ∈ us, Spec.noImu w) :
    imuExtra b (as.map (fun a => .other 0x71 [a]) ++ (us ++ .imu c a body :: vs)) = .ok as.length := by
  induction as generalizing b with
  | nil =>
    rw [List.map_nil, List.nil_append, imuExtra_append _ _ _ hu]
    rfl
  | cons a as ih =>
    have : a ≠ 210 := h a (by simp)
    rw [List.map_cons, List.cons_append, imuExtra, if_pos rfl, if_neg (by simpa using this),
      ih true fun a ha => h a (by simp [ha])]
    rfl

theorem imuExtra_only (as : List ℕ) (h : ∀ a ∈ as, a ≠ 210) (us : List NkWrite) (hu : ∀ w ∈ us, Spec.noImu w)
    (b : Bool) (hb : b = true ∨ as ≠ []) :
    imuExtra b (as.map (fun a => .other 0x71 [a]) ++ us) = .error .attributeError := by
  induction as generalizing b with
  | nil =>
    have : b = true := by simpa using hb
    rw [List.map_nil, List.nil_append, ← List.append_nil us, imuExtra_append _ _ _ hu, this]
    rfl
  | cons a as ih =>
    have : a ≠ 210 := h a (by simp)
    rw [List.map_cons, List.cons_append, imuExtra, if_pos rfl, if_neg (by simpa using this),
      ih (fun a ha => h a (by simp [ha])) true (.inl rfl)]

theorem placedList_noImu {k : ℕ} {recs : List NkRec} (h : ∀ r ∈ recs, r.id ≠ 0x71) : ∀ w ∈ placedList k recs, Spec.noImu w := by
  intro w hw
  obtain ⟨pre, r, post, e, hw'⟩ := (mem_placedList recs k).mp hw
  cases w with
  | imu c a body => exact absurd (placed_imu hw').1 (h r (by rw [e]; simp))
  | other id body => exact placed_other hw'
  | _ => trivial

/-- **C173 is false of the code**: a recording of a Vector without an IMU is read, but with an IMU record of an unknown type at
its end — of which the first six bytes are enough — it is not: `AttributeError`, or `KeyError` for type 210. -/
theorem unknown_imu_unreadable_false {cfg : NkCfg} {fs : ℚ} {t0 : ℝ} {recs : List NkRec}
    (h : Spec.VecRecording cfg fs t0 204 recs) (hno : ∀ r ∈ recs, r.id ≠ 0x71) (hcs : cfg.doCs = false)
    (hfs : 0 < fs) (ht0 : 0 < t0) (scale : ℚ) (fl : List ℕ → ℝ) (N : ℕ)
    (hN : recs.countP Spec.isSample ≤ N) (hN' : ∀ k r, Spec.sysAt recs k r → k < N)
    (h0 h1 h2 a : ℕ) (hh2 : h2 < 256) (ha : a < 256) (hn : nkImuLen a = none) :
    (∃ ds, vecRead cfg scale fl N 0 fs (recs.flatMap NkRec.encode) = some (.ok ds)) ∧
    vecRead cfg scale fl N 0 fs (recs.flatMap NkRec.encode ++ [165, 0x71, h0, h1, h2, a]) =
      some (.error (if a = 210 then .keyError else .attributeError)) := by
  refine ⟨(vector_file_partial h (by simp) hcs hfs ht0 scale fl N hN hN').imp fun ds hd => hd.1, ?_⟩
  obtain ⟨s, hs, -⟩ := recording_stored h.records (by simp) scale fl N hN hN'
  obtain ⟨im, hloop⟩ := nkLoop_prefix cfg hcs [165, 0x71, h0, h1, h2, a] recs
    ⟨recs.flatMap NkRec.encode ++ [165, 0x71, h0, h1, h2, a], 0, [], false⟩
    ((recs.flatMap NkRec.encode ++ [165, 0x71, h0, h1, h2, a]).length - recs.length + 1) rfl h.wf h.imuLate
  have hl := records_length_le recs
  have hread : nkReadfile cfg none (recs.flatMap NkRec.encode ++ [165, 0x71, h0, h1, h2, a]) =
      some (.ok ⟨[h2, a], recs.countP Spec.isSample - 1, placedList 0 recs ++ [.other 0x71 [a]], true⟩) := by
    unfold nkReadfile
    rw [show (recs.flatMap NkRec.encode ++ [165, 0x71, h0, h1, h2, a]).length + 1 =
      (recs.flatMap NkRec.encode ++ [165, 0x71, h0, h1, h2, a]).length - recs.length + 1 + recs.length by
        rw [List.length_append]; omega, hloop, nkLoop,
      unknown_imu_rewinds cfg _ h0 h1 h2 a [] rfl hn]
    have hf : findnext cfg.le true [h2, a] = none := by
      rw [(resync_search cfg.le true [h2, a] (by simp [hh2, ha])).1]
      rintro p ⟨hp, -, h3⟩
      obtain ⟨m, rfl, -⟩ := h3 rfl
      simp at hp
    simp only [nkResync, if_true, hf, Option.map_none, zero_add, List.nil_append]
  unfold vecRead
  rw [hread]
  simp only
  rw [vecStore_append, hs]
  simp only
  rw [vecStore_other [.other 0x71 [a]] (by simp) s]
  simp only
  rw [imuExtra_append _ _ _ (placedList_noImu hno)]
  by_cases h210 : a = 210
  · subst h210; rfl
  · rw [if_neg h210, show [NkWrite.other 0x71 [a]] = [a].map (fun a => .other 0x71 [a]) ++ [] from rfl,
      imuExtra_only [a] (by simpa using h210) [] (by simp) false (by simp)]

example : vecRead exCfg 1 (fun _ => 0) 3 0 1 (exVecRecs.flatMap NkRec.encode ++ [165, 0x71, 36, 0, 1, 7]) =
    some (.error .attributeError) :=
  (unknown_imu_unreadable_false exVecRecs_recording (by decide) rfl (by norm_num) (by norm_num) 1 (fun _ => 0) 3
    (by decide) (fun k r hk => (exVecRecs_sysAt hk).1) 36 0 1 7 (by omega) (by omega) (by decide)).2

/-! ### C173: repeated conversion -/

theorem imuNVars_nan {N : ℕ} {r : VecRaw} {imu imu' : ℕ → Option ImuSample}
    (h : ∀ i, (imu i).isNone = (imu' i).isNone) (hm : ∀ i, ((imu i).bind fun d => d.mag).isNone = ((imu' i).bind fun d => d.mag).isNone)
    (t : ℕ → Option ℝ) : nanCount N t (imuNVars N r imu) = nanCount N t (imuNVars N r imu') := by
  unfold nanCount
  apply List.countP_congr
  intro i _
  have n1 : isImuName "accel" = true := by decide
  have n2 : isImuName "angrt" = true := by decide
  have n3 : isImuName "mag" = true := by decide
  have hmi := hm i
  have hi := h i
  unfold nanMask imuNVars
  cases r.first with
  | none => rfl
  | some f =>
    rcases h1 : imu i with _ | d <;> rcases h2 : imu' i with _ | d' <;> rw [h1, h2] at hi hmi
    · by_cases hf : imuHasMag f = true <;> simp [hf, nanMark, n1, n2, n3, h1, h2]
    · simp at hi
    · simp at hi
    · rcases h3 : d.mag with _ | m <;> rcases h4 : d'.mag with _ | m' <;> simp [h3, h4] at hmi <;>
      by_cases hf : imuHasMag f = true <;> simp [hf, nanMark, n1, n2, n3, h1, h2, h3, h4]

theorem sciImu_iterate_mag (fs : ℝ) (a k : ℕ) (d : ImuSample) : ((sciImu fs a)^[k] d).mag.isNone = d.mag.isNone := by
  induction k generalizing d with
  | zero => rfl
  | succ k ih =>
    rw [Function.iterate_succ_apply, ih]
    simp [sciImu]

/-- Further runs of the conversion change the IMU variables only. -/
theorem vecSci_extra {N nburst : ℕ} {fs : ℚ} {r : VecRaw} {hasSys : Bool} {ds : VecDs} (k : ℕ)
    (h : vecSci N nburst fs r 0 hasSys = .ok ds) :
    vecSci N nburst fs r k hasSys = .ok { ds with imu := fun i => (ds.imu i).map (sciImu fs r.last)^[k] } := by
  unfold vecSci at h ⊢
  cases hasSys with
  | false => simp at h
  | true =>
    rw [if_pos rfl] at h ⊢
    have hn : ∀ t, nanCount N t (imuNVars N r fun i => (r.imu i).map (sciImu fs r.last)^[k + 1]) =
        nanCount N t (imuNVars N r fun i => (r.imu i).map (sciImu fs r.last)^[0 + 1]) := by
      intro t
      apply imuNVars_nan
      · intro i; simp
      · intro i
        cases r.imu i with
        | none => rfl
        | some d => simp only [Option.map_some, Option.bind_some, sciImu_iterate_mag]
    simp only [handleNan, hn] at h ⊢
    by_cases hN : N = 0
    · simp [hN] at h
    · simp only [hN, if_false] at h ⊢
      split at h
      · cases h
      · rename_i tm htm
        replace h := Except.ok.inj h
        subst h
        congr 2
        funext i
        simp only
        cases r.imu i with
        | none => rfl
        | some d => simp only [Option.map_some, zero_add, Function.iterate_one, Function.iterate_succ_apply]

theorem imuLast_skip (last : ℕ) (us : List NkWrite) (as : List ℕ) (ws : List NkWrite) (h : ∀ a ∈ as, a ≠ 210) :
    imuLast last (us ++ (as.map (fun a => NkWrite.other 0x71 [a]) ++ ws)) = imuLast last (us ++ ws) := by
  have h0 : ∀ l, imuLast l (as.map (fun a => NkWrite.other 0x71 [a]) ++ ws) = imuLast l ws := by
    intro l
    induction as with
    | nil => rfl
    | cons a as ih =>
      rw [List.map_cons, List.cons_append, imuLast, if_neg (by simpa using h a (by simp))]
      exact ih fun a ha => h a (by simp [ha])
  induction us generalizing last with
  | nil => exact h0 last
  | cons w us ih =>
    cases w with
    | imu c a body => exact ih a
    | other id body =>
      rw [List.cons_append, List.cons_append, imuLast, imuLast]
      split
      · exact ih 210
      · exact ih last
    | sample c id body => exact ih last
    | sys c body => exact ih last

/-- Each conversion turns the axes and scales the acceleration. -/
theorem sciImu_iterate_accel (fs : ℝ) (a k : ℕ) (d : ImuSample) :
    ∑ i, ((sciImu fs a)^[k] d).accel i ^ 2 =
      ((9.80665 * if a = 195 ∨ a = 211 then fs else 1) ^ k) ^ 2 * ∑ i, d.accel i ^ 2 := by
  induction k generalizing d with
  | zero => simp
  | succ k ih =>
    rw [Function.iterate_succ_apply, ih]
    generalize hc : (if a = 195 ∨ a = 211 then fs else 1) = c
    simp only [sciImu, hc, Fin.sum_univ_three, msAxes, Matrix.cons_val_zero, Matrix.cons_val_one, Matrix.cons_val]
    ring

/-- **C173 is false of the code**: when the records of a file end up as they would without `as`, IMU records of unknown
types in front of the first one that can be decoded, the whole IMU data is converted once more for each of them. The dataset
is otherwise the same; the accelerations are too large by the factor `9.80665` (times `fs` for types 195 and 211) for each. -/
theorem unknown_imu_converts_again_false {cfg : NkCfg} {scale : ℚ} {fl : List ℕ → ℝ} {N nburst : ℕ} {fs : ℚ}
    {bytes bytes' : List ℕ} {st st' : NkState} {A B C : List NkWrite} {as : List ℕ} {c a : ℕ} {body : List ℕ} {ds : VecDs}
    (h : nkReadfile cfg none bytes = some (.ok st)) (h' : nkReadfile cfg none bytes' = some (.ok st'))
    (hl : st.log = A ++ (B ++ .imu c a body :: C))
    (hl' : st'.log = A ++ (as.map (fun a => .other 0x71 [a]) ++ (B ++ .imu c a body :: C)))
    (hA : ∀ w ∈ A, Spec.noImu w) (hB : ∀ w ∈ B, Spec.noImu w) (h210 : ∀ a ∈ as, a ≠ 210)
    (hr : vecRead cfg scale fl N nburst fs bytes = some (.ok ds)) :
    ∃ ds' t, vecRead cfg scale fl N nburst fs bytes' = some (.ok ds') ∧
      ds' = { ds with imu := fun i => (ds.imu i).map (sciImu fs t)^[as.length] } ∧ t = imuLast 0 st.log ∧
      ∀ i d, ds.imu i = some d → ∃ d', ds'.imu i = some d' ∧ ∑ j, d'.accel j ^ 2 =
        ((9.80665 * if t = 195 ∨ t = 211 then (fs : ℝ) else 1) ^ as.length) ^ 2 * ∑ j, d.accel j ^ 2 := by
  unfold vecRead at hr
  rw [h] at hr
  simp only at hr
  cases hs : vecStore cfg.le scale fl N vecRaw0 st.log with
  | error e => rw [hs] at hr; simp at hr
  | ok r =>
    rw [hs] at hr
    simp only at hr
    have hx : imuExtra false st.log = .ok 0 := by
      rw [hl, imuExtra_append _ _ _ hA]
      exact imuExtra_unknowns false [] (by simp) c a body C B hB
    have hx' : imuExtra false st'.log = .ok as.length := by
      rw [hl', imuExtra_append _ _ _ hA]
      exact imuExtra_unknowns false as h210 c a body C B hB
    have hs' : vecStore cfg.le scale fl N vecRaw0 st'.log = .ok r := by
      rw [hl, vecStore_append] at hs
      rw [hl', vecStore_append]
      cases hA' : vecStore cfg.le scale fl N vecRaw0 A with
      | error e => rw [hA'] at hs; simp at hs
      | ok s =>
        rw [hA'] at hs
        simp only at hs ⊢
        rw [vecStore_append, vecStore_other _ (by simp)]
        exact hs
    have hany : st'.log.any NkWrite.isSys = st.log.any NkWrite.isSys := by
      have h0 : (as.map (fun a => NkWrite.other 0x71 [a])).any NkWrite.isSys = false := by
        simp [NkWrite.isSys]
      simp only [hl, hl', List.any_append, h0, Bool.false_or]
    have hlast : ∀ l, imuLast l st'.log = imuLast l st.log := by
      intro l
      rw [hl, hl', imuLast_skip _ _ _ _ h210]
    have hlast0 : imuLast r.last st.log = imuLast 0 st.log := by
      have key : ∀ (us : List NkWrite) l l', imuLast l (us ++ .imu c a body :: C) = imuLast l' (us ++ .imu c a body :: C) := by
        intro us
        induction us with
        | nil => intro l l'; rfl
        | cons w us ih =>
          intro l l'
          cases w with
          | imu c a body => rfl
          | other id body =>
            rw [List.cons_append, imuLast, imuLast]
            split
            · rfl
            · exact ih l l'
          | sample c id body => exact ih l l'
          | sys c body => exact ih l l'
      rw [hl, ← List.append_assoc]
      exact key _ _ _
    rw [hx] at hr
    simp only at hr
    have hv := vecSci_extra as.length (Option.some.inj hr)
    refine ⟨_, imuLast 0 st.log, ?_, rfl, rfl, ?_⟩
    · unfold vecRead
      rw [h']
      simp only
      rw [hs']
      simp only
      rw [hx', hlast, hany]
      simp only
      rw [hv]
      simp only [hlast0]
    · intro i d hd
      refine ⟨(sciImu fs (imuLast 0 st.log))^[as.length] d, by simp only [hd, Option.map_some], ?_⟩
      exact sciImu_iterate_accel fs _ _ d

/-- A recording of three samples with one IMU record, behind the first sample. -/
def exUnrImuRecs : List NkRec :=
  [⟨0x11, (exSys 0).bytes true, 0, 0⟩, ⟨0x10, (exVals (-1234)).bytes true, 0, 0⟩,
   ⟨0x71, 43 :: 0 :: 1 :: 204 :: List.replicate 78 0, 0, 0⟩,
   ⟨0x11, (exSys 1).bytes true, 0, 0⟩, ⟨0x10, (exVals 20).bytes true, 0, 0⟩,
   ⟨0x11, (exSys 2).bytes true, 0, 0⟩, ⟨0x10, (exVals 3000).bytes true, 0, 0⟩]

theorem exUnrImuRecs_sysAt {k : ℕ} {r : NkRec} (h : Spec.sysAt exUnrImuRecs k r) :
    k < 3 ∧ r = ⟨0x11, (exSys k).bytes true, 0, 0⟩ := by
  obtain ⟨pre, post, e, h1, h2⟩ := h
  obtain ⟨h3, h4, h5, -⟩ := split_idx e
  have key : ∀ i < 7, ∀ r ∈ exUnrImuRecs[i]?, r.id = 0x11 → (exUnrImuRecs.take i).countP Spec.isSample < 3 ∧
      exUnrImuRecs[i]? = some ⟨0x11, (exSys ((exUnrImuRecs.take i).countP Spec.isSample)).bytes true, 0, 0⟩ := by
    intro i hi
    match i, hi with
    | 0, _ => intro r _ _; exact ⟨by decide, rfl⟩
    | 1, _ => intro r hr h; rw [show exUnrImuRecs[1]? = some _ from rfl] at hr; cases hr; simp at h
    | 2, _ => intro r hr h; rw [show exUnrImuRecs[2]? = some _ from rfl] at hr; cases hr; simp at h
    | 3, _ => intro r _ _; exact ⟨by decide, rfl⟩
    | 4, _ => intro r hr h; rw [show exUnrImuRecs[4]? = some _ from rfl] at hr; cases hr; simp at h
    | 5, _ => intro r _ _; exact ⟨by decide, rfl⟩
    | 6, _ => intro r hr h; rw [show exUnrImuRecs[6]? = some _ from rfl] at hr; cases hr; simp at h
  have := key pre.length h3 r h4 h1
  rw [← h5, h2] at this
  refine ⟨this.1, ?_⟩
  have h6 := this.2
  rw [h4, Option.some.injEq] at h6
  exact h6

theorem exUnrImuRecs_recording : Spec.VecRecording exCfg 1 1339502400 204 exUnrImuRecs := by
  have hmem : ∀ r ∈ exUnrImuRecs, r ∈ exVecRecs ∨ r = ⟨0x71, 43 :: 0 :: 1 :: 204 :: List.replicate 78 0, 0, 0⟩ := by
    intro r hr
    simp only [exUnrImuRecs, exVecRecs, List.mem_cons, List.not_mem_nil, or_false] at hr ⊢
    tauto
  have ho := exVecRecs_recording
  have key2 : ∀ b, b = 0x11 ∨ b = 0x71 → ∀ i < 7, ∀ j < 7, (exUnrImuRecs[i]?.map NkRec.id) = some b →
      (exUnrImuRecs[i + 1 + j]?.map NkRec.id) = some b → 0 < ((exUnrImuRecs.drop (i + 1)).take j).countP Spec.isSample := by
    rintro b (rfl | rfl)
    · decide
    · decide
  have one : ∀ b, b = 0x11 ∨ b = 0x71 → ∀ pre r mid q post, exUnrImuRecs = pre ++ r :: (mid ++ q :: post) → r.id = b → q.id = b →
      0 < mid.countP Spec.isSample := by
    intro b hb pre r mid q post e h1 h2
    have e' : exUnrImuRecs = (pre ++ r :: mid) ++ q :: post := by rw [e]; simp
    obtain ⟨a1, a2, a3, a4⟩ := split_idx e
    obtain ⟨b1, b2, b3, b4⟩ := split_idx e'
    have hm : mid = (exUnrImuRecs.drop (pre.length + 1)).take mid.length := by rw [← a4]; simp
    have hlen : pre.length + 1 + mid.length = (pre ++ r :: mid).length := by simp; omega
    have : exUnrImuRecs.length = 7 := rfl
    rw [hm]
    exact key2 b hb pre.length (by omega) mid.length (by omega) (by rw [a2, Option.map_some, h1]) (by
      rw [hlen, b2, Option.map_some, h2])
  refine ⟨?_, ?_, ?_, ?_, ?_, one 0x11 (.inl rfl), one 0x71 (.inr rfl), ?_, ?_, ?_⟩
  · intro r hr
    rcases hmem r hr with h | rfl
    · exact ho.wf r h
    · exact .inr (.inr ⟨rfl, 78, rfl, rfl⟩)
  · intro r hr
    rcases hmem r hr with h | rfl
    · exact ho.vector r h
    · simp
  · intro r hr h
    rcases hmem r hr with h' | rfl
    · exact ho.vals r h' h
    · simp at h
  · intro r hr h
    rcases hmem r hr with h' | rfl
    · exact ho.sysvals r h' h
    · simp at h
  · intro r hr h
    rcases hmem r hr with h' | rfl
    · exact ho.imuType r h' h
    · rfl
  · intro pre r post e h
    obtain ⟨a1, a2, a3, -⟩ := split_idx e
    have key : ∀ i < 7, (exUnrImuRecs[i]?.map NkRec.id) = some 0x71 → 0 < (exUnrImuRecs.take i).countP Spec.isSample := by decide
    have := key pre.length a1 (by rw [a2, Option.map_some, h])
    rw [← a3] at this
    omega
  · intro k r x hr e hx
    obtain ⟨hk, rfl⟩ := exUnrImuRecs_sysAt hr
    have h1 := vecSysVals_decoded true x hx
    have h2 := vecSysVals_decoded true (exSys k) (exSys_ok k hk)
    have e' : (exSys k).bytes true = x.bytes true := e
    rw [← e', h2] at h1
    have h3 : (exSys k).t = x.t := congrArg VecSys.time (Except.ok.inj h1)
    rw [← h3]
    have : k = 0 ∨ k = 1 ∨ k = 2 := by omega
    rcases this with rfl | rfl | rfl
    · have : date2epoch (exSys 0).t 0 = 1339502400 := by decide +kernel
      rw [this]; norm_num
    · have : date2epoch (exSys 1).t 0 = 1339502401 := by decide +kernel
      rw [this]; norm_num
    · have : date2epoch (exSys 2).t 0 = 1339502402 := by decide +kernel
      rw [this]; norm_num
  · refine ⟨0, 1, 2, by omega, by omega, ⟨_, [], _, rfl, rfl, rfl⟩,
      ⟨_, exUnrImuRecs.take 3, _, rfl, rfl, by decide⟩, ⟨_, exUnrImuRecs.take 5, _, rfl, rfl, by decide⟩⟩

/-- The same with an IMU record of type 7 before the other one. -/
def exImuBytes : List ℕ :=
  (exUnrImuRecs.take 2).flatMap NkRec.encode ++
    ([165, 0x71, 0x5b, 0x8e, 0, 7, 0x8c, 0xbc] ++ (exUnrImuRecs.drop 2).flatMap NkRec.encode)

/-- The log of a file that is read. -/
def nkLogOf : Option (Except Err NkState) → Option (List NkWrite)
  | some (.ok st) => some st.log
  | _ => none

theorem exImu_logs : nkLogOf (nkReadfile exCfg none (exUnrImuRecs.flatMap NkRec.encode)) = some (placedList 0 exUnrImuRecs) ∧
    nkLogOf (nkReadfile exCfg none exImuBytes) =
      some (placedList 0 (exUnrImuRecs.take 2) ++ .other 0x71 [7] :: (placedList 0 exUnrImuRecs).drop 2) := by
  decide +kernel

theorem nkLogOf_some {x : Option (Except Err NkState)} {l : List NkWrite} (h : nkLogOf x = some l) :
    ∃ st, x = some (.ok st) ∧ st.log = l := by
  unfold nkLogOf at h
  split at h
  · exact ⟨_, rfl, Option.some.inj h⟩
  · cases h

/-- With an IMU that reports an acceleration of 1 in each direction the file gives `9.80665²` times the right acceleration. -/
example : ∃ ds ds' d d', vecRead exCfg 1 (fun _ => 1) 3 0 1 (exUnrImuRecs.flatMap NkRec.encode) = some (.ok ds) ∧
    vecRead exCfg 1 (fun _ => 1) 3 0 1 exImuBytes = some (.ok ds') ∧ ds.imu 0 = some d ∧ ds'.imu 0 = some d' ∧
    ds'.vel = ds.vel ∧ ∑ j, d'.accel j ^ 2 = 9.80665 ^ 2 * ∑ j, d.accel j ^ 2 := by
  obtain ⟨ds, h1, -, -, -, -, -, h2, -⟩ := vector_file_partial exUnrImuRecs_recording (by simp) rfl (by norm_num) (by norm_num) 1
    (fun _ => 1) 3 (by decide) (fun k r hk => (exUnrImuRecs_sysAt hk).1)
  obtain ⟨st, a1, a2⟩ := nkLogOf_some exImu_logs.1
  obtain ⟨st', b1, b2⟩ := nkLogOf_some exImu_logs.2
  have hd := (h2 0 _ ⟨exUnrImuRecs.take 2, _, rfl, rfl, by decide⟩).1
  obtain ⟨ds', t, c1, c2, c3, c4⟩ := unknown_imu_converts_again_false (A := placedList 0 (exUnrImuRecs.take 2)) (B := [])
    (C := (placedList 0 exUnrImuRecs).drop 3) (as := [7]) a1 b1 a2 b2 (by
      intro w hw
      simp only [exUnrImuRecs, List.take, placedList, List.mem_cons, List.not_mem_nil, or_false] at hw
      rcases hw with rfl | rfl <;> trivial) (by simp) (by simp) h1
  obtain ⟨d', e1, e2⟩ := c4 0 _ hd
  have ht : t = 204 := by rw [c3, a2]; decide +kernel
  refine ⟨ds, ds', _, d', h1, c1, hd, e1, by rw [c2], ?_⟩
  rw [e2, ht]
  norm_num

end Dolfyn
