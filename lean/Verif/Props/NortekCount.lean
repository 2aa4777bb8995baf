import Verif.Props.Nortek

/-! C79, C80: how many records a limited reading stores, and how long records are. -/

namespace Dolfyn

/-- The loop on complete records until the wanted number of samples is there. -/
theorem nkLoop_until (cfg : NkCfg) (hcs : cfg.doCs = false) (n : ℕ) (pre post : List NkRec) (r : NkRec)
    (hr : Spec.isSample r = true) (s : NkState) (fuel : ℕ) (hf : pre.length < fuel)
    (hrest : s.rest = (pre ++ r :: post).flatMap NkRec.encode)
    (hwf : ∀ q ∈ pre ++ r :: post, Spec.nkWF cfg q) (himu : Spec.imuAfterSample s.c (pre ++ r :: post))
    (hn : s.c + pre.countP Spec.isSample + 1 = n) :
    nkLoop cfg (some n) fuel s = some (.ok (nkExtra cfg ⟨post.flatMap NkRec.encode, n,
      s.log ++ placedList s.c (pre ++ [r]), s.imu || pre.any (fun q => q.id == 0x71)⟩)) := by
  induction pre generalizing s fuel with
  | nil =>
    rcases fuel with _ | fuel
    · simp at hf
    have h71 : r.id ≠ 0x71 := by
      rintro h
      rw [Spec.isSample, h] at hr
      simp at hr
    have hstep := nkReadNext_record cfg hcs s r (post.flatMap NkRec.encode)
      (by rw [hrest]; simp) (hwf r (by simp)) (fun h => absurd h h71)
    rw [nkLoop, hstep]
    simp only [nkResync, Bool.false_eq_true, if_false, hr, if_true]
    have hn' : s.c + 1 = n := by simpa using hn
    rw [if_pos (by omega)]
    have hb : (r.id == 0x71) = false := by simpa using h71
    simp [placedList, hb, hn']
  | cons q pre ih =>
    rcases fuel with _ | fuel
    · simp at hf
    have h0 : q.id = 0x71 → 0 < s.c := fun h => by simpa using himu [] q (pre ++ r :: post) rfl h
    have hstep := nkReadNext_record cfg hcs s q ((pre ++ r :: post).flatMap NkRec.encode)
      (by rw [hrest]; simp) (hwf q (by simp)) h0
    rw [List.countP_cons] at hn
    rw [nkLoop, hstep]
    simp only [nkResync, Bool.false_eq_true, if_false]
    rw [if_neg (by omega)]
    rw [ih _ fuel (by simp at hf; omega) rfl (fun x hx => hwf x (by simp at hx ⊢; tauto)) (by
      intro p x t he hx
      have := himu (q :: p) x t (by rw [List.cons_append, he]; rfl) hx
      rw [List.countP_cons] at this
      simp only
      omega) (by simp only; omega)]
    simp [placedList, Bool.or_assoc]

/-- The loop on complete records when there are fewer samples than wanted. -/
theorem nkLoop_all (cfg : NkCfg) (hcs : cfg.doCs = false) (n : ℕ) (recs : List NkRec) (s : NkState)
    (fuel : ℕ) (hf : recs.length < fuel) (hrest : s.rest = recs.flatMap NkRec.encode)
    (hwf : ∀ r ∈ recs, Spec.nkWF cfg r) (himu : Spec.imuAfterSample s.c recs)
    (hn : s.c + recs.countP Spec.isSample < n) :
    nkLoop cfg (some n) fuel s = some (.ok ⟨[], s.c + recs.countP Spec.isSample,
      s.log ++ placedList s.c recs, s.imu || recs.any (fun q => q.id == 0x71)⟩) := by
  induction recs generalizing s fuel with
  | nil =>
    rcases fuel with _ | fuel
    · simp at hf
    have hr : s.rest = [] := by simpa using hrest
    rcases s with ⟨rest, c, log, im⟩
    simp only at hr
    subst hr
    rw [nkLoop]
    simp [nkReadNext, nkReadId, placedList]
  | cons q recs ih =>
    rcases fuel with _ | fuel
    · simp at hf
    have h0 : q.id = 0x71 → 0 < s.c := fun h => by simpa using himu [] q recs rfl h
    have hstep := nkReadNext_record cfg hcs s q (recs.flatMap NkRec.encode)
      (by rw [hrest]; simp) (hwf q (by simp)) h0
    rw [List.countP_cons] at hn
    rw [nkLoop, hstep]
    simp only [nkResync, Bool.false_eq_true, if_false]
    rw [if_neg (by omega)]
    rw [ih _ fuel (by simp at hf; omega) rfl (fun x hx => hwf x (by simp [hx])) (by
      intro p x t he hx
      have := himu (q :: p) x t (by rw [he]; rfl) hx
      rw [List.countP_cons] at this
      simp only
      omega) (by simp only; omega)]
    simp only [placedList, List.countP_cons, List.append_assoc, List.singleton_append, List.any_cons, Bool.or_assoc]
    congr 3
    omega

theorem encode_length (recs : List NkRec) : recs.length ≤ (recs.flatMap NkRec.encode).length := by
  induction recs with
  | nil => simp
  | cons r recs ih =>
    rw [List.flatMap_cons, List.length_append, List.length_cons]
    simp only [NkRec.encode, List.length_cons]
    omega

/-- **C80, how much is read.** A file of complete records; `nens` is the number of samples up to and with the record `r`.
Exactly the records up to `r` are stored, each where the reading of the whole file puts it; if an IMU record came before,
also the one record after `r` (the IMU data of that sample). -/
theorem nens_exact (cfg : NkCfg) (hcs : cfg.doCs = false) (pre post : List NkRec) (r : NkRec)
    (hr : Spec.isSample r = true) (hwf : ∀ q ∈ pre ++ r :: post, Spec.nkWF cfg q)
    (himu : Spec.imuAfterSample 0 (pre ++ r :: post)) :
    ∃ st, nkReadfile cfg (some (pre.countP Spec.isSample + 1)) ((pre ++ r :: post).flatMap NkRec.encode) =
        some (.ok st) ∧
      ((∀ q ∈ pre, q.id ≠ 0x71) → st.c = pre.countP Spec.isSample + 1 ∧ st.log = placedList 0 (pre ++ [r])) ∧
      ((∃ q ∈ pre, q.id = 0x71) →
        st.log = placedList 0 ((pre ++ r :: post).take (pre.length + 2))) := by
  have hl := encode_length (pre ++ r :: post)
  rw [List.length_append, List.length_cons] at hl
  have h := nkLoop_until cfg hcs (pre.countP Spec.isSample + 1) pre post r hr
    ⟨(pre ++ r :: post).flatMap NkRec.encode, 0, [], false⟩
    (((pre ++ r :: post).flatMap NkRec.encode).length + 1) (by omega) rfl hwf himu (by simp)
  refine ⟨_, h, ?_, ?_⟩
  · intro hno
    have : pre.any (fun q => q.id == 0x71) = false := by
      rw [List.any_eq_false]
      intro q hq
      simpa using hno q hq
    simp [nkExtra, this]
  · rintro ⟨q, hq, hq7⟩
    have : pre.any (fun q => q.id == 0x71) = true := by
      rw [List.any_eq_true]
      exact ⟨q, hq, by simp [hq7]⟩
    unfold nkExtra
    simp only [this, Bool.or_true, if_true]
    rcases post with _ | ⟨x, post⟩
    · simp only [List.flatMap_nil]
      have e : (pre ++ [r]).take (pre.length + 2) = pre ++ [r] := List.take_of_length_le (by simp)
      rw [e]
      simp [nkReadNext, nkReadId]
    · have hstep := nkReadNext_record cfg hcs ⟨(x :: post).flatMap NkRec.encode, pre.countP Spec.isSample + 1,
        [] ++ placedList 0 (pre ++ [r]), true⟩ x (post.flatMap NkRec.encode) (by simp)
        (hwf x (by simp)) (fun _ => by simp)
      simp only [Bool.false_or] at *
      rw [hstep]
      simp only
      have e : (pre ++ r :: x :: post).take (pre.length + 2) = (pre ++ [r]) ++ [x] := by
        rw [List.take_append]
        simp
      rw [e, placedList_append 0 (pre ++ [r])]
      have hc : (pre ++ [r]).countP Spec.isSample = pre.countP Spec.isSample + 1 := by
        rw [List.countP_append]
        simp [hr]
      simp [hc, placedList]

/-- **C80, more than there is.** If the file has fewer samples than `nens`, everything is read. -/
theorem nens_more (cfg : NkCfg) (hcs : cfg.doCs = false) (n : ℕ) (recs : List NkRec)
    (hwf : ∀ r ∈ recs, Spec.nkWF cfg r) (himu : Spec.imuAfterSample 0 recs)
    (hn : recs.countP Spec.isSample < n) :
    ∃ st st', nkReadfile cfg (some n) (recs.flatMap NkRec.encode) = some (.ok st) ∧
      nkReadfile cfg none (recs.flatMap NkRec.encode) = some (.ok st') ∧
      st.rest = st'.rest ∧ st.c = st'.c ∧ st.log = st'.log ∧ st.log = placedList 0 recs := by
  have hl := encode_length recs
  have h := nkLoop_all cfg hcs n recs ⟨recs.flatMap NkRec.encode, 0, [], false⟩
    ((recs.flatMap NkRec.encode).length + 1) (by omega) rfl hwf himu (by simpa using hn)
  obtain ⟨im, h'⟩ := nkLoop_records cfg hcs recs ⟨recs.flatMap NkRec.encode, 0, [], false⟩
    ((recs.flatMap NkRec.encode).length + 1) (by omega) rfl hwf himu
  exact ⟨_, _, h, h', rfl, rfl, rfl, by simp⟩

/-- **C80 is false for one ping with IMU data.** With `nens=1` the IMU record of the first sample is not read, for every
file that begins with a sample and its IMU record; the reading of the whole file stores it. -/
theorem nens_one_imu_false (cfg : NkCfg) (hcs : cfg.doCs = false) (r q : NkRec) (post : List NkRec)
    (hr : Spec.isSample r = true) (hq : q.id = 0x71) (hwf : ∀ x ∈ r :: q :: post, Spec.nkWF cfg x)
    (himu : Spec.imuAfterSample 0 (r :: q :: post)) :
    ∃ st st', nkReadfile cfg (some 1) ((r :: q :: post).flatMap NkRec.encode) = some (.ok st) ∧
      nkReadfile cfg none ((r :: q :: post).flatMap NkRec.encode) = some (.ok st') ∧
      st.log = [.sample 0 r.id r.body] ∧
      st'.log[1]? = some (.imu 0 (q.body.getD 3 0) (q.body.drop 4)) := by
  obtain ⟨st, h1, h2, -⟩ := nens_exact cfg hcs [] (q :: post) r hr hwf himu
  obtain ⟨st', k1, -, -, -, k2⟩ := records_placed cfg hcs (r :: q :: post) hwf himu
  refine ⟨st, st', h1, k1, ?_, ?_⟩
  · rw [(h2 (by simp)).2]
    simp [placedList, Spec.placed, hr]
  · have := k2 [r] q post rfl
    have hs : Spec.isSample q = false := by simp [Spec.isSample, hq]
    rw [show ([r] : List NkRec).length = 1 from rfl] at this
    rw [this]
    simp [Spec.placed, hs, hq, hr]

/-- Samples with IMU records after them meet the hypotheses. -/
example : ∃ (cfg : NkCfg) (r q : NkRec), Spec.isSample r = true ∧ q.id = 0x71 ∧
    (∀ x ∈ [r, q, r, q], Spec.nkWF cfg x) ∧ Spec.imuAfterSample 0 [r, q, r, q] := by
  refine ⟨⟨true, false, false, 3, 10⟩, ⟨0x10, List.replicate 20 0, 0, 0⟩,
    ⟨0x71, [0, 0, 0, 195] ++ List.replicate 64 0, 0, 0⟩, rfl, rfl, ?_, ?_⟩
  · intro x hx
    simp only [List.mem_cons, List.not_mem_nil, or_false] at hx
    rcases hx with rfl | rfl | rfl | rfl
    · exact Or.inl rfl
    · exact Or.inr (Or.inr ⟨rfl, 64, rfl, rfl⟩)
    · exact Or.inl rfl
    · exact Or.inr (Or.inr ⟨rfl, 64, rfl, rfl⟩)
  · intro pre x post h hx
    rcases pre with _ | ⟨a, pre⟩
    · simp only [List.nil_append, List.cons.injEq] at h
      rw [← h.1] at hx
      simp at hx
    · simp only [List.cons_append, List.cons.injEq] at h
      rw [List.countP_cons, ← h.1]
      simp [Spec.isSample]

/-- Sizes in bytes of the records, sync byte, id and checksum included. -/
def Spec.recordSize (cfg : NkCfg) (id : ℕ) : Option ℕ :=
  match id with
  | 0x00 => some 512
  | 0x04 => some 224
  | 0x05 => some 48
  | 0x0f => some 26
  | 0x10 => some 24
  | 0x11 => some 28
  | 0x12 => some 42
  | 0x20 => some (120 + cfg.nBeams * cfg.nBins * 3)
  | 0x50 => some 42
  | 0x51 => some 22
  | _ => none

/-- **C79, length of records.** A record of a type with a fixed size takes exactly that many bytes; the next record is
read from the byte after it. -/
theorem record_consumed (cfg : NkCfg) (hcs : cfg.doCs = false) (s : NkState) (r : NkRec) (tail : List ℕ)
    (hrest : s.rest = r.encode ++ tail) (hsz : Spec.recordSize cfg r.id = some r.encode.length) :
    ∃ s', nkReadNext cfg s = .ok (false, s') ∧ s'.rest = tail ∧ s'.log = s.log ++ [Spec.placed s.c r] := by
  have hlen : r.encode.length = r.body.length + 4 := by simp [NkRec.encode]
  have hwf : Spec.nkWF cfg r := by
    left
    rw [hlen] at hsz
    unfold Spec.recordSize at hsz
    unfold nkFixedLen
    split at hsz <;> rename_i heq <;> first
      | (cases hsz; done)
      | (rw [heq]; simp at hsz ⊢; first | omega | (rw [Nat.mul_right_comm]; omega))
  have h71 : r.id = 0x71 → 0 < s.c := by
    intro h
    rw [h] at hsz
    simp [Spec.recordSize] at hsz
  exact ⟨_, nkReadNext_record cfg hcs s r tail hrest hwf h71, rfl, rfl⟩

end Dolfyn
