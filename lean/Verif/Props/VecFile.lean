import Verif.Model.VecFile
import Verif.Props.NortekCount
import Verif.Props.NortekFields
import Verif.Props.NortekSci
import Verif.Props.Gaps
import Verif.Props.IoBase
import Verif.Props.NortekSize

/-!
C146: a Vector file, from its records to the variables of the dataset.
-/

namespace Dolfyn

/-! ### Storing -/

section store
variable {le : Bool} {scale : ℚ} {fl : List ℕ → ℝ} {N : ℕ}

theorem vecStore_append (s : VecRaw) (a b : List NkWrite) :
    vecStore le scale fl N s (a ++ b) = match vecStore le scale fl N s a with
      | .error e => .error e
      | .ok s' => vecStore le scale fl N s' b := by
  induction a generalizing s with
  | nil => rfl
  | cons w ws ih =>
    simp only [List.cons_append, vecStore]
    cases vecPut le scale fl N s w with
    | error e => rfl
    | ok s' => exact ih s'

theorem vecPut_sample {s s' : VecRaw} {w : NkWrite} {i : ℕ} (h : vecPut le scale fl N s w = .ok s')
    (hw : ∀ id body, w ≠ .sample i id body) : s'.sample i = s.sample i := by
  cases w with
  | sample c id body =>
    unfold vecPut at h
    simp only at h
    split_ifs at h
    split at h
    · simp at h
    · rw [← Except.ok.inj h]
      have : i ≠ c := fun e => hw id body (by rw [e])
      simp [Function.update_of_ne this]
  | sys c body =>
    unfold vecPut at h
    simp only at h
    split at h
    · simp at h
    · split_ifs at h
      rw [← Except.ok.inj h]
  | imu c a body =>
    unfold vecPut at h
    simp only at h
    split_ifs at h
    rw [← Except.ok.inj h]
  | other a b => rw [← Except.ok.inj h]

theorem vecPut_sys {s s' : VecRaw} {w : NkWrite} {i : ℕ} (h : vecPut le scale fl N s w = .ok s')
    (hw : ∀ body, w ≠ .sys i body) : s'.sys i = s.sys i := by
  cases w with
  | sample c id body =>
    unfold vecPut at h
    simp only at h
    split_ifs at h
    split at h
    · simp at h
    · rw [← Except.ok.inj h]
  | sys c body =>
    unfold vecPut at h
    simp only at h
    split at h
    · simp at h
    · split_ifs at h
      rw [← Except.ok.inj h]
      have : i ≠ c := fun e => hw body (by rw [e])
      simp [Function.update_of_ne this]
  | imu c a body =>
    unfold vecPut at h
    simp only at h
    split_ifs at h
    rw [← Except.ok.inj h]
  | other a b => rw [← Except.ok.inj h]

theorem vecPut_imu {s s' : VecRaw} {w : NkWrite} {i : ℕ} (h : vecPut le scale fl N s w = .ok s')
    (hw : ∀ a body, w ≠ .imu i a body) : s'.imu i = s.imu i := by
  cases w with
  | sample c id body =>
    unfold vecPut at h
    simp only at h
    split_ifs at h
    split at h
    · simp at h
    · rw [← Except.ok.inj h]
  | sys c body =>
    unfold vecPut at h
    simp only at h
    split at h
    · simp at h
    · split_ifs at h
      rw [← Except.ok.inj h]
  | imu c a body =>
    unfold vecPut at h
    simp only at h
    split_ifs at h
    rw [← Except.ok.inj h]
    have : i ≠ c := fun e => hw a body (by rw [e])
    simp [Function.update_of_ne this]
  | other a b => rw [← Except.ok.inj h]

theorem vecStore_keep {s s' : VecRaw} {ws : List NkWrite} (h : vecStore le scale fl N s ws = .ok s') (i : ℕ) :
    ((∀ id body, .sample i id body ∉ ws) → s'.sample i = s.sample i) ∧
    ((∀ body, .sys i body ∉ ws) → s'.sys i = s.sys i) ∧
    ((∀ a body, .imu i a body ∉ ws) → s'.imu i = s.imu i) := by
  induction ws generalizing s with
  | nil =>
    have : s = s' := Except.ok.inj h
    subst this
    simp
  | cons w ws ih =>
    rw [vecStore] at h
    cases hp : vecPut le scale fl N s w with
    | error e => rw [hp] at h; simp at h
    | ok s1 =>
      rw [hp] at h
      obtain ⟨h1, h2, h3⟩ := ih h
      refine ⟨fun hw => ?_, fun hw => ?_, fun hw => ?_⟩
      · rw [h1 fun id body hm => hw id body (by simp [hm]), vecPut_sample hp fun id body e => hw id body (by simp [e])]
      · rw [h2 fun body hm => hw body (by simp [hm]), vecPut_sys hp fun body e => hw body (by simp [e])]
      · rw [h3 fun a body hm => hw a body (by simp [hm]), vecPut_imu hp fun a body e => hw a body (by simp [e])]

/-- What the records of one type leave in a slot is what the last of them says. -/
theorem vecStore_last {s s' : VecRaw} {l1 l2 : List NkWrite} {w : NkWrite}
    (h : vecStore le scale fl N s (l1 ++ w :: l2) = .ok s') :
    (∀ i id body d, w = .sample i id body → vecData le scale body = .ok d →
      (∀ id body, .sample i id body ∉ l2) → s'.sample i = some d) ∧
    (∀ i body d, w = .sys i body → vecSysdata le body = .ok d →
      (∀ body, .sys i body ∉ l2) → s'.sys i = some d) ∧
    (∀ i a body, w = .imu i a body → (∀ a body, .imu i a body ∉ l2) →
      s'.imu i = some (imuDecode fl a body)) := by
  rw [vecStore_append] at h
  cases h1 : vecStore le scale fl N s l1 with
  | error e => rw [h1] at h; simp at h
  | ok s1 =>
    rw [h1] at h
    simp only [vecStore] at h
    cases h2 : vecPut le scale fl N s1 w with
    | error e => rw [h2] at h; simp at h
    | ok s2 =>
      rw [h2] at h
      simp only at h
      refine ⟨?_, ?_, ?_⟩
      · rintro i id body d rfl hd hn
        rw [(vecStore_keep h i).1 hn]
        unfold vecPut at h2
        simp only [hd] at h2
        split_ifs at h2
        rw [← Except.ok.inj h2]
        simp
      · rintro i body d rfl hd hn
        rw [(vecStore_keep h i).2.1 hn]
        unfold vecPut at h2
        simp only [hd] at h2
        split_ifs at h2
        rw [← Except.ok.inj h2]
        simp
      · rintro i a body rfl hn
        rw [(vecStore_keep h i).2.2 hn]
        unfold vecPut at h2
        simp only at h2
        split_ifs at h2
        rw [← Except.ok.inj h2]
        simp

/-- The type of the IMU arrays. -/
theorem vecStore_imuType {s s' : VecRaw} {ws : List NkWrite} {a : ℕ} (h : vecStore le scale fl N s ws = .ok s')
    (ha : ∀ i b body, .imu i b body ∈ ws → b = a) :
    ((∃ i body, .imu i a body ∈ ws) → s'.first = some (s.first.getD a) ∧ s'.last = a) ∧
    ((∀ i b body, .imu i b body ∉ ws) → s'.first = s.first ∧ s'.last = s.last) := by
  induction ws generalizing s with
  | nil =>
    have : s = s' := Except.ok.inj h
    subst this
    simp
  | cons w ws ih =>
    rw [vecStore] at h
    cases hp : vecPut le scale fl N s w with
    | error e => rw [hp] at h; simp at h
    | ok s1 =>
      rw [hp] at h
      have hih := ih h fun i b body hm => ha i b body (by simp [hm])
      by_cases hw : ∃ i body, w = .imu i a body
      · obtain ⟨i, body, rfl⟩ := hw
        unfold vecPut at hp
        simp only at hp
        split_ifs at hp
        have hs1 := (Except.ok.inj hp).symm
        have e1 : s1.first = some (s.first.getD a) := by rw [hs1]
        have e2 : s1.last = a := by rw [hs1]
        refine ⟨fun _ => ?_, fun hn => absurd (hn i a body) (by simp)⟩
        by_cases hr : ∃ i body, .imu i a body ∈ ws
        · obtain ⟨q1, q2⟩ := hih.1 hr
          rw [q1, e1]
          exact ⟨rfl, q2⟩
        · obtain ⟨q1, q2⟩ := hih.2 fun i b body hm => hr ⟨i, body, by
            have := ha i b body (by simp [hm]); subst this; exact hm⟩
          exact ⟨by rw [q1, e1], by rw [q2, e2]⟩
      · have hk : s1.first = s.first ∧ s1.last = s.last := by
          cases w with
          | sample c id body =>
            unfold vecPut at hp
            simp only at hp
            split_ifs at hp
            split at hp
            · simp at hp
            · rw [← Except.ok.inj hp]; exact ⟨rfl, rfl⟩
          | sys c body =>
            unfold vecPut at hp
            simp only at hp
            split at hp
            · simp at hp
            · split_ifs at hp
              rw [← Except.ok.inj hp]; exact ⟨rfl, rfl⟩
          | imu c b body =>
            have := ha c b body (by simp)
            subst this
            exact absurd ⟨c, body, rfl⟩ hw
          | other _ _ => rw [← Except.ok.inj hp]; exact ⟨rfl, rfl⟩
        refine ⟨fun ⟨i, body, hm⟩ => ?_, fun hn => ?_⟩
        · rcases List.mem_cons.mp hm with e | hm
          · exact absurd ⟨i, body, e.symm⟩ hw
          · obtain ⟨q1, q2⟩ := hih.1 ⟨i, body, hm⟩
            rw [q1, hk.1]; exact ⟨rfl, q2⟩
        · obtain ⟨q1, q2⟩ := hih.2 fun i b body hm => hn i b body (by simp [hm])
          exact ⟨by rw [q1, hk.1], by rw [q2, hk.2]⟩

/-- Records that fit are all stored. -/
theorem vecStore_ok {a : ℕ} (ha : a = 195 ∨ a = 204 ∨ a = 211) (ws : List NkWrite) (s : VecRaw)
    (hf : s.first = none ∨ s.first = some a)
    (hs : ∀ i id body, .sample i id body ∈ ws → id = 0x10 ∧ i < N ∧ ∃ d, vecData le scale body = .ok d)
    (hy : ∀ i body, .sys i body ∈ ws → i < N ∧ ∃ d, vecSysdata le body = .ok d)
    (hi : ∀ i b body, .imu i b body ∈ ws → b = a ∧ i < N) :
    ∃ s', vecStore le scale fl N s ws = .ok s' := by
  induction ws generalizing s with
  | nil => exact ⟨s, rfl⟩
  | cons w ws ih =>
    have step : ∃ s1, vecPut le scale fl N s w = .ok s1 ∧ (s1.first = none ∨ s1.first = some a) := by
      cases w with
      | sample c id body =>
        obtain ⟨e, hc, d, hd⟩ := hs c id body (by simp)
        refine ⟨_, by unfold vecPut; simp only [hd]; rw [if_neg (by simp [e]), if_neg (by omega : ¬ N ≤ c)], ?_⟩
        exact hf
      | sys c body =>
        obtain ⟨hc, d, hd⟩ := hy c body (by simp)
        refine ⟨_, by unfold vecPut; simp only [hd]; rw [if_neg (by omega : ¬ N ≤ c)], ?_⟩
        exact hf
      | imu c b body =>
        obtain ⟨e, hc⟩ := hi c b body (by simp)
        subst e
        have hfa : s.first.getD b = b := by rcases hf with h | h <;> rw [h] <;> rfl
        refine ⟨_, by
          unfold vecPut
          simp only [hfa]
          rw [if_neg, if_neg (by omega)]
          rcases ha with rfl | rfl | rfl <;> simp [imuDecode, imuHasMag, imuHasOrient], ?_⟩
        exact .inr rfl
      | other x y => exact ⟨s, rfl, hf⟩
    obtain ⟨s1, h1, h2⟩ := step
    obtain ⟨s', h'⟩ := ih s1 h2 (fun i id body hm => hs i id body (by simp [hm]))
      (fun i body hm => hy i body (by simp [hm])) (fun i b body hm => hi i b body (by simp [hm]))
    exact ⟨s', by rw [vecStore, h1]; exact h'⟩

end store

/-! ### Where the records of a file end up -/

theorem mem_placedList {w : NkWrite} (rs : List NkRec) (k : ℕ) : w ∈ placedList k rs ↔
    ∃ pre r post, rs = pre ++ r :: post ∧ w = Spec.placed (k + pre.countP Spec.isSample) r := by
  induction rs generalizing k with
  | nil => simp [placedList]
  | cons r rs ih =>
    rw [placedList, List.mem_cons, ih]
    constructor
    · rintro (h | ⟨pre, q, post, e, h⟩)
      · exact ⟨[], r, rs, rfl, by simpa using h⟩
      · refine ⟨r :: pre, q, post, by rw [e]; rfl, ?_⟩
        rw [h, List.countP_cons]
        congr 1
        split_ifs <;> omega
    · rintro ⟨pre, q, post, e, h⟩
      rcases pre with _ | ⟨x, pre⟩
      · left
        rw [List.nil_append, List.cons.injEq] at e
        rw [h, e.1]; simp
      · right
        rw [List.cons_append, List.cons.injEq] at e
        refine ⟨pre, q, post, e.2, ?_⟩
        rw [h, List.countP_cons, e.1]
        congr 1
        split_ifs <;> omega

theorem placed_sample {k i id : ℕ} {r : NkRec} {body : List ℕ} (h : NkWrite.sample i id body = Spec.placed k r) :
    Spec.isSample r = true ∧ i = k ∧ id = r.id ∧ body = r.body := by
  unfold Spec.placed at h
  split_ifs at h with h1
  · obtain ⟨a, b, c⟩ := NkWrite.sample.inj h
    exact ⟨h1, a, b, c⟩

theorem placed_sys {k i : ℕ} {r : NkRec} {body : List ℕ} (h : NkWrite.sys i body = Spec.placed k r) :
    r.id = 0x11 ∧ i = k ∧ body = r.body := by
  unfold Spec.placed at h
  split_ifs at h with h1 h2
  · obtain ⟨a, b⟩ := NkWrite.sys.inj h
    exact ⟨h2, a, b⟩

theorem placed_imu {k i a : ℕ} {r : NkRec} {body : List ℕ} (h : NkWrite.imu i a body = Spec.placed k r) :
    r.id = 0x71 ∧ i = k - 1 ∧ a = r.body.getD 3 0 ∧ body = r.body.drop 4 := by
  unfold Spec.placed at h
  split_ifs at h with h1 h2 h3
  · obtain ⟨a, b, c⟩ := NkWrite.imu.inj h
    exact ⟨h3, a, b, c⟩

theorem placed_other {k id : ℕ} {r : NkRec} {body : List ℕ} (h : NkWrite.other id body = Spec.placed k r) : id ≠ 0x71 := by
  unfold Spec.placed at h
  split_ifs at h with h1 h2 h3
  · rw [(NkWrite.other.inj h).1]; exact h3

/-- Without unreadable IMU records the conversion is done once. -/
theorem imuExtra_none (ws : List NkWrite) (h : ∀ id body, NkWrite.other id body ∈ ws → id ≠ 0x71) :
    imuExtra false ws = .ok 0 := by
  induction ws with
  | nil => rfl
  | cons w ws ih =>
    have ih' := ih fun id body hm => h id body (List.mem_cons_of_mem _ hm)
    cases w with
    | other id body =>
      rw [imuExtra, if_neg (h id body (by simp))]
      exact ih'
    | imu _ _ _ => rfl
    | sample _ _ _ => exact ih'
    | sys _ _ => exact ih'

theorem imuLast_same (a : ℕ) (ws : List NkWrite) (h : ∀ id body, NkWrite.other id body ∈ ws → id ≠ 0x71)
    (hi : ∀ i b body, NkWrite.imu i b body ∈ ws → b = a) : imuLast a ws = a := by
  induction ws with
  | nil => rfl
  | cons w ws ih =>
    have ih' := ih (fun id body hm => h id body (List.mem_cons_of_mem _ hm))
      fun i b body hm => hi i b body (List.mem_cons_of_mem _ hm)
    cases w with
    | other id body =>
      rw [imuLast, if_neg fun e => h id body (by simp) e.1]
      exact ih'
    | imu i b body =>
      rw [imuLast, hi i b body (by simp)]
      exact ih'
    | sample _ _ _ => exact ih'
    | sys _ _ => exact ih'

theorem placedList_other {k id : ℕ} {recs : List NkRec} {body : List ℕ} (h : NkWrite.other id body ∈ placedList k recs) :
    id ≠ 0x71 := by
  obtain ⟨pre, r, post, -, hw⟩ := (mem_placedList recs k).mp h
  exact placed_other hw

/-! ### The recording -/

/-- The numbers of a velocity record. -/
structure Spec.VecVals where
  al : ℕ
  ct : ℕ
  am : ℕ
  m : Fin 3 → ℕ
  c : Fin 3 → ℕ
  p : ℤ
  a1 : ℤ
  v : Fin 3 → ℤ

def Spec.VecVals.ok (x : Spec.VecVals) : Prop :=
  (0 ≤ x.p ∧ x.p < 16777216) ∧ Spec.U16 x.a1 ∧ ∀ b, Spec.I16 (x.v b)

/-- The 20 bytes of the record. -/
def Spec.VecVals.bytes (le : Bool) (x : Spec.VecVals) : List ℕ :=
  [x.al, x.ct, (x.p / 65536).toNat, x.am] ++ Spec.put16 le (x.p % 65536) ++ Spec.put16 le x.a1 ++
    Spec.put16 le (x.v 0) ++ Spec.put16 le (x.v 1) ++ Spec.put16 le (x.v 2) ++
    [x.m 0, x.m 1, x.m 2, x.c 0, x.c 1, x.c 2]

/-- The numbers of a system record. -/
structure Spec.VecSysVals where
  s0 : ℕ
  s1 : ℕ
  t : CivilTime
  ba : ℤ
  cs : ℤ
  he : ℤ
  pi : ℤ
  ro : ℤ
  te : ℤ
  er : ℕ
  st : ℕ
  an : ℤ

/-- Numbers a system record can hold, except temperatures below zero (see C109). -/
def Spec.VecSysVals.ok (x : Spec.VecSysVals) : Prop :=
  x.t.valid ∧ 1990 ≤ x.t.year ∧ x.t.year ≤ 2089 ∧ Spec.U16 x.ba ∧ Spec.U16 x.cs ∧ Spec.I16 x.he ∧
    Spec.I16 x.pi ∧ Spec.I16 x.ro ∧ (0 ≤ x.te ∧ x.te < 32768) ∧ Spec.U16 x.an

/-- The 24 bytes of the record. -/
def Spec.VecSysVals.bytes (le : Bool) (x : Spec.VecSysVals) : List ℕ :=
  [x.s0, x.s1] ++ Spec.clock6 x.t ++ Spec.put16 le x.ba ++ Spec.put16 le x.cs ++ Spec.put16 le x.he ++
    Spec.put16 le x.pi ++ Spec.put16 le x.ro ++ Spec.put16 le x.te ++ [x.er, x.st] ++ Spec.put16 le x.an

/-- Record `r` of the file holds sample `k`. -/
def Spec.sampleAt (recs : List NkRec) (k : ℕ) (r : NkRec) : Prop :=
  ∃ pre post, recs = pre ++ r :: post ∧ r.id = 0x10 ∧ pre.countP Spec.isSample = k

/-- Record `r` of the file is a system record that comes just before sample `k`. -/
def Spec.sysAt (recs : List NkRec) (k : ℕ) (r : NkRec) : Prop :=
  ∃ pre post, recs = pre ++ r :: post ∧ r.id = 0x11 ∧ pre.countP Spec.isSample = k

/-- Record `r` of the file is an IMU record that comes after sample `k` and before the next. -/
def Spec.imuAt (recs : List NkRec) (k : ℕ) (r : NkRec) : Prop :=
  ∃ pre post, recs = pre ++ r :: post ∧ r.id = 0x71 ∧ pre.countP Spec.isSample = k + 1

/-- The records of a Vector file: complete records of the right contents; between two system records or two IMU
records there is a sample; an IMU record follows a sample. `a` is the type of the IMU. -/
structure Spec.VecRecords (cfg : NkCfg) (a : ℕ) (recs : List NkRec) : Prop where
  wf : ∀ r ∈ recs, Spec.nkWF cfg r
  vector : ∀ r ∈ recs, r.id ≠ 0x20 ∧ r.id ≠ 0x51
  vals : ∀ r ∈ recs, r.id = 0x10 → ∃ x : Spec.VecVals, x.ok ∧ r.body = x.bytes cfg.le
  sysvals : ∀ r ∈ recs, r.id = 0x11 → ∃ x : Spec.VecSysVals, x.ok ∧ r.body = x.bytes cfg.le
  imuType : ∀ r ∈ recs, r.id = 0x71 → r.body.getD 3 0 = a
  oneSys : ∀ pre r mid q post, recs = pre ++ r :: (mid ++ q :: post) → r.id = 0x11 → q.id = 0x11 →
    0 < mid.countP Spec.isSample
  oneImu : ∀ pre r mid q post, recs = pre ++ r :: (mid ++ q :: post) → r.id = 0x71 → q.id = 0x71 →
    0 < mid.countP Spec.isSample
  imuLate : Spec.imuAfterSample 0 recs

/-- A continuous recording of a Vector: complete records of the right contents; between two system records
or two IMU records there is a sample; an IMU record follows a sample; the clock gains `1/fs` per sample;
there are three system records or more. `a` is the type of the IMU. -/
structure Spec.VecRecording (cfg : NkCfg) (fs : ℚ) (t0 : ℝ) (a : ℕ) (recs : List NkRec) : Prop where
  wf : ∀ r ∈ recs, Spec.nkWF cfg r
  vector : ∀ r ∈ recs, r.id ≠ 0x20 ∧ r.id ≠ 0x51
  vals : ∀ r ∈ recs, r.id = 0x10 → ∃ x : Spec.VecVals, x.ok ∧ r.body = x.bytes cfg.le
  sysvals : ∀ r ∈ recs, r.id = 0x11 → ∃ x : Spec.VecSysVals, x.ok ∧ r.body = x.bytes cfg.le
  imuType : ∀ r ∈ recs, r.id = 0x71 → r.body.getD 3 0 = a
  oneSys : ∀ pre r mid q post, recs = pre ++ r :: (mid ++ q :: post) → r.id = 0x11 → q.id = 0x11 →
    0 < mid.countP Spec.isSample
  oneImu : ∀ pre r mid q post, recs = pre ++ r :: (mid ++ q :: post) → r.id = 0x71 → q.id = 0x71 →
    0 < mid.countP Spec.isSample
  imuLate : Spec.imuAfterSample 0 recs
  clock : ∀ k r x, Spec.sysAt recs k r → r.body = Spec.VecSysVals.bytes cfg.le x → x.ok →
    ((date2epoch x.t 0 : ℚ) : ℝ) = t0 + k / (fs : ℝ)
  three : ∃ i j k, i < j ∧ j < k ∧ (∃ r, Spec.sysAt recs i r) ∧ (∃ r, Spec.sysAt recs j r) ∧
    ∃ r, Spec.sysAt recs k r

theorem Spec.VecRecording.records {cfg : NkCfg} {fs : ℚ} {t0 : ℝ} {a : ℕ} {recs : List NkRec}
    (h : Spec.VecRecording cfg fs t0 a recs) : Spec.VecRecords cfg a recs :=
  ⟨h.wf, h.vector, h.vals, h.sysvals, h.imuType, h.oneSys, h.oneImu, h.imuLate⟩

/-- What sample `x` must become. -/
def Spec.VecVals.sample (scale : ℚ) (x : Spec.VecVals) : VecSample where
  ana2lsb := x.al
  count := x.ct
  ana2msb := x.am
  ana1 := x.a1
  pressure := x.p / 1000
  vel := fun b => x.v b * scale / 1000
  amp := fun b => x.m b
  corr := fun b => x.c b

/-- What system record `x` must become. -/
def Spec.VecSysVals.sys (x : Spec.VecSysVals) : VecSys where
  time := x.t
  batt := x.ba / 10
  cSound := x.cs / 10
  heading := x.he / 10
  pitch := x.pi / 10
  roll := x.ro / 10
  temp := x.te / 100
  error := x.er
  status := x.st
  anaIn := x.an

theorem vecVals_decoded (le : Bool) (scale : ℚ) (x : Spec.VecVals) (h : x.ok) :
    vecData le scale (x.bytes le) = .ok (x.sample scale) := by
  have h1 := vec_data_decoded le scale x.al x.ct x.am (x.m 0) (x.m 1) (x.m 2) (x.c 0) (x.c 1) (x.c 2) x.p
    x.a1 (x.v 0) (x.v 1) (x.v 2) h.1 h.2.1 (h.2.2 0) (h.2.2 1) (h.2.2 2)
  unfold Spec.VecVals.bytes
  rw [h1]
  unfold Spec.VecVals.sample
  congr 2
  · funext b; fin_cases b <;> rfl
  · funext b; fin_cases b <;> rfl
  · funext b; fin_cases b <;> rfl

theorem vecSysVals_decoded (le : Bool) (x : Spec.VecSysVals) (h : x.ok) :
    vecSysdata le (x.bytes le) = .ok x.sys := by
  obtain ⟨h1, h2, h3, h4, h5, h6, h7, h8, h9, h10⟩ := h
  exact vec_sysdata_decoded_partial le x.t h1 h2 h3 x.s0 x.s1 x.er x.st x.ba x.cs x.he x.pi x.ro x.te x.an
    h4 h5 h6 h7 h8 ⟨by omega, by omega⟩ h9.1 h10

theorem placedList_split (pre post : List NkRec) (r : NkRec) :
    placedList 0 (pre ++ r :: post) = placedList 0 pre ++ Spec.placed (pre.countP Spec.isSample) r ::
      placedList (pre.countP Spec.isSample + if Spec.isSample r then 1 else 0) post := by
  rw [placedList_append, placedList, Nat.zero_add]

theorem isSample_vector {r : NkRec} (h : r.id ≠ 0x20 ∧ r.id ≠ 0x51) : Spec.isSample r = true ↔ r.id = 0x10 := by
  simp [Spec.isSample, h.1, h.2]

theorem countP_split_lt {pre post : List NkRec} {r : NkRec} (h : Spec.isSample r = true) :
    pre.countP Spec.isSample < (pre ++ r :: post).countP Spec.isSample := by
  rw [List.countP_append, List.countP_cons_of_pos h]
  omega

theorem countP_split_le {pre post : List NkRec} :
    pre.countP Spec.isSample ≤ (pre ++ post).countP Spec.isSample := by
  rw [List.countP_append]
  omega

/-- What the arrays hold after the recording has been read. -/
theorem recording_stored {cfg : NkCfg} {a : ℕ} {recs : List NkRec} (h : Spec.VecRecords cfg a recs) (ha : a = 195 ∨ a = 204 ∨ a = 211) (scale : ℚ)
    (fl : List ℕ → ℝ) (N : ℕ) (hN : recs.countP Spec.isSample ≤ N)
    (hN' : ∀ k r, Spec.sysAt recs k r → k < N) :
    ∃ s, vecStore cfg.le scale fl N vecRaw0 (placedList 0 recs) = .ok s ∧
      (∀ k r x, Spec.sampleAt recs k r → x.ok → r.body = Spec.VecVals.bytes cfg.le x →
        s.sample k = some (x.sample scale)) ∧
      (∀ k, recs.countP Spec.isSample ≤ k → s.sample k = none) ∧
      (∀ k r x, Spec.sysAt recs k r → x.ok → r.body = Spec.VecSysVals.bytes cfg.le x → s.sys k = some x.sys) ∧
      (∀ k, (∀ r, ¬ Spec.sysAt recs k r) → s.sys k = none) ∧
      (∀ k r, Spec.imuAt recs k r → s.imu k = some (imuDecode fl a (r.body.drop 4))) ∧
      (∀ k, (∀ r, ¬ Spec.imuAt recs k r) → s.imu k = none) ∧
      ((∃ k r, Spec.imuAt recs k r) → s.first = some a ∧ s.last = a) ∧
      ((∀ k r, ¬ Spec.imuAt recs k r) → s.first = none) := by
  have hmemS : ∀ i id body, NkWrite.sample i id body ∈ placedList 0 recs →
      ∃ r, Spec.sampleAt recs i r ∧ id = r.id ∧ body = r.body := by
    intro i id body hm
    obtain ⟨pre, r, post, e, hw⟩ := (mem_placedList recs 0).mp hm
    obtain ⟨h1, h2, h3, h4⟩ := placed_sample hw
    exact ⟨r, ⟨pre, post, e, (isSample_vector (h.vector r (by rw [e]; simp))).mp h1, by omega⟩, h3, h4⟩
  have hmemY : ∀ i body, NkWrite.sys i body ∈ placedList 0 recs →
      ∃ r, Spec.sysAt recs i r ∧ body = r.body := by
    intro i body hm
    obtain ⟨pre, r, post, e, hw⟩ := (mem_placedList recs 0).mp hm
    obtain ⟨h1, h2, h3⟩ := placed_sys hw
    exact ⟨r, ⟨pre, post, e, h1, by omega⟩, h3⟩
  have hmemI : ∀ i b body, NkWrite.imu i b body ∈ placedList 0 recs →
      ∃ r, Spec.imuAt recs i r ∧ b = r.body.getD 3 0 ∧ body = r.body.drop 4 := by
    intro i b body hm
    obtain ⟨pre, r, post, e, hw⟩ := (mem_placedList recs 0).mp hm
    obtain ⟨h1, h2, h3, h4⟩ := placed_imu hw
    have := h.imuLate pre r post e h1
    exact ⟨r, ⟨pre, post, e, h1, by omega⟩, h3, h4⟩
  have hlt : ∀ k r, Spec.sampleAt recs k r → k < recs.countP Spec.isSample := by
    rintro k r ⟨pre, post, e, h1, rfl⟩
    rw [e]
    exact countP_split_lt ((isSample_vector (h.vector r (by rw [e]; simp))).mpr h1)
  have hlt' : ∀ k r, Spec.imuAt recs k r → k < recs.countP Spec.isSample := by
    rintro k r ⟨pre, post, e, h1, hk⟩
    have := countP_split_le (pre := pre) (post := r :: post)
    rw [← e] at this
    omega
  have hmem : ∀ k r, Spec.sampleAt recs k r ∨ Spec.sysAt recs k r ∨ Spec.imuAt recs k r → r ∈ recs := by
    rintro k r (⟨pre, post, e, -⟩ | ⟨pre, post, e, -⟩ | ⟨pre, post, e, -⟩) <;> rw [e] <;> simp
  obtain ⟨s, hs⟩ := vecStore_ok (le := cfg.le) (scale := scale) (fl := fl) (N := N) ha (placedList 0 recs)
    vecRaw0 (.inl rfl)
    (by
      intro i id body hm
      obtain ⟨r, h1, rfl, rfl⟩ := hmemS i id body hm
      obtain ⟨x, hx, e⟩ := h.vals r (hmem i r (.inl h1)) h1.choose_spec.choose_spec.2.1
      have := hlt i r h1
      exact ⟨h1.choose_spec.choose_spec.2.1, by omega, _, by rw [e]; exact vecVals_decoded cfg.le scale x hx⟩)
    (by
      intro i body hm
      obtain ⟨r, h1, rfl⟩ := hmemY i body hm
      obtain ⟨x, hx, e⟩ := h.sysvals r (hmem i r (.inr (.inl h1))) h1.choose_spec.choose_spec.2.1
      exact ⟨hN' i r h1, _, by rw [e]; exact vecSysVals_decoded cfg.le x hx⟩)
    (by
      intro i b body hm
      obtain ⟨r, h1, rfl, rfl⟩ := hmemI i b body hm
      have := hlt' i r h1
      exact ⟨h.imuType r (hmem i r (.inr (.inr h1))) h1.choose_spec.choose_spec.2.1, by omega⟩)
  have htype := vecStore_imuType (a := a) hs (by
    intro i b body hm
    obtain ⟨r, h1, rfl, rfl⟩ := hmemI i b body hm
    exact h.imuType r (hmem i r (.inr (.inr h1))) h1.choose_spec.choose_spec.2.1)
  refine ⟨s, hs, ?_, ?_, ?_, ?_, ?_, ?_, ?_, ?_⟩
  · rintro k r x ⟨pre, post, e, h1, hk⟩ hx hb
    have hsam : Spec.isSample r = true := (isSample_vector (h.vector r (by rw [e]; simp))).mpr h1
    rw [e, placedList_split] at hs
    refine (vecStore_last hs).1 k r.id r.body _ ?_ (by rw [hb]; exact vecVals_decoded cfg.le scale x hx) ?_
    · rw [hk, Spec.placed, if_pos hsam]
    · intro id body hm
      obtain ⟨p1, q, p2, e2, hw⟩ := (mem_placedList _ _).mp hm
      obtain ⟨-, h2, -⟩ := placed_sample hw
      rw [if_pos hsam] at h2
      omega
  · intro k hk
    rw [(vecStore_keep hs k).1]
    · rfl
    · intro id body hm
      obtain ⟨r, h1, -⟩ := hmemS k id body hm
      have := hlt k r h1
      omega
  · rintro k r x ⟨pre, post, e, h1, hk⟩ hx hb
    have hsam : ¬ Spec.isSample r = true := by
      rw [isSample_vector (h.vector r (by rw [e]; simp)), h1]; decide
    rw [e, placedList_split] at hs
    refine (vecStore_last hs).2.1 k r.body _ ?_ (by rw [hb]; exact vecSysVals_decoded cfg.le x hx) ?_
    · rw [hk, Spec.placed, if_neg hsam, if_pos h1]
    · intro body hm
      obtain ⟨p1, q, p2, e2, hw⟩ := (mem_placedList _ _).mp hm
      obtain ⟨h3, h2, -⟩ := placed_sys hw
      have := h.oneSys pre r p1 q p2 (by rw [e, e2]) h1 h3
      rw [if_neg hsam] at h2
      omega
  · intro k hk
    rw [(vecStore_keep hs k).2.1]
    · rfl
    · intro body hm
      obtain ⟨r, h1, -⟩ := hmemY k body hm
      exact hk r h1
  · rintro k r ⟨pre, post, e, h1, hk⟩
    have hsam : ¬ Spec.isSample r = true := by
      rw [isSample_vector (h.vector r (by rw [e]; simp)), h1]; decide
    rw [e, placedList_split] at hs
    refine (vecStore_last hs).2.2 k a (r.body.drop 4) ?_ ?_
    · rw [hk, Spec.placed, if_neg hsam, if_neg (by omega), if_pos h1, h.imuType r (by rw [e]; simp) h1]
      rfl
    · intro b body hm
      obtain ⟨p1, q, p2, e2, hw⟩ := (mem_placedList _ _).mp hm
      obtain ⟨h3, h2, -⟩ := placed_imu hw
      have := h.oneImu pre r p1 q p2 (by rw [e, e2]) h1 h3
      rw [if_neg hsam] at h2
      omega
  · intro k hk
    rw [(vecStore_keep hs k).2.2]
    · rfl
    · intro b body hm
      obtain ⟨r, h1, -⟩ := hmemI k b body hm
      exact hk r h1
  · rintro ⟨k, r, pre, post, e, h1, hk⟩
    have hsam : ¬ Spec.isSample r = true := by
      rw [isSample_vector (h.vector r (by rw [e]; simp)), h1]; decide
    refine htype.1 ⟨k, r.body.drop 4, (mem_placedList recs 0).mpr ⟨pre, r, post, e, ?_⟩⟩
    rw [Nat.zero_add, hk, Spec.placed, if_neg hsam, if_neg (by omega), if_pos h1,
      h.imuType r (by rw [e]; simp) h1]
    rfl
  · intro hn
    refine (htype.2 fun i b body hm => ?_).1
    obtain ⟨r, h1, -⟩ := hmemI i b body hm
    exact hn i r h1

/-! ### From the arrays to the dataset -/

/-- With the times known in and around the gaps this is the ordinary interpolation. -/
theorem interpgapsT_eq_within {K : Type*} [Field K] [DecidableEq K] (n : ℕ) (a : ℕ → Option K) (t : ℕ → Option K)
    (t' : ℕ → K) (h : ∀ l r, Spec.IsGap n a l r → ∀ i ≤ r, t i = some (t' i)) :
    interpgapsT n a t = interpgaps n a t' none false := by
  unfold interpgapsT interpgaps
  have he : extrapEnds n a none false = a := by
    unfold extrapEnds
    cases goodIdx n a <;> simp
  rw [he]
  have hp : ∀ p ∈ gapPairs n a none, p.1 < p.2 ∧ ∀ i ≤ p.2, t i = some (t' i) := by
    rintro ⟨l, r⟩ hm
    have hg := (mem_gapPairs.mp hm).1
    have h1 := hg.lt
    exact ⟨by simp only; omega, h l r hg⟩
  generalize gapPairs n a none = ps at hp
  clear he h
  induction ps generalizing a with
  | nil => rfl
  | cons p ps ih =>
    rw [List.foldl_cons, List.foldl_cons]
    have hs : interpStepT t a p = interpStep t' a p := by
      obtain ⟨h1, h⟩ := hp p (by simp)
      funext i
      unfold interpStepT interpStep
      by_cases hi : p.1 < i ∧ i < p.2
      · rw [if_pos hi, if_pos hi, h i (by omega), h p.1 (by omega), h p.2 (by omega)]
        cases a p.1 <;> cases a p.2 <;> simp [npDiv]
        split_ifs <;> rfl
      · rw [if_neg hi, if_neg hi]
    rw [hs]
    exact ih _ fun q hq => hp q (by simp [hq])

/-- With all times known this is the ordinary interpolation. -/
theorem interpgapsT_eq {K : Type*} [Field K] [DecidableEq K] (n : ℕ) (a : ℕ → Option K) (t : ℕ → Option K)
    (t' : ℕ → K) (h : ∀ i < n, t i = some (t' i)) : interpgapsT n a t = interpgaps n a t' none false :=
  interpgapsT_eq_within n a t t' fun l r hg i hi => h i (by have := hg.bound; omega)

theorem countP_range_ge (N S : ℕ) (f : ℕ → Bool) (h : ∀ t < N, f t = decide (S ≤ t)) :
    (List.range N).countP f = N - S := by
  induction N with
  | zero => simp
  | succ N ih =>
    rw [List.range_succ, List.countP_append, ih fun t ht => h t (by omega), List.countP_singleton, h N (by omega)]
    by_cases hN : S ≤ N
    · simp [hN]; omega
    · simp [hN]; omega

/-- The variables of the dataset that come from system records, with what they must show at a record. -/
def Spec.sysVars : List ((VecDs → ℕ → Option ℝ) × (Spec.VecSysVals → ℚ)) :=
  [(VecDs.batt, fun x => x.ba / 10), (VecDs.cSound, fun x => x.cs / 10),
   (VecDs.heading, fun x => x.he / 10), (VecDs.pitch, fun x => x.pi / 10), (VecDs.roll, fun x => x.ro / 10),
   (VecDs.temp, fun x => x.te / 100)]

theorem vecTimes_recorded {N : ℕ} {t : ℕ → Option ℝ} {fs t0 : ℝ} (ht : ∀ j x, t j = some x → x = t0 + j / fs)
    (h3 : ∃ i j k, i < j ∧ j < k ∧ k < N ∧ t i ≠ none ∧ t j ≠ none ∧ t k ≠ none) (i : ℕ) (hi : i < N) :
    vecTimes N 0 t fs i = some (t0 + i / fs) := by
  unfold vecTimes
  rw [if_pos rfl]
  dsimp only
  rw [Nat.div_eq_of_lt hi, Nat.zero_mul, Nat.sub_zero, Nat.min_self]
  simp only [Nat.zero_add, Nat.sub_zero]
  refine burst_times_partial N t fs t0 (fun j _ => ht j) ?_ i
  obtain ⟨a, b, c, h1, h2, h4, ha, hb, hc⟩ := h3
  have hsub : [a, b, c] ⊆ (List.range N).filter fun j => (t j).isSome := by
    intro x hx
    rw [List.mem_filter, List.mem_range]
    simp only [List.mem_cons, List.not_mem_nil, or_false] at hx
    rcases hx with rfl | rfl | rfl
    · exact ⟨by omega, Option.isSome_iff_ne_none.mpr ha⟩
    · exact ⟨by omega, Option.isSome_iff_ne_none.mpr hb⟩
    · exact ⟨by omega, Option.isSome_iff_ne_none.mpr hc⟩
  have hnd : [a, b, c].Nodup := by
    simp only [List.nodup_cons, List.mem_cons, List.not_mem_nil, or_false, not_false_eq_true, List.nodup_nil,
      and_true]
    omega
  exact (List.subperm_of_subset hnd hsub).length_le

theorem nanMask_imu {N S : ℕ} {t : ℕ → Option ℝ} (ht : ∀ i < N, i < S → t i ≠ none) {r : VecRaw} {a : ℕ}
    (ha : a = 195 ∨ a = 204 ∨ a = 211) (hf : r.first = some a) {fs : ℝ} {fl : List ℕ → ℝ}
    (h1 : ∀ i < S, ∃ body, r.imu i = some (imuDecode fl a body)) (h2 : ∀ i, S ≤ i → r.imu i = none) (i : ℕ)
    (hi : i < N) :
    nanMask N t (imuNVars N r fun i => (r.imu i).map (sciImu fs r.last)) i = decide (S ≤ i) := by
  have n1 : isImuName "accel" = true := by decide
  have n2 : isImuName "angrt" = true := by decide
  have n3 : isImuName "mag" = true := by decide
  unfold nanMask imuNVars
  rw [hf]
  by_cases hS : S ≤ i
  · simp [nanMark, n1, h2 i hS, hS]
  · obtain ⟨body, hb⟩ := h1 i (by omega)
    have hti : (t i).isNone = false := by
      cases h : t i with
      | none => exact absurd h (ht i hi (by omega))
      | some x => rfl
    rw [hti]
    rcases ha with rfl | rfl | rfl <;>
      simp [nanMark, n1, n2, n3, hb, hS, imuHasMag, sciImu, imuDecode]

/-- A quantity that is the same wherever it is known is so everywhere after filling with ends. -/
theorem fillgaps_const {n : ℕ} {a : ℕ → Option ℚ} {c : ℚ} (h : ∀ i < n, a i ≠ none → a i = some c)
    (hex : ∃ i < n, a i ≠ none) (i : ℕ) (hi : i < n) : fillgaps n a none true i = some c := by
  obtain ⟨j, hj, hja⟩ := hex
  obtain ⟨g, hg, -⟩ := exists_firstGood hj hja
  obtain ⟨e, he, -⟩ := exists_lastGood hj hja
  by_cases h0 : a i = none
  · rcases Nat.lt_or_ge i g with h1 | h1
    · rw [(fillgaps_leading n a none true g i hg h1).1 ⟨rfl, by simp [Spec.Within]⟩, h g hg.1 hg.2.1]
    · rcases Nat.lt_or_ge e i with h2 | h2
      · rw [(fillgaps_trailing n a none true e i he h2 hi).1 ⟨rfl, by simp [Spec.Within]⟩, h e he.1 he.2.1]
      · have h1' : g ≠ i := fun hh => hg.2.1 (hh ▸ h0)
        have h2' : i ≠ e := fun hh => he.2.1 (hh ▸ h0)
        obtain ⟨l, r, hgap, hl, hr⟩ := exists_gap hg he (by omega) (by omega) h0
        rw [(fillgaps_interior n a none true l r i c c hgap
          (h l (by have := hgap.bound; have := hgap.lt; omega) hgap.left) (h r hgap.bound hgap.right) hl hr).1
          (by simp [Spec.Within])]
        simp
  · rw [fillgaps_keeps_valid n a none true i hi h0, h i hi h0]

/-- All system records say "down", or all say "up". -/
theorem vecDown_const {N : ℕ} {st : ℕ → Option ℤ} {q : Bool}
    (h : ∀ i < N, ∀ x, st i = some x → x % 2 = if q then 1 else 0) (hex : ∃ i < N, st i ≠ none) (i : ℕ) (hi : i < N) :
    vecDown N 0 st i = q := by
  unfold vecDown
  rw [if_pos rfl]
  dsimp only
  rw [Nat.div_eq_of_lt hi, Nat.zero_mul, Nat.sub_zero, Nat.min_self]
  simp only [Nat.zero_add, Nat.sub_zero]
  have key : ∀ j < N, fillgaps (K := ℚ) N (fun j => (st j).map fun s => ((s % 2 : ℤ) : ℚ)) none true j =
      some (if q then 1 else 0) := by
    refine fillgaps_const ?_ ?_
    · intro j hj hne
      cases hs : st j with
      | none => simp [hs] at hne
      | some x =>
        rw [Option.map_some, h j hj x hs]
        cases q <;> simp
    · obtain ⟨j, hj, hne⟩ := hex
      refine ⟨j, hj, ?_⟩
      cases hs : st j with
      | none => exact absurd hs hne
      | some x => simp
  unfold orientFix
  rw [if_neg, if_neg]
  · beta_reduce
    rw [key i hi]
    cases q <;> simp
  · rintro ⟨h1, h2⟩
    beta_reduce at h2
    rw [key i hi, key (i - 1) (by omega)] at h2
    simp at h2
  · rintro ⟨h1, h2⟩
    beta_reduce at h2
    rw [key i hi, key (i + 1) h1] at h2
    simp at h2

/-- **C146 (partial).** A continuous recording of a Vector is read without an exception when the arrays have
room for it. Sample `k` of the file is entry `k` of the dataset, with the recorded velocity, amplitude,
correlation and pressure. Entry `i` has the time `t0 + i/fs`. Battery voltage, speed of sound, heading, pitch,
roll and temperature are those of the system record where there is one, and lie on the straight line between
two system records; before the first and behind the last they are missing. The values of an IMU record go to
the sample before it. The length of the dataset is the number of samples *if an IMU record follows each
sample*; without an IMU it is the number of slots (see `vector_phantom_false`). -/
theorem vector_file_partial {cfg : NkCfg} {fs : ℚ} {t0 : ℝ} {a : ℕ} {recs : List NkRec}
    (h : Spec.VecRecording cfg fs t0 a recs) (ha : a = 195 ∨ a = 204 ∨ a = 211) (hcs : cfg.doCs = false)
    (hfs : 0 < fs) (ht0 : 0 < t0) (scale : ℚ) (fl : List ℕ → ℝ) (N : ℕ)
    (hN : recs.countP Spec.isSample ≤ N) (hN' : ∀ k r, Spec.sysAt recs k r → k < N) :
    ∃ ds, vecRead cfg scale fl N 0 fs (recs.flatMap NkRec.encode) = some (.ok ds) ∧
      (∀ k r x, Spec.sampleAt recs k r → x.ok → r.body = Spec.VecVals.bytes cfg.le x →
        (∀ b, ds.vel k b = some (x.v b * scale / 1000)) ∧ (∀ b, ds.amp k b = x.m b) ∧
        (∀ b, ds.corr k b = x.c b) ∧ ds.pressure k = x.p / 1000) ∧
      (∀ i < N, ds.time i = some (t0 + i / (fs : ℝ))) ∧
      (∀ k r x, Spec.sysAt recs k r → x.ok → r.body = Spec.VecSysVals.bytes cfg.le x →
        (∀ p ∈ Spec.sysVars, p.1 ds k = some ((p.2 x : ℚ) : ℝ)) ∧ ds.status k = x.st ∧ ds.error k = x.er) ∧
      (∀ k k' r r' x x', Spec.sysAt recs k r → x.ok → r.body = Spec.VecSysVals.bytes cfg.le x →
        Spec.sysAt recs k' r' → x'.ok → r'.body = Spec.VecSysVals.bytes cfg.le x' →
        (∀ j q, Spec.sysAt recs j q → ¬ (k < j ∧ j < k')) → ∀ i, k < i → i < k' →
        ∀ p ∈ Spec.sysVars, p.1 ds i =
          some ((p.2 x : ℝ) + ((p.2 x' : ℝ) - (p.2 x : ℝ)) * ((i : ℝ) - k) / ((k' : ℝ) - k))) ∧
      (∀ i < N, (∀ j q, Spec.sysAt recs j q → i < j) ∨ (∀ j q, Spec.sysAt recs j q → j < i) →
        ∀ p ∈ Spec.sysVars, p.1 ds i = none) ∧
      (∀ k r, Spec.imuAt recs k r →
        ds.imu k = some (sciImu fs a (imuDecode fl a (r.body.drop 4))) ∧ ds.imuType = some a) ∧
      ((∀ k < recs.countP Spec.isSample, ∃ r, Spec.imuAt recs k r) → (∃ k r, Spec.imuAt recs k r) →
        ds.n = recs.countP Spec.isSample) ∧
      ds.n ≤ N ∧
      ((∀ k r, ¬ Spec.imuAt recs k r) → (ds.n = N ∧ ds.imuType = none) ∧
        ∀ i < N, recs.countP Spec.isSample ≤ i → (∀ b, ds.vel i b = none) ∧ (∀ b, ds.amp i b = 0)) ∧
      ∀ q : Bool, (∀ k r x, Spec.sysAt recs k r → x.ok → r.body = Spec.VecSysVals.bytes cfg.le x →
        x.st % 2 = if q then 1 else 0) → ∀ i < N, ds.down i = q := by
  obtain ⟨s, hs, hsam, hsam0, hsys, hsys0, himu, himu0, hfirst, hfirst0⟩ :=
    recording_stored h.records ha scale fl N hN hN'
  -- the log
  have hlen : recs.length ≤ (recs.flatMap NkRec.encode).length := by
    clear * -
    induction recs with
    | nil => simp
    | cons r recs ih =>
      rw [List.flatMap_cons, List.length_append, List.length_cons]
      simp only [NkRec.encode, List.length_cons]
      omega
  obtain ⟨im, hread⟩ := nkLoop_records cfg hcs recs ⟨recs.flatMap NkRec.encode, 0, [], false⟩
    ((recs.flatMap NkRec.encode).length + 1) (by omega) rfl h.wf h.imuLate
  have hread' : nkReadfile cfg none (recs.flatMap NkRec.encode) = some (.ok ⟨[], 0 + recs.countP Spec.isSample,
      [] ++ placedList 0 recs, im⟩) := hread
  -- system records
  have hval : ∀ k r, Spec.sysAt recs k r → ∃ x : Spec.VecSysVals, x.ok ∧ r.body = x.bytes cfg.le := by
    rintro k r ⟨pre, post, e, h1, -⟩
    exact h.sysvals r (by rw [e]; simp) h1
  have hiff : ∀ k, s.sys k ≠ none → ∃ r x, Spec.sysAt recs k r ∧ x.ok ∧ r.body = Spec.VecSysVals.bytes cfg.le x ∧
      s.sys k = some x.sys := by
    intro k hk
    by_contra hno
    refine hk (hsys0 k fun r hr => hno ?_)
    obtain ⟨x, hx, e⟩ := hval k r hr
    exact ⟨r, x, hr, hx, e, hsys k r x hr hx e⟩
  set t : ℕ → Option ℝ := fun i => (s.sys i).map fun d => ((date2epoch d.time 0 : ℚ) : ℝ) with ht
  have htime : ∀ i < N, vecTimes N 0 t (fs : ℝ) i = some (t0 + i / (fs : ℝ)) := by
    intro i hi
    refine vecTimes_recorded ?_ ?_ i hi
    · intro j y hy
      have hne : s.sys j ≠ none := by
        intro e
        rw [ht] at hy
        simp [e] at hy
      obtain ⟨r, x, hr, hx, e, hq⟩ := hiff j hne
      rw [ht] at hy
      simp only [hq, Option.map_some, Option.some.injEq] at hy
      rw [← hy]
      exact h.clock j r x hr e hx
    · obtain ⟨i, j, k, h1, h2, ⟨r, hr⟩, ⟨r', hr'⟩, ⟨r'', hr''⟩⟩ := h.three
      have key : ∀ k r, Spec.sysAt recs k r → t k ≠ none := by
        intro k r hr
        obtain ⟨x, hx, e⟩ := hval k r hr
        rw [ht]
        simp [hsys k r x hr hx e]
      exact ⟨i, j, k, h1, h2, hN' k r'' hr'', key i r hr, key j r' hr', key k r'' hr''⟩
  have hNpos : 0 < N := by
    obtain ⟨i, j, k, h1, h2, -, -, ⟨r'', hr''⟩⟩ := h.three
    have := hN' k r'' hr''
    omega
  have hfsR : (0 : ℝ) < fs := by exact_mod_cast hfs
  have hpos : ∀ i : ℕ, (0 : ℝ) < t0 + i / (fs : ℝ) := fun i => by positivity
  have hfill : ∀ n ≤ N, ∃ tm, vecFillTime n (vecTimes N 0 t (fs : ℝ)) (fs : ℝ) = .ok tm ∧
      ∀ i < N, tm i = some (t0 + i / (fs : ℝ)) := by
    intro n hn
    have hok : ∀ i < N, (if vecTimes N 0 t (fs : ℝ) i = some 0 then none else vecTimes N 0 t (fs : ℝ) i) =
        some (t0 + i / (fs : ℝ)) := by
      intro i hi
      rw [htime i hi, if_neg]
      rw [Option.some.injEq]
      exact (hpos i).ne'
    refine ⟨fun i => if vecTimes N 0 t (fs : ℝ) i = some 0 then none else vecTimes N 0 t (fs : ℝ) i, ?_, hok⟩
    unfold vecFillTime
    rw [if_neg]
    rintro ⟨i, hi, e⟩
    have e' := (hok i (by omega)).symm.trans e
    simp at e'
  -- interpolation
  have hip : ∀ f : VecSys → ℚ, ∀ i < N,
      interpgapsT N (fun i => (s.sys i).map fun d => ((f d : ℚ) : ℝ)) (vecTimes N 0 t (fs : ℝ)) i =
      fillgaps N (fun i => (s.sys i).map fun d => ((f d : ℚ) : ℝ)) none false i := by
    intro f i hi
    rw [interpgapsT_eq N _ _ (fun i : ℕ => t0 + (i : ℝ) * (1 / (fs : ℝ)))
      (fun i hi => by rw [htime i hi, mul_one_div])]
    exact interpgaps_eq_fillgaps N _ t0 (1 / (fs : ℝ)) (by positivity) none false i hi
  -- the length
  set imu : ℕ → Option ImuSample := fun i => (s.imu i).map (sciImu fs s.last) with himud
  obtain ⟨tm, htm, htmv⟩ := hfill (N - nanCount N (vecTimes N 0 t (fs : ℝ)) (imuNVars N s imu)) (by omega)
  have hany : (placedList 0 recs).any NkWrite.isSys = true := by
    obtain ⟨i, j, k, -, -, ⟨r, pre, post, e, h1, h2⟩, -, -⟩ := h.three
    rw [List.any_eq_true]
    refine ⟨.sys (0 + pre.countP Spec.isSample) r.body, (mem_placedList recs 0).mpr ⟨pre, r, post, e, ?_⟩, rfl⟩
    have : ¬ Spec.isSample r = true := by
      rw [isSample_vector (h.vector r (by rw [e]; simp)), h1]; decide
    rw [Spec.placed, if_neg this, if_pos h1]
  have hlast : imuLast s.last (placedList 0 recs) = s.last := by
    refine imuLast_same _ _ (fun _ _ => placedList_other) fun i b body hm => ?_
    obtain ⟨pre, r, post, e, hw⟩ := (mem_placedList recs 0).mp hm
    obtain ⟨h1, -, h3, -⟩ := placed_imu hw
    have hr : r ∈ recs := by rw [e]; simp
    have := h.imuLate pre r post e h1
    rw [(hfirst ⟨pre.countP Spec.isSample - 1, r, pre, post, e, h1, by omega⟩).2, h3, h.imuType r hr h1]
  have hres : ∃ ds, vecRead cfg scale fl N 0 fs (recs.flatMap NkRec.encode) = some (.ok ds) ∧
      ds.n = N - nanCount N (vecTimes N 0 t (fs : ℝ)) (imuNVars N s imu) ∧ ds.time = tm ∧
      (∀ i b, ds.vel i b = (s.sample i).map fun d => d.vel b) ∧
      (∀ i b, ds.amp i b = ((s.sample i).map fun d => d.amp b).getD 0) ∧
      (∀ i b, ds.corr i b = ((s.sample i).map fun d => d.corr b).getD 0) ∧
      (∀ i, ds.pressure i = ((s.sample i).map fun d => d.pressure).getD 0) ∧
      (∀ i, ds.status i = ((s.sys i).map fun d => d.status).getD 0) ∧
      (∀ i, ds.error i = ((s.sys i).map fun d => d.error).getD 0) ∧
      (ds.imu = imu ∧ ds.imuType = s.first) ∧ (∀ i, ds.down i = vecDown N 0 (fun i => (s.sys i).map fun d => d.status) i) ∧
      ∀ p ∈ Spec.sysVars, ∃ f : VecSys → ℚ, (∀ x, f (Spec.VecSysVals.sys x) = p.2 x) ∧ ∀ i < N,
        p.1 ds i = fillgaps N (fun i => (s.sys i).map fun d => ((f d : ℚ) : ℝ)) none false i := by
    unfold vecRead
    rw [hread']
    simp only [List.nil_append, hs]
    rw [imuExtra_none _ fun _ _ => placedList_other, hlast, hany]
    simp only
    rw [show ({ s with last := s.last } : VecRaw) = s from rfl]
    unfold vecSci
    rw [if_pos rfl]
    simp only [handleNan, zero_add, Function.iterate_one]
    rw [if_neg (by omega : ¬ N = 0)]
    simp only
    have htm' : vecFillTime (N - nanCount N (vecTimes N 0 t (fs : ℝ)) (imuNVars N s imu))
      (vecTimes N 0 t (fs : ℝ)) (fs : ℝ) = .ok tm := htm
    rw [htm']
    refine ⟨_, rfl, rfl, rfl, fun _ _ => rfl, fun _ _ => rfl, fun _ _ => rfl, fun _ => rfl, fun _ => rfl,
      fun _ => rfl, ⟨rfl, rfl⟩, fun _ => rfl, ?_⟩
    intro p hp
    simp only [Spec.sysVars, List.mem_cons, List.not_mem_nil, or_false] at hp
    rcases hp with rfl | rfl | rfl | rfl | rfl | rfl
    · exact ⟨VecSys.batt, fun _ => rfl, hip _⟩
    · exact ⟨VecSys.cSound, fun _ => rfl, hip _⟩
    · exact ⟨VecSys.heading, fun _ => rfl, hip _⟩
    · exact ⟨VecSys.pitch, fun _ => rfl, hip _⟩
    · exact ⟨VecSys.roll, fun _ => rfl, hip _⟩
    · exact ⟨VecSys.temp, fun _ => rfl, hip _⟩
  obtain ⟨ds, hds, hn, hdt, hvel, hamp, hcorr, hpre, hst, her, ⟨hdi, hdty⟩, hdn, hvars⟩ := hres
  have hnone : ∀ f : VecSys → ℚ, ∀ k, (fun i => (s.sys i).map fun d => ((f d : ℚ) : ℝ)) k ≠ none →
      ∃ r, Spec.sysAt recs k r := by
    intro f k hk
    obtain ⟨r, x, hr, -⟩ := hiff k (by rintro e; simp [e] at hk)
    exact ⟨r, hr⟩
  refine ⟨ds, hds, ?_, ?_, ?_, ?_, ?_, ?_, ?_, by omega, ?_, ?_⟩
  · intro k r x hr hx hb
    have := hsam k r x hr hx hb
    refine ⟨fun b => ?_, fun b => ?_, fun b => ?_, ?_⟩
    · rw [hvel, this]; rfl
    · rw [hamp, this]; rfl
    · rw [hcorr, this]; rfl
    · rw [hpre, this]; rfl
  · rw [hdt]; exact htmv
  · intro k r x hr hx hb
    have hk := hsys k r x hr hx hb
    refine ⟨fun p hp => ?_, by rw [hst, hk]; rfl, by rw [her, hk]; rfl⟩
    obtain ⟨f, hf, hv⟩ := hvars p hp
    rw [hv k (hN' k r hr), fillgaps_keeps_valid N _ none false k (hN' k r hr) (by simp [hk]), hk,
      Option.map_some, hf]
  · intro k k' r r' x x' hr hx hb hr' hx' hb' hno i hi hi' p hp
    obtain ⟨f, hf, hv⟩ := hvars p hp
    have hk := hsys k r x hr hx hb
    have hk' := hsys k' r' x' hr' hx' hb'
    have hk'N := hN' k' r' hr'
    have hgap : Spec.IsGap N (fun i => (s.sys i).map fun d => ((f d : ℚ) : ℝ)) k k' := by
      refine ⟨by omega, hk'N, by simp [hk], by simp [hk'], fun j h1 h2 => ?_⟩
      by_contra hne
      obtain ⟨q, hq⟩ := hnone f j hne
      exact hno j q hq ⟨h1, h2⟩
    rw [hv i (by omega), (fillgaps_interior N _ none false k k' i ((p.2 x : ℚ) : ℝ) ((p.2 x' : ℚ) : ℝ) hgap
      (by simp only [hk, Option.map_some, hf]) (by simp only [hk', Option.map_some, hf]) hi hi').1 (by simp [Spec.Within])]
  · intro i hi hout p hp
    obtain ⟨f, hf, hv⟩ := hvars p hp
    rw [hv i hi]
    obtain ⟨i0, -, -, -, -, ⟨r0, hr0⟩, -, -⟩ := h.three
    obtain ⟨x0, hx0, hb0⟩ := hval i0 r0 hr0
    have h0 : (fun i => (s.sys i).map fun d => ((f d : ℚ) : ℝ)) i0 ≠ none := by simp [hsys i0 r0 x0 hr0 hx0 hb0]
    rcases hout with hb | hb
    · obtain ⟨g, hg, -⟩ := exists_firstGood (a := fun i => (s.sys i).map fun d => ((f d : ℚ) : ℝ)) (hN' i0 r0 hr0) h0
      obtain ⟨q, hq⟩ := hnone f g hg.2.1
      exact (fillgaps_leading N _ none false g i hg (hb g q hq)).2 (by simp)
    · obtain ⟨g, hg, -⟩ := exists_lastGood (a := fun i => (s.sys i).map fun d => ((f d : ℚ) : ℝ)) (hN' i0 r0 hr0) h0
      obtain ⟨q, hq⟩ := hnone f g hg.2.1
      exact (fillgaps_trailing N _ none false g i hg (hb g q hq) hi).2 (by simp)
  · intro k r hr
    refine ⟨?_, hdty.trans (hfirst ⟨k, r, hr⟩).1⟩
    rw [hdi, himud]
    simp only [himu k r hr, Option.map_some, (hfirst ⟨k, r, hr⟩).2]
  · intro hall hex
    rw [hn]
    have hmask := nanMask_imu (N := N) (S := recs.countP Spec.isSample) (t := vecTimes N 0 t (fs : ℝ))
      (fun i hi _ => by rw [htime i hi]; simp) ha (hfirst hex).1 (fs := (fs : ℝ)) (fl := fl) (r := s)
      (fun i hi => by
        obtain ⟨r, hr⟩ := hall i hi
        exact ⟨_, himu i r hr⟩)
      (fun i hi => himu0 i (by
        rintro r ⟨pre, post, e, h1, hk⟩
        have := countP_split_le (pre := pre) (post := r :: post)
        rw [← e] at this
        omega))
    have hc : nanCount N (vecTimes N 0 t (fs : ℝ)) (imuNVars N s imu) = N - recs.countP Spec.isSample :=
      countP_range_ge N _ _ hmask
    rw [hc]
    omega
  · intro hno
    have hf := hfirst0 hno
    have hc : nanCount N (vecTimes N 0 t (fs : ℝ)) (imuNVars N s imu) = 0 := by
      unfold nanCount
      rw [List.countP_eq_zero]
      intro i hi
      rw [List.mem_range] at hi
      simp [nanMask, imuNVars, hf, htime i hi]
    refine ⟨⟨by rw [hn, hc]; rfl, hdty.trans hf⟩, fun i hi hS => ⟨fun b => ?_, fun b => ?_⟩⟩
    · rw [hvel, hsam0 i hS]; rfl
    · rw [hamp, hsam0 i hS]; rfl
  · intro q hq i hi
    rw [hdn]
    refine vecDown_const ?_ ?_ i hi
    · intro j hj x hx
      cases hs : s.sys j with
      | none => simp [hs] at hx
      | some y =>
        obtain ⟨r, z, hr, hz, hb, e⟩ := hiff j (by rw [hs]; simp)
        rw [e, Option.map_some] at hx
        replace hx := Option.some.inj hx
        rw [← hx]
        have := hq j r z hr hz hb
        show ((z.st : ℕ) : ℤ) % 2 = _
        cases q <;> simp at this ⊢ <;> omega
    · obtain ⟨i0, -, -, -, -, ⟨r0, hr0⟩, -, -⟩ := h.three
      obtain ⟨x0, hx0, hb0⟩ := hval i0 r0 hr0
      exact ⟨i0, hN' i0 r0 hr0, by simp [hsys i0 r0 x0 hr0 hx0 hb0]⟩

/-- **C146, IMU values.** With `g j` the `j`-th number of the IMU record: acceleration in m/s² and angular rate
in rad/s in the axes of the instrument (x is minus the third axis of the IMU, y the second, z the first). Types
195 and 211 record increments per sample, which are turned into rates. -/
theorem imu_units (fs : ℝ) (fl : List ℕ → ℝ) (body : List ℕ) :
    let g : ℕ → ℝ := fun j => fl ((body.drop (4 * j)).take 4)
    ((sciImu fs 204 (imuDecode fl 204 body)).accel = ![-(g 2 * 9.80665), g 1 * 9.80665, g 0 * 9.80665] ∧
      (sciImu fs 204 (imuDecode fl 204 body)).angrt = ![-g 5, g 4, g 3] ∧
      (sciImu fs 204 (imuDecode fl 204 body)).mag = some ![-g 8, g 7, g 6]) ∧
    ∀ a, a = 195 ∨ a = 211 →
      (sciImu fs a (imuDecode fl a body)).accel =
        ![-(g 5 * 9.80665 * fs), g 4 * 9.80665 * fs, g 3 * 9.80665 * fs] ∧
      (sciImu fs a (imuDecode fl a body)).angrt = ![-(g 2 * fs), g 1 * fs, g 0 * fs] ∧
      (sciImu fs a (imuDecode fl a body)).mag = if a = 211 then some ![-g 8, g 7, g 6] else none := by
  intro g
  constructor
  · refine ⟨?_, ?_, ?_⟩
    · funext i; fin_cases i <;> simp [sciImu, imuDecode, msAxes, g]
    · funext i; fin_cases i <;> simp [sciImu, imuDecode, msAxes, g]
    · simp [sciImu, imuDecode, msAxes, g]
  · rintro a (rfl | rfl)
    · refine ⟨?_, ?_, ?_⟩
      · funext i; fin_cases i <;> simp [sciImu, imuDecode, msAxes, g]
      · funext i; fin_cases i <;> simp [sciImu, imuDecode, msAxes, g]
      · simp [sciImu, imuDecode]
    · refine ⟨?_, ?_, ?_⟩
      · funext i; fin_cases i <;> simp [sciImu, imuDecode, msAxes, g]
      · funext i; fin_cases i <;> simp [sciImu, imuDecode, msAxes, g]
      · simp [sciImu, imuDecode, msAxes, g]

/-- **C146, IMU orientation.** The nine numbers of the orientation matrix stand row by row behind the other values:
from number 6 for type 195, from number 9 for type 204; type 211 has none. Row `i` of the recorded matrix gives
the `i`-th axis of the IMU in north, east, down; row `i` of the converted matrix gives the `i`-th axis of the
instrument in east, north, up. -/
theorem imu_orient (fs : ℝ) (fl : List ℕ → ℝ) (body : List ℕ) :
    let g : ℕ → ℝ := fun j => fl ((body.drop (4 * j)).take 4)
    (∀ a b, (a = 195 ∧ b = 6) ∨ (a = 204 ∧ b = 9) → (sciImu fs a (imuDecode fl a body)).orient = some
      ![![-g (b + 7), -g (b + 6), g (b + 8)], ![g (b + 4), g (b + 3), -g (b + 5)], ![g (b + 1), g b, -g (b + 2)]]) ∧
    (sciImu fs 211 (imuDecode fl 211 body)).orient = none := by
  intro g
  refine ⟨?_, by simp [sciImu, imuDecode]⟩
  rintro a b (⟨rfl, rfl⟩ | ⟨rfl, rfl⟩)
  all_goals
    simp only [sciImu, imuDecode, if_true, reduceIte, Nat.reduceEqDiff, Option.map_some, Option.some.injEq]
    funext i j
    fin_cases i <;> fin_cases j <;> simp [msOrient, msColumns, msAxes, g]

/-- Identifier and size of the records of a file. -/
def Spec.blocks (recs : List NkRec) : List NkBlock := recs.map fun r => ⟨r.id, r.encode.length⟩

theorem countId_blocks (recs : List NkRec) (h : ∀ r ∈ recs, r.id ≠ 0x20 ∧ r.id ≠ 0x51) :
    Spec.countId 16 (Spec.blocks recs) = recs.countP Spec.isSample := by
  induction recs with
  | nil => rfl
  | cons r recs ih =>
    have h1 := ih fun q hq => h q (by simp [hq])
    have h2 := isSample_vector (h r (by simp))
    unfold Spec.countId Spec.blocks at h1 ⊢
    rw [List.map_cons, List.countP_cons]
    by_cases hr : r.id = 16
    · rw [List.filter_cons_of_pos (by simp [hr]), List.length_cons, h1, if_pos (h2.mpr hr)]
    · rw [List.filter_cons_of_neg (by simp [hr]), h1, if_neg (fun e => hr (h2.mp e))]
      rfl

theorem sysAt_le {recs : List NkRec} {k : ℕ} {r : NkRec} (h : Spec.sysAt recs k r) :
    k ≤ recs.countP Spec.isSample := by
  obtain ⟨pre, post, e, -, rfl⟩ := h
  rw [e]
  exact countP_split_le

/-- **C146 is false of the code** for a Vector without an IMU: the room that the reader makes for a file, a
multiple of the sampling rate, always exceeds what a regular file needs, and what is left over is not cut off
(`_crop_data` looks for arrays in a dictionary of dictionaries). The dataset ends with samples that nobody
recorded, with times that run on, amplitudes 0 and velocities NaN. -/
theorem vector_phantom_false {cfg : NkCfg} {fs : ℕ} {t0 : ℝ} {a : ℕ} {recs : List NkRec}
    (h : Spec.VecRecording cfg fs t0 a recs) (ha : a = 195 ∨ a = 204 ∨ a = 211) (hcs : cfg.doCs = false)
    (ht0 : 0 < t0) (scale : ℚ) (fl : List ℕ → ℝ) (hno : ∀ k r, ¬ Spec.imuAt recs k r)
    (s B : ℕ) (pre : List NkBlock) (bs : List (List NkBlock)) (pos : ℕ)
    (e : Spec.blocks recs = pre ++ bs.flatten) (hpre : ∀ r ∈ pre, r.id ≠ 17) (hp : Spec.countId 16 pre < fs)
    (hbs : ∀ b ∈ bs, Spec.isBlock 17 s B b) (hfsb : ∀ b ∈ bs, Spec.countId 16 b ≤ fs) (hne : bs ≠ [])
    (hs : s < B) :
    ∃ n : ℕ, ∃ ds, roomVector fs (Spec.blocks recs) pos = .ok n ∧
      vecRead cfg scale fl n 0 fs (recs.flatMap NkRec.encode) = some (.ok ds) ∧
      recs.countP Spec.isSample < ds.n ∧
      ∀ i < ds.n, recs.countP Spec.isSample ≤ i →
        (∀ b, ds.vel i b = none) ∧ (∀ b, ds.amp i b = 0) ∧ ds.time i = some (t0 + i / (fs : ℝ)) := by
  obtain ⟨d, hd, h0, h1⟩ := spacing_le 17 s B pre bs pos hpre hbs hne hs
  have hr := room_ge 17 s B pre bs pos d hbs h0 h1
  have hf : pyInt (fs : ℚ) = fs := by
    unfold pyInt
    rw [if_pos (by positivity)]
    exact Int.floor_natCast fs
  have hc : Spec.countId 16 (pre ++ bs.flatten) < (bs.length + 1) * fs := by
    have : ∀ l : List (List NkBlock), (∀ b ∈ l, Spec.countId 16 b ≤ fs) →
        Spec.countId 16 l.flatten ≤ l.length * fs := by
      intro l
      induction l with
      | nil => intro _; simp [Spec.countId]
      | cons b l ih =>
        intro h
        have h1 := h b (by simp)
        have h2 := ih fun x hx => h x (by simp [hx])
        unfold Spec.countId at h1 h2 ⊢
        rw [List.flatten_cons, List.filter_append, List.length_append, List.length_cons, Nat.succ_mul]
        omega
    have h2 := this bs hfsb
    unfold Spec.countId at hp h2 ⊢
    rw [List.filter_append, List.length_append, Nat.succ_mul]
    omega
  have hroom : roomVector fs (Spec.blocks recs) pos =
      .ok (pyInt (((pos + recBytes (pre ++ bs.flatten) : ℕ) : ℚ) / d + 1) * fs) := by
    unfold roomVector
    rw [e, hd]
    simp only [bind, Except.bind]
    rw [if_neg h0.ne', hf]
    rfl
  generalize hm : pyInt (((pos + recBytes (pre ++ bs.flatten) : ℕ) : ℚ) / d + 1) * (fs : ℤ) = m at hroom
  have hS : (recs.countP Spec.isSample : ℤ) < m := by
    rw [← countId_blocks recs h.vector, e, ← hm]
    calc (Spec.countId 16 (pre ++ bs.flatten) : ℤ) < ((bs.length + 1) * fs : ℕ) := by exact_mod_cast hc
      _ = ((bs.length : ℤ) + 1) * fs := by push_cast; ring
      _ ≤ _ := mul_le_mul_of_nonneg_right hr (by positivity)
  have hm' : m = ((m.toNat : ℕ) : ℤ) := by omega
  have hS' : recs.countP Spec.isSample < m.toNat := by omega
  have hfs : (0 : ℚ) < (fs : ℚ) := by
    have : 0 < fs := by omega
    exact_mod_cast this
  obtain ⟨ds, h2, -, h3, -, -, -, -, -, -, h4, -⟩ := vector_file_partial h ha hcs hfs ht0 scale fl m.toNat
    (by omega) (fun k r hk => lt_of_le_of_lt (sysAt_le hk) hS')
  obtain ⟨⟨h5, -⟩, h6⟩ := h4 hno
  refine ⟨m.toNat, ds, by rw [hroom, ← hm'], h2, by omega, fun i hi hi' => ?_⟩
  obtain ⟨h7, h8⟩ := h6 i (by omega) hi'
  refine ⟨h7, h8, ?_⟩
  have := h3 i (by omega)
  simpa using this

/-! ### A recording -/

theorem split_idx {recs pre post : List NkRec} {r : NkRec} (e : recs = pre ++ r :: post) :
    pre.length < recs.length ∧ recs[pre.length]? = some r ∧ pre = recs.take pre.length ∧
      post = recs.drop (pre.length + 1) := by
  subst e
  refine ⟨by simp, by simp, by simp, ?_⟩
  rw [List.drop_append]
  simp

/-- A sample of the example. -/
def exVals (v : ℤ) : Spec.VecVals := ⟨1, 7, 0, ![80, 81, 82], ![97, 98, 99], 10250, 3, ![v, 500, -1]⟩

/-- A system record of the example, `sec` seconds after noon. -/
def exSys (sec : ℕ) : Spec.VecSysVals :=
  ⟨14, 0, ⟨2012, 6, 12, 12, 0, sec⟩, 120, 14900, 900 + 10 * sec, -20, 15, 1080, 0, 1, 0⟩

/-- Three seconds at 1 Hz. -/
def exVecRecs : List NkRec :=
  [⟨0x11, (exSys 0).bytes true, 0, 0⟩, ⟨0x10, (exVals (-1234)).bytes true, 0, 0⟩,
   ⟨0x11, (exSys 1).bytes true, 0, 0⟩, ⟨0x10, (exVals 20).bytes true, 0, 0⟩,
   ⟨0x11, (exSys 2).bytes true, 0, 0⟩, ⟨0x10, (exVals 3000).bytes true, 0, 0⟩]

theorem exVecRecs_sysAt {k : ℕ} {r : NkRec} (h : Spec.sysAt exVecRecs k r) :
    k < 3 ∧ r = ⟨0x11, (exSys k).bytes true, 0, 0⟩ := by
  obtain ⟨pre, post, e, h1, h2⟩ := h
  obtain ⟨h3, h4, h5, -⟩ := split_idx e
  have key : ∀ i < 6, ∀ r ∈ exVecRecs[i]?, r.id = 0x11 → (exVecRecs.take i).countP Spec.isSample < 3 ∧
      exVecRecs[i]? = some ⟨0x11, (exSys ((exVecRecs.take i).countP Spec.isSample)).bytes true, 0, 0⟩ := by
    intro i hi
    match i, hi with
    | 0, _ => intro r _ _; exact ⟨by decide, rfl⟩
    | 1, _ => intro r hr h; rw [show exVecRecs[1]? = some _ from rfl] at hr; cases hr; simp at h
    | 2, _ => intro r _ _; exact ⟨by decide, rfl⟩
    | 3, _ => intro r hr h; rw [show exVecRecs[3]? = some _ from rfl] at hr; cases hr; simp at h
    | 4, _ => intro r _ _; exact ⟨by decide, rfl⟩
    | 5, _ => intro r hr h; rw [show exVecRecs[5]? = some _ from rfl] at hr; cases hr; simp at h
  have := key pre.length h3 r h4 h1
  rw [← h5, h2] at this
  refine ⟨this.1, ?_⟩
  have h6 := this.2
  rw [h4, Option.some.injEq] at h6
  exact h6

theorem exSys_ok (k : ℕ) (h : k < 3) : (exSys k).ok := by
  have : k = 0 ∨ k = 1 ∨ k = 2 := by omega
  rcases this with rfl | rfl | rfl <;> unfold exSys Spec.VecSysVals.ok Spec.U16 Spec.I16 <;> decide

theorem exVals_ok (v : ℤ) (h : Spec.I16 v) : (exVals v).ok := by
  have h1 : (0 : ℤ) ≤ 10250 ∧ (10250 : ℤ) < 16777216 := by omega
  have h2 : Spec.U16 3 := by unfold Spec.U16; omega
  have h3 : Spec.I16 500 := by unfold Spec.I16; omega
  have h4 : Spec.I16 (-1) := by unfold Spec.I16; omega
  refine ⟨h1, h2, ?_⟩
  intro b
  fin_cases b
  · exact h
  · exact h3
  · exact h4

/-- Vectors in byte order `<`. -/
def exCfg : NkCfg := ⟨true, false, false, 3, 1⟩

theorem exVecRecs_recording : Spec.VecRecording exCfg 1 1339502400 204 exVecRecs := by
  have hmem : ∀ r ∈ exVecRecs, (∃ k < 3, r = ⟨0x11, (exSys k).bytes true, 0, 0⟩) ∨
      ∃ v, Spec.I16 v ∧ r = ⟨0x10, (exVals v).bytes true, 0, 0⟩ := by
    intro r hr
    simp only [exVecRecs, List.mem_cons, List.not_mem_nil, or_false] at hr
    rcases hr with rfl | rfl | rfl | rfl | rfl | rfl
    · exact .inl ⟨0, by omega, rfl⟩
    · exact .inr ⟨-1234, by unfold Spec.I16; omega, rfl⟩
    · exact .inl ⟨1, by omega, rfl⟩
    · exact .inr ⟨20, by unfold Spec.I16; omega, rfl⟩
    · exact .inl ⟨2, by omega, rfl⟩
    · exact .inr ⟨3000, by unfold Spec.I16; omega, rfl⟩
  refine ⟨?_, ?_, ?_, ?_, ?_, ?_, ?_, ?_, ?_, ?_⟩
  · intro r hr
    left
    rcases hmem r hr with ⟨k, -, rfl⟩ | ⟨v, -, rfl⟩
    · simp [nkFixedLen, Spec.VecSysVals.bytes, Spec.clock6, put16_length]
    · simp [nkFixedLen, Spec.VecVals.bytes, put16_length]
  · intro r hr
    rcases hmem r hr with ⟨k, -, rfl⟩ | ⟨v, -, rfl⟩ <;> simp
  · intro r hr h
    rcases hmem r hr with ⟨k, -, rfl⟩ | ⟨v, hv, rfl⟩
    · simp at h
    · exact ⟨exVals v, exVals_ok v hv, rfl⟩
  · intro r hr h
    rcases hmem r hr with ⟨k, hk, rfl⟩ | ⟨v, hv, rfl⟩
    · exact ⟨exSys k, exSys_ok k hk, rfl⟩
    · simp at h
  · intro r hr h
    rcases hmem r hr with ⟨k, -, rfl⟩ | ⟨v, -, rfl⟩ <;> simp at h
  · intro pre r mid q post e h1 h2
    obtain ⟨-, hk⟩ := exVecRecs_sysAt ⟨pre, _, e, h1, rfl⟩
    have e' : exVecRecs = (pre ++ r :: mid) ++ q :: post := by rw [e]; simp
    obtain ⟨a1, a2, a3, a4⟩ := split_idx e
    obtain ⟨b1, b2, b3, b4⟩ := split_idx e'
    have hm : mid = (exVecRecs.drop (pre.length + 1)).take mid.length := by rw [← a4]; simp
    have hlen : pre.length + 1 + mid.length = (pre ++ r :: mid).length := by simp; omega
    rw [hm]
    have key : ∀ i < 6, ∀ j < 6, (exVecRecs[i]?.map NkRec.id) = some 0x11 →
        (exVecRecs[i + 1 + j]?.map NkRec.id) = some 0x11 →
        0 < ((exVecRecs.drop (i + 1)).take j).countP Spec.isSample := by decide
    refine key pre.length a1 mid.length ?_ (by rw [a2, Option.map_some, h1]) (by
      rw [hlen, b2, Option.map_some, h2])
    have : exVecRecs.length = 6 := rfl
    omega
  · intro pre r mid q post e h1 h2
    rcases hmem r (by rw [e]; simp) with ⟨k, -, rfl⟩ | ⟨v, -, rfl⟩ <;> simp at h1
  · intro pre r post e h1
    rcases hmem r (by rw [e]; simp) with ⟨k, -, rfl⟩ | ⟨v, -, rfl⟩ <;> simp at h1
  · intro k r x hr e hx
    obtain ⟨hk, rfl⟩ := exVecRecs_sysAt hr
    have h1 := vecSysVals_decoded true x hx
    have h2 := vecSysVals_decoded true (exSys k) (exSys_ok k hk)
    have e' : (exSys k).bytes true = x.bytes true := e
    rw [← e', h2] at h1
    have h3 : (exSys k).t = x.t := congrArg VecSys.time (Except.ok.inj h1)
    rw [← h3]
    have : k = 0 ∨ k = 1 ∨ k = 2 := by omega
    rcases this with rfl | rfl | rfl
    · have : date2epoch (exSys 0).t 0 = 1339502400 := by decide +kernel
      rw [this]; norm_num
    · have : date2epoch (exSys 1).t 0 = 1339502401 := by decide +kernel
      rw [this]; norm_num
    · have : date2epoch (exSys 2).t 0 = 1339502402 := by decide +kernel
      rw [this]; norm_num
  · refine ⟨0, 1, 2, by omega, by omega, ⟨_, [], _, rfl, rfl, rfl⟩,
      ⟨_, exVecRecs.take 2, _, rfl, rfl, by decide⟩, ⟨_, exVecRecs.take 4, _, rfl, rfl, by decide⟩⟩

theorem exVecRecs_noImu (k : ℕ) (r : NkRec) : ¬ Spec.imuAt exVecRecs k r := by
  rintro ⟨pre, post, e, h1, -⟩
  have : ∀ r ∈ exVecRecs, r.id ≠ 0x71 := by decide
  exact this r (by rw [e]; simp) h1

example : ∃ n : ℕ, ∃ ds, roomVector (1 : ℕ) (Spec.blocks exVecRecs) 784 = .ok n ∧
    vecRead exCfg 1 (fun _ => 0) n 0 (1 : ℕ) (exVecRecs.flatMap NkRec.encode) = some (.ok ds) ∧ 3 < ds.n := by
  have h : Spec.VecRecording exCfg ((1 : ℕ) : ℚ) 1339502400 204 exVecRecs := by
    simpa using exVecRecs_recording
  obtain ⟨n, ds, h1, h2, h3, -⟩ := vector_phantom_false h (by simp) rfl (by norm_num) 1 (fun _ => 0)
    exVecRecs_noImu 28 52 [] [[⟨17, 28⟩, ⟨16, 24⟩], [⟨17, 28⟩, ⟨16, 24⟩], [⟨17, 28⟩, ⟨16, 24⟩]] 784
    (by decide +kernel) (by simp) (by decide) (by
      intro b hb
      simp only [List.mem_cons, List.not_mem_nil, or_false, or_self] at hb
      subst hb
      exact ⟨[⟨16, 24⟩], rfl, by simp, rfl⟩) (by decide) (by simp) (by omega)
  exact ⟨n, ds, h1, h2, h3⟩

example : ∃ ds, vecRead exCfg 1 (fun _ => 0) 3 0 1 (exVecRecs.flatMap NkRec.encode) = some (.ok ds) ∧ ds.n = 3 ∧
    ds.vel 0 0 = some (-1234 / 1000) ∧ ds.heading 1 = some 91 ∧ ds.time 2 = some 1339502402 := by
  obtain ⟨ds, h1, h2, h3, h4, -, -, -, -, -, h5, -⟩ := vector_file_partial exVecRecs_recording (by simp) rfl (by norm_num)
    (by norm_num) 1 (fun _ => 0) 3 (by decide) (fun k r hk => (exVecRecs_sysAt hk).1)
  have hv := (h2 0 _ (exVals (-1234)) ⟨exVecRecs.take 1, _, rfl, rfl, by decide⟩
    (exVals_ok _ (by unfold Spec.I16; omega)) rfl).1 0
  have hh := (h4 1 _ (exSys 1) ⟨exVecRecs.take 2, _, rfl, rfl, by decide⟩ (exSys_ok 1 (by omega)) rfl).1
    (VecDs.heading, fun x => x.he / 10) (by simp [Spec.sysVars])
  have ht := h3 2 (by omega)
  refine ⟨ds, h1, (h5 exVecRecs_noImu).1.1, ?_, ?_, ?_⟩
  · rw [hv]; simp [exVals]
  · refine hh.trans ?_
    simp [exSys]; norm_num
  · rw [ht]; norm_num

end Dolfyn
