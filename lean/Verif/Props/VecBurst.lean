import Verif.Props.NkFile

/-!
Vector files recorded in bursts: C154.
-/

namespace Dolfyn

/-! ### Specification -/

/-- The clock of a recording in bursts of `nb` samples: burst `b` begins at `T b`. -/
noncomputable def Spec.burstClock (fs : ℝ) (nb : ℕ) (T : ℕ → ℝ) (i : ℕ) : ℝ := T (i / nb) + ((i % nb : ℕ) : ℝ) / fs

/-- Number of entries of whole bursts that hold `S` samples. -/
def Spec.wholeBursts (nb S : ℕ) : ℕ := (S + nb - 1) / nb * nb

/-- A recording in bursts of `nb` samples (the last one may be shorter). Every burst has at least three system
records, all with the clock of the burst; the bursts follow each other in time. -/
structure Spec.BurstRecording (cfg : NkCfg) (fs : ℚ) (nb : ℕ) (T : ℕ → ℝ) (a : ℕ) (recs : List NkRec) : Prop where
  records : Spec.VecRecords cfg a recs
  some : 0 < recs.countP Spec.isSample
  within : ∀ k r, Spec.sysAt recs k r → k < recs.countP Spec.isSample
  clock : ∀ k r x, Spec.sysAt recs k r → r.body = Spec.VecSysVals.bytes cfg.le x → x.ok →
    ((date2epoch x.t 0 : ℚ) : ℝ) = Spec.burstClock fs nb T k
  three : ∀ b, b * nb < recs.countP Spec.isSample → ∃ i j k, b * nb ≤ i ∧ i < j ∧ j < k ∧ k < (b + 1) * nb ∧
    (∃ r, Spec.sysAt recs i r) ∧ (∃ r, Spec.sysAt recs j r) ∧ ∃ r, Spec.sysAt recs k r
  start : 0 < T 0
  later : ∀ b, T b + ((nb - 1 : ℕ) : ℝ) / fs < T (b + 1)

/-- What a dataset must show of a recording in bursts that was read into arrays with `N` slots. -/
structure Spec.ShowsBursts (le : Bool) (scale : ℚ) (fl : List ℕ → ℝ) (fs : ℚ) (nb : ℕ) (T : ℕ → ℝ) (a : ℕ)
    (recs : List NkRec) (N : ℕ) (ds : VecDs) : Prop where
  /-- Sample `k` of the file is entry `k` of the dataset. -/
  samples : ∀ k r x, Spec.sampleAt recs k r → x.ok → r.body = Spec.VecVals.bytes le x →
    (∀ b, ds.vel k b = some (x.v b * scale / 1000)) ∧ (∀ b, ds.amp k b = x.m b) ∧
    (∀ b, ds.corr k b = x.c b) ∧ ds.pressure k = x.p / 1000
  /-- The times are those of the clock, which stands still between the bursts. -/
  times : ∀ i < ds.n, ds.time i = some (Spec.burstClock fs nb T i)
  /-- Battery, speed of sound, heading, pitch, roll and temperature where there is a system record. -/
  recorded : ∀ k r x, Spec.sysAt recs k r → x.ok → r.body = Spec.VecSysVals.bytes le x →
    (∀ p ∈ Spec.sysVars, p.1 ds k = some ((p.2 x : ℚ) : ℝ)) ∧ ds.status k = x.st ∧ ds.error k = x.er
  /-- Between two system records they are on the straight line in time, also from one burst to the next. -/
  between : ∀ k k' r r' x x', Spec.sysAt recs k r → x.ok → r.body = Spec.VecSysVals.bytes le x →
    Spec.sysAt recs k' r' → x'.ok → r'.body = Spec.VecSysVals.bytes le x' →
    (∀ j q, Spec.sysAt recs j q → ¬ (k < j ∧ j < k')) → ∀ i, k < i → i < k' →
    ∀ p ∈ Spec.sysVars, p.1 ds i = some ((p.2 x : ℝ) + ((p.2 x' : ℝ) - (p.2 x : ℝ)) *
      (Spec.burstClock fs nb T i - Spec.burstClock fs nb T k) /
      (Spec.burstClock fs nb T k' - Spec.burstClock fs nb T k))
  /-- Before the first and behind the last system record they are missing. -/
  outside : ∀ i < N, (∀ j q, Spec.sysAt recs j q → i < j) ∨ (∀ j q, Spec.sysAt recs j q → j < i) →
    ∀ p ∈ Spec.sysVars, p.1 ds i = none
  /-- The values of an IMU record go to the sample before it. -/
  imu : ∀ k r, Spec.imuAt recs k r →
    ds.imu k = some (sciImu fs a (imuDecode fl a (r.body.drop 4))) ∧ ds.imuType = some a
  /-- With an IMU record for each sample there is one entry for each sample. -/
  lengthImu : (∀ k < recs.countP Spec.isSample, ∃ r, Spec.imuAt recs k r) → ds.n = recs.countP Spec.isSample
  /-- Without IMU the last burst is completed, as far as there is room, with entries nobody recorded. -/
  lengthNoImu : (∀ k r, ¬ Spec.imuAt recs k r) →
    (ds.n = min N (Spec.wholeBursts nb (recs.countP Spec.isSample)) ∧ ds.imuType = none) ∧
    ∀ i, recs.countP Spec.isSample ≤ i → (∀ b, ds.vel i b = none) ∧ (∀ b, ds.amp i b = 0)
  /-- The orientation is that of the burst. -/
  down : ∀ i < N, ∀ q : Bool, i / nb * nb < recs.countP Spec.isSample →
    (∀ k r x, Spec.sysAt recs k r → k / nb = i / nb → x.ok → r.body = Spec.VecSysVals.bytes le x →
      x.st % 2 = if q then 1 else 0) → ds.down i = q

/-! ### Times -/

theorem burstTimes_none (n : ℕ) (t : ℕ → Option ℝ) (fs : ℝ) (h : ∀ j < n, t j = none) (hn : 0 < n) (i : ℕ) :
    burstTimes n t fs i = none := by
  have e : ((List.range n).filter fun j => (t j).isSome) = [] := by
    rw [List.filter_eq_nil_iff]
    intro j hj
    rw [List.mem_range] at hj
    simp [h j hj]
  unfold burstTimes
  rw [e]
  simp [h 0 hn]

theorem three_isSome {n : ℕ} {t : ℕ → Option ℝ}
    (h3 : ∃ i j k, i < j ∧ j < k ∧ k < n ∧ t i ≠ none ∧ t j ≠ none ∧ t k ≠ none) :
    3 ≤ ((List.range n).filter fun j => (t j).isSome).length := by
  obtain ⟨a, b, c, h1, h2, h4, ha, hb, hc⟩ := h3
  have hsub : [a, b, c] ⊆ (List.range n).filter fun j => (t j).isSome := by
    intro x hx
    rw [List.mem_filter, List.mem_range]
    simp only [List.mem_cons, List.not_mem_nil, or_false] at hx
    rcases hx with rfl | rfl | rfl
    · exact ⟨by omega, Option.isSome_iff_ne_none.mpr ha⟩
    · exact ⟨by omega, Option.isSome_iff_ne_none.mpr hb⟩
    · exact ⟨by omega, Option.isSome_iff_ne_none.mpr hc⟩
  have hnd : [a, b, c].Nodup := by
    simp only [List.nodup_cons, List.mem_cons, List.not_mem_nil, or_false, not_false_eq_true, List.nodup_nil,
      and_true]
    omega
  exact (List.subperm_of_subset hnd hsub).length_le

/-- The times of entry `i`, when its burst has three system records. -/
theorem vecTimes_burst {N nb : ℕ} (hnb : 0 < nb) {t : ℕ → Option ℝ} {fs : ℝ} {T : ℕ → ℝ}
    (ht : ∀ j x, t j = some x → x = Spec.burstClock fs nb T j) (i : ℕ)
    (h3 : ∃ a b c, i / nb * nb ≤ a ∧ a < b ∧ b < c ∧ c < (i / nb + 1) * nb ∧ c < N ∧ t a ≠ none ∧ t b ≠ none ∧
      t c ≠ none) :
    vecTimes N nb t fs i = some (Spec.burstClock fs nb T i) := by
  unfold vecTimes
  rw [if_neg (by omega)]
  dsimp only
  have hi := Nat.div_add_mod' i nb
  have hmod := Nat.mod_lt i hnb
  set off := i / nb * nb with hoff
  rw [show i - off = i % nb by omega]
  obtain ⟨a, b, c, h1, h2, h4, h5, h6, ha, hb, hc⟩ := h3
  rw [Nat.add_mul, ← hoff, Nat.one_mul] at h5
  have := burst_times_partial (min nb (N - off)) (fun j => t (off + j)) fs (T (i / nb)) ?_ (three_isSome
    ⟨a - off, b - off, c - off, by omega, by omega, by omega, ?_, ?_, ?_⟩) (i % nb)
  · rw [this]; rfl
  · intro j hj x hx
    replace hj : j < nb := by omega
    rw [ht _ x hx]
    unfold Spec.burstClock
    have e1 : (off + j) / nb = i / nb := by
      rw [hoff, Nat.add_comm, Nat.add_mul_div_right _ _ hnb, Nat.div_eq_of_lt hj, Nat.zero_add]
    have e2 : (off + j) % nb = j := by
      rw [hoff, Nat.add_comm, Nat.add_mul_mod_self_right, Nat.mod_eq_of_lt hj]
    rw [e1, e2]
  · rwa [Nat.add_sub_cancel' h1]
  · rwa [Nat.add_sub_cancel' (by omega)]
  · rwa [Nat.add_sub_cancel' (by omega)]

/-- A burst without system records has no times. -/
theorem vecTimes_none {N nb S : ℕ} (hnb : 0 < nb) {t : ℕ → Option ℝ} {fs : ℝ} (ht : ∀ j, S ≤ j → t j = none) (i : ℕ)
    (hi : i < N) (h : S ≤ i / nb * nb) : vecTimes N nb t fs i = none := by
  unfold vecTimes
  rw [if_neg (by omega)]
  dsimp only
  have hd := Nat.div_add_mod' i nb
  exact burstTimes_none _ _ _ (fun j _ => ht _ (by omega)) (by omega) _

theorem burstClock_strictMono {fs : ℝ} (hfs : 0 < fs) {nb : ℕ} (hnb : 0 < nb) {T : ℕ → ℝ}
    (h : ∀ b, T b + ((nb - 1 : ℕ) : ℝ) / fs < T (b + 1)) : StrictMono (Spec.burstClock fs nb T) := by
  refine strictMono_nat_of_lt_succ fun i => ?_
  unfold Spec.burstClock
  have hi := Nat.div_add_mod' i nb
  have hm := Nat.mod_lt i hnb
  by_cases hl : i % nb = nb - 1
  · have e : i + 1 = 0 + (i / nb + 1) * nb := by rw [Nat.add_mul]; omega
    rw [e, Nat.add_mul_div_right _ _ hnb, Nat.add_mul_mod_self_right, Nat.zero_div, Nat.zero_mod, Nat.zero_add, hl]
    simpa using h (i / nb)
  · have e : i + 1 = (i % nb + 1) + i / nb * nb := by omega
    have e1 : (i + 1) / nb = i / nb := by
      rw [e, Nat.add_mul_div_right _ _ hnb, Nat.div_eq_of_lt (by omega), Nat.zero_add]
    have e2 : (i + 1) % nb = i % nb + 1 := by
      rw [e, Nat.add_mul_mod_self_right, Nat.mod_eq_of_lt (by omega)]
    rw [e1, e2]
    have : ((i % nb : ℕ) : ℝ) / fs < ((i % nb + 1 : ℕ) : ℝ) / fs := by
      apply div_lt_div_of_pos_right _ hfs
      push_cast
      linarith
    linarith

theorem burstClock_pos {fs : ℝ} (hfs : 0 < fs) {nb : ℕ} (hnb : 0 < nb) {T : ℕ → ℝ} (h0 : 0 < T 0)
    (h : ∀ b, T b + ((nb - 1 : ℕ) : ℝ) / fs < T (b + 1)) (i : ℕ) : 0 < Spec.burstClock fs nb T i := by
  have h1 : 0 < Spec.burstClock fs nb T 0 := by
    unfold Spec.burstClock
    simpa using h0
  exact h1.trans_le ((burstClock_strictMono hfs hnb h).monotone (Nat.zero_le i))

/-- An entry lies in a burst with samples exactly if it lies before the end of the whole bursts. -/
theorem lt_wholeBursts {nb S i : ℕ} (hnb : 0 < nb) : i < Spec.wholeBursts nb S ↔ i / nb * nb < S := by
  unfold Spec.wholeBursts
  rw [← Nat.div_lt_iff_lt_mul hnb]
  have hd := Nat.div_add_mod' i nb
  rw [Nat.lt_iff_add_one_le, Nat.le_div_iff_mul_le hnb, Nat.add_mul]
  omega

/-- The orientation within a burst whose system records agree. -/
theorem vecDown_burst {N nb : ℕ} (hnb : 0 < nb) {st : ℕ → Option ℤ} {q : Bool} (i : ℕ) (hi : i < N)
    (h : ∀ j < N, j / nb = i / nb → ∀ x, st j = some x → x % 2 = if q then 1 else 0)
    (hex : ∃ j < N, j / nb = i / nb ∧ st j ≠ none) : vecDown N nb st i = q := by
  set off := i / nb * nb with hoff
  have hd := Nat.div_add_mod' i nb
  have hm := Nat.mod_lt i hnb
  have key := vecDown_const (N := min nb (N - off)) (st := fun j => st (off + j)) (q := q) (by
      intro j hj x hx
      have hj' : j < nb := by omega
      refine h (off + j) (by omega) ?_ x hx
      rw [hoff, Nat.add_comm, Nat.add_mul_div_right _ _ hnb, Nat.div_eq_of_lt hj', Nat.zero_add]) (by
      obtain ⟨j, hj, hji, hne⟩ := hex
      have hd' := Nat.div_add_mod' j nb
      have hm' := Nat.mod_lt j hnb
      rw [hji, ← hoff] at hd'
      exact ⟨j % nb, by omega, by rw [hd']; exact hne⟩) (i - off) (by omega)
  rw [← key]
  unfold vecDown
  rw [if_neg (by omega), if_pos rfl]
  dsimp only
  rw [Nat.div_eq_of_lt (by omega : i - off < min nb (N - off)), Nat.zero_mul, Nat.sub_zero, Nat.min_self]
  simp only [Nat.zero_add, Nat.sub_zero]
  rfl

/-- **C154 (partial).** A recording in bursts is read without an exception when the arrays have room for it, and
the dataset shows what was recorded. -/
theorem burst_file_partial {cfg : NkCfg} {fs : ℚ} {nb : ℕ} {T : ℕ → ℝ} {a : ℕ} {recs : List NkRec}
    (h : Spec.BurstRecording cfg fs nb T a recs) (hnb : 0 < nb) (ha : a = 195 ∨ a = 204 ∨ a = 211)
    (hcs : cfg.doCs = false) (hfs : 0 < fs) (scale : ℚ) (fl : List ℕ → ℝ) (N : ℕ)
    (hN : recs.countP Spec.isSample ≤ N) :
    ∃ ds, vecRead cfg scale fl N nb fs (recs.flatMap NkRec.encode) = some (.ok ds) ∧
      Spec.ShowsBursts cfg.le scale fl fs nb T a recs N ds := by
  set S := recs.countP Spec.isSample with hS
  have hN' : ∀ k r, Spec.sysAt recs k r → k < N := fun k r hk => (h.within k r hk).trans_le hN
  obtain ⟨s, hs, hsam, hsam0, hsys, hsys0, himu, himu0, hfirst, hfirst0⟩ :=
    recording_stored h.records ha scale fl N hN hN'
  -- the log
  have hlen : recs.length ≤ (recs.flatMap NkRec.encode).length := by
    clear * -
    induction recs with
    | nil => simp
    | cons r recs ih =>
      rw [List.flatMap_cons, List.length_append, List.length_cons]
      simp only [NkRec.encode, List.length_cons]
      omega
  obtain ⟨im, hread⟩ := nkLoop_records cfg hcs recs ⟨recs.flatMap NkRec.encode, 0, [], false⟩
    ((recs.flatMap NkRec.encode).length + 1) (by omega) rfl h.records.wf h.records.imuLate
  have hread' : nkReadfile cfg none (recs.flatMap NkRec.encode) = some (.ok ⟨[], 0 + recs.countP Spec.isSample,
      [] ++ placedList 0 recs, im⟩) := hread
  -- system records
  have hval : ∀ k r, Spec.sysAt recs k r → ∃ x : Spec.VecSysVals, x.ok ∧ r.body = x.bytes cfg.le := by
    rintro k r ⟨pre, post, e, h1, -⟩
    exact h.records.sysvals r (by rw [e]; simp) h1
  have hiff : ∀ k, s.sys k ≠ none → ∃ r x, Spec.sysAt recs k r ∧ x.ok ∧ r.body = Spec.VecSysVals.bytes cfg.le x ∧
      s.sys k = some x.sys := by
    intro k hk
    by_contra hno
    refine hk (hsys0 k fun r hr => hno ?_)
    obtain ⟨x, hx, e⟩ := hval k r hr
    exact ⟨r, x, hr, hx, e, hsys k r x hr hx e⟩
  have hsome : ∀ k r, Spec.sysAt recs k r → s.sys k ≠ none := by
    intro k r hr
    obtain ⟨x, hx, e⟩ := hval k r hr
    simp [hsys k r x hr hx e]
  have hfsR : (0 : ℝ) < fs := by exact_mod_cast hfs
  have hmono := burstClock_strictMono hfsR hnb h.later
  have hpos := burstClock_pos hfsR hnb h.start h.later
  set t : ℕ → Option ℝ := fun i => (s.sys i).map fun d => ((date2epoch d.time 0 : ℚ) : ℝ) with ht
  have htne : ∀ k, s.sys k ≠ none → t k ≠ none := by
    intro k hk e
    rw [ht] at e
    exact hk (by simpa using e)
  have htime : ∀ i, i / nb * nb < S → vecTimes N nb t (fs : ℝ) i = some (Spec.burstClock fs nb T i) := by
    intro i hi
    refine vecTimes_burst hnb ?_ i ?_
    · intro j y hy
      have hne : s.sys j ≠ none := by
        intro e
        rw [ht] at hy
        simp [e] at hy
      obtain ⟨r, x, hr, hx, e, hq⟩ := hiff j hne
      rw [ht] at hy
      simp only [hq, Option.map_some, Option.some.injEq] at hy
      rw [← hy]
      exact h.clock j r x hr e hx
    · obtain ⟨u, v, w, h1, h2, h3, h4, ⟨r, hr⟩, ⟨r', hr'⟩, ⟨r'', hr''⟩⟩ := h.three (i / nb) hi
      exact ⟨u, v, w, h1, h2, h3, h4, hN' w r'' hr'', htne u (hsome u r hr), htne v (hsome v r' hr'),
        htne w (hsome w r'' hr'')⟩
  have htime' : ∀ i < N, S ≤ i / nb * nb → vecTimes N nb t (fs : ℝ) i = none := by
    intro i hi hle
    refine vecTimes_none hnb (S := S) ?_ i hi hle
    intro j hj
    by_contra hne
    obtain ⟨r, x, hr, -⟩ := hiff j (by intro e; exact hne (by rw [ht]; simp [e]))
    have := h.within j r hr
    omega
  have hSw : ∀ i < S, i / nb * nb < S := fun i hi => lt_of_le_of_lt (Nat.div_mul_le_self i nb) hi
  have hNpos : 0 < N := lt_of_lt_of_le h.some hN
  have hfill : ∀ n ≤ Spec.wholeBursts nb S, ∃ tm, vecFillTime n (vecTimes N nb t (fs : ℝ)) (fs : ℝ) = .ok tm ∧
      ∀ i < n, tm i = some (Spec.burstClock fs nb T i) := by
    intro n hn
    have hok : ∀ i < n, (if vecTimes N nb t (fs : ℝ) i = some 0 then none else vecTimes N nb t (fs : ℝ) i) =
        some (Spec.burstClock fs nb T i) := by
      intro i hi
      rw [htime i ((lt_wholeBursts hnb).mp (by omega)), if_neg]
      rw [Option.some.injEq]
      exact (hpos i).ne'
    refine ⟨fun i => if vecTimes N nb t (fs : ℝ) i = some 0 then none else vecTimes N nb t (fs : ℝ) i, ?_, hok⟩
    unfold vecFillTime
    rw [if_neg]
    rintro ⟨i, hi, e⟩
    have e' := (hok i (by omega)).symm.trans e
    simp at e'
  -- interpolation
  have hnone : ∀ f : VecSys → ℚ, ∀ k, (fun i => (s.sys i).map fun d => ((f d : ℚ) : ℝ)) k ≠ none →
      ∃ r, Spec.sysAt recs k r := by
    intro f k hk
    obtain ⟨r, x, hr, -⟩ := hiff k (by rintro e; simp [e] at hk)
    exact ⟨r, hr⟩
  have hip : ∀ f : VecSys → ℚ,
      interpgapsT N (fun i => (s.sys i).map fun d => ((f d : ℚ) : ℝ)) (vecTimes N nb t (fs : ℝ)) =
      interpgaps N (fun i => (s.sys i).map fun d => ((f d : ℚ) : ℝ)) (Spec.burstClock fs nb T) none false := by
    intro f
    refine interpgapsT_eq_within N _ _ _ fun l r hg i hi => htime i (hSw i ?_)
    obtain ⟨q, hq⟩ := hnone f r hg.right
    have := h.within r q hq
    omega
  -- the length
  set imu : ℕ → Option ImuSample := fun i => (s.imu i).map (sciImu fs s.last) with himud
  set nn := N - nanCount N (vecTimes N nb t (fs : ℝ)) (imuNVars N s imu) with hnn
  have hnle : nn ≤ Spec.wholeBursts nb S := by
    have h1 : N - Spec.wholeBursts nb S ≤ nanCount N (vecTimes N nb t (fs : ℝ)) (imuNVars N s imu) := by
      rw [← countP_range_ge N (Spec.wholeBursts nb S) (fun i => decide (Spec.wholeBursts nb S ≤ i)) (fun _ _ => rfl)]
      unfold nanCount
      refine List.countP_mono_left fun i hi hw => ?_
      rw [List.mem_range] at hi
      have : S ≤ i / nb * nb := by
        by_contra hc
        have := (lt_wholeBursts (i := i) hnb).mpr (by omega : i / nb * nb < S)
        simp at hw
        omega
      simp [nanMask, htime' i hi this]
    omega
  obtain ⟨tm, htm, htmv⟩ := hfill nn hnle
  obtain ⟨i0, -, -, -, -, -, -, ⟨r0, hr0⟩, -, -⟩ := h.three 0 (by simpa using h.some)
  have hany : (placedList 0 recs).any NkWrite.isSys = true := by
    obtain ⟨pre, post, e, h1, h2⟩ := hr0
    rw [List.any_eq_true]
    refine ⟨.sys (0 + pre.countP Spec.isSample) r0.body, (mem_placedList recs 0).mpr ⟨pre, r0, post, e, ?_⟩, rfl⟩
    have : ¬ Spec.isSample r0 = true := by
      rw [isSample_vector (h.records.vector r0 (by rw [e]; simp)), h1]; decide
    rw [Spec.placed, if_neg this, if_pos h1]
  have hlast : imuLast s.last (placedList 0 recs) = s.last := by
    refine imuLast_same _ _ (fun _ _ => placedList_other) fun i b body hm => ?_
    obtain ⟨pre, r, post, e, hw⟩ := (mem_placedList recs 0).mp hm
    obtain ⟨h1, -, h3, -⟩ := placed_imu hw
    have hr : r ∈ recs := by rw [e]; simp
    have := h.records.imuLate pre r post e h1
    rw [(hfirst ⟨pre.countP Spec.isSample - 1, r, pre, post, e, h1, by omega⟩).2, h3, h.records.imuType r hr h1]
  have hres : ∃ ds, vecRead cfg scale fl N nb fs (recs.flatMap NkRec.encode) = some (.ok ds) ∧
      ds.n = nn ∧ ds.time = tm ∧
      (∀ i b, ds.vel i b = (s.sample i).map fun d => d.vel b) ∧
      (∀ i b, ds.amp i b = ((s.sample i).map fun d => d.amp b).getD 0) ∧
      (∀ i b, ds.corr i b = ((s.sample i).map fun d => d.corr b).getD 0) ∧
      (∀ i, ds.pressure i = ((s.sample i).map fun d => d.pressure).getD 0) ∧
      (∀ i, ds.status i = ((s.sys i).map fun d => d.status).getD 0) ∧
      (∀ i, ds.error i = ((s.sys i).map fun d => d.error).getD 0) ∧
      (ds.imu = imu ∧ ds.imuType = s.first) ∧
      (∀ i, ds.down i = vecDown N nb (fun i => (s.sys i).map fun d => d.status) i) ∧
      ∀ p ∈ Spec.sysVars, ∃ f : VecSys → ℚ, (∀ x, f (Spec.VecSysVals.sys x) = p.2 x) ∧
        p.1 ds = interpgaps N (fun i => (s.sys i).map fun d => ((f d : ℚ) : ℝ)) (Spec.burstClock fs nb T) none false := by
    unfold vecRead
    rw [hread']
    simp only [List.nil_append, hs]
    rw [imuExtra_none _ fun _ _ => placedList_other, hlast, hany]
    simp only
    rw [show ({ s with last := s.last } : VecRaw) = s from rfl]
    unfold vecSci
    rw [if_pos rfl]
    simp only [handleNan, zero_add, Function.iterate_one]
    rw [if_neg (by omega : ¬ N = 0)]
    simp only
    have htm' : vecFillTime (N - nanCount N (vecTimes N nb t (fs : ℝ)) (imuNVars N s imu))
      (vecTimes N nb t (fs : ℝ)) (fs : ℝ) = .ok tm := htm
    rw [htm']
    refine ⟨_, rfl, rfl, rfl, fun _ _ => rfl, fun _ _ => rfl, fun _ _ => rfl, fun _ => rfl, fun _ => rfl,
      fun _ => rfl, ⟨rfl, rfl⟩, fun _ => rfl, ?_⟩
    intro p hp
    simp only [Spec.sysVars, List.mem_cons, List.not_mem_nil, or_false] at hp
    rcases hp with rfl | rfl | rfl | rfl | rfl | rfl
    · exact ⟨VecSys.batt, fun _ => rfl, hip _⟩
    · exact ⟨VecSys.cSound, fun _ => rfl, hip _⟩
    · exact ⟨VecSys.heading, fun _ => rfl, hip _⟩
    · exact ⟨VecSys.pitch, fun _ => rfl, hip _⟩
    · exact ⟨VecSys.roll, fun _ => rfl, hip _⟩
    · exact ⟨VecSys.temp, fun _ => rfl, hip _⟩
  obtain ⟨ds, hds, hn, hdt, hvel, hamp, hcorr, hpre, hst, her, ⟨hdi, hdty⟩, hdn, hvars⟩ := hres
  refine ⟨ds, hds, ⟨?_, ?_, ?_, ?_, ?_, ?_, ?_, ?_, ?_⟩⟩
  · intro k r x hr hx hb
    have := hsam k r x hr hx hb
    refine ⟨fun b => ?_, fun b => ?_, fun b => ?_, ?_⟩
    · rw [hvel, this]; rfl
    · rw [hamp, this]; rfl
    · rw [hcorr, this]; rfl
    · rw [hpre, this]; rfl
  · rw [hdt, hn]; exact htmv
  · intro k r x hr hx hb
    have hk := hsys k r x hr hx hb
    refine ⟨fun p hp => ?_, by rw [hst, hk]; rfl, by rw [her, hk]; rfl⟩
    obtain ⟨f, hf, hv⟩ := hvars p hp
    rw [hv, interpgaps_keeps_valid N _ _ none false k (hN' k r hr) (by simp [hk]), hk, Option.map_some, hf]
  · intro k k' r r' x x' hr hx hb hr' hx' hb' hno i hi hi' p hp
    obtain ⟨f, hf, hv⟩ := hvars p hp
    have hk := hsys k r x hr hx hb
    have hk' := hsys k' r' x' hr' hx' hb'
    have hk'N := hN' k' r' hr'
    have hgap : Spec.IsGap N (fun i => (s.sys i).map fun d => ((f d : ℚ) : ℝ)) k k' := by
      refine ⟨by omega, hk'N, by simp [hk], by simp [hk'], fun j h1 h2 => ?_⟩
      by_contra hne
      obtain ⟨q, hq⟩ := hnone f j hne
      exact hno j q hq ⟨h1, h2⟩
    rw [hv, (interpgaps_interior N _ (Spec.burstClock fs nb T) none false k k' i ((p.2 x : ℚ) : ℝ) ((p.2 x' : ℚ) : ℝ)
      hgap (by simp only [hk, Option.map_some, hf]) (by simp only [hk', Option.map_some, hf]) hi hi').1
      (by simp [Spec.Within]) (hmono (by omega : k < k')).ne]
  · intro i hi hout p hp
    obtain ⟨f, hf, hv⟩ := hvars p hp
    rw [hv]
    have h0 : (fun i => (s.sys i).map fun d => ((f d : ℚ) : ℝ)) i0 ≠ none := by
      intro e
      exact hsome i0 r0 hr0 (by simpa using e)
    obtain ⟨g, hg, -⟩ := exists_firstGood (a := fun i => (s.sys i).map fun d => ((f d : ℚ) : ℝ)) (hN' i0 r0 hr0) h0
    obtain ⟨e, he, -⟩ := exists_lastGood (a := fun i => (s.sys i).map fun d => ((f d : ℚ) : ℝ)) (hN' i0 r0 hr0) h0
    have hends := interpgaps_ends N (fun i => (s.sys i).map fun d => ((f d : ℚ) : ℝ)) (Spec.burstClock fs nb T) none false
      g e i hg he hi
    rcases hout with hb | hb
    · obtain ⟨q, hq⟩ := hnone f g hg.2.1
      exact hends.2.1 (hb g q hq) (by simp)
    · obtain ⟨q, hq⟩ := hnone f e he.2.1
      exact hends.2.2.2 (hb e q hq) (by simp)
  · intro k r hr
    refine ⟨?_, hdty.trans (hfirst ⟨k, r, hr⟩).1⟩
    rw [hdi, himud]
    simp only [himu k r hr, Option.map_some, (hfirst ⟨k, r, hr⟩).2]
  · intro hall
    rw [hn]
    have hex : ∃ k r, Spec.imuAt recs k r := ⟨0, hall 0 h.some⟩
    have hmask := nanMask_imu (N := N) (S := S) (t := vecTimes N nb t (fs : ℝ))
      (fun i hi hiS => by rw [htime i (hSw i hiS)]; simp) ha (hfirst hex).1 (fs := (fs : ℝ)) (fl := fl) (r := s)
      (fun i hi => by
        obtain ⟨r, hr⟩ := hall i hi
        exact ⟨_, himu i r hr⟩)
      (fun i hi => himu0 i (by
        rintro r ⟨pre, post, e, h1, hk⟩
        have := countP_split_le (pre := pre) (post := r :: post)
        rw [← e] at this
        omega))
    have hc : nanCount N (vecTimes N nb t (fs : ℝ)) (imuNVars N s imu) = N - S :=
      countP_range_ge N _ _ hmask
    omega
  · intro hno
    have hf := hfirst0 hno
    have hc : nanCount N (vecTimes N nb t (fs : ℝ)) (imuNVars N s imu) = N - Spec.wholeBursts nb S := by
      unfold nanCount
      refine countP_range_ge N _ _ fun i hi => ?_
      by_cases hw : i / nb * nb < S
      · have := (lt_wholeBursts hnb).mpr hw
        simp [nanMask, imuNVars, hf, htime i hw, this]
      · have : ¬ i < Spec.wholeBursts nb S := fun e => hw ((lt_wholeBursts hnb).mp e)
        simp [nanMask, imuNVars, hf, htime' i hi (by omega), Nat.le_of_not_lt this]
    refine ⟨⟨by rw [← hS]; omega, hdty.trans hf⟩, fun i hi => ⟨fun b => ?_, fun b => ?_⟩⟩
    · rw [hvel, hsam0 i hi]; rfl
    · rw [hamp, hsam0 i hi]; rfl
  · intro i hi q hin hq
    rw [hdn]
    refine vecDown_burst hnb i hi ?_ ?_
    · intro j hj hji x hx
      cases hs : s.sys j with
      | none => simp [hs] at hx
      | some y =>
        obtain ⟨r, z, hr, hz, hb, e⟩ := hiff j (by rw [hs]; simp)
        rw [e, Option.map_some] at hx
        replace hx := Option.some.inj hx
        rw [← hx]
        have := hq j r z hr hji hz hb
        show ((z.st : ℕ) : ℤ) % 2 = _
        cases q <;> simp at this ⊢ <;> omega
    · obtain ⟨u, v, w, h1, h2, h3, h4, ⟨r, hr⟩, -, -⟩ := h.three (i / nb) hin
      refine ⟨u, hN' u r hr, ?_, ?_⟩
      · rw [Nat.div_eq_iff hnb]
        rw [Nat.add_mul] at h4
        omega
      · obtain ⟨x, hx, e⟩ := hval u r hr
        simp [hsys u r x hr hx e]

/-- **C154.** With complete bursts and without IMU no entry is added. -/
theorem burst_complete {cfg : NkCfg} {fs : ℚ} {nb : ℕ} {T : ℕ → ℝ} {a : ℕ} {recs : List NkRec}
    (h : Spec.BurstRecording cfg fs nb T a recs) (hnb : 0 < nb) (ha : a = 195 ∨ a = 204 ∨ a = 211)
    (hcs : cfg.doCs = false) (hfs : 0 < fs) (scale : ℚ) (fl : List ℕ → ℝ) (N : ℕ)
    (hN : recs.countP Spec.isSample ≤ N) (hno : ∀ k r, ¬ Spec.imuAt recs k r)
    (hw : nb ∣ recs.countP Spec.isSample) :
    ∃ ds, vecRead cfg scale fl N nb fs (recs.flatMap NkRec.encode) = some (.ok ds) ∧
      ds.n = recs.countP Spec.isSample := by
  obtain ⟨ds, h1, h2⟩ := burst_file_partial h hnb ha hcs hfs scale fl N hN
  refine ⟨ds, h1, ?_⟩
  rw [(h2.lengthNoImu hno).1.1]
  obtain ⟨m, hm⟩ := hw
  have e : Spec.wholeBursts nb (recs.countP Spec.isSample) = recs.countP Spec.isSample := by
    unfold Spec.wholeBursts
    rw [hm, show nb * m + nb - 1 = (nb - 1) + m * nb by rw [Nat.mul_comm]; omega,
      Nat.add_mul_div_right _ _ hnb, Nat.div_eq_of_lt (by omega), Nat.zero_add, Nat.mul_comm]
  rw [e]
  omega

/-- **C154 is false of the code** when the recording stops within a burst and there is no IMU: with room to spare
the dataset has entries behind the last sample, with times of the clock, velocity NaN and amplitude 0. -/
theorem burst_phantom_false {cfg : NkCfg} {fs : ℚ} {nb : ℕ} {T : ℕ → ℝ} {a : ℕ} {recs : List NkRec}
    (h : Spec.BurstRecording cfg fs nb T a recs) (hnb : 0 < nb) (ha : a = 195 ∨ a = 204 ∨ a = 211)
    (hcs : cfg.doCs = false) (hfs : 0 < fs) (scale : ℚ) (fl : List ℕ → ℝ) (N : ℕ)
    (hN : recs.countP Spec.isSample < N) (hno : ∀ k r, ¬ Spec.imuAt recs k r)
    (hw : ¬ nb ∣ recs.countP Spec.isSample) :
    ∃ ds, vecRead cfg scale fl N nb fs (recs.flatMap NkRec.encode) = some (.ok ds) ∧
      recs.countP Spec.isSample < ds.n ∧ ∀ i < ds.n, recs.countP Spec.isSample ≤ i →
        (∀ b, ds.vel i b = none) ∧ (∀ b, ds.amp i b = 0) ∧ ds.time i = some (Spec.burstClock fs nb T i) := by
  obtain ⟨ds, h1, h2⟩ := burst_file_partial h hnb ha hcs hfs scale fl N hN.le
  obtain ⟨⟨h3, -⟩, h4⟩ := h2.lengthNoImu hno
  refine ⟨ds, h1, ?_, fun i hi hS => ⟨(h4 i hS).1, (h4 i hS).2, h2.times i hi⟩⟩
  rw [h3, lt_min_iff]
  refine ⟨hN, (lt_wholeBursts hnb).mpr (lt_of_le_of_ne (Nat.div_mul_le_self _ nb) fun e => hw ?_)⟩
  exact ⟨_, (Nat.mul_comm _ _ ▸ e).symm⟩

/-- **C154.** A whole Vector file, from its first byte: the three records of the configuration, with `nb` samples
per burst, then the recording. The reader's estimate of the room, `N` samples, has to suffice (C108). -/
theorem burst_whole_partial (utf8 : List ℕ → Option (List Char)) (hu : Spec.Utf8 utf8) (b : Spec.NkBoard)
    (h : Spec.NkSonde) (s : Spec.NkSetup) (cs : Fin 6 → ℕ) (t : List ℕ) (w : List Char)
    (hb : b.Valid) (hs : b.serial = Spec.prefixOf .adv ++ t) (hw : firstWord (Spec.ascii b.serial) = .ok w)
    (hn : Spec.beamsOf (Spec.ascii b.serial) h ≤ 9)
    (hm : ∀ k < Spec.beamsOf (Spec.ascii b.serial) h * Spec.beamsOf (Spec.ascii b.serial) h, Spec.I16 (h.mat k))
    (h1 : Spec.Text 6 s.name) (h2 : Spec.Text 80 s.comments) (hburst : 0 < s.nBurst.val)
    {fs a : ℕ} {T : ℕ → ℝ} (hfs : s.avgInterval.val * fs = 512) (hA : a = 195 ∨ a = 204 ∨ a = 211)
    {recs : List NkRec}
    (hrec : Spec.BurstRecording ⟨true, false, false, s.nBeams.val, s.nBins.val⟩ fs s.nBurst.val T a recs)
    (hsz : ∀ r ∈ recs, Spec.nkSized true r) {N : ℤ}
    (hN : roomVector fs (Spec.blocks recs)
      (Spec.nkFile true (Spec.beamsOf (Spec.ascii b.serial) h) b h s cs []).length = .ok N)
    (hcnt : (recs.countP Spec.isSample : ℤ) ≤ N) (round : ℝ → ℤ) (cosH : ℝ) (fl : List ℕ → ℝ) :
    ∃ o ds, nortekRead false utf8 fl round cosH (Spec.nkFile true (Spec.beamsOf (Spec.ascii b.serial) h) b h s cs
        (recs.flatMap NkRec.encode)) = some (.ok (.vec o ds)) ∧
      o.fs = fs ∧ o.frame = Spec.frameOf s.axes ∧ o.hdw = b.meaning ∧ o.user = s.meaning true ∧
      (∀ i < o.head.nBeam, ∀ j < o.head.nBeam, o.head.mat i j = (h.mat (o.head.nBeam * i + j) : ℚ) / 4096) ∧
      Spec.ShowsBursts true (if s.fine then 1 / 10 else 1) fl fs s.nBurst.val T a recs N.toNat ds := by
  have ha : 0 < s.avgInterval.val := by
    rcases Nat.eq_zero_or_pos s.avgInterval.val with h0 | h0
    · rw [h0] at hfs; omega
    · exact h0
  have hfs0 : 0 < fs := by
    rcases Nat.eq_zero_or_pos fs with h0 | h0
    · rw [h0] at hfs; omega
    · exact h0
  obtain ⟨o, g1, g2, g3, g4, g5, g6, g7, g8, g9, g10⟩ := nortek_opens utf8 hu b h s cs (recs.flatMap NkRec.encode)
    .adv t w hb hs hw hn hm h1 h2 ha
  have hofs : o.fs = fs := by
    rw [g3, div_eq_iff (by exact_mod_cast ha.ne')]
    have : ((s.avgInterval.val * fs : ℕ) : ℚ) = 512 := by rw [hfs]; norm_num
    push_cast at this
    rw [mul_comm, this]
    rfl
  have hroom := room_vector_bytes (fs : ℚ) _ recs hsz hN
  obtain ⟨ds, d1, d2⟩ := burst_file_partial hrec hburst hA rfl (by exact_mod_cast hfs0)
    (if s.fine then 1 / 10 else 1) fl N.toNat (by omega)
  refine ⟨o, ds, ?_, hofs, g4, g5, g9, g8, d2⟩
  unfold nortekRead
  rw [nkFile_endian, g1]
  simp only
  have hp : (Spec.nkFile true (Spec.beamsOf (Spec.ascii b.serial) h) b h s cs (recs.flatMap NkRec.encode)).length -
      o.rest.length = (Spec.nkFile true (Spec.beamsOf (Spec.ascii b.serial) h) b h s cs []).length := by
    rw [nkFile_split, g10, List.length_append]
    omega
  have hcfg : nkCfgOf true false o = ⟨true, false, false, s.nBeams.val, s.nBins.val⟩ := by
    unfold nkCfgOf
    rw [g2, g9]
    rfl
  rw [hp, g2, nkFile_split, hofs, hroom]
  simp only
  rw [hcfg, g9, g10]
  have d1' : vecRead ⟨true, false, false, s.nBeams.val, s.nBins.val⟩ (s.meaning true).velScale fl N.toNat
      (s.meaning true).nBurst fs (recs.flatMap NkRec.encode) = some (.ok ds) := d1
  rw [d1']
  rfl

/-! ### An example -/

/-- A system record before each sample. -/
def altRecs (f g : ℕ → NkRec) : ℕ → ℕ → List NkRec
  | _, 0 => []
  | s, m + 1 => f s :: g s :: altRecs f g (s + 1) m

theorem altRecs_split {f g : ℕ → NkRec} (hf : ∀ k, Spec.isSample (f k) = false) (hg : ∀ k, Spec.isSample (g k) = true) :
    ∀ (m s : ℕ) (pre : List NkRec) (r : NkRec) (post : List NkRec), altRecs f g s m = pre ++ r :: post →
      ∃ k < m, pre.countP Spec.isSample = k ∧
        ((pre.length = 2 * k ∧ r = f (s + k)) ∨ (pre.length = 2 * k + 1 ∧ r = g (s + k))) := by
  intro m
  induction m with
  | zero => intro s pre r post e; simp [altRecs] at e
  | succ m ih =>
    intro s pre r post e
    rw [altRecs] at e
    rcases pre with _ | ⟨a, _ | ⟨b, pre⟩⟩
    · rw [List.nil_append, List.cons.injEq] at e
      exact ⟨0, by omega, rfl, .inl ⟨rfl, e.1.symm⟩⟩
    · simp only [List.cons_append, List.nil_append, List.cons.injEq] at e
      refine ⟨0, by omega, ?_, .inr ⟨rfl, e.2.1.symm⟩⟩
      rw [← e.1, List.countP_cons, hf]
      rfl
    · simp only [List.cons_append, List.cons.injEq] at e
      obtain ⟨k, hk, h1, h2⟩ := ih (s + 1) pre r post e.2.2
      refine ⟨k + 1, by omega, ?_, ?_⟩
      · rw [← e.1, ← e.2.1, List.countP_cons, List.countP_cons, hf, hg, h1]
        rfl
      · rw [show s + (k + 1) = s + 1 + k by omega, List.length_cons, List.length_cons]
        rcases h2 with ⟨h2, h3⟩ | ⟨h2, h3⟩
        · exact .inl ⟨by omega, h3⟩
        · exact .inr ⟨by omega, h3⟩

theorem altRecs_at {f g : ℕ → NkRec} (hf : ∀ k, Spec.isSample (f k) = false) (hg : ∀ k, Spec.isSample (g k) = true) :
    ∀ (m s k : ℕ), k < m → ∃ pre post, altRecs f g s m = pre ++ f (s + k) :: g (s + k) :: post ∧
      pre.countP Spec.isSample = k := by
  intro m
  induction m with
  | zero => intro s k hk; omega
  | succ m ih =>
    intro s k hk
    rcases k with _ | k
    · exact ⟨[], _, rfl, rfl⟩
    · obtain ⟨pre, post, e, h⟩ := ih (s + 1) k (by omega)
      refine ⟨f s :: g s :: pre, post, ?_, ?_⟩
      · rw [altRecs, e, show s + (k + 1) = s + 1 + k by omega]
        rfl
      · rw [List.countP_cons, List.countP_cons, hf, hg, h]
        rfl

theorem altRecs_count {f g : ℕ → NkRec} (hf : ∀ k, Spec.isSample (f k) = false)
    (hg : ∀ k, Spec.isSample (g k) = true) : ∀ m s : ℕ, (altRecs f g s m).countP Spec.isSample = m := by
  intro m
  induction m with
  | zero => intro s; rfl
  | succ m ih =>
    intro s
    rw [altRecs, List.countP_cons, List.countP_cons, hf, hg, ih]
    rfl

/-- Seconds after noon of sample `k`: four samples, and more half a minute later. -/
def exBurstSec (k : ℕ) : ℕ := if k < 4 then k else 26 + k

def exBurstSys (k : ℕ) : NkRec := ⟨0x11, (exSys (exBurstSec k)).bytes true, 0, 0⟩

def exBurstSample (k : ℕ) : NkRec := ⟨0x10, (exVals (k % 100 : ℕ)).bytes true, 0, 0⟩

/-- Bursts of four samples at 1 Hz, half a minute apart: `m` samples. -/
def exBurstRecs (m : ℕ) : List NkRec := altRecs exBurstSys exBurstSample 0 m

/-- Beginning of the bursts. -/
def exBurstT (b : ℕ) : ℝ := 1339502400 + 30 * b

theorem exBurst_sys (k : ℕ) : Spec.isSample (exBurstSys k) = false := rfl

theorem exBurst_sample (k : ℕ) : Spec.isSample (exBurstSample k) = true := rfl

theorem exBurst_sysAt {m k : ℕ} {r : NkRec} : Spec.sysAt (exBurstRecs m) k r ↔ k < m ∧ r = exBurstSys k := by
  constructor
  · rintro ⟨pre, post, e, h1, h2⟩
    obtain ⟨k', hk, h3, h4⟩ := altRecs_split exBurst_sys exBurst_sample m 0 pre r post e
    obtain rfl : k' = k := by omega
    rw [Nat.zero_add] at h4
    rcases h4 with ⟨-, h4⟩ | ⟨-, h4⟩
    · exact ⟨hk, h4⟩
    · rw [h4] at h1
      exact absurd h1 (by simp [exBurstSample])
  · rintro ⟨hk, rfl⟩
    obtain ⟨pre, post, e, h⟩ := altRecs_at exBurst_sys exBurst_sample m 0 k hk
    rw [Nat.zero_add] at e
    exact ⟨pre, _, e, rfl, h⟩

theorem exBurst_mem {m : ℕ} {r : NkRec} (h : r ∈ exBurstRecs m) : ∃ k < m, r = exBurstSys k ∨ r = exBurstSample k := by
  obtain ⟨pre, post, e⟩ := List.append_of_mem h
  obtain ⟨k, hk, -, h2⟩ := altRecs_split exBurst_sys exBurst_sample m 0 pre r post e
  rw [Nat.zero_add] at h2
  exact ⟨k, hk, h2.imp And.right And.right⟩

theorem exBurstSec_ok {k : ℕ} (h : k < 8) : (exSys (exBurstSec k)).ok := by
  interval_cases k <;> unfold exBurstSec exSys Spec.VecSysVals.ok Spec.U16 Spec.I16 <;> decide

/-- The example is a recording, whether the second burst is complete or stops one sample early. -/
theorem exBurst_recording {m : ℕ} (hm : m = 7 ∨ m = 8) :
    Spec.BurstRecording exCfg (1 : ℕ) 4 exBurstT 204 (exBurstRecs m) := by
  have hc : (exBurstRecs m).countP Spec.isSample = m := altRecs_count exBurst_sys exBurst_sample m 0
  have hw : Spec.VecRecords exCfg 204 (exBurstRecs m) := by
    refine ⟨?_, ?_, ?_, ?_, ?_, ?_, ?_, ?_⟩
    · intro r hr
      left
      obtain ⟨k, -, rfl | rfl⟩ := exBurst_mem hr
      · simp [exBurstSys, nkFixedLen, Spec.VecSysVals.bytes, Spec.clock6, put16_length]
      · simp [exBurstSample, nkFixedLen, Spec.VecVals.bytes, put16_length]
    · intro r hr
      obtain ⟨k, -, rfl | rfl⟩ := exBurst_mem hr <;> simp [exBurstSys, exBurstSample]
    · intro r hr h
      obtain ⟨k, -, rfl | rfl⟩ := exBurst_mem hr
      · simp [exBurstSys] at h
      · exact ⟨exVals (k % 100 : ℕ), exVals_ok _ (by unfold Spec.I16; omega), rfl⟩
    · intro r hr h
      obtain ⟨k, hk, rfl | rfl⟩ := exBurst_mem hr
      · exact ⟨exSys (exBurstSec k), exBurstSec_ok (by omega), rfl⟩
      · simp [exBurstSample] at h
    · intro r hr h
      obtain ⟨k, hk, rfl | rfl⟩ := exBurst_mem hr <;> simp [exBurstSys, exBurstSample] at h
    · intro pre r mid q post e h1 h2
      have hr : Spec.isSample r = false := by simp [Spec.isSample, h1]
      have e' : exBurstRecs m = (pre ++ r :: mid) ++ q :: post := by rw [e]; simp
      obtain ⟨k, -, a1, a2⟩ := altRecs_split exBurst_sys exBurst_sample m 0 _ _ _ e
      obtain ⟨k', -, b1, b2⟩ := altRecs_split exBurst_sys exBurst_sample m 0 _ _ _ e'
      rw [List.countP_append, List.countP_cons, hr, a1] at b1
      rw [List.length_append, List.length_cons] at b2
      have hq : ¬ q = exBurstSample (0 + k') := fun hq => by simp [hq, exBurstSample] at h2
      have hr' : ¬ r = exBurstSample (0 + k) := fun hq => by simp [hq, exBurstSample] at h1
      rcases a2 with ⟨a2, -⟩ | ⟨-, a2⟩
      · rcases b2 with ⟨b2, -⟩ | ⟨-, b2⟩
        · by_contra h0
          simp at b1
          omega
        · exact absurd b2 hq
      · exact absurd a2 hr'
    · intro pre r mid q post e h1
      obtain ⟨k, hk, rfl | rfl⟩ := exBurst_mem (m := m) (r := r) (by rw [e]; simp) <;>
        simp [exBurstSys, exBurstSample] at h1
    · intro pre r post e h1
      obtain ⟨k, hk, rfl | rfl⟩ := exBurst_mem (m := m) (r := r) (by rw [e]; simp) <;>
        simp [exBurstSys, exBurstSample] at h1
  refine ⟨hw, by omega, ?_, ?_, ?_, by norm_num [exBurstT], ?_⟩
  · intro k r hr
    rw [hc]
    exact (exBurst_sysAt.mp hr).1
  · intro k r x hr e hx
    obtain ⟨hk, rfl⟩ := exBurst_sysAt.mp hr
    have h1 := vecSysVals_decoded true x hx
    have h2 := vecSysVals_decoded true (exSys (exBurstSec k)) (exBurstSec_ok (by omega))
    have e' : (exSys (exBurstSec k)).bytes true = x.bytes true := e
    rw [← e', h2] at h1
    have h3 : (exSys (exBurstSec k)).t = x.t := congrArg VecSys.time (Except.ok.inj h1)
    rw [← h3]
    have hk8 : k < 8 := by omega
    have key : ∀ k < 8, date2epoch (exSys (exBurstSec k)).t 0 = 1339502400 + (exBurstSec k : ℚ) := by decide +kernel
    rw [key k hk8]
    unfold Spec.burstClock exBurstT exBurstSec
    interval_cases k <;> norm_num
  · intro b hb
    have hb2 : b = 0 ∨ b = 1 := by omega
    have key : ∀ k < 7, ∃ r, Spec.sysAt (exBurstRecs m) k r := fun k hk => ⟨_, exBurst_sysAt.mpr ⟨by omega, rfl⟩⟩
    rcases hb2 with rfl | rfl
    · exact ⟨0, 1, 2, by omega, by omega, by omega, by omega, key 0 (by omega), key 1 (by omega), key 2 (by omega)⟩
    · exact ⟨4, 5, 6, by omega, by omega, by omega, by omega, key 4 (by omega), key 5 (by omega), key 6 (by omega)⟩
  · intro b
    unfold exBurstT
    push_cast
    norm_num
    linarith

theorem exBurst_noImu {m : ℕ} (k : ℕ) (r : NkRec) : ¬ Spec.imuAt (exBurstRecs m) k r := by
  rintro ⟨pre, post, e, h1, -⟩
  obtain ⟨k, hk, rfl | rfl⟩ := exBurst_mem (m := m) (r := r) (by rw [e]; simp) <;>
    simp [exBurstSys, exBurstSample] at h1

example : ∃ ds, vecRead exCfg 1 (fun _ => 0) 10 4 (1 : ℕ) ((exBurstRecs 8).flatMap NkRec.encode) = some (.ok ds) ∧
    ds.n = 8 ∧ ds.time 5 = some 1339502431 ∧ ds.heading 6 = some 122 := by
  have hc : (exBurstRecs 8).countP Spec.isSample = 8 := altRecs_count exBurst_sys exBurst_sample 8 0
  obtain ⟨ds, h1, h2⟩ := burst_file_partial (exBurst_recording (.inr rfl)) (by omega) (by simp) rfl (by norm_num) 1
    (fun _ => 0) 10 (by omega)
  have hn : ds.n = 8 := by
    rw [(h2.lengthNoImu exBurst_noImu).1.1, hc]
    rfl
  refine ⟨ds, h1, hn, ?_, ?_⟩
  · rw [h2.times 5 (by omega)]
    unfold Spec.burstClock exBurstT
    norm_num
  · refine ((h2.recorded 6 _ (exSys (exBurstSec 6)) (exBurst_sysAt.mpr ⟨by omega, rfl⟩) (exBurstSec_ok (by omega)) rfl).1
      (VecDs.heading, fun x => x.he / 10) (by simp [Spec.sysVars])).trans ?_
    simp [exSys, exBurstSec]; norm_num

example : ∃ ds, vecRead exCfg 1 (fun _ => 0) 10 4 (1 : ℕ) ((exBurstRecs 7).flatMap NkRec.encode) = some (.ok ds) ∧
    7 < ds.n := by
  have hc : (exBurstRecs 7).countP Spec.isSample = 7 := altRecs_count exBurst_sys exBurst_sample 7 0
  obtain ⟨ds, h1, h2, -⟩ := burst_phantom_false (exBurst_recording (.inl rfl)) (by omega) (by simp) rfl (by norm_num) 1
    (fun _ => 0) 10 (by omega) exBurst_noImu (by rw [hc]; decide)
  exact ⟨ds, h1, by omega⟩

/-- The setup of the example: an averaging interval of 512 ticks, four samples per burst. -/
def exBurstSetup : Spec.NkSetup := { exNkSetup with avgInterval := 512, nBurst := 4 }

example (round : ℝ → ℤ) (cosH : ℝ) (fl : List ℕ → ℝ) :
    ∃ o ds, nortekRead false exUtf8 fl round cosH (Spec.nkFile true 3 exNkBoard exNkSonde exBurstSetup (fun _ => 0)
        ((exBurstRecs 8).flatMap NkRec.encode)) = some (.ok (.vec o ds)) ∧ o.fs = 1 ∧ ds.n = 8 := by
  have hc : (exBurstRecs 8).countP Spec.isSample = 8 := altRecs_count exBurst_sys exBurst_sample 8 0
  have hfw : firstWord (Spec.ascii exNkBoard.serial) = .ok ['V', 'E', 'C'] := by decide
  have hbe : Spec.beamsOf (Spec.ascii exNkBoard.serial) exNkSonde = 3 := by
    unfold Spec.beamsOf
    rw [hfw]
    rfl
  obtain ⟨N, hN, hN'⟩ := vector_room_lt 28 52 1 [] (List.replicate 8 [⟨17, 28⟩, ⟨16, 24⟩])
    (Spec.nkFile true (Spec.beamsOf (Spec.ascii exNkBoard.serial) exNkSonde) exNkBoard exNkSonde exBurstSetup (fun _ => 0)
      []).length (by simp) (by decide) (by
      intro b hb
      rw [List.eq_of_mem_replicate hb]
      exact ⟨[⟨16, 24⟩], rfl, by simp, rfl⟩) (by decide) (by simp) (by omega)
  have e : Spec.blocks (exBurstRecs 8) = [] ++ (List.replicate 8 [(⟨17, 28⟩ : NkBlock), ⟨16, 24⟩]).flatten := by
    decide +kernel
  rw [← e] at hN hN'
  rw [countId_blocks (exBurstRecs 8) (exBurst_recording (.inr rfl)).records.vector, hc] at hN'
  obtain ⟨o, ds, h1, h2, -, -, -, -, h3⟩ := burst_whole_partial exUtf8 exUtf8_ok exNkBoard exNkSonde exBurstSetup
    (fun _ => 0) [32, 52, 57, 53, 49] _ ⟨by decide, by decide, by decide⟩ rfl hfw (by rw [hbe]; omega)
    (by rw [hbe]; decide) ⟨by decide, by decide⟩ ⟨by decide, by decide⟩ (by decide) (fs := 1) (a := 204)
    (T := exBurstT) rfl (by simp) (exBurst_recording (.inr rfl)) (by
      intro r hr
      obtain ⟨k, hk, rfl | rfl⟩ := exBurst_mem hr
      · right; right
        have h1 : (exBurstSys k).id = 0x11 := rfl
        refine ⟨by rw [h1]; decide, by rw [h1]; decide, 14, 0, _, rfl, ?_⟩
        rw [show 2 * word true 14 0 = 28 by decide]
        simp [exBurstSys, Spec.VecSysVals.bytes, Spec.clock6, put16_length]
      · left
        refine ⟨rfl, ?_⟩
        simp [exBurstSample, Spec.VecVals.bytes, put16_length]) hN (by rw [hc]; omega) round cosH fl
  rw [hbe] at h1
  refine ⟨o, ds, h1, by rw [h2]; norm_num, ?_⟩
  rw [(h3.lengthNoImu exBurst_noImu).1.1, hc]
  have : Spec.wholeBursts exBurstSetup.nBurst.val 8 = 8 := by decide
  rw [this]
  omega

end Dolfyn
