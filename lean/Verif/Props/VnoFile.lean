import Verif.Model.VnoFile
import Verif.Props.NkFile
import Verif.Props.TimeF

/-!
C164: Vectrino files from the first byte to the dataset.
-/

namespace Dolfyn

/-! ### The times -/

/-- What the additions give: `k` steps from zero, each rounded to a double. -/
def vnoSteps (fs : ℚ) : ℕ → ℚ
  | 0 => 0
  | k + 1 => fl64 (vnoSteps fs k + fl64 (1 / fl64 fs))

theorem vnoStep_near (fs : ℚ) (hf : 0 < fs) : |fl64 (1 / fl64 fs) - 1 / fs| ≤ 3 / 2 ^ 53 * (1 / fs) := by
  have h1 := fl64_err fs
  rw [abs_of_pos hf, abs_le] at h1
  have hg : 0 < fl64 fs := by
    have : fs / 2 ^ 53 < fs := by
      rw [div_lt_iff₀ (by norm_num)]
      nlinarith
    linarith [h1.1]
  set g := fl64 fs with hgdef
  have h2 := fl64_err (1 / g)
  rw [abs_of_pos (by positivity : 0 < 1 / g), abs_le] at h2
  -- `1 / g` against `1 / fs`
  have hu : (0 : ℚ) < 1 / fs := by positivity
  have hgl : fs * (1 - 1 / 2 ^ 53) ≤ g := by linarith [h1.1]
  have hgu : g ≤ fs * (1 + 1 / 2 ^ 53) := by linarith [h1.2]
  have h3 : 1 / g ≤ 1 / fs * (1 + 3 / 2 / 2 ^ 53) := by
    rw [div_le_iff₀ hg]
    calc (1 : ℚ) ≤ 1 / fs * (1 + 3 / 2 / 2 ^ 53) * (fs * (1 - 1 / 2 ^ 53)) := by
          rw [show 1 / fs * (1 + 3 / 2 / 2 ^ 53) * (fs * (1 - 1 / 2 ^ 53)) =
            (1 / fs * fs) * ((1 + 3 / 2 / 2 ^ 53) * (1 - 1 / 2 ^ 53)) by ring, one_div_mul_cancel hf.ne']
          norm_num
      _ ≤ _ := mul_le_mul_of_nonneg_left hgl (by positivity)
  have h4 : 1 / fs * (1 - 3 / 2 / 2 ^ 53) ≤ 1 / g := by
    rw [le_div_iff₀ hg]
    calc 1 / fs * (1 - 3 / 2 / 2 ^ 53) * g ≤ 1 / fs * (1 - 3 / 2 / 2 ^ 53) * (fs * (1 + 1 / 2 ^ 53)) :=
          mul_le_mul_of_nonneg_left hgu (mul_nonneg hu.le (by norm_num))
      _ = (1 / fs * fs) * ((1 - 3 / 2 / 2 ^ 53) * (1 + 1 / 2 ^ 53)) := by ring
      _ ≤ 1 := by
          rw [one_div_mul_cancel hf.ne']
          norm_num
  rw [abs_le]
  constructor
  · have : 1 / g * (1 - 1 / 2 ^ 53) ≤ fl64 (1 / g) := by linarith [h2.1]
    have h5 : 1 / fs * (1 - 3 / 2 / 2 ^ 53) * (1 - 1 / 2 ^ 53) ≤ 1 / g * (1 - 1 / 2 ^ 53) :=
      mul_le_mul_of_nonneg_right h4 (by norm_num)
    have h6 : 1 / fs * (1 - 3 / 2 ^ 53) ≤ 1 / fs * ((1 - 3 / 2 / 2 ^ 53) * (1 - 1 / 2 ^ 53)) :=
      mul_le_mul_of_nonneg_left (by norm_num) hu.le
    linarith
  · have : fl64 (1 / g) ≤ 1 / g * (1 + 1 / 2 ^ 53) := by linarith [h2.2]
    have h5 : 1 / g * (1 + 1 / 2 ^ 53) ≤ 1 / fs * (1 + 3 / 2 / 2 ^ 53) * (1 + 1 / 2 ^ 53) :=
      mul_le_mul_of_nonneg_right h3 (by norm_num)
    have h6 : 1 / fs * ((1 + 3 / 2 / 2 ^ 53) * (1 + 1 / 2 ^ 53)) ≤ 1 / fs * (1 + 3 / 2 ^ 53) :=
      mul_le_mul_of_nonneg_left (by norm_num) hu.le
    linarith

/-- The sum of `k` rounded steps is near `k / fs`; the error grows with the square of `k`. -/
theorem vnoSteps_near (fs : ℚ) (hf : 0 < fs) : ∀ k : ℕ, k < 2 ^ 40 →
    |vnoSteps fs k - k / fs| ≤ 5 * (k : ℚ) ^ 2 / 2 ^ 53 * (1 / fs)
  | 0, _ => by simp [vnoSteps]
  | k + 1, hk => by
    have ih := vnoSteps_near fs hf k (by omega)
    have hs := vnoStep_near fs hf
    set d := 1 / fs with hd
    have hd0 : 0 < d := by positivity
    set p := fl64 (1 / fl64 fs) with hp
    have hkd : (k : ℚ) / fs = k * d := by rw [hd]; ring
    have hkd' : ((k + 1 : ℕ) : ℚ) / fs = k * d + d := by rw [hd]; push_cast; ring
    rw [hkd] at ih
    rw [hkd', vnoSteps, ← hp]
    set s := vnoSteps fs k with hsdef
    have h1 := fl64_err (s + p)
    have hk0 : (0 : ℚ) ≤ k := by positivity
    have hkq : (k : ℚ) ≤ 2 ^ 40 := by exact_mod_cast (by omega : k ≤ 2 ^ 40)
    rw [abs_le] at ih hs
    have hq : (5 : ℚ) * (k : ℚ) ^ 2 / 2 ^ 53 * d ≤ (k : ℚ) * d := by
      have : (k : ℚ) ^ 2 ≤ 2 ^ 40 * k := by nlinarith
      have h2 : (5 : ℚ) * (k : ℚ) ^ 2 / 2 ^ 53 ≤ k := by
        rw [div_le_iff₀ (by norm_num)]
        nlinarith
      exact mul_le_mul_of_nonneg_right h2 hd0.le
    have hsp : |s + p| ≤ (2 * k + 2) * d := by
      rw [abs_le]
      constructor <;> nlinarith [ih.1, ih.2, hs.1, hs.2]
    have h2 : |s + p| / 2 ^ 53 ≤ (2 * k + 2) * d / 2 ^ 53 := div_le_div_of_nonneg_right hsp (by norm_num)
    have h3 := abs_le.mp (h1.trans h2)
    have e : 5 * (((k + 1 : ℕ) : ℚ)) ^ 2 / 2 ^ 53 * d = 5 * (k : ℚ) ^ 2 / 2 ^ 53 * d + (10 * k + 5) * d / 2 ^ 53 := by
      push_cast; ring
    have hx : (0 : ℚ) ≤ k * d := by positivity
    rw [abs_le, e]
    constructor
    · have : 3 / 2 ^ 53 * d + (2 * k + 2) * d / 2 ^ 53 ≤ (10 * k + 5) * d / 2 ^ 53 := by
        rw [div_mul_eq_mul_div, ← add_div]
        apply div_le_div_of_nonneg_right _ (by norm_num)
        nlinarith
      linarith [ih.1, hs.1, h3.1]
    · have : 3 / 2 ^ 53 * d + (2 * k + 2) * d / 2 ^ 53 ≤ (10 * k + 5) * d / 2 ^ 53 := by
        rw [div_mul_eq_mul_div, ← add_div]
        apply div_le_div_of_nonneg_right _ (by norm_num)
        nlinarith
      linarith [ih.2, hs.2, h3.2]

theorem daysBeforeMonth_le (y : ℤ) (m : ℕ) : daysBeforeMonth y m ≤ 31 * (m - 1) := by
  unfold daysBeforeMonth
  have : ∀ n, ((List.range n).map fun k => daysInMonth y (k + 1)).sum ≤ 31 * n := by
    intro n
    induction n with
    | zero => simp
    | succ n ih =>
      rw [List.range_succ, List.map_append, List.sum_append]
      have : daysInMonth y (n + 1) ≤ 31 := by unfold daysInMonth; split_ifs <;> omega
      simp only [List.map_cons, List.map_nil, List.sum_cons, List.sum_nil]
      omega
  exact this (m - 1)

/-- Clock times of Nortek records are seconds between 1990 and 2089. -/
theorem date2epoch_bounds {t : CivilTime} (hv : t.valid) (h0 : 1990 ≤ t.year) (h1 : t.year ≤ 2089) :
    631152000 ≤ date2epoch t 0 ∧ date2epoch t 0 ≤ 3800000000 := by
  obtain ⟨a1, a2, a3, a4, a5, a6, a7, a8, a9⟩ := hv
  have hd := daysBeforeMonth_le t.year t.month
  have hm : daysInMonth t.year t.month ≤ 31 := by unfold daysInMonth; split_ifs <;> omega
  have hl : (631152000 : ℤ) ≤ (dateOrdinal t.year t.month t.day - 719163) * 86400 + t.hour * 3600 + t.minute * 60 +
      t.second := by
    unfold dateOrdinal
    omega
  have hu : (dateOrdinal t.year t.month t.day - 719163) * 86400 + t.hour * 3600 + t.minute * 60 +
      t.second ≤ (3800000000 : ℤ) := by
    unfold dateOrdinal
    omega
  unfold date2epoch
  constructor
  · have : (631152000 : ℚ) ≤ (((dateOrdinal t.year t.month t.day - 719163) * 86400 + t.hour * 3600 + t.minute * 60 +
      t.second : ℤ) : ℚ) := by exact_mod_cast hl
    simpa using this
  · have : (((dateOrdinal t.year t.month t.day - 719163) * 86400 + t.hour * 3600 + t.minute * 60 +
      t.second : ℤ) : ℚ) ≤ 3800000000 := by exact_mod_cast hu
    simpa using this

/-- The time of sample `k`: the start, `k` sampling intervals later, up to half a microsecond and the drift of the
additions. -/
theorem vno_time_near {t : CivilTime} (hv : t.valid) (h0 : 1990 ≤ t.year) (h1 : t.year ≤ 2089) (fs : ℚ) (hf : 0 < fs)
    (k : ℕ) (hk : k < 2 ^ 40) (hl : (k : ℚ) / fs ≤ 200000000) :
    0 < fl64 (vnoSteps fs k + date2epoch t 0) ∧
    |fl64 (vnoSteps fs k + date2epoch t 0) - (date2epoch t 0 + k / fs)| ≤
      1 / 2 ^ 22 + 5 * (k : ℚ) ^ 2 / 2 ^ 53 * (1 / fs) := by
  obtain ⟨b0, b1⟩ := date2epoch_bounds hv h0 h1
  have hn := vnoSteps_near fs hf k hk
  have hkq : (k : ℚ) ≤ 2 ^ 40 := by exact_mod_cast hk.le
  have hk0 : (0 : ℚ) ≤ k := by positivity
  have hq : 5 * (k : ℚ) ^ 2 / 2 ^ 53 * (1 / fs) ≤ 200000000 / 1000 := by
    have e : 5 * (k : ℚ) ^ 2 / 2 ^ 53 * (1 / fs) = (5 * k / 2 ^ 53) * (k / fs) := by ring
    rw [e]
    calc (5 * (k : ℚ) / 2 ^ 53) * (k / fs) ≤ (1 / 1000) * 200000000 := by
          apply mul_le_mul _ hl (by positivity) (by norm_num)
          rw [div_le_iff₀ (by norm_num)]
          have : (2 : ℚ) ^ 40 * 5 ≤ 1 / 1000 * 2 ^ 53 := by norm_num
          linarith
      _ = _ := by ring
  have hkf : 0 ≤ (k : ℚ) / fs := by positivity
  have hn' := abs_le.mp hn
  set x := vnoSteps fs k + date2epoch t 0 with hx
  have hx0 : (600000000 : ℚ) ≤ x := by linarith [hn'.1]
  have hx1 : x < 2 ^ ((31 : ℤ) + 1) := by
    have : ((2 : ℚ) ^ ((31 : ℤ) + 1)) = 4294967296 := by norm_num
    rw [this]
    linarith [hn'.2]
  have he := fl64_err_lt x 31 (by rw [abs_of_nonneg (by linarith)]; exact hx1)
  have h22 : ((2 : ℚ) ^ ((31 : ℤ) - 53)) = 1 / 2 ^ 22 := by norm_num
  rw [h22] at he
  have he' := abs_le.mp he
  constructor
  · have : (1 : ℚ) / 2 ^ 22 < 1 := by norm_num
    linarith [he'.1]
  · rw [abs_le]
    constructor
    · linarith [he'.1, hn'.1]
    · linarith [he'.2, hn'.2]

/-! ### Vectrino files -/

/-- The numbers of a Vectrino sample. -/
structure Spec.VnoVals where
  st : ℕ
  ct : ℕ
  v : Fin 4 → ℤ
  m : Fin 4 → ℕ
  c : Fin 4 → ℕ

/-- Numbers a sample can hold. -/
def Spec.VnoVals.ok (x : Spec.VnoVals) : Prop := ∀ b, Spec.I16 (x.v b)

/-- The bytes of the record. -/
def Spec.VnoVals.bytes (le : Bool) (x : Spec.VnoVals) : List ℕ :=
  [x.st, x.ct] ++ Spec.put16 le (x.v 0) ++ Spec.put16 le (x.v 1) ++ Spec.put16 le (x.v 2) ++ Spec.put16 le (x.v 3) ++
    [x.m 0, x.m 1, x.m 2, x.m 3, x.c 0, x.c 1, x.c 2, x.c 3]

/-- An event record with the time `t`. -/
def Spec.eventAt (t : CivilTime) (r : NkRec) : Prop :=
  r.id = 0x0f ∧ t.valid ∧ 1990 ≤ t.year ∧ t.year ≤ 2089 ∧ ∃ a b rest, r.body = [a, b] ++
    ([Spec.toBCD t.minute, Spec.toBCD t.second, Spec.toBCD t.day, Spec.toBCD t.hour, Spec.toBCD (t.year % 100).toNat,
      Spec.toBCD t.month] ++ rest)

/-- Record `r` of the file holds sample `k`. -/
def Spec.vnoAt (recs : List NkRec) (k : ℕ) (r : NkRec) : Prop :=
  ∃ pre post, recs = pre ++ r :: post ∧ r.id = 0x51 ∧ pre.countP Spec.isSample = k

/-- Only records of a Vectrino. -/
def Spec.vnoOnly (r : NkRec) : Prop := r.id ≠ 0x10 ∧ r.id ≠ 0x20 ∧ r.id ≠ 0x11 ∧ r.id ≠ 0x71

/-- A recording of a Vectrino: complete records, samples of the right contents, event records with times, the last of
which is `t`; no records of other instruments. -/
structure Spec.VnoRecording (cfg : NkCfg) (t : CivilTime) (recs : List NkRec) : Prop where
  wf : ∀ r ∈ recs, Spec.nkWF cfg r
  vno : ∀ r ∈ recs, Spec.vnoOnly r
  vals : ∀ r ∈ recs, r.id = 0x51 → ∃ x : Spec.VnoVals, x.ok ∧ r.body = x.bytes cfg.le
  events : ∀ r ∈ recs, r.id = 0x0f → ∃ u, Spec.eventAt u r
  last : ∃ pre r post, recs = pre ++ r :: post ∧ Spec.eventAt t r ∧ ∀ q ∈ post, q.id ≠ 0x0f

theorem isSample_vno {r : NkRec} (h : Spec.vnoOnly r) : Spec.isSample r = true ↔ r.id = 0x51 := by
  obtain ⟨h1, h2, -, -⟩ := h
  simp [Spec.isSample, h1, h2]

theorem vno_decode {x : Spec.VnoVals} (h : x.ok) (le : Bool) (scale : ℚ) :
    ∃ d, vnoData le scale (x.bytes le) = .ok d ∧ d.status = x.st ∧ (∀ b, d.vel b = x.v b * scale / 1000) ∧
      (∀ b, d.amp b = x.m b) ∧ ∀ b, d.corr b = x.c b := by
  refine ⟨_, vno_data_decoded le scale x.st x.ct (x.m 0) (x.m 1) (x.m 2) (x.m 3) (x.c 0) (x.c 1) (x.c 2) (x.c 3) (x.v 0)
    (x.v 1) (x.v 2) (x.v 3) (h 0) (h 1) (h 2) (h 3), rfl, ?_, ?_, ?_⟩
  · intro b; fin_cases b <;> rfl
  · intro b; fin_cases b <;> rfl
  · intro b; fin_cases b <;> rfl

theorem event_decode {t : CivilTime} {r : NkRec} (h : Spec.eventAt t r) : rdTime ((r.body.drop 2).take 6) = .ok t := by
  obtain ⟨-, hv, h0, h1, a, b, rest, e⟩ := h
  rw [e]
  have := rd_time_roundtrip t hv h0 h1 []
  rw [List.append_nil] at this
  exact this

/-- The reading loop up to bytes that do not hold a complete record. -/
theorem nkLoop_records_tail (cfg : NkCfg) (hcs : cfg.doCs = false) (tail : List ℕ)
    (ht : ∀ s : NkState, s.rest = tail → nkReadNext cfg s = .error .eof) (recs : List NkRec) (s : NkState)
    (fuel : ℕ) (hf : recs.length < fuel) (hrest : s.rest = recs.flatMap NkRec.encode ++ tail)
    (hwf : ∀ r ∈ recs, Spec.nkWF cfg r) (himu : ∀ r ∈ recs, r.id ≠ 0x71) :
    nkLoop cfg none fuel s = some (.ok ⟨tail, s.c + recs.countP Spec.isSample, s.log ++ placedList s.c recs, s.imu⟩) := by
  induction recs generalizing s fuel with
  | nil =>
    rcases fuel with _ | fuel
    · omega
    · have hr : s.rest = tail := by simpa using hrest
      rw [nkLoop, ht s hr]
      rcases s with ⟨rest, c, log, im⟩
      simp only at hr
      subst hr
      simp [placedList]
  | cons r recs ih =>
    rcases fuel with _ | fuel
    · omega
    · have h71 := himu r (by simp)
      have hstep := nkReadNext_record cfg hcs s r (recs.flatMap NkRec.encode ++ tail)
        (by rw [hrest]; simp) (hwf r (by simp)) (fun h => absurd h h71)
      rw [nkLoop, hstep]
      simp only [nkResync, Bool.false_eq_true, if_false]
      rw [ih ⟨recs.flatMap NkRec.encode ++ tail, s.c + (if Spec.isSample r then 1 else 0),
          s.log ++ [Spec.placed s.c r], s.imu || r.id == 0x71⟩ fuel
        (by simp at hf; omega) rfl (fun r hr => hwf r (by simp [hr])) (fun r hr => himu r (by simp [hr]))]
      have hb : (r.id == 0x71) = false := by simpa using h71
      simp only [placedList, List.countP_cons, List.append_assoc, List.singleton_append, hb, Bool.or_false]
      congr 3
      omega

/-- What the arrays hold after the records. -/
theorem vnoStore_records {le : Bool} {scale fs : ℚ} {N : ℕ} (recs : List NkRec) : ∀ (k : ℕ) (s : VnoRaw),
    (∀ r ∈ recs, Spec.vnoOnly r) →
    (∀ r ∈ recs, r.id = 0x51 → ∃ d, vnoData le scale r.body = .ok d) →
    (∀ r ∈ recs, r.id = 0x0f → ∃ u, Spec.eventAt u r) →
    k + recs.countP Spec.isSample ≤ N → (∀ i < k, s.time i = some (vnoSteps fs i)) →
    ∃ s', vnoStore le scale fs N s (placedList k recs) = .ok s' ∧
      (∀ i, k + recs.countP Spec.isSample ≤ i → s'.sample i = s.sample i ∧ s'.time i = s.time i) ∧
      (∀ i < k, s'.sample i = s.sample i) ∧
      (∀ i < k + recs.countP Spec.isSample, s'.time i = some (vnoSteps fs i)) ∧
      (s'.made = (s.made || decide (0 < recs.countP Spec.isSample))) ∧
      (∀ pre r post, recs = pre ++ r :: post → r.id = 0x51 →
        ∃ d, vnoData le scale r.body = .ok d ∧ s'.sample (k + pre.countP Spec.isSample) = some d) ∧
      (∀ pre r post u, recs = pre ++ r :: post → Spec.eventAt u r → (∀ q ∈ post, q.id ≠ 0x0f) → s'.start = some u) ∧
      ((∀ r ∈ recs, r.id ≠ 0x0f) → s'.start = s.start) := by
  induction recs with
  | nil => exact fun k s _ _ _ _ h => ⟨s, rfl, fun _ _ => ⟨rfl, rfl⟩, fun _ _ => rfl, fun i hi => h i (by simpa using hi), by simp,
      fun pre r post h => by simp at h, fun pre r post u h => by simp at h, fun _ => rfl⟩
  | cons r recs ih =>
    intro k s h1 h2 h3 h4 h5
    have hr := h1 r (by simp)
    rw [List.countP_cons] at h4
    by_cases h51 : r.id = 0x51
    · have hs : Spec.isSample r = true := (isSample_vno hr).mpr h51
      rw [if_pos hs] at h4
      obtain ⟨d, hd⟩ := h2 r (by simp) h51
      have hstamp : vnoStamp fs s.time k = some (vnoSteps fs k) := by
        unfold vnoStamp
        rcases k with _ | k
        · rfl
        · rw [if_neg (by omega), Nat.add_sub_cancel, h5 k (by omega)]
          rfl
      obtain ⟨s', e1, e2, e3, e4, e5, e6, e7, e8⟩ := ih (k + 1)
        { s with time := Function.update s.time k (vnoStamp fs s.time k), sample := Function.update s.sample k (some d), made := true }
        (fun q hq => h1 q (by simp [hq])) (fun q hq => h2 q (by simp [hq])) (fun q hq => h3 q (by simp [hq])) (by omega) (by
          intro i hi
          simp only
          by_cases hik : i = k
          · rw [hik, Function.update_self, hstamp]
          · rw [Function.update_of_ne hik, h5 i (by omega)])
      refine ⟨s', ?_, ?_, ?_, ?_, ?_, ?_, ?_, ?_⟩
      · have hp : vnoPut le scale fs N s (Spec.placed k r) = .ok { s with time := Function.update s.time k (vnoStamp fs s.time k), sample := Function.update s.sample k (some d), made := true } := by
          unfold Spec.placed vnoPut
          rw [if_pos hs]
          simp only
          rw [if_neg (by simpa using h51), if_neg (by omega), hd]
        rw [placedList, vnoStore, hp]
        simp only [hs, if_true]
        exact e1
      · intro i hi
        rw [List.countP_cons, if_pos hs] at hi
        obtain ⟨f1, f2⟩ := e2 i (by omega)
        rw [f1, f2]
        simp only
        exact ⟨Function.update_of_ne (by omega) _ _, Function.update_of_ne (by omega) _ _⟩
      · intro i hi
        rw [e3 i (by omega)]
        exact Function.update_of_ne (by omega) _ _
      · intro i hi
        rw [List.countP_cons, if_pos hs] at hi
        exact e4 i (by omega)
      · rw [e5, List.countP_cons, if_pos hs]
        simp
      · intro pre q post e hq
        rcases pre with _ | ⟨a, pre⟩
        · simp only [List.nil_append, List.cons.injEq] at e
          obtain ⟨rfl, rfl⟩ := e
          refine ⟨d, hd, ?_⟩
          rw [List.countP_nil, Nat.add_zero, e3 k (by omega)]
          exact Function.update_self _ _ _
        · simp only [List.cons_append, List.cons.injEq] at e
          obtain ⟨rfl, e⟩ := e
          obtain ⟨d', hd', hv'⟩ := e6 pre q post e hq
          refine ⟨d', hd', ?_⟩
          rw [List.countP_cons, if_pos hs, ← hv']
          congr 1
          omega
      · intro pre q post u e hq hl
        rcases pre with _ | ⟨a, pre⟩
        · simp only [List.nil_append, List.cons.injEq] at e
          obtain ⟨rfl, rfl⟩ := e
          have := hq.1
          omega
        · simp only [List.cons_append, List.cons.injEq] at e
          obtain ⟨rfl, e⟩ := e
          exact e7 pre q post u e hq hl
      · intro h
        rw [e8 fun q hq => h q (by simp [hq])]
    · have hs : ¬ Spec.isSample r = true := fun e => h51 ((isSample_vno hr).mp e)
      rw [if_neg hs] at h4
      have hpl : Spec.placed k r = .other r.id r.body := by
        unfold Spec.placed
        rw [if_neg hs, if_neg hr.2.2.1, if_neg hr.2.2.2]
      by_cases h15 : r.id = 0x0f
      · obtain ⟨u, hu⟩ := h3 r (by simp) h15
        obtain ⟨s', e1, e2, e3, e4, e5, e6, e7, e8⟩ := ih k { s with start := some u } (fun q hq => h1 q (by simp [hq]))
          (fun q hq => h2 q (by simp [hq])) (fun q hq => h3 q (by simp [hq])) (by omega) h5
        refine ⟨s', ?_, ?_, e3, ?_, ?_, ?_, ?_, ?_⟩
        · have hp : vnoPut le scale fs N s (Spec.placed k r) = .ok { s with start := some u } := by
            rw [hpl, vnoPut, if_pos h15, event_decode hu]
          rw [placedList, vnoStore, hp]
          simp only [Bool.not_eq_true] at hs
          simp only [hs, Bool.false_eq_true, if_false, Nat.add_zero]
          exact e1
        · intro i hi
          rw [List.countP_cons, if_neg hs] at hi
          exact e2 i hi
        · intro i hi
          rw [List.countP_cons, if_neg hs] at hi
          exact e4 i hi
        · rw [e5, List.countP_cons, if_neg hs, Nat.add_zero]
        · intro pre q post e hq
          rcases pre with _ | ⟨a, pre⟩
          · simp only [List.nil_append, List.cons.injEq] at e
            obtain ⟨rfl, rfl⟩ := e
            exact absurd hq h51
          · simp only [List.cons_append, List.cons.injEq] at e
            obtain ⟨rfl, e⟩ := e
            obtain ⟨d', hd', hv'⟩ := e6 pre q post e hq
            refine ⟨d', hd', ?_⟩
            rw [List.countP_cons, if_neg hs, ← hv', Nat.add_zero]
        · intro pre q post v e hq hl
          rcases pre with _ | ⟨a, pre⟩
          · simp only [List.nil_append, List.cons.injEq] at e
            obtain ⟨rfl, rfl⟩ := e
            have h6 := event_decode hu
            rw [event_decode hq] at h6
            rw [e8 hl, Except.ok.inj h6]
          · simp only [List.cons_append, List.cons.injEq] at e
            obtain ⟨rfl, e⟩ := e
            exact e7 pre q post v e hq hl
        · intro h
          exact absurd h15 (h r (by simp))
      · obtain ⟨s', e1, e2, e3, e4, e5, e6, e7, e8⟩ := ih k s (fun q hq => h1 q (by simp [hq]))
          (fun q hq => h2 q (by simp [hq])) (fun q hq => h3 q (by simp [hq])) (by omega) h5
        refine ⟨s', ?_, ?_, e3, ?_, ?_, ?_, ?_, ?_⟩
        · have hp : vnoPut le scale fs N s (Spec.placed k r) = .ok s := by
            rw [hpl, vnoPut, if_neg h15, if_neg hr.2.2.2]
          rw [placedList, vnoStore, hp]
          simp only [Bool.not_eq_true] at hs
          simp only [hs, Bool.false_eq_true, if_false, Nat.add_zero]
          exact e1
        · intro i hi
          rw [List.countP_cons, if_neg hs] at hi
          exact e2 i hi
        · intro i hi
          rw [List.countP_cons, if_neg hs] at hi
          exact e4 i hi
        · rw [e5, List.countP_cons, if_neg hs, Nat.add_zero]
        · intro pre q post e hq
          rcases pre with _ | ⟨a, pre⟩
          · simp only [List.nil_append, List.cons.injEq] at e
            obtain ⟨rfl, rfl⟩ := e
            exact absurd hq h51
          · simp only [List.cons_append, List.cons.injEq] at e
            obtain ⟨rfl, e⟩ := e
            obtain ⟨d', hd', hv'⟩ := e6 pre q post e hq
            refine ⟨d', hd', ?_⟩
            rw [List.countP_cons, if_neg hs, ← hv', Nat.add_zero]
        · intro pre q post v e hq hl
          rcases pre with _ | ⟨a, pre⟩
          · simp only [List.nil_append, List.cons.injEq] at e
            obtain ⟨rfl, rfl⟩ := e
            exact absurd hq.1 h15
          · simp only [List.cons_append, List.cons.injEq] at e
            obtain ⟨rfl, e⟩ := e
            exact e7 pre q post v e hq hl
        · intro h
          exact e8 fun q hq => h q (by simp [hq])

/-- The arrays once the file is read: `M` times. -/
theorem vnoSci_ok {N M : ℕ} {fs : ℚ} (hf : 0 < fs) {r : VnoRaw} {t : CivilTime} (hv : t.valid) (h0 : 1990 ≤ t.year)
    (h1 : t.year ≤ 2089) (hM : M ≤ N) (hM0 : 0 < M) (hM40 : M ≤ 2 ^ 40) (hl : (M : ℚ) / fs ≤ 200000000)
    (hm : r.made = true) (hs : r.start = some t)
    (ht : ∀ i < M, r.time i = some (vnoSteps fs i)) (hn : ∀ i, M ≤ i → r.time i = none) :
    ∃ ds, vnoSci N fs r = .ok ds ∧ ds.n = M ∧
      (∀ i < M, ds.time i = some ((fl64 (vnoSteps fs i + date2epoch t 0) : ℚ) : ℝ)) ∧
      (∀ i b, ds.vel i b = (r.sample i).map fun d => d.vel b) ∧
      (∀ i b, ds.amp i b = ((r.sample i).map fun d => d.amp b).getD 0) ∧
      (∀ i b, ds.corr i b = ((r.sample i).map fun d => d.corr b).getD 0) ∧
      ∀ i, ds.status i = ((r.sample i).map fun d => d.status).getD 0 := by
  unfold vnoSci
  rw [hm, hs]
  simp only
  set t' : ℕ → Option ℝ := fun i => (r.time i).map fun x => ((fl64 (x + date2epoch t 0) : ℚ) : ℝ) with ht'
  have hcount : nanCount N t' [] = N - M := by
    unfold nanCount
    refine countP_range_ge N M _ ?_
    intro i _
    unfold nanMask
    rw [List.any_nil, Bool.or_false]
    by_cases hi : M ≤ i
    · simp [ht', hn i hi, hi]
    · simp [ht', ht i (by omega), hi]
  have hhan : handleNan N t' [] = .ok (M, []) := by
    unfold handleNan
    rw [if_neg (by omega)]
    simp only [List.map_nil, hcount]
    congr 2
    omega
  rw [hhan]
  simp only
  have hne : ∀ i < M, t' i ≠ some 0 ∧ t' i ≠ none := by
    intro i hi
    have hli : (i : ℚ) / fs ≤ 200000000 := by
      refine le_trans ?_ hl
      apply div_le_div_of_nonneg_right _ hf.le
      exact_mod_cast hi.le
    have hp := (vno_time_near hv h0 h1 fs hf i (by omega) hli).1
    have hp' : (0 : ℝ) < ((fl64 (vnoSteps fs i + date2epoch t 0) : ℚ) : ℝ) := by exact_mod_cast hp
    simp only [ht', ht i hi, Option.map_some]
    exact ⟨fun e => hp'.ne' (Option.some.inj e), by simp⟩
  have hfill : vecFillTime M t' fs = .ok fun i => if t' i = some 0 then none else t' i := by
    unfold vecFillTime
    simp only
    rw [if_neg]
    rintro ⟨i, hi, e⟩
    rw [if_neg (hne i hi).1] at e
    exact (hne i hi).2 e
  rw [hfill]
  refine ⟨_, rfl, rfl, ?_, fun _ _ => rfl, fun _ _ => rfl, fun _ _ => rfl, fun _ => rfl⟩
  intro i hi
  simp only
  rw [if_neg (hne i hi).1]
  simp only [ht', ht i hi, Option.map_some]

/-- The arrays after reading records of a Vectrino and what is left at the end of the file. -/
theorem vno_read {cfg : NkCfg} {recs : List NkRec} {scale fs : ℚ} {N : ℕ} (hcs : cfg.doCs = false) {tail : List ℕ}
    (ht : ∀ s : NkState, s.rest = tail → nkReadNext cfg s = .error .eof)
    (wf : ∀ r ∈ recs, Spec.nkWF cfg r) (vno : ∀ r ∈ recs, Spec.vnoOnly r)
    (vals : ∀ r ∈ recs, r.id = 0x51 → ∃ x : Spec.VnoVals, x.ok ∧ r.body = x.bytes cfg.le)
    (events : ∀ r ∈ recs, r.id = 0x0f → ∃ u, Spec.eventAt u r)
    (hN : recs.countP Spec.isSample ≤ N) :
    ∃ s : VnoRaw, vnoRead cfg scale N fs (recs.flatMap NkRec.encode ++ tail) =
        (match vnoCut cfg scale fs N s ⟨tail, recs.countP Spec.isSample, placedList 0 recs, false⟩ with
          | .error e => some (.error e)
          | .ok r => some (vnoSci N fs r)) ∧
      (∀ i, recs.countP Spec.isSample ≤ i → s.sample i = none ∧ s.time i = none) ∧
      (∀ i < recs.countP Spec.isSample, s.time i = some (vnoSteps fs i)) ∧
      (s.made = decide (0 < recs.countP Spec.isSample)) ∧
      (∀ k r x, Spec.vnoAt recs k r → x.ok → r.body = Spec.VnoVals.bytes cfg.le x →
        ∃ d, vnoData cfg.le scale (x.bytes cfg.le) = .ok d ∧ s.sample k = some d) ∧
      (∀ pre r post u, recs = pre ++ r :: post → Spec.eventAt u r → (∀ q ∈ post, q.id ≠ 0x0f) → s.start = some u) ∧
      ((∀ r ∈ recs, r.id ≠ 0x0f) → s.start = none) := by
  obtain ⟨s, e1, e2, e3, e4, e5, e6, e7, e8⟩ := vnoStore_records (le := cfg.le) (scale := scale) (fs := fs) (N := N) recs 0
    vnoRaw0 vno (fun r hr h51 => by
      obtain ⟨x, hx, e⟩ := vals r hr h51
      obtain ⟨d, hd, -⟩ := vno_decode hx cfg.le scale
      exact ⟨d, by rw [e]; exact hd⟩) events (by omega) (fun i hi => by omega)
  have hlen := flatMap_encode_length recs
  have hread := nkLoop_records_tail cfg hcs tail ht recs ⟨recs.flatMap NkRec.encode ++ tail, 0, [], false⟩
    ((recs.flatMap NkRec.encode ++ tail).length + 1) (by rw [List.length_append]; omega) rfl wf
    (fun r hr => (vno r hr).2.2.2)
  rw [Nat.zero_add] at e2 e4
  refine ⟨s, ?_, ?_, e4, ?_, ?_, e7, e8⟩
  · unfold vnoRead nkReadfile
    rw [hread]
    simp only [Bool.false_eq_true, if_false, List.nil_append, Nat.zero_add]
    rw [e1]
    simp only
    generalize vnoCut cfg scale fs N s _ = y
    cases y <;> rfl
  · intro i hi
    obtain ⟨f1, f2⟩ := e2 i hi
    exact ⟨f1, f2⟩
  · rw [e5]
    simp [vnoRaw0]
  · rintro k r x ⟨pre, post, e, h51, hc⟩ hx eb
    obtain ⟨d, hd, hv⟩ := e6 pre r post e h51
    refine ⟨d, by rw [← eb]; exact hd, ?_⟩
    rw [← hc, ← hv, Nat.zero_add]

/-- **C164.** Reading the records of a Vectrino with room for at least all samples gives a dataset with exactly the
recorded samples, in order, with the recorded status, velocities, amplitudes and correlations. The times run from the
time of the last event record on in steps of the sampling interval, to within a quarter of a microsecond and the errors
of as many additions. -/
theorem vno_file_partial {cfg : NkCfg} {t : CivilTime} {recs : List NkRec} (h : Spec.VnoRecording cfg t recs)
    (hcs : cfg.doCs = false) (scale fs : ℚ) (hf : 0 < fs) (N : ℕ) (hN : recs.countP Spec.isSample ≤ N)
    (h0 : 0 < recs.countP Spec.isSample) (h40 : recs.countP Spec.isSample ≤ 2 ^ 40)
    (hl : (recs.countP Spec.isSample : ℚ) / fs ≤ 200000000) :
    ∃ ds, vnoRead cfg scale N fs (recs.flatMap NkRec.encode) = some (.ok ds) ∧ ds.n = recs.countP Spec.isSample ∧
      (∀ k < ds.n, ∃ x : ℚ, ds.time k = some (x : ℝ) ∧
        |x - (date2epoch t 0 + k / fs)| ≤ 1 / 2 ^ 22 + 5 * (k : ℚ) ^ 2 / 2 ^ 53 * (1 / fs)) ∧
      ∀ k r x, Spec.vnoAt recs k r → x.ok → r.body = Spec.VnoVals.bytes cfg.le x →
        ds.status k = x.st ∧ (∀ b, ds.vel k b = some (x.v b * scale / 1000)) ∧ (∀ b, ds.amp k b = x.m b) ∧
        ∀ b, ds.corr k b = x.c b := by
  obtain ⟨s, e1, e2, e3, e4, e5, e6, -⟩ := vno_read (scale := scale) (fs := fs) hcs (tail := [])
    (fun s hs => by unfold nkReadNext; rw [hs]; rfl) h.wf h.vno h.vals h.events hN
  rw [List.append_nil] at e1
  have hcut : vnoCut cfg scale fs N s ⟨[], recs.countP Spec.isSample, placedList 0 recs, false⟩ = .ok s := rfl
  rw [hcut] at e1
  obtain ⟨pre, r, post, g1, g2, g3⟩ := h.last
  obtain ⟨-, hv, hy0, hy1, -⟩ := id g2
  obtain ⟨ds, d1, d2, d3, d4, d5, d6, d7⟩ := vnoSci_ok hf hv hy0 hy1 hN h0 h40 hl (by rw [e4]; simpa using h0)
    (e6 pre r post t g1 g2 g3) e3 (fun i hi => (e2 i hi).2)
  refine ⟨ds, by rw [e1]; simp only; rw [d1], d2, ?_, ?_⟩
  · intro k hk
    rw [d2] at hk
    refine ⟨_, d3 k hk, ?_⟩
    refine (vno_time_near hv hy0 hy1 fs hf k (by omega) (le_trans ?_ hl)).2
    apply div_le_div_of_nonneg_right _ hf.le
    exact_mod_cast hk.le
  · intro k r x hp hx eb
    obtain ⟨d, hd, hs⟩ := e5 k r x hp hx eb
    obtain ⟨d', hd', k1, k2, k3, k4⟩ := vno_decode hx cfg.le scale
    rw [hd] at hd'
    obtain rfl := Except.ok.inj hd'
    refine ⟨?_, fun b => ?_, fun b => ?_, fun b => ?_⟩
    · rw [d7, hs, Option.map_some, Option.getD_some, k1]
    · rw [d4, hs, Option.map_some, k2]
    · rw [d5, hs, Option.map_some, Option.getD_some, k3]
    · rw [d6, hs, Option.map_some, Option.getD_some, k4]

/-- **C164** is false of files that end within a sample, as they do when recording stops: the dataset has one entry more
than there are samples, with a time, but without velocities, and with amplitudes, correlations and status 0. -/
theorem vno_cut_false {cfg : NkCfg} {t : CivilTime} {recs : List NkRec} (h : Spec.VnoRecording cfg t recs)
    (hcs : cfg.doCs = false) (scale fs : ℚ) (hf : 0 < fs) (N : ℕ) (hN : recs.countP Spec.isSample < N)
    (h40 : recs.countP Spec.isSample < 2 ^ 40) (hl : ((recs.countP Spec.isSample + 1 : ℕ) : ℚ) / fs ≤ 200000000)
    (rest : List ℕ) (hr : rest.length < 18) :
    ∃ ds, vnoRead cfg scale N fs (recs.flatMap NkRec.encode ++ 165 :: 81 :: rest) = some (.ok ds) ∧
      ds.n = recs.countP Spec.isSample + 1 ∧ (∀ k < ds.n, ∃ x, ds.time k = some x) ∧
      (∀ b, ds.vel (recs.countP Spec.isSample) b = none ∧ ds.amp (recs.countP Spec.isSample) b = 0 ∧
        ds.corr (recs.countP Spec.isSample) b = 0) ∧ ds.status (recs.countP Spec.isSample) = 0 := by
  have hfix : nkFixedLen cfg 81 = some 18 := by simp [nkFixedLen]
  have hid : nkReadId cfg.le (165 :: 81 :: rest) = .ok ([165, 81], 81, rest) := rfl
  have heof : ∀ s : NkState, s.rest = 165 :: 81 :: rest → nkReadNext cfg s = .error .eof := by
    intro s hs
    unfold nkReadNext
    rw [hs, hid]
    simp only [nkRecord, hfix, nkFixed]
    unfold nkTake
    rw [if_neg (by omega)]
    rfl
  obtain ⟨s, e1, e2, e3, e4, -, e6, -⟩ := vno_read (scale := scale) (fs := fs) (N := N) hcs heof h.wf h.vno h.vals h.events hN.le
  set M := recs.countP Spec.isSample with hM
  have hstamp : vnoStamp fs s.time M = some (vnoSteps fs M) := by
    unfold vnoStamp
    rcases hM' : M with _ | k
    · rfl
    · rw [if_neg (by omega), Nat.add_sub_cancel, e3 k (by omega)]
      rfl
  have hcut : vnoCut cfg scale fs N s ⟨165 :: 81 :: rest, M, placedList 0 recs, false⟩ =
      .ok { s with time := Function.update s.time M (some (vnoSteps fs M)), made := true } := by
    unfold vnoCut
    rw [heof _ rfl, hid]
    simp only
    rw [if_neg (by simp), if_neg (by omega), if_pos hr, hstamp]
  rw [hcut] at e1
  obtain ⟨pre, r, post, g1, g2, g3⟩ := h.last
  obtain ⟨-, hv, hy0, hy1, -⟩ := id g2
  obtain ⟨ds, d1, d2, d3, d4, d5, d6, d7⟩ := vnoSci_ok (N := N) (M := M + 1) hf
    (r := { s with time := Function.update s.time M (some (vnoSteps fs M)), made := true }) hv hy0 hy1 (by omega) (by omega)
    (by omega) hl rfl (e6 pre r post t g1 g2 g3) (by
      intro i hi
      simp only
      by_cases hi' : i = M
      · rw [hi', Function.update_self]
      · rw [Function.update_of_ne hi', e3 i (by omega)]) (by
      intro i hi
      simp only
      rw [Function.update_of_ne (by omega), (e2 i (by omega)).2])
  refine ⟨ds, by rw [e1]; simp only; rw [d1], d2, fun k hk => ⟨_, d3 k (by omega)⟩, fun b => ⟨?_, ?_, ?_⟩, ?_⟩
  · rw [d4]; simp only; rw [(e2 M le_rfl).1]; rfl
  · rw [d5]; simp only; rw [(e2 M le_rfl).1]; rfl
  · rw [d6]; simp only; rw [(e2 M le_rfl).1]; rfl
  · rw [d7]; simp only; rw [(e2 M le_rfl).1]; rfl

/-- **C164** is false when an event is marked during the recording: a later event record moves the times of all samples,
also of those recorded before it. -/
theorem vno_mark_false {cfg : NkCfg} {t t0 : CivilTime} {recs : List NkRec} (h : Spec.VnoRecording cfg t recs)
    (hcs : cfg.doCs = false) (scale fs : ℚ) (hf : 0 < fs) (N : ℕ) (hN : recs.countP Spec.isSample ≤ N)
    (h0 : 0 < recs.countP Spec.isSample) (h40 : recs.countP Spec.isSample ≤ 2 ^ 40)
    (hl : (recs.countP Spec.isSample : ℚ) / fs ≤ 200000000) (ht : date2epoch t0 0 + 1 ≤ date2epoch t 0) :
    ∃ ds, vnoRead cfg scale N fs (recs.flatMap NkRec.encode) = some (.ok ds) ∧
      ∃ x : ℚ, ds.time 0 = some (x : ℝ) ∧ date2epoch t0 0 + 1 / 2 < x := by
  obtain ⟨ds, d1, d2, d3, -⟩ := vno_file_partial h hcs scale fs hf N hN h0 h40 hl
  obtain ⟨x, hx, hx'⟩ := d3 0 (by omega)
  refine ⟨ds, d1, x, hx, ?_⟩
  have := (abs_le.mp hx').1
  norm_num at this
  linarith

/-- **C164** is false of files without an event record: they cannot be read. -/
theorem vno_no_event_false {cfg : NkCfg} {recs : List NkRec} (hcs : cfg.doCs = false) (wf : ∀ r ∈ recs, Spec.nkWF cfg r)
    (vno : ∀ r ∈ recs, Spec.vnoOnly r)
    (vals : ∀ r ∈ recs, r.id = 0x51 → ∃ x : Spec.VnoVals, x.ok ∧ r.body = x.bytes cfg.le)
    (events : ∀ r ∈ recs, r.id ≠ 0x0f) (scale fs : ℚ) (N : ℕ) (hN : recs.countP Spec.isSample ≤ N) :
    vnoRead cfg scale N fs (recs.flatMap NkRec.encode) = some (.error .keyError) := by
  obtain ⟨s, e1, -, -, e4, -, -, e7⟩ := vno_read (scale := scale) (fs := fs) hcs (tail := [])
    (fun s hs => by unfold nkReadNext; rw [hs]; rfl) wf vno vals (fun r hr h => absurd h (events r hr)) hN
  rw [List.append_nil] at e1
  have hcut : vnoCut cfg scale fs N s ⟨[], recs.countP Spec.isSample, placedList 0 recs, false⟩ = .ok s := rfl
  rw [e1, hcut]
  simp only
  unfold vnoSci
  rw [e7 events]
  cases s.made <;> rfl

/-! ### Whole files -/

/-- Room for a Vectrino. -/
theorem room_vno_bytes {le : Bool} (fs : ℚ) (pre : List ℕ) (recs : List NkRec) (hs : ∀ r ∈ recs, Spec.nkSized le r)
    {size B : ℕ} {p : List NkBlock} {bs : List (List NkBlock)} (e : Spec.blocks recs = p ++ bs.flatten)
    (hpre : ∀ r ∈ p, r.id ≠ 81) (hbs : ∀ b ∈ bs, Spec.isBlock 81 size B b) (hsize : 0 < size) (h2 : 2 ≤ bs.length)
    (hf : 1 ≤ fs) :
    ∃ n : ℤ, roomAt le .vno fs (pre ++ recs.flatMap NkRec.encode) pre.length = some (.ok n) ∧ (bs.length : ℤ) < n := by
  obtain ⟨d, e1, h1, h0⟩ := spacing_le' 81 size B p bs pre.length hpre hbs (by rintro rfl; simp at h2) hsize
  have h0' : 0 < d := h0.resolve_right fun h => by omega
  have hr := room_ge 81 size B p bs pre.length d hbs h0' h1
  have hf' : (1 : ℤ) ≤ pyInt fs := by
    unfold pyInt
    rw [if_pos (by linarith), Int.le_floor]
    exact_mod_cast hf
  unfold roomAt
  simp only
  rw [code_spacing_bytes 81 pre recs hs, e, e1]
  simp only
  rw [if_neg h0'.ne']
  refine ⟨_, rfl, ?_⟩
  rw [List.length_append, ← recBytes_blocks, e]
  nlinarith

theorem countId_vno (recs : List NkRec) (h : ∀ r ∈ recs, Spec.vnoOnly r) :
    Spec.countId 81 (Spec.blocks recs) = recs.countP Spec.isSample := by
  induction recs with
  | nil => rfl
  | cons r recs ih =>
    have h1 := ih fun q hq => h q (by simp [hq])
    have h2 := isSample_vno (h r (by simp))
    unfold Spec.countId Spec.blocks at h1 ⊢
    rw [List.map_cons, List.countP_cons]
    by_cases hr : r.id = 81
    · rw [List.filter_cons_of_pos (by simp [hr]), List.length_cons, h1, if_pos (h2.mpr hr)]
    · rw [List.filter_cons_of_neg (by simp [hr]), h1, if_neg (fun e => hr (h2.mp e))]
      rfl

/-- **C164.** A whole Vectrino file, from its first byte: the three records of the configuration, then records with at
least two samples, equally far apart. Reading it gives the configuration recorded (C128, C129) and exactly the recorded
samples, timed from the last event record on. -/
theorem vno_whole_partial (utf8 : List ℕ → Option (List Char)) (hu : Spec.Utf8 utf8) (b : Spec.NkBoard)
    (h : Spec.NkSonde) (s : Spec.NkSetup) (cs : Fin 6 → ℕ) (t : List ℕ) (w : List Char)
    (hb : b.Valid) (hs : b.serial = Spec.prefixOf .vno ++ t) (hw : firstWord (Spec.ascii b.serial) = .ok w)
    (hn : Spec.beamsOf (Spec.ascii b.serial) h ≤ 9)
    (hm : ∀ k < Spec.beamsOf (Spec.ascii b.serial) h * Spec.beamsOf (Spec.ascii b.serial) h, Spec.I16 (h.mat k))
    (h1 : Spec.Text 6 s.name) (h2 : Spec.Text 80 s.comments) (ha : 0 < s.avgInterval.val) (ha' : s.avgInterval.val ≤ 50000)
    {start : CivilTime} {recs : List NkRec}
    (hrec : Spec.VnoRecording ⟨true, false, true, s.nBeams.val, s.nBins.val⟩ start recs)
    (hsz : ∀ r ∈ recs, Spec.nkSized true r)
    {size B : ℕ} {pre : List NkBlock} {bs : List (List NkBlock)} (e : Spec.blocks recs = pre ++ bs.flatten)
    (hpre : ∀ r ∈ pre, r.id ≠ 81) (hbs : ∀ b ∈ bs, Spec.isBlock 81 size B b) (hsize : 0 < size) (hlen : 2 ≤ bs.length)
    (h40 : bs.length ≤ 2 ^ 40) (hl : (bs.length : ℚ) * s.avgInterval.val / 50000 ≤ 200000000)
    (round : ℝ → ℤ) (cosH : ℝ) (fl : List ℕ → ℝ) :
    ∃ o ds, nortekRead false utf8 fl round cosH (Spec.nkFile true (Spec.beamsOf (Spec.ascii b.serial) h) b h s cs
        (recs.flatMap NkRec.encode)) = some (.ok (.vno o ds)) ∧
      o.fs = 50000 / s.avgInterval.val ∧ o.frame = Spec.frameOf s.axes ∧ o.hdw = b.meaning ∧ o.user = s.meaning true ∧
      (∀ i < o.head.nBeam, ∀ j < o.head.nBeam, o.head.mat i j = (h.mat (o.head.nBeam * i + j) : ℚ) / 4096) ∧
      ds.n = recs.countP Spec.isSample ∧
      (∀ k < ds.n, ∃ x : ℚ, ds.time k = some (x : ℝ) ∧ |x - (date2epoch start 0 + k * s.avgInterval.val / 50000)| ≤
        1 / 2 ^ 22 + 5 * (k : ℚ) ^ 2 / 2 ^ 53 * (s.avgInterval.val / 50000)) ∧
      ∀ k r x, Spec.vnoAt recs k r → x.ok → r.body = Spec.VnoVals.bytes true x →
        ds.status k = x.st ∧ (∀ b, ds.vel k b = some ((x.v b : ℚ) * (if s.fine then 1 / 10 else 1) / 1000)) ∧
        (∀ b, ds.amp k b = x.m b) ∧ ∀ b, ds.corr k b = x.c b := by
  obtain ⟨o, g1, g2, g3, g4, g5, g6, g7, g8, g9, g10⟩ := nortek_opens utf8 hu b h s cs (recs.flatMap NkRec.encode)
    .vno t w hb hs hw hn hm h1 h2 ha
  have haq : (0 : ℚ) < s.avgInterval.val := by exact_mod_cast ha
  have haq' : (s.avgInterval.val : ℚ) ≤ 50000 := by exact_mod_cast ha'
  have hofs : o.fs = 50000 / s.avgInterval.val := by rw [g3]; rfl
  have hf1 : 1 ≤ o.fs := by
    rw [hofs, le_div_iff₀ haq]
    linarith
  have hf : 0 < o.fs := by linarith
  have hcnt : recs.countP Spec.isSample = bs.length := by
    rw [← countId_vno recs hrec.vno]
    have h3 : pre.filter (fun r => r.id = 81) = [] := by
      rw [List.filter_eq_nil_iff]
      intro r hr
      simpa using hpre r hr
    have h4 := countId_isBlock bs hbs
    unfold Spec.countId at h4 ⊢
    rw [e, List.filter_append, List.length_append, h4, h3]
    simp
  obtain ⟨N, hroom, hN⟩ := room_vno_bytes o.fs
    (Spec.nkFile true (Spec.beamsOf (Spec.ascii b.serial) h) b h s cs []) recs hsz e hpre hbs hsize hlen hf1
  have hinv : ∀ k : ℚ, k / o.fs = k * s.avgInterval.val / 50000 := by
    intro k
    rw [hofs, div_div_eq_mul_div]
  obtain ⟨ds, d1, d2, d3, d4⟩ := vno_file_partial hrec rfl (if s.fine then 1 / 10 else 1) o.fs hf N.toNat (by omega)
    (by omega) (by omega) (by rw [hinv, hcnt]; exact hl)
  refine ⟨o, ds, ?_, hofs, g4, g5, g9, g8, d2, ?_, d4⟩
  · unfold nortekRead
    rw [nkFile_endian, g1]
    simp only
    have hp : (Spec.nkFile true (Spec.beamsOf (Spec.ascii b.serial) h) b h s cs (recs.flatMap NkRec.encode)).length -
        o.rest.length = (Spec.nkFile true (Spec.beamsOf (Spec.ascii b.serial) h) b h s cs []).length := by
      rw [nkFile_split, g10, List.length_append]
      omega
    have hcfg : nkCfgOf true false o = ⟨true, false, true, s.nBeams.val, s.nBins.val⟩ := by
      unfold nkCfgOf
      rw [g2, g9]
      rfl
    rw [hp, g2, nkFile_split, hroom]
    simp only
    rw [hcfg, g9, g10]
    have d1' : vnoRead ⟨true, false, true, s.nBeams.val, s.nBins.val⟩ (s.meaning true).velScale N.toNat o.fs
        (recs.flatMap NkRec.encode) = some (.ok ds) := d1
    rw [d1']
    rfl
  · intro k hk
    obtain ⟨x, hx, hx'⟩ := d3 k hk
    refine ⟨x, hx, ?_⟩
    rw [hinv, hinv, one_mul] at hx'
    exact hx'

/-! ### A recording -/

/-- An event record of 12 June 2012, 12:00:00. -/
def exVnoEvent (mi : ℕ) : NkRec :=
  ⟨0x0f, [13, 0, Spec.toBCD mi, 0x00, 0x12, 0x12, 0x12, 0x06] ++ List.replicate 14 0, 0, 0⟩

/-- A sample. -/
def exVnoVals (k : ℕ) : Spec.VnoVals :=
  ⟨0, k, ![-100 + k, 200, 3, 4], ![101, 102, 103, 104], ![91, 92, 93, 94]⟩

/-- Its record. -/
def exVnoRec (k : ℕ) : NkRec := ⟨0x51, (exVnoVals k).bytes true, 0, 0⟩

/-- The start and three samples. -/
def exVnoRecs : List NkRec := [exVnoEvent 0, exVnoRec 0, exVnoRec 1, exVnoRec 2]

/-- The start, two samples, a mark after half an hour, one more sample. -/
def exVnoMarked : List NkRec := [exVnoEvent 0, exVnoRec 0, exVnoRec 1, exVnoEvent 30, exVnoRec 2]

/-- 25 samples per second. -/
def exVnoSetup : Spec.NkSetup := { exNkSetup with avgInterval := 2000, nBurst := 0 }

/-- Serial number `VNO 1287`. -/
def exVnoBoard : Spec.NkBoard := { exNkBoard with serial := [86, 78, 79, 32, 49, 50, 56, 55] }

theorem exVno_vals (k : ℕ) (h : k < 3) : (exVnoVals k).ok := by
  intro b
  unfold Spec.I16 exVnoVals
  fin_cases b <;> simp <;> omega

theorem exVnoEvent_at (mi : ℕ) (h : mi ≤ 59) : Spec.eventAt ⟨2012, 6, 12, 12, mi, 0⟩ (exVnoEvent mi) := by
  refine ⟨rfl, ⟨by norm_num, by norm_num, by norm_num, by norm_num, by norm_num, by simp [daysInMonth], by norm_num, h, by norm_num⟩,
    by norm_num, by norm_num, 13, 0, List.replicate 14 0, ?_⟩
  have h1 : Spec.toBCD 0 = 0x00 := by decide
  have h2 : Spec.toBCD 12 = 0x12 := by decide
  have h3 : Spec.toBCD (((2012 : ℤ) % 100).toNat) = 0x12 := by decide
  have h4 : Spec.toBCD 6 = 0x06 := by decide
  simp only
  rw [h1, h2, h3, h4]
  rfl

theorem exVno_mem {recs : List NkRec} (hr : recs = exVnoRecs ∨ recs = exVnoMarked) : ∀ r ∈ recs,
    (∃ mi ≤ 59, r = exVnoEvent mi) ∨ ∃ k < 3, r = exVnoRec k := by
  rcases hr with rfl | rfl
  · intro r hr
    simp only [exVnoRecs, List.mem_cons, List.not_mem_nil, or_false] at hr
    rcases hr with rfl | rfl | rfl | rfl
    · exact Or.inl ⟨0, by omega, rfl⟩
    · exact Or.inr ⟨0, by omega, rfl⟩
    · exact Or.inr ⟨1, by omega, rfl⟩
    · exact Or.inr ⟨2, by omega, rfl⟩
  · intro r hr
    simp only [exVnoMarked, List.mem_cons, List.not_mem_nil, or_false] at hr
    rcases hr with rfl | rfl | rfl | rfl | rfl
    · exact Or.inl ⟨0, by omega, rfl⟩
    · exact Or.inr ⟨0, by omega, rfl⟩
    · exact Or.inr ⟨1, by omega, rfl⟩
    · exact Or.inl ⟨30, by omega, rfl⟩
    · exact Or.inr ⟨2, by omega, rfl⟩

theorem exVno_recording {recs : List NkRec} (hr : recs = exVnoRecs ∨ recs = exVnoMarked) (nb nc mi : ℕ)
    (hl : ∃ pre post, recs = pre ++ exVnoEvent mi :: post ∧ ∀ q ∈ post, q.id ≠ 0x0f) (hmi : mi ≤ 59) :
    Spec.VnoRecording ⟨true, false, true, nb, nc⟩ ⟨2012, 6, 12, 12, mi, 0⟩ recs := by
  have hm := exVno_mem hr
  refine ⟨?_, ?_, ?_, ?_, ?_⟩
  · intro r hr
    left
    rcases hm r hr with ⟨m, -, rfl⟩ | ⟨k, hk, rfl⟩
    · rfl
    · have : k = 0 ∨ k = 1 ∨ k = 2 := by omega
      rcases this with rfl | rfl | rfl <;> rfl
  · intro r hr
    rcases hm r hr with ⟨m, -, rfl⟩ | ⟨k, hk, rfl⟩ <;> simp [Spec.vnoOnly, exVnoEvent, exVnoRec]
  · intro r hr h51
    rcases hm r hr with ⟨m, -, rfl⟩ | ⟨k, hk, rfl⟩
    · simp [exVnoEvent] at h51
    · exact ⟨exVnoVals k, exVno_vals k hk, rfl⟩
  · intro r hr h15
    rcases hm r hr with ⟨m, hm, rfl⟩ | ⟨k, hk, rfl⟩
    · exact ⟨_, exVnoEvent_at m hm⟩
    · simp [exVnoRec] at h15
  · obtain ⟨pre, post, e, h⟩ := hl
    exact ⟨pre, _, post, e, exVnoEvent_at mi hmi, h⟩

/-- A whole file. -/
example (round : ℝ → ℤ) (cosH : ℝ) (fl : List ℕ → ℝ) :
    ∃ o ds, nortekRead false exUtf8 fl round cosH (Spec.nkFile true (Spec.beamsOf (Spec.ascii exVnoBoard.serial) exNkSonde)
        exVnoBoard exNkSonde exVnoSetup (fun _ => 0) (exVnoRecs.flatMap NkRec.encode)) = some (.ok (.vno o ds)) ∧ ds.n = 3 ∧
      o.fs = 25 ∧ ds.amp 2 3 = 104 ∧
      ∃ x : ℚ, ds.time 2 = some (x : ℝ) ∧ |x - (1339502400 + 8 / 100)| ≤ 1 / 4000000 := by
  have hfw : firstWord (Spec.ascii exVnoBoard.serial) = .ok ['V', 'N', 'O'] := by decide
  have hbe : Spec.beamsOf (Spec.ascii exVnoBoard.serial) exNkSonde ≤ 9 := by
    unfold Spec.beamsOf
    rw [hfw]
    decide
  obtain ⟨o, ds, h1, h2, -, -, -, -, h3, h4, h5⟩ := vno_whole_partial exUtf8 exUtf8_ok exVnoBoard exNkSonde
    exVnoSetup (fun _ => 0) [32, 49, 50, 56, 55] _ ⟨by decide, by decide, by decide⟩ rfl hfw hbe
    (by unfold Spec.beamsOf; rw [hfw]; decide) ⟨by decide, by decide⟩ ⟨by decide, by decide⟩ (by decide) (by decide)
    (recs := exVnoRecs) (exVno_recording (Or.inl rfl) _ _ 0 ⟨[], [exVnoRec 0, exVnoRec 1, exVnoRec 2], rfl, by
      simp [exVnoRec]⟩ (by omega)) (by
      intro r hr
      rcases exVno_mem (Or.inl rfl) r hr with ⟨m, -, rfl⟩ | ⟨k, hk, rfl⟩
      · right; right
        exact ⟨by simp [exVnoEvent], by simp [exVnoEvent], 13, 0, _, rfl, rfl⟩
      · right; left
        have : k = 0 ∨ k = 1 ∨ k = 2 := by omega
        rcases this with rfl | rfl | rfl <;> exact ⟨rfl, rfl⟩)
    (size := 22) (B := 22) (pre := [⟨15, 26⟩]) (bs := [[⟨81, 22⟩], [⟨81, 22⟩], [⟨81, 22⟩]]) (by decide +kernel) (by simp) (by
      intro b hb
      simp only [List.mem_cons, List.not_mem_nil, or_false, or_self] at hb
      subst hb
      exact ⟨[], rfl, by simp, rfl⟩) (by omega) (by simp) (by simp) (by norm_num [exVnoSetup]) round cosH fl
  have hn : ds.n = 3 := by rw [h3]; decide
  obtain ⟨-, -, q3, -⟩ := h5 2 (exVnoRec 2) (exVnoVals 2) ⟨[exVnoEvent 0, exVnoRec 0, exVnoRec 1], [], rfl, rfl, by decide⟩
    (exVno_vals 2 (by omega)) rfl
  obtain ⟨x, hx, hx'⟩ := h4 2 (by omega)
  refine ⟨o, ds, h1, hn, ?_, ?_, x, hx, ?_⟩
  · rw [h2]; norm_num [exVnoSetup]
  · rw [q3]; rfl
  · have : date2epoch ⟨2012, 6, 12, 12, 0, 0⟩ 0 = 1339502400 := by decide +kernel
    rw [this] at hx'
    refine le_trans ?_ (le_trans hx' ?_)
    · apply le_of_eq
      norm_num [exVnoSetup]
    · norm_num [exVnoSetup]

/-- The same records, and the file ends within a fourth sample. -/
example : ∃ ds, vnoRead ⟨true, false, true, 3, 1⟩ 1 10 25 (exVnoRecs.flatMap NkRec.encode ++ [165, 81, 0, 3, 17]) =
    some (.ok ds) ∧ ds.n = 4 ∧ ds.vel 3 0 = none ∧ ds.amp 3 0 = 0 := by
  have hc : exVnoRecs.countP Spec.isSample = 3 := by decide
  obtain ⟨ds, h1, h2, -, h3, -⟩ := vno_cut_false (exVno_recording (Or.inl rfl) 3 1 0
    ⟨[], [exVnoRec 0, exVnoRec 1, exVnoRec 2], rfl, by simp [exVnoRec]⟩ (by omega)) rfl 1 25 (by norm_num) 10
    (by rw [hc]; omega) (by rw [hc]; norm_num) (by rw [hc]; norm_num) [0, 3, 17] (by simp)
  rw [hc] at h2 h3
  exact ⟨ds, h1, h2, (h3 0).1, (h3 0).2.1⟩

/-- A mark after half an hour moves the first sample by half an hour. -/
example : ∃ ds, vnoRead ⟨true, false, true, 3, 1⟩ 1 10 25 (exVnoMarked.flatMap NkRec.encode) = some (.ok ds) ∧
    ∃ x : ℚ, ds.time 0 = some (x : ℝ) ∧ date2epoch ⟨2012, 6, 12, 12, 29, 59⟩ 0 + 1 / 2 < x := by
  have hc : exVnoMarked.countP Spec.isSample = 3 := by decide
  exact vno_mark_false (exVno_recording (Or.inr rfl) 3 1 30 ⟨[exVnoEvent 0, exVnoRec 0, exVnoRec 1], [exVnoRec 2], rfl, by
    simp [exVnoRec]⟩ (by omega)) rfl 1 25 (by norm_num) 10 (by rw [hc]; omega) (by rw [hc]; omega) (by rw [hc]; norm_num)
    (by rw [hc]; norm_num) (by decide +kernel)

/-- Without the event record. -/
example : vnoRead ⟨true, false, true, 3, 1⟩ 1 10 25 ([exVnoRec 0, exVnoRec 1].flatMap NkRec.encode) =
    some (.error .keyError) := by
  have hm : ∀ r ∈ [exVnoRec 0, exVnoRec 1], ∃ k < 3, r = exVnoRec k := by
    intro r hr
    simp only [List.mem_cons, List.not_mem_nil, or_false] at hr
    rcases hr with rfl | rfl
    · exact ⟨0, by omega, rfl⟩
    · exact ⟨1, by omega, rfl⟩
  refine vno_no_event_false rfl ?_ ?_ ?_ ?_ 1 25 10 (by decide)
  · intro r hr
    obtain ⟨k, hk, rfl⟩ := hm r hr
    left
    have : k = 0 ∨ k = 1 ∨ k = 2 := by omega
    rcases this with rfl | rfl | rfl <;> rfl
  · intro r hr
    obtain ⟨k, hk, rfl⟩ := hm r hr
    simp [Spec.vnoOnly, exVnoRec]
  · intro r hr h51
    obtain ⟨k, hk, rfl⟩ := hm r hr
    exact ⟨exVnoVals k, exVno_vals k hk, rfl⟩
  · intro r hr
    obtain ⟨k, hk, rfl⟩ := hm r hr
    simp [exVnoRec]

/-! ### Arrays that are too small -/

/-- Storing more samples than there are slots raises. -/
theorem vnoStore_full {le : Bool} {scale fs : ℚ} {N : ℕ} (recs : List NkRec) : ∀ (k : ℕ) (s : VnoRaw),
    (∀ r ∈ recs, Spec.vnoOnly r) →
    (∀ r ∈ recs, r.id = 0x51 → ∃ d, vnoData le scale r.body = .ok d) →
    (∀ r ∈ recs, r.id = 0x0f → ∃ u, Spec.eventAt u r) →
    k ≤ N → N < k + recs.countP Spec.isSample → vnoStore le scale fs N s (placedList k recs) = .error .indexError := by
  induction recs with
  | nil =>
    intro k s _ _ _ h4 h5
    rw [List.countP_nil] at h5
    omega
  | cons r recs ih =>
    intro k s h1 h2 h3 h4 h5
    have hr := h1 r (by simp)
    rw [List.countP_cons] at h5
    by_cases h51 : r.id = 0x51
    · have hs : Spec.isSample r = true := (isSample_vno hr).mpr h51
      rw [if_pos hs] at h5
      obtain ⟨d, hd⟩ := h2 r (by simp) h51
      have hpl : Spec.placed k r = .sample k r.id r.body := by
        unfold Spec.placed
        rw [if_pos hs]
      rw [placedList, vnoStore, hpl, vnoPut, if_neg (by simpa using h51)]
      by_cases hN : N ≤ k
      · rw [if_pos hN]
      · rw [if_neg hN, hd]
        simp only [hs, if_true]
        exact ih (k + 1) _ (fun q hq => h1 q (by simp [hq])) (fun q hq => h2 q (by simp [hq]))
          (fun q hq => h3 q (by simp [hq])) (by omega) (by omega)
    · have hs : ¬ Spec.isSample r = true := fun e => h51 ((isSample_vno hr).mp e)
      rw [if_neg hs] at h5
      have hpl : Spec.placed k r = .other r.id r.body := by
        unfold Spec.placed
        rw [if_neg hs, if_neg hr.2.2.1, if_neg hr.2.2.2]
      have hrec := fun s' => ih k s' (fun q hq => h1 q (by simp [hq])) (fun q hq => h2 q (by simp [hq]))
        (fun q hq => h3 q (by simp [hq])) h4 (by omega)
      simp only [Bool.not_eq_true] at hs
      rw [placedList, vnoStore, hpl, vnoPut]
      simp only [hs, Bool.false_eq_true, if_false, Nat.add_zero]
      by_cases h15 : r.id = 0x0f
      · obtain ⟨u, hu⟩ := h3 r (by simp) h15
        rw [if_pos h15, event_decode hu]
        exact hrec _
      · rw [if_neg h15, if_neg hr.2.2.2]
        exact hrec _

/-- **C164** is false when there is less room than samples: reading raises IndexError, it does not drop the rest. -/
theorem vno_full_false {cfg : NkCfg} {t : CivilTime} {recs : List NkRec} (h : Spec.VnoRecording cfg t recs)
    (hcs : cfg.doCs = false) (scale fs : ℚ) (N : ℕ) (hN : N < recs.countP Spec.isSample) :
    vnoRead cfg scale N fs (recs.flatMap NkRec.encode) = some (.error .indexError) := by
  have hlen := flatMap_encode_length recs
  have hread := nkLoop_records_tail cfg hcs [] (fun s hs => by unfold nkReadNext; rw [hs]; rfl) recs
    ⟨recs.flatMap NkRec.encode, 0, [], false⟩ ((recs.flatMap NkRec.encode).length + 1) (by omega)
    (by rw [List.append_nil]) h.wf (fun r hr => (h.vno r hr).2.2.2)
  unfold vnoRead nkReadfile
  rw [hread]
  simp only [Bool.false_eq_true, if_false, List.nil_append]
  rw [vnoStore_full recs 0 vnoRaw0 h.vno (fun r hr h51 => by
      obtain ⟨x, hx, e⟩ := h.vals r hr h51
      obtain ⟨d, hd, -⟩ := vno_decode hx cfg.le scale
      exact ⟨d, by rw [e]; exact hd⟩) h.events (Nat.zero_le _) (by omega)]

/-- Three samples and room for two. -/
example : vnoRead ⟨true, false, true, 3, 1⟩ 1 2 25 (exVnoRecs.flatMap NkRec.encode) = some (.error .indexError) :=
  vno_full_false (exVno_recording (Or.inl rfl) 3 1 0 ⟨[], [exVnoRec 0, exVnoRec 1, exVnoRec 2], rfl, by simp [exVnoRec]⟩
    (by omega)) rfl 1 25 2 (by decide)

end Dolfyn
