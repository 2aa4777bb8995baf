import Verif.Lemmas.Float64
import Verif.Model.RdiNav
import Verif.Props.RdiVals
import Mathlib.Data.Nat.Digits.Lemmas

/-!
Navigation data of TRDI files (C135).
-/

namespace Dolfyn

/-! ### The VMDAS block -/

/-- The navigation block VMDAS writes, field by field: angles of ships are signed, in units of 180°/2¹⁵;
positions in units of 180°/2³¹; times of day in 0.1 ms. -/
structure Spec.Vmdas where
  day : ℤ
  month : ℤ
  yearLo : ℤ
  yearHi : ℤ
  firstTime : ℤ
  pcOffset : ℤ
  firstLat : ℤ
  firstLon : ℤ
  lastTime : ℤ
  lastLat : ℤ
  lastLon : ℤ
  avgSpeed : ℤ
  avgTrueTrack : ℤ
  avgMagTrack : ℤ
  speedMadeGood : ℤ
  dirMadeGood : ℤ
  reserved : ℤ
  flags : ℤ
  reserved2 : ℤ
  number : ℤ
  adcpYearLo : ℤ
  adcpYearHi : ℤ
  adcpDay : ℤ
  adcpMonth : ℤ
  adcpTime : ℤ
  pitch : ℤ
  roll : ℤ
  heading : ℤ
  samples : Fin 5 → ℤ

/-- The fields in the order and formats of the file. -/
def Spec.Vmdas.fields (V : Spec.Vmdas) : List (AdFmt × ℤ) :=
  [(.B, V.day), (.B, V.month), (.B, V.yearLo), (.B, V.yearHi), (.I, V.firstTime), (.i, V.pcOffset),
    (.i, V.firstLat), (.i, V.firstLon), (.I, V.lastTime), (.i, V.lastLat), (.i, V.lastLon), (.H, V.avgSpeed),
    (.H, V.avgTrueTrack), (.H, V.avgMagTrack), (.H, V.speedMadeGood), (.H, V.dirMadeGood), (.H, V.reserved),
    (.H, V.flags), (.H, V.reserved2), (.I, V.number), (.B, V.adcpYearLo), (.B, V.adcpYearHi), (.B, V.adcpDay),
    (.B, V.adcpMonth), (.I, V.adcpTime), (.h, V.pitch), (.h, V.roll), (.H, V.heading), (.H, V.samples 0),
    (.H, V.samples 1), (.H, V.samples 2), (.H, V.samples 3), (.H, V.samples 4)]

/-- The date of the fix and of the instrument. -/
def Spec.Vmdas.date (V : Spec.Vmdas) : CivilTime := ⟨V.yearLo + V.yearHi * 256, V.month.toNat, V.day.toNat, 0, 0, 0⟩

def Spec.Vmdas.adcpDate (V : Spec.Vmdas) : CivilTime :=
  ⟨V.adcpYearLo + V.adcpYearHi * 256, V.adcpMonth.toNat, V.adcpDay.toNat, 0, 0, 0⟩

/-- A value below 360 written without sign, as the two bytes of a signed angle are read. -/
def Spec.compass (x : ℤ) : ℚ := if 0 ≤ x then x * 180 / 2 ^ 15 else x * 180 / 2 ^ 15 + 360

theorem vmdas_sizes (V : Spec.Vmdas) : V.fields.map (·.1.size) = [1, 1, 1, 1, 4, 4, 4, 4, 4, 4, 4, 2, 2, 2, 2, 2, 2,
    2, 2, 4, 1, 1, 1, 1, 4, 2, 2, 2, 2, 2, 2, 2, 2] := rfl

/-- Two bytes of a signed number are those of an unsigned one. -/
theorem encVal_h_H (w : ℤ) : Spec.encVal .h w = Spec.encVal .H (w % 65536) := by
  simp only [Spec.encVal, AdFmt.size]
  congr 2
  norm_num

/-- The fields with the attitude as the code reads it. -/
def vmdasRead (V : Spec.Vmdas) : List (AdFmt × ℤ) :=
  V.fields.map fun x => if x.1 = .h then (.H, x.2 % 65536) else x

theorem vmdasRead_record (V : Spec.Vmdas) : Spec.record (vmdasRead V) = Spec.record V.fields := by
  unfold vmdasRead Spec.record
  rw [List.flatMap_map]
  apply List.flatMap_congr
  intro x _
  obtain ⟨f, v⟩ := x
  dsimp only
  split_ifs with h
  · subst h; exact (encVal_h_H v).symm
  · rfl

theorem vmdasRead_range {V : Spec.Vmdas} (hr : ∀ x ∈ V.fields, Spec.inRange x.1 x.2) :
    ∀ x ∈ vmdasRead V, Spec.inRange x.1 x.2 := by
  intro x hx
  obtain ⟨y, hy, rfl⟩ := List.mem_map.mp hx
  split_ifs with h
  · simp only [Spec.inRange, AdFmt.signed, AdFmt.size]
    norm_num
    omega
  · exact hr y hy

theorem compass_mod {w : ℤ} (h : Spec.inRange .h w) : ((w % 65536 : ℤ) : ℚ) * 180 / 2 ^ 15 = Spec.compass w := by
  simp only [Spec.inRange, AdFmt.signed, AdFmt.size, if_true] at h
  norm_num at h
  unfold Spec.compass
  split_ifs with h0
  · rw [Int.emod_eq_of_lt h0 (by omega)]
  · have : w % 65536 = w + 65536 := by omega
    rw [this]
    push_cast
    ring

/-- Numbers of eight digits fit into a float32. -/
theorem binDec_small (x : ℕ) (h : x < 256) : fl32 (binDec x) = binDec x := by
  have : ∀ x < 256, fl32 (binDec x) = binDec x := by decide +kernel
  exact this x h

/-- **The navigation block of VMDAS** (partial: pitch and roll come out unsigned, flags above the eighth are lost). The
last fix before the ping is given its recorded position, in degrees, to one part in 2²⁴, and its time to the
millisecond; speeds are in m/s, tracks and heading in degrees; the digits of the flags are the bits recorded if only
the lower eight are used. -/
theorem vmdas_partial {V : Spec.Vmdas} (hr : ∀ x ∈ V.fields, Spec.inRange x.1 x.2) (hd : V.date.valid)
    (ha : V.adcpDate.valid) (extra : List ℕ) :
    ∃ r, vmdasFix (Spec.record V.fields ++ extra) = .ok r ∧
      (r.time ≤ date2epoch V.date 0 + V.lastTime / 10000 ∧ date2epoch V.date 0 + V.lastTime / 10000 < r.time + 1 / 1000) ∧
      (10 ∣ V.lastTime → r.time = date2epoch V.date 0 + V.lastTime / 10000) ∧
      |r.lat - V.lastLat * (180 / 2 ^ 31)| ≤ |(V.lastLat : ℚ) * (180 / 2 ^ 31)| / 2 ^ 24 ∧
      |r.lon - V.lastLon * (180 / 2 ^ 31)| ≤ |(V.lastLon : ℚ) * (180 / 2 ^ 31)| / 2 ^ 24 ∧
      r.clockOffset = V.pcOffset / 1000 ∧
      r.avgSpeed = V.avgSpeed / 1000 ∧ r.avgDir = V.avgTrueTrack * (180 / 2 ^ 15) ∧
      r.speedMadeGood = V.speedMadeGood / 1000 ∧ r.dirMadeGood = V.dirMadeGood * (180 / 2 ^ 15) ∧
      r.heading = V.heading * (180 / 2 ^ 15) ∧
      r.flags = fl32 (Nat.ofDigits 10 (Nat.digits 2 V.flags.toNat) : ℕ) ∧
      (V.flags < 256 → ∃ f : ℕ, r.flags = f ∧ Nat.digits 10 f = Nat.digits 2 V.flags.toNat) ∧
      r.pitch = Spec.compass V.pitch ∧ r.roll = Spec.compass V.roll := by
  have hr' := vmdasRead_range hr
  have hsz : (vmdasRead V).map (·.1.size) = [1, 1, 1, 1, 4, 4, 4, 4, 4, 4, 4, 2, 2, 2, 2, 2, 2,
    2, 2, 4, 1, 1, 1, 1, 4, 2, 2, 2, 2, 2, 2, 2, 2] := rfl
  have at' : ∀ (fmt : AdFmt) (j i : ℕ) (w : ℤ), (vmdasRead V)[j]? = some (fmt, w) →
      ([1, 1, 1, 1, 4, 4, 4, 4, 4, 4, 4, 2, 2, 2, 2, 2, 2,
    2, 2, 4, 1, 1, 1, 1, 4, 2, 2, 2, 2, 2, 2, 2, 2].take j).sum = i →
      rdAt fmt (Spec.record V.fields ++ extra) i = w :=
    fun fmt j i w h1 h2 => by
      rw [← vmdasRead_record]
      exact rdAt_record hr' h1 (by rw [List.map_take, hsz, h2])
  unfold vmdasFix
  rw [at' .B 2 2 V.yearLo rfl (by decide), at' .B 3 3 V.yearHi rfl (by decide), at' .B 1 1 V.month rfl (by decide),
    at' .B 0 0 V.day rfl (by decide), at' .B 20 52 V.adcpYearLo rfl (by decide),
    at' .B 21 53 V.adcpYearHi rfl (by decide), at' .B 23 55 V.adcpMonth rfl (by decide),
    at' .B 22 54 V.adcpDay rfl (by decide), at' .I 8 20 V.lastTime rfl (by decide),
    at' .i 5 8 V.pcOffset rfl (by decide), at' .i 9 24 V.lastLat rfl (by decide),
    at' .i 10 28 V.lastLon rfl (by decide), at' .H 11 32 V.avgSpeed rfl (by decide),
    at' .H 12 34 V.avgTrueTrack rfl (by decide), at' .H 14 38 V.speedMadeGood rfl (by decide),
    at' .H 15 40 V.dirMadeGood rfl (by decide), at' .H 17 44 V.flags rfl (by decide),
    at' .H 25 60 (V.pitch % 65536) rfl (by decide), at' .H 26 62 (V.roll % 65536) rfl (by decide),
    at' .H 27 64 V.heading rfl (by decide)]
  have m1 : rdMidnight (V.yearLo + V.yearHi * 256) V.month.toNat V.day.toNat = .ok (date2epoch V.date 0) := by
    unfold rdMidnight
    exact if_pos hd
  have m2 : rdMidnight (V.adcpYearLo + V.adcpYearHi * 256) V.adcpMonth.toNat V.adcpDay.toNat
      = .ok (date2epoch V.adcpDate 0) := by
    unfold rdMidnight
    exact if_pos ha
  rw [m1, m2]
  refine ⟨_, rfl, ?_, ?_, ?_, ?_, rfl, rfl, ?_, rfl, ?_, ?_, rfl, ?_, ?_, ?_⟩
  · dsimp only
    have h1 : (((V.lastTime / 10 : ℤ) : ℚ)) * 10 ≤ V.lastTime := by
      exact_mod_cast (by omega : V.lastTime / 10 * 10 ≤ V.lastTime)
    have h2 : (V.lastTime : ℚ) < ((V.lastTime / 10 : ℤ) : ℚ) * 10 + 10 := by
      exact_mod_cast (by omega : V.lastTime < V.lastTime / 10 * 10 + 10)
    constructor <;> linarith
  · rintro ⟨k, hk⟩
    dsimp only
    rw [hk, Int.mul_ediv_cancel_left _ (by norm_num)]
    push_cast
    ring
  · exact fl32_err _
  · exact fl32_err _
  · dsimp only; ring
  · dsimp only; ring
  · dsimp only; ring
  · intro hf
    refine ⟨_, binDec_small _ (by omega), ?_⟩
    dsimp only [binDec]
    refine Nat.digits_ofDigits 10 (by norm_num) _ ?_ ?_
    · intro l hl
      have := Nat.digits_lt_base (by norm_num : 1 < 2) hl
      omega
    · intro h
      refine Nat.getLast_digit_ne_zero 2 ?_
      intro h0
      rw [h0] at h
      simp at h
  · exact compass_mod (hr (.h, V.pitch) (by simp [Spec.Vmdas.fields]))
  · exact compass_mod (hr (.h, V.roll) (by simp [Spec.Vmdas.fields]))

/-- A block whose date of the fix or of the instrument is none is an error: no ensemble of the file is read. -/
theorem vmdas_bad_date {V : Spec.Vmdas} (hr : ∀ x ∈ V.fields, Spec.inRange x.1 x.2)
    (hd : ¬ V.date.valid ∨ ¬ V.adcpDate.valid) (extra : List ℕ) :
    vmdasFix (Spec.record V.fields ++ extra) = .error .valueError := by
  have at' : ∀ (fmt : AdFmt) (j i : ℕ) (w : ℤ), V.fields[j]? = some (fmt, w) →
      ([1, 1, 1, 1, 4, 4, 4, 4, 4, 4, 4, 2, 2, 2, 2, 2, 2,
    2, 2, 4, 1, 1, 1, 1, 4, 2, 2, 2, 2, 2, 2, 2, 2].take j).sum = i →
      rdAt fmt (Spec.record V.fields ++ extra) i = w :=
    fun fmt j i w h1 h2 => rdAt_record hr h1 (by rw [List.map_take, vmdas_sizes, h2])
  unfold vmdasFix
  rw [at' .B 2 2 V.yearLo rfl (by decide), at' .B 3 3 V.yearHi rfl (by decide), at' .B 1 1 V.month rfl (by decide),
    at' .B 0 0 V.day rfl (by decide), at' .B 20 52 V.adcpYearLo rfl (by decide),
    at' .B 21 53 V.adcpYearHi rfl (by decide), at' .B 23 55 V.adcpMonth rfl (by decide),
    at' .B 22 54 V.adcpDay rfl (by decide)]
  by_cases h1 : V.date.valid
  · have h2 := hd.resolve_left (not_not.mpr h1)
    have m1 : rdMidnight (V.yearLo + V.yearHi * 256) V.month.toNat V.day.toNat = .ok (date2epoch V.date 0) := by
      unfold rdMidnight
      exact if_pos h1
    have m2 : rdMidnight (V.adcpYearLo + V.adcpYearHi * 256) V.adcpMonth.toNat V.adcpDay.toNat
        = .error .valueError := by
      unfold rdMidnight
      exact if_neg h2
    rw [m1, m2]
  · have m1 : rdMidnight (V.yearLo + V.yearHi * 256) V.month.toNat V.day.toNat = .error .valueError := by
      unfold rdMidnight
      exact if_neg h1
    rw [m1]

/-- 16 June 2020, 12:00:00 UTC at 47.5° N, 122.25° W, rolled by 2° to port. -/
def exVmdas : Spec.Vmdas :=
  { day := 16, month := 6, yearLo := 228, yearHi := 7, firstTime := 431990000, pcOffset := -250, firstLat := 0,
    firstLon := 0, lastTime := 432000000, lastLat := 566695253, lastLon := -1458506752, avgSpeed := 1500,
    avgTrueTrack := 16384, avgMagTrack := 0, speedMadeGood := 1400, dirMadeGood := 16000, reserved := 0,
    flags := 37, reserved2 := 0, number := 17, adcpYearLo := 228, adcpYearHi := 7, adcpDay := 16, adcpMonth := 6,
    adcpTime := 432000000, pitch := 100, roll := -364, heading := 32768, samples := fun _ => 1 }

theorem exVmdas_range : ∀ x ∈ exVmdas.fields, Spec.inRange x.1 x.2 := by
  simp [Spec.Vmdas.fields, exVmdas, Spec.inRange, AdFmt.signed, AdFmt.size]

example : exVmdas.date.valid ∧ exVmdas.adcpDate.valid := by decide

/-- The full statement for the attitude, a small roll to port recorded as −2°, is false: it is reported as almost
358°. -/
theorem vmdas_attitude_false : ¬ ∀ (V : Spec.Vmdas) (r : VmdasFix), (∀ x ∈ V.fields, Spec.inRange x.1 x.2) →
    vmdasFix (Spec.record V.fields) = .ok r → r.roll = V.roll * (180 / 2 ^ 15) := by
  intro h
  obtain ⟨r, e, _, _, _, _, _, _, _, _, _, _, _, _, _, hroll⟩ :=
    vmdas_partial exVmdas_range (by decide) (by decide) []
  rw [List.append_nil] at e
  have := h exVmdas r exVmdas_range e
  rw [hroll] at this
  revert this
  unfold Spec.compass exVmdas
  norm_num

/-- The flags as recorded are false, too: they are stored as a decimal number of up to sixteen digits in single precision.
Whatever the block, the flags 256 (ninth bit) and 257 (first and ninth bit) give the same value. -/
theorem vmdas_flags_false {V V' : Spec.Vmdas} (hr : ∀ x ∈ V.fields, Spec.inRange x.1 x.2) (hd : V.date.valid)
    (ha : V.adcpDate.valid) (hr' : ∀ x ∈ V'.fields, Spec.inRange x.1 x.2) (hd' : V'.date.valid)
    (ha' : V'.adcpDate.valid) (hf : V.flags = 256) (hf' : V'.flags = 257) :
    ∃ r r', vmdasFix (Spec.record V.fields) = .ok r ∧ vmdasFix (Spec.record V'.fields) = .ok r' ∧
      r.flags = r'.flags := by
  obtain ⟨r, e, _, _, _, _, _, _, _, _, _, _, hv, -⟩ := vmdas_partial hr hd ha []
  obtain ⟨r', e', _, _, _, _, _, _, _, _, _, _, hv', -⟩ := vmdas_partial hr' hd' ha' []
  rw [List.append_nil] at e e'
  refine ⟨r, r', e, e', ?_⟩
  rw [hv, hv', hf, hf']
  have : ∀ x y : ℕ, x = 256 → y = 257 → fl32 (binDec x) = fl32 (binDec y) := by
    rintro x y rfl rfl
    decide +kernel
  exact this _ _ rfl rfl

example : (∀ x ∈ ({ exVmdas with flags := 257 } : Spec.Vmdas).fields, Spec.inRange x.1 x.2) ∧
    ({ exVmdas with flags := 257 } : Spec.Vmdas).date.valid := by
  refine ⟨?_, by decide⟩
  simp [Spec.Vmdas.fields, exVmdas, Spec.inRange, AdFmt.signed, AdFmt.size]

/-- So are positions to the recorded resolution (a centimetre): single precision keeps steps of 2⁻¹⁷ degrees, 0.8 m at
the equator, at the longitude of Seattle. -/
theorem position_step_false : ∀ k ∈ List.range 91, fl32 (((-1458506820 + k : ℤ) : ℚ) * rdCfac) = fl32 (-1458506820 * rdCfac) := by
  decide +kernel

/-! ### Positions of WinRiver -/

/-- The bottom-track block WinRiver writes: the longitude in two words at either end of the block, the quality
of the fix behind them. -/
def Spec.winBottom (a b m p rest : List ℕ) (lat lon qual : ℤ) : List ℕ :=
  a ++ (Spec.encVal .H (lon % 65536) ++ (b ++ (Spec.encVal .i lat ++ (m ++ (Spec.encVal .H (lon / 65536 % 65536) ++
    (p ++ (Spec.encVal .B qual ++ rest)))))))

theorem inRange_mod (x : ℤ) : Spec.inRange .H (x % 65536) := by
  simp only [Spec.inRange, AdFmt.signed, AdFmt.size]
  norm_num
  omega

theorem winBottom_reads {a b m p rest : List ℕ} {lat lon qual : ℤ} (ha : a.length = 2) (hb : b.length = 6)
    (hm : m.length = 30) (hp : p.length = 16) (hlat : Spec.inRange .i lat) (hq : Spec.inRange .B qual) :
    rdAt .H (Spec.winBottom a b m p rest lat lon qual) 2 = lon % 65536 ∧
    rdAt .i (Spec.winBottom a b m p rest lat lon qual) 10 = lat ∧
    rdAt .H (Spec.winBottom a b m p rest lat lon qual) 44 = lon / 65536 % 65536 ∧
    rdAt .B (Spec.winBottom a b m p rest lat lon qual) 62 = qual := by
  have e2 : ∀ g v, (Spec.encVal g v).length = g.size := encVal_length
  unfold Spec.winBottom
  refine ⟨?_, ?_, ?_, ?_⟩
  · have := rdAt_enc (pre := a) (post := b ++ (Spec.encVal .i lat ++ (m ++ (Spec.encVal .H (lon / 65536 % 65536) ++
      (p ++ (Spec.encVal .B qual ++ rest)))))) (inRange_mod lon)
    rwa [ha] at this
  · have := rdAt_enc (pre := a ++ Spec.encVal .H (lon % 65536) ++ b) (post := m ++ (Spec.encVal .H (lon / 65536 % 65536) ++
      (p ++ (Spec.encVal .B qual ++ rest)))) hlat
    simp only [List.length_append, ha, hb, e2, AdFmt.size, List.append_assoc] at this
    exact this
  · have := rdAt_enc (pre := a ++ Spec.encVal .H (lon % 65536) ++ b ++ Spec.encVal .i lat ++ m) (post :=
      p ++ (Spec.encVal .B qual ++ rest)) (inRange_mod (lon / 65536))
    simp only [List.length_append, ha, hb, hm, e2, AdFmt.size, List.append_assoc] at this
    exact this
  · have := rdAt_enc (pre := a ++ Spec.encVal .H (lon % 65536) ++ b ++ Spec.encVal .i lat ++ m ++
      Spec.encVal .H (lon / 65536 % 65536) ++ p) (post := rest) hq
    simp only [List.length_append, ha, hb, hm, hp, e2, AdFmt.size, List.append_assoc] at this
    exact this

/-- **The position of a WinRiver ensemble** (partial: off the equator and further than 2⁻¹⁴ degrees from the zero
meridian) is the one recorded, the latitude to one part in 2²⁴, the longitude, west negative and read from its two
words, to 2⁻¹⁴ degrees. -/
theorem winriver_position_partial {a b m p rest : List ℕ} {lat lon qual : ℤ} (ha : a.length = 2) (hb : b.length = 6)
    (hm : m.length = 30) (hp : p.length = 16) (hlat : Spec.inRange .i lat) (hlon : -2 ^ 31 < lon ∧ lon < 2 ^ 31)
    (hq : Spec.inRange .B qual) (h0 : qual ≠ 0) (h1 : lat ≠ 0) (h2 : 1 / 2 ^ 14 < |(lon : ℚ) * (180 / 2 ^ 31)|)
    (h3 : |(lon : ℚ) * (180 / 2 ^ 31)| < 180 - 1 / 2 ^ 14) :
    ∃ la lo, bottomFix (Spec.winBottom a b m p rest lat lon qual) = (some la, some lo) ∧
      |la - lat * (180 / 2 ^ 31)| ≤ |(lat : ℚ) * (180 / 2 ^ 31)| / 2 ^ 24 ∧
      |lo - lon * (180 / 2 ^ 31)| ≤ 1 / 2 ^ 14 := by
  obtain ⟨e1, e2, e3, e4⟩ := winBottom_reads (rest := rest) (lon := lon) ha hb hm hp hlat hq
  unfold bottomFix
  rw [e1, e2, e3, e4]
  simp only [if_neg h0]
  have hl : fl32 ((lat : ℚ) * rdCfac) ≠ 0 := fl32_ne_zero (mul_ne_zero (by exact_mod_cast h1) (by norm_num [rdCfac]))
  set raw : ℚ := ((lon % 65536 + 65536 * (lon / 65536 % 65536) : ℤ) : ℚ) * rdCfac with hraw
  have hv : |(if fl32 raw > 180 then fl32 (fl32 raw - 360) else fl32 raw) - (lon : ℚ) * (180 / 2 ^ 31)| ≤ 1 / 2 ^ 14 := by
    have er := fl32_err raw
    by_cases hn : 0 ≤ lon
    · have e : lon % 65536 + 65536 * (lon / 65536 % 65536) = lon := by omega
      have hr : raw = (lon : ℚ) * (180 / 2 ^ 31) := by rw [hraw, e, rdCfac]
      have hr0 : 0 ≤ raw := by
        rw [hr]
        have : (0 : ℚ) ≤ lon := by exact_mod_cast hn
        positivity
      rw [← hr] at h2 h3 ⊢
      rw [abs_of_nonneg hr0] at h2 h3 er
      have hle : fl32 raw ≤ 180 := by
        rw [abs_le] at er
        norm_num at er h3
        linarith [er.2]
      rw [if_neg (not_lt.mpr hle)]
      refine er.trans ?_
      norm_num at h3 ⊢
      linarith
    · have e : lon % 65536 + 65536 * (lon / 65536 % 65536) = lon + 4294967296 := by omega
      have hr : raw = (lon : ℚ) * (180 / 2 ^ 31) + 360 := by
        rw [hraw, e, rdCfac]
        push_cast
        ring
      have hneg : (lon : ℚ) * (180 / 2 ^ 31) < 0 := by
        have : (lon : ℚ) < 0 := by exact_mod_cast (by omega : lon < 0)
        nlinarith
      rw [abs_of_neg hneg] at h2 h3
      have hr1 : 0 ≤ raw := by rw [hr]; linarith
      rw [abs_of_nonneg hr1] at er
      have er' : |fl32 raw - raw| ≤ 360 / 2 ^ 24 := by
        refine er.trans (div_le_div_of_nonneg_right ?_ (by positivity))
        rw [hr]; linarith
      have hgt : fl32 raw > 180 := by
        rw [abs_le] at er'
        norm_num at er' h3
        linarith [er'.1]
      rw [if_pos hgt]
      have ed := fl32_err (fl32 raw - 360)
      have hb2 : |fl32 raw - 360| ≤ 180 := by
        rw [abs_le] at er' ⊢
        norm_num at er' h2
        constructor <;> linarith [er'.1, er'.2]
      have ed' : |fl32 (fl32 raw - 360) - (fl32 raw - 360)| ≤ 180 / 2 ^ 24 :=
        ed.trans (div_le_div_of_nonneg_right hb2 (by positivity))
      rw [abs_le] at er' ed' ⊢
      norm_num at er' ed' ⊢
      constructor <;> linarith [er'.1, er'.2, ed'.1, ed'.2]
  set lo := if fl32 raw > 180 then fl32 (fl32 raw - 360) else fl32 raw with hlo
  have hlo0 : lo ≠ 0 := by
    intro h
    rw [h, zero_sub, abs_neg] at hv
    linarith
  refine ⟨fl32 ((lat : ℚ) * rdCfac), lo, ?_, fl32_err _, hv⟩
  rw [if_neg hl]
  exact congrArg _ (if_neg hlo0)

/-- Half a degree west of Greenwich, 50° N. -/
example : (1 : ℚ) / 2 ^ 14 < |((-5965233 : ℤ) : ℚ) * (180 / 2 ^ 31)| ∧
    |((-5965233 : ℤ) : ℚ) * (180 / 2 ^ 31)| < 180 - 1 / 2 ^ 14 := by
  norm_num [abs_of_neg]

/-- The recorded resolution (a centimetre) is not kept: western longitudes are stored between 180° and 360° in single
precision first. 364 neighbouring values half a degree west, over 3.3 m, give the same longitude. -/
theorem winriver_west_false {a b m p rest : List ℕ} {lat qual : ℤ} (ha : a.length = 2) (hb : b.length = 6)
    (hm : m.length = 30) (hp : p.length = 16) (hlat : Spec.inRange .i lat) (hq : Spec.inRange .B qual) :
    ∀ k : ℕ, k < 364 → (bottomFix (Spec.winBottom a b m p rest lat (-5965414 + k) qual)).2 =
      (bottomFix (Spec.winBottom a b m p rest lat (-5965414) qual)).2 := by
  intro k hk
  obtain ⟨e1, e2, e3, e4⟩ := winBottom_reads (rest := rest) (lon := -5965414 + k) ha hb hm hp hlat hq
  obtain ⟨f1, f2, f3, f4⟩ := winBottom_reads (rest := rest) (lon := -5965414) ha hb hm hp hlat hq
  have key : ∀ k < 364, fl32 (((-5965414 + (k : ℕ) : ℤ) % 65536 + 65536 * ((-5965414 + (k : ℕ) : ℤ) / 65536 % 65536) : ℤ) * rdCfac) =
      fl32 (((-5965414 : ℤ) % 65536 + 65536 * ((-5965414 : ℤ) / 65536 % 65536) : ℤ) * rdCfac) := by decide +kernel
  unfold bottomFix
  rw [e1, e2, e3, e4, f1, f2, f3, f4]
  simp only [key k hk]

/-- Without a fix the position is missing. -/
theorem winriver_no_fix {a b m p rest : List ℕ} {lat lon : ℤ} (ha : a.length = 2) (hb : b.length = 6)
    (hm : m.length = 30) (hp : p.length = 16) (hlat : Spec.inRange .i lat) :
    bottomFix (Spec.winBottom a b m p rest lat lon 0) = (none, none) := by
  obtain ⟨e1, e2, e3, e4⟩ := winBottom_reads (rest := rest) (lon := lon) ha hb hm hp hlat
    (qual := 0) (by simp [Spec.inRange, AdFmt.signed, AdFmt.size])
  unfold bottomFix
  rw [e1, e2, e3, e4]
  simp

/-- The full statement is false: on the equator, whatever the longitude and quality, the latitude is missing. -/
theorem winriver_equator_false {a b m p rest : List ℕ} {lon qual : ℤ} (ha : a.length = 2) (hb : b.length = 6)
    (hm : m.length = 30) (hp : p.length = 16) (hq : Spec.inRange .B qual) :
    (bottomFix (Spec.winBottom a b m p rest 0 lon qual)).1 = none := by
  obtain ⟨e1, e2, e3, e4⟩ := winBottom_reads (rest := rest) (lon := lon) ha hb hm hp
    (lat := 0) (by simp [Spec.inRange, AdFmt.signed, AdFmt.size]) hq
  unfold bottomFix
  rw [e1, e2, e3, e4]
  simp only [Int.cast_zero, zero_mul, fl32_zero]
  split_ifs <;> simp_all

/-- And on the zero meridian the longitude is. -/
theorem winriver_meridian_false {a b m p rest : List ℕ} {lat qual : ℤ} (ha : a.length = 2) (hb : b.length = 6)
    (hm : m.length = 30) (hp : p.length = 16) (hlat : Spec.inRange .i lat) (hq : Spec.inRange .B qual) :
    (bottomFix (Spec.winBottom a b m p rest lat 0 qual)).2 = none := by
  obtain ⟨e1, e2, e3, e4⟩ := winBottom_reads (rest := rest) (lon := 0) ha hb hm hp hlat hq
  unfold bottomFix
  rw [e1, e2, e3, e4]
  norm_num [fl32_zero]
  split_ifs <;> rfl

/-! ### Sentences of WinRiver II -/

theorem navSub_seg (rest : List ℕ) : ∀ (ls : List (List ℕ)) (j : ℕ) (x : List ℕ), ls[j]? = some x →
    navSub (ls.flatten ++ rest) (((ls.map List.length).take j).sum) x.length = x
  | [], _, _, h => by simp at h
  | y :: ls, 0, x, h => by
    simp only [List.getElem?_cons_zero, Option.some.injEq] at h
    subst h
    simp [navSub]
  | y :: ls, j + 1, x, h => by
    rw [List.getElem?_cons_succ] at h
    have ih := navSub_seg rest ls j x h
    simp only [List.map_cons, List.take_succ_cons, List.sum_cons, List.flatten_cons, List.append_assoc]
    unfold navSub at ih ⊢
    rw [← List.drop_drop, List.drop_left' rfl]
    exact ih

/-- A segment by the lengths of those before it. -/
theorem navSub_at {ls : List (List ℕ)} {lens : List ℕ} (hl : ls.map List.length = lens) (rest : List ℕ) {j : ℕ}
    {x : List ℕ} (h : ls[j]? = some x) {i n : ℕ} (hi : (lens.take j).sum = i) (hn : lens[j]? = some n) :
    navSub (ls.flatten ++ rest) i n = x := by
  have := navSub_seg rest ls j x h
  rw [hl, hi] at this
  rw [← hl, List.getElem?_map, h] at hn
  simp only [Option.map_some, Option.some.injEq] at hn
  rw [← hn]
  exact this

theorem rdAt_eq_sub (fmt : AdFmt) (c : List ℕ) (i : ℕ) : rdAt fmt c i = adVal fmt (navSub c i fmt.size) := rfl

theorem adVal_B_one (x : ℕ) : adVal .B [x] = x := by
  simp [adVal, AdFmt.signed, leNat]

/-- A position sentence (GGA) as WinRiver II stores it: fields in their order, floats as bytes. -/
structure Spec.Gga where
  id : ℤ
  size : ℤ
  stamp : List ℕ
  name : List ℕ
  sep : ℕ
  tod : List ℕ
  sep2 : ℕ
  lat : List ℕ
  ns : ℕ
  lon : List ℕ
  ew : ℕ
  fix : ℕ
  nSat : ℕ
  hdop : List ℕ
  elev : List ℕ
  unit : ℕ
  geoid : List ℕ
  unit2 : ℕ
  age : List ℕ
  station : List ℕ

def Spec.Gga.segs (g : Spec.Gga) : List (List ℕ) :=
  [Spec.encVal .H g.id, Spec.encVal .H g.size, g.stamp, g.name, [g.sep], g.tod, [g.sep2], g.lat, [g.ns], g.lon,
    [g.ew], [g.fix], [g.nSat], g.hdop, g.elev, [g.unit], g.geoid, [g.unit2], g.age, g.station]

def Spec.ggaLens : List ℕ := [2, 2, 8, 6, 1, 9, 1, 8, 1, 8, 1, 1, 1, 4, 4, 1, 4, 1, 4, 2]

/-- The time of day as written: `HHMMSS.ss`. -/
def Spec.todBytes (h m s cs : ℕ) : List ℕ :=
  [48 + h / 10, 48 + h % 10, 48 + m / 10, 48 + m % 10, 48 + s / 10, 48 + s % 10, 46, 48 + cs / 10, 48 + cs % 10]

theorem navDigit_of {x : ℕ} (h : x < 10) : navDigit (48 + x) = some x := by
  unfold navDigit
  rw [if_pos (by omega)]
  simp

theorem ggaTime_spec {h m s cs : ℕ} (hh : h < 100) (hm : m < 100) (hs : s < 100) (hc : cs < 100) :
    ggaTime (Spec.todBytes h m s cs) = .ok ((h * 3600 + m * 60 + s : ℕ) + (cs : ℚ) / 100) := by
  unfold ggaTime Spec.todBytes
  dsimp only
  rw [navDigit_of (by omega), navDigit_of (by omega), navDigit_of (by omega), navDigit_of (by omega),
    navDigit_of (by omega), navDigit_of (by omega), navDigit_of (by omega), navDigit_of (by omega)]
  simp only [if_true]
  have e : ∀ x : ℕ, x / 10 * 10 + x % 10 = x := fun x => by omega
  rw [e, e, e, e]

theorem date2epoch_tod (y : ℤ) (mo d h m s cs : ℕ) :
    date2epoch ⟨y, mo, d, 0, 0, 0⟩ 0 + ((h * 3600 + m * 60 + s : ℕ) + (cs : ℚ) / 100)
      = date2epoch ⟨y, mo, d, h, m, s⟩ (cs * 10000) := by
  unfold date2epoch
  push_cast
  ring

/-- The year of the instrument's clock: two digits count from 2000. -/
def Spec.fullYear (y : ℕ) : ℕ := if y < 100 then 2000 + y else y

theorem rdCentury_date (rtc : ℕ → ℕ) :
    rdCentury rtc 0 = Spec.fullYear (rtc 0) ∧ rdCentury rtc 1 = rtc 1 ∧ rdCentury rtc 2 = rtc 2 := by
  unfold rdCentury Spec.fullYear
  refine ⟨?_, by simp, by simp⟩
  by_cases h : rtc 0 < 100 <;> simp [h, add_comm]

/-- **Position sentences.** An ensemble with a position sentence is given the latitude (south negative), the
longitude (west negative), both in single precision, the quality, number of satellites, dilution, elevation and correction age recorded; the
time of day is the one recorded, on the date of the instrument's clock. Speed, depth and heading stay. -/
theorem gga_spec {f32 f64 : List ℕ → ℚ} {utf8 : List ℕ → Bool} {rtc : ℕ → ℕ} {g : Spec.Gga} {n : Nav}
    {h m s cs : ℕ} (rest : List ℕ) (hl : g.segs.map List.length = Spec.ggaLens) (hid : g.id = 4 ∨ g.id = 104)
    (hsz : 43 < g.size ∧ g.size < 65536) (hu : utf8 g.name = true) (ht : g.tod = Spec.todBytes h m s cs)
    (hh : h < 24) (hm : m < 60) (hs : s < 60) (hc : cs < 100)
    (hd : (⟨Spec.fullYear (rtc 0), rtc 1, rtc 2, 0, 0, 0⟩ : CivilTime).valid) :
    winNav f32 f64 utf8 rtc (g.segs.flatten ++ rest) n = .ok (some { n with
      time := date2epoch ⟨Spec.fullYear (rtc 0), rtc 1, rtc 2, h, m, s⟩ (cs * 10000)
      lat := if g.ns = 'S'.toNat then -fl32 (f64 g.lat) else fl32 (f64 g.lat)
      lon := if g.ew = 'W'.toNat then -fl32 (f64 g.lon) else fl32 (f64 g.lon)
      fix := g.fix, nSat := g.nSat, hdop := f32 g.hdop, elevation := f32 g.elev, rtkAge := f32 g.age }) := by
  have hidr : Spec.inRange .H g.id := by
    rcases hid with h | h <;> simp [h, Spec.inRange, AdFmt.signed, AdFmt.size]
  have hszr : Spec.inRange .H g.size := by
    simp only [Spec.inRange, AdFmt.signed, AdFmt.size]
    norm_num
    omega
  have sub : ∀ (j i k : ℕ) (x : List ℕ), g.segs[j]? = some x → (Spec.ggaLens.take j).sum = i →
      Spec.ggaLens[j]? = some k → navSub (g.segs.flatten ++ rest) i k = x :=
    fun j i k x h1 h2 h3 => navSub_at hl rest h1 h2 h3
  have b : ∀ (j i x : ℕ), g.segs[j]? = some [x] → (Spec.ggaLens.take j).sum = i →
      Spec.ggaLens[j]? = some 1 → rdAt .B (g.segs.flatten ++ rest) i = x := by
    intro j i x h1 h2 h3
    rw [rdAt_eq_sub, AdFmt.size, sub j i 1 [x] h1 h2 h3, adVal_B_one]
  have r0 : rdAt .H (g.segs.flatten ++ rest) 0 = g.id := by
    rw [rdAt_eq_sub, AdFmt.size, sub 0 0 2 _ rfl rfl rfl, adVal_encVal _ _ hidr]
  have r2 : rdAt .H (g.segs.flatten ++ rest) 2 = g.size := by
    rw [rdAt_eq_sub, AdFmt.size, sub 1 2 2 _ rfl rfl rfl, adVal_encVal _ _ hszr]
  obtain ⟨c0, c1, c2⟩ := rdCentury_date rtc
  unfold winNav
  simp only [r0, r2, if_pos hid, if_neg (by omega : ¬ g.size ≤ 43)]
  rw [sub 3 12 6 g.name rfl rfl rfl, sub 5 19 9 g.tod rfl rfl rfl, hu, ht,
    ggaTime_spec (by omega) (by omega) (by omega) hc, c0, c1, c2]
  simp only [Bool.true_eq_false, if_false]
  have hmid : rdMidnight ((Spec.fullYear (rtc 0) : ℕ) : ℤ) (rtc 1) (rtc 2)
      = .ok (date2epoch ⟨Spec.fullYear (rtc 0), rtc 1, rtc 2, 0, 0, 0⟩ 0) := by
    unfold rdMidnight
    exact if_pos hd
  rw [hmid]
  simp only
  rw [b 8 37 g.ns rfl rfl rfl, b 10 46 g.ew rfl rfl rfl, b 11 47 g.fix rfl rfl rfl, b 12 48 g.nSat rfl rfl rfl,
    sub 7 29 8 g.lat rfl rfl rfl, sub 9 38 8 g.lon rfl rfl rfl, sub 13 49 4 g.hdop rfl rfl rfl,
    sub 14 53 4 g.elev rfl rfl rfl, sub 18 63 4 g.age rfl rfl rfl, date2epoch_tod]
  have hS : (((g.ns : ℕ) : ℤ) = 83) ↔ g.ns = 'S'.toNat := by
    rw [show 'S'.toNat = 83 from rfl]; omega
  have hW : (((g.ew : ℕ) : ℤ) = 87) ↔ g.ew = 'W'.toNat := by
    rw [show 'W'.toNat = 87 from rfl]; omega
  simp only [hS, hW, mul_neg, mul_one, Int.cast_natCast]

/-- The time of a fix is wrong by a day when the instrument's clock is still on the previous date (behind by some
seconds, or kept in local time): the statement that the time is the one recorded is false. -/
theorem gga_date_false {f32 f64 : List ℕ → ℚ} {utf8 : List ℕ → Bool} {rtc : ℕ → ℕ} {g : Spec.Gga} {n : Nav}
    {h m s cs : ℕ} {y : ℤ} {mo d : ℕ} (rest : List ℕ) (hl : g.segs.map List.length = Spec.ggaLens)
    (hid : g.id = 4 ∨ g.id = 104)
    (hsz : 43 < g.size ∧ g.size < 65536) (hu : utf8 g.name = true) (ht : g.tod = Spec.todBytes h m s cs)
    (hh : h < 24) (hm : m < 60) (hs : s < 60) (hc : cs < 100)
    (hd : (⟨Spec.fullYear (rtc 0), rtc 1, rtc 2, 0, 0, 0⟩ : CivilTime).valid)
    (hnext : dateOrdinal y mo d = dateOrdinal (Spec.fullYear (rtc 0)) (rtc 1) (rtc 2) + 1) :
    ∃ r, winNav f32 f64 utf8 rtc (g.segs.flatten ++ rest) n = .ok (some r) ∧
      r.time = date2epoch ⟨y, mo, d, h, m, s⟩ (cs * 10000) - 86400 := by
  refine ⟨_, gga_spec rest hl hid hsz hu ht hh hm hs hc hd, ?_⟩
  dsimp only
  unfold date2epoch
  dsimp only
  rw [hnext]
  push_cast
  ring

/-- A sentence at 00:00:20.50 UTC. -/
def exGga : Spec.Gga :=
  { id := 104, size := 57, stamp := List.replicate 8 0, name := [36, 71, 80, 71, 71, 65], sep := 44,
    tod := Spec.todBytes 0 0 20 50, sep2 := 44, lat := List.replicate 8 1, ns := 83, lon := List.replicate 8 2,
    ew := 87, fix := 2, nSat := 9, hdop := List.replicate 4 1, elev := List.replicate 4 2, unit := 77,
    geoid := List.replicate 4 0, unit2 := 77, age := List.replicate 4 0, station := [0, 0] }

example : exGga.segs.map List.length = Spec.ggaLens := by decide
example : dateOrdinal 2021 1 1 = dateOrdinal (Spec.fullYear 20) 12 31 + 1 := by decide
example : (⟨Spec.fullYear 20, 12, 31, 0, 0, 0⟩ : CivilTime).valid := by decide

/-- The other sentences as stored: the header, then fields of the given bytes. -/
def Spec.sentence (id size : ℤ) (stamp name : List ℕ) (sep : ℕ) (fields : List (List ℕ)) : List (List ℕ) :=
  [Spec.encVal .H id, Spec.encVal .H size, stamp, name, [sep]] ++ fields

theorem sentence_head {id size : ℤ} {stamp name : List ℕ} {sep : ℕ} {fields : List (List ℕ)} {lens : List ℕ}
    (hl : (Spec.sentence id size stamp name sep fields).map List.length = [2, 2, 8, 6, 1] ++ lens) (rest : List ℕ)
    (hid : 0 ≤ id ∧ id < 65536) (hsz : 0 ≤ size ∧ size < 65536) :
    rdAt .H ((Spec.sentence id size stamp name sep fields).flatten ++ rest) 0 = id ∧
    rdAt .H ((Spec.sentence id size stamp name sep fields).flatten ++ rest) 2 = size ∧
    navSub ((Spec.sentence id size stamp name sep fields).flatten ++ rest) 12 6 = name := by
  have r : ∀ x : ℤ, 0 ≤ x ∧ x < 65536 → Spec.inRange .H x := by
    intro x hx
    simp only [Spec.inRange, AdFmt.signed, AdFmt.size]
    norm_num
    omega
  refine ⟨?_, ?_, ?_⟩
  · rw [rdAt_eq_sub, AdFmt.size, navSub_at hl rest (j := 0) (i := 0) (n := 2) rfl rfl rfl, adVal_encVal _ _ (r _ hid)]
  · rw [rdAt_eq_sub, AdFmt.size, navSub_at hl rest (j := 1) (i := 2) (n := 2) rfl rfl rfl, adVal_encVal _ _ (r _ hsz)]
  · exact navSub_at hl rest (j := 3) rfl rfl rfl

/-- **Track sentences** (VTG): the track is the true one recorded, the speed is in m/s to one part in ten
thousand; nothing else changes. -/
theorem vtg_spec {f32 f64 : List ℕ → ℚ} {utf8 : List ℕ → Bool} {rtc : ℕ → ℕ} {n : Nav} {id size : ℤ}
    {stamp name track magn knots kph mode : List ℕ} {sep t mm kn kk : ℕ} (rest : List ℕ)
    (hl : (Spec.sentence id size stamp name sep [track, [t], magn, [mm], knots, [kn], kph, [kk], mode]).map List.length
      = [2, 2, 8, 6, 1] ++ [4, 1, 4, 1, 4, 1, 4, 1, 1])
    (hid : id = 5 ∨ id = 105) (hsz : 22 < size ∧ size < 65536) (hu : utf8 name = true) :
    ∃ v, winNav f32 f64 utf8 rtc ((Spec.sentence id size stamp name sep
        [track, [t], magn, [mm], knots, [kn], kph, [kk], mode]).flatten ++ rest) n
        = .ok (some { n with speed := v, dir := f32 track }) ∧
      |v - f32 knots * (1852 / 3600)| ≤ |f32 knots * (1852 / 3600)| / 10000 := by
  obtain ⟨r0, r2, rn⟩ := sentence_head hl rest (by omega) (by omega)
  refine ⟨f32 knots / (1944 / 1000), ?_, ?_⟩
  · unfold winNav
    simp only [r0, r2, rn, hu, if_pos hid, if_neg (by omega : ¬ size ≤ 22), Bool.true_eq_false, if_false,
      if_neg (by omega : ¬ (id = 4 ∨ id = 104))]
    rw [navSub_at hl rest (j := 5) (i := 19) (x := track) rfl (by decide) rfl,
      navSub_at hl rest (j := 9) (i := 29) (x := knots) rfl (by decide) rfl]
  · have e2 : f32 knots / (1944 / 1000) - f32 knots * (1852 / 3600)
        = f32 knots * (1852 / 3600) * (1000 / 1944 * 3600 / 1852 - 1) := by ring
    have e3 : |(1000 / 1944 * 3600 / 1852 - 1 : ℚ)| ≤ 1 / 10000 := by
      rw [abs_le]
      constructor <;> norm_num
    have e4 := mul_le_mul_of_nonneg_left e3 (abs_nonneg (f32 knots * (1852 / 3600)))
    rw [e2, abs_mul]
    linarith

/-- **Depth sentences** (DBT): the depth in metres is the one recorded. -/
theorem dbt_spec {f32 f64 : List ℕ → ℚ} {utf8 : List ℕ → Bool} {rtc : ℕ → ℕ} {n : Nav} {id size : ℤ}
    {stamp name ft mt fa : List ℕ} {sep a b c : ℕ} (rest : List ℕ)
    (hl : (Spec.sentence id size stamp name sep [ft, [a], mt, [b], fa, [c]]).map List.length
      = [2, 2, 8, 6, 1] ++ [4, 1, 4, 1, 4, 1])
    (hid : id = 6 ∨ id = 106) (hsz : 20 < size ∧ size < 65536) (hu : utf8 name = true) :
    winNav f32 f64 utf8 rtc ((Spec.sentence id size stamp name sep [ft, [a], mt, [b], fa, [c]]).flatten ++ rest) n
      = .ok (some { n with dist := f32 mt }) := by
  obtain ⟨r0, r2, rn⟩ := sentence_head hl rest (by omega) (by omega)
  unfold winNav
  simp only [r0, r2, rn, hu, if_pos hid, if_neg (by omega : ¬ size ≤ 20), Bool.true_eq_false, if_false,
    if_neg (by omega : ¬ (id = 4 ∨ id = 104)), if_neg (by omega : ¬ (id = 5 ∨ id = 105))]
  rw [navSub_at hl rest (j := 7) (x := mt) rfl (by decide) rfl]

/-- **Heading sentences** (HDT): the heading is the one recorded. -/
theorem hdt_spec {f32 f64 : List ℕ → ℚ} {utf8 : List ℕ → Bool} {rtc : ℕ → ℕ} {n : Nav} {id size : ℤ}
    {stamp name hd : List ℕ} {sep t : ℕ} (rest : List ℕ)
    (hl : (Spec.sentence id size stamp name sep [hd, [t]]).map List.length = [2, 2, 8, 6, 1] ++ [8, 1])
    (hid : id = 7 ∨ id = 107) (hsz : 14 < size ∧ size < 65536) (hu : utf8 name = true) :
    winNav f32 f64 utf8 rtc ((Spec.sentence id size stamp name sep [hd, [t]]).flatten ++ rest) n
      = .ok (some { n with heading := f64 hd }) := by
  obtain ⟨r0, r2, rn⟩ := sentence_head hl rest (by omega) (by omega)
  unfold winNav
  simp only [r0, r2, rn, hu, if_pos hid, if_neg (by omega : ¬ size ≤ 14), Bool.true_eq_false, if_false,
    if_neg (by omega : ¬ (id = 4 ∨ id = 104)), if_neg (by omega : ¬ (id = 5 ∨ id = 105)),
    if_neg (by omega : ¬ (id = 6 ∨ id = 106))]
  rw [navSub_at hl rest (j := 5) (x := hd) rfl (by decide) rfl]

example : (Spec.sentence 105 40 (List.replicate 8 0) [36, 71, 80, 86, 84, 71] 44
    [[1, 2, 3, 4], [84], [1, 2, 3, 4], [77], [1, 2, 3, 4], [78], [1, 2, 3, 4], [75], [65]]).map List.length
    = [2, 2, 8, 6, 1] ++ [4, 1, 4, 1, 4, 1, 4, 1, 1] := by decide

/-- The statement that an ensemble without a fix has no position is false: when the receiver sent no data (the
stored sentence is short), the values of the ensemble before stay and are copied into the dataset as new ones. -/
theorem no_sentence_keeps_false {f32 f64 : List ℕ → ℚ} {utf8 : List ℕ → Bool} {rtc : ℕ → ℕ} {n : Nav} {id size : ℤ}
    (rest : List ℕ) (hid : id = 4 ∨ id = 104) (hsz : 0 ≤ size ∧ size ≤ 43) :
    winNav f32 f64 utf8 rtc (Spec.encVal .H id ++ (Spec.encVal .H size ++ rest)) n = .ok (some n) := by
  have r : ∀ x : ℤ, 0 ≤ x ∧ x < 65536 → Spec.inRange .H x := by
    intro x hx
    simp only [Spec.inRange, AdFmt.signed, AdFmt.size]
    norm_num
    omega
  have r0 : rdAt .H (Spec.encVal .H id ++ (Spec.encVal .H size ++ rest)) 0 = id :=
    rdAt_enc (pre := []) (r id (by omega))
  have r2 : rdAt .H (Spec.encVal .H id ++ (Spec.encVal .H size ++ rest)) 2 = size := by
    have := rdAt_enc (pre := Spec.encVal .H id) (post := rest) (r size (by omega))
    rwa [encVal_length] at this
  unfold winNav
  simp only [r0, r2, if_pos hid, if_pos hsz.2]

end Dolfyn
