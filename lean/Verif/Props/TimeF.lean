import Verif.Model.TimeF
import Verif.Lemmas.Float64
import Verif.Props.TimeMore

/-!
C158: time conversions in double precision.
-/

namespace Dolfyn

/-- Half a unit in the last place of a binade. -/
theorem fl64_err_lt (x : ℚ) (k : ℤ) (h : |x| < 2 ^ (k + 1)) : |fl64 x - x| ≤ 2 ^ (k - 53) := by
  rcases eq_or_ne x 0 with rfl | hx
  · rw [fl64_zero]
    simp only [sub_zero, abs_zero]
    exact (zpow_pos (by norm_num) _).le
  have hu : (0 : ℚ) < 2 ^ (Int.log 2 |x| - 52) := zpow_pos (by norm_num) _
  have hlog : Int.log 2 |x| ≤ k := by
    have := (Int.lt_zpow_iff_log_lt (b := 2) (by norm_num) (abs_pos.mpr hx) (x := k + 1)).mp (by push_cast; exact h)
    omega
  unfold fl64
  simp only
  have hk : (2 : ℚ) ^ (Int.log 2 |x| - 52) ≤ 2 ^ (k - 52) := zpow_le_zpow_right₀ (by norm_num) (by omega)
  have hk2 : (2 : ℚ) ^ (k - 52) = 2 * 2 ^ (k - 53) := by
    rw [show k - 52 = (k - 53) + 1 by ring, zpow_add₀ (by norm_num)]; ring
  set u : ℚ := 2 ^ (Int.log 2 |x| - 52) with hue
  have h := pyRound_spec (x / u)
  have e : (pyRound (x / u) : ℚ) * u - x = -((x / u - pyRound (x / u)) * u) := by field_simp; ring
  rw [e, abs_neg, abs_mul, abs_of_pos hu]
  have := mul_le_mul_of_nonneg_right h hu.le
  linarith

theorem pyRound_eq_of_lt (q : ℚ) (k : ℤ) (h : |q - k| < 1 / 2) : pyRound q = k := by
  have e1 := pyRound_spec q
  have h3 : |((pyRound q : ℤ) : ℚ) - k| < 1 := by
    rw [abs_le] at e1
    rw [abs_lt] at h ⊢
    constructor <;> linarith
  have h4 : |pyRound q - k| < 1 := by exact_mod_cast h3
  have := Int.abs_lt_one_iff.mp h4
  omega

theorem zpow_sub52 (k : ℤ) : (2 : ℚ) ^ k = 4503599627370496 * 2 ^ (k - 52) := by
  rw [zpow_sub₀ (by norm_num)]
  norm_num
  ring

/-- Rounding keeps the order. -/
theorem fl64_mono {x y : ℚ} (h0 : 0 ≤ x) (h : x ≤ y) : fl64 x ≤ fl64 y := by
  rcases h0.eq_or_lt with rfl | hx
  · rw [fl64_zero]
    have := fl64_err y
    rw [abs_of_nonneg h, abs_le] at this
    have h2 : y / 2 ^ 53 ≤ y := div_le_self h (by norm_num)
    linarith [this.1]
  have hy : 0 < y := lt_of_lt_of_le hx h
  have hl := Int.log_mono_right (b := 2) hx h
  unfold fl64
  simp only
  rw [abs_of_pos hx, abs_of_pos hy]
  rcases hl.eq_or_lt with e | hlt
  · rw [e]
    have hu : (0 : ℚ) < 2 ^ (Int.log 2 y - 52) := zpow_pos (by norm_num) _
    apply mul_le_mul_of_nonneg_right _ hu.le
    exact_mod_cast pyRound_mono (div_le_div_of_nonneg_right h hu.le)
  · -- a power of two lies between
    have hu : (0 : ℚ) < 2 ^ (Int.log 2 x - 52) := zpow_pos (by norm_num) _
    have hv : (0 : ℚ) < 2 ^ (Int.log 2 y - 52) := zpow_pos (by norm_num) _
    have a1 : x / 2 ^ (Int.log 2 x - 52) ≤ ((2 ^ 53 : ℤ) : ℚ) := by
      rw [div_le_iff₀ hu]
      have := Int.lt_zpow_succ_log_self (b := 2) (by norm_num) x
      push_cast at this ⊢
      rw [zpow_add₀ (by norm_num), zpow_sub52 (Int.log 2 x)] at this
      norm_num at this ⊢
      linarith
    have a2 : ((2 ^ 52 : ℤ) : ℚ) ≤ y / 2 ^ (Int.log 2 y - 52) := by
      rw [le_div_iff₀ hv]
      have := Int.zpow_log_le_self (b := 2) (by norm_num) hy
      push_cast at this ⊢
      rw [zpow_sub52 (Int.log 2 y)] at this
      linarith
    have b1 := pyRound_mono a1
    have b2 := pyRound_mono a2
    rw [pyRound_intCast] at b1 b2
    calc (pyRound (x / 2 ^ (Int.log 2 x - 52)) : ℚ) * 2 ^ (Int.log 2 x - 52)
        ≤ ((2 ^ 53 : ℤ) : ℚ) * 2 ^ (Int.log 2 x - 52) :=
          mul_le_mul_of_nonneg_right (by exact_mod_cast b1) hu.le
      _ = 2 ^ (Int.log 2 x + 1) := by
          rw [zpow_add₀ (by norm_num), zpow_sub52 (Int.log 2 x)]
          norm_num
          ring
      _ ≤ 2 ^ (Int.log 2 y) := zpow_le_zpow_right₀ (by norm_num) (by omega)
      _ = ((2 ^ 52 : ℤ) : ℚ) * 2 ^ (Int.log 2 y - 52) := by
          rw [zpow_sub52 (Int.log 2 y)]
          norm_num
      _ ≤ _ := mul_le_mul_of_nonneg_right (by exact_mod_cast b2) hv.le

theorem fl64_nonneg {x : ℚ} (h : 0 ≤ x) : 0 ≤ fl64 x := by
  have := fl64_mono (le_refl 0) h
  rwa [fl64_zero] at this

/-- The first instant of 1970 plus 2³² seconds: February 2106, in nanoseconds. -/
abbrev Spec.ns2106 : ℤ := 4294967296 * 1000000000

/-- An epoch time carries its instant to within half a microsecond, until 2106. -/
theorem dt642epochF_near (n : ℤ) (h0 : 0 ≤ n) (h1 : n < Spec.ns2106) :
    0 ≤ dt642epochF n ∧ |dt642epochF n * 1000000000 - n| ≤ 494.5 := by
  have h0q : (0 : ℚ) ≤ n := by exact_mod_cast h0
  have h1q : (n : ℚ) < 4294967296 * 1000000000 := by exact_mod_cast h1
  have e1 := fl64_err_lt (n : ℚ) 61 (by rw [abs_of_nonneg h0q]; norm_num; linarith)
  have n1 := fl64_nonneg h0q
  have m1 := fl64_mono h0q h1q.le
  have x1 : fl64 (4294967296 * 1000000000) = 4294967296 * 1000000000 := by
    have := fl64_exact 1000000000 32 (by norm_num)
    norm_num at this ⊢
    exact this
  rw [x1] at m1
  unfold dt642epochF
  have n2 : (0 : ℚ) ≤ fl64 n / 1000000000 := by positivity
  refine ⟨fl64_nonneg n2, ?_⟩
  rcases m1.eq_or_lt with hm | hm
  · rw [hm]
    have x2 : fl64 (4294967296 * 1000000000 / 1000000000) = 4294967296 := by
      have := fl64_natCast 4294967296 (by norm_num)
      norm_num at this ⊢
      exact this
    rw [x2]
    rw [hm] at e1
    norm_num at e1
    linarith
  · have e2 := fl64_err_lt (fl64 n / 1000000000) 31 (by
      rw [abs_of_nonneg n2, div_lt_iff₀ (by norm_num)]; norm_num; linarith)
    set f := fl64 n
    set g := fl64 (f / 1000000000)
    norm_num at e1 e2
    rw [abs_le] at e1 e2 ⊢
    constructor <;> linarith [e1.1, e1.2, e2.1, e2.2]

/-- Back to nanoseconds the code truncates: the result is at most one nanosecond early, and never late by more than
the rounding of the last product. -/
theorem epoch2dt64F_near (t : ℚ) (h0 : 0 ≤ t) :
    t * 1000000000 - 1.000001 < epoch2dt64F t ∧ (epoch2dt64F t : ℚ) ≤ t * 1000000000 + 0.000001 := by
  have f0 := Int.fract_nonneg t
  have f1 := (Int.fract_lt_one t).le
  have e1 := fl64_err (Int.fract t)
  rw [abs_of_nonneg f0] at e1
  have n1 := fl64_nonneg f0
  set f := fl64 (Int.fract t) with hf
  have n2 : (0 : ℚ) ≤ f * 1000000000 := by positivity
  have e2 := fl64_err (f * 1000000000)
  rw [abs_of_nonneg n2] at e2
  have n3 := fl64_nonneg n2
  set y := fl64 (f * 1000000000) with hy
  have hfl := Int.self_sub_floor t
  have p1 : pyInt t = ⌊t⌋ := by unfold pyInt; rw [if_pos h0]
  have p2 : pyInt y = ⌊y⌋ := by unfold pyInt; rw [if_pos n3]
  unfold epoch2dt64F
  rw [p1, ← hf, ← hy, p2]
  push_cast
  have a := Int.floor_le y
  have b := Int.lt_floor_add_one y
  norm_num at e1 e2
  rw [abs_le] at e1 e2
  constructor <;> linarith [e1.1, e1.2, e2.1, e2.2]

/-- **C158.** In double precision a nanosecond time comes back to within half a microsecond. -/
theorem epochF_roundtrip (n : ℤ) (h0 : 0 ≤ n) (h1 : n < Spec.ns2106) :
    |epoch2dt64F (dt642epochF n) - n| ≤ 495 := by
  obtain ⟨a, b⟩ := dt642epochF_near n h0 h1
  obtain ⟨c, d⟩ := epoch2dt64F_near _ a
  have : |((epoch2dt64F (dt642epochF n) - n : ℤ) : ℚ)| < 496 := by
    push_cast
    rw [abs_le] at b
    rw [abs_lt]
    constructor <;> linarith [b.1, b.2]
  have h2 : |epoch2dt64F (dt642epochF n) - n| < 496 := by exact_mod_cast this
  omega

/-- **C158.** Whole seconds come back exactly. -/
theorem epochF_seconds (k : ℤ) (h0 : 0 ≤ k) (h1 : k ≤ 4294967296) :
    dt642epochF (k * 1000000000) = k ∧ epoch2dt64F k = k * 1000000000 ∧
      epoch2dt64F (dt642epochF (k * 1000000000)) = k * 1000000000 := by
  have e1 : fl64 ((k * 1000000000 : ℤ) : ℚ) = k * 1000000000 := by
    have := fl64_exact (k * 1953125) 9 (by rw [abs_of_nonneg (by positivity)]; omega)
    push_cast at this ⊢
    rw [show (k : ℚ) * 1000000000 = k * 1953125 * 2 ^ (9 : ℤ) by norm_num; ring]
    exact this
  have e2 : fl64 (k : ℚ) = k := by
    have := fl64_exact k 0 (by rw [abs_of_nonneg h0]; omega)
    simpa using this
  have a : dt642epochF (k * 1000000000) = k := by
    unfold dt642epochF
    rw [e1, mul_div_cancel_right₀ _ (by norm_num), e2]
  have b : epoch2dt64F k = k * 1000000000 := by
    unfold epoch2dt64F
    rw [Int.fract_intCast, fl64_zero, zero_mul, fl64_zero]
    have p0 : pyInt 0 = 0 := by simp [pyInt]
    have p1 : pyInt (k : ℚ) = k := by unfold pyInt; rw [if_pos (by exact_mod_cast h0), Int.floor_intCast]
    rw [p0, p1, add_zero]
  exact ⟨a, b, by rw [a, b]⟩

/-- Times keep their order. -/
theorem epochF_mono (n n' : ℤ) (h0 : 0 ≤ n) (h : n ≤ n') : dt642epochF n ≤ dt642epochF n' := by
  have h0q : (0 : ℚ) ≤ n := by exact_mod_cast h0
  have a := fl64_mono h0q (by exact_mod_cast h : (n : ℚ) ≤ n')
  unfold dt642epochF
  exact fl64_mono (div_nonneg (fl64_nonneg h0q) (by norm_num)) (div_le_div_of_nonneg_right a (by norm_num))

/-- Refuted: nanoseconds are not kept, and not even tenths of a second. Noon on 1 June 2020 and 0.1 s comes back 96 ns
early. -/
theorem epochF_roundtrip_false :
    ¬ ∀ n : ℤ, 0 ≤ n → n < Spec.ns2106 → epoch2dt64F (dt642epochF n) = n := by
  intro h
  have := h 1591012800100000000 (by norm_num) (by norm_num)
  have e0 : fl64 (((1591012800100000000 : ℤ)) : ℚ) = ((6214893750390625 : ℤ) : ℚ) * 2 ^ (8 : ℤ) := by
    apply fl64_near <;> norm_num [abs_lt, zpow_neg]
  have e1 : fl64 (((6214893750390625 : ℤ) : ℚ) * 2 ^ (8 : ℤ) / 1000000000) = ((6673191351510630 : ℤ) : ℚ) * 2 ^ (-22 : ℤ) := by
    apply fl64_near <;> norm_num [abs_lt, zpow_neg]
  unfold dt642epochF at this
  rw [e0, e1] at this
  have e2 : ((6673191351510630 : ℤ) : ℚ) * 2 ^ (-22 : ℤ) = 1591012800 + 209715 / 2097152 := by norm_num [zpow_neg]
  have b := (epoch2dt64F_near (((6673191351510630 : ℤ) : ℚ) * 2 ^ (-22 : ℤ)) (by norm_num [zpow_neg])).2
  rw [this] at b
  norm_num [zpow_neg] at b

/-- **C158.** Datetimes (whole microseconds) survive the way to datetime64 and back exactly. -/
theorem dateF_roundtrip (d : ℤ) (hv : validDate d) (h0 : usEpoch ≤ d) (h1 : date2dt64 d < Spec.ns2106) :
    dt642dateF (date2dt64 d) = .ok d := by
  obtain ⟨a, b⟩ := dt642epochF_near (date2dt64 d) (by unfold date2dt64; omega) h1
  set t := dt642epochF (date2dt64 d) with ht
  unfold dt642dateF
  rw [← ht]
  have p1 : pyInt t = ⌊t⌋ := by unfold pyInt; rw [if_pos a]
  have f0 := Int.fract_nonneg t
  have f1 := (Int.fract_lt_one t).le
  have hfl := Int.self_sub_floor t
  have e2 := fl64_err (Int.fract t * 1000000)
  rw [abs_of_nonneg (mul_nonneg f0 (by norm_num))] at e2
  have hr : pyRound (fl64 ((t - pyInt t) * 1000000)) = (d - usEpoch) - ⌊t⌋ * 1000000 := by
    rw [p1, hfl]
    apply pyRound_eq_of_lt
    unfold date2dt64 at b
    push_cast at b ⊢
    norm_num at e2
    rw [abs_le] at b e2
    rw [abs_lt]
    constructor <;> linarith [b.1, b.2, e2.1, e2.2]
  have : utcfromtimestampF t = if validDate d then .ok d else .error .valueError := by
    unfold utcfromtimestampF
    simp only
    rw [hr, p1]
    have e : usEpoch + (⌊t⌋ * 1000000 + (d - usEpoch - ⌊t⌋ * 1000000)) = d := by ring
    rw [e]
  rw [this, if_pos hv]

/-- **C158.** Datetimes survive the way to epoch seconds and back exactly. -/
theorem epochF_date_roundtrip (d : ℤ) (hv : validDate d) (h0 : usEpoch ≤ d) (h1 : date2dt64 d < Spec.ns2106) :
    utcfromtimestampF (date2epochF d) = .ok d := by
  have h2 : 0 ≤ d - usEpoch := by omega
  have h3 : d - usEpoch < 4294967296 * 1000000 := by unfold Spec.ns2106 date2dt64 at h1; omega
  obtain ⟨v, hve⟩ : ∃ v, v = d - usEpoch := ⟨_, rfl⟩
  have hd : d = usEpoch + v := by omega
  rw [← hve] at h2 h3
  have hq0 : (0 : ℚ) ≤ (v : ℚ) := by exact_mod_cast h2
  have hq1 : (v : ℚ) < 4294967296 * 1000000 := by exact_mod_cast h3
  have n2 : (0 : ℚ) ≤ (v : ℚ) / 1000000 := by positivity
  have e := fl64_err_lt ((v : ℚ) / 1000000) 31 (by
    rw [abs_of_nonneg n2, div_lt_iff₀ (by norm_num)]; norm_num; linarith)
  have a := fl64_nonneg n2
  unfold date2epochF
  rw [← hve]
  norm_num at e
  set t := fl64 ((v : ℚ) / 1000000) with ht
  have p1 : pyInt t = ⌊t⌋ := by unfold pyInt; rw [if_pos a]
  have f0 := Int.fract_nonneg t
  have f1 := (Int.fract_lt_one t).le
  have hfl := Int.self_sub_floor t
  have e2 := fl64_err (Int.fract t * 1000000)
  rw [abs_of_nonneg (mul_nonneg f0 (by norm_num))] at e2
  have hr : pyRound (fl64 ((t - pyInt t) * 1000000)) = v - ⌊t⌋ * 1000000 := by
    rw [p1, hfl]
    apply pyRound_eq_of_lt
    push_cast
    norm_num at e2
    rw [abs_le] at e e2
    rw [abs_lt]
    constructor <;> linarith [e.1, e.2, e2.1, e2.2]
  have : utcfromtimestampF t = if validDate d then .ok d else .error .valueError := by
    unfold utcfromtimestampF
    simp only
    rw [hr, p1]
    have e : usEpoch + (⌊t⌋ * 1000000 + (v - ⌊t⌋ * 1000000)) = d := by rw [hd]; ring
    rw [e]
  rw [this, if_pos hv]

/-- **C158.** A clock reading, as the readers store it, is off by less than a quarter of a microsecond. -/
theorem clockF_near (d : ℤ) (h0 : usEpoch ≤ d) (h1 : date2dt64 d < Spec.ns2106) :
    |epoch2dt64F (date2epochF d) - date2dt64 d| ≤ 239 := by
  unfold date2dt64 at h1 ⊢
  have h2 : 0 ≤ d - usEpoch := by omega
  have h3 : d - usEpoch < 4294967296 * 1000000 := by unfold Spec.ns2106 at h1; omega
  unfold date2epochF
  generalize d - usEpoch = v at *
  have hq0 : (0 : ℚ) ≤ (v : ℚ) := by exact_mod_cast h2
  have hq1 : (v : ℚ) < 4294967296 * 1000000 := by exact_mod_cast h3
  have n2 : (0 : ℚ) ≤ (v : ℚ) / 1000000 := by positivity
  have e := fl64_err_lt ((v : ℚ) / 1000000) 31 (by
    rw [abs_of_nonneg n2, div_lt_iff₀ (by norm_num)]; norm_num; linarith)
  obtain ⟨a, b⟩ := epoch2dt64F_near (fl64 ((v : ℚ) / 1000000)) (fl64_nonneg n2)
  have : |((epoch2dt64F (fl64 ((v : ℚ) / 1000000)) - v * 1000 : ℤ) : ℚ)| < 240 := by
    push_cast
    norm_num at e
    rw [abs_le] at e
    rw [abs_lt]
    constructor <;> linarith [e.1, e.2]
  have h2 : |epoch2dt64F (fl64 ((v : ℚ) / 1000000)) - v * 1000| < 240 := by exact_mod_cast this
  omega

/-- **C158.** From 2007 to 2037 a second round trip changes nothing more: repeated conversion does not let times
drift. -/
theorem epochF_no_drift (n : ℤ) (h0 : 1167609600 * 1000000000 ≤ n) (h1 : n < 2145916800 * 1000000000) :
    epoch2dt64F (dt642epochF (epoch2dt64F (dt642epochF n))) = epoch2dt64F (dt642epochF n) := by
  have h0q : (1167609600 * 1000000000 : ℚ) ≤ n := by exact_mod_cast h0
  have h1q : (n : ℚ) < 2145916800 * 1000000000 := by exact_mod_cast h1
  obtain ⟨j, hj⟩ : ∃ j : ℤ, fl64 (n : ℚ) = j * 2 ^ (8 : ℤ) := by
    have hlog : Int.log 2 |(n : ℚ)| = 60 := by
      rw [abs_of_nonneg (by linarith)]
      have hn0 : (0 : ℚ) < n := by linarith
      apply le_antisymm
      · have := (Int.lt_zpow_iff_log_lt (b := 2) (by norm_num) hn0 (x := 61)).mp (by norm_num; linarith)
        omega
      · exact (Int.zpow_le_iff_le_log (b := 2) (by norm_num) hn0).mp (by norm_num; linarith)
    refine ⟨pyRound ((n : ℚ) / 2 ^ (8 : ℤ)), ?_⟩
    unfold fl64
    simp only
    rw [hlog]
    norm_num
  have e1 := fl64_err_lt (n : ℚ) 60 (by rw [abs_of_nonneg (by linarith)]; norm_num; linarith)
  rw [hj] at e1
  norm_num at e1
  rw [abs_le] at e1
  have n2 : (0 : ℚ) ≤ (j * 2 ^ (8 : ℤ)) / 1000000000 := by norm_num; linarith [e1.1]
  have e2 := fl64_err_lt ((j * 2 ^ (8 : ℤ)) / 1000000000) 30 (by
    rw [abs_of_nonneg n2, div_lt_iff₀ (by norm_num)]; norm_num; linarith [e1.2])
  have ht : dt642epochF n = fl64 ((j * 2 ^ (8 : ℤ)) / 1000000000) := by unfold dt642epochF; rw [hj]
  have t0 : 0 ≤ dt642epochF n := by rw [ht]; exact fl64_nonneg n2
  obtain ⟨b1, b2⟩ := epoch2dt64F_near _ t0
  set a := epoch2dt64F (dt642epochF n) with ha
  rw [ht] at b1 b2
  set t := fl64 ((j * 2 ^ (8 : ℤ)) / 1000000000) with hte
  norm_num at e2
  rw [abs_le] at e2
  have hfa : fl64 (a : ℚ) = j * 2 ^ (8 : ℤ) := by
    apply fl64_near
    · norm_num; linarith [e1.1, e2.1]
    · norm_num; linarith [e1.2, e2.2]
    · rw [abs_lt]; norm_num; constructor <;> linarith [e2.1, e2.2]
  have : dt642epochF a = dt642epochF n := by unfold dt642epochF; rw [hfa, hj]
  rw [this]

/-- A MATLAB datenum carries its instant to within 11 microseconds. -/
theorem date2matlabF_near (T : ℤ) (h0 : usDay ≤ T) (h1 : T + 366 * usDay < 1048575 * usDay) :
    ∃ dn, date2matlabF T = .ok dn ∧ |dn * 86400000000 - ((T + 366 * usDay : ℤ) : ℚ)| ≤ 10.06 := by
  have hv : validDate (T + 366 * usDay) := ⟨by omega, by omega⟩
  unfold date2matlabF
  simp only
  rw [if_pos hv]
  refine ⟨_, rfl, ?_⟩
  unfold usDay at h0 h1 ⊢
  clear hv
  set D := (T + 366 * 86400000000) / 86400000000 with hD
  set S := (T % 86400000000) / 1000000 with hS
  set U := T % 1000000 with hU
  have hT : T + 366 * 86400000000 = D * 86400000000 + S * 1000000 + U := by omega
  have hD0 : 1 ≤ D := by omega
  have hD1 : D ≤ 1048574 := by omega
  have hS0 : 0 ≤ S := by omega
  have hS1 : S ≤ 86399 := by omega
  have hU0 : 0 ≤ U := by omega
  have hU1 : U ≤ 999999 := by omega
  rw [hT]
  clear_value D S U
  clear hT h0 h1
  have qD0 : (1 : ℚ) ≤ D := by exact_mod_cast hD0
  have qD1 : (D : ℚ) ≤ 1048574 := by exact_mod_cast hD1
  have qS0 : (0 : ℚ) ≤ S := by exact_mod_cast hS0
  have qS1 : (S : ℚ) ≤ 86399 := by exact_mod_cast hS1
  have qU0 : (0 : ℚ) ≤ U := by exact_mod_cast hU0
  have qU1 : (U : ℚ) ≤ 999999 := by exact_mod_cast hU1
  have e1 := fl64_err_lt ((S : ℚ) / 86400) (-1) (by rw [abs_of_nonneg (by positivity)]; norm_num; linarith)
  have e2 := fl64_err_lt ((U : ℚ) / 86400000000) (-1) (by rw [abs_of_nonneg (by positivity)]; norm_num; linarith)
  norm_num at e1 e2
  set a := fl64 ((S : ℚ) / 86400)
  set b := fl64 ((U : ℚ) / 86400000000)
  rw [abs_le] at e1 e2
  have e3 := fl64_err_lt ((D : ℚ) + a) 19 (by rw [abs_lt]; norm_num; constructor <;> linarith [e1.1, e1.2])
  norm_num at e3
  set c := fl64 ((D : ℚ) + a)
  rw [abs_le] at e3
  have e4 := fl64_err_lt (c + b) 19 (by
    rw [abs_lt]; norm_num; constructor <;> linarith [e1.1, e1.2, e2.1, e2.2, e3.1, e3.2])
  norm_num at e4
  set g := fl64 (c + b)
  rw [abs_le] at e4 ⊢
  push_cast
  constructor <;> linarith [e1.1, e1.2, e2.1, e2.2, e3.1, e3.2, e4.1, e4.2]

/-- **C158.** Datetimes to the tenth of a millisecond survive the way to MATLAB datenums and back exactly, in double
precision too. -/
theorem matlabF_roundtrip (T : ℤ) (h0 : 2 * usDay ≤ T) (h1 : T + 366 * usDay < 1048575 * usDay) (hm : T % 100 = 0) :
    ∃ dn, date2matlabF T = .ok dn ∧ matlab2dateF dn = .ok T := by
  obtain ⟨dn, h2, h3⟩ := date2matlabF_near T (by omega) h1
  refine ⟨dn, h2, ?_⟩
  have q0 : (2 * 86400000000 : ℚ) ≤ T := by exact_mod_cast h0
  have q1 : (T : ℚ) + 366 * 86400000000 < 1048575 * 86400000000 := by exact_mod_cast h1
  push_cast at h3
  rw [abs_le] at h3
  have n0 : 0 ≤ dn := by linarith [h3.1]
  have p1 : pyInt dn = ⌊dn⌋ := by unfold pyInt; rw [if_pos n0]
  have d1 : 1 ≤ ⌊dn⌋ := by rw [Int.le_floor]; push_cast; linarith [h3.1]
  have d2 : ⌊dn⌋ < 1048577 := by rw [Int.floor_lt]; push_cast; linarith [h3.2]
  have f0 := Int.fract_nonneg dn
  have f1 := Int.fract_lt_one dn
  have hfl := Int.self_sub_floor dn
  have e1 := fl64_err (Int.fract dn)
  have m0 := fl64_nonneg f0
  rw [abs_of_nonneg f0] at e1
  set f := Int.fract dn with hf
  norm_num at e1
  set g := fl64 f with hg
  rw [abs_le] at e1
  have e2 := fl64_err_lt (g * 86400000000) 36 (by
    rw [abs_of_nonneg (by positivity)]; norm_num; linarith [e1.2])
  norm_num at e2
  set p := fl64 (g * 86400000000) with hp
  rw [abs_le] at e2
  have e3 := pyRound_spec p
  rw [abs_le] at e3
  set P := pyRound p with hP
  obtain ⟨t, ht⟩ : ∃ t : ℤ, t = ⌊dn⌋ * usDay + (P - 366 * usDay) := ⟨_, rfl⟩
  have ht2 : |((t - T : ℤ) : ℚ)| < 11 := by
    rw [ht]
    push_cast
    rw [abs_lt]
    constructor <;> linarith [h3.1, h3.2, e1.1, e1.2, e2.1, e2.2, e3.1, e3.2]
  have ht3 : |t - T| < 11 := by exact_mod_cast ht2
  rw [abs_lt] at ht3
  have hus : pyRound (fl64 (((t % 1000000 : ℤ) : ℚ) / 100)) * 100 = t % 1000000 - (t - T) := by
    have r0 : 0 ≤ t % 1000000 := by omega
    have r1 : t % 1000000 < 1000000 := by omega
    obtain ⟨k, hk⟩ : ∃ k : ℤ, t % 1000000 - (t - T) = k * 100 := ⟨(t % 1000000 - (t - T)) / 100, by omega⟩
    rw [hk]
    congr 1
    apply pyRound_eq_of_lt
    have hd : |((t % 1000000 : ℤ) : ℚ) - k * 100| < 11 := by
      have : |t % 1000000 - k * 100| < 11 := by rw [abs_lt]; constructor <;> omega
      exact_mod_cast this
    have s0 : (0 : ℚ) ≤ ((t % 1000000 : ℤ) : ℚ) := by exact_mod_cast r0
    have s1 : ((t % 1000000 : ℤ) : ℚ) < 1000000 := by exact_mod_cast r1
    generalize ((t % 1000000 : ℤ) : ℚ) = m at *
    have e := fl64_err_lt (m / 100) 13 (by rw [abs_of_nonneg (by positivity)]; norm_num; linarith)
    norm_num at e
    rw [abs_le] at e
    rw [abs_lt] at hd ⊢
    constructor <;> linarith [hd.1, hd.2, e.1, e.2]
  unfold matlab2dateF
  simp only
  rw [p1, ← hf, ← hg, show ((usDay : ℤ) : ℚ) = 86400000000 by norm_num, ← hp, ← hP, ← ht, if_neg (by omega),
    if_pos (show validDate t from ⟨by omega, by omega⟩), hus]
  have : t + (t % 1000000 - (t - T) - t % 1000000) = T := by ring
  rw [this, if_pos (show validDate T from ⟨by omega, by omega⟩)]

/-- **C158.** Datenums outside the calendar raise: `ValueError` where the whole days are no date (below 1, above 3652059),
`OverflowError` in the year 0 of MATLAB. -/
theorem matlab2dateF_outside (dn : ℚ) :
    ((dn < 1 ∨ 3652060 ≤ dn) → matlab2dateF dn = .error .valueError) ∧
    (1 ≤ dn → dn < 366 → matlab2dateF dn = .error .overflowError) := by
  constructor
  · intro h
    unfold matlab2dateF
    simp only
    rw [if_pos]
    unfold pyInt
    rcases h with h | h
    · left
      split
      · rw [Int.floor_lt]; push_cast; exact h
      · rename_i h0
        have : ⌈dn⌉ ≤ 0 := Int.ceil_le.mpr (by push_cast; linarith)
        omega
    · right
      rw [if_pos (by linarith)]
      have : (3652060 : ℤ) ≤ ⌊dn⌋ := Int.le_floor.mpr (by push_cast; exact h)
      omega
  · intro h1 h2
    have p1 : pyInt dn = ⌊dn⌋ := by unfold pyInt; rw [if_pos (by linarith)]
    have d1 : 1 ≤ ⌊dn⌋ := by rw [Int.le_floor]; push_cast; exact h1
    have d2 : ⌊dn⌋ < 366 := by rw [Int.floor_lt]; push_cast; exact h2
    have f0 := Int.fract_nonneg dn
    have f1 := Int.fract_lt_one dn
    have e1 := fl64_err (Int.fract dn)
    rw [abs_of_nonneg f0] at e1
    have m0 := fl64_nonneg f0
    set f := Int.fract dn with hf
    norm_num at e1
    rw [abs_le] at e1
    have e2 := fl64_err_lt (fl64 f * 86400000000) 36 (by
      rw [abs_of_nonneg (by positivity)]; norm_num; linarith [e1.2])
    norm_num at e2
    rw [abs_le] at e2
    have e3 := pyRound_spec (fl64 (fl64 f * 86400000000))
    rw [abs_le] at e3
    have hP : (pyRound (fl64 (fl64 f * 86400000000)) : ℚ) < 86400000002 := by linarith [e1.2, e2.2, e3.1]
    have hP' : pyRound (fl64 (fl64 f * 86400000000)) < 86400000002 := by exact_mod_cast hP
    unfold matlab2dateF
    simp only
    rw [p1, ← hf, show ((usDay : ℤ) : ℚ) = 86400000000 by norm_num, if_neg (by omega), if_neg]
    rintro ⟨h, -⟩
    simp only [show (usDay : ℤ) = 86400000000 by norm_num] at h
    omega

example : (1 : ℚ) ≤ 365.5 ∧ (365.5 : ℚ) < 366 ∧ ((0.5 : ℚ) < 1 ∨ (3652060 : ℚ) ≤ 0.5) := by norm_num

/-- Noon on 1 June 2020, and 0.1 s. -/
example : ∃ T : ℤ, T = usEpoch + 1591012800100000 ∧ 2 * usDay ≤ T ∧ T + 366 * usDay < 1048575 * usDay ∧ T % 100 = 0 ∧
    usEpoch ≤ T ∧ date2dt64 T < Spec.ns2106 ∧ validDate T := ⟨_, rfl, by decide, by decide, by decide, by decide, by decide, by decide⟩

example : (1167609600 * 1000000000 : ℤ) ≤ 1591012800100000000 ∧ (1591012800100000000 : ℤ) < 2145916800 * 1000000000 := by
  decide

end Dolfyn
