import Verif.Model.Single
import Verif.Props.TimeF

/-!
C162: single precision keeps every recorded step.
-/

namespace Dolfyn

/-- Relative errors add up. -/
theorem rel_trans {x y z δ ε : ℚ} (h1 : |y - x| ≤ δ * |x|) (h2 : |z - y| ≤ ε * |y|) (hε : 0 ≤ ε) :
    |z - x| ≤ (δ + ε + δ * ε) * |x| := by
  have h3 : |y| ≤ (1 + δ) * |x| := by
    have := abs_sub_abs_le_abs_sub y x
    linarith
  have h4 : |z - x| ≤ |z - y| + |y - x| := abs_sub_le z y x
  have h5 := mul_le_mul_of_nonneg_left h3 hε
  linarith

theorem rel64 (x : ℚ) : |fl64 x - x| ≤ (1 / 2 ^ 53) * |x| := by
  have := fl64_err x
  linarith

theorem rel32 (x : ℚ) : |fl32 x - x| ≤ (1 / 2 ^ 24) * |x| := by
  have := fl32_err x
  linarith

theorem rel_mul {x y δ : ℚ} (c : ℚ) (h : |y - x| ≤ δ * |x|) : |c * y - c * x| ≤ δ * |c * x| := by
  rw [← mul_sub, abs_mul, abs_mul]
  have := mul_le_mul_of_nonneg_left h (abs_nonneg c)
  linarith

/-- **C162.** What is stored is the recorded value to within a relative error of barely more than 2⁻²⁴. -/
theorem storeLin_near (s : ℚ) (o n : ℤ) :
    |storeLin s o n - ((n : ℚ) + o) * s| ≤ (1 / 2 ^ 24 + 1 / 2 ^ 51) * |((n : ℚ) + o) * s| := by
  unfold storeLin
  have h1 := rel_mul ((n + o : ℤ) : ℚ) (rel64 s)
  have h2 := rel_trans h1 (rel64 _) (by norm_num)
  have h3 := rel_trans h2 (rel32 _) (by norm_num)
  push_cast at h3 ⊢
  refine h3.trans (mul_le_mul_of_nonneg_right (by norm_num) (abs_nonneg _))

theorem storeQuot_near (d : ℕ) (n : ℤ) :
    |storeQuot d n - (n : ℚ) / d| ≤ (1 / 2 ^ 24 + 1 / 2 ^ 51) * |(n : ℚ) / d| := by
  unfold storeQuot
  have h3 := rel_trans (rel64 ((n : ℚ) / d)) (rel32 _) (by norm_num)
  exact h3.trans (mul_le_mul_of_nonneg_right (by norm_num) (abs_nonneg _))

/-- A value known to a relative error of 2⁻²³ determines the step it was recorded as, up to 2²² steps. -/
theorem step_of_rel {s v δ : ℚ} {n : ℤ} {b : ℕ} (hs : 0 < s) (h : |v - n * s| ≤ δ * |n * s|) (hn : |n| ≤ b)
    (hδ : 0 ≤ δ) (hb : δ * b < 1 / 2) : |v / s - n| < 1 / 2 := by
  have e : v / s - n = (v - n * s) / s := by field_simp
  rw [e, abs_div, abs_of_pos hs, div_lt_iff₀ hs]
  have hq : |(n : ℚ)| ≤ b := by exact_mod_cast hn
  rw [abs_mul, abs_of_pos hs] at h
  calc |v - n * s| ≤ δ * (|(n : ℚ)| * s) := h
    _ ≤ δ * (b * s) := by
        apply mul_le_mul_of_nonneg_left _ hδ
        exact mul_le_mul_of_nonneg_right hq hs.le
    _ = (δ * b) * s := by ring
    _ < 1 / 2 * s := mul_lt_mul_of_pos_right hb hs

/-- **C162.** The recorded integer can be read off the stored number: the nearest multiple of the scale. This holds for
every scale and up to 2²² steps (in particular for everything recorded with 16 bits). -/
theorem storeLin_recovers (s : ℚ) (hs : 0 < s) (o n : ℤ) (hn : |n + o| ≤ 2 ^ 22) :
    pyRound (storeLin s o n / s) = n + o := by
  apply pyRound_eq_of_lt
  have h := storeLin_near s o n
  apply step_of_rel (δ := 1 / 2 ^ 24 + 1 / 2 ^ 51) (b := 2 ^ 22) hs _ (by exact_mod_cast hn) (by norm_num) (by norm_num)
  push_cast
  exact h

/-- The stored number is not the recorded one: 1.234 m/s is stored 4.8e-8 m/s too large, and is recognised all the same. -/
example : storeLin (1 / 1000) 0 1234 ≠ 1234 / 1000 ∧ pyRound (storeLin (1 / 1000) 0 1234 / (1 / 1000)) = 1234 ∧
    pyRound (storeLin (2 / 10) (-20) 235 / (2 / 10)) = 235 + -20 :=
  ⟨by decide +kernel, storeLin_recovers (1 / 1000) (by norm_num) 0 1234 (by norm_num),
    storeLin_recovers (2 / 10) (by norm_num) (-20) 235 (by norm_num)⟩

/-- **C162.** The order of the recorded values is kept, strictly. -/
theorem storeLin_lt (s : ℚ) (hs : 0 < s) (o n n' : ℤ) (hn : |n + o| ≤ 2 ^ 22) (hn' : |n' + o| ≤ 2 ^ 22) (h : n < n') :
    storeLin s o n < storeLin s o n' := by
  have a := step_of_rel (δ := 1 / 2 ^ 24 + 1 / 2 ^ 51) (n := n + o) (v := storeLin s o n) (b := 2 ^ 22) hs
    (by have := storeLin_near s o n; push_cast; exact this) (by exact_mod_cast hn) (by norm_num) (by norm_num)
  have b := step_of_rel (δ := 1 / 2 ^ 24 + 1 / 2 ^ 51) (n := n' + o) (v := storeLin s o n') (b := 2 ^ 22) hs
    (by have := storeLin_near s o n'; push_cast; exact this) (by exact_mod_cast hn') (by norm_num) (by norm_num)
  have hle : ((n + o : ℤ) : ℚ) + 1 ≤ ((n' + o : ℤ) : ℚ) := by exact_mod_cast (by omega : n + o + 1 ≤ n' + o)
  rw [abs_lt] at a b
  have : storeLin s o n / s < storeLin s o n' / s := by linarith [a.2, b.1]
  exact (div_lt_div_iff_of_pos_right hs).mp this

/-- **C162.** Pressures and altimeter ranges of TRDI files, recorded with 32 bits, up to 2²² steps (4194 dbar). -/
theorem storeQuot_recovers (d : ℕ) (hd : 0 < d) (n : ℤ) (hn : |n| ≤ 2 ^ 22) : pyRound (storeQuot d n * d) = n := by
  have hdq : (0 : ℚ) < d := by exact_mod_cast hd
  have h := storeQuot_near d n
  have := step_of_rel (δ := 1 / 2 ^ 24 + 1 / 2 ^ 51) (n := n) (s := 1 / d) (v := storeQuot d n) (b := 2 ^ 22)
    (by positivity) (by rw [mul_one_div]; exact h) (by exact_mod_cast hn) (by norm_num) (by norm_num)
  apply pyRound_eq_of_lt
  rw [div_div_eq_mul_div, div_one] at this
  exact this

/-- An integer of at most 24 binary digits is a float32. -/
theorem fl32_int (n : ℤ) (h : |n| < 2 ^ 24) : fl32 n = n := by
  rcases eq_or_ne n 0 with rfl | h0
  · simp [fl32_zero]
  unfold fl32
  simp only
  have hpos : (0 : ℚ) < |(n : ℚ)| := abs_pos.mpr (by exact_mod_cast h0)
  have hlt : |(n : ℚ)| < ((2 : ℕ) : ℚ) ^ (24 : ℤ) := by
    have : |(n : ℚ)| < 2 ^ (24 : ℕ) := by exact_mod_cast h
    rw [show ((2 : ℕ) : ℚ) ^ (24 : ℤ) = 2 ^ (24 : ℕ) by norm_cast]
    exact this
  have hlog : Int.log 2 |(n : ℚ)| < 24 := (Int.lt_zpow_iff_log_lt (b := 2) (by norm_num) hpos).mp hlt
  obtain ⟨d, hd⟩ : ∃ d : ℕ, Int.log 2 |(n : ℚ)| - 23 = -(d : ℤ) := ⟨(23 - Int.log 2 |(n : ℚ)|).toNat, by omega⟩
  rw [hd, zpow_neg, zpow_natCast, div_inv_eq_mul]
  rw [show (n : ℚ) * 2 ^ d = ((n * 2 ^ d : ℤ) : ℚ) by push_cast; ring, pyRound_intCast]
  push_cast
  field_simp

/-- **C162.** Velocities of Vector and Vectrino, in both resolutions. -/
theorem nkVelSingle_recovers (fine : Bool) (n : ℤ) (hn : |n| ≤ 2 ^ 20) :
    pyRound (nkVelSingle fine n * (if fine then 10000 else 1000)) = n := by
  unfold nkVelSingle scaleSingle
  rw [fl32_int n (by omega)]
  have h1 := rel_mul (n : ℚ) (rel32 (1 / 1000))
  have h2 := rel_trans h1 (rel32 _) (by norm_num)
  set y := fl32 ((n : ℚ) * fl32 (1 / 1000)) with hy
  set c : ℚ := if fine then 1 / 10 else 1 with hc
  have h3 := rel_mul c h2
  have h4 := rel_mul y (rel32 c)
  rw [mul_comm y c] at h4
  have h5 := rel_trans h3 h4 (by norm_num)
  have h6 := rel_trans h5 (rel32 _) (by norm_num)
  have hs : (0 : ℚ) < c * (1 / 1000) := by rw [hc]; split <;> norm_num
  have := step_of_rel (δ := 1 / 2 ^ 22 + 1 / 2 ^ 40) (n := n) (s := c * (1 / 1000)) (b := 2 ^ 20) hs
    (by
      rw [show c * ((n : ℚ) * (1 / 1000)) = n * (c * (1 / 1000)) by ring] at h6
      exact h6.trans (mul_le_mul_of_nonneg_right (by norm_num) (abs_nonneg _)))
    (by exact_mod_cast hn) (by norm_num) (by norm_num)
  apply pyRound_eq_of_lt
  have e : (if fine = true then (10000 : ℚ) else 1000) = (c * (1 / 1000))⁻¹ := by
    rw [hc]; split <;> norm_num
  rw [e, ← div_eq_mul_inv]
  exact this

example : pyRound (nkVelSingle true (-12345) * 10000) = -12345 ∧ nkVelSingle true (-12345) ≠ -12345 / 10000 :=
  ⟨by simpa using nkVelSingle_recovers true (-12345) (by norm_num), by decide +kernel⟩

/-- **C162.** All other 16-bit values of Nortek files (temperature, heading, battery, ...): one factor. -/
theorem scaleSingle_recovers (s : ℚ) (hs : 0 < s) (n : ℤ) (hn : |n| ≤ 2 ^ 21) : pyRound (scaleSingle s (fl32 n) / s) = n := by
  unfold scaleSingle
  rw [fl32_int n (by omega)]
  have h2 := rel_trans (rel_mul (n : ℚ) (rel32 s)) (rel32 _) (by norm_num)
  apply pyRound_eq_of_lt
  exact step_of_rel (δ := 1 / 2 ^ 23 + 1 / 2 ^ 40) (b := 2 ^ 21) hs
    (h2.trans (mul_le_mul_of_nonneg_right (by norm_num) (abs_nonneg _))) (by exact_mod_cast hn) (by norm_num) (by norm_num)

/-- **C162.** The pressure of a Vector, up to 8388 dbar. -/
theorem nkPressure_recovers (msb lsw : ℕ) (h1 : msb < 128) (h2 : lsw < 65536) :
    pyRound (nkPressureSingle msb lsw * 1000) = (65536 * msb + lsw : ℕ) := by
  unfold nkPressureSingle
  have e1 : fl32 (msb : ℚ) = msb := by exact_mod_cast fl32_int msb (by rw [abs_of_nonneg (by positivity)]; omega)
  have e2 : fl32 (lsw : ℚ) = lsw := by exact_mod_cast fl32_int lsw (by rw [abs_of_nonneg (by positivity)]; omega)
  have e3 : fl32 ((msb : ℚ) * 65536) = (msb : ℚ) * 65536 := by
    exact_mod_cast fl32_int (msb * 65536) (by rw [abs_of_nonneg (by positivity)]; omega)
  have e4 : fl32 ((msb : ℚ) * 65536 + lsw) = ((65536 * msb + lsw : ℕ) : ℚ) := by
    have := fl32_int (msb * 65536 + lsw) (by rw [abs_of_nonneg (by positivity)]; omega)
    push_cast at this ⊢
    rw [this]; ring
  rw [e1, e2, e3, e4]
  set n : ℕ := 65536 * msb + lsw with hn
  have h := rel32 ((n : ℚ) / 1000)
  apply pyRound_eq_of_lt
  have := step_of_rel (δ := 1 / 2 ^ 24) (n := (n : ℤ)) (s := 1 / 1000) (v := fl32 ((n : ℚ) / 1000)) (b := 2 ^ 23 - 1)
    (by norm_num) (by rw [mul_one_div, Int.cast_natCast]; exact h) (by rw [abs_of_nonneg (by positivity)]; omega) (by norm_num)
    (by norm_num)
  rw [div_div_eq_mul_div, div_one] at this
  exact this

/-- **C162.** Although velocities are compared as floating point numbers, exactly those recorded as bad (-32768) become
missing, and all others can be read off the stored number. -/
theorem rdVelSingle_spec (n : ℤ) (h1 : -32768 ≤ n) (h2 : n ≤ 32767) :
    (rdVelSingle n = none ↔ n = -32768) ∧ ∀ v, rdVelSingle n = some v → pyRound (v * 1000) = n := by
  have hb : storeLin (1 / 1000) 0 (-32768) = fl32 (fl64 (-32768 / 1000)) := by decide +kernel
  have hr := storeLin_recovers (1 / 1000) (by norm_num) 0 n (by rw [abs_le]; omega)
  have hr0 := storeLin_recovers (1 / 1000) (by norm_num) 0 (-32768) (by norm_num)
  unfold rdVelSingle
  simp only
  constructor
  · constructor
    · intro h
      by_cases hc : storeLin (1 / 1000) 0 n = fl32 (fl64 (-32768 / 1000))
      · rw [hc, ← hb, hr0] at hr
        omega
      · rw [if_neg hc] at h
        exact absurd h (by simp)
    · rintro rfl
      rw [if_pos hb]
  · intro v h
    split at h
    · exact absurd h (by simp)
    · replace h := Option.some.inj h
      rw [div_div_eq_mul_div, div_one, h, add_zero] at hr
      exact hr

/-- **C162.** Bottom ranges with their third byte, up to 2²⁰ cm (10 km). -/
theorem rdBottom_recovers (n msb : ℕ) (h : n + 65536 * msb ≤ 2 ^ 20) :
    pyRound (rdBottomSingle n msb * 100) = (n + 65536 * msb : ℕ) := by
  unfold rdBottomSingle
  have a := storeLin_near (1 / 100) 0 n
  have b := rel_trans (rel_mul (msb : ℚ) (rel64 (65536 / 100))) (rel64 _) (by norm_num)
  simp only [Int.cast_natCast, Int.cast_zero, add_zero] at a
  set x := storeLin (1 / 100) 0 (n : ℤ)
  set y := fl64 ((msb : ℚ) * fl64 (65536 / 100))
  have hx0 : |(n : ℚ) * (1 / 100)| = n * (1 / 100) := abs_of_nonneg (by positivity)
  have hy0 : |(msb : ℚ) * (65536 / 100)| = msb * (65536 / 100) := abs_of_nonneg (by positivity)
  rw [hx0] at a
  rw [hy0] at b
  have hz : |((n + 65536 * msb : ℕ) : ℚ) * (1 / 100)| = n * (1 / 100) + msb * (65536 / 100) := by
    rw [abs_of_nonneg (by positivity)]; push_cast; ring
  have c : |(x + y) - ((n + 65536 * msb : ℕ) : ℚ) * (1 / 100)| ≤
      (1 / 2 ^ 24 + 1 / 2 ^ 51) * |((n + 65536 * msb : ℕ) : ℚ) * (1 / 100)| := by
    rw [hz]
    have e : (x + y) - ((n + 65536 * msb : ℕ) : ℚ) * (1 / 100) =
        (x - (n : ℚ) * (1 / 100)) + (y - (msb : ℚ) * (65536 / 100)) := by push_cast; ring
    rw [e]
    refine (abs_add_le _ _).trans ?_
    have hm : (0 : ℚ) ≤ (msb : ℚ) * (65536 / 100) := by positivity
    have : (1 / 2 ^ 53 + 1 / 2 ^ 53 + 1 / 2 ^ 53 * (1 / 2 ^ 53)) * ((msb : ℚ) * (65536 / 100)) ≤
        (1 / 2 ^ 24 + 1 / 2 ^ 51) * ((msb : ℚ) * (65536 / 100)) :=
      mul_le_mul_of_nonneg_right (by norm_num) hm
    linarith
  have d := rel_trans (rel_trans c (rel64 _) (by norm_num)) (rel32 _) (by norm_num)
  apply pyRound_eq_of_lt
  have := step_of_rel (δ := 1 / 2 ^ 23 + 1 / 2 ^ 40) (n := ((n + 65536 * msb : ℕ) : ℤ)) (s := 1 / 100) (b := 2 ^ 20)
    (by norm_num)
    (by
      rw [Int.cast_natCast]
      exact d.trans (mul_le_mul_of_nonneg_right (by norm_num) (abs_nonneg _)))
    (by rw [abs_of_nonneg (by positivity)]; exact_mod_cast h) (by norm_num) (by norm_num)
  rw [div_div_eq_mul_div, div_one] at this
  exact this

/-- A velocity of -32.767 m/s is kept, -32.768 m/s is missing. -/
example : rdVelSingle (-32768) = none ∧ rdVelSingle (-32767) ≠ none ∧
    pyRound (rdBottomSingle 40000 2 * 100) = 171072 ∧ pyRound (nkPressureSingle 100 4711 * 1000) = 6558311 ∧
    pyRound (storeQuot 1000 4194303 * 1000) = 4194303 :=
  ⟨(rdVelSingle_spec (-32768) (by norm_num) (by norm_num)).1.mpr rfl,
    fun h => absurd ((rdVelSingle_spec (-32767) (by norm_num) (by norm_num)).1.mp h) (by norm_num),
    by simpa using rdBottom_recovers 40000 2 (by norm_num), by simpa using nkPressure_recovers 100 4711 (by norm_num) (by norm_num),
    by simpa using storeQuot_recovers 1000 (by norm_num) 4194303 (by norm_num)⟩

/-- Refuted for everything that is recorded with 32 bits: two pressures a millibar apart become one number. -/
theorem single_steps_false : ¬ ∀ n n' : ℤ, 0 ≤ n → n < n' → n' < 2 ^ 32 →
    storeLin (1 / 1000) 0 n ≠ storeLin (1 / 1000) 0 n' := by
  intro h
  have : storeLin (1 / 1000) 0 16777216 = storeLin (1 / 1000) 0 16777217 := by decide +kernel
  exact h 16777216 16777217 (by norm_num) (by norm_num) (by norm_num) this

end Dolfyn
