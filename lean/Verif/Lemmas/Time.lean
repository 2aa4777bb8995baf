import Verif.Model.Time
import Mathlib.Tactic.Linarith
import Mathlib.Tactic.Ring
import Mathlib.Tactic.FieldSimp
import Mathlib.Tactic.NormNum
import Mathlib.Tactic.Push

/-! Helper lemmas for `Props/Time.lean`. -/

namespace Dolfyn

theorem pyInt_intCast (n : ℤ) : pyInt (n : ℚ) = n := by
  unfold pyInt; split <;> simp

theorem pyInt_nonneg {q : ℚ} (h : 0 ≤ q) : pyInt q = ⌊q⌋ := by simp [pyInt, h]

theorem pyRound_intCast (n : ℤ) : pyRound (n : ℚ) = n := by
  simp [pyRound]

theorem floor_ns (n : ℤ) : ⌊(n : ℚ) / 1000000000⌋ = n / 1000000000 := by
  rw [Int.floor_eq_iff]
  have h1 := Int.emod_add_mul_ediv n 1000000000
  have h2 := Int.emod_nonneg n (b := 1000000000) (by norm_num)
  have h3 := Int.emod_lt_of_pos n (b := 1000000000) (by norm_num)
  generalize n / 1000000000 = d at *
  generalize n % 1000000000 = r at *
  subst h1
  push_cast
  constructor
  · rw [le_div_iff₀ (by norm_num)]
    have : (0 : ℚ) ≤ r := by exact_mod_cast h2
    linarith
  · rw [div_lt_iff₀ (by norm_num)]
    have : (r : ℚ) < 1000000000 := by exact_mod_cast h3
    linarith

theorem fract_ns (n : ℤ) :
    Int.fract ((n : ℚ) / 1000000000) * 1000000000 = ((n % 1000000000 : ℤ) : ℚ) := by
  rw [Int.fract, floor_ns]
  have h1 := Int.emod_add_mul_ediv n 1000000000
  have h2 : (n : ℚ) = ((n % 1000000000 : ℤ) : ℚ) + 1000000000 * ((n / 1000000000 : ℤ) : ℚ) := by
    exact_mod_cast h1.symm
  rw [sub_mul, div_mul_cancel₀ _ (by norm_num)]
  linarith

theorem pyRound_spec (q : ℚ) : |q - pyRound q| ≤ 1 / 2 := by
  unfold pyRound
  have h1 := Int.floor_le q
  have h2 := Int.lt_floor_add_one q
  rw [abs_le]
  simp only
  split_ifs <;> push_cast <;> constructor <;> linarith

theorem pyRound_add_even (q : ℚ) (k : ℤ) : pyRound (q + (2 * k : ℤ)) = pyRound q + 2 * k := by
  unfold pyRound
  simp only [Int.floor_add_intCast]
  have h1 : q + ((2 * k : ℤ) : ℚ) - ((⌊q⌋ + 2 * k : ℤ) : ℚ) = q - ⌊q⌋ := by push_cast; ring
  have h2 : (⌊q⌋ + 2 * k) % 2 = ⌊q⌋ % 2 := by omega
  rw [h1, h2]
  split_ifs <;> ring

end Dolfyn
