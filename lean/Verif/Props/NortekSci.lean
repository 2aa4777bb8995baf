import Verif.Model.NortekSci
import Verif.Props.Dissip
import Mathlib.Data.Matrix.Mul
import Mathlib.LinearAlgebra.Matrix.Determinant.Basic
import Mathlib.LinearAlgebra.Matrix.Notation
import Mathlib.Tactic.Linarith
import Mathlib.Tactic.FieldSimp

/-!
Properties of the Vector's sample times, orientation bit, IMU axes and pressure (C83, C84, C85, C86).
-/

namespace Dolfyn

open Matrix

/-! ### C83: IMU axes -/

/-- Rotation from the IMU's axes to the instrument's: `(x, y, z)_adv = (-z, y, x)_ms`. -/
def Spec.msToAdv : Matrix (Fin 3) (Fin 3) ℝ := !![0, 0, -1; 0, 1, 0; 1, 0, 0]

/-- North-east-down to east-north-up. -/
def Spec.nedToEnu : Matrix (Fin 3) (Fin 3) ℝ := !![0, 1, 0; 1, 0, 0; 0, 0, -1]

theorem msAxes_eq (v : Fin 3 → ℝ) : msAxes v = Spec.msToAdv *ᵥ v := by
  funext i
  fin_cases i <;> simp [msAxes, Spec.msToAdv, mulVec, dotProduct, Fin.sum_univ_three]

theorem msOrient_eq (o : Matrix (Fin 3) (Fin 3) ℝ) :
    (Matrix.of (msOrient o) : Matrix (Fin 3) (Fin 3) ℝ) =
      Spec.msToAdv * o * Spec.nedToEnuᵀ := by
  ext i j
  fin_cases i <;> fin_cases j <;>
    simp [msOrient, msColumns, msAxes, Spec.msToAdv, Spec.nedToEnu, Matrix.mul_apply,
      Fin.sum_univ_three, vecMul, dotProduct]

theorem msToAdv_orth : Spec.msToAdv * Spec.msToAdvᵀ = 1 ∧ Spec.msToAdv.det = 1 := by
  constructor
  · ext i j
    fin_cases i <;> fin_cases j <;>
      simp [Spec.msToAdv, Matrix.mul_apply, Fin.sum_univ_three]
  · simp [Spec.msToAdv, Matrix.det_fin_three]

theorem nedToEnu_orth : Spec.nedToEnu * Spec.nedToEnuᵀ = 1 ∧ Spec.nedToEnu.det = 1 := by
  constructor
  · ext i j
    fin_cases i <;> fin_cases j <;>
      simp [Spec.nedToEnu, Matrix.mul_apply, Fin.sum_univ_three]
  · simp [Spec.nedToEnu, Matrix.det_fin_three]

/-- **C83.** Converting IMU data to the instrument's axes is a proper rotation (no mirror image) of every
vector, the converted orientation matrix is a rotation matrix whenever the IMU's is, and it relates the
converted vectors: what the IMU matrix takes from north-east-down to the IMU's axes, the converted one
takes from east-north-up to the instrument's axes. -/
theorem imu_axes (o : Matrix (Fin 3) (Fin 3) ℝ) :
    (∀ v w : Fin 3 → ℝ, msAxes v ⬝ᵥ msAxes w = v ⬝ᵥ w) ∧
    (o * oᵀ = 1 → Matrix.of (msOrient o) * (Matrix.of (msOrient o))ᵀ = 1) ∧
    (Matrix.of (msOrient o)).det = o.det ∧
    (∀ x : Fin 3 → ℝ, Matrix.of (msOrient o) *ᵥ (Spec.nedToEnu *ᵥ x) = msAxes (o *ᵥ x)) := by
  refine ⟨?_, ?_, ?_, ?_⟩
  · intro v w
    simp [msAxes, dotProduct, Fin.sum_univ_three]
    ring
  · intro h
    rw [msOrient_eq]
    have h2 : Spec.nedToEnuᵀ * Spec.nedToEnu = 1 :=
      mul_eq_one_comm.mp nedToEnu_orth.1
    rw [Matrix.transpose_mul, Matrix.transpose_mul, Matrix.transpose_transpose]
    calc Spec.msToAdv * o * Spec.nedToEnuᵀ * (Spec.nedToEnu * (oᵀ * Spec.msToAdvᵀ))
        = Spec.msToAdv * o * (Spec.nedToEnuᵀ * Spec.nedToEnu) * (oᵀ * Spec.msToAdvᵀ) := by
          simp only [Matrix.mul_assoc]
      _ = Spec.msToAdv * (o * oᵀ) * Spec.msToAdvᵀ := by
          rw [h2, Matrix.mul_one]; simp only [Matrix.mul_assoc]
      _ = 1 := by rw [h, Matrix.mul_one]; exact msToAdv_orth.1
  · rw [msOrient_eq, Matrix.det_mul, Matrix.det_mul, Matrix.det_transpose, msToAdv_orth.2,
      nedToEnu_orth.2]
    ring
  · intro x
    rw [msOrient_eq, msAxes_eq, Matrix.mulVec_mulVec, Matrix.mulVec_mulVec, Matrix.mul_assoc,
      mul_eq_one_comm.mp nedToEnu_orth.1, Matrix.mul_one]

example : (1 : Matrix (Fin 3) (Fin 3) ℝ) * (1 : Matrix (Fin 3) (Fin 3) ℝ)ᵀ = 1 := by simp

/-! ### C84: sample times -/

/-- **C84 (partial).** When the burst has at least three system records and they carry the times of a
clock that advances `1/fs` per sample, every sample gets its time on that clock. -/
theorem burst_times_partial (n : ℕ) (t : ℕ → Option ℝ) (fs t0 : ℝ)
    (ht : ∀ j < n, ∀ x, t j = some x → x = t0 + j / fs)
    (h3 : 3 ≤ ((List.range n).filter fun j => (t j).isSome).length) (i : ℕ) :
    burstTimes n t fs i = some (t0 + i / fs) := by
  unfold burstTimes
  set all := (List.range n).filter fun j => (t j).isSome with hall
  have hnd : (all.drop 1).Nodup := (List.nodup_range.filter _).sublist (List.drop_sublist 1 all)
  have hmem : ∀ k ∈ all.drop 1, t k = some (t0 + k / fs) := by
    intro k hk
    have : k ∈ all := List.mem_of_mem_drop hk
    rw [hall, List.mem_filter] at this
    obtain ⟨x, hx⟩ := Option.isSome_iff_exists.mp this.2
    rw [hx, ht k (List.mem_range.mp this.1) x hx]
  have hlen : 2 ≤ (all.drop 1).length := by simp; omega
  generalize all.drop 1 = inds at hnd hmem hlen
  rcases inds with _ | ⟨a, _ | ⟨b, l⟩⟩
  · simp at hlen
  · simp at hlen
  · have hy : ((a :: b :: l).map fun k => (t k).getD 0) =
        ((a :: b :: l).map fun k : ℕ => (k : ℝ)).map fun x => (1 / fs) * x + t0 := by
      rw [List.map_map]
      apply List.map_congr_left
      intro k hk
      rw [hmem k hk]
      simp
      ring
    have hab : (a : ℝ) ≠ b := by
      have : a ≠ b := fun e => by simp [e] at hnd
      exact_mod_cast this
    simp only
    rw [hy, polyfit1_line _ _ _ ⟨a, by simp, b, by simp, hab⟩]
    simp only [Option.map_some]
    congr 1
    ring

/-- **C84 is false of the code** for bursts with one or two system records: consecutive samples are
`1/(86400 fs)` seconds apart. -/
theorem short_burst_times (n : ℕ) (t : ℕ → Option ℝ) (fs : ℝ) (i : ℕ) (x y : ℝ)
    (h : ((List.range n).filter fun j => (t j).isSome).length ≤ 2)
    (hx : burstTimes n t fs i = some x) (hy : burstTimes n t fs (i + 1) = some y) :
    y - x = 1 / (fs * 86400) := by
  unfold burstTimes at hx hy
  set all := (List.range n).filter fun j => (t j).isSome with hall
  have hlen : (all.drop 1).length ≤ 1 := by simp; omega
  generalize all.drop 1 = inds at hlen hx hy
  rcases inds with _ | ⟨a, _ | ⟨b, l⟩⟩
  · simp only at hx hy
    rcases h0 : t 0 with _ | z
    · rw [h0] at hx; cases hx
    · rw [h0] at hx hy
      have hx := Option.some.inj hx
      have hy := Option.some.inj hy
      rw [← hx, ← hy]
      by_cases hf : fs = 0
      · simp [hf]
      · push_cast; field_simp; ring
  · simp only at hx hy
    rcases h0 : t a with _ | z
    · rw [h0] at hx; cases hx
    · rw [h0] at hx hy
      have hx := Option.some.inj hx
      have hy := Option.some.inj hy
      rw [← hx, ← hy]
      by_cases hf : fs = 0
      · simp [hf]
      · push_cast; field_simp; ring
  · simp at hlen

/-- **C84** (short bursts). With exactly two system records the sample of the second one gets the time of
that record. -/
theorem short_burst_anchor (n : ℕ) (t : ℕ → Option ℝ) (fs : ℝ) (j k : ℕ)
    (h : ((List.range n).filter fun j => (t j).isSome) = [j, k]) : burstTimes n t fs k = t k := by
  unfold burstTimes
  rw [h]
  simp only [List.drop_succ_cons, List.drop_zero]
  rcases t k with _ | x
  · rfl
  · simp

/-- **C84** (short bursts). With one system record the times start from it when it belongs to the first
sample, and every sample of the burst stays without a time when it does not. -/
theorem single_record_burst (n : ℕ) (t : ℕ → Option ℝ) (fs : ℝ) (j i : ℕ)
    (h : ((List.range n).filter fun j => (t j).isSome) = [j]) :
    (j = 0 → burstTimes n t fs 0 = t 0) ∧ (j ≠ 0 → burstTimes n t fs i = none) := by
  have hn : 0 < n := by
    rcases n with _ | n
    · simp at h
    · omega
  unfold burstTimes
  rw [h]
  simp only [List.drop_succ_cons, List.drop_zero]
  constructor
  · rintro rfl
    rcases t 0 with _ | x
    · rfl
    · simp
  · intro hj
    have h0 : t 0 = none := by
      by_contra hne
      have : (0 : ℕ) ∈ ((List.range n).filter fun j => (t j).isSome) := by
        rw [List.mem_filter]
        exact ⟨List.mem_range.mpr hn, by rw [Option.isSome_iff_ne_none]; exact hne⟩
      rw [h, List.mem_singleton] at this
      exact hj this.symm
    rw [h0]
    rfl

/-- Bursts with two system records and with one at the second sample. -/
example : ((List.range 3).filter fun j => (((fun j => if j = 0 then none else some 5) : ℕ → Option ℝ) j).isSome)
      = [1, 2] ∧
    ((List.range 3).filter fun j => (((fun j => if j = 1 then some 5 else none) : ℕ → Option ℝ) j).isSome)
      = [1] := by
  rw [show List.range 3 = [0, 1, 2] from rfl]
  simp

/-- Both cases occur. -/
example : burstTimes 3 (fun j => if j = 0 then some 5 else none) 2 1 =
      some (5 + ((1 : ℕ) : ℝ) / (2 * 24 * 3600)) ∧
    3 ≤ ((List.range 4).filter fun j => (((fun j => some (5 + j / 2)) : ℕ → Option ℝ) j).isSome).length := by
  constructor
  · have : ((List.range 3).filter fun j =>
        (((fun j => if j = 0 then some 5 else none) : ℕ → Option ℝ) j).isSome) = [0] := by
      rw [show List.range 3 = [0, 1, 2] from rfl]
      simp
    unfold burstTimes
    rw [this]
    simp
  · simp

theorem burstTimes_congr (m : ℕ) (hm : 0 < m) (t t' : ℕ → Option ℝ) (fs : ℝ) (i : ℕ)
    (ht : ∀ j < m, t j = t' j) : burstTimes m t fs i = burstTimes m t' fs i := by
  unfold burstTimes
  have hf : ((List.range m).filter fun j => (t j).isSome) =
      (List.range m).filter fun j => (t' j).isSome := by
    apply List.filter_congr
    intro j hj
    rw [ht j (by simpa using hj)]
  simp only [hf]
  have hmem : ∀ k ∈ ((List.range m).filter fun j => (t' j).isSome).drop 1, t k = t' k := by
    intro k hk
    have := List.mem_of_mem_drop hk
    rw [List.mem_filter] at this
    exact ht k (by simpa using this.1)
  generalize ((List.range m).filter fun j => (t' j).isSome).drop 1 = inds at hmem
  rcases inds with _ | ⟨a, _ | ⟨b, l⟩⟩
  · simp only [ht 0 hm]
  · simp only [hmem a (by simp)]
  · simp only
    congr 2
    apply List.map_congr_left
    intro k hk
    rw [hmem k hk]

/-- Times of different bursts do not influence each other: the times of a burst depend only on the
system records of that burst. -/
theorem burst_independent (n nburst : ℕ) (hb : 0 < nburst) (t t' : ℕ → Option ℝ) (fs : ℝ) (i : ℕ)
    (hi : i < n) (h : ∀ j < n, j / nburst = i / nburst → t j = t' j) :
    vecTimes n nburst t fs i = vecTimes n nburst t' fs i := by
  unfold vecTimes
  rw [if_neg (by omega)]
  have hoffi : i / nburst * nburst ≤ i := Nat.div_mul_le_self i nburst
  apply burstTimes_congr
  · omega
  · intro j hj
    apply h
    · omega
    · rw [Nat.add_comm, Nat.add_mul_div_right _ _ hb, Nat.div_eq_of_lt (by omega), Nat.zero_add]

/-! ### C85: orientation bit -/

/-- **C85 (partial).** Values interpolated between status bits lie in [0,1]. A sample whose status bit is
1 (facing down) is always reported as down; one whose bit is 0 is reported as down exactly when the value
before is positive and the value after is not: the first record after turning up is still called
"down". -/
theorem orientation_bit_partial (n : ℕ) (tmpd : ℕ → ℚ) (h : ∀ i, 0 ≤ tmpd i ∧ tmpd i ≤ 1) (i : ℕ) :
    (tmpd i = 1 → orientFix n tmpd i = true) ∧
    (tmpd i = 0 → (orientFix n tmpd i = true ↔
      (1 ≤ i ∧ 0 < tmpd (i - 1)) ∧ ¬ (i + 1 < n ∧ 0 < tmpd (i + 1)))) := by
  unfold orientFix
  constructor
  · intro h1
    have hle := (h (i + 1)).2
    rw [if_neg (by rintro ⟨-, h2⟩; linarith)]
    simp [h1]
  · intro h0
    rw [h0]
    by_cases ha : i + 1 < n ∧ 0 < tmpd (i + 1)
    · rw [if_pos (by simpa using ha)]
      simp [ha]
    · rw [if_neg (by simpa using ha)]
      by_cases hb : 1 ≤ i ∧ 0 < tmpd (i - 1)
      · rw [if_pos ⟨hb.1, by linarith [hb.2]⟩]
        exact ⟨fun _ => ⟨hb, ha⟩, fun _ => rfl⟩
      · rw [if_neg (fun hc => hb ⟨hc.1, by linarith [hc.2]⟩)]
        constructor
        · intro hc; simp at hc
        · intro hc; exact absurd hc.1 hb

/-- **C85 is false of the code**: bits 1, 0, 0 give down, down, up. -/
theorem orientation_bit_counterexample :
    let bits : ℕ → ℚ := fun i => if i = 0 then 1 else 0
    bits 1 = 0 ∧ orientFix 3 bits 1 = true := by
  decide +kernel

/-! ### C86: pressure -/

/-- **C86.** The two parts of the pressure are combined without overlap: the value in mbar determines
them. -/
theorem pressure_parts (m l m' l' : ℕ) (hl : l < 65536) (hl' : l' < 65536)
    (h : vecPressure m l = vecPressure m' l') : m = m' ∧ l = l' := by
  unfold vecPressure at h
  have h2 : (m * 65536 + l : ℚ) = m' * 65536 + l' := by
    have := congrArg (· * 1000) h
    simpa using this
  have h3 : m * 65536 + l = m' * 65536 + l' := by exact_mod_cast h2
  omega

example : vecPressure 1 2 = 65538 / 1000 := by norm_num [vecPressure]

end Dolfyn
