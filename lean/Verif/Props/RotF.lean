import Verif.Model.RotF
import Verif.Props.Single
import Verif.Props.Orient
import Mathlib.Algebra.BigOperators.Fin
import Mathlib.Tactic.Positivity

/-! C169: rotations in single precision. -/

namespace Dolfyn

/-- `rd` rounds with relative error at most `ε`. -/
def Spec.Rounds (rd : ℚ → ℚ) (ε : ℚ) : Prop := ∀ x, |rd x - x| ≤ ε * |x|

theorem rounds32 : Spec.Rounds fl32 (1 / 2 ^ 24) := by
  intro x
  have := fl32_err x
  rw [div_mul_eq_mul_div, one_mul]
  exact this

theorem rounds64 : Spec.Rounds fl64 (1 / 2 ^ 53) := by
  intro x
  have := fl64_err x
  rw [div_mul_eq_mul_div, one_mul]
  exact this

/-- `f` multiplies with the matrix `A`, to the relative accuracy `γ` of every product. -/
def Spec.ApproxMul {n : ℕ} (γ : ℚ) (A : Fin n → Fin n → ℚ) (f : (Fin n → ℚ) → Fin n → ℚ) : Prop :=
  ∀ v i, |f v i - ∑ j, A i j * v j| ≤ γ * ∑ j, |A i j| * |v j|

/-! ### One rotation -/

theorem dot_step {rd : ℚ → ℚ} {ε : ℚ} (hε : 0 ≤ ε) (h : Spec.Rounds rd ε) (fused : Bool) (acc x : ℚ) :
    |(if fused then rd (acc + x) else rd (acc + rd x)) - (acc + x)| ≤ ε * |acc| + ((1 + ε) ^ 2 - 1) * |x| := by
  have hx := abs_nonneg x
  have ha := abs_nonneg acc
  cases fused
  · simp only [Bool.false_eq_true, if_false]
    have h1 := h x
    have h2 := h (acc + rd x)
    have h3 : |rd x| ≤ (1 + ε) * |x| := by
      calc |rd x| = |(rd x - x) + x| := by ring_nf
        _ ≤ |rd x - x| + |x| := abs_add_le _ _
        _ ≤ _ := by linarith
    have h4 : |acc + rd x| ≤ |acc| + (1 + ε) * |x| := (abs_add_le _ _).trans (by linarith)
    have h5 := mul_le_mul_of_nonneg_left h4 hε
    calc |rd (acc + rd x) - (acc + x)| = |(rd (acc + rd x) - (acc + rd x)) + (rd x - x)| := by ring_nf
      _ ≤ |rd (acc + rd x) - (acc + rd x)| + |rd x - x| := abs_add_le _ _
      _ ≤ ε * (|acc| + (1 + ε) * |x|) + ε * |x| := by linarith
      _ = _ := by ring
  · simp only [if_true]
    have h1 := h (acc + x)
    have h2 := mul_le_mul_of_nonneg_left (abs_add_le acc x) hε
    nlinarith [mul_nonneg (mul_nonneg hε hε) hx, mul_nonneg hε hx]

theorem dotF_acc {n : ℕ} {rd : ℚ → ℚ} {ε : ℚ} (hε : 0 ≤ ε) (h : Spec.Rounds rd ε) (fused : Bool) (a b : Fin n → ℚ) :
    ∀ (L : List (Fin n)) (acc : ℚ),
      |L.foldl (fun acc j => if fused then rd (acc + a j * b j) else rd (acc + rd (a j * b j))) acc
        - (acc + (L.map fun j => a j * b j).sum)|
      ≤ ((1 + ε) ^ L.length - 1) * |acc| + ((1 + ε) ^ (L.length + 1) - 1) * (L.map fun j => |a j| * |b j|).sum
  | [], acc => by simp
  | j :: L, acc => by
    have ih := dotF_acc hε h fused a b L
      (if fused then rd (acc + a j * b j) else rd (acc + rd (a j * b j)))
    have hs := dot_step hε h fused acc (a j * b j)
    rw [abs_mul] at hs
    simp only [List.foldl_cons, List.map_cons, List.sum_cons, List.length_cons]
    generalize L.foldl (fun acc j => if fused then rd (acc + a j * b j) else rd (acc + rd (a j * b j)))
      (if fused then rd (acc + a j * b j) else rd (acc + rd (a j * b j))) = r at ih ⊢
    generalize (if fused then rd (acc + a j * b j) else rd (acc + rd (a j * b j))) = t at ih hs
    have hT : 0 ≤ (L.map fun j => |a j| * |b j|).sum := List.sum_nonneg (by
      intro x hx
      obtain ⟨k, -, rfl⟩ := List.mem_map.mp hx
      positivity)
    generalize (L.map fun j => |a j| * |b j|).sum = T at ih hT ⊢
    generalize (L.map fun j => a j * b j).sum = S at ih ⊢
    have hx : 0 ≤ |a j| * |b j| := by positivity
    have hab : |acc + a j * b j| ≤ |acc| + |a j| * |b j| := by rw [← abs_mul]; exact abs_add_le _ _
    generalize a j * b j = x at hs hab ⊢
    generalize |a j| * |b j| = X at hs hx hab ⊢
    have hacc := abs_nonneg acc
    have hp : 1 ≤ (1 + ε) ^ L.length := one_le_pow₀ (by linarith)
    have ht : |t| ≤ (1 + ε) * |acc| + (1 + ε) ^ 2 * X := by
      calc |t| = |(t - (acc + x)) + (acc + x)| := by ring_nf
        _ ≤ |t - (acc + x)| + |acc + x| := abs_add_le _ _
        _ ≤ _ := by nlinarith
    have h1 := mul_le_mul_of_nonneg_left ht (sub_nonneg.mpr hp)
    rw [pow_succ] at ih
    rw [pow_succ, pow_succ (1 + ε) (L.length + 1), pow_succ]
    generalize (1 + ε) ^ L.length = p at *
    have h2 : |r - (acc + (x + S))| ≤ |r - (t + S)| + |t - (acc + x)| := by
      calc |r - (acc + (x + S))| = |(r - (t + S)) + (t - (acc + x))| := by ring_nf
        _ ≤ _ := abs_add_le _ _
    have h3 : 0 ≤ p * (1 + ε) * ε * T := by positivity
    nlinarith

theorem sum_order {n : ℕ} {order : List (Fin n)} (ho : order.Perm (List.finRange n)) (f : Fin n → ℚ) :
    (order.map f).sum = ∑ j, f j := by
  rw [(ho.map f).sum_eq, Fin.sum_univ_def]

theorem dotF_near {n : ℕ} {rd : ℚ → ℚ} {ε : ℚ} (hε : 0 ≤ ε) (h : Spec.Rounds rd ε) (fused : Bool) {order : List (Fin n)}
    (ho : order.Perm (List.finRange n)) (a b : Fin n → ℚ) :
    |dotF rd fused order a b - ∑ j, a j * b j| ≤ ((1 + ε) ^ (n + 1) - 1) * ∑ j, |a j| * |b j| := by
  have := dotF_acc hε h fused a b order 0
  rw [sum_order ho, sum_order ho, ho.length_eq, List.length_finRange, zero_add, abs_zero, mul_zero, zero_add] at this
  exact this

/-- C169: every component of the rotated vector is the exact one to a relative error of its products of about
(number of components + 1) units in the last place, whatever the order of the additions. -/
theorem rotSingle_approx {n : ℕ} (fused : Bool) {order : List (Fin n)} (ho : order.Perm (List.finRange n))
    (A : Fin n → Fin n → ℚ) : Spec.ApproxMul ((1 + 1 / 2 ^ 24) ^ (n + 1) - 1) A (rotSingle fused order A) :=
  fun v i => dotF_near (by norm_num) rounds32 fused ho (A i) v

/-- C169: with a float64 matrix the result has one rounding to single precision. -/
theorem rotStore_approx {n : ℕ} (fused : Bool) {order : List (Fin n)} (ho : order.Perm (List.finRange n))
    (A : Fin n → Fin n → ℚ) :
    Spec.ApproxMul ((1 + 1 / 2 ^ 24) * (1 + 1 / 2 ^ 53) ^ (n + 1) - 1) A (rotStore fused order A) := by
  intro v i
  have h1 := dotF_near (by norm_num) rounds64 fused ho (A i) v
  have h2 := rounds32 (dotF fl64 fused order (A i) v)
  unfold rotStore
  generalize dotF fl64 fused order (A i) v = d at *
  have h3 : |∑ j, A i j * v j| ≤ ∑ j, |A i j| * |v j| :=
    (Finset.abs_sum_le_sum_abs _ _).trans (le_of_eq (by simp only [abs_mul]))
  generalize ∑ j, A i j * v j = S at *
  generalize ∑ j, |A i j| * |v j| = T at *
  have h4 : |d| ≤ |d - S| + |S| := by
    calc |d| = |(d - S) + S| := by ring_nf
      _ ≤ _ := abs_add_le _ _
  calc |fl32 d - S| = |(fl32 d - d) + (d - S)| := by ring_nf
    _ ≤ |fl32 d - d| + |d - S| := abs_add_le _ _
    _ ≤ _ := by nlinarith

/-! ### There and back -/

/-- C169: two such products with matrices that are nearly inverse to each other give the vector back. -/
theorem rot_back {n : ℕ} {γ η : ℚ} (hγ : 0 ≤ γ) {A B : Fin n → Fin n → ℚ} {f g : (Fin n → ℚ) → Fin n → ℚ}
    (hf : Spec.ApproxMul γ A f) (hg : Spec.ApproxMul γ B g)
    (hinv : ∀ k j, |∑ i, B k i * A i j - (if k = j then 1 else 0)| ≤ η) (v : Fin n → ℚ) (k : Fin n) :
    |g (f v) k - v k| ≤ η * ∑ j, |v j| + (2 * γ + γ ^ 2) * ∑ i, |B k i| * ∑ j, |A i j| * |v j| := by
  set P : Fin n → ℚ := fun i => ∑ j, |A i j| * |v j| with hP
  have hP0 : ∀ i, 0 ≤ P i := fun i => Finset.sum_nonneg fun j _ => by positivity
  have hw : ∀ i, |f v i| ≤ (1 + γ) * P i := by
    intro i
    have h1 := hf v i
    have h2 : |∑ j, A i j * v j| ≤ P i :=
      (Finset.abs_sum_le_sum_abs _ _).trans (le_of_eq (by simp only [hP, abs_mul]))
    calc |f v i| = |(f v i - ∑ j, A i j * v j) + ∑ j, A i j * v j| := by ring_nf
      _ ≤ _ := abs_add_le _ _
      _ ≤ _ := by linarith
  have h1 := hg (f v) k
  have h2 : ∑ i, |B k i| * |f v i| ≤ (1 + γ) * ∑ i, |B k i| * P i := by
    rw [Finset.mul_sum]
    refine Finset.sum_le_sum fun i _ => ?_
    have := mul_le_mul_of_nonneg_left (hw i) (abs_nonneg (B k i))
    linarith
  have h3 : |∑ i, B k i * f v i - ∑ i, B k i * ∑ j, A i j * v j| ≤ γ * ∑ i, |B k i| * P i := by
    rw [← Finset.sum_sub_distrib, Finset.mul_sum]
    refine (Finset.abs_sum_le_sum_abs _ _).trans (Finset.sum_le_sum fun i _ => ?_)
    rw [← mul_sub, abs_mul]
    have := mul_le_mul_of_nonneg_left (hf v i) (abs_nonneg (B k i))
    linarith
  have h4 : |∑ i, B k i * ∑ j, A i j * v j - v k| ≤ η * ∑ j, |v j| := by
    have e : ∑ i, B k i * ∑ j, A i j * v j - v k
        = ∑ j, (∑ i, B k i * A i j - (if k = j then 1 else 0)) * v j := by
      simp only [sub_mul, Finset.sum_sub_distrib]
      congr 1
      · simp only [Finset.mul_sum, Finset.sum_mul]
        rw [Finset.sum_comm]
        exact Finset.sum_congr rfl fun j _ => Finset.sum_congr rfl fun i _ => by ring
      · simp
    rw [e, Finset.mul_sum]
    refine (Finset.abs_sum_le_sum_abs _ _).trans (Finset.sum_le_sum fun j _ => ?_)
    rw [abs_mul]
    exact mul_le_mul_of_nonneg_right (hinv k j) (abs_nonneg _)
  have h5 := mul_le_mul_of_nonneg_left h2 hγ
  calc |g (f v) k - v k| = |(g (f v) k - ∑ i, B k i * f v i)
        + (∑ i, B k i * f v i - ∑ i, B k i * ∑ j, A i j * v j) + (∑ i, B k i * ∑ j, A i j * v j - v k)| := by ring_nf
    _ ≤ _ := (abs_add_le _ _).trans (add_le_add (abs_add_le _ _) le_rfl)
    _ ≤ _ := by linarith

/-- The matrix `A` of floats lies within `η` of the rotation `R`. -/
def Spec.NearRot (η : ℚ) (A : Fin 3 → Fin 3 → ℚ) (R : M3) : Prop :=
  Spec.IsRotation R ∧ ∀ i j, |((A i j : ℚ) : ℝ) - R i j| ≤ (η : ℝ)

theorem unit_abs {x y z : ℝ} (h : x * x + y * y + z * z = 1) : |x| + |y| + |z| ≤ 174 / 100 := by
  have hx := abs_mul_abs_self x
  have hy := abs_mul_abs_self y
  have hz := abs_mul_abs_self z
  by_contra hc
  push Not at hc
  nlinarith [sq_nonneg (|x| - |y|), sq_nonneg (|y| - |z|), sq_nonneg (|x| - |z|), abs_nonneg x, abs_nonneg y, abs_nonneg z]

theorem rot_cols {R : M3} (h : Spec.IsRotation R) (k j : Fin 3) :
    R 0 k * R 0 j + R 1 k * R 1 j + R 2 k * R 2 j = if k = j then 1 else 0 := by
  have h1 : R.transpose * R = 1 := mul_eq_one_comm.mp h.1
  have := congrFun (congrFun h1 k) j
  rw [Matrix.mul_apply, Fin.sum_univ_three] at this
  simp only [Matrix.transpose_apply] at this
  rw [this, Matrix.one_apply]

theorem rot_rows {R : M3} (h : Spec.IsRotation R) (k : Fin 3) :
    R k 0 * R k 0 + R k 1 * R k 1 + R k 2 * R k 2 = 1 := by
  have h1 : R * R.transpose = 1 := h.1
  have := congrFun (congrFun h1 k) k
  rw [Matrix.mul_apply, Fin.sum_univ_three] at this
  simp only [Matrix.transpose_apply] at this
  rw [this, Matrix.one_apply, if_pos rfl]

theorem near_abs {η a : ℚ} {r : ℝ} (h : |(a : ℝ) - r| ≤ η) : |(a : ℝ)| ≤ |r| + η := by
  calc |(a : ℝ)| = |((a : ℝ) - r) + r| := by ring_nf
    _ ≤ _ := abs_add_le _ _
    _ ≤ _ := by linarith

theorem nearRot_row {η : ℚ} {A : Fin 3 → Fin 3 → ℚ} {R : M3} (h : Spec.NearRot η A R) (hη : η ≤ 1 / 1000) (i : Fin 3) :
    ∑ j, |A i j| ≤ 175 / 100 := by
  have hu := unit_abs (rot_rows h.1 i)
  have h0 := near_abs (h.2 i 0)
  have h1 := near_abs (h.2 i 1)
  have h2 := near_abs (h.2 i 2)
  have hη' : (η : ℝ) ≤ 1 / 1000 := by
    have : ((η : ℚ) : ℝ) ≤ ((1 / 1000 : ℚ) : ℝ) := by exact_mod_cast hη
    simpa using this
  rw [Fin.sum_univ_three]
  have : ((|A i 0| + |A i 1| + |A i 2| : ℚ) : ℝ) ≤ ((175 / 100 : ℚ) : ℝ) := by push_cast; linarith
  exact_mod_cast this

theorem nearRot_col {η : ℚ} {A : Fin 3 → Fin 3 → ℚ} {R : M3} (h : Spec.NearRot η A R) (hη : η ≤ 1 / 1000) (k : Fin 3) :
    ∑ i, |A i k| ≤ 175 / 100 := by
  have hu := unit_abs (by simpa using rot_cols h.1 k k)
  have h0 := near_abs (h.2 0 k)
  have h1 := near_abs (h.2 1 k)
  have h2 := near_abs (h.2 2 k)
  have hη' : (η : ℝ) ≤ 1 / 1000 := by
    have : ((η : ℚ) : ℝ) ≤ ((1 / 1000 : ℚ) : ℝ) := by exact_mod_cast hη
    simpa using this
  rw [Fin.sum_univ_three]
  have : ((|A 0 k| + |A 1 k| + |A 2 k| : ℚ) : ℝ) ≤ ((175 / 100 : ℚ) : ℝ) := by push_cast; linarith
  exact_mod_cast this

theorem near_prod {η a b : ℚ} {r s : ℝ} (ha : |(a : ℝ) - r| ≤ η) (hb : |(b : ℝ) - s| ≤ η) :
    |(a : ℝ) * b - r * s| ≤ η * (|r| + |s|) + η * η := by
  have h0 : (0 : ℝ) ≤ η := (abs_nonneg _).trans ha
  have e : (a : ℝ) * b - r * s = ((a : ℝ) - r) * (b - s) + r * (b - s) + ((a : ℝ) - r) * s := by ring
  rw [e]
  have h1 : |((a : ℝ) - r) * (b - s)| ≤ η * η := by
    rw [abs_mul]; exact mul_le_mul ha hb (abs_nonneg _) h0
  have h2 : |r * ((b : ℝ) - s)| ≤ |r| * η := by
    rw [abs_mul]; exact mul_le_mul_of_nonneg_left hb (abs_nonneg _)
  have h3 : |((a : ℝ) - r) * s| ≤ η * |s| := by
    rw [abs_mul]; exact mul_le_mul_of_nonneg_right ha (abs_nonneg _)
  have h4 := abs_add_le (((a : ℝ) - r) * (b - s) + r * (b - s)) (((a : ℝ) - r) * s)
  have h5 := abs_add_le (((a : ℝ) - r) * (b - s)) (r * ((b : ℝ) - s))
  linarith

theorem nearRot_inv {η : ℚ} {A : Fin 3 → Fin 3 → ℚ} {R : M3} (h : Spec.NearRot η A R) (k j : Fin 3) :
    |∑ i, A i k * A i j - (if k = j then 1 else 0)| ≤ 348 / 100 * η + 3 * η ^ 2 := by
  have hk := unit_abs (by simpa using rot_cols h.1 k k)
  have hj := unit_abs (by simpa using rot_cols h.1 j j)
  have p0 := near_prod (h.2 0 k) (h.2 0 j)
  have p1 := near_prod (h.2 1 k) (h.2 1 j)
  have p2 := near_prod (h.2 2 k) (h.2 2 j)
  have hη : (0 : ℝ) ≤ η := (abs_nonneg _).trans (h.2 0 0)
  have hc := rot_cols h.1 k j
  rw [Fin.sum_univ_three]
  have : |((A 0 k * A 0 j + A 1 k * A 1 j + A 2 k * A 2 j - (if k = j then 1 else 0) : ℚ) : ℝ)|
      ≤ ((348 / 100 * η + 3 * η ^ 2 : ℚ) : ℝ) := by
    rw [Rat.cast_sub, show (((if k = j then 1 else 0 : ℚ)) : ℝ) = if k = j then 1 else 0 by split_ifs <;> simp, ← hc]
    push_cast
    calc _ = |((A 0 k : ℝ) * A 0 j - R 0 k * R 0 j) + ((A 1 k : ℝ) * A 1 j - R 1 k * R 1 j)
          + ((A 2 k : ℝ) * A 2 j - R 2 k * R 2 j)| := by ring_nf
      _ ≤ _ := (abs_add_le _ _).trans (add_le_add (abs_add_le _ _) le_rfl)
      _ ≤ _ := by nlinarith
  exact_mod_cast this

theorem sum_le_three {v : Fin 3 → ℚ} {V : ℚ} (h : ∀ j, |v j| ≤ V) : ∑ j, |v j| ≤ 3 * V := by
  rw [Fin.sum_univ_three]
  linarith [h 0, h 1, h 2]

theorem wsum_le {a v : Fin 3 → ℚ} {V : ℚ} (h : ∀ j, |v j| ≤ V) : ∑ j, |a j| * |v j| ≤ (∑ j, |a j|) * V := by
  rw [Finset.sum_mul]
  exact Finset.sum_le_sum fun j _ => mul_le_mul_of_nonneg_left (h j) (abs_nonneg _)

/-- C169: the rotated vector is the exactly rotated one, to the accuracy of the matrix and of the products. -/
theorem rot_accurate {γ η V : ℚ} {A : Fin 3 → Fin 3 → ℚ} {R : M3} {f : (Fin 3 → ℚ) → Fin 3 → ℚ} (hγ : 0 ≤ γ)
    (h : Spec.NearRot η A R) (hη : η ≤ 1 / 1000) (hf : Spec.ApproxMul γ A f) {v : Fin 3 → ℚ} (hv : ∀ j, |v j| ≤ V)
    (i : Fin 3) : |((f v i : ℚ) : ℝ) - ∑ j, R i j * (v j : ℝ)| ≤ ((175 / 100 * γ + 3 * η) * V : ℚ) := by
  have hV : 0 ≤ V := (abs_nonneg _).trans (hv 0)
  have h1 := hf v i
  have h2 := (wsum_le (a := A i) hv).trans (mul_le_mul_of_nonneg_right (nearRot_row h hη i) hV)
  have h3 := h1.trans (mul_le_mul_of_nonneg_left h2 hγ)
  have h3' : |((f v i : ℚ) : ℝ) - ∑ j, (A i j : ℝ) * (v j : ℝ)| ≤ ((γ * (175 / 100 * V) : ℚ) : ℝ) := by
    have : ((|f v i - ∑ j, A i j * v j| : ℚ) : ℝ) ≤ ((γ * (175 / 100 * V) : ℚ) : ℝ) := by exact_mod_cast h3
    push_cast at this ⊢
    exact this
  have h4 : |∑ j, (A i j : ℝ) * (v j : ℝ) - ∑ j, R i j * (v j : ℝ)| ≤ ((3 * η * V : ℚ) : ℝ) := by
    rw [← Finset.sum_sub_distrib]
    refine (Finset.abs_sum_le_sum_abs _ _).trans ?_
    have hb : ∀ j, |(A i j : ℝ) * (v j : ℝ) - R i j * (v j : ℝ)| ≤ η * V := by
      intro j
      rw [← sub_mul, abs_mul]
      have hvj : |(v j : ℝ)| ≤ V := by exact_mod_cast hv j
      exact mul_le_mul (h.2 i j) hvj (abs_nonneg _) ((abs_nonneg _).trans (h.2 i j))
    rw [Fin.sum_univ_three]
    push_cast
    linarith [hb 0, hb 1, hb 2]
  have h5 := abs_add_le (((f v i : ℚ) : ℝ) - ∑ j, (A i j : ℝ) * (v j : ℝ))
    (∑ j, (A i j : ℝ) * (v j : ℝ) - ∑ j, R i j * (v j : ℝ))
  rw [sub_add_sub_cancel] at h5
  push_cast at h3' h4 ⊢
  linarith

/-- C169: there and back with a matrix near a rotation. -/
theorem rot_there_and_back {γ η V : ℚ} {A : Fin 3 → Fin 3 → ℚ} {R : M3} {f g : (Fin 3 → ℚ) → Fin 3 → ℚ} (hγ : 0 ≤ γ)
    (h : Spec.NearRot η A R) (hη : η ≤ 1 / 1000) (hf : Spec.ApproxMul γ A f)
    (hg : Spec.ApproxMul γ (fun i j => A j i) g) {v : Fin 3 → ℚ} (hv : ∀ j, |v j| ≤ V) (k : Fin 3) :
    |g (f v) k - v k| ≤ ((348 / 100 * η + 3 * η ^ 2) * 3 + (2 * γ + γ ^ 2) * (175 / 100) ^ 2) * V := by
  have hV : 0 ≤ V := (abs_nonneg _).trans (hv 0)
  have h1 := rot_back hγ hf hg (fun k j => nearRot_inv h k j) v k
  have hη0 : 0 ≤ 348 / 100 * η + 3 * η ^ 2 := (abs_nonneg _).trans (nearRot_inv h 0 0)
  have h2 := mul_le_mul_of_nonneg_left (sum_le_three hv) hη0
  have h3 : ∑ i, |A i k| * ∑ j, |A i j| * |v j| ≤ (175 / 100) ^ 2 * V := by
    have : ∀ i, ∑ j, |A i j| * |v j| ≤ 175 / 100 * V := fun i =>
      (wsum_le hv).trans (mul_le_mul_of_nonneg_right (nearRot_row h hη i) hV)
    calc ∑ i, |A i k| * ∑ j, |A i j| * |v j| ≤ ∑ i, |A i k| * (175 / 100 * V) :=
          Finset.sum_le_sum fun i _ => mul_le_mul_of_nonneg_left (this i) (abs_nonneg _)
      _ = (∑ i, |A i k|) * (175 / 100 * V) := by rw [Finset.sum_mul]
      _ ≤ 175 / 100 * (175 / 100 * V) := mul_le_mul_of_nonneg_right (nearRot_col h hη k) (by positivity)
      _ = _ := by ring
  have h4 := mul_le_mul_of_nonneg_left h3 (by positivity : 0 ≤ 2 * γ + γ ^ 2)
  beta_reduce at h1
  linarith

/-! ### The matrix of a Nortek instrument -/

theorem mulF_near {p q : ℚ} {a b : ℚ} {x y : ℝ} (hx : |x| ≤ 1) (hy : |y| ≤ 1) (hp : p ≤ 20) (hq : q ≤ 20)
    (ha : |(a : ℝ) - x| ≤ ((p / 2 ^ 24 : ℚ) : ℝ)) (hb : |(b : ℝ) - y| ≤ ((q / 2 ^ 24 : ℚ) : ℝ)) :
    |((fl32 (a * b) : ℚ) : ℝ) - x * y| ≤ (((p + q + 1001 / 1000) / 2 ^ 24 : ℚ) : ℝ) := by
  have hr : |((fl32 (a * b) : ℚ) : ℝ) - a * b| ≤ |(a : ℝ) * b| / 2 ^ 24 := by
    have : ((|fl32 (a * b) - a * b| : ℚ) : ℝ) ≤ ((|a * b| / 2 ^ 24 : ℚ) : ℝ) := by exact_mod_cast fl32_err (a * b)
    push_cast at this ⊢
    exact this
  push_cast at ha hb ⊢
  have hp' : (p : ℝ) ≤ 20 := by exact_mod_cast hp
  have hq' : (q : ℝ) ≤ 20 := by exact_mod_cast hq
  have hp0 : (0 : ℝ) ≤ p := by
    have := (abs_nonneg _).trans ha
    by_contra hc
    push Not at hc
    have : (p : ℝ) / 2 ^ 24 < 0 := div_neg_of_neg_of_pos hc (by norm_num)
    linarith
  have hq0 : (0 : ℝ) ≤ q := by
    have := (abs_nonneg _).trans hb
    by_contra hc
    push Not at hc
    have : (q : ℝ) / 2 ^ 24 < 0 := div_neg_of_neg_of_pos hc (by norm_num)
    linarith
  have e : (a : ℝ) * b - x * y = ((a : ℝ) - x) * (b - y) + x * (b - y) + ((a : ℝ) - x) * y := by ring
  have h1 : |((a : ℝ) - x) * (b - y)| ≤ 20 / 2 ^ 24 * (20 / 2 ^ 24) := by
    rw [abs_mul]
    refine mul_le_mul (ha.trans ?_) (hb.trans ?_) (abs_nonneg _) (by norm_num)
    · exact div_le_div_of_nonneg_right hp' (by norm_num)
    · exact div_le_div_of_nonneg_right hq' (by norm_num)
  have h2 : |x * ((b : ℝ) - y)| ≤ q / 2 ^ 24 := by
    rw [abs_mul]
    calc |x| * |(b : ℝ) - y| ≤ 1 * (q / 2 ^ 24) := mul_le_mul hx hb (abs_nonneg _) (by norm_num)
      _ = _ := one_mul _
  have h3 : |((a : ℝ) - x) * y| ≤ p / 2 ^ 24 := by
    rw [abs_mul]
    calc |(a : ℝ) - x| * |y| ≤ p / 2 ^ 24 * 1 := mul_le_mul ha hy (abs_nonneg _) (by positivity)
      _ = _ := mul_one _
  have h4 := abs_add_le (((a : ℝ) - x) * (b - y) + x * (b - y)) (((a : ℝ) - x) * y)
  have h5 := abs_add_le (((a : ℝ) - x) * (b - y)) (x * ((b : ℝ) - y))
  rw [← e] at h4
  have hxy : |x * y| ≤ 1 := by
    rw [abs_mul]
    calc |x| * |y| ≤ 1 * 1 := mul_le_mul hx hy (abs_nonneg _) (by norm_num)
      _ = 1 := one_mul _
  have h6 : |(a : ℝ) * b| ≤ |(a : ℝ) * b - x * y| + |x * y| := by
    have := abs_add_le ((a : ℝ) * b - x * y) (x * y)
    rwa [sub_add_cancel] at this
  have h7 := abs_add_le (((fl32 (a * b) : ℚ) : ℝ) - a * b) ((a : ℝ) * b - x * y)
  rw [sub_add_sub_cancel] at h7
  have hp2 : (p : ℝ) / 2 ^ 24 ≤ 20 / 2 ^ 24 := div_le_div_of_nonneg_right hp' (by norm_num)
  have hq2 : (q : ℝ) / 2 ^ 24 ≤ 20 / 2 ^ 24 := div_le_div_of_nonneg_right hq' (by norm_num)
  rw [add_div, add_div]
  have h8 : |(a : ℝ) * b| / 2 ^ 24 ≤ (1 + 41 / 2 ^ 24) / 2 ^ 24 := by
    apply div_le_div_of_nonneg_right _ (by norm_num)
    norm_num at *
    linarith
  norm_num at *
  linarith

theorem addF_near {p q : ℚ} {a b : ℚ} {x y : ℝ} (hxy : |x + y| ≤ 1) (hp : p ≤ 20) (hq : q ≤ 20)
    (ha : |(a : ℝ) - x| ≤ ((p / 2 ^ 24 : ℚ) : ℝ)) (hb : |(b : ℝ) - y| ≤ ((q / 2 ^ 24 : ℚ) : ℝ)) :
    |((fl32 (a + b) : ℚ) : ℝ) - (x + y)| ≤ (((p + q + 1001 / 1000) / 2 ^ 24 : ℚ) : ℝ) := by
  have hr : |((fl32 (a + b) : ℚ) : ℝ) - (a + b)| ≤ |(a : ℝ) + b| / 2 ^ 24 := by
    have : ((|fl32 (a + b) - (a + b)| : ℚ) : ℝ) ≤ ((|a + b| / 2 ^ 24 : ℚ) : ℝ) := by exact_mod_cast fl32_err (a + b)
    push_cast at this ⊢
    exact this
  push_cast at ha hb ⊢
  have hp' : (p : ℝ) ≤ 20 := by exact_mod_cast hp
  have hq' : (q : ℝ) ≤ 20 := by exact_mod_cast hq
  have hp2 : (p : ℝ) / 2 ^ 24 ≤ 20 / 2 ^ 24 := div_le_div_of_nonneg_right hp' (by norm_num)
  have hq2 : (q : ℝ) / 2 ^ 24 ≤ 20 / 2 ^ 24 := div_le_div_of_nonneg_right hq' (by norm_num)
  have h1 : |(a : ℝ) + b - (x + y)| ≤ p / 2 ^ 24 + q / 2 ^ 24 := by
    have := abs_add_le ((a : ℝ) - x) ((b : ℝ) - y)
    rw [show (a : ℝ) - x + (b - y) = a + b - (x + y) by ring] at this
    linarith
  have h2 : |(a : ℝ) + b| ≤ |(a : ℝ) + b - (x + y)| + |x + y| := by
    have := abs_add_le ((a : ℝ) + b - (x + y)) (x + y)
    rwa [sub_add_cancel] at this
  have h7 := abs_add_le (((fl32 (a + b) : ℚ) : ℝ) - (a + b)) ((a : ℝ) + b - (x + y))
  rw [sub_add_sub_cancel] at h7
  have h8 : |(a : ℝ) + b| / 2 ^ 24 ≤ (1 + 41 / 2 ^ 24) / 2 ^ 24 := by
    apply div_le_div_of_nonneg_right _ (by norm_num)
    norm_num at *
    linarith
  rw [add_div, add_div]
  norm_num at *
  linarith

/-- `a` is a float32 cosine or sine of a library: at most 2 units in the last place below 1 from `x`. -/
def Spec.TrigNear (a : ℚ) (x : ℝ) : Prop := |(a : ℝ) - x| ≤ ((2 / 2 ^ 24 : ℚ) : ℝ)

theorem subF_near {p q : ℚ} {a b : ℚ} {x y : ℝ} (hxy : |x - y| ≤ 1) (hp : p ≤ 20) (hq : q ≤ 20)
    (ha : |(a : ℝ) - x| ≤ ((p / 2 ^ 24 : ℚ) : ℝ)) (hb : |(b : ℝ) - y| ≤ ((q / 2 ^ 24 : ℚ) : ℝ)) :
    |((fl32 (a - b) : ℚ) : ℝ) - (x - y)| ≤ (((p + q + 1001 / 1000) / 2 ^ 24 : ℚ) : ℝ) := by
  have := addF_near (a := a) (b := -b) (x := x) (y := -y) (by rwa [← sub_eq_add_neg]) hp hq ha (by
    push_cast
    rw [show -(b : ℝ) - -y = -((b : ℝ) - y) by ring, abs_neg]
    push_cast at hb
    exact hb)
  rwa [← sub_eq_add_neg, ← sub_eq_add_neg] at this

theorem neg_near {a : ℚ} {x : ℝ} {B : ℝ} (h : |(a : ℝ) - x| ≤ B) : |((-a : ℚ) : ℝ) - (-x)| ≤ B := by
  push_cast
  rwa [show -(a : ℝ) - -x = -((a : ℝ) - x) by ring, abs_neg]

theorem abs_mul_le_one {x y : ℝ} (hx : |x| ≤ 1) (hy : |y| ≤ 1) : |x * y| ≤ 1 := by
  rw [abs_mul]
  calc |x| * |y| ≤ 1 * 1 := mul_le_mul hx hy (abs_nonneg _) (by norm_num)
    _ = 1 := one_mul _

theorem entry_le_one {R : M3} (h : Spec.IsRotation R) (i j : Fin 3) : |R i j| ≤ 1 := by
  have h1 := rot_rows h i
  rw [abs_le_one_iff_mul_self_le_one]
  fin_cases j <;> simp only [Fin.zero_eta, Fin.mk_one, Fin.reduceFinMk] <;>
    nlinarith [mul_self_nonneg (R i 0), mul_self_nonneg (R i 1), mul_self_nonneg (R i 2)]

theorem near_weaken {a : ℚ} {x : ℝ} {p q : ℚ} (h : |(a : ℝ) - x| ≤ ((p : ℚ) : ℝ)) (hpq : p ≤ q) :
    |(a : ℝ) - x| ≤ ((q : ℚ) : ℝ) := h.trans (by exact_mod_cast hpq)

/-- C169: the orientation matrix in single precision lies within 16 units of 2⁻²⁴ of the rotation by the angles. -/
theorem nortekOrientF_near {h p r : ℝ} {ch sh cp sp cr sr : ℚ}
    (hch : Spec.TrigNear ch (Real.cos (Real.pi / 2 - deg2rad h))) (hsh : Spec.TrigNear sh (Real.sin (Real.pi / 2 - deg2rad h)))
    (hcp : Spec.TrigNear cp (Real.cos (deg2rad p))) (hsp : Spec.TrigNear sp (Real.sin (deg2rad p)))
    (hcr : Spec.TrigNear cr (Real.cos (deg2rad r))) (hsr : Spec.TrigNear sr (Real.sin (deg2rad r))) :
    Spec.NearRot (16 / 2 ^ 24) (nortekOrientF ch sh cp sp cr sr) (nortekOrient h p r) := by
  have hR := nortek_rotation h p r
  refine ⟨hR, ?_⟩
  have hle := entry_le_one hR
  have c1 := Real.abs_cos_le_one (Real.pi / 2 - deg2rad h)
  have s1 := Real.abs_sin_le_one (Real.pi / 2 - deg2rad h)
  have c2 := Real.abs_cos_le_one (deg2rad p)
  have s2 := Real.abs_sin_le_one (deg2rad p)
  have c3 := Real.abs_cos_le_one (deg2rad r)
  have s3 := Real.abs_sin_le_one (deg2rad r)
  unfold Spec.TrigNear at hch hsh hcp hsp hcr hsr
  set xch := Real.cos (Real.pi / 2 - deg2rad h) with xch_def
  set xsh := Real.sin (Real.pi / 2 - deg2rad h) with xsh_def
  set xcp := Real.cos (deg2rad p) with xcp_def
  set xsp := Real.sin (deg2rad p) with xsp_def
  set xcr := Real.cos (deg2rad r) with xcr_def
  set xsr := Real.sin (deg2rad r) with xsr_def
  have nch := neg_near hch
  have nsh := neg_near hsh
  have cn : |-xch| ≤ 1 := by rwa [abs_neg]
  have sn : |-xsh| ≤ 1 := by rwa [abs_neg]
  have two : ∀ {a b : ℚ} {x y : ℝ}, |x| ≤ 1 → |y| ≤ 1 → |(a : ℝ) - x| ≤ ((2 / 2 ^ 24 : ℚ) : ℝ) →
      |(b : ℝ) - y| ≤ ((2 / 2 ^ 24 : ℚ) : ℝ) → |((fl32 (a * b) : ℚ) : ℝ) - x * y| ≤ (((2 + 2 + 1001 / 1000) / 2 ^ 24 : ℚ) : ℝ) :=
    fun hx hy ha hb => mulF_near hx hy (by norm_num) (by norm_num) ha hb
  have three : ∀ {a b c : ℚ} {x y z : ℝ}, |x| ≤ 1 → |y| ≤ 1 → |z| ≤ 1 → |(a : ℝ) - x| ≤ ((2 / 2 ^ 24 : ℚ) : ℝ) →
      |(b : ℝ) - y| ≤ ((2 / 2 ^ 24 : ℚ) : ℝ) → |(c : ℝ) - z| ≤ ((2 / 2 ^ 24 : ℚ) : ℝ) →
      |((fl32 (fl32 (a * b) * c) : ℚ) : ℝ) - x * y * z| ≤ (((2 + 2 + 1001 / 1000 + 2 + 1001 / 1000) / 2 ^ 24 : ℚ) : ℝ) :=
    fun hx hy hz ha hb hc => mulF_near (abs_mul_le_one hx hy) hz (by norm_num) (by norm_num) (two hx hy ha hb) hc
  have e10 : |-xch * xsp * xsr - xsh * xcr| ≤ 1 := hle 1 0
  have e11 : |-xsh * xsp * xsr + xch * xcr| ≤ 1 := hle 1 1
  have e20 : |-xch * xcr * xsp + xsh * xsr| ≤ 1 := hle 2 0
  have e21 : |-xsh * xcr * xsp - xch * xsr| ≤ 1 := hle 2 1
  have q00 := near_weaken (two c1 c2 hch hcp) (q := 16 / 2 ^ 24) (by norm_num)
  have q01 := near_weaken (two s1 c2 hsh hcp) (q := 16 / 2 ^ 24) (by norm_num)
  have q02 := near_weaken hsp (q := 16 / 2 ^ 24) (by norm_num)
  have q10 := near_weaken (subF_near e10 (by norm_num) (by norm_num) (three cn s2 s3 nch hsp hsr) (two s1 c3 hsh hcr))
    (q := 16 / 2 ^ 24) (by norm_num)
  have q11 := near_weaken (addF_near e11 (by norm_num) (by norm_num) (three sn s2 s3 nsh hsp hsr) (two c1 c3 hch hcr))
    (q := 16 / 2 ^ 24) (by norm_num)
  have q12 := near_weaken (two s3 c2 hsr hcp) (q := 16 / 2 ^ 24) (by norm_num)
  have q20 := near_weaken (addF_near e20 (by norm_num) (by norm_num) (three cn c3 s2 nch hcr hsp) (two s1 s3 hsh hsr))
    (q := 16 / 2 ^ 24) (by norm_num)
  have q21 := near_weaken (subF_near e21 (by norm_num) (by norm_num) (three sn c3 s2 nsh hcr hsp) (two c1 s3 hch hsr))
    (q := 16 / 2 ^ 24) (by norm_num)
  have q22 := near_weaken (two c2 c3 hcp hcr) (q := 16 / 2 ^ 24) (by norm_num)
  intro i j
  fin_cases i <;> fin_cases j
  · exact q00
  · exact q01
  · exact q02
  · exact q10
  · exact q11
  · exact q12
  · exact q20
  · exact q21
  · exact q22

/-! ### A Vector -/

theorem NearRot_transpose {η : ℚ} {A : Fin 3 → Fin 3 → ℚ} {R : M3} (h : Spec.NearRot η A R) :
    Spec.NearRot η (fun i j => A j i) R.transpose := ⟨Spec.IsRotation.transpose h.1, fun i j => h.2 j i⟩

/-- C169: rotating to the earth frame in single precision gives the exactly rotated velocity to 56 units of 2⁻²⁴. -/
theorem nk_earth_single {h p r : ℝ} {ch sh cp sp cr sr : ℚ}
    (hch : Spec.TrigNear ch (Real.cos (Real.pi / 2 - deg2rad h))) (hsh : Spec.TrigNear sh (Real.sin (Real.pi / 2 - deg2rad h)))
    (hcp : Spec.TrigNear cp (Real.cos (deg2rad p))) (hsp : Spec.TrigNear sp (Real.sin (deg2rad p)))
    (hcr : Spec.TrigNear cr (Real.cos (deg2rad r))) (hsr : Spec.TrigNear sr (Real.sin (deg2rad r)))
    (fused : Bool) {order : List (Fin 3)} (ho : order.Perm (List.finRange 3)) {v : Fin 3 → ℚ} {V : ℚ}
    (hv : ∀ j, |v j| ≤ V) (i : Fin 3) :
    |((nkInst2earthF fused order (nortekOrientF ch sh cp sp cr sr) false v i : ℚ) : ℝ)
      - ∑ j, nortekOrient h p r j i * (v j : ℝ)| ≤ ((56 / 2 ^ 24 * V : ℚ) : ℝ) := by
  have hV : 0 ≤ V := (abs_nonneg _).trans (hv 0)
  have := rot_accurate (by norm_num) (NearRot_transpose (nortekOrientF_near hch hsh hcp hsp hcr hsr)) (by norm_num)
    (rotSingle_approx fused ho _) hv i
  refine (this.trans ?_)
  exact_mod_cast mul_le_mul_of_nonneg_right (by norm_num) hV

/-- C169: there and back in single precision changes a velocity by at most 192 units of 2⁻²⁴ of the largest component. -/
theorem nk_back_single {h p r : ℝ} {ch sh cp sp cr sr : ℚ}
    (hch : Spec.TrigNear ch (Real.cos (Real.pi / 2 - deg2rad h))) (hsh : Spec.TrigNear sh (Real.sin (Real.pi / 2 - deg2rad h)))
    (hcp : Spec.TrigNear cp (Real.cos (deg2rad p))) (hsp : Spec.TrigNear sp (Real.sin (deg2rad p)))
    (hcr : Spec.TrigNear cr (Real.cos (deg2rad r))) (hsr : Spec.TrigNear sr (Real.sin (deg2rad r)))
    (fused : Bool) {order : List (Fin 3)} (ho : order.Perm (List.finRange 3)) {v : Fin 3 → ℚ} {V : ℚ}
    (hv : ∀ j, |v j| ≤ V) (i : Fin 3) :
    |nkInst2earthF fused order (nortekOrientF ch sh cp sp cr sr) true
      (nkInst2earthF fused order (nortekOrientF ch sh cp sp cr sr) false v) i - v i| ≤ 192 / 2 ^ 24 * V := by
  have hV : 0 ≤ V := (abs_nonneg _).trans (hv 0)
  have := rot_there_and_back (by norm_num) (NearRot_transpose (nortekOrientF_near hch hsh hcp hsp hcr hsr)) (by norm_num)
    (rotSingle_approx fused ho _) (rotSingle_approx fused ho _) hv i
  exact this.trans (mul_le_mul_of_nonneg_right (by norm_num) hV)

theorem nkVelSingle_near (fine : Bool) (n : ℤ) (hn : |n| ≤ 2 ^ 20) :
    |nkVelSingle fine n - (n : ℚ) * (if fine then 1 / 10000 else 1 / 1000)|
      ≤ (1 / 2 ^ 22 + 1 / 2 ^ 40) * |(n : ℚ) * (if fine then 1 / 10000 else 1 / 1000)| := by
  unfold nkVelSingle scaleSingle
  rw [fl32_int n (by omega)]
  have h1 := rel_mul (n : ℚ) (rel32 (1 / 1000))
  have h2 := rel_trans h1 (rel32 _) (by norm_num)
  set y := fl32 ((n : ℚ) * fl32 (1 / 1000)) with hy
  set c : ℚ := if fine then 1 / 10 else 1 with hc
  have h3 := rel_mul c h2
  have h4 := rel_mul y (rel32 c)
  rw [mul_comm y c] at h4
  have h5 := rel_trans h3 h4 (by norm_num)
  have h6 := rel_trans h5 (rel32 _) (by norm_num)
  rw [show c * ((n : ℚ) * (1 / 1000)) = (n : ℚ) * (if fine then 1 / 10000 else 1 / 1000) by
    rw [hc]; cases fine <;> simp <;> ring] at h6
  exact h6.trans (mul_le_mul_of_nonneg_right (by norm_num) (abs_nonneg _))

/-- C169: no recorded step of a Vector is lost by rotating to the earth frame and back in single precision: rounding the
velocity to the recorded resolution gives the recorded number, for every recorded velocity and every attitude. -/
theorem nk_back_recovers {h p r : ℝ} {ch sh cp sp cr sr : ℚ}
    (hch : Spec.TrigNear ch (Real.cos (Real.pi / 2 - deg2rad h))) (hsh : Spec.TrigNear sh (Real.sin (Real.pi / 2 - deg2rad h)))
    (hcp : Spec.TrigNear cp (Real.cos (deg2rad p))) (hsp : Spec.TrigNear sp (Real.sin (deg2rad p)))
    (hcr : Spec.TrigNear cr (Real.cos (deg2rad r))) (hsr : Spec.TrigNear sr (Real.sin (deg2rad r)))
    (fused : Bool) {order : List (Fin 3)} (ho : order.Perm (List.finRange 3)) (fine : Bool) {n : Fin 3 → ℤ}
    (hn : ∀ j, |n j| ≤ 32768) (i : Fin 3) :
    pyRound (nkInst2earthF fused order (nortekOrientF ch sh cp sp cr sr) true
      (nkInst2earthF fused order (nortekOrientF ch sh cp sp cr sr) false fun j => nkVelSingle fine (n j)) i
        / (if fine then 1 / 10000 else 1 / 1000)) = n i := by
  set s : ℚ := if fine then 1 / 10000 else 1 / 1000 with hs
  have hs0 : 0 < s := by rw [hs]; split <;> norm_num
  have hnear : ∀ j, |nkVelSingle fine (n j) - n j * s| ≤ (1 / 2 ^ 22 + 1 / 2 ^ 40) * (32768 * s) := by
    intro j
    refine (nkVelSingle_near fine (n j) ((hn j).trans (by norm_num))).trans ?_
    refine mul_le_mul_of_nonneg_left ?_ (by norm_num)
    rw [← hs, abs_mul, abs_of_pos hs0]
    have : |(n j : ℚ)| ≤ 32768 := by exact_mod_cast hn j
    exact mul_le_mul_of_nonneg_right this hs0.le
  have hV : ∀ j, |nkVelSingle fine (n j)| ≤ 32769 * s := by
    intro j
    have h1 := hnear j
    have h2 : |(n j : ℚ) * s| ≤ 32768 * s := by
      rw [abs_mul, abs_of_pos hs0]
      have : |(n j : ℚ)| ≤ 32768 := by exact_mod_cast hn j
      exact mul_le_mul_of_nonneg_right this hs0.le
    have h3 := abs_add_le (nkVelSingle fine (n j) - n j * s) (n j * s)
    rw [sub_add_cancel] at h3
    norm_num at h1 ⊢
    linarith
  have hb := nk_back_single hch hsh hcp hsp hcr hsr fused ho hV i
  generalize nkInst2earthF fused order (nortekOrientF ch sh cp sp cr sr) true
      (nkInst2earthF fused order (nortekOrientF ch sh cp sp cr sr) false fun j => nkVelSingle fine (n j)) i = y at hb
  apply pyRound_eq_of_lt
  have e : y / s - n i = (y - n i * s) / s := by field_simp
  rw [e, abs_div, abs_of_pos hs0, div_lt_iff₀ hs0]
  have h3 := abs_add_le (y - nkVelSingle fine (n i)) (nkVelSingle fine (n i) - n i * s)
  rw [sub_add_sub_cancel] at h3
  have h4 := hnear i
  norm_num at h4 hb ⊢
  linarith

/-- C169: any number of rotations there and back: the error grows at most like compound interest. -/
theorem nk_back_many {h p r : ℝ} {ch sh cp sp cr sr : ℚ}
    (hch : Spec.TrigNear ch (Real.cos (Real.pi / 2 - deg2rad h))) (hsh : Spec.TrigNear sh (Real.sin (Real.pi / 2 - deg2rad h)))
    (hcp : Spec.TrigNear cp (Real.cos (deg2rad p))) (hsp : Spec.TrigNear sp (Real.sin (deg2rad p)))
    (hcr : Spec.TrigNear cr (Real.cos (deg2rad r))) (hsr : Spec.TrigNear sr (Real.sin (deg2rad r)))
    (fused : Bool) {order : List (Fin 3)} (ho : order.Perm (List.finRange 3)) {v : Fin 3 → ℚ} {V : ℚ}
    (hv : ∀ j, |v j| ≤ V) (N : ℕ) (i : Fin 3) :
    |(fun w => nkInst2earthF fused order (nortekOrientF ch sh cp sp cr sr) true
      (nkInst2earthF fused order (nortekOrientF ch sh cp sp cr sr) false w))^[N] v i - v i|
      ≤ ((1 + 192 / 2 ^ 24) ^ N - 1) * V := by
  have hV : 0 ≤ V := (abs_nonneg _).trans (hv 0)
  induction N generalizing i with
  | zero => simp
  | succ N ih =>
    rw [Function.iterate_succ_apply']
    generalize (fun w => nkInst2earthF fused order (nortekOrientF ch sh cp sp cr sr) true
      (nkInst2earthF fused order (nortekOrientF ch sh cp sp cr sr) false w))^[N] v = w at ih ⊢
    have hw : ∀ j, |w j| ≤ (1 + 192 / 2 ^ 24) ^ N * V := by
      intro j
      have h1 := abs_add_le (w j - v j) (v j)
      rw [sub_add_cancel] at h1
      linarith [ih j, hv j]
    have h2 := nk_back_single hch hsh hcp hsp hcr hsr fused ho hw i
    have h3 := abs_add_le (nkInst2earthF fused order (nortekOrientF ch sh cp sp cr sr) true
      (nkInst2earthF fused order (nortekOrientF ch sh cp sp cr sr) false w) i - w i) (w i - v i)
    rw [sub_add_sub_cancel] at h3
    rw [pow_succ]
    linarith [ih i]

/-- Half of the square root of two, in single precision. -/
def rootHalf : ℚ := 11863283 / 2 ^ 24

/-- C169 is false of exact equality: with a heading of 45° and level, a velocity of 1 m/s along x comes back smaller. -/
theorem nk_back_exact_false :
    (∃ fused order, order.Perm (List.finRange 3) ∧ ∃ v : Fin 3 → ℚ,
      nkInst2earthF fused order (nortekOrientF rootHalf rootHalf 1 0 1 0) true
        (nkInst2earthF fused order (nortekOrientF rootHalf rootHalf 1 0 1 0) false v) 0 ≠ v 0) := by
  refine ⟨false, List.finRange 3, List.Perm.refl _, ![1, 0, 0], ?_⟩
  decide +kernel

/-! ### TRDI instruments -/

/-- C169: the same of TRDI data, for every matrix within 16 units of 2⁻²⁴ of a rotation: rounding to millimetres per second
gives the recorded number back. -/
theorem rd_back_recovers {A : Fin 3 → Fin 3 → ℚ} {R : M3} (h : Spec.NearRot (16 / 2 ^ 24) A R) (fused : Bool)
    {order : List (Fin 3)} (ho : order.Perm (List.finRange 3)) {n : Fin 3 → ℤ} (hn : ∀ j, |n j| ≤ 32768) (i : Fin 3) :
    pyRound (rotStore fused order (fun i j => A j i) (rotStore fused order A fun j => storeLin (1 / 1000) 0 (n j)) i
      / (1 / 1000)) = n i := by
  have hnear : ∀ j, |storeLin (1 / 1000) 0 (n j) - n j * (1 / 1000)| ≤ (1 / 2 ^ 24 + 1 / 2 ^ 51) * (32768 * (1 / 1000)) := by
    intro j
    have h1 := storeLin_near (1 / 1000) 0 (n j)
    simp only [Int.cast_zero, add_zero] at h1
    refine h1.trans (mul_le_mul_of_nonneg_left ?_ (by norm_num))
    rw [abs_mul, abs_of_pos (by norm_num : (0 : ℚ) < 1 / 1000)]
    have : |(n j : ℚ)| ≤ 32768 := by exact_mod_cast hn j
    exact mul_le_mul_of_nonneg_right this (by norm_num)
  have hV : ∀ j, |storeLin (1 / 1000) 0 (n j)| ≤ 32769 / 1000 := by
    intro j
    have h1 := hnear j
    have h2 : |(n j : ℚ) * (1 / 1000)| ≤ 32768 * (1 / 1000) := by
      rw [abs_mul, abs_of_pos (by norm_num : (0 : ℚ) < 1 / 1000)]
      have : |(n j : ℚ)| ≤ 32768 := by exact_mod_cast hn j
      exact mul_le_mul_of_nonneg_right this (by norm_num)
    have h3 := abs_add_le (storeLin (1 / 1000) 0 (n j) - n j * (1 / 1000)) (n j * (1 / 1000))
    rw [sub_add_cancel] at h3
    norm_num at h1 h2 h3 ⊢
    linarith
  have hb := rot_there_and_back (by norm_num) h (by norm_num) (rotStore_approx fused ho _) (rotStore_approx fused ho _) hV i
  generalize rotStore fused order (fun i j => A j i) (rotStore fused order A fun j => storeLin (1 / 1000) 0 (n j)) i = y at hb
  apply pyRound_eq_of_lt
  have e : y / (1 / 1000) - n i = (y - n i * (1 / 1000)) * 1000 := by ring
  rw [e, abs_mul]
  have h3 := abs_add_le (y - storeLin (1 / 1000) 0 (n i)) (storeLin (1 / 1000) 0 (n i) - n i * (1 / 1000))
  rw [sub_add_sub_cancel] at h3
  have h4 := hnear i
  norm_num at h4 hb h3 ⊢
  linarith

/-- The rotation matrix of a TRDI instrument for heading, pitch and roll in radians. -/
noncomputable def Spec.rdiRot (h p r : ℝ) : M3 :=
  !![Real.cos h * Real.cos r + Real.sin h * Real.sin p * Real.sin r, Real.sin h * Real.cos p,
      Real.cos h * Real.sin r - Real.sin h * Real.sin p * Real.cos r;
     -Real.sin h * Real.cos r + Real.cos h * Real.sin p * Real.sin r, Real.cos h * Real.cos p,
      -Real.sin h * Real.sin r - Real.cos h * Real.sin p * Real.cos r;
     -Real.cos p * Real.sin r, Real.sin p, Real.cos p * Real.cos r]

/-- It is the one of the exact model, at the angles of Equation 18. -/
theorem rdiOrient_rdiRot (up : Bool) (h p r : ℝ) :
    rdiOrient true up false h p r = (Spec.rdiRot (deg2rad h)
      (Real.arctan (Real.tan (deg2rad p) * Real.cos (deg2rad r)))
      (if up then deg2rad r + Real.pi else deg2rad r)).transpose := by
  cases up <;> rfl

theorem rdiRot_rotation (h p r : ℝ) : Spec.IsRotation (Spec.rdiRot h p r) := by
  have e : Spec.rdiRot h p r = !![Real.cos h, Real.sin h, 0; -Real.sin h, Real.cos h, 0; 0, 0, 1]
      * !![1, 0, 0; 0, Real.cos p, -Real.sin p; 0, -(-Real.sin p), Real.cos p]
      * !![Real.cos r, 0, -(-Real.sin r); 0, 1, 0; -Real.sin r, 0, Real.cos r] := by
    unfold Spec.rdiRot
    ext i j
    fin_cases i <;> fin_cases j <;> simp [Matrix.mul_apply, Fin.sum_univ_three] <;> ring
  rw [e]
  exact ((rotZ_isRotation _ _ (Real.cos_sq_add_sin_sq h)).mul
    (rotX_isRotation _ _ (by rw [neg_sq]; exact Real.cos_sq_add_sin_sq p))).mul
    (rotY_isRotation _ _ (by rw [neg_sq]; exact Real.cos_sq_add_sin_sq r))

/-- C169: the rotation matrix in single precision lies within 16 units of 2⁻²⁴ of the rotation by the angles whose cosines and
sines were taken. -/
theorem rdiRotF_near {h p r : ℝ} {ch sh cp sp cr sr : ℚ}
    (hch : Spec.TrigNear ch (Real.cos h)) (hsh : Spec.TrigNear sh (Real.sin h)) (hcp : Spec.TrigNear cp (Real.cos p))
    (hsp : Spec.TrigNear sp (Real.sin p)) (hcr : Spec.TrigNear cr (Real.cos r)) (hsr : Spec.TrigNear sr (Real.sin r)) :
    Spec.NearRot (16 / 2 ^ 24) (rdiRotF ch sh cp sp cr sr) (Spec.rdiRot h p r) := by
  have hR := rdiRot_rotation h p r
  refine ⟨hR, ?_⟩
  have hle := entry_le_one hR
  have c1 := Real.abs_cos_le_one h
  have s1 := Real.abs_sin_le_one h
  have c2 := Real.abs_cos_le_one p
  have s2 := Real.abs_sin_le_one p
  have c3 := Real.abs_cos_le_one r
  have s3 := Real.abs_sin_le_one r
  unfold Spec.TrigNear at hch hsh hcp hsp hcr hsr
  set xch := Real.cos h with xch_def
  set xsh := Real.sin h with xsh_def
  set xcp := Real.cos p with xcp_def
  set xsp := Real.sin p with xsp_def
  set xcr := Real.cos r with xcr_def
  set xsr := Real.sin r with xsr_def
  have nsh := neg_near hsh
  have ncp := neg_near hcp
  have sn : |-xsh| ≤ 1 := by rwa [abs_neg]
  have cn : |-xcp| ≤ 1 := by rwa [abs_neg]
  have two : ∀ {a b : ℚ} {x y : ℝ}, |x| ≤ 1 → |y| ≤ 1 → |(a : ℝ) - x| ≤ ((2 / 2 ^ 24 : ℚ) : ℝ) →
      |(b : ℝ) - y| ≤ ((2 / 2 ^ 24 : ℚ) : ℝ) → |((fl32 (a * b) : ℚ) : ℝ) - x * y| ≤ (((2 + 2 + 1001 / 1000) / 2 ^ 24 : ℚ) : ℝ) :=
    fun hx hy ha hb => mulF_near hx hy (by norm_num) (by norm_num) ha hb
  have three : ∀ {a b c : ℚ} {x y z : ℝ}, |x| ≤ 1 → |y| ≤ 1 → |z| ≤ 1 → |(a : ℝ) - x| ≤ ((2 / 2 ^ 24 : ℚ) : ℝ) →
      |(b : ℝ) - y| ≤ ((2 / 2 ^ 24 : ℚ) : ℝ) → |(c : ℝ) - z| ≤ ((2 / 2 ^ 24 : ℚ) : ℝ) →
      |((fl32 (fl32 (a * b) * c) : ℚ) : ℝ) - x * y * z| ≤ (((2 + 2 + 1001 / 1000 + 2 + 1001 / 1000) / 2 ^ 24 : ℚ) : ℝ) :=
    fun hx hy hz ha hb hc => mulF_near (abs_mul_le_one hx hy) hz (by norm_num) (by norm_num) (two hx hy ha hb) hc
  have e00 : |xch * xcr + xsh * xsp * xsr| ≤ 1 := hle 0 0
  have e02 : |xch * xsr - xsh * xsp * xcr| ≤ 1 := hle 0 2
  have e10 : |-xsh * xcr + xch * xsp * xsr| ≤ 1 := hle 1 0
  have e12 : |-xsh * xsr - xch * xsp * xcr| ≤ 1 := hle 1 2
  have q00 := near_weaken (addF_near e00 (by norm_num) (by norm_num) (two c1 c3 hch hcr) (three s1 s2 s3 hsh hsp hsr))
    (q := 16 / 2 ^ 24) (by norm_num)
  have q01 := near_weaken (two s1 c2 hsh hcp) (q := 16 / 2 ^ 24) (by norm_num)
  have q02 := near_weaken (subF_near e02 (by norm_num) (by norm_num) (two c1 s3 hch hsr) (three s1 s2 c3 hsh hsp hcr))
    (q := 16 / 2 ^ 24) (by norm_num)
  have q10 := near_weaken (addF_near e10 (by norm_num) (by norm_num) (two sn c3 nsh hcr) (three c1 s2 s3 hch hsp hsr))
    (q := 16 / 2 ^ 24) (by norm_num)
  have q11 := near_weaken (two c1 c2 hch hcp) (q := 16 / 2 ^ 24) (by norm_num)
  have q12 := near_weaken (subF_near e12 (by norm_num) (by norm_num) (two sn s3 nsh hsr) (three c1 s2 c3 hch hsp hcr))
    (q := 16 / 2 ^ 24) (by norm_num)
  have q20 := near_weaken (two cn s3 ncp hsr) (q := 16 / 2 ^ 24) (by norm_num)
  have q21 := near_weaken hsp (q := 16 / 2 ^ 24) (by norm_num)
  have q22 := near_weaken (two c2 c3 hcp hcr) (q := 16 / 2 ^ 24) (by norm_num)
  intro i j
  fin_cases i <;> fin_cases j
  · exact q00
  · exact q01
  · exact q02
  · exact q10
  · exact q11
  · exact q12
  · exact q20
  · exact q21
  · exact q22

/-- C169: recorded velocities of a TRDI instrument, rotated to the earth and back with the matrix of single precision, are
the recorded ones to the millimetre per second, whatever the angles. -/
theorem rd_attitude_recovers {h p r : ℝ} {ch sh cp sp cr sr : ℚ}
    (hch : Spec.TrigNear ch (Real.cos h)) (hsh : Spec.TrigNear sh (Real.sin h)) (hcp : Spec.TrigNear cp (Real.cos p))
    (hsp : Spec.TrigNear sp (Real.sin p)) (hcr : Spec.TrigNear cr (Real.cos r)) (hsr : Spec.TrigNear sr (Real.sin r))
    (fused : Bool) {order : List (Fin 3)} (ho : order.Perm (List.finRange 3)) {n : Fin 3 → ℤ} (hn : ∀ j, |n j| ≤ 32768)
    (i : Fin 3) :
    pyRound (rdInst2earthF fused order (rdiRotF ch sh cp sp cr sr) true
      (rdInst2earthF fused order (rdiRotF ch sh cp sp cr sr) false fun j => storeLin (1 / 1000) 0 (n j)) i / (1 / 1000)) = n i :=
  rd_back_recovers (rdiRotF_near hch hsh hcp hsp hcr hsr) fused ho hn i

/-! ### An attitude -/

theorem rootHalf_near : |(rootHalf : ℝ) - Real.sqrt 2 / 2| ≤ ((2 / 2 ^ 24 : ℚ) : ℝ) := by
  have h1 : (1414213 / 1000000 : ℝ) ≤ Real.sqrt 2 := Real.le_sqrt_of_sq_le (by norm_num)
  have h2 : (14142135 / 10000000 : ℝ) ≤ Real.sqrt 2 := Real.le_sqrt_of_sq_le (by norm_num)
  have h3 : Real.sqrt 2 ≤ (14142136 / 10000000 : ℝ) := by
    rw [Real.sqrt_le_left (by norm_num)]; norm_num
  unfold rootHalf
  rw [abs_le]
  push_cast
  constructor <;> norm_num <;> linarith

/-- The hypotheses are met: a heading of 45°, level. -/
example : Spec.TrigNear rootHalf (Real.cos (Real.pi / 2 - deg2rad 45)) ∧
    Spec.TrigNear rootHalf (Real.sin (Real.pi / 2 - deg2rad 45)) ∧ Spec.TrigNear 1 (Real.cos (deg2rad 0)) ∧
    Spec.TrigNear 0 (Real.sin (deg2rad 0)) := by
  have e : Real.pi / 2 - deg2rad 45 = Real.pi / 4 := by unfold deg2rad; ring
  rw [e, Real.cos_pi_div_four, Real.sin_pi_div_four]
  refine ⟨rootHalf_near, rootHalf_near, ?_, ?_⟩
  · unfold Spec.TrigNear deg2rad; norm_num
  · unfold Spec.TrigNear deg2rad; norm_num

/-- The largest velocities at that attitude, there and back. -/
example : pyRound (nkInst2earthF true [2, 0, 1] (nortekOrientF rootHalf rootHalf 1 0 1 0) true
    (nkInst2earthF true [2, 0, 1] (nortekOrientF rootHalf rootHalf 1 0 1 0) false fun j =>
      nkVelSingle true (![32767, -32768, 1] j)) 1 / (1 / 10000)) = -32768 := by
  have e : Real.pi / 2 - deg2rad 45 = Real.pi / 4 := by unfold deg2rad; ring
  have h1 : Spec.TrigNear rootHalf (Real.cos (Real.pi / 2 - deg2rad 45)) := by
    rw [e, Real.cos_pi_div_four]; exact rootHalf_near
  have h2 : Spec.TrigNear rootHalf (Real.sin (Real.pi / 2 - deg2rad 45)) := by
    rw [e, Real.sin_pi_div_four]; exact rootHalf_near
  have h3 : Spec.TrigNear 1 (Real.cos (deg2rad 0)) := by unfold Spec.TrigNear deg2rad; norm_num
  have h4 : Spec.TrigNear 0 (Real.sin (deg2rad 0)) := by unfold Spec.TrigNear deg2rad; norm_num
  have := nk_back_recovers h1 h2 h3 h4 h3 h4 true (order := [2, 0, 1]) (by decide) true (n := ![32767, -32768, 1])
    (by decide) 1
  simpa using this

/-- A TRDI instrument looking up, heading 45°, level: the roll is half a turn. -/
example : pyRound (rdInst2earthF false [0, 1, 2] (rdiRotF rootHalf rootHalf 1 0 (-1) 0) true
    (rdInst2earthF false [0, 1, 2] (rdiRotF rootHalf rootHalf 1 0 (-1) 0) false fun j =>
      storeLin (1 / 1000) 0 (![1234, -32768, 7] j)) 1 / (1 / 1000)) = -32768 := by
  have h1 : Spec.TrigNear rootHalf (Real.cos (Real.pi / 4)) := by rw [Real.cos_pi_div_four]; exact rootHalf_near
  have h2 : Spec.TrigNear rootHalf (Real.sin (Real.pi / 4)) := by rw [Real.sin_pi_div_four]; exact rootHalf_near
  have h3 : Spec.TrigNear 1 (Real.cos 0) := by unfold Spec.TrigNear; norm_num
  have h4 : Spec.TrigNear 0 (Real.sin 0) := by unfold Spec.TrigNear; norm_num
  have h5 : Spec.TrigNear (-1) (Real.cos Real.pi) := by unfold Spec.TrigNear; norm_num
  have h6 : Spec.TrigNear 0 (Real.sin Real.pi) := by unfold Spec.TrigNear; norm_num
  have := rd_attitude_recovers h1 h2 h3 h4 h5 h6 false (order := [0, 1, 2]) (by decide) (n := ![1234, -32768, 7])
    (by decide) 1
  simpa using this

end Dolfyn
