import Verif.Model.Rotate
import Mathlib.Tactic.Linarith
import Mathlib.Tactic.Ring
import Mathlib.Tactic.FinCases
import Mathlib.Tactic.NormNum

/-! Helper lemmas for the rotation properties. -/

namespace Dolfyn

variable {T : Type}

theorem applyM_mul {n : ℕ} (A B : Matrix (Fin n) (Fin n) ℝ) (v : ℕ → ℝ) :
    applyM (A * B) v = applyM A (applyM B v) := by
  funext i
  unfold applyM
  split_ifs with h
  · simp only [Matrix.mul_apply, Fin.is_lt, dite_true, Fin.eta, Finset.sum_mul, Finset.mul_sum]
    rw [Finset.sum_comm]
    simp only [mul_assoc]
  · rfl

theorem applyM_one {n : ℕ} (v : ℕ → ℝ) : applyM (1 : Matrix (Fin n) (Fin n) ℝ) v = v := by
  funext i
  unfold applyM
  split_ifs with h
  · simp [Matrix.one_apply]
  · rfl

theorem RVar.rot_rot {n : ℕ} (v : RVar T) (A B : T → Matrix (Fin n) (Fin n) ℝ) :
    (v.rot B).rot A = v.rot (fun t => A t * B t) := by
  simp only [RVar.rot, applyM_mul]

theorem RVar.rot_one {n : ℕ} (v : RVar T) (A : T → Matrix (Fin n) (Fin n) ℝ)
    (h : ∀ t, A t = 1) : v.rot A = v := by
  have : (fun t => applyM (A t) (v.val t)) = v.val := by
    funext t; rw [h t, applyM_one]
  simp only [RVar.rot, this]

@[simp] theorem RVar.rot_n {n : ℕ} (v : RVar T) (A : T → Matrix (Fin n) (Fin n) ℝ) :
    (v.rot A).n = v.n := rfl
@[simp] theorem RVar.rot_name {n : ℕ} (v : RVar T) (A : T → Matrix (Fin n) (Fin n) ℝ) :
    (v.rot A).name = v.name := rfl

theorem RVar.rot_cancel {n : ℕ} (v : RVar T) (A B : T → Matrix (Fin n) (Fin n) ℝ)
    (h : ∀ t, A t * B t = 1) : (v.rot B).rot A = v := by
  rw [RVar.rot_rot, RVar.rot_one _ _ h]

theorem ite_err_ok {α : Type} {p : Prop} [Decidable p] {e : Err} {x y : α} :
    (if p then Except.error e else Except.ok x : Except Err α) = .ok y ↔ ¬ p ∧ x = y := by
  by_cases h : p <;> simp [h]

theorem mapM_ok_cons {α β : Type} (f : α → Except Err β) (a : α) (l : List α) :
    (a :: l).mapM f = (do let b ← f a; let bs ← l.mapM f; pure (b :: bs)) := List.mapM_cons

/-- If `g` undoes `f` wherever `f` succeeds then mapping over a list is undone too. -/
theorem mapM_roundtrip {α β : Type} {f : α → Except Err β} {g : β → Except Err α}
    (l : List α) (l' : List β)
    (h : ∀ a ∈ l, ∀ b, f a = .ok b → g b = .ok a) (hl : l.mapM f = .ok l') :
    l'.mapM g = .ok l := by
  induction l generalizing l' with
  | nil =>
    simp only [List.mapM_nil] at hl
    cases hl; rfl
  | cons a l ih =>
    rw [List.mapM_cons] at hl
    cases hfa : f a with
    | error e => rw [hfa] at hl; cases hl
    | ok b =>
      rw [hfa] at hl
      cases hfl : l.mapM f with
      | error e => rw [hfl] at hl; cases hl
      | ok bs =>
        rw [hfl] at hl
        cases hl
        rw [List.mapM_cons, h a (by simp) b hfa,
          ih bs (fun a' ha' => h a' (by simp [ha'])) hfl]
        rfl

theorem mapM_mem {α β : Type} {f : α → Except Err β} (l : List α) (l' : List β)
    (hl : l.mapM f = .ok l') (b : β) (hb : b ∈ l') : ∃ a ∈ l, f a = .ok b := by
  induction l generalizing l' with
  | nil =>
    simp only [List.mapM_nil] at hl
    cases hl; simp at hb
  | cons a l ih =>
    rw [List.mapM_cons] at hl
    cases hfa : f a with
    | error e => rw [hfa] at hl; cases hl
    | ok b' =>
      rw [hfa] at hl
      cases hfl : l.mapM f with
      | error e => rw [hfl] at hl; cases hl
      | ok bs =>
        rw [hfl] at hl
        cases hl
        rcases List.mem_cons.mp hb with rfl | hb
        · exact ⟨a, by simp, hfa⟩
        · obtain ⟨a', ha', h'⟩ := ih bs hfl hb
          exact ⟨a', by simp [ha'], h'⟩

theorem mapM_ok_of_forall {α β : Type} {f : α → Except Err β} {g : α → β} (l : List α)
    (h : ∀ a ∈ l, f a = .ok (g a)) : l.mapM f = .ok (l.map g) := by
  induction l with
  | nil => rfl
  | cons a l ih =>
    rw [List.mapM_cons, h a (by simp), ih (fun a' ha' => h a' (by simp [ha']))]
    rfl

theorem rot2_mul_neg (a : ℝ) : rot2 a * rot2 (-a) = 1 := by
  have := Real.cos_sq_add_sin_sq a
  ext i j
  fin_cases i <;> fin_cases j <;>
    simp [rot2, Matrix.mul_apply, Fin.sum_univ_two] <;> nlinarith

theorem rot2_neg_mul (a : ℝ) : rot2 (-a) * rot2 a = 1 := by
  have := rot2_mul_neg (-a)
  rwa [neg_neg] at this

theorem sign3_mul_self : sign3 * sign3 = 1 := by
  unfold sign3
  rw [Matrix.diagonal_mul_diagonal]
  ext i j; fin_cases i <;> fin_cases j <;> simp [Matrix.diagonal]

theorem sign4_mul_self : sign4 * sign4 = 1 := by
  unfold sign4
  rw [Matrix.diagonal_mul_diagonal]
  ext i j; fin_cases i <;> fin_cases j <;> simp [Matrix.diagonal]

/-- The determinant of the Signature 4×4 matrix. -/
theorem ext4_det (R : M3) : (ext4 R).det = R 2 2 * R.det := by
  rw [Matrix.det_fin_three, Matrix.det_succ_row_zero]
  simp [Fin.sum_univ_four, Matrix.det_fin_three, ext4, Fin.succAbove]
  ring

theorem orth_comm {n : ℕ} {A : Matrix (Fin n) (Fin n) ℝ} (h : A * A.transpose = 1) :
    A.transpose * A = 1 := mul_eq_one_comm.mp h

theorem orth_det_ne {n : ℕ} {A : Matrix (Fin n) (Fin n) ℝ} (h : A * A.transpose = 1) :
    A.det ≠ 0 := by
  intro h0
  have := congrArg Matrix.det h
  rw [Matrix.det_mul, h0] at this
  simp at this

end Dolfyn
