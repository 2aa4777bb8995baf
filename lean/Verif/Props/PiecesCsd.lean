import Verif.Props.Pieces
import Verif.Props.Csd

/-!
C172, continued: cross spectra, coherences and phase angles of a long record processed in pieces.
-/

namespace Dolfyn

theorem window_first (q n l2 nf r : ℕ) (x y : ℕ → ℝ) (hn : 0 < n) (hnf : nf ≤ 2 * n) (hr : r + 1 < q) :
    Spec.window (Spec.join (q * n) x y) (q * n + l2) n nf r = Spec.window x (q * n) n nf r := by
  have e1 : q * n / n = q := Nat.mul_div_cancel q hn
  have e2 : (q * n + l2) / n = q + l2 / n := by rw [add_comm, Nat.add_mul_div_right _ _ hn, add_comm]
  have e4 : (q + l2 / n) * n = q * n + l2 / n * n := Nat.add_mul _ _ _
  have hr2 := Nat.mul_le_mul_right n hr
  rw [Nat.succ_mul, Nat.succ_mul] at hr2
  unfold Spec.window
  refine List.map_congr_left fun j hj => ?_
  have hj := List.mem_range.mp hj
  rw [e1, e2, e4]
  unfold Spec.padded
  have c : (r : ℤ) * n = ((r * n : ℕ) : ℤ) := by push_cast; ring
  rw [c]
  generalize r * n = R at *
  generalize q * n = Q at *
  generalize l2 / n * n = Z at *
  by_cases h0 : (0 : ℤ) ≤ (R : ℤ) + j - (nf / 2 : ℕ)
  · rw [if_pos ⟨h0, by push_cast; omega⟩, if_pos ⟨h0, by omega⟩]
    unfold Spec.join
    rw [if_pos (by omega)]
  · rw [if_neg (fun h => h0 h.1), if_neg (fun h => h0 h.1)]

theorem window_second (q n l2 nf r : ℕ) (x y : ℕ → ℝ) (hn : 0 < n) (hnf : nf ≤ 2 * n) (hr : 0 < r) :
    Spec.window (Spec.join (q * n) x y) (q * n + l2) n nf (q + r) = Spec.window y l2 n nf r := by
  have e2 : (q * n + l2) / n = q + l2 / n := by rw [add_comm, Nat.add_mul_div_right _ _ hn, add_comm]
  have e4 : (q + l2 / n) * n = q * n + l2 / n * n := Nat.add_mul _ _ _
  have hr0 := Nat.le_mul_of_pos_left n hr
  unfold Spec.window
  refine List.map_congr_left fun j hj => ?_
  rw [e2, e4]
  unfold Spec.padded
  have c : ((q + r : ℕ) : ℤ) * n = ((q * n : ℕ) : ℤ) + ((r * n : ℕ) : ℤ) := by push_cast; ring
  have c' : (r : ℤ) * n = ((r * n : ℕ) : ℤ) := by push_cast; ring
  rw [c, c']
  generalize r * n = R at *
  generalize q * n = Q at *
  generalize l2 / n * n = Z at *
  by_cases h1 : (R : ℤ) + j - (nf / 2 : ℕ) < (Z : ℤ)
  · rw [if_pos ⟨by omega, by push_cast; omega⟩, if_pos ⟨by omega, h1⟩]
    unfold Spec.join
    rw [if_neg (by omega)]
    congr 1
    omega
  · rw [if_neg (fun h => h1 (by have := h.2; push_cast at this ⊢; omega)), if_neg (fun h => h1 h.2)]

/-- Rows of two pieces against those of the record: all but the last of the first piece and the first of the second. -/
def Spec.sameButJoint {β : Type*} (q k : ℕ) (s s1 s2 : List β) : Prop :=
  s1.length = q ∧ s2.length = k ∧ s.length = q + k ∧ (∀ r, r + 1 < q → s[r]? = s1[r]?) ∧
    ∀ r, 0 < r → s[q + r]? = s2[r]?

theorem sameButJoint_map {β : Type*} (q k : ℕ) (f g h : ℕ → β) (h1 : ∀ r, r + 1 < q → f r = g r)
    (h2 : ∀ r, 0 < r → f (q + r) = h r) :
    Spec.sameButJoint q k ((List.range (q + k)).map f) ((List.range q).map g) ((List.range k).map h) := by
  refine ⟨by simp, by simp, by simp, fun r hr => ?_, fun r hr => ?_⟩
  · rw [List.getElem?_map, List.getElem?_map, List.getElem?_range (by omega), List.getElem?_range (by omega)]
    simp only [Option.map_some, h1 r hr]
  · by_cases hl : r < k
    · rw [List.getElem?_map, List.getElem?_map, List.getElem?_range (by omega), List.getElem?_range hl]
      simp only [Option.map_some, h2 r hr]
    · rw [List.getElem?_eq_none (by simp; omega), List.getElem?_eq_none (by simp; omega)]

/-- **C172** (cross spectra), the part that holds: every estimator that gives one value per frequency, series of equal
length. Missing: the bins at the joint, which see zeros in place of the neighbouring piece. -/
theorem pieces_csd_partial {β : Type*} (cross quasi : List ℝ → List ℝ → ℕ → List β) (q n nf l2 : ℕ) (x y u v : ℕ → ℝ)
    (hn : 0 < n) (hq : 0 < q) (h2 : n ≤ l2) (hnf : nf ≤ n) (hest : ∀ a b, (cross a b nf).length = nf / 2)
    (hn2 : n < 2 ^ 51) (hl : q * n + l2 < 2 ^ 53) :
    ∃ s s1 s2, calcCsd cross quasi n nf none none (q * n + l2) (q * n + l2) (Spec.join (q * n) x u)
        (Spec.join (q * n) y v) = .ok s ∧
      calcCsd cross quasi n nf none none (q * n) (q * n) x y = .ok s1 ∧
      calcCsd cross quasi n nf none none l2 l2 u v = .ok s2 ∧ Spec.sameButJoint q (l2 / n) s s1 s2 := by
  have hqn : n ≤ q * n := Nat.le_mul_of_pos_left n hq
  have e1 : q * n / n = q := Nat.mul_div_cancel q hn
  have e2 : (q * n + l2) / n = q + l2 / n := by rw [add_comm, Nat.add_mul_div_right _ _ hn, add_comm]
  have a := csd_same_span_partial cross quasi n nf (q * n + l2) (Spec.join (q * n) x u) (Spec.join (q * n) y v) hn (by omega)
    hnf hest hn2 hl
  have b := csd_same_span_partial cross quasi n nf (q * n) x y hn hqn hnf hest hn2 (by omega)
  have c := csd_same_span_partial cross quasi n nf l2 u v hn h2 hnf hest hn2 (by omega)
  rw [e2] at a
  rw [e1] at b
  refine ⟨_, _, _, a, b, c, sameButJoint_map q (l2 / n) _ _ _ (fun r hr => ?_) (fun r hr => ?_)⟩
  · rw [window_first q n l2 nf r x u hn (by omega) hr, window_first q n l2 nf r y v hn (by omega) hr]
  · rw [window_second q n l2 nf r x u hn (by omega) hr, window_second q n l2 nf r y v hn (by omega) hr]

/-- **C172** (coherences and phase angles), the part that holds: also for series of which the first has `c` samples for
each sample of the second. The bin lengths are those of C96. -/
theorem pieces_coh_partial {β : Type*} (est : List ℝ → List ℝ → ℕ → List β) (c q n nf l2 : ℕ) (x y u v : ℕ → ℝ)
    (hn : 0 < n) (hq : 0 < q) (h2 : n ≤ l2) (hc : 0 < c) (hnf : nf ≤ n) (hest : ∀ a b, (est a b nf).length = nf / 2)
    (hcn : c * n < 2 ^ 51) (hl : c * (q * n + l2) < 2 ^ 53) (hb : n ∣ l2 ∨ ∃ k, n = 2 ^ k) :
    ∃ s s1 s2, calcCoh est n nf none none (c * (q * n + l2)) (q * n + l2) (Spec.join (q * (c * n)) x u)
        (Spec.join (q * n) y v) = .ok (s, nf / 2) ∧
      calcCoh est n nf none none (c * (q * n)) (q * n) x y = .ok (s1, nf / 2) ∧
      calcCoh est n nf none none (c * l2) l2 u v = .ok (s2, nf / 2) ∧ Spec.sameButJoint q (l2 / n) s s1 s2 := by
  have hqn : n ≤ q * n := Nat.le_mul_of_pos_left n hq
  have e1 : q * n / n = q := Nat.mul_div_cancel q hn
  have e2 : (q * n + l2) / n = q + l2 / n := by rw [add_comm, Nat.add_mul_div_right _ _ hn, add_comm]
  have k1 : c * (q * n) ≤ c * (q * n + l2) := Nat.mul_le_mul_left c (by omega)
  have k2 : c * l2 ≤ c * (q * n + l2) := Nat.mul_le_mul_left c (by omega)
  have k3 : c * (q * n + l2) = q * (c * n) + c * l2 := by ring
  have k4 : c * (q * n) = q * (c * n) := by ring
  have a := coh_same_span est n nf c (q * n + l2) (Spec.join (q * (c * n)) x u) (Spec.join (q * n) y v) hn (by omega) hc hnf
    hest hcn hl (hb.imp_left fun h => (Nat.dvd_add_right (Dvd.intro_left q rfl)).mpr h)
  have b := coh_same_span est n nf c (q * n) x y hn hqn hc hnf hest hcn (by omega) (Or.inl (Dvd.intro_left q rfl))
  have d := coh_same_span est n nf c l2 u v hn h2 hc hnf hest hcn (by omega) hb
  rw [e2] at a
  rw [e1] at b
  have hcn0 : 0 < c * n := Nat.mul_pos hc hn
  have hle : n ≤ c * n := Nat.le_mul_of_pos_left n hc
  refine ⟨_, _, _, a, b, d, sameButJoint_map q (l2 / n) _ _ _ (fun r hr => ?_) (fun r hr => ?_)⟩
  · rw [k3, k4, window_first q (c * n) (c * l2) nf r x u hcn0 (by omega) hr, window_first q n l2 nf r y v hn (by omega) hr]
  · rw [k3, window_second q (c * n) (c * l2) nf r x u hcn0 (by omega) hr, window_second q n l2 nf r y v hn (by omega) hr]

/-- Why **C172** stops at the joint for cross spectra and coherences: the window of the last bin of the first piece ends
with zeros where that of the record has data. -/
theorem pieces_window_false : Spec.window (Spec.join 8 (fun _ => (1 : ℝ)) fun _ => 1) 16 4 2 1 = [1, 1, 1, 1, 1, 1] ∧
    Spec.window (fun _ => (1 : ℝ)) 8 4 2 1 = [1, 1, 1, 1, 1, 0] := by
  constructor <;> simp [Spec.window, Spec.padded, Spec.join, List.range_succ]

/-- The same as the result of a call, for a stand-in estimator that sums the second series (`pieces_psd_false` has a
witness with the estimator of the code). -/
theorem pieces_csd_false : ∃ s s1 : List (List ℝ), ∃ cross : List ℝ → List ℝ → ℕ → List ℝ, ∀ quasi,
    calcCsd cross quasi 4 2 none none 16 16 (Spec.join 8 (fun _ => (1 : ℝ)) fun _ => 1)
      (Spec.join 8 (fun _ => (1 : ℝ)) fun _ => 1) = .ok s ∧
    calcCsd cross quasi 4 2 none none 8 8 (fun _ => (1 : ℝ)) (fun _ => 1) = .ok s1 ∧ s[1]? = some [6] ∧ s1[1]? = some [5] := by
  refine ⟨_, _, fun _ b _ => [b.sum], fun quasi => ⟨csd_same_span_partial _ quasi 4 2 16 _ _ (by norm_num) (by norm_num) (by norm_num)
    (fun _ _ => rfl) (by norm_num) (by norm_num), csd_same_span_partial _ quasi 4 2 8 _ _ (by norm_num) (by norm_num) (by norm_num)
    (fun _ _ => rfl) (by norm_num) (by norm_num), ?_, ?_⟩⟩
  · simp only [List.getElem?_map, List.getElem?_range (by norm_num : 1 < 16 / 4), Option.map_some, pieces_window_false.1]
    norm_num
  · simp only [List.getElem?_map, List.getElem?_range (by norm_num : 1 < 8 / 4), Option.map_some, pieces_window_false.2]
    norm_num

example : ∃ s s1 s2, calcCoh (fun a b _ => [a.sum * b.sum]) 4 2 none none (2 * (3 * 4 + 8)) (3 * 4 + 8)
      (Spec.join (3 * (2 * 4)) (fun i => (i : ℝ)) fun _ => 1) (Spec.join (3 * 4) (fun i => (i : ℝ) ^ 2) fun i => (i : ℝ)) =
        .ok (s, 2 / 2) ∧
    calcCoh (fun a b _ => [a.sum * b.sum]) 4 2 none none (2 * (3 * 4)) (3 * 4) (fun i => (i : ℝ)) (fun i => (i : ℝ) ^ 2) =
      .ok (s1, 2 / 2) ∧
    calcCoh (fun a b _ => [a.sum * b.sum]) 4 2 none none (2 * 8) 8 (fun _ => 1) (fun i => (i : ℝ)) = .ok (s2, 2 / 2) ∧
    Spec.sameButJoint 3 (8 / 4) s s1 s2 :=
  pieces_coh_partial _ 2 3 4 2 8 (fun i => (i : ℝ)) (fun i => (i : ℝ) ^ 2) (fun _ => 1) (fun i => (i : ℝ)) (by norm_num) (by norm_num)
    (by norm_num) (by norm_num) (by norm_num) (fun _ _ => rfl) (by norm_num) (by norm_num) (Or.inl (by decide))

end Dolfyn
