import Verif.Props.Pieces
import Verif.Props.Cov

/-!
C172, continued: auto- and cross-covariances of a long record processed in pieces.
-/

namespace Dolfyn

theorem join_binAvg (q n r : ℕ) (x y : ℕ → ℝ) (hr : r < q) :
    Spec.binAvg (Spec.join (q * n) x y) n r = Spec.binAvg x n r := by
  unfold Spec.binAvg Spec.join
  congr 1
  refine Finset.sum_congr rfl fun i hi => ?_
  have hi := Finset.mem_range.mp hi
  have := Nat.mul_le_mul_right n hr
  rw [Nat.succ_mul] at this
  rw [if_pos (by omega)]

theorem join_binAvg_second (q n r : ℕ) (x y : ℕ → ℝ) :
    Spec.binAvg (Spec.join (q * n) x y) n (q + r) = Spec.binAvg y n r := by
  unfold Spec.binAvg Spec.join
  congr 1
  refine Finset.sum_congr rfl fun i hi => ?_
  have := Nat.add_mul q r n
  rw [if_neg (by omega)]
  congr 1
  omega

theorem join_covFwd (q n r l : ℕ) (x y : ℕ → ℝ) (hr : r + 1 < q) (hl : l < n) :
    Spec.covFwd (Spec.join (q * n) x y) (Spec.join (q * n) x y) n r l = Spec.covFwd x x n r l := by
  unfold Spec.covFwd
  rw [join_binAvg q n r x y (by omega)]
  refine Finset.sum_congr rfl fun i hi => ?_
  have hi := Finset.mem_range.mp hi
  have := Nat.mul_le_mul_right n hr
  rw [Nat.succ_mul, Nat.succ_mul] at this
  unfold Spec.join
  rw [if_pos (by omega), if_pos (by omega)]

theorem join_covBwd (q n r l : ℕ) (x y : ℕ → ℝ) (hr : r < q) :
    Spec.covBwd (Spec.join (q * n) x y) (Spec.join (q * n) x y) n r l = Spec.covBwd x x n r l := by
  unfold Spec.covBwd
  rw [join_binAvg q n r x y hr]
  refine Finset.sum_congr rfl fun i hi => ?_
  have hi := Finset.mem_range.mp hi
  have := Nat.mul_le_mul_right n hr
  rw [Nat.succ_mul] at this
  unfold Spec.join
  rw [if_pos (by omega), if_pos (by omega)]

theorem join_covFwd_second (q n r l : ℕ) (x y : ℕ → ℝ) :
    Spec.covFwd (Spec.join (q * n) x y) (Spec.join (q * n) x y) n (q + r) l = Spec.covFwd y y n r l := by
  unfold Spec.covFwd
  rw [join_binAvg_second q n r x y]
  refine Finset.sum_congr rfl fun i hi => ?_
  have := Nat.add_mul q r n
  unfold Spec.join
  rw [if_neg (by omega), if_neg (by omega)]
  congr 3 <;> omega

theorem join_covBwd_second (q n r l : ℕ) (x y : ℕ → ℝ) (hr : 0 < r) (hl : l < n) :
    Spec.covBwd (Spec.join (q * n) x y) (Spec.join (q * n) x y) n (q + r) l = Spec.covBwd y y n r l := by
  unfold Spec.covBwd
  rw [join_binAvg_second q n r x y]
  refine Finset.sum_congr rfl fun i hi => ?_
  have := Nat.add_mul q r n
  have := Nat.le_mul_of_pos_left n hr
  unfold Spec.join
  rw [if_neg (by omega), if_neg (by omega)]
  congr 3 <;> omega

/-- **C172** (auto-covariance), the part that holds. Of the bins of two pieces (two or more bins each) all but the two
at the joint have the auto-covariance of the record. At the joint, the record gives the average of the covariances
with later and with earlier samples, the first piece that with earlier samples only, and the second piece that with
later samples only. -/
theorem pieces_acov_partial (q n l2 : ℕ) (x y : ℕ → ℝ) (hn4 : 4 ≤ n) (hmod : n % 4 ≤ 1) (hn5 : n ≠ 5) (hq : 2 ≤ q)
    (h2 : 2 * n ≤ l2) :
    ∃ s s1 s2, calcAcov n n (q * n + l2) (Spec.join (q * n) x y) = .ok s ∧ calcAcov n n (q * n) x = .ok s1 ∧
      calcAcov n n l2 y = .ok s2 ∧ s1.rows = q ∧ s2.rows = l2 / n ∧ s.rows = q + l2 / n ∧
      (∀ r, r + 1 < q → ∃ f f1, s.row r = some f ∧ s1.row r = some f1 ∧ ∀ l < n / 4, f l = f1 l) ∧
      (∀ r, 0 < r → r < l2 / n → ∃ f f2, s.row (q + r) = some f ∧ s2.row r = some f2 ∧ ∀ l < n / 4, f l = f2 l) ∧
      (∃ f f1, s.row (q - 1) = some f ∧ s1.row (q - 1) = some f1 ∧ ∀ l < n / 4, f1 l = Spec.covBwd x x n (q - 1) l ∧
        f l = (Spec.covFwd (Spec.join (q * n) x y) (Spec.join (q * n) x y) n (q - 1) l + f1 l) / 2) ∧
      ∃ f f2, s.row q = some f ∧ s2.row 0 = some f2 ∧ ∀ l < n / 4, f2 l = Spec.covFwd y y n 0 l ∧
        f l = (f2 l + Spec.covBwd (Spec.join (q * n) x y) (Spec.join (q * n) x y) n q l) / 2 := by
  have hqn : 2 * n ≤ q * n := Nat.mul_le_mul_right n hq
  have e1 : q * n / n = q := Nat.mul_div_cancel q (by omega)
  have e2 : (q * n + l2) / n = q + l2 / n := by rw [add_comm, Nat.add_mul_div_right _ _ (by omega), add_comm]
  have e3 : 2 ≤ l2 / n := (Nat.le_div_iff_mul_le (by omega)).mpr h2
  obtain ⟨s, a1, a2, a3⟩ := acov_spec n (q * n + l2) (Spec.join (q * n) x y) hn4 hmod hn5 (by omega)
  obtain ⟨s1, b1, b2, b3⟩ := acov_spec n (q * n) x hn4 hmod hn5 hqn
  obtain ⟨s2, c1, c2, c3⟩ := acov_spec n l2 y hn4 hmod hn5 h2
  rw [e2] at a2
  rw [e1] at b2
  rw [a2] at a3
  rw [b2] at b3
  rw [c2] at c3
  refine ⟨s, s1, s2, a1, b1, c1, b2, c2, a2, ?_, ?_, ?_, ?_⟩
  · intro r hr
    obtain ⟨f, f0, fv⟩ := a3 r (by omega)
    obtain ⟨g, g0, gv⟩ := b3 r (by omega)
    refine ⟨f, g, f0, g0, fun l hl => ?_⟩
    rw [fv l hl, gv l hl, if_neg (by omega : ¬ r + 1 = q + l2 / n), if_neg (by omega : ¬ r + 1 = q),
      join_covFwd q n r l x y hr (by omega), join_covBwd q n r l x y (by omega)]
  · intro r h0 hr
    obtain ⟨f, f0, fv⟩ := a3 (q + r) (by omega)
    obtain ⟨g, g0, gv⟩ := c3 r hr
    refine ⟨f, g, f0, g0, fun l hl => ?_⟩
    rw [fv l hl, gv l hl, if_neg (by omega : ¬ q + r = 0), if_neg (by omega : ¬ r = 0),
      join_covFwd_second q n r l x y, join_covBwd_second q n r l x y h0 (by omega)]
    by_cases he : r + 1 = l2 / n
    · rw [if_pos he, if_pos (by omega)]
    · rw [if_neg he, if_neg (by omega)]
  · obtain ⟨f, f0, fv⟩ := a3 (q - 1) (by omega)
    obtain ⟨g, g0, gv⟩ := b3 (q - 1) (by omega)
    refine ⟨f, g, f0, g0, fun l hl => ?_⟩
    have F := fv l hl
    have G := gv l hl
    rw [if_neg (by omega : ¬ q - 1 = 0), if_pos (by omega : q - 1 + 1 = q)] at G
    rw [if_neg (by omega : ¬ q - 1 = 0), if_neg (by omega : ¬ q - 1 + 1 = q + l2 / n),
      join_covBwd q n (q - 1) l x y (by omega)] at F
    exact ⟨G, by rw [F, G]⟩
  · obtain ⟨f, f0, fv⟩ := a3 q (by omega)
    obtain ⟨g, g0, gv⟩ := c3 0 (by omega)
    refine ⟨f, g, f0, g0, fun l hl => ?_⟩
    have := join_covFwd_second q n 0 l x y
    rw [Nat.add_zero] at this
    have F := fv l hl
    have G := gv l hl
    rw [if_pos rfl] at G
    rw [if_neg (by omega : ¬ q = 0), if_neg (by omega : ¬ q + 1 = q + l2 / n), this] at F
    exact ⟨G, by rw [F, G]⟩

/-- **C172** (auto-covariance at lag zero). The first lag is the same in every bin, those at the joint included. -/
theorem pieces_acov_zero (q n l2 : ℕ) (x y : ℕ → ℝ) (hn4 : 4 ≤ n) (hmod : n % 4 ≤ 1) (hn5 : n ≠ 5) (hq : 2 ≤ q)
    (h2 : 2 * n ≤ l2) :
    ∃ s s1 s2, calcAcov n n (q * n + l2) (Spec.join (q * n) x y) = .ok s ∧ calcAcov n n (q * n) x = .ok s1 ∧
      calcAcov n n l2 y = .ok s2 ∧
      (∀ r < q, ∃ f f1, s.row r = some f ∧ s1.row r = some f1 ∧ f 0 = f1 0) ∧
      ∀ r < l2 / n, ∃ f f2, s.row (q + r) = some f ∧ s2.row r = some f2 ∧ f 0 = f2 0 := by
  have hqn : 2 * n ≤ q * n := Nat.mul_le_mul_right n hq
  have e1 : q * n / n = q := Nat.mul_div_cancel q (by omega)
  have e2 : (q * n + l2) / n = q + l2 / n := by rw [add_comm, Nat.add_mul_div_right _ _ (by omega), add_comm]
  obtain ⟨s, a1, a3⟩ := acov_lag_zero n (q * n + l2) (Spec.join (q * n) x y) hn4 hmod hn5 (by omega)
  obtain ⟨s1, b1, b3⟩ := acov_lag_zero n (q * n) x hn4 hmod hn5 hqn
  obtain ⟨s2, c1, c3⟩ := acov_lag_zero n l2 y hn4 hmod hn5 h2
  refine ⟨s, s1, s2, a1, b1, c1, ?_, ?_⟩
  · intro r hr
    obtain ⟨f, f0, fv⟩ := a3 r (by rw [e2]; exact Nat.lt_add_right _ hr)
    obtain ⟨g, g0, gv⟩ := b3 r (by omega)
    refine ⟨f, g, f0, g0, ?_⟩
    rw [fv, gv, join_binAvg q n r x y hr]
    refine Finset.sum_congr rfl fun i hi => ?_
    have hi := Finset.mem_range.mp hi
    have := Nat.mul_le_mul_right n hr
    rw [Nat.succ_mul] at this
    unfold Spec.join
    rw [if_pos (by omega)]
  · intro r hr
    obtain ⟨f, f0, fv⟩ := a3 (q + r) (by omega)
    obtain ⟨g, g0, gv⟩ := c3 r hr
    refine ⟨f, g, f0, g0, ?_⟩
    rw [fv, gv, join_binAvg_second q n r x y]
    refine Finset.sum_congr rfl fun i hi => ?_
    have := Nat.add_mul q r n
    unfold Spec.join
    rw [if_neg (by omega)]
    congr 3
    omega

/-- **C172 is false of the auto-covariance** at the joint: the same bin of eight samples has another value at lag one
when the record is cut behind it. -/
theorem pieces_acov_false : ∃ s s1 f f1,
    calcAcov 8 8 32 (Spec.join 16 (fun i => if i = 15 then (8 : ℝ) else 0) fun _ => 0) = .ok s ∧
      calcAcov 8 8 16 (fun i => if i = 15 then (8 : ℝ) else 0) = .ok s1 ∧
      s.row 1 = some f ∧ s1.row 1 = some f1 ∧ f 1 = -4 ∧ f1 1 = 0 := by
  obtain ⟨s, s1, -, a, b, -, -, -, -, -, -, ⟨f, f1, h, h1, hv⟩, -⟩ := pieces_acov_partial 2 8 16
    (fun i => if i = 15 then (8 : ℝ) else 0) (fun _ => 0) (by norm_num) (by norm_num) (by norm_num) (by norm_num) (by norm_num)
  obtain ⟨v1, v⟩ := hv 1 (by norm_num)
  refine ⟨s, s1, f, f1, a, b, h, h1, ?_, ?_⟩
  · rw [v, v1]
    norm_num [Spec.covFwd, Spec.covBwd, Spec.binAvg, Spec.join, Finset.sum_range_succ]
  · rw [v1]
    norm_num [Spec.covBwd, Spec.binAvg, Finset.sum_range_succ]

example : ∃ s s1 s2, calcAcov 9 9 45 (Spec.join 27 (fun i => (i : ℝ) ^ 2) fun i => (i : ℝ)) = .ok s ∧
    calcAcov 9 9 27 (fun i => (i : ℝ) ^ 2) = .ok s1 ∧ calcAcov 9 9 18 (fun i => (i : ℝ)) = .ok s2 ∧ s.rows = 5 := by
  obtain ⟨s, s1, s2, a, b, c, -, -, d, -⟩ := pieces_acov_partial 3 9 18 (fun i => (i : ℝ) ^ 2) (fun i => (i : ℝ))
    (by norm_num) (by norm_num) (by norm_num) (by norm_num) (by norm_num)
  exact ⟨s, s1, s2, a, b, c, d⟩

/-! ### Cross-covariance -/

/-- **C172** (cross-covariance), the part that holds: of the bins of two pieces all but the two at the joint have the
cross-covariance of the record. The bin lengths are those for which `calc_xcov` works (C95). -/
theorem pieces_xcov_partial (q n npt l2 : ℕ) (x y u v : ℕ → ℝ) (hn : 0 < n) (hq : 0 < q) (h2 : n ≤ l2) (hp : 0 < npt)
    (hp2 : npt ≤ 2 * n) (hl : q * n + l2 < 2 ^ 53) (hb : n ∣ l2 ∨ ∃ k, n = 2 ^ k) :
    ∃ s s1 s2 d d1 d2, calcXcov n npt (q * n + l2) (q * n + l2) (Spec.join (q * n) x u) (Spec.join (q * n) y v) false = .ok (s, d) ∧
      calcXcov n npt (q * n) (q * n) x y false = .ok (s1, d1) ∧ calcXcov n npt l2 l2 u v false = .ok (s2, d2) ∧
      s1.rows = q ∧ s2.rows = l2 / n ∧ s.rows = q + l2 / n ∧
      (∀ r, r + 1 < q → ∃ f f1, s.row r = some f ∧ s1.row r = some f1 ∧ ∀ k < npt, f k = f1 k) ∧
      ∀ r, 0 < r → r < l2 / n → ∃ f f2, s.row (q + r) = some f ∧ s2.row r = some f2 ∧ ∀ k < npt, f k = f2 k := by
  have hqn : n ≤ q * n := Nat.le_mul_of_pos_left n hq
  have e1 : q * n / n = q := Nat.mul_div_cancel q hn
  have e2 : (q * n + l2) / n = q + l2 / n := by rw [add_comm, Nat.add_mul_div_right _ _ hn, add_comm]
  obtain ⟨s, d, a1, a2, -, a3⟩ := xcov_spec n npt (q * n + l2) (Spec.join (q * n) x u) (Spec.join (q * n) y v) hn (by omega)
    hp hp2 hl (hb.imp_left fun h => (Nat.dvd_add_right (Dvd.intro_left q rfl)).mpr h)
  obtain ⟨s1, d1, b1, b2, -, b3⟩ := xcov_spec n npt (q * n) x y hn hqn hp hp2 (by omega) (Or.inl (Dvd.intro_left q rfl))
  obtain ⟨s2, d2, c1, c2, -, c3⟩ := xcov_spec n npt l2 u v hn h2 hp hp2 (by omega) hb
  rw [e2] at a2 a3
  rw [e1] at b2 b3
  have e4 : (q + l2 / n) * n = q * n + l2 / n * n := Nat.add_mul _ _ _
  refine ⟨s, s1, s2, d, d1, d2, a1, b1, c1, b2, c2, a2, ?_, ?_⟩
  · intro r hr
    obtain ⟨f, f0, fv⟩ := a3 r (by omega)
    obtain ⟨g, g0, gv⟩ := b3 r (by omega)
    refine ⟨f, g, f0, g0, fun k hk => ?_⟩
    rw [fv k hk, gv k hk, join_binAvg q n r y v (by omega)]
    have hr2 := Nat.mul_le_mul_right n hr
    rw [Nat.succ_mul, Nat.succ_mul] at hr2
    refine Finset.sum_congr rfl fun i hi => ?_
    have hi := Finset.mem_range.mp hi
    have hj : Spec.join (q * n) y v (r * n + i) = y (r * n + i) := by unfold Spec.join; rw [if_pos (by omega)]
    rw [hj]
    congr 1
    unfold Spec.padded
    rw [e4]
    generalize hR : r * n = R at *
    generalize hQ : q * n = Q at *
    generalize hL : l2 / n * n = Z at *
    have c : (r : ℤ) * n = (R : ℤ) := by exact_mod_cast hR
    rw [c]
    by_cases h0 : (0 : ℤ) ≤ (R : ℤ) + i + k - ((npt - 1) / 2 : ℕ)
    · rw [if_pos ⟨h0, by push_cast; omega⟩, if_pos ⟨h0, by omega⟩]
      unfold Spec.join
      rw [if_pos (by omega)]
    · rw [if_neg (fun h => h0 h.1), if_neg (fun h => h0 h.1)]
  · intro r h0 hr
    obtain ⟨f, f0, fv⟩ := a3 (q + r) (by omega)
    obtain ⟨g, g0, gv⟩ := c3 r hr
    refine ⟨f, g, f0, g0, fun k hk => ?_⟩
    rw [fv k hk, gv k hk, join_binAvg_second q n r y v]
    have hr0 := Nat.le_mul_of_pos_left n h0
    have e5 := Nat.add_mul q r n
    refine Finset.sum_congr rfl fun i hi => ?_
    have hi := Finset.mem_range.mp hi
    have hj : Spec.join (q * n) y v ((q + r) * n + i) = v (r * n + i) := by
      unfold Spec.join; rw [if_neg (by omega)]; congr 1; omega
    rw [hj]
    congr 1
    unfold Spec.padded
    rw [e4]
    have c : ((q + r : ℕ) : ℤ) * n = ((q * n : ℕ) : ℤ) + ((r * n : ℕ) : ℤ) := by push_cast; ring
    have c' : (r : ℤ) * n = ((r * n : ℕ) : ℤ) := by push_cast; ring
    rw [c, c']
    generalize hR : r * n = R at *
    generalize hQ : q * n = Q at *
    generalize hL : l2 / n * n = Z at *
    by_cases h1 : (R : ℤ) + i + k - ((npt - 1) / 2 : ℕ) < (Z : ℤ)
    · rw [if_pos ⟨by omega, by push_cast; omega⟩, if_pos ⟨by omega, h1⟩]
      unfold Spec.join
      rw [if_neg (by omega)]
      congr 1
      omega
    · rw [if_neg (fun h => h1 (by have := h.2; push_cast at this ⊢; omega)), if_neg (fun h => h1 h.2)]

example : ∃ s s1 s2 d d1 d2, calcXcov 4 3 20 20 (Spec.join 8 (fun i => (i : ℝ)) fun _ => 1) (Spec.join 8 (fun i => (i : ℝ) ^ 2) fun i => (i : ℝ))
      false = .ok (s, d) ∧ calcXcov 4 3 8 8 (fun i => (i : ℝ)) (fun i => (i : ℝ) ^ 2) false = .ok (s1, d1) ∧
    calcXcov 4 3 12 12 (fun _ => 1) (fun i => (i : ℝ)) false = .ok (s2, d2) ∧ s.rows = 5 := by
  obtain ⟨s, s1, s2, d, d1, d2, a, b, c, -, -, e, -⟩ := pieces_xcov_partial 2 4 3 12 (fun i => (i : ℝ)) (fun i => (i : ℝ) ^ 2)
    (fun _ => 1) (fun i => (i : ℝ)) (by norm_num) (by norm_num) (by norm_num) (by norm_num) (by norm_num) (by norm_num)
    (Or.inl (by decide))
  exact ⟨s, s1, s2, d, d1, d2, a, b, c, e⟩

end Dolfyn
