import Verif.Props.Pieces
import Verif.Model.TkeBeam

/-!
C172, continued: turbulent kinetic energy of one beam of a profiler, in pieces.
-/

namespace Dolfyn

theorem cellBin_row (b : Binner) (dt : Bool) (len : ℕ) (x : ℕ → Option ℝ) (m : Mat2 (Option ℝ)) (r : ℕ)
    (h : reshape (some 0) len x b.nBin 0 = .ok m) : cellBin b dt len x r = prodRow dt m m r := by
  unfold cellBin
  rw [fluct_eq b dt len x m h]
  rfl

theorem pieces_cells (b : Binner) (dt : Bool) (cells q n l2 : ℕ) (x y : ℕ → ℕ → Option ℝ) (hb : b.nBin = n) (hn : 0 < n)
    (hq : 0 < q) (h2 : n ≤ l2) :
    ∃ m m1 m2, cellPower b dt cells (q * n + l2) (fun i => Spec.join (q * n) (x i) (y i)) = .ok m ∧
      cellPower b dt cells (q * n) x = .ok m1 ∧ cellPower b dt cells l2 y = .ok m2 ∧
      (m.rows = cells ∧ m.cols = q + l2 / n) ∧ (m1.rows = cells ∧ m1.cols = q) ∧ (m2.rows = cells ∧ m2.cols = l2 / n) ∧
      (∀ i, ∀ r < q, m.at_ i r = m1.at_ i r) ∧ ∀ i, ∀ r < l2 / n, m.at_ i (q + r) = m2.at_ i r := by
  have key : ∀ i, ∃ w w1 w2, reshape (some (0 : ℝ)) (q * n + l2) (Spec.join (q * n) (x i) (y i)) b.nBin 0 = .ok w ∧
      reshape (some (0 : ℝ)) (q * n) (x i) b.nBin 0 = .ok w1 ∧ reshape (some (0 : ℝ)) l2 (y i) b.nBin 0 = .ok w2 ∧
      w1.rows = q ∧ w2.rows = l2 / n ∧ w.rows = q + l2 / n ∧ (∀ r < q, w.row r = w1.row r) ∧
      ∀ r < l2 / n, w.row (q + r) = w2.row r := by
    intro i
    obtain ⟨w, w1, w2, a, b', c, r1, r2, r0, h1, h3⟩ := pieces_bins (some (0 : ℝ)) q n l2 0 (x i) (y i) hn hq h2 (by omega)
    simp only [Nat.cast_zero] at a b' c
    rw [← hb] at a b' c
    exact ⟨w, w1, w2, a, b', c, r1, r2, r0, fun r hr => h1 r (Or.inr ⟨rfl, hr⟩), fun r hr => h3 r hr (Or.inr rfl)⟩
  choose w w1 w2 a b' c r1 r2 r0 h1 h3 using key
  refine ⟨⟨cells, (w 0).rows, fun i r => cellBin b dt (q * n + l2) (Spec.join (q * n) (x i) (y i)) r⟩,
    ⟨cells, (w1 0).rows, fun i r => cellBin b dt (q * n) (x i) r⟩, ⟨cells, (w2 0).rows, fun i r => cellBin b dt l2 (y i) r⟩,
    ?_, ?_, ?_, ⟨rfl, r0 0⟩, ⟨rfl, r1 0⟩, ⟨rfl, r2 0⟩, ?_, ?_⟩
  · unfold cellPower; rw [fluct_eq b dt _ _ _ (a 0)]
  · unfold cellPower; rw [fluct_eq b dt _ _ _ (b' 0)]
  · unfold cellPower; rw [fluct_eq b dt _ _ _ (c 0)]
  · intro i r hr
    simp only
    rw [cellBin_row b dt _ _ _ r (a i), cellBin_row b dt _ _ _ r (b' i)]
    exact prodRow_congr dt _ _ _ _ r r (h1 i r hr) (h1 i r hr) rfl
  · intro i r hr
    simp only
    rw [cellBin_row b dt _ _ _ (q + r) (a i), cellBin_row b dt _ _ _ r (c i)]
    exact prodRow_congr dt _ _ _ _ (q + r) r (h3 i r hr) (h3 i r hr) rfl

/-- **C172** (turbulent kinetic energy of one beam), without noise level or with one number. -/
theorem pieces_tke_beam (b : Binner) (dt : Bool) (cells q n l2 : ℕ) (x y : ℕ → ℕ → Option ℝ) (nz : NoiseArg)
    (hz : nz = .missing ∨ ∃ w, nz = .number w) (hb : b.nBin = n) (hn : 0 < n) (hq : 0 < q) (h2 : n ≤ l2) :
    ∃ s s1 s2, tkeBeam b true nz dt cells (q * n + l2) (fun i => Spec.join (q * n) (x i) (y i)) = .ok s ∧
      tkeBeam b true nz dt cells (q * n) x = .ok s1 ∧ tkeBeam b true nz dt cells l2 y = .ok s2 ∧
      s1.cols = q ∧ s2.cols = l2 / n ∧ s.cols = q + l2 / n ∧
      (∀ i, ∀ r < q, s.at_ i r = s1.at_ i r) ∧ ∀ i, ∀ r < l2 / n, s.at_ i (q + r) = s2.at_ i r := by
  obtain ⟨m, m1, m2, a, a1, a2, ⟨-, c⟩, ⟨-, c1⟩, ⟨-, c2⟩, e1, e2⟩ := pieces_cells b dt cells q n l2 x y hb hn hq h2
  unfold tkeBeam
  rw [a, a1, a2]
  rcases hz with rfl | ⟨w, rfl⟩
  · exact ⟨m, m1, m2, rfl, rfl, rfl, c1, c2, c, e1, e2⟩
  · refine ⟨_, _, _, rfl, rfl, rfl, c1, c2, c, fun i r hr => ?_, fun i r hr => ?_⟩
    · simp only [e1 i r hr]
    · simp only [e2 i r hr]

/-- **C172** (turbulent kinetic energy of one beam), with a noise level for each cell and bin, cut like the record. -/
theorem pieces_tke_beam_noise (b : Binner) (dt : Bool) (cells q n l2 : ℕ) (x y : ℕ → ℕ → Option ℝ) (z1 z2 : ℕ → ℕ → ℝ)
    (hb : b.nBin = n) (hn : 0 < n) (hq : 0 < q) (h2 : n ≤ l2) :
    ∃ s s1 s2, tkeBeam b true (.two cells (q + l2 / n) fun i => Spec.join q (z1 i) (z2 i)) dt cells (q * n + l2)
        (fun i => Spec.join (q * n) (x i) (y i)) = .ok s ∧
      tkeBeam b true (.two cells q z1) dt cells (q * n) x = .ok s1 ∧
      tkeBeam b true (.two cells (l2 / n) z2) dt cells l2 y = .ok s2 ∧
      s1.cols = q ∧ s2.cols = l2 / n ∧ s.cols = q + l2 / n ∧
      (∀ i, ∀ r < q, s.at_ i r = s1.at_ i r) ∧ ∀ i, ∀ r < l2 / n, s.at_ i (q + r) = s2.at_ i r := by
  obtain ⟨m, m1, m2, a, a1, a2, ⟨d, c⟩, ⟨d1, c1⟩, ⟨d2, c2⟩, e1, e2⟩ := pieces_cells b dt cells q n l2 x y hb hn hq h2
  have g1 : q ≤ q * n := Nat.le_mul_of_pos_right q hn
  have g2 : l2 / n ≤ l2 := Nat.div_le_self l2 n
  have t : ∀ k len : ℕ, k ≤ len → tupleGt [cells, k] [cells, len] = false := by
    intro k len h
    by_cases hk : k = len <;> simp [tupleGt, hk]
    omega
  unfold tkeBeam
  rw [a, a1, a2]
  simp only [NoiseArg.shape, t _ _ (by omega : q + l2 / n ≤ q * n + l2), t _ _ g1, t _ _ g2, Bool.true_eq_false,
    Bool.false_eq_true, if_false]
  unfold noiseSub
  simp only [d, d1, d2, c, c1, c2, true_or, and_self, if_true]
  refine ⟨_, _, _, rfl, rfl, rfl, rfl, rfl, rfl, fun i r hr => ?_, fun i r hr => ?_⟩
  · simp only [e1 i r hr, Spec.join, if_pos hr]
  · simp only [e2 i r hr, Spec.join, if_neg (by omega : ¬ q + r < q), Nat.add_sub_cancel_left]

example : ∃ s s1 s2, tkeBeam (mkBinner 2 1 none none) true (.number 1) true 3 7
      (fun k => Spec.join 4 (fun i => some (k + i : ℝ)) fun i => some ((i : ℝ) ^ 2)) = .ok s ∧
    tkeBeam (mkBinner 2 1 none none) true (.number 1) true 3 4 (fun k i => some (k + i : ℝ)) = .ok s1 ∧
    tkeBeam (mkBinner 2 1 none none) true (.number 1) true 3 3 (fun _ i => some ((i : ℝ) ^ 2)) = .ok s2 ∧ s.cols = 3 := by
  obtain ⟨s, s1, s2, a, b, c, -, -, d, -⟩ := pieces_tke_beam (mkBinner 2 1 none none) true 3 2 2 3
    (fun k i => some (k + i : ℝ)) (fun _ i => some ((i : ℝ) ^ 2)) (.number 1) (Or.inr ⟨1, rfl⟩) (by norm_num [mkBinner])
    (by norm_num) (by norm_num) (by norm_num)
  exact ⟨s, s1, s2, a, b, c, d⟩

end Dolfyn
