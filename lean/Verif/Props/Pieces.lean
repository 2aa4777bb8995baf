import Verif.Props.Binned
import Verif.Props.PsdNan
import Verif.Props.VelPsd
import Verif.Props.Psd
import Verif.Model.Turb

/-!
C172: processing a long record in pieces.
-/

namespace Dolfyn

/-- A record of `a` samples followed by another one. -/
def Spec.join {α : Type*} (a : ℕ) (x y : ℕ → α) : ℕ → α := fun i => if i < a then x i else y (i - a)

/-- **C172** (bins). Two records are cut one behind the other, the first with a whole number `q` of bins. The bins of both
together are those of the first and those of the second: all of them without padding, and all but the two at the
joint with padding. -/
theorem pieces_bins {α : Type*} (z : α) (q n l2 pad : ℕ) (x y : ℕ → α) (hn : 0 < n) (hq : 0 < q) (h2 : n ≤ l2)
    (hpad : pad ≤ 2 * n) :
    ∃ m m1 m2, reshape z (q * n + l2) (Spec.join (q * n) x y) n pad = .ok m ∧ reshape z (q * n) x n pad = .ok m1 ∧
      reshape z l2 y n pad = .ok m2 ∧ m1.rows = q ∧ m2.rows = l2 / n ∧ m.rows = q + l2 / n ∧
      (∀ r, (r + 1 < q ∨ pad = 0 ∧ r < q) → m.row r = m1.row r) ∧
      ∀ r < l2 / n, (0 < r ∨ pad = 0) → m.row (q + r) = m2.row r := by
  have hqn : n ≤ q * n := Nat.le_mul_of_pos_left n hq
  obtain ⟨m, a1, a2, a3, a4⟩ := reshape_spec z (q * n + l2) (Spec.join (q * n) x y) n pad hn (by omega) hpad
  obtain ⟨m1, b1, b2, b3, b4⟩ := reshape_spec z (q * n) x n pad hn hqn hpad
  obtain ⟨m2, c1, c2, c3, c4⟩ := reshape_spec z l2 y n pad hn h2 hpad
  have e1 : q * n / n = q := Nat.mul_div_cancel q hn
  have e2 : (q * n + l2) / n = q + l2 / n := by rw [add_comm, Nat.add_mul_div_right _ _ hn, add_comm]
  rw [e2] at a2 a4
  rw [e1] at b2 b4
  refine ⟨m, m1, m2, a1, b1, c1, b2, c2, a2, ?_, ?_⟩
  · intro r hr
    unfold Mat2.row
    rw [a3, b3]
    refine List.map_congr_left fun j hj => ?_
    have hj' := List.mem_range.mp hj
    have hrq : r < q := by rcases hr with h | h <;> omega
    rw [a4 r j (by omega) (by omega), b4 r j (by omega) (by omega)]
    have hlt : r * n + j - pad / 2 < q * n := by
      rcases hr with h | ⟨h, h'⟩
      · have : (r + 2) * n ≤ q * n := Nat.mul_le_mul_right n h
        have e : (r + 2) * n = r * n + 2 * n := by ring
        omega
      · have : (r + 1) * n ≤ q * n := Nat.mul_le_mul_right n h'
        have e : (r + 1) * n = r * n + n := by ring
        omega
    have hle : q * n ≤ (q + l2 / n) * n := Nat.mul_le_mul_right n (by omega)
    by_cases hp : pad / 2 ≤ r * n + j
    · rw [if_pos ⟨hp, by omega⟩, if_pos ⟨hp, hlt⟩]
      unfold Spec.join
      rw [if_pos hlt]
    · rw [if_neg (fun h => hp h.1), if_neg (fun h => hp h.1)]
  · intro r hr hr0
    unfold Mat2.row
    rw [a3, c3]
    refine List.map_congr_left fun j hj => ?_
    have hj' := List.mem_range.mp hj
    rw [a4 (q + r) j (by omega) (by omega), c4 r j (by omega) (by omega)]
    have e : (q + r) * n = q * n + r * n := by ring
    have e' : (q + l2 / n) * n = q * n + l2 / n * n := by ring
    have hp : pad / 2 ≤ r * n + j := by
      rcases hr0 with h | h
      · have : n ≤ r * n := Nat.le_mul_of_pos_left n h
        omega
      · omega
    by_cases hl : r * n + j - pad / 2 < l2 / n * n
    · rw [if_pos ⟨by omega, by omega⟩, if_pos ⟨hp, hl⟩]
      unfold Spec.join
      rw [if_neg (by omega)]
      congr 1; omega
    · rw [if_neg (by omega), if_neg (by omega)]

theorem range_add_map {β : Type*} (a b : ℕ) (f g h : ℕ → β) (h1 : ∀ r < a, f r = g r) (h2 : ∀ r < b, f (a + r) = h r) :
    (List.range (a + b)).map f = (List.range a).map g ++ (List.range b).map h := by
  rw [List.range_add, List.map_append, List.map_map]
  congr 1
  · exact List.map_congr_left fun r hr => h1 r (List.mem_range.mp hr)
  · exact List.map_congr_left fun r hr => h2 r (List.mem_range.mp hr)

/-- A statistic of the bins of two records is that of the first followed by that of the second. -/
theorem pieces_stat {α β : Type*} (z : α) (f : List α → β) (q n l2 : ℕ) (x y : ℕ → α) (hn : 0 < n) (hq : 0 < q)
    (h2 : n ≤ l2) :
    ∃ s1 s2, ((reshape z (q * n) x n 0).map fun m => (List.range m.rows).map fun r => f (m.row r)) = .ok s1 ∧
      ((reshape z l2 y n 0).map fun m => (List.range m.rows).map fun r => f (m.row r)) = .ok s2 ∧
      ((reshape z (q * n + l2) (Spec.join (q * n) x y) n 0).map fun m =>
        (List.range m.rows).map fun r => f (m.row r)) = .ok (s1 ++ s2) := by
  obtain ⟨m, m1, m2, a, b, c, r1, r2, r0, h1, h3⟩ := pieces_bins z q n l2 0 x y hn hq h2 (by omega)
  simp only [Nat.cast_zero] at a b c
  rw [a, b, c]
  refine ⟨_, _, rfl, rfl, ?_⟩
  simp only [Except.map]
  rw [r0, r1, r2]
  congr 1
  exact range_add_map q (l2 / n) _ _ _ (fun r hr => by rw [h1 r (Or.inr ⟨rfl, hr⟩)])
    (fun r hr => by rw [h3 r hr (Or.inr rfl)])

/-- **C172** (averages, variances, standard deviations). -/
theorem pieces_averages (b : Binner) (q n l2 : ℕ) (x y : ℕ → Option ℝ) (hb : b.nBin = n) (hn : 0 < n) (hq : 0 < q)
    (h2 : n ≤ l2) :
    (∃ s1 s2, binMean b (q * n) x none = .ok s1 ∧ binMean b l2 y none = .ok s2 ∧
      binMean b (q * n + l2) (Spec.join (q * n) x y) none = .ok (s1 ++ s2)) ∧
    (∃ s1 s2, binVar b (q * n) x none = .ok s1 ∧ binVar b l2 y none = .ok s2 ∧
      binVar b (q * n + l2) (Spec.join (q * n) x y) none = .ok (s1 ++ s2)) ∧
    ∃ s1 s2, binStd b (q * n) x none = .ok s1 ∧ binStd b l2 y none = .ok s2 ∧
      binStd b (q * n + l2) (Spec.join (q * n) x y) none = .ok (s1 ++ s2) := by
  unfold binMean binVar binStd parseNbin
  simp only [Option.getD_none, hb]
  exact ⟨pieces_stat _ _ q n l2 x y hn hq h2, pieces_stat _ _ q n l2 x y hn hq h2, pieces_stat _ _ q n l2 x y hn hq h2⟩

example : ∃ s1 s2, binMean (mkBinner 2 1 none none) 4 (fun i => some (i : ℝ)) none = .ok s1 ∧
    binMean (mkBinner 2 1 none none) 3 (fun _ => some 5) none = .ok s2 ∧
    binMean (mkBinner 2 1 none none) 7 (Spec.join 4 (fun i => some (i : ℝ)) fun _ => some 5) none = .ok (s1 ++ s2) :=
  (pieces_averages (mkBinner 2 1 none none) 2 2 3 _ _ (by norm_num [mkBinner]) (by norm_num) (by norm_num) (by norm_num)).1

/-! ### Fluctuations -/

theorem row_at {α : Type*} (m m' : Mat2 α) (r r' : ℕ) (h : m.row r = m'.row r') :
    m.cols = m'.cols ∧ ∀ j < m.cols, m.at_ r j = m'.at_ r' j := by
  unfold Mat2.row at h
  have hl : m.cols = m'.cols := by simpa using congrArg List.length h
  refine ⟨hl, fun j hj => ?_⟩
  have := congrArg (fun l => l[j]?) h
  simp only [List.getElem?_map, List.getElem?_range hj, List.getElem?_range (hl ▸ hj), Option.map_some,
    Option.some.injEq] at this
  exact this

/-- The fluctuations of one bin. -/
noncomputable def flRow (dt : Bool) (m : Mat2 (Option ℝ)) (r : ℕ) : ℕ → Option ℝ :=
  if dt then detrend m.cols (m.at_ r) else fun j => opt2 (· - ·) (m.at_ r j) (nanmean (m.row r))

theorem flRow_congr (dt : Bool) (m m' : Mat2 (Option ℝ)) (r r' : ℕ) (h : m.row r = m'.row r') (j : ℕ) (hj : j < m.cols) :
    flRow dt m r j = flRow dt m' r' j := by
  obtain ⟨hc, ha⟩ := row_at m m' r r' h
  unfold flRow
  cases dt with
  | true =>
    simp only [if_true]
    rw [← hc]
    exact detrend_congr m.cols _ _ ha j hj
  | false =>
    simp only [Bool.false_eq_true, if_false]
    rw [ha j hj, h]

/-- Mean product of the fluctuations of two binned series. -/
noncomputable def prodRow (dt : Bool) (m p : Mat2 (Option ℝ)) (r : ℕ) : Option ℝ :=
  nanmean (vals m.cols fun j => opt2 (· * ·) (flRow dt m r j) (flRow dt p r j))

theorem prodRow_congr (dt : Bool) (m m' p p' : Mat2 (Option ℝ)) (r r' : ℕ) (h : m.row r = m'.row r')
    (hp : p.row r = p'.row r') (hmp : m.cols = p.cols) : prodRow dt m p r = prodRow dt m' p' r' := by
  unfold prodRow
  rw [← (row_at m m' r r' h).1]
  congr 1
  unfold vals
  refine List.map_congr_left fun j hj => ?_
  have hj' := List.mem_range.mp hj
  rw [flRow_congr dt m m' r r' h j hj', flRow_congr dt p p' r r' hp j (hmp ▸ hj')]

theorem fluct_eq (b : Binner) (dt : Bool) (len : ℕ) (x : ℕ → Option ℝ) (m : Mat2 (Option ℝ))
    (h : reshape (some 0) len x b.nBin 0 = .ok m) : fluct b dt len x = .ok ⟨m.rows, m.cols, flRow dt m⟩ := by
  unfold fluct
  rw [h]
  rfl

/-- **C172** (fluctuation products). Two series measured at the same times. -/
theorem pieces_prod (b : Binner) (dt : Bool) (q n l2 : ℕ) (x y u v : ℕ → Option ℝ) (hb : b.nBin = n) (hn : 0 < n)
    (hq : 0 < q) (h2 : n ≤ l2) :
    ∃ m p m1 p1 m2 p2, fluct b dt (q * n + l2) (Spec.join (q * n) x y) = .ok m ∧
      fluct b dt (q * n + l2) (Spec.join (q * n) u v) = .ok p ∧
      fluct b dt (q * n) x = .ok m1 ∧ fluct b dt (q * n) u = .ok p1 ∧ fluct b dt l2 y = .ok m2 ∧
      fluct b dt l2 v = .ok p2 ∧ rowProd m p = rowProd m1 p1 ++ rowProd m2 p2 ∧ (rowProd m1 p1).length = q ∧
      (rowProd m2 p2).length = l2 / n := by
  obtain ⟨m, m1, m2, a, b', c, r1, r2, r0, h1, h3⟩ := pieces_bins (some (0 : ℝ)) q n l2 0 x y hn hq h2 (by omega)
  obtain ⟨p, p1, p2, a', b'', c', s1, s2, s0, g1, g3⟩ := pieces_bins (some (0 : ℝ)) q n l2 0 u v hn hq h2 (by omega)
  have hc : m.cols = p.cols := by
    obtain ⟨w, e, -, k, -⟩ := reshape_spec (some (0 : ℝ)) (q * n + l2) (Spec.join (q * n) x y) n 0 hn (by omega) (by omega)
    obtain ⟨w', e', -, k', -⟩ := reshape_spec (some (0 : ℝ)) (q * n + l2) (Spec.join (q * n) u v) n 0 hn (by omega) (by omega)
    have := Except.ok.inj (e.symm.trans a)
    have := Except.ok.inj (e'.symm.trans a')
    subst w w'
    rw [k, k']
  simp only [Nat.cast_zero] at a b' c a' b'' c'
  rw [← hb] at a b' c a' b'' c'
  refine ⟨_, _, _, _, _, _, fluct_eq b dt _ _ _ a, fluct_eq b dt _ _ _ a', fluct_eq b dt _ _ _ b',
    fluct_eq b dt _ _ _ b'', fluct_eq b dt _ _ _ c, fluct_eq b dt _ _ _ c', ?_, ?_, ?_⟩
  · unfold rowProd
    simp only
    rw [r0, r1, r2]
    exact range_add_map q (l2 / n) (prodRow dt m p) (prodRow dt m1 p1) (prodRow dt m2 p2)
      (fun r hr => prodRow_congr dt m m1 p p1 r r (h1 r (Or.inr ⟨rfl, hr⟩)) (g1 r (Or.inr ⟨rfl, hr⟩)) hc)
      (fun r hr => prodRow_congr dt m m2 p p2 (q + r) r (h3 r hr (Or.inr rfl)) (g3 r hr (Or.inr rfl)) hc)
  · simp [rowProd, r1]
  · simp [rowProd, r2]

/-- **C172** (turbulent kinetic energy). -/
theorem pieces_tke (b : Binner) (dt : Bool) (noise : Option (List ℝ)) (hno : ∀ l, noise = some l → l.length = 3) (q n l2 : ℕ)
    (x y : Fin 3 → ℕ → Option ℝ) (hb : b.nBin = n) (hn : 0 < n) (hq : 0 < q) (h2 : n ≤ l2) :
    ∃ s1 s2, calcTke b true noise dt (q * n) x = .ok s1 ∧ calcTke b true noise dt l2 y = .ok s2 ∧
      ∃ s, calcTke b true noise dt (q * n + l2) (fun i => Spec.join (q * n) (x i) (y i)) = .ok s ∧
        ∀ i, s i = s1 i ++ s2 i := by
  have key : ∀ i, ∃ s1 s2, tke1 b dt (q * n) (x i) = .ok s1 ∧ tke1 b dt l2 (y i) = .ok s2 ∧
      tke1 b dt (q * n + l2) (Spec.join (q * n) (x i) (y i)) = .ok (s1 ++ s2) := by
    intro i
    obtain ⟨m, p, m1, p1, m2, p2, a, a', b1, b1', c, c', e, -, -⟩ :=
      pieces_prod b dt q n l2 (x i) (y i) (x i) (y i) hb hn hq h2
    have := Except.ok.inj (a.symm.trans a')
    have := Except.ok.inj (b1.symm.trans b1')
    have := Except.ok.inj (c.symm.trans c')
    subst p p1 p2
    unfold tke1
    rw [a, b1, c]
    exact ⟨_, _, rfl, rfl, by simp only [Except.map]; rw [e]⟩
  choose s1 s2 k1 k2 k using key
  have happ : ∀ (w : ℝ) (a c : List (Option ℝ)), subNoise w (a ++ c) = subNoise w a ++ subNoise w c := by
    intro w a c; simp [subNoise]
  unfold calcTke
  simp only [k1, k2, k, bind, Except.bind, pure, Except.pure, if_neg (by decide : ¬ (true = false))]
  match noise, hno with
  | none, _ =>
    refine ⟨_, _, rfl, rfl, _, rfl, fun i => ?_⟩
    fin_cases i <;> rfl
  | some [n0, n1, n2], _ =>
    refine ⟨_, _, rfl, rfl, _, rfl, fun i => ?_⟩
    fin_cases i <;> exact happ _ _ _
  | some [], h => exact absurd (h _ rfl) (by simp)
  | some [_], h => exact absurd (h _ rfl) (by simp)
  | some [_, _], h => exact absurd (h _ rfl) (by simp)
  | some (_ :: _ :: _ :: _ :: l), h => exact absurd (h _ rfl) (by simp)

/-- **C172** (Reynolds stresses). -/
theorem pieces_stress (b : Binner) (dt : Bool) (q n l2 : ℕ) (x y : Fin 3 → ℕ → Option ℝ) (hb : b.nBin = n) (hn : 0 < n)
    (hq : 0 < q) (h2 : n ≤ l2) :
    ∃ s1 s2, calcStress b dt (q * n) x = .ok s1 ∧ calcStress b dt l2 y = .ok s2 ∧
      ∃ s, calcStress b dt (q * n + l2) (fun i => Spec.join (q * n) (x i) (y i)) = .ok s ∧
        ∀ i, s i = s1 i ++ s2 i := by
  obtain ⟨u, v, u1, v1, u2, v2, hu, hv, hu1, hv1, hu2, hv2, e1, -, -⟩ :=
    pieces_prod b dt q n l2 (x 0) (y 0) (x 1) (y 1) hb hn hq h2
  obtain ⟨u', w, u1', w1, u2', w2, hu', hw, hu1', hw1, hu2', hw2, e2, -, -⟩ :=
    pieces_prod b dt q n l2 (x 0) (y 0) (x 2) (y 2) hb hn hq h2
  obtain ⟨v', w', v1', w1', v2', w2', hv', hw', hv1', hw1', hv2', hw2', e3, -, -⟩ :=
    pieces_prod b dt q n l2 (x 1) (y 1) (x 2) (y 2) hb hn hq h2
  have t1 := Except.ok.inj (hu'.symm.trans hu)
  have t2 := Except.ok.inj (hu1'.symm.trans hu1)
  have t3 := Except.ok.inj (hu2'.symm.trans hu2)
  have t4 := Except.ok.inj (hv'.symm.trans hv)
  have t5 := Except.ok.inj (hv1'.symm.trans hv1)
  have t6 := Except.ok.inj (hv2'.symm.trans hv2)
  have t7 := Except.ok.inj (hw'.symm.trans hw)
  have t8 := Except.ok.inj (hw1'.symm.trans hw1)
  have t9 := Except.ok.inj (hw2'.symm.trans hw2)
  subst u' u1' u2' v' v1' v2' w' w1' w2'
  unfold calcStress
  simp only [hu, hv, hw, hu1, hv1, hw1, hu2, hv2, hw2, bind, Except.bind, pure, Except.pure]
  refine ⟨_, _, rfl, rfl, _, rfl, fun i => ?_⟩
  fin_cases i
  · exact e1
  · exact e2
  · exact e3

/-- **C172** (turbulence intensity). -/
theorem pieces_ti (b : Binner) (dt : Bool) (noise th : ℝ) (q n l2 : ℕ) (x y : ℕ → Option ℝ) (hb : b.nBin = n) (hn : 0 < n)
    (hq : 0 < q) (h2 : n ≤ l2) :
    ∃ s1 s2, calcTi b true noise th dt (q * n) x = .ok s1 ∧ calcTi b true noise th dt l2 y = .ok s2 ∧
      calcTi b true noise th dt (q * n + l2) (Spec.join (q * n) x y) = .ok (s1 ++ s2) := by
  obtain ⟨m, p, m1, p1, m2, p2, a, a', b1, b1', c, c', e, g1, g2⟩ := pieces_prod b dt q n l2 x y x y hb hn hq h2
  have := Except.ok.inj (a.symm.trans a')
  have := Except.ok.inj (b1.symm.trans b1')
  have := Except.ok.inj (c.symm.trans c')
  subst p p1 p2
  obtain ⟨⟨t1, t2, k1, k2, k⟩, -⟩ := pieces_averages b q n l2 x y hb hn hq h2
  have hl : t1.length = q := by
    obtain ⟨_, m1', _, _, b1'', _, r1, -⟩ := pieces_bins (some (0 : ℝ)) q n l2 0 x y hn hq h2 (by omega)
    unfold binMean parseNbin at k1
    simp only [Option.getD_none, hb] at k1
    simp only [Nat.cast_zero] at b1''
    rw [b1''] at k1
    have := Except.ok.inj k1
    rw [← this]; simp [r1]
  unfold calcTi
  simp only [a, b1, c, k1, k2, k, bind, Except.bind, pure, Except.pure, if_neg (by decide : ¬ (true = false))]
  refine ⟨_, _, rfl, rfl, ?_⟩
  congr 1
  rw [e]
  have happ : ∀ (w : ℝ) (a c : List (Option ℝ)), subNoise w (a ++ c) = subNoise w a ++ subNoise w c := by
    intro w a c; simp [subNoise]
  rw [happ, List.zipWith_append]
  simp [subNoise, g1, hl]

example : ∃ s1 s2, calcStress (mkBinner 2 1 none none) false 4 (fun _ i => some (i : ℝ)) = .ok s1 ∧
    calcStress (mkBinner 2 1 none none) false 3 (fun j _ => some (j.val : ℝ)) = .ok s2 ∧
    ∃ s, calcStress (mkBinner 2 1 none none) false 7
      (fun j => Spec.join 4 (fun i => some (i : ℝ)) fun _ => some (j.val : ℝ)) = .ok s ∧ ∀ i, s i = s1 i ++ s2 i :=
  pieces_stress (mkBinner 2 1 none none) false 2 2 3 _ _ (by norm_num [mkBinner]) (by norm_num) (by norm_num) (by norm_num)

/-! ### Spectra -/

/-- **C172** (spectra), the part that holds: every spectrum of the two pieces is that of the record, except the last one of
the first piece and the first one of the second; with `n_fft = n_bin`, where nothing is padded, all of them are.
Missing: the two at the joint (`pieces_psd_false`) and the noise correction (`pieces_noise_false`). -/
theorem pieces_psd_partial {α β : Type*} (z : α) (psd : List α → ℚ → β) (q n nf l2 : ℕ) (fs : ℚ) (x y : ℕ → α) (hn : 0 < n)
    (hnf : nf ≤ n) (hq : 0 < q) (h2 : n ≤ l2) :
    ∃ s s1 s2, calcPsdBase z psd (mkBinner n fs (some nf) none) (q * n + l2) (Spec.join (q * n) x y) none none none = .ok s ∧
      calcPsdBase z psd (mkBinner n fs (some nf) none) (q * n) x none none none = .ok s1 ∧
      calcPsdBase z psd (mkBinner n fs (some nf) none) l2 y none none none = .ok s2 ∧
      s1.length = q ∧ s2.length = l2 / n ∧ s.length = q + l2 / n ∧
      (∀ r, r + 1 < q → s[r]? = s1[r]?) ∧ (∀ r, 0 < r → s[q + r]? = s2[r]?) ∧ (nf = n → s = s1 ++ s2) := by
  have hqn : n ≤ q * n := Nat.le_mul_of_pos_left n hq
  obtain ⟨m, m1, m2, a, b, c, r1, r2, r0, h1, h3⟩ := pieces_bins z q n l2 (min (n - nf) nf) x y hn hq h2 (by omega)
  obtain ⟨w, e, w1, w2⟩ := psd_bins_partial z psd n nf fs (q * n + l2) (Spec.join (q * n) x y) hn hnf (by omega) none (Or.inl rfl)
  obtain ⟨v, f, v1, v2⟩ := psd_bins_partial z psd n nf fs (q * n) x hn hnf hqn none (Or.inl rfl)
  obtain ⟨u, g, u1, u2⟩ := psd_bins_partial z psd n nf fs l2 y hn hnf h2 none (Or.inl rfl)
  have t1 := Except.ok.inj (e.symm.trans (by exact_mod_cast a))
  have t2 := Except.ok.inj (f.symm.trans (by exact_mod_cast b))
  have t3 := Except.ok.inj (g.symm.trans (by exact_mod_cast c))
  subst w v u
  have d1 : q * n / n = q := Nat.mul_div_cancel q hn
  have d2 : (q * n + l2) / n = q + l2 / n := by rw [add_comm, Nat.add_mul_div_right _ _ hn, add_comm]
  rw [d2] at w2
  rw [d1] at v2
  refine ⟨_, _, _, w2, v2, u2, by simp, by simp, by simp, ?_, ?_, ?_⟩
  · intro r hr
    rw [List.getElem?_map, List.getElem?_map, List.getElem?_range (by omega), List.getElem?_range (by omega)]
    simp only [Option.map_some]
    rw [h1 r (Or.inl hr)]
  · intro r hr
    by_cases hl : r < l2 / n
    · rw [List.getElem?_map, List.getElem?_map, List.getElem?_range (by omega), List.getElem?_range hl]
      simp only [Option.map_some]
      rw [h3 r hl (Or.inl hr)]
    · rw [List.getElem?_eq_none (by simp; omega), List.getElem?_eq_none (by simp; omega)]
  · intro hn'
    have hp : min (n - nf) nf = 0 := by omega
    exact range_add_map q (l2 / n) _ _ _ (fun r hr => by rw [h1 r (Or.inr ⟨hp, hr⟩)])
      (fun r hr => by rw [h3 r hr (Or.inr hp)])

example (psd : List ℝ → ℚ → List ℝ) :
    ∃ s s1 s2, calcPsdBase 0 psd (mkBinner 8 1 (some 4) none) 24 (Spec.join 16 (fun i => (i : ℝ)) fun _ => 5) none none none = .ok s ∧
      calcPsdBase 0 psd (mkBinner 8 1 (some 4) none) 16 (fun i => (i : ℝ)) none none none = .ok s1 ∧
      calcPsdBase 0 psd (mkBinner 8 1 (some 4) none) 8 (fun _ => 5) none none none = .ok s2 ∧ s[0]? = s1[0]? ∧ s.length = 3 := by
  obtain ⟨s, s1, s2, a, b, c, -, -, d, e, -, -⟩ := pieces_psd_partial (0 : ℝ) psd 2 8 4 8 1 (fun i => (i : ℝ)) (fun _ => 5) (by norm_num)
    (by norm_num) (by norm_num) (by norm_num)
  exact ⟨s, s1, s2, by exact_mod_cast a, by exact_mod_cast b, by exact_mod_cast c, e 0 (by norm_num), d⟩

/-- The last bin of the first piece ends with a zero where that of the record has a measured value. -/
theorem pieces_joint {α : Type*} (z : α) (q n l2 pad : ℕ) (x y : ℕ → α) (hn : 0 < n) (hq : 0 < q) (h2 : n ≤ l2)
    (hp : 0 < pad) (hpad : pad ≤ 2 * n) :
    ∃ m m1, reshape z (q * n + l2) (Spec.join (q * n) x y) n pad = .ok m ∧ reshape z (q * n) x n pad = .ok m1 ∧
      m.at_ (q - 1) (n + pad - 1) = y ((pad + 1) / 2 - 1) ∧ m1.at_ (q - 1) (n + pad - 1) = z := by
  have hqn : n ≤ q * n := Nat.le_mul_of_pos_left n hq
  obtain ⟨m, a1, a2, a3, a4⟩ := reshape_spec z (q * n + l2) (Spec.join (q * n) x y) n pad hn (by omega) hpad
  obtain ⟨m1, b1, b2, b3, b4⟩ := reshape_spec z (q * n) x n pad hn hqn hpad
  have e1 : q * n / n = q := Nat.mul_div_cancel q hn
  have e2 : (q * n + l2) / n = q + l2 / n := by rw [add_comm, Nat.add_mul_div_right _ _ hn, add_comm]
  rw [e2] at a2 a4
  rw [e1] at b2 b4
  have e3 : (q - 1) * n + n = q * n := by
    obtain ⟨k, rfl⟩ : ∃ k, q = k + 1 := ⟨q - 1, by omega⟩
    simp; ring
  have e4 : (q + l2 / n) * n = q * n + l2 / n * n := by ring
  have e5 : 1 ≤ l2 / n := (Nat.one_le_div_iff hn).mpr h2
  have e6 : n ≤ l2 / n * n := Nat.le_mul_of_pos_left n e5
  refine ⟨m, m1, a1, b1, ?_, ?_⟩
  · rw [a4 (q - 1) (n + pad - 1) (by omega) (by omega), if_pos ⟨by omega, by omega⟩]
    unfold Spec.join
    rw [if_neg (by omega)]
    congr 1; omega
  · rw [b4 (q - 1) (n + pad - 1) (by omega) (by omega), if_neg (by omega)]

theorem core_12_4 : core 12 4 1 .none none = .ok (4, (fun _ => (1 : ℝ)), [0, 1, 2, 3, 4, 5, 6, 7, 8], 2 / 4 / 6 / 1) := by
  have h : stepsize 12 4 none none = .ok ⟨1, 6, 4⟩ := by decide
  have h' : segStarts 12 ⟨1, 6, 4⟩ = .ok [0, 1, 2, 3, 4, 5, 6, 7, 8] := by decide
  unfold core
  simp only [h, getWindow, h']
  norm_num [psdScale]

theorem segFft_const (v : ℕ → ℝ) (i : ℕ) (hv : ∀ j < 4, v (i + j) = 1) (k : ℕ) : segFft v i 4 (fun _ => 1) k = 0 := by
  unfold segFft dft
  refine Finset.sum_eq_zero fun t ht => ?_
  have ht' := Finset.mem_range.mp ht
  beta_reduce
  rw [detrendR_congr 4 (fun j => v (i + j)) (fun _ => 1) hv t ht']
  rw [detrendR_unique 4 (by norm_num) (fun _ => 1) (fun _ => 0) 1 0 (by intro i; ring) (by simp) (by simp)]
  simp

theorem segFft_edge (v : ℕ → ℝ) (i : ℕ) (h0 : v i = 1) (h1 : v (i + 1) = 1) (h2 : v (i + 2) = 0) (h3 : v (i + 3) = 0) :
    segFft v i 4 (fun _ => 1) 2 = -(4 / 5) := by
  have e : detrendR 4 (fun j => v (i + j)) = fun j => v (i + j) - (11 / 10 + (-2 / 5) * j) := by
    refine detrendR_unique 4 (by norm_num) _ _ (11 / 10) (-2 / 5) (fun j => rfl) ?_ ?_
    · simp only [Finset.sum_range_succ, Finset.sum_range_zero, add_zero, h0, h1, h2, h3]; norm_num
    · simp only [Finset.sum_range_succ, Finset.sum_range_zero, add_zero, h0, h1, h2, h3]; norm_num
  unfold segFft dft
  rw [e]
  have x1 : Complex.exp (-(2 * Real.pi * Complex.I * (2 : ℕ) * (1 : ℕ) / (4 : ℕ))) = -1 := by
    rw [show -(2 * (Real.pi : ℂ) * Complex.I * (2 : ℕ) * (1 : ℕ) / (4 : ℕ)) = -(Real.pi * Complex.I) by push_cast; ring,
      Complex.exp_neg, Complex.exp_pi_mul_I]
    norm_num
  have x2 : Complex.exp (-(2 * Real.pi * Complex.I * (2 : ℕ) * (2 : ℕ) / (4 : ℕ))) = 1 := by
    rw [show -(2 * (Real.pi : ℂ) * Complex.I * (2 : ℕ) * (2 : ℕ) / (4 : ℕ)) = -(2 * Real.pi * Complex.I) by push_cast; ring,
      Complex.exp_neg, Complex.exp_two_pi_mul_I]
    norm_num
  have x3 : Complex.exp (-(2 * Real.pi * Complex.I * (2 : ℕ) * (3 : ℕ) / (4 : ℕ))) = -1 := by
    rw [show -(2 * (Real.pi : ℂ) * Complex.I * (2 : ℕ) * (3 : ℕ) / (4 : ℕ)) =
      -(2 * Real.pi * Complex.I) + -(Real.pi * Complex.I) by push_cast; ring, Complex.exp_add, Complex.exp_neg,
      Complex.exp_neg, Complex.exp_two_pi_mul_I, Complex.exp_pi_mul_I]
    norm_num
  simp only [Finset.sum_range_succ, Finset.sum_range_zero, x1, x2, x3, add_zero, h0, h1, h2, h3]
  norm_num

/-- The spectral estimator of `calc_psd` on one padded bin (sampling rate 1, no window). -/
noncomputable def Spec.binPsd (row : List ℝ) (nf : ℚ) : Except Err (List ℝ) :=
  psd row.length (fun i => row.getD i 0) ⌊nf⌋₊ 1 .none none

/-- **C172 is false for spectra at the joint.** A constant record of three bins of eight samples has no power in its middle
bin; the first two bins processed alone have power there, because the last bin of a piece is padded with zeros. -/
theorem pieces_psd_false : ∃ s s1, ∃ p : List ℝ,
    calcPsdBase 0 Spec.binPsd (mkBinner 8 1 (some 4) none) 24 (Spec.join 16 (fun _ => 1) fun _ => 1) none none none = .ok s ∧
      calcPsdBase 0 Spec.binPsd (mkBinner 8 1 (some 4) none) 16 (fun _ => 1) none none none = .ok s1 ∧
      s[1]? = some (some (.ok [0, 0])) ∧ s1[1]? = some (some (.ok p)) ∧ p[1]? ≠ some 0 := by
  obtain ⟨m, e, w1, w2⟩ := psd_bins_partial (0 : ℝ) Spec.binPsd 8 4 1 24 (Spec.join 16 (fun _ => 1) fun _ => 1) (by norm_num)
    (by norm_num) (by norm_num) none (Or.inl rfl)
  obtain ⟨v, f, v1, v2⟩ := psd_bins_partial (0 : ℝ) Spec.binPsd 8 4 1 16 (fun _ => 1) (by norm_num)
    (by norm_num) (by norm_num) none (Or.inl rfl)
  obtain ⟨m', a1, a2, a3, a4⟩ := reshape_spec (0 : ℝ) 24 (Spec.join 16 (fun _ => 1) fun _ => 1) 8 4 (by norm_num) (by norm_num) (by norm_num)
  obtain ⟨v', b1, b2, b3, b4⟩ := reshape_spec (0 : ℝ) 16 (fun _ => 1) 8 4 (by norm_num) (by norm_num) (by norm_num)
  have t1 : m = m' := Except.ok.inj (e.symm.trans (by exact_mod_cast a1))
  have t2 : v = v' := Except.ok.inj (f.symm.trans (by exact_mod_cast b1))
  subst t1 t2
  have hm : ∀ j < 12, m.at_ 1 j = 1 := by
    intro j hj
    rw [a4 1 j (by omega) (by omega), if_pos (by omega)]
    unfold Spec.join
    split <;> rfl
  have hv : ∀ j < 12, v.at_ 1 j = if j < 10 then 1 else 0 := by
    intro j hj
    rw [b4 1 j (by omega) (by omega)]
    by_cases h : j < 10
    · rw [if_pos (by omega), if_pos h]
    · rw [if_neg (by omega), if_neg h]
  have gm : ∀ j < 12, (m.row 1).getD j 0 = 1 := by
    intro j hj
    unfold Mat2.row
    rw [a3, List.getD_eq_getElem?_getD, List.getElem?_map, List.getElem?_range (by omega)]
    exact hm j hj
  have gv : ∀ j < 12, (v.row 1).getD j 0 = if j < 10 then 1 else 0 := by
    intro j hj
    unfold Mat2.row
    rw [b3, List.getD_eq_getElem?_getD, List.getElem?_map, List.getElem?_range (by omega)]
    exact hv j hj
  have lm : (m.row 1).length = 12 := by simp [Mat2.row, a3]
  have lv : (v.row 1).length = 12 := by simp [Mat2.row, b3]
  have p1 : Spec.binPsd (m.row 1) 4 = .ok [0, 0] := by
    unfold Spec.binPsd
    rw [lm, show ⌊(4 : ℚ)⌋₊ = 4 by norm_num, psd_eq_core _ _ _ _ one_pos, core_12_4]
    have hz : ∀ i < 9, ∀ k, segFft (fun i => (m.row 1).getD i 0) i 4 (fun _ => 1) k = 0 := by
      intro i hi k
      exact segFft_const _ i (fun j hj => gm (i + j) (by omega)) k
    simp only [Except.map, List.map_cons, List.map_nil]
    rw [show List.range (4 / 2) = [0, 1] by decide]
    simp only [List.map_cons, List.map_nil, hz _ (by norm_num : 0 < 9), hz _ (by norm_num : 1 < 9), hz _ (by norm_num : 2 < 9),
      hz _ (by norm_num : 3 < 9), hz _ (by norm_num : 4 < 9), hz _ (by norm_num : 5 < 9), hz _ (by norm_num : 6 < 9),
      hz _ (by norm_num : 7 < 9), hz _ (by norm_num : 8 < 9)]
    simp
  obtain ⟨p, p2, p3⟩ : ∃ p : List ℝ, Spec.binPsd (v.row 1) 4 = .ok p ∧ p[1]? ≠ some 0 := by
    unfold Spec.binPsd
    rw [lv, show ⌊(4 : ℚ)⌋₊ = 4 by norm_num, psd_eq_core _ _ _ _ one_pos, core_12_4]
    refine ⟨_, rfl, ?_⟩
    have h8 : segFft (fun i => (v.row 1).getD i 0) 8 4 (fun _ => 1) 2 = -(4 / 5) :=
      segFft_edge _ 8 (gv 8 (by omega)) (gv 9 (by omega)) (gv 10 (by omega)) (gv 11 (by omega))
    beta_reduce
    simp only
    rw [show List.range (4 / 2) = [0, 1] by decide]
    simp only [List.map_cons, List.map_nil, List.getElem?_cons_succ, List.getElem?_cons_zero, zero_add,
      List.sum_cons, List.sum_nil, one_add_one_eq_two, h8]
    intro h
    have h' := Option.some.inj h
    have hs : ‖(-(4 / 5) : ℂ)‖ ^ 2 = 16 / 25 := by rw [norm_neg]; norm_num
    rw [hs] at h'
    have := mul_eq_zero.mp h'
    rcases this with h'' | h''
    · have q : ∀ i, 0 ≤ ‖segFft (fun i => (v.row 1).getD i 0) i 4 (fun _ => 1) 2‖ ^ 2 := fun i => by positivity
      have := q 0
      have := q 1
      have := q 2
      have := q 3
      have := q 4
      have := q 5
      have := q 6
      have := q 7
      linarith
    · norm_num at h''
  refine ⟨_, _, p, by exact_mod_cast w2, by exact_mod_cast v2, ?_, ?_, p3⟩
  · rw [List.getElem?_map, List.getElem?_range (by norm_num)]
    simp only [Option.map_some]
    rw [p1]
  · rw [List.getElem?_map, List.getElem?_range (by norm_num)]
    simp only [Option.map_some]
    rw [p2]

/-- **C172 is false for the noise correction**: values that would become negative are replaced by one hundredth of the smallest
value of the whole call, so that the spectrum of a bin depends on the other bins processed with it. -/
theorem pieces_noise_false : noiseCorrect [1, 5 / 2] 2 4 = .ok [1 / 200, 1 / 2] ∧ noiseCorrect [1] 2 4 = .ok [1 / 100] := by
  constructor <;> norm_num [noiseCorrect]

end Dolfyn
