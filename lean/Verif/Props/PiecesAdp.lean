import Verif.Props.Pieces
import Verif.Props.Csd
import Verif.Model.SfCall

/-!
C172, continued: stresses from four and five beams and structure functions of a long record processed in pieces.
-/

namespace Dolfyn

theorem stat_length {α β : Type*} (z : α) (f : List α → β) (n len : ℕ) (x : ℕ → α) (hn : 0 < n) (hl : n ≤ len)
    (s : List β) (h : ((reshape z len x n 0).map fun m => (List.range m.rows).map fun r => f (m.row r)) = .ok s) :
    s.length = len / n := by
  obtain ⟨m, e, h1, _⟩ := reshape_no_pad z len x n hn hl
  rw [e] at h
  replace h := Except.ok.inj h
  rw [← h]
  simp [h1]

theorem pieces_beam (b : Binner) (nz : ℝ) (q n l2 : ℕ) (x y : ℕ → Option ℝ) (hb : b.nBin = n) (hn : 0 < n) (hq : 0 < q)
    (h2 : n ≤ l2) :
    ∃ s1 s2, beamVar b nz (q * n) x = .ok s1 ∧ beamVar b nz l2 y = .ok s2 ∧
      beamVar b nz (q * n + l2) (Spec.join (q * n) x y) = .ok (s1 ++ s2) ∧ s1.length = q ∧ s2.length = l2 / n := by
  obtain ⟨-, ⟨s1, s2, e1, e2, e⟩, -⟩ := pieces_averages b q n l2 x y hb hn hq h2
  have k1 : s1.length = q * n / n := stat_length (some 0) nanvar n (q * n) x hn (Nat.le_mul_of_pos_left n hq) s1
    (by rw [← hb]; exact e1)
  have k2 : s2.length = l2 / n := stat_length (some 0) nanvar n l2 y hn h2 s2 (by rw [← hb]; exact e2)
  rw [Nat.mul_div_cancel _ hn] at k1
  refine ⟨subNoise nz s1, subNoise nz s2, ?_, ?_, ?_, ?_, ?_⟩
  · unfold beamVar; rw [e1]; rfl
  · unfold beamVar; rw [e2]; rfl
  · unfold beamVar; rw [e]; simp [Except.map, subNoise]
  · simpa [subNoise] using k1
  · simpa [subNoise] using k2

theorem zip2_append (f : ℝ → ℝ → ℝ) (a b c d : List (Option ℝ)) (h : a.length = c.length) :
    zip2 f (a ++ b) (c ++ d) = zip2 f a c ++ zip2 f b d := List.zipWith_append h

/-- **C172** (stresses from four beams). -/
theorem pieces_stress4 (b : Binner) (make : AdpMake) (o : Facing) (ang noise : Option ℝ) (q n l2 : ℕ)
    (x y : Fin 4 → ℕ → Option ℝ) (hb : b.nBin = n) (hn : 0 < n) (hq : 0 < q) (h2 : n ≤ l2)
    (s1 : List (Option ℝ) × List (Option ℝ)) (h : calcStress4 b make o ang noise (q * n) x = .ok s1) :
    ∃ s2, calcStress4 b make o ang noise l2 y = .ok s2 ∧
      calcStress4 b make o ang noise (q * n + l2) (fun k => Spec.join (q * n) (x k) (y k)) =
        .ok (s1.1 ++ s2.1, s1.2 ++ s2.2) := by
  rcases ang with _ | ang
  · exact absurd h (by simp [calcStress4, throw, throwThe, MonadExceptOf.throw])
  unfold calcStress4 at h ⊢
  simp only [bind, Except.bind, pure, Except.pure] at h ⊢
  generalize beamOrder make o = BO at h ⊢
  rcases BO with e | ord
  · simp at h
  obtain ⟨a1, a2, A1, A2, A, la, -⟩ := pieces_beam b (noise.getD 0) q n l2 (x (ord 0)) (y (ord 0)) hb hn hq h2
  obtain ⟨b1, b2, B1, B2, B, lb, -⟩ := pieces_beam b (noise.getD 0) q n l2 (x (ord 1)) (y (ord 1)) hb hn hq h2
  obtain ⟨c1, c2, C1, C2, C, lc, -⟩ := pieces_beam b (noise.getD 0) q n l2 (x (ord 2)) (y (ord 2)) hb hn hq h2
  obtain ⟨d1, d2, D1, D2, D, ld, -⟩ := pieces_beam b (noise.getD 0) q n l2 (x (ord 3)) (y (ord 3)) hb hn hq h2
  simp only [A1, B1, C1, D1] at h
  replace h := Except.ok.inj h
  simp only [A2, B2, C2, D2, A, B, C, D]
  refine ⟨_, rfl, ?_⟩
  rw [← h, zip2_append _ _ _ _ _ (by omega), zip2_append _ _ _ _ _ (by omega)]

theorem pieces_mean_len (b : Binner) (q n l2 : ℕ) (x y : ℕ → Option ℝ) (hb : b.nBin = n) (hn : 0 < n) (hq : 0 < q)
    (h2 : n ≤ l2) :
    ∃ s1 s2, binMean b (q * n) x none = .ok s1 ∧ binMean b l2 y none = .ok s2 ∧
      binMean b (q * n + l2) (Spec.join (q * n) x y) none = .ok (s1 ++ s2) ∧ s1.length = q ∧ s2.length = l2 / n := by
  obtain ⟨⟨s1, s2, e1, e2, e⟩, -, -⟩ := pieces_averages b q n l2 x y hb hn hq h2
  have k1 : s1.length = q * n / n := stat_length (some 0) nanmean n (q * n) x hn (Nat.le_mul_of_pos_left n hq) s1
    (by rw [← hb]; exact e1)
  have k2 : s2.length = l2 / n := stat_length (some 0) nanmean n l2 y hn h2 s2 (by rw [← hb]; exact e2)
  rw [Nat.mul_div_cancel _ hn] at k1
  exact ⟨s1, s2, e1, e2, e, k1, k2⟩

theorem pieces_tilt (b : Binner) (make : AdpMake) (q n l2 : ℕ) (p r p' r' : ℕ → Option ℝ) (hb : b.nBin = n) (hn : 0 < n)
    (hq : 0 < q) (h2 : n ≤ l2) (s1 : List (Option ℝ) × List (Option ℝ))
    (h : tiltAngles b make (q * n) p r = .ok s1) :
    ∃ s2, tiltAngles b make l2 p' r' = .ok s2 ∧
      tiltAngles b make (q * n + l2) (Spec.join (q * n) p p') (Spec.join (q * n) r r') =
        .ok (s1.1 ++ s2.1, s1.2 ++ s2.2) ∧ s1.1.length = q ∧ s1.2.length = q := by
  obtain ⟨a1, a2, A1, A2, A, la, -⟩ := pieces_mean_len b q n l2 p p' hb hn hq h2
  obtain ⟨c1, c2, C1, C2, C, lc, -⟩ := pieces_mean_len b q n l2 r r' hb hn hq h2
  unfold tiltAngles at h ⊢
  simp only [bind, Except.bind, pure, Except.pure, A1, A2, A, C1, C2, C] at h ⊢
  cases make
  · replace h := Except.ok.inj h
    exact ⟨_, rfl, by rw [← h]; simp, by rw [← h]; simpa using la, by rw [← h]; simpa using lc⟩
  · replace h := Except.ok.inj h
    exact ⟨_, rfl, by rw [← h]; simp, by rw [← h]; simpa using lc, by rw [← h]; simpa using la⟩
  · exact absurd h (by simp [throw, throwThe, MonadExceptOf.throw])

/-- **C172** (energies and stresses from five beams). -/
theorem pieces_stress5 (b : Binner) (make : AdpMake) (o : Facing) (ang noise : Option ℝ) (q n l2 : ℕ)
    (pt rl pt' rl' : ℕ → Option ℝ) (x y : Fin 4 → ℕ → Option ℝ) (x5 y5 u v u' v' : ℕ → Option ℝ) (hb : b.nBin = n)
    (hn : 0 < n) (hq : 0 < q) (h2 : n ≤ l2) (s1 : List (Option Five))
    (h : calcStress5 b make o ang noise (q * n) pt rl x (some x5) u v = .ok s1) :
    ∃ s2, calcStress5 b make o ang noise l2 pt' rl' y (some y5) u' v' = .ok s2 ∧
      calcStress5 b make o ang noise (q * n + l2) (Spec.join (q * n) pt pt') (Spec.join (q * n) rl rl')
        (fun k => Spec.join (q * n) (x k) (y k)) (some (Spec.join (q * n) x5 y5)) (Spec.join (q * n) u u')
        (Spec.join (q * n) v v') = .ok (s1 ++ s2) := by
  rcases ang with _ | ang
  · exact absurd h (by simp [calcStress5, throw, throwThe, MonadExceptOf.throw])
  unfold calcStress5 at h ⊢
  simp only [bind, Except.bind, pure, Except.pure] at h ⊢
  generalize beamOrder make o = BO at h ⊢
  rcases BO with e | ord
  · simp at h
  simp only at h ⊢
  rcases ht : tiltAngles b make (q * n) pt rl with e | phi
  · rw [ht] at h; simp at h
  rw [ht] at h
  obtain ⟨phi2, T2, T, lt1, lt2⟩ := pieces_tilt b make q n l2 pt rl pt' rl' hb hn hq h2 phi ht
  obtain ⟨a1, a2, A1, A2, A, la, la2⟩ := pieces_beam b (noise.getD 0) q n l2 (x (ord 0)) (y (ord 0)) hb hn hq h2
  obtain ⟨b1, b2, B1, B2, B, lb, -⟩ := pieces_beam b (noise.getD 0) q n l2 (x (ord 1)) (y (ord 1)) hb hn hq h2
  obtain ⟨c1, c2, C1, C2, C, lc, -⟩ := pieces_beam b (noise.getD 0) q n l2 (x (ord 2)) (y (ord 2)) hb hn hq h2
  obtain ⟨d1, d2, D1, D2, D, ld, -⟩ := pieces_beam b (noise.getD 0) q n l2 (x (ord 3)) (y (ord 3)) hb hn hq h2
  obtain ⟨e1, e2, E1, E2, E, le, -⟩ := pieces_beam b (noise.getD 0) q n l2 x5 y5 hb hn hq h2
  obtain ⟨m, p, m1, p1, m2, p2, M, P, M1, P1, M2, P2, hp, lp, -⟩ := pieces_prod b true q n l2 u u' v v' hb hn hq h2
  simp only [A1, B1, C1, D1, E1, M1, P1] at h
  replace h := Except.ok.inj h
  simp only [T2, A2, B2, C2, D2, E2, M2, P2, T, A, B, C, D, E, M, P]
  refine ⟨_, rfl, ?_⟩
  rw [← h, hp, List.length_append, la, la2]
  congr 1
  apply range_add_map
  · intro r hr
    have g : ∀ (s t : List (Option ℝ)), s.length = q → (s ++ t).getD r none = s.getD r none := by
      intro s t hs
      rw [List.getD_eq_getElem?_getD, List.getElem?_append_left (by omega), List.getD_eq_getElem?_getD]
    rw [g _ _ lt1, g _ _ lt2, g _ _ lp, g _ _ la, g _ _ lb, g _ _ lc, g _ _ ld, g _ _ le]
  · intro r hr
    have g : ∀ (s t : List (Option ℝ)), s.length = q → (s ++ t).getD (q + r) none = t.getD r none := by
      intro s t hs
      rw [List.getD_eq_getElem?_getD, List.getElem?_append_right (by omega), hs, Nat.add_sub_cancel_left,
        List.getD_eq_getElem?_getD]
    rw [g _ _ lt1, g _ _ lt2, g _ _ lp, g _ _ la, g _ _ lb, g _ _ lc, g _ _ ld, g _ _ le]

/-- The bins of all cells of a record. -/
theorem cells_ok (b : Binner) (len nz : ℕ) (vel : ℕ → ℕ → Option ℝ) (M : ℕ → Mat2 (Option ℝ))
    (h : ∀ z, reshape (some 0) len (vel z) b.nBin 0 = .ok (M z)) :
    (List.range nz).mapM (fun z => fluct b false len (vel z)) =
      .ok ((List.range nz).map fun z => ⟨(M z).rows, (M z).cols, flRow false (M z)⟩) :=
  mapM_ok_eq _ _ _ fun z _ => fluct_eq b false len (vel z) (M z) (h z)

theorem getD_cells {α : Type} (nz : ℕ) (G : ℕ → α) (d : α) (z : ℕ) (hz : z < nz) :
    ((List.range nz).map G).getD z d = G z := by
  rw [List.getD_eq_getElem?_getD, List.getElem?_map, List.getElem?_range hz]
  rfl

/-- The rest of `calc_dissipation_SF` once the bins are made. -/
noncomputable def sfTail (fitNan : List ℝ → List (Option ℝ) → Option ℝ × Option ℝ) (nz : ℕ) (rng : ℕ → ℚ) (r0 r1 : ℚ)
    (bm : List (Mat2 (Option ℝ))) : Except Err SfOut := do
  if nz < 2 then throw .indexError
  let bin := sfCell rng
  if bin = 0 then throw (if r0 = 0 then .valueError else .overflowError)
  let R := sfFirst bin r0
  let m := sfCount bin r1
  let rows := (bm.headD ⟨0, 0, fun _ _ => none⟩).rows
  let cols := (bm.headD ⟨0, 0, fun _ _ => none⟩).cols
  if 0 < rows ∧ (List.range m).any (fun k => decide (nz < sfIdx bin k)) then throw .valueError
  let D := fun z k t =>
    if sfHit bin m (k + 1) then structFun cols (fun z j => (bm.getD z ⟨0, 0, fun _ _ => none⟩).at_ t j) z (k + 1)
    else some 0
  let line := fun z t => if z < m then (none, none) else sfLine fitNan bin R m fun k => D z k t
  return { cells := nz, bins := rows, seps := (List.range m).map fun k => sfSep bin k
           eps := fun z t => sfEps (line z t).1
           noise := fun z t => (line z t).2.bind fun a => npSqrt (a / 2)
           sf := D }

theorem calcSF_tail (fitNan : List ℝ → List (Option ℝ) → Option ℝ × Option ℝ) (b : Binner) (nz len : ℕ)
    (rng : ℕ → ℚ) (r0 r1 : ℚ) (vel : ℕ → ℕ → Option ℝ) (bm : List (Mat2 (Option ℝ)))
    (h : (List.range nz).mapM (fun z => fluct b false len (vel z)) = .ok bm) :
    calcSF fitNan b 2 nz len rng r0 r1 vel = sfTail fitNan nz rng r0 r1 bm := by
  unfold calcSF sfTail
  rw [h]
  rfl

/-- What two sets of bins of the same cells have in common. -/
theorem sfTail_same (fitNan : List ℝ → List (Option ℝ) → Option ℝ × Option ℝ) (nz : ℕ) (rng : ℕ → ℚ) (r0 r1 : ℚ)
    (bm bm' : List (Mat2 (Option ℝ))) (h1 : 0 < (bm.headD ⟨0, 0, fun _ _ => none⟩).rows)
    (h2 : 0 < (bm'.headD ⟨0, 0, fun _ _ => none⟩).rows) (out : SfOut)
    (h : sfTail fitNan nz rng r0 r1 bm = .ok out) :
    ∃ out', sfTail fitNan nz rng r0 r1 bm' = .ok out' ∧ out'.cells = out.cells ∧ out'.seps = out.seps ∧
      out.bins = (bm.headD ⟨0, 0, fun _ _ => none⟩).rows ∧ out'.bins = (bm'.headD ⟨0, 0, fun _ _ => none⟩).rows ∧
      out.cells = nz ∧
      ∀ t t', (∀ z < nz, ∀ i, structFun (bm.headD ⟨0, 0, fun _ _ => none⟩).cols
            (fun z j => (bm.getD z ⟨0, 0, fun _ _ => none⟩).at_ t j) z i =
          structFun (bm'.headD ⟨0, 0, fun _ _ => none⟩).cols
            (fun z j => (bm'.getD z ⟨0, 0, fun _ _ => none⟩).at_ t' j) z i) →
        ∀ z < nz, out'.eps z t' = out.eps z t ∧ out'.noise z t' = out.noise z t ∧
          ∀ k, out'.sf z k t' = out.sf z k t := by
  unfold sfTail at h ⊢
  by_cases c1 : nz < 2
  · rw [if_pos c1] at h
    exact absurd h (by simp [throw, throwThe, MonadExceptOf.throw, bind, Except.bind])
  rw [if_neg c1] at h ⊢
  by_cases c2 : sfCell rng = 0
  · simp only [c2, if_true] at h
    exact absurd h (by simp [throw, throwThe, MonadExceptOf.throw, bind, Except.bind])
  simp only [c2, if_false, h1, h2, true_and] at h ⊢
  by_cases c3 : ((List.range (sfCount (sfCell rng) r1)).any fun k => decide (nz < sfIdx (sfCell rng) k)) = true
  · rw [if_pos c3] at h
    exact absurd h (by simp [throw, throwThe, MonadExceptOf.throw, bind, Except.bind])
  rw [if_neg c3] at h ⊢
  replace h := Except.ok.inj h
  subst h
  refine ⟨_, rfl, rfl, rfl, rfl, rfl, rfl, ?_⟩
  intro t t' hs z hz
  have hD : ∀ k, (if sfHit (sfCell rng) (sfCount (sfCell rng) r1) (k + 1) then
      structFun (bm'.headD ⟨0, 0, fun _ _ => none⟩).cols
        (fun z j => (bm'.getD z ⟨0, 0, fun _ _ => none⟩).at_ t' j) z (k + 1) else some 0) =
      if sfHit (sfCell rng) (sfCount (sfCell rng) r1) (k + 1) then
        structFun (bm.headD ⟨0, 0, fun _ _ => none⟩).cols
          (fun z j => (bm.getD z ⟨0, 0, fun _ _ => none⟩).at_ t j) z (k + 1) else some 0 := by
    intro k
    rw [hs z hz]
  refine ⟨?_, ?_, hD⟩
  · simp only [hD]
  · simp only [hD]

/-- **C172** (structure functions and their dissipation). -/
theorem pieces_sf (fitNan : List ℝ → List (Option ℝ) → Option ℝ × Option ℝ) (b : Binner) (nz q n l2 : ℕ) (rng : ℕ → ℚ)
    (r0 r1 : ℚ) (x y : ℕ → ℕ → Option ℝ) (hb : b.nBin = n) (hn : 0 < n) (hq : 0 < q) (h2 : n ≤ l2) (out : SfOut)
    (h : calcSF fitNan b 2 nz (q * n + l2) rng r0 r1 (fun z => Spec.join (q * n) (x z) (y z)) = .ok out) :
    ∃ o1 o2, calcSF fitNan b 2 nz (q * n) rng r0 r1 x = .ok o1 ∧ calcSF fitNan b 2 nz l2 rng r0 r1 y = .ok o2 ∧
      o1.seps = out.seps ∧ o2.seps = out.seps ∧ o1.bins = q ∧ o2.bins = l2 / n ∧ out.bins = q + l2 / n ∧
      (∀ z < nz, ∀ t < q, out.eps z t = o1.eps z t ∧ out.noise z t = o1.noise z t ∧
        ∀ k, out.sf z k t = o1.sf z k t) ∧
      ∀ z < nz, ∀ t < l2 / n, out.eps z (q + t) = o2.eps z t ∧ out.noise z (q + t) = o2.noise z t ∧
        ∀ k, out.sf z k (q + t) = o2.sf z k t := by
  choose M M1 M2 e e1 e2 k1 k2 k0 w1 w2 using fun z => pieces_bins (some (0 : ℝ)) q n l2 0 (x z) (y z) hn hq h2 (by omega)
  simp only [Nat.cast_zero] at e e1 e2
  rw [← hb] at e e1 e2
  have hl : 0 < l2 / n := Nat.div_pos h2 hn
  have hc : ∀ z, (M z).cols = n := by
    intro z
    obtain ⟨w, f, -, k, -⟩ := reshape_no_pad (some (0 : ℝ)) (q * n + l2) (Spec.join (q * n) (x z) (y z)) n hn (by omega)
    rw [← hb] at f
    rw [Except.ok.inj ((e z).symm.trans f), k]
  have hnz : 2 ≤ nz := by
    by_contra c
    rw [calcSF_tail fitNan b nz _ rng r0 r1 _ _ (cells_ok b _ nz _ M e)] at h
    unfold sfTail at h
    rw [if_pos (by omega)] at h
    exact absurd h (by simp [throw, throwThe, MonadExceptOf.throw, bind, Except.bind])
  have hd : ∀ G : ℕ → Mat2 (Option ℝ), ((List.range nz).map G).headD ⟨0, 0, fun _ _ => none⟩ = G 0 := by
    intro G
    obtain ⟨k, rfl⟩ : ∃ k, nz = k + 1 := ⟨nz - 1, by omega⟩
    rw [List.range_succ_eq_map]
    rfl
  rw [calcSF_tail fitNan b nz _ rng r0 r1 _ _ (cells_ok b _ nz _ M e)] at h
  rw [calcSF_tail fitNan b nz _ rng r0 r1 _ _ (cells_ok b _ nz _ M1 e1),
    calcSF_tail fitNan b nz _ rng r0 r1 _ _ (cells_ok b _ nz _ M2 e2)]
  obtain ⟨o1, a1, a2, a3, a4, a5, a6, a7⟩ := sfTail_same fitNan nz rng r0 r1 _
    ((List.range nz).map fun z => ⟨(M1 z).rows, (M1 z).cols, flRow false (M1 z)⟩) (by rw [hd]; simp only [k0]; omega)
    (by rw [hd]; simp only [k1]; omega) out h
  obtain ⟨o2, b1, b2, b3, b4, b5, b6, b7⟩ := sfTail_same fitNan nz rng r0 r1 _
    ((List.range nz).map fun z => ⟨(M2 z).rows, (M2 z).cols, flRow false (M2 z)⟩) (by rw [hd]; simp only [k0]; omega)
    (by rw [hd]; simp only [k2]; omega) out h
  refine ⟨o1, o2, a1, b1, a3, b3, ?_, ?_, ?_, ?_, ?_⟩
  · rw [a5, hd]; exact k1 0
  · rw [b5, hd]; exact k2 0
  · rw [a4, hd]; exact k0 0
  · intro z hz t ht
    have hcol : (M1 0).cols = n := by
      rw [← (row_at _ _ _ _ (w1 0 t (.inr ⟨rfl, ht⟩))).1, hc]
    have g := a7 t t (by
      intro z hz i
      rw [hd, hd]
      simp only [hc, hcol]
      unfold structFun
      by_cases hi : z < i
      · simp only [hi, if_true]
      · simp only [hi, if_false]
        congr 1
        apply vals_congr
        intro j hj
        rw [getD_cells _ _ _ _ hz, getD_cells _ _ _ _ hz, getD_cells _ _ _ _ (by omega : z - i < nz),
          getD_cells _ _ _ _ (by omega : z - i < nz)]
        simp only
        rw [flRow_congr false _ _ _ _ (w1 z t (.inr ⟨rfl, ht⟩)) j (by rw [hc]; exact hj),
          flRow_congr false _ _ _ _ (w1 (z - i) t (.inr ⟨rfl, ht⟩)) j (by rw [hc]; exact hj)]) z hz
    exact ⟨g.1.symm, g.2.1.symm, fun k => (g.2.2 k).symm⟩
  · intro z hz t ht
    have hcol : (M2 0).cols = n := by
      rw [← (row_at _ _ _ _ (w2 0 t ht (.inr rfl))).1, hc]
    have g := b7 (q + t) t (by
      intro z hz i
      rw [hd, hd]
      simp only [hc, hcol]
      unfold structFun
      by_cases hi : z < i
      · simp only [hi, if_true]
      · simp only [hi, if_false]
        congr 1
        apply vals_congr
        intro j hj
        rw [getD_cells _ _ _ _ hz, getD_cells _ _ _ _ hz, getD_cells _ _ _ _ (by omega : z - i < nz),
          getD_cells _ _ _ _ (by omega : z - i < nz)]
        simp only
        rw [flRow_congr false _ _ _ _ (w2 z t ht (.inr rfl)) j (by rw [hc]; exact hj),
          flRow_congr false _ _ _ _ (w2 (z - i) t ht (.inr rfl)) j (by rw [hc]; exact hj)]) z hz
    exact ⟨g.1.symm, g.2.1.symm, fun k => (g.2.2 k).symm⟩

/-- A record of four samples in two bins for which `pieces_stress4` speaks. -/
example (x : Fin 4 → ℕ → Option ℝ) :
    ∃ s, calcStress4 ⟨((2 : ℕ) : ℚ), 1, 2, 2⟩ .trdi .down (some 20) none (2 * 2) x = .ok s := by
  unfold calcStress4
  simp only [bind, Except.bind, pure, Except.pure, beamOrder]
  have h : ∀ k, ∃ s, beamVar ⟨((2 : ℕ) : ℚ), 1, 2, 2⟩ ((none : Option ℝ).getD 0) (2 * 2) (x k) = .ok s := fun k =>
    let ⟨s1, _, e, _⟩ := pieces_beam ⟨((2 : ℕ) : ℚ), 1, 2, 2⟩ _ 2 2 2 (x k) (x k) rfl (by norm_num) (by norm_num) le_rfl
    ⟨s1, e⟩
  choose s hs using h
  simp only [hs]
  exact ⟨_, rfl⟩

/-- Four cells one metre apart and separations up to two metres, for which `pieces_sf` speaks. -/
example (fitNan : List ℝ → List (Option ℝ) → Option ℝ × Option ℝ) (x y : ℕ → ℕ → Option ℝ) :
    ∃ out, calcSF fitNan ⟨((2 : ℕ) : ℚ), 1, 2, 2⟩ 2 4 (2 * 2 + 2) (fun k => k) 1 2
      (fun z => Spec.join (2 * 2) (x z) (y z)) = .ok out := by
  choose M M1 M2 e _ using fun z => pieces_bins (some (0 : ℝ)) 2 2 2 0 (x z) (y z) (by norm_num) (by norm_num)
    le_rfl (by omega)
  simp only [Nat.cast_zero] at e
  rw [calcSF_tail fitNan _ 4 _ _ _ _ _ _ (cells_ok ⟨((2 : ℕ) : ℚ), 1, 2, 2⟩ _ 4 _ M e)]
  unfold sfTail
  have h1 : sfCell (fun k => (k : ℚ)) ≠ 0 := by decide +kernel
  have h2 : ¬ ((List.range (sfCount (sfCell fun k => (k : ℚ)) 2)).any fun k =>
      decide (4 < sfIdx (sfCell fun k => (k : ℚ)) k)) = true := by decide +kernel
  simp only [h1, h2, if_false, and_false, Bool.false_eq_true, show ¬ (4 < 2) by norm_num]
  exact ⟨_, rfl⟩

end Dolfyn
