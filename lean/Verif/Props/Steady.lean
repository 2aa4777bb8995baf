import Verif.Props.TkeBeam
import Verif.Props.UnitsBin
import Verif.Props.Psd
import Verif.Props.PsdNan
import Verif.Props.VelPsd
import Verif.Model.SfCall

/-!
C182: a steady current does not change what is said about the turbulence. Samples may be missing anywhere and bins may
have any length, also a fractional one, unless stated otherwise.
-/

namespace Dolfyn

/-- A velocity in a current that is faster by `c`. -/
noncomputable def withFlow (c : ℝ) (o : Option ℝ) : Option ℝ := o.map fun x => x + c

theorem withFlow_sub (c : ℝ) (a b : Option ℝ) :
    opt2 (· - ·) (withFlow c a) (withFlow c b) = opt2 (· - ·) a b := by
  rcases a with _ | a <;> rcases b with _ | b <;> simp [withFlow, opt2]

theorem reduceOption_withFlow (c : ℝ) (l : List (Option ℝ)) :
    (l.map (withFlow c)).reduceOption = l.reduceOption.map (· + c) := by
  induction l with
  | nil => rfl
  | cons o l ih => rcases o with _ | x <;> simp [withFlow, List.reduceOption_cons_of_none,
      List.reduceOption_cons_of_some] at ih ⊢ <;> exact ih

theorem sum_add_const (c : ℝ) (v : List ℝ) : (v.map (· + c)).sum = v.sum + v.length * c := by
  induction v with
  | nil => simp
  | cons x v ih => simp only [List.map_cons, List.sum_cons, ih, List.length_cons]; push_cast; ring

theorem nanmean_withFlow (c : ℝ) (l : List (Option ℝ)) :
    nanmean (l.map (withFlow c)) = withFlow c (nanmean l) := by
  unfold nanmean
  simp only [reduceOption_withFlow]
  by_cases h : l.reduceOption = []
  · simp [h, withFlow]
  · have hn : (l.reduceOption.length : ℝ) ≠ 0 := by
      simpa using h
    rw [if_neg (by simpa using h), if_neg h]
    simp only [withFlow, Option.map_some, sum_add_const, List.length_map]
    congr 1
    field_simp

theorem nanvar_withFlow (c : ℝ) (l : List (Option ℝ)) : nanvar (l.map (withFlow c)) = nanvar l := by
  unfold nanvar
  simp only [reduceOption_withFlow]
  by_cases h : l.reduceOption = []
  · simp [h]
  · have hn : (l.reduceOption.length : ℝ) ≠ 0 := by
      simpa using h
    rw [if_neg (by simpa using h), if_neg h]
    simp only [sum_add_const, List.length_map, List.map_map]
    have e : (l.reduceOption.sum + (l.reduceOption.length : ℝ) * c) / l.reduceOption.length =
        l.reduceOption.sum / l.reduceOption.length + c := by field_simp
    rw [e]
    congr 3
    apply List.map_congr_left
    intro x _
    simp only [Function.comp_apply]
    ring

/-- Two tables of bins with the same size and the same samples. -/
def sameBins {α : Type*} (m m' : Mat2 α) : Prop :=
  m'.rows = m.rows ∧ m'.cols = m.cols ∧ ∀ r, ∀ j < m.cols, m'.at_ r j = m.at_ r j

/-- Both calls fail alike, or both give the same bins. -/
def sameResult {α : Type*} (x x' : Except Err (Mat2 α)) : Prop :=
  match x, x' with
  | .error e, .error e' => e = e'
  | .ok m, .ok m' => sameBins m m'
  | _, _ => False

/-- The samples in the bins are samples of the record: the initial value of the array does not matter. -/
theorem reshape_initial {α : Type*} (z z' : α) (len : ℕ) (x : ℕ → α) (nBin : ℚ) :
    sameResult (reshape z len x nBin 0) (reshape z' len x nBin 0) := by
  have hf : ∀ (z z' : α) idx rows n pad r j, pad = 0 → j < n + pad →
      fillBins z' x idx rows n pad r j = fillBins z x idx rows n pad r j := by
    intro z z' idx rows n pad r j hp hj
    subst hp
    unfold fillBins
    simp only [Nat.zero_div, ne_eq, not_true_eq_false, if_false]
    rw [if_pos ⟨Nat.zero_le _, hj⟩, if_pos ⟨Nat.zero_le _, hj⟩]
  unfold reshape
  dsimp only
  repeat' split
  all_goals first
    | exact rfl
    | (refine ⟨rfl, rfl, fun r j hj => ?_⟩; dsimp only at hj ⊢; exact hf z z' _ _ _ _ r j rfl hj)

theorem reshape_withFlow (c : ℝ) (len : ℕ) (x : ℕ → Option ℝ) (nBin : ℚ) :
    sameResult ((reshape (some 0) len x nBin 0).map fun m => ⟨m.rows, m.cols, fun r j => withFlow c (m.at_ r j)⟩)
      (reshape (some 0) len (fun i => withFlow c (x i)) nBin 0) := by
  have h := reshape_initial (withFlow c (some 0)) (some 0) len (fun i => withFlow c (x i)) nBin
  rw [reshape_comp (withFlow c)] at h
  exact h

/-- The binned fluctuations are the same, demeaned or detrended. -/
theorem fluct_withFlow (c : ℝ) (b : Binner) (dt : Bool) (len : ℕ) (x : ℕ → Option ℝ) :
    sameResult (fluct b dt len x) (fluct b dt len fun i => withFlow c (x i)) := by
  have h := reshape_withFlow c len x b.nBin
  unfold fluct
  generalize reshape (some 0) len x b.nBin 0 = A at h ⊢
  generalize reshape (some 0) len (fun i => withFlow c (x i)) b.nBin 0 = B at h ⊢
  rcases A with e | m <;> rcases B with e' | m'
  · exact h
  · exact h.elim
  · exact h.elim
  · obtain ⟨h1, h2, h3⟩ := h
    simp only at h1 h2 h3
    refine ⟨h1, h2, ?_⟩
    intro r j hj
    simp only at hj ⊢
    cases dt
    · simp only [Bool.false_eq_true, if_false]
      have : m'.row r = (m.row r).map (withFlow c) := by
        unfold Mat2.row
        rw [h2, List.map_map]
        exact List.map_congr_left fun j hj => h3 r j (List.mem_range.mp hj)
      rw [this, nanmean_withFlow, h3 r j hj, withFlow_sub]
    · simp only [if_true]
      rw [h2, detrend_congr m.cols (m'.at_ r) (fun j => withFlow c (m.at_ r j)) (fun i hi => h3 r i hi) j hj]
      have : nanmean (vals m.cols fun j => withFlow c (m.at_ r j)) = withFlow c (nanmean (vals m.cols (m.at_ r))) := by
        rw [← nanmean_withFlow]
        unfold vals
        rw [List.map_map]
        rfl
      unfold detrend
      simp only [this, withFlow_sub]

theorem rowProd_same {x x' y y' : Mat2 (Option ℝ)} (hx : sameBins x x') (hy : sameBins y y')
    (hc : y.cols = x.cols) : rowProd x' y' = rowProd x y := by
  obtain ⟨h1, h2, h3⟩ := hx
  obtain ⟨_, _, g3⟩ := hy
  unfold rowProd
  rw [h1, h2]
  apply List.map_congr_left
  intro r _
  congr 1
  apply vals_congr
  intro j hj
  rw [h3 r j hj, g3 r j (by omega)]

theorem reshape_cols {α : Type*} {z : α} {len : ℕ} {x : ℕ → α} {nBin : ℚ} {m : Mat2 α}
    (h : reshape z len x nBin 0 = .ok m) : m.cols = (pyInt nBin).toNat := by
  unfold reshape at h
  dsimp only at h
  repeat' split at h
  all_goals first
    | (simp at h; done)
    | (replace h := Except.ok.inj h; subst h; simp)

theorem fluct_cols {b : Binner} {dt : Bool} {len : ℕ} {x : ℕ → Option ℝ} {m : Mat2 (Option ℝ)}
    (h : fluct b dt len x = .ok m) : m.cols = (pyInt b.nBin).toNat := by
  unfold fluct at h
  rcases hr : reshape (some 0) len x b.nBin 0 with e | m0
  · rw [hr] at h; simp [Except.map] at h
  · rw [hr] at h
    replace h := Except.ok.inj h
    subst h
    exact reshape_cols (m := m0) hr

theorem tke1_steady (c : ℝ) (b : Binner) (dt : Bool) (len : ℕ) (x : ℕ → Option ℝ) :
    tke1 b dt len (fun i => withFlow c (x i)) = tke1 b dt len x := by
  have h := fluct_withFlow c b dt len x
  unfold tke1
  generalize fluct b dt len x = A at h ⊢
  generalize fluct b dt len (fun i => withFlow c (x i)) = B at h ⊢
  rcases A with e | m <;> rcases B with e' | m'
  · rw [show e = e' from h]
  · exact h.elim
  · exact h.elim
  · simp only [Except.map]
    rw [rowProd_same h h rfl]

/-- C182. Turbulent kinetic energy, with and without noise levels. -/
theorem tke_steady (c : Fin 3 → ℝ) (b : Binner) (isXr : Bool) (noise : Option (List ℝ)) (dt : Bool) (len : ℕ)
    (vel : Fin 3 → ℕ → Option ℝ) :
    calcTke b isXr noise dt len (fun k i => withFlow (c k) (vel k i)) = calcTke b isXr noise dt len vel := by
  unfold calcTke
  simp only [tke1_steady]

/-- C182. Reynolds stresses of a point velocimeter. -/
theorem stress_steady (c : Fin 3 → ℝ) (b : Binner) (dt : Bool) (len : ℕ) (vel : Fin 3 → ℕ → Option ℝ) :
    calcStress b dt len (fun k i => withFlow (c k) (vel k i)) = calcStress b dt len vel := by
  have h0 := fluct_withFlow (c 0) b dt len (vel 0)
  have h1 := fluct_withFlow (c 1) b dt len (vel 1)
  have h2 := fluct_withFlow (c 2) b dt len (vel 2)
  unfold calcStress
  simp only [bind, Except.bind, pure, Except.pure]
  rcases e0 : fluct b dt len (vel 0) with e | u <;>
    rcases e0' : fluct b dt len (fun i => withFlow (c 0) (vel 0 i)) with e' | u' <;> rw [e0, e0'] at h0
  · rw [show e = e' from h0]
  · exact h0.elim
  · exact h0.elim
  rcases e1 : fluct b dt len (vel 1) with e | v <;>
    rcases e1' : fluct b dt len (fun i => withFlow (c 1) (vel 1 i)) with e' | v' <;> rw [e1, e1'] at h1
  · rw [show e = e' from h1]
  · exact h1.elim
  · exact h1.elim
  rcases e2 : fluct b dt len (vel 2) with e | w <;>
    rcases e2' : fluct b dt len (fun i => withFlow (c 2) (vel 2 i)) with e' | w' <;> rw [e2, e2'] at h2
  · rw [show e = e' from h2]
  · exact h2.elim
  · exact h2.elim
  simp only
  congr 1
  funext k
  fin_cases k
  · exact rowProd_same h0 h1 ((fluct_cols e1).trans (fluct_cols e0).symm)
  · exact rowProd_same h0 h2 ((fluct_cols e2).trans (fluct_cols e0).symm)
  · exact rowProd_same h1 h2 ((fluct_cols e2).trans (fluct_cols e1).symm)

/-- C182. The bin averages, on the other hand, show the current. -/
theorem mean_steady (c : ℝ) (b : Binner) (len : ℕ) (x : ℕ → Option ℝ) (nBin : Option ℚ) :
    binMean b len (fun i => withFlow c (x i)) nBin = (binMean b len x nBin).map fun l => l.map (withFlow c) := by
  have h := reshape_withFlow c len x (parseNbin b nBin)
  unfold binMean
  generalize reshape (some 0) len x (parseNbin b nBin) 0 = A at h ⊢
  generalize reshape (some 0) len (fun i => withFlow c (x i)) (parseNbin b nBin) 0 = B at h ⊢
  rcases A with e | m <;> rcases B with e' | m'
  · rw [show e = e' from h]; rfl
  · exact h.elim
  · exact h.elim
  · obtain ⟨h1, h2, h3⟩ := h
    simp only [Except.map] at h1 h2 h3 ⊢
    rw [h1, List.map_map]
    congr 1
    apply List.map_congr_left
    intro r _
    simp only [Function.comp_apply]
    rw [← nanmean_withFlow]
    congr 1
    unfold Mat2.row
    rw [h2, List.map_map]
    exact List.map_congr_left fun j hj => h3 r j (List.mem_range.mp hj)

/-- C182. Variances of bins. -/
theorem var_steady (c : ℝ) (b : Binner) (len : ℕ) (x : ℕ → Option ℝ) (nBin : Option ℚ) :
    binVar b len (fun i => withFlow c (x i)) nBin = binVar b len x nBin := by
  have h := reshape_withFlow c len x (parseNbin b nBin)
  unfold binVar
  generalize reshape (some 0) len x (parseNbin b nBin) 0 = A at h ⊢
  generalize reshape (some 0) len (fun i => withFlow c (x i)) (parseNbin b nBin) 0 = B at h ⊢
  rcases A with e | m <;> rcases B with e' | m'
  · rw [show e = e' from h]
  · exact h.elim
  · exact h.elim
  · obtain ⟨h1, h2, h3⟩ := h
    simp only [Except.map] at h1 h2 h3 ⊢
    rw [h1]
    congr 1
    apply List.map_congr_left
    intro r _
    rw [← nanvar_withFlow c (m.row r)]
    congr 1
    unfold Mat2.row
    rw [h2, List.map_map]
    exact List.map_congr_left fun j hj => h3 r j (List.mem_range.mp hj)

/-- C182. Stresses from four beams; each beam sees another part of the current. -/
theorem stress4_steady (c : Fin 4 → ℝ) (b : Binner) (make : AdpMake) (o : Facing) (ang noise : Option ℝ) (len : ℕ)
    (vel : Fin 4 → ℕ → Option ℝ) :
    calcStress4 b make o ang noise len (fun k i => withFlow (c k) (vel k i)) =
      calcStress4 b make o ang noise len vel := by
  unfold calcStress4 beamVar
  simp only [var_steady]

theorem pair_same {β : Type} {A A' B B' : Except Err (Mat2 (Option ℝ))} (hA : sameResult A A') (hB : sameResult B B')
    (N : ℕ) (nA : ∀ m, A = .ok m → m.cols = N) (nB : ∀ m, B = .ok m → m.cols = N)
    (G : List (Option ℝ) → Except Err β) :
    (A'.bind fun fu => B'.bind fun fv => G (rowProd fu fv)) =
      A.bind fun fu => B.bind fun fv => G (rowProd fu fv) := by
  rcases A with e | u <;> rcases A' with e' | u'
  · rw [show e = e' from hA]; rfl
  · exact hA.elim
  · exact hA.elim
  rcases B with e | v <;> rcases B' with e' | v'
  · rw [show e = e' from hB]; rfl
  · exact hB.elim
  · exact hB.elim
  simp only [Except.bind]
  rw [rowProd_same hA hB ((nB v rfl).trans (nA u rfl).symm)]

/-- C182. Stresses and energies from five beams. -/
theorem stress5_steady (c : Fin 4 → ℝ) (c5 cu cv : ℝ) (b : Binner) (make : AdpMake) (o : Facing)
    (ang noise : Option ℝ) (len : ℕ) (pitch roll : ℕ → Option ℝ) (vel : Fin 4 → ℕ → Option ℝ)
    (vel5 : Option (ℕ → Option ℝ)) (u v : ℕ → Option ℝ) :
    calcStress5 b make o ang noise len pitch roll (fun k i => withFlow (c k) (vel k i))
      (vel5.map fun x i => withFlow c5 (x i)) (fun i => withFlow cu (u i)) (fun i => withFlow cv (v i)) =
    calcStress5 b make o ang noise len pitch roll vel vel5 u v := by
  rcases vel5 with _ | x5
  · rfl
  rcases ang with _ | ang
  · rfl
  unfold calcStress5 beamVar
  simp only [var_steady, Option.map_some]
  refine bind_congr fun ord => bind_congr fun phi => bind_congr fun b0 => bind_congr fun b1 => bind_congr fun b2 =>
    bind_congr fun b3 => bind_congr fun b4 => ?_
  exact pair_same (fluct_withFlow cu b true len u) (fluct_withFlow cv b true len v) _ (fun _ h => fluct_cols h)
    (fun _ h => fluct_cols h) (fun uv => .ok ((List.range b0.length).map fun r =>
      fiveOpt (deg2rad ang) (phi.1.getD r none) (phi.2.getD r none) (uv.getD r none)
        ![b0.getD r none, b1.getD r none, b2.getD r none, b3.getD r none, b4.getD r none]))

/-- C182. Turbulent energy of a single beam; the current may differ from cell to cell. -/
theorem tke_beam_steady (c : ℕ → ℝ) (b : Binner) (isXr : Bool) (nz : NoiseArg) (dt : Bool) (cells len : ℕ)
    (vel : ℕ → ℕ → Option ℝ) :
    tkeBeam b isXr nz dt cells len (fun i t => withFlow (c i) (vel i t)) = tkeBeam b isXr nz dt cells len vel := by
  have hb : ∀ i, cellBin b dt len (fun t => withFlow (c i) (vel i t)) = cellBin b dt len (vel i) := by
    intro i
    have h := fluct_withFlow (c i) b dt len (vel i)
    funext r
    unfold cellBin
    generalize fluct b dt len (vel i) = A at h ⊢
    generalize fluct b dt len (fun t => withFlow (c i) (vel i t)) = B at h ⊢
    rcases A with e | m <;> rcases B with e' | m'
    · rfl
    · exact h.elim
    · exact h.elim
    · obtain ⟨h1, h2, h3⟩ := h
      simp only [binPower]
      rw [h2]
      congr 1
      exact vals_congr _ _ _ fun j hj => by rw [h3 r j hj]
  have hc : cellPower b dt cells len (fun i t => withFlow (c i) (vel i t)) = cellPower b dt cells len vel := by
    have h := fluct_withFlow (c 0) b dt len (vel 0)
    unfold cellPower
    simp only [hb]
    generalize fluct b dt len (vel 0) = A at h ⊢
    generalize fluct b dt len (fun t => withFlow (c 0) (vel 0 t)) = B at h ⊢
    rcases A with e | m <;> rcases B with e' | m'
    · rw [show e = e' from h]
    · exact h.elim
    · exact h.elim
    · simp only
      rw [h.1]
  unfold tkeBeam
  rw [hc]

/-- Cells whose bins have `N` samples and agree. -/
def cellsSame (N : ℕ) (m m' : Mat2 (Option ℝ)) : Prop :=
  m'.rows = m.rows ∧ m.cols = N ∧ m'.cols = N ∧ ∀ t, ∀ j < N, m'.at_ t j = m.at_ t j

theorem mapM_same (N : ℕ) (f f' : ℕ → Except Err (Mat2 (Option ℝ))) (h : ∀ z, sameResult (f z) (f' z))
    (hN : ∀ z m, f z = .ok m → m.cols = N) (l : List ℕ) :
    (∃ e, l.mapM f = .error e ∧ l.mapM f' = .error e) ∨
      ∃ bm bm', l.mapM f = .ok bm ∧ l.mapM f' = .ok bm' ∧ List.Forall₂ (cellsSame N) bm bm' := by
  induction l with
  | nil => exact .inr ⟨[], [], rfl, rfl, .nil⟩
  | cons z l ih =>
    have hz := h z
    have hNz := hN z
    rw [List.mapM_cons, List.mapM_cons]
    generalize f z = A at hz hNz ⊢
    generalize f' z = B at hz ⊢
    rcases A with e | m <;> rcases B with e' | m'
    · refine .inl ⟨e, rfl, ?_⟩
      rw [show e = e' from hz]; rfl
    · exact hz.elim
    · exact hz.elim
    rcases ih with ⟨e, h1, h2⟩ | ⟨bm, bm', h1, h2, h3⟩
    · refine .inl ⟨e, ?_, ?_⟩
      · rw [h1]; rfl
      · rw [h2]; rfl
    · refine .inr ⟨m :: bm, m' :: bm', ?_, ?_, .cons ?_ h3⟩
      · rw [h1]; rfl
      · rw [h2]; rfl
      · have hm := hNz m rfl
        obtain ⟨g1, g2, g3⟩ := hz
        exact ⟨g1, hm, g2.trans hm, fun t j hj => g3 t j (by omega)⟩

theorem getD_same (N : ℕ) (d : Mat2 (Option ℝ)) : ∀ (bm bm' : List (Mat2 (Option ℝ))),
    List.Forall₂ (cellsSame N) bm bm' → ∀ z t, ∀ j < N, (bm'.getD z d).at_ t j = (bm.getD z d).at_ t j := by
  intro bm bm' h
  induction h with
  | nil => intro z t j _; rfl
  | cons h1 _ ih =>
    intro z t j hj
    rcases z with _ | z
    · exact h1.2.2.2 t j hj
    · simpa using ih z t j hj

/-- C182. Dissipation, noise and structure functions of a beam: a mean current that differs from cell to cell, a mean
shear, does not enter. -/
theorem sf_steady (fitNan : List ℝ → List (Option ℝ) → Option ℝ × Option ℝ) (c : ℕ → ℝ) (b : Binner) (ndim nz len : ℕ)
    (rng : ℕ → ℚ) (r0 r1 : ℚ) (vel : ℕ → ℕ → Option ℝ) :
    calcSF fitNan b ndim nz len rng r0 r1 (fun z i => withFlow (c z) (vel z i)) =
      calcSF fitNan b ndim nz len rng r0 r1 vel := by
  have hm := mapM_same _ (fun z => fluct b false len (vel z))
    (fun z => fluct b false len (fun i => withFlow (c z) (vel z i)))
    (fun z => fluct_withFlow (c z) b false len (vel z)) (fun z m h => fluct_cols h) (List.range nz)
  unfold calcSF
  rcases hm with ⟨e, h1, h2⟩ | ⟨bm, bm', h1, h2, h3⟩
  · rw [h1, h2]
  · rw [h1, h2]
    simp only [bind, Except.bind]
    have hrows : (bm'.headD ⟨0, 0, fun _ _ => none⟩).rows = (bm.headD ⟨0, 0, fun _ _ => none⟩).rows := by
      rcases h3 with _ | ⟨g, _⟩
      · rfl
      · exact g.1
    have hcols : (bm'.headD ⟨0, 0, fun _ _ => none⟩).cols = (bm.headD ⟨0, 0, fun _ _ => none⟩).cols := by
      rcases h3 with _ | ⟨g, _⟩
      · rfl
      · exact g.2.2.1.trans g.2.1.symm
    have hle : (bm.headD ⟨0, 0, fun _ _ => none⟩).cols ≤ (pyInt b.nBin).toNat := by
      rcases h3 with _ | ⟨g, _⟩
      · exact Nat.zero_le _
      · exact g.2.1.le
    have hs : ∀ t z i, structFun (bm.headD ⟨0, 0, fun _ _ => none⟩).cols
          (fun z j => (bm'.getD z ⟨0, 0, fun _ _ => none⟩).at_ t j) z i =
        structFun (bm.headD ⟨0, 0, fun _ _ => none⟩).cols
          (fun z j => (bm.getD z ⟨0, 0, fun _ _ => none⟩).at_ t j) z i := by
      intro t z i
      unfold structFun
      split
      · rfl
      · congr 1
        apply vals_congr
        intro j hj
        beta_reduce
        rw [getD_same _ _ bm bm' h3 _ t j (by omega), getD_same _ _ bm bm' h3 _ t j (by omega)]
    simp only [hrows, hcols, hs]

/-- C182. Cross spectra: a constant and a linear drift in each record are without effect. -/
theorem cpsd_steady (auto : Bool) (l : ℕ) (a b : ℕ → ℝ) (p q p' q' : ℝ) (nfft : ℕ) (fs : ℝ) (window : WinArg)
    (step : Option ℕ) :
    cpsd auto l (fun i => a i + (p + q * i)) (fun i => b i + (p' + q' * i)) nfft fs window step =
      cpsd auto l a b nfft fs window step := by
  unfold cpsd
  rcases stepsize l nfft none step with e | s
  · rfl
  simp only
  rcases getWindow window s.nfft with e | w
  · rfl
  simp only
  rcases segStarts l s with e | starts
  · rfl
  simp only
  congr 1
  apply List.map_congr_left
  intro k hk
  simp only [segFft_line _ _ _ _ s.nfft (half_mem hk)]

/-- C182. Cross spectra of records of different rates. -/
theorem quasi_steady (la lb : ℕ) (a b : ℕ → ℝ) (p q p' q' : ℝ) (nfft : ℕ) (fs : ℝ) (window : WinArg) :
    cpsdQuasi la lb (fun i => a i + (p + q * i)) (fun i => b i + (p' + q' * i)) nfft fs window =
      cpsdQuasi la lb a b nfft fs window := by
  unfold cpsdQuasi
  rcases stepsize la nfft none none with e | s1
  · rfl
  simp only
  rcases stepsize lb s1.nfft (some s1.nens) none with e | s2
  · rfl
  simp only
  rcases getWindow window s2.nfft with e | w
  · rfl
  simp only
  rcases segStarts la ⟨s1.step, s2.nens, s2.nfft⟩ with e | r1 <;> rcases segStarts lb s2 with e' | r2
  · rfl
  · rfl
  · rfl
  simp only
  congr 1
  apply List.map_congr_left
  intro k hk
  simp only [segFft_line _ _ _ _ s2.nfft (half_mem hk)]

/-- C182. Coherence. -/
theorem coherence_steady (auto : Bool) (l : ℕ) (a b : ℕ → ℝ) (p q p' q' : ℝ) (nfft : ℕ) (window : WinArg)
    (debias : Bool) (noise : ℝ × ℝ) :
    coherence auto l (fun i => a i + (p + q * i)) (fun i => b i + (p' + q' * i)) nfft window debias noise =
      coherence auto l a b nfft window debias noise := by
  unfold coherence
  simp only [cpsd_steady, psd_line _ _ _ _ _ 1 one_pos]

/-- C182. Phase angle. -/
theorem phase_steady (l : ℕ) (a b : ℕ → ℝ) (p q p' q' : ℝ) (nfft : ℕ) (window : WinArg) (step : Option ℕ) :
    phaseAngle l (fun i => a i + (p + q * i)) (fun i => b i + (p' + q' * i)) nfft window step =
      phaseAngle l a b nfft window step := by
  unfold phaseAngle
  rcases getWindow window nfft with e | w
  · rfl
  simp only
  split
  · rfl
  rcases stepsize l nfft none step with e | s
  · rfl
  simp only
  rcases segStarts l s with e | starts
  · rfl
  simp only
  congr 1
  apply List.map_congr_left
  intro k hk
  simp only [segFft_line _ _ _ _ nfft (half_mem hk)]

/-- C182. Turbulence intensity: the fluctuations are the same, and they are divided by the speed that includes the
current. -/
theorem ti_steady (c : ℝ) (b : Binner) (noise th : ℝ) (dt : Bool) (len : ℕ) (U : ℕ → Option ℝ)
    (t : List (Option ℝ)) (h : calcTi b true noise th dt len U = .ok t) :
    ∃ (s m : List (Option ℝ)), tke1 b dt len U = .ok s ∧ binMean b len U none = .ok m ∧
      t = (subNoise noise s).zipWith (fun s m => npDiv (s.bind npSqrt) m) m ∧
      calcTi b true noise th dt len (fun i => withFlow c (U i)) =
        .ok ((subNoise noise s).zipWith (fun s m => npDiv (s.bind npSqrt) m) (m.map (withFlow c))) := by
  have hf := fluct_withFlow c b dt len U
  have hm := mean_steady c b len U none
  unfold calcTi at h ⊢
  unfold tke1
  simp only [bind, Except.bind, pure, Except.pure, Bool.true_eq_false, if_false] at h ⊢
  rw [hm]
  generalize fluct b dt len U = A at h hf ⊢
  generalize fluct b dt len (fun i => withFlow c (U i)) = B at hf ⊢
  rcases A with e | m <;> rcases B with e' | m'
  · simp at h
  · exact hf.elim
  · exact hf.elim
  generalize binMean b len U none = M at h ⊢
  rcases M with e | l
  · simp at h
  · refine ⟨rowProd m m, l, rfl, rfl, (Except.ok.inj h).symm, ?_⟩
    simp only [Except.map]
    rw [rowProd_same hf hf rfl]

/-! ### A current that changes steadily -/

/-- The detrended bins of a complete record are the same with a linear drift. -/
theorem fluct_drift (p q : ℝ) (b : Binner) (n len : ℕ) (hb : b.nBin = n) (hn : 2 ≤ n) (hlen : n ≤ len) (x : ℕ → ℝ) :
    ∃ m m', fluct b true len (fun i => some (x i)) = .ok m ∧
      fluct b true len (fun i => some (x i + (p + q * i))) = .ok m' ∧ m.rows = len / n ∧ m'.rows = len / n ∧
      m.cols = n ∧ m'.cols = n ∧ ∀ r < len / n, ∀ j < n, m'.at_ r j = m.at_ r j := by
  obtain ⟨m, h1, h2, h3, h4⟩ := reshape_no_pad (some 0) len (fun t => some (x t)) n (by omega) hlen
  obtain ⟨m', g1, g2, g3, g4⟩ := reshape_no_pad (some 0) len (fun t => some (x t + (p + q * t))) n (by omega) hlen
  refine ⟨⟨m.rows, m.cols, fun r => detrend m.cols (m.at_ r)⟩, ⟨m'.rows, m'.cols, fun r => detrend m'.cols (m'.at_ r)⟩,
    ?_, ?_, h2, g2, h3, g3, ?_⟩
  · unfold fluct; rw [hb, h1]; rfl
  · unfold fluct; rw [hb, g1]; rfl
  · intro r hr j hj
    simp only
    rw [h3, g3, detrend_congr n (m.at_ r) (fun i => some (x (r * n + i))) (fun i hi => h4 r i (by omega) hi) j hj,
      detrend_congr n (m'.at_ r) (fun i => some (x (r * n + i) + ((p + q * (r * n : ℕ)) + q * i)))
        (fun i hi => by rw [g4 r i (by omega) hi]; congr 1; push_cast; ring) j hj]
    exact detrend_add_line n hn (fun i => x (r * n + i)) (p + q * (r * n : ℕ)) q j

theorem rowProd_drift {n R : ℕ} {x x' y y' : Mat2 (Option ℝ)} (h1 : x.rows = R) (h2 : x'.rows = R) (h3 : x.cols = n)
    (h4 : x'.cols = n) (hx : ∀ r < R, ∀ j < n, x'.at_ r j = x.at_ r j)
    (hy : ∀ r < R, ∀ j < n, y'.at_ r j = y.at_ r j) : rowProd x' y' = rowProd x y := by
  unfold rowProd
  rw [h1, h2, h3, h4]
  apply List.map_congr_left
  intro r hr
  congr 1
  apply vals_congr
  intro j hj
  rw [hx r (List.mem_range.mp hr) j hj, hy r (List.mem_range.mp hr) j hj]

/-- C182. With detrending, a current that changes linearly has no effect on energy and stresses of a complete record. -/
theorem tke_stress_drift (p q : Fin 3 → ℝ) (b : Binner) (n len : ℕ) (hb : b.nBin = n) (hn : 2 ≤ n) (hlen : n ≤ len)
    (noise : Option (List ℝ)) (x : Fin 3 → ℕ → ℝ) :
    calcTke b true noise true len (fun k i => some (x k i + (p k + q k * i))) =
      calcTke b true noise true len (fun k i => some (x k i)) ∧
    calcStress b true len (fun k i => some (x k i + (p k + q k * i))) =
      calcStress b true len (fun k i => some (x k i)) := by
  have h1 : ∀ k, tke1 b true len (fun i => some (x k i + (p k + q k * i))) = tke1 b true len (fun i => some (x k i)) := by
    intro k
    obtain ⟨m, m', e, e', a1, a2, a3, a4, a5⟩ := fluct_drift (p k) (q k) b n len hb hn hlen (x k)
    unfold tke1
    rw [e, e']
    simp only [Except.map]
    rw [rowProd_drift a1 a2 a3 a4 a5 a5]
  constructor
  · unfold calcTke
    simp only [h1]
  · obtain ⟨u, u', e0, e0', a1, a2, a3, a4, a5⟩ := fluct_drift (p 0) (q 0) b n len hb hn hlen (x 0)
    obtain ⟨v, v', e1, e1', b1, b2, b3, b4, b5⟩ := fluct_drift (p 1) (q 1) b n len hb hn hlen (x 1)
    obtain ⟨w, w', e2, e2', c1, c2, c3, c4, c5⟩ := fluct_drift (p 2) (q 2) b n len hb hn hlen (x 2)
    unfold calcStress
    simp only [bind, Except.bind, pure, Except.pure, e0, e0', e1, e1', e2, e2']
    congr 1
    funext k
    fin_cases k
    · exact rowProd_drift a1 a2 a3 a4 a5 b5
    · exact rowProd_drift a1 a2 a3 a4 a5 c5
    · exact rowProd_drift b1 b2 b3 b4 b5 c5

/-- C182 in full, for energy: a current that changes linearly has no effect, whatever is missing. -/
def Spec.driftFree : Prop :=
  ∀ (b : Binner) (n len : ℕ), b.nBin = n → 2 ≤ n → n ≤ len → ∀ (q : ℝ) (x : ℕ → Option ℝ),
    tke1 b true len (fun i => (x i).map fun v => v + q * i) = tke1 b true len x

/-- The energy of three samples of which the middle one is missing. -/
theorem tke1_gap (x : ℕ → Option ℝ) (u v : ℝ) (x0 : x 0 = some u) (x1 : x 1 = none) (x2 : x 2 = some v) :
    tke1 ⟨((3 : ℕ) : ℚ), 1, 3, 3⟩ true 3 x = .ok [some ((v - u) ^ 2 / 16)] := by
  obtain ⟨m, h1, h2, h3, h4⟩ := reshape_no_pad (some 0) 3 x 3 (by norm_num) (by norm_num)
  have m0 : m.at_ 0 0 = some u := by rw [h4 0 0 (by omega) (by norm_num)]; simpa using x0
  have m1 : m.at_ 0 1 = none := by rw [h4 0 1 (by omega) (by norm_num)]; simpa using x1
  have m2 : m.at_ 0 2 = some v := by rw [h4 0 2 (by omega) (by norm_num)]; simpa using x2
  have n3 : ∀ a b c : ℝ, nanmean [some a, some b, some c] = some ((a + b + c) / 3) := by
    intro a b c
    simp [nanmean, List.reduceOption]
    ring
  have n2 : ∀ a c : ℝ, nanmean [some a, none, some c] = some ((a + c) / 2) := by
    intro a c
    simp [nanmean, List.reduceOption]
  unfold tke1 fluct
  simp only [h1, Except.map, rowProd, h2, h3]
  simp only [detrend, vals, List.range_succ, List.range_zero, List.nil_append, List.cons_append, List.map_cons,
    List.map_nil, m0, m1, m2, opt2, if_true, show 3 / 3 = 1 from rfl, n3, n2, npDiv]
  norm_num [n2]
  ring

/-- C182 is false when samples are missing: a drift of one per sample is taken for energy. -/
theorem drift_free_false : ¬ Spec.driftFree := by
  intro h
  have e := h ⟨((3 : ℕ) : ℚ), 1, 3, 3⟩ 3 3 rfl (by norm_num) le_rfl 1 (fun i => if i = 1 then none else some 0)
  rw [tke1_gap _ 0 2 (by simp) (by simp) (by simp), tke1_gap _ 0 0 (by simp) (by simp) (by simp)] at e
  norm_num at e

/-- A record with a gap in a current of 5. -/
example : tke1 ⟨((3 : ℕ) : ℚ), 1, 3, 3⟩ true 3 (fun i => withFlow 5 (if i = 1 then none else some (i : ℝ))) =
    .ok [some (1 / 4)] := by
  rw [tke1_steady, tke1_gap _ 0 2 (by simp) (by simp) (by simp)]
  norm_num

end Dolfyn
