import Verif.Model.TkeBeam
import Verif.Props.TurbMore

/-!
C181: what `calc_tke` subtracts from the variances of a single beam.
-/

namespace Dolfyn

/-- The variance of the samples of bin `r` of one cell about their mean. -/
noncomputable def Spec.cellVar (n : ℕ) (x : ℕ → ℝ) (r : ℕ) : ℝ :=
  ((List.range n).map fun j => (x (r * n + j) - ((List.range n).map fun k => x (r * n + k)).sum / n) ^ 2).sum / n

theorem nanmean_somes (n : ℕ) (hn : 0 < n) (g : ℕ → ℝ) :
    nanmean (vals n fun j => some (g j)) = some (((List.range n).map g).sum / n) := by
  have e : (vals n fun j => some (g j)) = ((List.range n).map g).map some := by
    unfold vals; rw [List.map_map]; rfl
  unfold nanmean
  rw [e]
  have e2 : (((List.range n).map g).map some).reduceOption = (List.range n).map g := by
    simp [List.reduceOption]
  simp only [e2]
  rw [if_neg (by simp; omega)]
  simp

/-- C181. Without noise the result is, for each cell and bin, the variance of the samples of that cell in that bin. -/
theorem tke_beam_plain (b : Binner) (n len cells : ℕ) (hb : b.nBin = n) (hn : 0 < n) (hlen : n ≤ len)
    (x : ℕ → ℕ → ℝ) :
    ∃ m, tkeBeam b true .missing false cells len (fun i t => some (x i t)) = .ok m ∧ m.rows = cells ∧
      m.cols = len / n ∧ ∀ i, ∀ r < len / n, m.at_ i r = some (Spec.cellVar n (x i) r) := by
  have hf : ∀ i, ∃ f, fluct b false len (fun t => some (x i t)) = .ok f ∧ f.rows = len / n ∧
      ∀ r < len / n, binPower f r = some (Spec.cellVar n (x i) r) := by
    intro i
    obtain ⟨m, h1, h2, h3, h4⟩ := reshape_no_pad (some 0) len (fun t => some (x i t)) n hn hlen
    refine ⟨⟨m.rows, m.cols, fun r => if (false : Bool) then detrend m.cols (m.at_ r)
      else fun j => opt2 (· - ·) (m.at_ r j) (nanmean (m.row r))⟩, by unfold fluct; rw [hb, h1]; rfl, h2, ?_⟩
    intro r hr
    have hrow : m.row r = vals n fun j => some (x i (r * n + j)) := by
      unfold Mat2.row vals
      rw [h3]
      exact List.map_congr_left fun j hj => h4 r j (by omega) (List.mem_range.mp hj)
    simp only [binPower, Bool.false_eq_true, if_false, hrow, h3]
    rw [nanmean_somes n hn]
    have : (vals n fun j => opt2 (· * ·)
        (opt2 (· - ·) (m.at_ r j) (some (((List.range n).map fun k => x i (r * n + k)).sum / n)))
        (opt2 (· - ·) (m.at_ r j) (some (((List.range n).map fun k => x i (r * n + k)).sum / n)))) =
        vals n fun j => some ((x i (r * n + j) - ((List.range n).map fun k => x i (r * n + k)).sum / n) ^ 2) := by
      unfold vals
      apply List.map_congr_left
      intro j hj
      rw [h4 r j (by omega) (List.mem_range.mp hj)]
      simp only [opt2]
      rw [pow_two]
    rw [this, nanmean_somes n hn]
    rfl
  obtain ⟨f0, e0, r0, _⟩ := hf 0
  refine ⟨⟨cells, f0.rows, fun i r => cellBin b false len (fun t => some (x i t)) r⟩, ?_, rfl, r0, ?_⟩
  · simp only [tkeBeam, cellPower, e0, NoiseArg.shape, tupleGt, noiseSub, Bool.true_eq_false, if_false,
      Bool.false_eq_true]
  · intro i r hr
    obtain ⟨f, e, _, h⟩ := hf i
    simp only [cellBin, e]
    exact h r hr

/-- The result with noise is that without noise, less the noise. -/
theorem tke_beam_noise (b : Binner) (nz : NoiseArg) (dt : Bool) (cells len : ℕ) (vel : ℕ → ℕ → Option ℝ)
    (m : Mat2 (Option ℝ)) (h : tkeBeam b true .missing dt cells len vel = .ok m) :
    tkeBeam b true nz dt cells len vel =
      if tupleGt nz.shape [cells, len] then .error .exception else noiseSub nz m := by
  unfold tkeBeam at h ⊢
  rw [if_neg (by simp)] at h ⊢
  rcases hc : cellPower b dt cells len vel with e | m'
  · rw [hc] at h; simp at h
  · rw [hc] at h
    simp only [NoiseArg.shape, tupleGt, Bool.false_eq_true, if_false, noiseSub, Except.ok.injEq] at h
    rw [h]

theorem tke_beam_shape {b : Binner} {dt : Bool} {cells len : ℕ} {vel : ℕ → ℕ → Option ℝ}
    {m : Mat2 (Option ℝ)} (h : tkeBeam b true .missing dt cells len vel = .ok m) : m.rows = cells := by
  unfold tkeBeam cellPower at h
  rw [if_neg (by simp)] at h
  rcases hc : fluct b dt len (vel 0) with e | f
  · rw [hc] at h; simp at h
  · rw [hc] at h
    simp only [NoiseArg.shape, tupleGt, Bool.false_eq_true, if_false, noiseSub, Except.ok.injEq] at h
    rw [← h]

/-- C181. One noise level for everything, or one for each cell and bin: each result loses the square of its own. -/
theorem tke_beam_right (b : Binner) (dt : Bool) (cells len : ℕ) (vel : ℕ → ℕ → Option ℝ)
    (m : Mat2 (Option ℝ)) (h : tkeBeam b true .missing dt cells len vel = .ok m) (hl : m.cols ≤ len) :
    (∀ x, tkeBeam b true (.number x) dt cells len vel =
      .ok ⟨m.rows, m.cols, fun i j => (m.at_ i j).map fun s => s - x ^ 2⟩) ∧
    (∀ x, tkeBeam b true (.two m.rows m.cols x) dt cells len vel =
      .ok ⟨m.rows, m.cols, fun i j => (m.at_ i j).map fun s => s - x i j ^ 2⟩) := by
  constructor
  · intro x
    rw [tke_beam_noise b _ dt cells len vel m h]
    simp [NoiseArg.shape, tupleGt, noiseSub]
  · intro x
    rw [tke_beam_noise b _ dt cells len vel m h]
    have hr := tke_beam_shape h
    have : tupleGt (NoiseArg.two m.rows m.cols x).shape [cells, len] = false := by
      simp only [NoiseArg.shape, tupleGt, hr, if_true]
      by_cases e : m.cols = len
      · rw [if_pos e]
      · rw [if_neg e]; simp; exact hl
    rw [this]
    simp [noiseSub]

/-- C181. One noise level per bin, as `calc_doppler_noise` gives them for a beam: subtracted bin by bin when there are
no more bins than cells, refused otherwise. -/
theorem tke_beam_bins (b : Binner) (dt : Bool) (cells len : ℕ) (vel : ℕ → ℕ → Option ℝ)
    (m : Mat2 (Option ℝ)) (h : tkeBeam b true .missing dt cells len vel = .ok m) (x : ℕ → ℝ) :
    tkeBeam b true (.one m.cols x) dt cells len vel =
      if cells < m.cols then .error .exception
      else .ok ⟨m.rows, m.cols, fun i j => (m.at_ i j).map fun s => s - x j ^ 2⟩ := by
  rw [tke_beam_noise b _ dt cells len vel m h]
  by_cases hc : cells < m.cols
  · rw [if_pos hc, if_pos]
    simp only [NoiseArg.shape, tupleGt]
    rw [if_neg (by omega)]
    simpa using hc
  · rw [if_neg hc, if_neg]
    · simp [noiseSub]
    · simp only [NoiseArg.shape, tupleGt]
      by_cases e : m.cols = cells
      · rw [if_pos e]; simp
      · rw [if_neg e]; simp; omega

/-- C181. One noise level per cell: refused, unless there are as many cells as bins; then the level of cell `j` is
subtracted in bin `j` of every cell. -/
theorem tke_beam_cells (b : Binner) (dt : Bool) (cells len : ℕ) (vel : ℕ → ℕ → Option ℝ)
    (m : Mat2 (Option ℝ)) (h : tkeBeam b true .missing dt cells len vel = .ok m) (h1 : cells ≠ 1) (x : ℕ → ℝ) :
    tkeBeam b true (.one cells x) dt cells len vel =
      if cells = m.cols then .ok ⟨m.rows, m.cols, fun i j => (m.at_ i j).map fun s => s - x j ^ 2⟩
      else .error .valueError := by
  rw [tke_beam_noise b _ dt cells len vel m h]
  simp only [NoiseArg.shape, tupleGt, if_true, Bool.false_eq_true, if_false, noiseSub, h1, or_false]
  by_cases e : cells = m.cols
  · simp only [e, if_true]
  · simp only [e, if_false]

/-- C181 in full: noise levels given per cell, as the documentation asks ("the same first dimension as the velocity"),
are subtracted in their cells, and noise levels given per bin in their bins. -/
def Spec.noiseOwn : Prop :=
  ∀ (b : Binner) (dt : Bool) (cells len : ℕ) (vel : ℕ → ℕ → Option ℝ) (m : Mat2 (Option ℝ)),
    tkeBeam b true .missing dt cells len vel = .ok m → ∀ x : ℕ → ℝ,
    (cells ≠ m.cols → ∃ m', tkeBeam b true (.one cells x) dt cells len vel = .ok m' ∧
      ∀ i < cells, ∀ j < m.cols, m'.at_ i j = (m.at_ i j).map fun s => s - x i ^ 2) ∧
    (cells ≠ m.cols → ∃ m', tkeBeam b true (.one m.cols x) dt cells len vel = .ok m' ∧
      ∀ i < cells, ∀ j < m.cols, m'.at_ i j = (m.at_ i j).map fun s => s - x j ^ 2)

/-- C181 is false: with two cells and three bins both the levels of the cells and those of the bins are refused. -/
theorem noise_own_false : ¬ Spec.noiseOwn ∧ ∃ b cells len vel m, tkeBeam b true .missing false cells len vel = .ok m ∧
    cells = 2 ∧ m.cols = 3 ∧ ∀ x, tkeBeam b true (.one cells x) false cells len vel = .error .valueError ∧
      tkeBeam b true (.one m.cols x) false cells len vel = .error .exception := by
  obtain ⟨m, e, h1, h2, _⟩ := tke_beam_plain ⟨((2 : ℕ) : ℚ), 1, 2, 2⟩ 2 6 2 rfl (by norm_num) (by norm_num)
    (fun _ t => t)
  have hx : ∀ x, tkeBeam ⟨((2 : ℕ) : ℚ), 1, 2, 2⟩ true (.one 2 x) false 2 6 (fun _ t => some (t : ℝ)) =
      .error .valueError := by
    intro x
    rw [tke_beam_cells _ _ _ _ _ m e (by norm_num) x, if_neg (by rw [h2]; norm_num)]
  refine ⟨?_, _, 2, 6, _, m, e, rfl, by rw [h2], fun x => ⟨hx x, ?_⟩⟩
  · intro h
    obtain ⟨m', e', _⟩ := (h _ _ _ _ _ m e (fun _ => 0)).1 (by rw [h2]; norm_num)
    rw [hx] at e'
    simp at e'
  · rw [tke_beam_bins _ _ _ _ _ m e, if_pos (by rw [h2]; norm_num)]

/-- With two cells and two bins the levels of the cells are accepted and land in the bins: the second bin of the first
cell loses the noise of the second cell. -/
theorem noise_cells_false : ∃ m, tkeBeam ⟨((2 : ℕ) : ℚ), 1, 2, 2⟩ true (.one 2 fun i => i) false 2 4
    (fun _ t => some ((t : ℝ))) = .ok m ∧ m.at_ 0 1 = some (1 / 4 - 1) ∧ m.at_ 1 0 = some (1 / 4) := by
  obtain ⟨m, e, h1, h2, h3⟩ := tke_beam_plain ⟨((2 : ℕ) : ℚ), 1, 2, 2⟩ 2 4 2 rfl (by norm_num) (by norm_num)
    (fun _ t => t)
  have e2 := tke_beam_cells _ _ _ _ _ m e (by norm_num) (fun i => (i : ℝ))
  rw [if_pos (by rw [h2])] at e2
  refine ⟨_, e2, ?_, ?_⟩
  · simp only [h3 0 1 (by norm_num), Option.map_some, Spec.cellVar]
    norm_num [List.range_succ]
  · simp only [h3 1 0 (by norm_num), Option.map_some, Spec.cellVar]
    norm_num [List.range_succ]

/-- The hypotheses of `tke_beam_right` are met by three cells with two bins of two samples. -/
example : ∃ m, tkeBeam ⟨((2 : ℕ) : ℚ), 1, 2, 2⟩ true .missing false 3 5 (fun i t => some ((i * t : ℕ) : ℝ)) = .ok m ∧
    m.cols ≤ 5 ∧ m.at_ 2 1 = some 1 := by
  obtain ⟨m, e, _, h2, h3⟩ := tke_beam_plain ⟨((2 : ℕ) : ℚ), 1, 2, 2⟩ 2 5 3 rfl (by norm_num) (by norm_num)
    (fun i t => ((i * t : ℕ) : ℝ))
  refine ⟨m, e, by rw [h2]; norm_num, ?_⟩
  rw [h3 2 1 (by norm_num), Spec.cellVar]
  norm_num [List.range_succ]

end Dolfyn
