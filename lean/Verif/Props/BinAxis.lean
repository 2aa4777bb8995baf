import Verif.Model.BinAxis
import Verif.Props.BinStats

/-!
C166: the `axis` argument of the bin statistics.
-/

namespace Dolfyn

/-- The axes of an array with two axes, by their numbers: the first, and the last. -/
inductive Spec.AxisOf
  | first
  | last

/-- The two numbers each axis has in Python. -/
def Spec.AxisOf.Names : Spec.AxisOf → ℤ → Prop
  | .first, a => a = 0 ∨ a = -2
  | .last, a => a = 1 ∨ a = -1

/-- The series of an array along an axis: how many, how long, and their samples. -/
def Spec.lines (arr : Mat2 (Option ℝ)) : Spec.AxisOf → ℕ × ℕ × (ℕ → ℕ → Option ℝ)
  | .first => (arr.cols, arr.rows, fun c i => arr.at_ i c)
  | .last => (arr.rows, arr.cols, fun c i => arr.at_ c i)

/-- A statistic of the samples that are there. -/
noncomputable def Spec.statOf (f : List ℝ → ℝ) (l : List (Option ℝ)) : Option ℝ :=
  if l.reduceOption = [] then none else some (f l.reduceOption)

/-- The result holds, for each series along the axis and each of its bins, the statistic of the samples of the bin. -/
def Spec.BinsAlong (f : List ℝ → ℝ) (arr : Mat2 (Option ℝ)) (ax : Spec.AxisOf) (n : ℕ) (out : Mat2 (Option ℝ)) : Prop :=
  out.rows = (Spec.lines arr ax).1 ∧ out.cols = (Spec.lines arr ax).2.1 / n ∧
    ∀ c < out.rows, ∀ r < out.cols, out.at_ c r = Spec.statOf f (Spec.binSamples ((Spec.lines arr ax).2.2 c) n r)

theorem reshape2_spec (arr : Mat2 (Option ℝ)) (n : ℕ) (hn : 0 < n) (hlen : n ≤ arr.cols) :
    ∃ t, reshape2 arr n = .ok t ∧ t.d0 = arr.rows ∧ t.d1 = arr.cols / n ∧ t.d2 = n ∧
      ∀ c, ∀ r < arr.cols / n, ∀ j < n, t.at_ c r j = arr.at_ c (r * n + j) := by
  obtain ⟨m, h1, h2, h3, _⟩ := reshape_no_pad (some (0 : ℝ)) arr.cols (arr.at_ 0) n hn hlen
  unfold reshape2
  rw [h1]
  refine ⟨_, rfl, rfl, h2, h3, fun c r hr j hj => ?_⟩
  obtain ⟨m', k1, k2, _, k4⟩ := reshape_no_pad (some (0 : ℝ)) arr.cols (arr.at_ c) n hn hlen
  simp only [k1]
  exact k4 r j (by omega) hj

/-- A statistic along the last axis of the array of bins is that of each bin. -/
theorem along_last (f : List ℝ → ℝ) (g : List (Option ℝ) → Option ℝ) (hg : ∀ l, g l = Spec.statOf f l)
    (arr : Mat2 (Option ℝ)) (n : ℕ) (hn : 0 < n) (hlen : n ≤ arr.cols) :
    ∃ t out, reshape2 arr n = .ok t ∧ along g t (-1) = .ok out ∧ Spec.BinsAlong f arr .last n out := by
  obtain ⟨t, h1, h2, h3, h4, h5⟩ := reshape2_spec arr n hn hlen
  refine ⟨t, _, h1, by rw [along, if_pos (Or.inl rfl)], h2, h3, fun c hc r hr => ?_⟩
  have hr' : r < arr.cols / n := by rw [← h3]; exact hr
  simp only [hg, Spec.binSamples, Spec.lines, h4]
  congr 1
  apply List.map_congr_left
  intro j hj
  exact h5 c r hr' j (List.mem_range.mp hj)

theorem nanmean_stat (l : List (Option ℝ)) : nanmean l = Spec.statOf (fun v => v.sum / v.length) l := rfl

theorem nanvar_stat (l : List (Option ℝ)) : nanvar l = Spec.statOf Spec.popVar l := by
  unfold nanvar Spec.statOf Spec.popVar
  simp only [sq]

theorem nanstd_stat (l : List (Option ℝ)) : nanstd l = Spec.statOf (fun v => Real.sqrt (Spec.popVar v)) l := by
  unfold nanstd
  rw [nanvar_stat]
  unfold Spec.statOf
  split <;> rfl

/-- **C166.** `mean` averages the bins along the axis it is given, under either number of the axis. -/
theorem mean_axis (b : Binner) (arr : Mat2 (Option ℝ)) (ax : Spec.AxisOf) (a : ℤ) (ha : ax.Names a) (o : Option ℚ) (n : ℕ)
    (hu : Spec.UsesBin b o n) (hn : 0 < n) (hlen : n ≤ (Spec.lines arr ax).2.1) :
    ∃ out, meanAxis b arr a o = .ok out ∧ Spec.BinsAlong (fun v => v.sum / v.length) arr ax n out := by
  cases ax with
  | last =>
    obtain ⟨t, out, h1, h2, h3⟩ := along_last _ nanmean nanmean_stat arr n hn hlen
    refine ⟨out, ?_, h3⟩
    unfold meanAxis swapLast
    rw [if_pos (by rcases ha with h | h <;> simp [h]), parseNbin_uses hu]
    simp only [h1, h2]
  | first =>
    obtain ⟨t, out, h1, h2, h3⟩ := along_last _ nanmean nanmean_stat ⟨arr.cols, arr.rows, fun i j => arr.at_ j i⟩ n hn hlen
    refine ⟨out, ?_, h3⟩
    unfold meanAxis swapLast
    rw [if_neg (by rcases ha with h | h <;> simp [h]), if_pos (by rcases ha with h | h <;> simp [h]), parseNbin_uses hu]
    simp only [h1, h2]

/-- **C166**, the part that holds of `var` and `std`: the last axis by the number -1. -/
theorem var_axis_partial (b : Binner) (arr : Mat2 (Option ℝ)) (o : Option ℚ) (n : ℕ)
    (hu : Spec.UsesBin b o n) (hn : 0 < n) (hlen : n ≤ arr.cols) :
    (∃ out, varAxis b arr (-1) o = .ok out ∧ Spec.BinsAlong Spec.popVar arr .last n out) ∧
    ∃ out, stdAxis b arr (-1) o = .ok out ∧ Spec.BinsAlong (fun v => Real.sqrt (Spec.popVar v)) arr .last n out := by
  obtain ⟨t, out, h1, h2, h3⟩ := along_last _ nanvar nanvar_stat arr n hn hlen
  obtain ⟨t', out', k1, k2, k3⟩ := along_last _ nanstd nanstd_stat arr n hn hlen
  refine ⟨⟨out, ?_, h3⟩, ⟨out', ?_, k3⟩⟩
  · unfold varAxis
    rw [parseNbin_uses hu]
    simp only [h1, h2]
  · unfold stdAxis
    rw [parseNbin_uses hu]
    simp only [k1, k2]

/-- **C166.** What `var` does with the number 1 for the last axis: for each series and each place within a bin, the variance
of the samples of all bins at that place. -/
theorem var_axis_one (b : Binner) (arr : Mat2 (Option ℝ)) (a : ℤ) (ha : a = 1 ∨ a = -2) (o : Option ℚ) (n : ℕ)
    (hu : Spec.UsesBin b o n) (hn : 0 < n) (hlen : n ≤ arr.cols) :
    ∃ out, varAxis b arr a o = .ok out ∧ out.rows = arr.rows ∧ out.cols = n ∧ ∀ c, ∀ j < n,
      out.at_ c j = Spec.statOf Spec.popVar ((List.range (arr.cols / n)).map fun r => arr.at_ c (r * n + j)) := by
  obtain ⟨t, h1, h2, h3, h4, h5⟩ := reshape2_spec arr n hn hlen
  unfold varAxis
  rw [parseNbin_uses hu]
  simp only [h1]
  refine ⟨_, by rw [along, if_neg (by rcases ha with h | h <;> simp [h]), if_pos ha], h2, h4, fun c j hj => ?_⟩
  simp only [nanvar_stat, h3]
  congr 1
  apply List.map_congr_left
  intro r hr
  exact h5 c r (List.mem_range.mp hr) j hj

/-- **C166.** What `var` does with the number 0 for the first axis: the variance over the series, for each bin and place. -/
theorem var_axis_zero (b : Binner) (arr : Mat2 (Option ℝ)) (o : Option ℚ) (n : ℕ)
    (hu : Spec.UsesBin b o n) (hn : 0 < n) (hlen : n ≤ arr.cols) :
    ∃ out, varAxis b arr 0 o = .ok out ∧ out.rows = arr.cols / n ∧ out.cols = n ∧ ∀ r < arr.cols / n, ∀ j < n,
      out.at_ r j = Spec.statOf Spec.popVar ((List.range arr.rows).map fun c => arr.at_ c (r * n + j)) := by
  obtain ⟨t, h1, h2, h3, h4, h5⟩ := reshape2_spec arr n hn hlen
  unfold varAxis
  rw [parseNbin_uses hu]
  simp only [h1]
  refine ⟨_, by rw [along, if_neg (by simp), if_neg (by simp), if_pos (Or.inl rfl)], h3, h4, fun r hr j hj => ?_⟩
  simp only [nanvar_stat, h2]
  congr 1
  apply List.map_congr_left
  intro c _
  exact h5 c r hr j hj

/-- **C166** is false of `var`: whenever the number of bins differs from the bin length, the last axis under the number 1 gives
an array of the wrong shape. -/
theorem var_axis_false (b : Binner) (arr : Mat2 (Option ℝ)) (o : Option ℚ) (n : ℕ)
    (hu : Spec.UsesBin b o n) (hn : 0 < n) (hlen : n ≤ arr.cols) (hne : arr.cols / n ≠ n) :
    ¬ ∃ out, varAxis b arr 1 o = .ok out ∧ Spec.BinsAlong Spec.popVar arr .last n out := by
  rintro ⟨out, h1, _, h3, _⟩
  obtain ⟨out', k1, _, k3, _⟩ := var_axis_one b arr 1 (Or.inl rfl) o n hu hn hlen
  rw [k1] at h1
  obtain rfl := Except.ok.inj h1
  exact hne (h3.symm.trans k3)

/-- Two bins of two samples: the shape is right and the numbers are not. -/
theorem var_axis_square_false : ∃ (b : Binner) (arr : Mat2 (Option ℝ)), Spec.UsesBin b none 2 ∧ arr.cols / 2 = 2 ∧
    ¬ ∃ out, varAxis b arr 1 none = .ok out ∧ Spec.BinsAlong Spec.popVar arr .last 2 out := by
  refine ⟨mkBinner 2 1 none none, ⟨1, 4, fun _ i => some (if i < 2 then 0 else 1)⟩, Or.inr ⟨rfl, rfl⟩, rfl, ?_⟩
  rintro ⟨out, h1, -, -, h4⟩
  obtain ⟨out', k1, k2, k3, k4⟩ := var_axis_one (mkBinner 2 1 none none) ⟨1, 4, fun _ i => some (if i < 2 then 0 else 1)⟩ 1
    (Or.inl rfl) none 2 (Or.inr ⟨rfl, rfl⟩) (by norm_num) (by norm_num)
  rw [k1] at h1
  obtain rfl := Except.ok.inj h1
  have e1 := h4 0 (by rw [k2]; norm_num) 0 (by rw [k3]; norm_num)
  rw [k4 0 0 (by norm_num)] at e1
  have l1 : ((List.range (4 / 2)).map fun r => some (if r * 2 + 0 < 2 then (0 : ℝ) else 1)) = [some 0, some 1] := by
    norm_num [List.range_succ]
  have l2 : Spec.binSamples (fun i => some (if i < 2 then (0 : ℝ) else 1)) 2 0 = [some 0, some 0] := by
    norm_num [List.range_succ, Spec.binSamples]
  change Spec.statOf Spec.popVar ((List.range (4 / 2)).map fun r => some (if r * 2 + 0 < 2 then (0 : ℝ) else 1)) =
    Spec.statOf Spec.popVar (Spec.binSamples (fun i => some (if i < 2 then (0 : ℝ) else 1)) 2 0) at e1
  rw [l1, l2] at e1
  have s1 : Spec.statOf Spec.popVar [some 0, some 1] = some (Spec.popVar [0, 1]) := if_neg (by simp [List.reduceOption])
  have s2 : Spec.statOf Spec.popVar [some 0, some 0] = some (Spec.popVar [0, 0]) := if_neg (by simp [List.reduceOption])
  rw [s1, s2] at e1
  have e2 := Option.some.inj e1
  norm_num [Spec.popVar] at e2

/-- **C166** is false of `demean` in the same way: it raises unless the number of bins is the bin length or one of the two
is 1. -/
theorem demean_axis_false (b : Binner) (arr : Mat2 (Option ℝ)) (o : Option ℚ) (n : ℕ)
    (hu : Spec.UsesBin b o n) (hn : 1 < n) (hlen : n ≤ arr.cols) (hne : arr.cols / n ≠ n) (h1 : arr.cols / n ≠ 1) :
    demeanAxis b arr 1 o = .error .valueError := by
  obtain ⟨t, e1, e2, e3, e4, _⟩ := reshape2_spec arr n (by omega) hlen
  unfold demeanAxis
  rw [parseNbin_uses hu]
  simp only [e1]
  rw [along, if_neg (by norm_num), if_pos (by norm_num)]
  simp only
  rw [if_pos (Or.inr ⟨by rw [e4, e3]; exact hne.symm, by rw [e4]; omega, by rw [e3]; exact h1⟩)]

/-- **C166.** With the number -1 `demean` takes the mean of each bin from its samples. -/
theorem demean_axis_partial (b : Binner) (arr : Mat2 (Option ℝ)) (o : Option ℚ) (n : ℕ)
    (hu : Spec.UsesBin b o n) (hn : 0 < n) (hlen : n ≤ arr.cols) :
    ∃ out, demeanAxis b arr (-1) o = .ok out ∧ out.d0 = arr.rows ∧ out.d1 = arr.cols / n ∧ out.d2 = n ∧
      ∀ c < arr.rows, ∀ r < arr.cols / n, ∀ j < n, ∀ x, arr.at_ c (r * n + j) = some x →
        ∃ v, v = (Spec.binSamples (arr.at_ c) n r).reduceOption ∧ v ≠ [] ∧ out.at_ c r j = some (x - v.sum / v.length) := by
  obtain ⟨t, e1, e2, e3, e4, e5⟩ := reshape2_spec arr n hn hlen
  unfold demeanAxis
  rw [parseNbin_uses hu]
  simp only [e1]
  rw [along, if_pos (by norm_num)]
  simp only
  rw [if_neg (by simp)]
  refine ⟨_, rfl, by simp [e2], by simp [e3], e4, fun c hc r hr j hj x hx => ⟨_, rfl, ?_, ?_⟩⟩
  · intro h
    have : x ∈ (Spec.binSamples (arr.at_ c) n r).reduceOption := by
      rw [List.reduceOption_mem_iff]
      exact List.mem_map.mpr ⟨j, List.mem_range.mpr hj, hx⟩
    rw [h] at this
    cases this
  · have i1 : (if t.d0 = 1 then 0 else c) = c := by split <;> omega
    have i2 : (if t.d1 = 1 then 0 else r) = r := by split <;> omega
    have hne : (Spec.binSamples (arr.at_ c) n r).reduceOption ≠ [] := by
      intro h
      have : x ∈ (Spec.binSamples (arr.at_ c) n r).reduceOption := by
        rw [List.reduceOption_mem_iff]
        exact List.mem_map.mpr ⟨j, List.mem_range.mpr hj, hx⟩
      rw [h] at this
      cases this
    have hrow : ((List.range t.d2).map fun j => t.at_ c r j) = Spec.binSamples (arr.at_ c) n r := by
      unfold Spec.binSamples
      rw [e4]
      apply List.map_congr_left
      intro k hk
      exact e5 c r hr k (List.mem_range.mp hk)
    simp only [i1, i2, e5 c r hr j hj, hx, hrow]
    rw [nanmean_stat, Spec.statOf, if_neg hne]

/-- **C166** is false of `demean` with the axis 0, too: one series of `n` bins of `n` samples comes back as `n` series, each
sample less another sample. -/
theorem demean_axis_zero_false (b : Binner) (x : ℕ → ℝ) (o : Option ℚ) (n : ℕ) (hu : Spec.UsesBin b o n) (hn : 1 < n) :
    ∃ out, demeanAxis b ⟨1, n * n, fun _ i => some (x i)⟩ 0 o = .ok out ∧ out.d0 = n ∧ out.d1 = n ∧ out.d2 = n ∧
      ∀ c < n, ∀ r < n, ∀ k < n, out.at_ c r k = some (x (r * n + k) - x (c * n + r)) := by
  have hnn : n * n / n = n := Nat.mul_div_cancel _ (by omega)
  obtain ⟨t, e1, e2, e3, e4, e5⟩ := reshape2_spec ⟨1, n * n, fun _ i => some (x i)⟩ n (by omega)
    (Nat.le_mul_of_pos_left n (by omega))
  simp only [hnn] at e2 e3 e5
  unfold demeanAxis
  rw [parseNbin_uses hu]
  simp only [e1]
  rw [along, if_neg (by norm_num), if_neg (by norm_num), if_pos (by norm_num)]
  simp only [e2, e3, e4]
  rw [if_neg (by simp)]
  refine ⟨_, rfl, by simp only; omega, by simp, rfl, fun c hc r hr k hk => ?_⟩
  have h1 : ¬ n = 1 := by omega
  simp only [h1, if_false, if_true]
  rw [e5 0 r hr k hk]
  have : (List.range 1).map (fun c' => t.at_ c' c r) = [some (x (c * n + r))] := by
    simp [List.range_succ, e5 0 c hc r hr]
  rw [this]
  simp [nanmean]

example : ∃ out, demeanAxis (mkBinner 2 1 none none) ⟨1, 2 * 2, fun _ i => some ((i : ℝ) ^ 2)⟩ 0 none = .ok out ∧
    out.d0 = 2 ∧ out.at_ 1 1 0 = some (-5) := by
  obtain ⟨out, h1, h2, _, _, h3⟩ := demean_axis_zero_false (mkBinner 2 1 none none) (fun i => (i : ℝ) ^ 2) none 2
    (Or.inr ⟨rfl, rfl⟩) (by norm_num)
  exact ⟨out, h1, h2, by rw [h3 1 (by norm_num) 1 (by norm_num) 0 (by norm_num)]; norm_num⟩

example : ∃ out, meanAxis (mkBinner 2 1 none none) ⟨4, 3, fun i j => if i = 1 then none else some (i + j)⟩ 0 none = .ok out ∧
    Spec.BinsAlong (fun v => v.sum / v.length) ⟨4, 3, fun i j => if i = 1 then none else some (i + j)⟩ .first 2 out :=
  mean_axis (mkBinner 2 1 none none) ⟨4, 3, fun i j => if i = 1 then none else some (i + j)⟩ .first 0 (Or.inl rfl) none 2
    (Or.inr ⟨rfl, rfl⟩) (by norm_num) (by simp [Spec.lines])

/-- Three bins of two samples. -/
example : ¬ ∃ out, varAxis (mkBinner 2 1 none none) ⟨2, 6, fun i j => some (i * j)⟩ 1 none = .ok out ∧
    Spec.BinsAlong Spec.popVar ⟨2, 6, fun i j => some (i * j)⟩ .last 2 out :=
  var_axis_false _ _ _ 2 (Or.inr ⟨rfl, rfl⟩) (by norm_num) (by norm_num) (by norm_num)

end Dolfyn
