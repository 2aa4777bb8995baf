import Verif.Props.Units

/-!
C179, continued: bin averages, turbulent energy, stresses and turbulence intensity follow the unit of velocity, for
every bin length and with missing samples anywhere.
-/

namespace Dolfyn

/-- Filling the bins with changed samples is changing the filled bins. -/
theorem fillBins_comp {α β : Type*} (g : α → β) (z : α) (x : ℕ → α) (idx : ℕ → ℕ) (rows n nPad : ℕ) :
    fillBins (g z) (fun i => g (x i)) idx rows n nPad = fun b j => g (fillBins z x idx rows n nPad b j) := by
  unfold fillBins padRight padLeft
  by_cases h : nPad ≠ 0
  · simp only [if_pos h, apply_ite g]
  · simp only [if_neg h, apply_ite g]

theorem reshape_comp {α β : Type*} (g : α → β) (z : α) (len : ℕ) (x : ℕ → α) (nBin : ℚ) (nPad : ℤ) :
    reshape (g z) len (fun i => g (x i)) nBin nPad =
      (reshape z len x nBin nPad).map fun m => ⟨m.rows, m.cols, fun r j => g (m.at_ r j)⟩ := by
  unfold reshape
  simp only [fillBins_comp g]
  repeat' split
  all_goals rfl

/-- A value in a unit that is `c` times smaller. -/
noncomputable def inUnit (c : ℝ) (o : Option ℝ) : Option ℝ := o.map fun x => c * x

theorem inUnit_sub (c : ℝ) (a b : Option ℝ) :
    opt2 (· - ·) (inUnit c a) (inUnit c b) = inUnit c (opt2 (· - ·) a b) := by
  rcases a with _ | a <;> rcases b with _ | b <;> simp [inUnit, opt2, mul_sub]

theorem inUnit_mul (c d : ℝ) (a b : Option ℝ) :
    opt2 (· * ·) (inUnit c a) (inUnit d b) = inUnit (c * d) (opt2 (· * ·) a b) := by
  rcases a with _ | a <;> rcases b with _ | b <;> simp [inUnit, opt2]
  ring

theorem inUnit_mul_right (c : ℝ) (a b : Option ℝ) :
    opt2 (· * ·) a (inUnit c b) = inUnit c (opt2 (· * ·) a b) := by
  rcases a with _ | a <;> rcases b with _ | b <;> simp [inUnit, opt2]
  ring

theorem inUnit_mul_left (c : ℝ) (a b : Option ℝ) :
    opt2 (· * ·) (inUnit c a) b = inUnit c (opt2 (· * ·) a b) := by
  rcases a with _ | a <;> rcases b with _ | b <;> simp [inUnit, opt2]
  ring

theorem inUnit_div (c : ℝ) (a b : Option ℝ) : npDiv (inUnit c a) b = inUnit c (npDiv a b) := by
  rcases a with _ | a <;> rcases b with _ | b <;> simp [inUnit, npDiv]
  by_cases h : b = 0
  · simp [h]
  · simp [h, mul_div_assoc]

theorem nanmean_inUnit (c : ℝ) (n : ℕ) (a : ℕ → Option ℝ) :
    nanmean (vals n fun i => inUnit c (a i)) = inUnit c (nanmean (vals n a)) := by
  have h := nanmean_scale (vals n a) c
  unfold vals at h ⊢
  rw [List.map_map] at h
  exact h

theorem detrend_inUnit (c : ℝ) (n : ℕ) (a : ℕ → Option ℝ) :
    detrend n (fun i => inUnit c (a i)) = fun i => inUnit c (detrend n a i) := by
  unfold detrend
  simp only [nanmean_inUnit, inUnit_sub, inUnit_mul_right, inUnit_div, inUnit_mul_left]

/-- The binned fluctuations follow the unit. -/
theorem fluct_units (c : ℝ) (b : Binner) (dt : Bool) (len : ℕ) (x : ℕ → Option ℝ) :
    fluct b dt len (fun i => inUnit c (x i)) =
      (fluct b dt len x).map fun m => ⟨m.rows, m.cols, fun r j => inUnit c (m.at_ r j)⟩ := by
  have h := reshape_comp (inUnit c) (some 0) len x b.nBin 0
  have h0 : inUnit c (some 0) = some 0 := by simp [inUnit]
  rw [h0] at h
  unfold fluct
  rw [h]
  rcases reshape (some 0) len x b.nBin 0 with e | m
  · rfl
  · simp only [Except.map]
    congr 2
    funext r
    cases dt
    · simp only [Bool.false_eq_true, if_false]
      funext j
      have : nanmean ((⟨m.rows, m.cols, fun r j => inUnit c (m.at_ r j)⟩ : Mat2 (Option ℝ)).row r) =
          inUnit c (nanmean (m.row r)) := nanmean_inUnit c m.cols (m.at_ r)
      rw [this, inUnit_sub]
    · simp only [if_true]
      exact detrend_inUnit c m.cols (m.at_ r)

theorem rowProd_units (c d : ℝ) (x y : Mat2 (Option ℝ)) :
    rowProd ⟨x.rows, x.cols, fun r j => inUnit c (x.at_ r j)⟩ ⟨y.rows, y.cols, fun r j => inUnit d (y.at_ r j)⟩ =
      (rowProd x y).map (inUnit (c * d)) := by
  unfold rowProd
  simp only [inUnit_mul, nanmean_inUnit, List.map_map]
  rfl

/-- C179. Bin means. -/
theorem mean_units (c : ℝ) (b : Binner) (len : ℕ) (x : ℕ → Option ℝ) (nBin : Option ℚ) :
    binMean b len (fun i => inUnit c (x i)) nBin = (binMean b len x nBin).map fun l => l.map (inUnit c) := by
  have h := reshape_comp (inUnit c) (some 0) len x (parseNbin b nBin) 0
  have h0 : inUnit c (some 0) = some 0 := by simp [inUnit]
  rw [h0] at h
  unfold binMean
  rw [h]
  rcases reshape (some 0) len x (parseNbin b nBin) 0 with e | m
  · rfl
  · simp only [Except.map]
    congr 1
    rw [List.map_map]
    apply List.map_congr_left
    intro r _
    exact nanmean_inUnit c m.cols (m.at_ r)

theorem tke1_units (c : ℝ) (b : Binner) (dt : Bool) (len : ℕ) (x : ℕ → Option ℝ) :
    tke1 b dt len (fun i => inUnit c (x i)) = (tke1 b dt len x).map fun l => l.map (inUnit (c ^ 2)) := by
  unfold tke1
  rw [fluct_units]
  rcases fluct b dt len x with e | m
  · rfl
  · simp only [Except.map]
    rw [rowProd_units, pow_two]

theorem subNoise_units (c noise : ℝ) (l : List (Option ℝ)) :
    subNoise (c * noise) (l.map (inUnit (c ^ 2))) = (subNoise noise l).map (inUnit (c ^ 2)) := by
  unfold subNoise
  rw [List.map_map, List.map_map]
  apply List.map_congr_left
  intro o _
  rcases o with _ | x
  · rfl
  · simp only [Function.comp_apply, inUnit, Option.map_some]
    congr 1; ring

/-- C179. Turbulent kinetic energy, with and without noise levels. -/
theorem tke_units (c : ℝ) (b : Binner) (isXr : Bool) (noise : Option (List ℝ)) (dt : Bool) (len : ℕ)
    (vel : Fin 3 → ℕ → Option ℝ) :
    calcTke b isXr (noise.map fun l => l.map (c * ·)) dt len (fun k i => inUnit c (vel k i)) =
      (calcTke b isXr noise dt len vel).map fun f k => (f k).map (inUnit (c ^ 2)) := by
  unfold calcTke
  cases isXr
  · rfl
  · simp only [tke1_units, bind, Except.bind, pure, Except.pure, Bool.true_eq_false, if_false]
    rcases tke1 b dt len (vel 0) with e | u
    · rfl
    rcases tke1 b dt len (vel 1) with e | v
    · rfl
    rcases tke1 b dt len (vel 2) with e | w
    · rfl
    simp only [Except.map]
    rcases noise with _ | (_ | ⟨n0, _ | ⟨n1, _ | ⟨n2, _ | ⟨n3, l⟩⟩⟩⟩)
    · simp only [Option.map_none]
      congr 1
      funext k
      fin_cases k <;> rfl
    · rfl
    · rfl
    · rfl
    · simp only [Option.map_some, List.map_cons, List.map_nil, subNoise_units]
      congr 1
      funext k
      fin_cases k <;> rfl
    · rfl

/-- C179. Reynolds stresses. -/
theorem stress_units (c : ℝ) (b : Binner) (dt : Bool) (len : ℕ) (vel : Fin 3 → ℕ → Option ℝ) :
    calcStress b dt len (fun k i => inUnit c (vel k i)) =
      (calcStress b dt len vel).map fun f k => (f k).map (inUnit (c ^ 2)) := by
  unfold calcStress
  simp only [fluct_units, bind, Except.bind, pure, Except.pure]
  rcases fluct b dt len (vel 0) with e | u
  · rfl
  rcases fluct b dt len (vel 1) with e | v
  · rfl
  rcases fluct b dt len (vel 2) with e | w
  · rfl
  simp only [Except.map]
  congr 1
  funext k
  rw [pow_two]
  fin_cases k
  · exact rowProd_units c c u v
  · exact rowProd_units c c u w
  · exact rowProd_units c c v w

/-- C179. Turbulence intensity does not depend on the unit. -/
theorem ti_units (c : ℝ) (hc : 0 < c) (b : Binner) (isXr : Bool) (noise th : ℝ) (dt : Bool) (len : ℕ)
    (U : ℕ → Option ℝ) :
    calcTi b isXr (c * noise) (c * th) dt len (fun i => inUnit c (U i)) = calcTi b isXr noise th dt len U := by
  unfold calcTi
  cases isXr
  · rfl
  · simp only [fluct_units, mean_units, bind, Except.bind, pure, Except.pure, Bool.true_eq_false, if_false]
    rcases fluct b dt len U with e | m
    · rfl
    rcases binMean b len U none with e | l
    · rfl
    simp only [Except.map]
    congr 1
    rw [rowProd_units, ← pow_two, subNoise_units, List.zipWith_map]
    congr 1
    funext s t
    rcases s with _ | s
    · rfl
    · simp only [inUnit, Option.map_some, Option.bind_some]
      rw [npSqrt_scale c s hc]
      rcases npSqrt s with _ | q
      · rfl
      · rcases t with _ | t
        · rfl
        · simp only [Option.map_some, npDiv]
          by_cases h : t = 0
          · simp [h]
          · rw [if_neg h, if_neg (mul_ne_zero hc.ne' h), mul_div_mul_left _ _ hc.ne']

/- A record with a gap in which this is about numbers: two bins of two samples. -/
example : ∃ l, binMean ⟨((2 : ℕ) : ℚ), 1, 2, 2⟩ 4 (fun i => if i = 1 then none else some (i : ℝ)) none = .ok l ∧
    l.length = 2 := by
  obtain ⟨m, h1, h2, h3, h4⟩ := reshape_no_pad (some (0 : ℝ)) 4 (fun i => if i = 1 then none else some (i : ℝ)) 2
    (by norm_num) (by norm_num)
  refine ⟨_, by unfold binMean parseNbin; rw [Option.getD_none, h1]; rfl, ?_⟩
  rw [List.length_map, List.length_range, h2]

end Dolfyn
