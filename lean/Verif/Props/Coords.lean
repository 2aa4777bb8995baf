import Verif.Model.Coords
import Verif.Props.DoAvg

/-! Property C134: the coordinates of binned results. -/

namespace Dolfyn

/-- What the coordinate of dimension `d` should be: the means over bins of `n` of a time coordinate, any
other coordinate unchanged. -/
noncomputable def Spec.binnedCoord (n : ℕ) (d : Key) (c : ℕ × (ℕ → Option ℝ)) : List (Option ℝ) :=
  if "time".toList <:+: d then
    (List.range (c.1 / n)).map fun r => nanmean (vals n fun j => c.2 (r * n + j))
  else vals c.1 c.2

/-- The array carries a coordinate for each dimension, and its time coordinates are at least a bin long. -/
def Spec.HasCoords (n : ℕ) (a : CArr) (c : Key → ℕ × (ℕ → Option ℝ)) : Prop :=
  ∀ d ∈ a.dims, a.coords d = some (c d) ∧ ("time".toList <:+: d → n ≤ (c d).1)

theorem coordOf_own (b : Binner) (n : ℕ) (hb : b.nBin = n) (hn : 0 < n) (a : CArr) (e : Err)
    (d : Key) (c : ℕ × (ℕ → Option ℝ)) (hd : a.coords d = some c)
    (hl : "time".toList <:+: d → n ≤ c.1) :
    coordOf b a d e d = .ok (d, Spec.binnedCoord n d c) := by
  generalize hs : "time".toList = s at hl
  unfold coordOf Spec.binnedCoord keyIn
  rw [hs]
  by_cases h : s <:+: d
  · rw [if_pos (by simpa using h), if_pos h, hd]
    simp only
    rw [binMean_eq b n c.1 c.2 hb hn (hl h)]
    rfl
  · rw [if_neg (by simpa using h), if_neg h, hd]

theorem mapM_of_forall {α β : Type} (f : α → Except Err β) (g : α → β) : ∀ l : List α,
    (∀ x ∈ l, f x = .ok (g x)) → l.mapM f = .ok (l.map g)
  | [], _ => rfl
  | x :: l, h => by
    rw [List.mapM_cons, h x (by simp), mapM_of_forall f g l (fun y hy => h y (by simp [hy]))]
    rfl

/-- **C134.** Turbulence intensity and energy carry, for every dimension, the coordinate of that dimension,
binned if it is a time. -/
theorem ti_coords (b : Binner) (n : ℕ) (hb : b.nBin = n) (hn : 0 < n) (a : CArr)
    (c : Key → ℕ × (ℕ → Option ℝ)) (h : Spec.HasCoords n a c) :
    ownCoords b a = .ok (a.dims.map fun d => (d, Spec.binnedCoord n d (c d))) :=
  mapM_of_forall _ _ _ fun d hd => coordOf_own b n hb hn a _ d _ (h d hd).1 (h d hd).2

theorem coordOf_other (b : Binner) (a : CArr) (s s' : Key) (e e' : Err) (d : Key)
    (hk : keyIn "time" d = false) : coordOf b a s e d = coordOf b a s' e' d := by
  unfold coordOf
  rw [hk]
  rfl

theorem mapM_error_of_mem {α β : Type} (f : α → Except Err β) : ∀ (l : List α) (x : α), x ∈ l →
    (∃ e, f x = .error e) → ∃ e, l.mapM f = .error e
  | y :: l, x, hx, he => by
    rw [List.mapM_cons]
    cases hy : f y with
    | error e => exact ⟨e, rfl⟩
    | ok v =>
      rcases List.mem_cons.mp hx with rfl | hx
      · obtain ⟨e, he⟩ := he
        rw [he] at hy; cases hy
      · obtain ⟨e, he⟩ := mapM_error_of_mem f l x hx he
        rw [he]
        exact ⟨e, rfl⟩

/-- **C134, partly.** Coherence, phase and covariances do so as well if the time dimension is called `time`. -/
theorem new_coords_partial (b : Binner) (n : ℕ) (hb : b.nBin = n) (hn : 0 < n) (a : CArr)
    (c : Key → ℕ × (ℕ → Option ℝ)) (h : Spec.HasCoords n a c)
    (ht : ∀ d ∈ a.dims, "time".toList <:+: d → d = "time".toList) :
    newCoords b a = .ok (a.dims.map fun d => (d, Spec.binnedCoord n d (c d))) := by
  refine mapM_of_forall _ _ _ fun d hd => ?_
  have h1 := coordOf_own b n hb hn a .attributeError d _ (h d hd).1 (h d hd).2
  by_cases hk : "time".toList <:+: d
  · have := ht d hd hk
    rw [← this]
    exact h1
  · rw [← h1]
    exact coordOf_other b a _ _ _ _ d (by simpa [keyIn] using hk)

/-- **C134 is false for other time dimensions.** For data along `time_b5` or any other time dimension that is not
called `time`, coherence, phase and covariances raise an error. -/
theorem new_coords_false (b : Binner) (a : CArr) (d : Key) (hd : d ∈ a.dims)
    (hk : "time".toList <:+: d) (hno : a.coords "time".toList = none) :
    ∃ e, newCoords b a = .error e := by
  unfold newCoords
  refine mapM_error_of_mem _ _ d hd ⟨.attributeError, ?_⟩
  unfold coordOf
  rw [if_pos (by simpa [keyIn] using hk), hno]

/-- **C134.** The first failing dimension decides: with coordinates for all other dimensions the error is the
`AttributeError` of `array.time`. -/
theorem new_coords_b5_false (b : Binner) (nr nt : ℕ) (r t : ℕ → Option ℝ) :
    newCoords b ⟨["range_b5".toList, "time_b5".toList], fun k =>
      if k = "range_b5".toList then some (nr, r)
      else if k = "time_b5".toList then some (nt, t) else none⟩ = .error .attributeError ∧
    ∀ n : ℕ, b.nBin = n → 0 < n → n ≤ nt →
      ownCoords b ⟨["range_b5".toList, "time_b5".toList], fun k =>
        if k = "range_b5".toList then some (nr, r)
        else if k = "time_b5".toList then some (nt, t) else none⟩ =
      .ok [("range_b5".toList, vals nr r), ("time_b5".toList,
        (List.range (nt / n)).map fun q => nanmean (vals n fun j => t (q * n + j)))] := by
  have k1 : keyIn "time" "range_b5".toList = false := by decide
  have k2 : keyIn "time" "time_b5".toList = true := by decide
  have n1 : ("time".toList = "range_b5".toList) = False := by decide
  have n2 : ("time".toList = "time_b5".toList) = False := by decide
  have n3 : ("time_b5".toList = "range_b5".toList) = False := by decide
  constructor
  · generalize "range_b5".toList = x at *
    generalize "time_b5".toList = y at *
    unfold newCoords
    rw [List.mapM_cons, List.mapM_cons]
    unfold coordOf
    generalize "time".toList = z at *
    simp only [k1, k2, n1, n2, if_true, if_false, Bool.false_eq_true]
    rfl
  · intro n hb hn hl
    generalize "range_b5".toList = x at *
    generalize "time_b5".toList = y at *
    unfold ownCoords
    rw [List.mapM_cons, List.mapM_cons]
    unfold coordOf
    generalize "time".toList = z at *
    simp only [k1, k2, n3, if_true, if_false, Bool.false_eq_true]
    rw [binMean_eq b n nt t hb hn hl]
    rfl

/-- The hypotheses of `ti_coords` and `new_coords_partial` are met by a profile over range and time. -/
example : newCoords ⟨4, 1, 4, 4⟩ ⟨["range".toList, "time".toList], fun k =>
      if k = "range".toList then some (3, fun i => some (i : ℝ))
      else if k = "time".toList then some (8, fun i => some (2 * i : ℝ)) else none⟩ =
    .ok [("range".toList, vals 3 fun i => some (i : ℝ)), ("time".toList,
      (List.range 2).map fun q => nanmean (vals 4 fun j => some (2 * ((q * 4 + j : ℕ) : ℝ))))] := by
  have k1 : ¬ "time".toList <:+: "range".toList := by decide
  have k2 : "time".toList <:+: "time".toList := List.infix_refl _
  have n1 : ¬ "time".toList = "range".toList := by decide
  rw [new_coords_partial ⟨4, 1, 4, 4⟩ 4 (by norm_num) (by norm_num) _
    (fun k => if k = "range".toList then (3, fun i => some (i : ℝ)) else (8, fun i => some (2 * i : ℝ)))]
  · unfold Spec.binnedCoord
    generalize "range".toList = x at *
    generalize "time".toList = z at *
    simp only [List.map_cons, List.map_nil, if_pos k2, if_neg k1, if_neg n1, if_true]
  · intro d hd
    generalize "range".toList = x at *
    generalize "time".toList = z at *
    simp only [List.mem_cons, List.not_mem_nil, or_false] at hd
    rcases hd with rfl | rfl
    · simp [k1]
    · simp [n1]
  · intro d hd hk
    generalize "range".toList = x at *
    generalize "time".toList = z at *
    simp only [List.mem_cons, List.not_mem_nil, or_false] at hd
    rcases hd with rfl | rfl
    · exact absurd hk k1
    · rfl

end Dolfyn
