import Verif.Model.Turb
import Mathlib.Tactic.FieldSimp
import Mathlib.Tactic.Linarith
import Mathlib.Tactic.LinearCombination

/-!
C58: vertical shear.
-/

namespace Dolfyn

section
variable {K : Type*} [Field K] [DecidableEq K]

/-- A uniform grid of `n` cells with spacing `h`. -/
def Spec.UniformGrid (n : ℕ) (z : ℕ → K) (h : K) : Prop :=
  h ≠ 0 ∧ ∀ i, i + 1 < n → z (i + 1) - z i = h

/-- A profile that is linear in `z` with slope `m` at all `n` cells. -/
def Spec.LinearProfile (n : ℕ) (dat : ℕ → Option K) (z : ℕ → K) (m : K) : Prop :=
  ∃ c, ∀ i, i < n → dat i = some (m * z i + c)

theorem first_diff_linear (n : ℕ) (dat : ℕ → Option K) (z : ℕ → K) (m : K)
    (hz : ∀ i, i + 1 < n → z (i + 1) - z i ≠ 0) (hl : Spec.LinearProfile n dat z m) :
    diffzFirst n dat z = List.replicate (n - 1) (some m) := by
  obtain ⟨c, hc⟩ := hl
  rw [List.eq_replicate_iff]
  refine ⟨by simp [diffzFirst], fun x hx => ?_⟩
  obtain ⟨i, hi, rfl⟩ := List.mem_map.mp hx
  have hi' := List.mem_range.mp hi
  have h0 := hz i (by omega)
  rw [hc i (by omega), hc (i + 1) (by omega)]
  simp only [opt2, npDiv, if_neg h0, Option.some.injEq]
  field_simp
  ring

theorem centered_diff_linear [CharZero K] (n : ℕ) (dat : ℕ → Option K) (z : ℕ → K) (m h : K)
    (hz : Spec.UniformGrid n z h) (hl : Spec.LinearProfile n dat z m) :
    diffzCentered n dat z = List.replicate (n - 2) (some m) := by
  obtain ⟨c, hc⟩ := hl
  obtain ⟨h0, hz⟩ := hz
  rw [List.eq_replicate_iff]
  refine ⟨by simp [diffzCentered], fun x hx => ?_⟩
  obtain ⟨i, hi, rfl⟩ := List.mem_map.mp hx
  have hi' := List.mem_range.mp hi
  have h1 := hz i (by omega)
  have h2 := hz (i + 1) (by omega)
  rw [hc i (by omega), hc (i + 2) (by omega)]
  have e : z (i + 2) - z (i + 1) = h := h2
  have h3 : (2 : K) * h ≠ 0 := mul_ne_zero two_ne_zero h0
  simp only [opt2, npDiv, e, if_neg h3, Option.some.injEq]
  rw [div_eq_iff h3]
  have : z (i + 2) - z i = 2 * h := by linear_combination e + h1
  linear_combination m * this

/-- The cells at which each scheme reports: all but the first, all but the two ends, all. -/
def Spec.shearCells (style : DiffStyle) (n : ℕ) (z : ℕ → K) : List K :=
  match style with
  | .first => (List.range (n - 1)).map fun i => z (i + 1)
  | .centered => (List.range (n - 2)).map fun i => z (i + 1)
  | _ => (List.range n).map z

theorem vals_drop (n : ℕ) (z : ℕ → K) :
    (vals n z).drop 1 = (List.range (n - 1)).map fun i => z (i + 1) := by
  apply List.ext_getElem
  · simp [vals]
  · intro i h1 h2
    simp [vals, Nat.add_comm]

theorem vals_drop_take (n : ℕ) (z : ℕ → K) :
    ((vals n z).drop 1).take (n - 2) = (List.range (n - 2)).map fun i => z (i + 1) := by
  rw [vals_drop]
  apply List.ext_getElem
  · simp; omega
  · intro i h1 h2
    simp

/-- C58 (the three difference schemes): on a uniform grid with at least two cells, every scheme
returns the exact slope of a linear profile at every output cell, together with a range axis of the
same length. -/
theorem shear_linear [CharZero K] (style : DiffStyle) (hs : style ≠ .other) (n : ℕ) (hn : 2 ≤ n)
    (dat : ℕ → Option K) (z : ℕ → K) (m h : K) (hz : Spec.UniformGrid n z h)
    (hl : Spec.LinearProfile n dat z m) :
    ∃ d rng, calcDvdz style n dat z = .ok (d, rng) ∧ d.length = rng.length ∧
      (∀ x ∈ d, x = some m) ∧
      rng = Spec.shearCells style n z := by
  have hz' : ∀ i, i + 1 < n → z (i + 1) - z i ≠ 0 := fun i hi => by rw [hz.2 i hi]; exact hz.1
  have len : (vals n z).length = n := by simp [vals]
  cases style with
  | other => exact absurd rfl hs
  | first =>
    have hf := first_diff_linear n dat z m hz' hl
    refine ⟨diffzFirst n dat z, (vals n z).drop 1, ?_, ?_, ?_, vals_drop n z⟩
    · unfold calcDvdz shearArray diffFunc
      simp only []
      rw [if_pos (by rw [hf]; simp [len])]
    · rw [hf]; simp [len]
    · rw [hf]; exact fun x hx => List.eq_of_mem_replicate hx
  | centered =>
    have hf := centered_diff_linear n dat z m h hz hl
    refine ⟨diffzCentered n dat z, ((vals n z).drop 1).take (n - 2), ?_, ?_, ?_, vals_drop_take n z⟩
    · unfold calcDvdz shearArray diffFunc
      simp only []
      rw [if_pos (by rw [hf]; simp [len]; omega)]
    · rw [hf]; simp [len]; omega
    · rw [hf]; exact fun x hx => List.eq_of_mem_replicate hx
  | centeredExtended =>
    obtain ⟨c, hc⟩ := hl
    have h2 : min 2 n = 2 := by omega
    have f1 := first_diff_linear 2 dat z m (fun i hi => hz' i (by omega))
      ⟨c, fun i hi => hc i (by omega)⟩
    have f2 := centered_diff_linear n dat z m h hz ⟨c, hc⟩
    have f3 := first_diff_linear 2 (fun i => dat (i + (n - 2))) (fun i => z (i + (n - 2))) m
      (fun i hi => by
        have := hz' (i + (n - 2)) (by omega)
        rwa [show i + (n - 2) + 1 = i + 1 + (n - 2) by omega] at this)
      ⟨c, fun i hi => hc _ (by omega)⟩
    have hf : diffzExt n dat z = List.replicate n (some m) := by
      unfold diffzExt
      rw [h2, f1, f2, f3, List.replicate_append_replicate, List.replicate_append_replicate]
      congr 1
      omega
    refine ⟨diffzExt n dat z, vals n z, ?_, ?_, ?_, rfl⟩
    · unfold calcDvdz shearArray diffFunc
      simp only []
      rw [if_pos (by rw [hf]; simp [len])]
    · rw [hf]; simp [len]
    · rw [hf]; exact fun x hx => List.eq_of_mem_replicate hx

/-- Upward-facing `calc_dudz` agrees with the other two shear functions. -/
theorem dudz_up (style : DiffStyle) (n : ℕ) (dat : ℕ → Option K) (z : ℕ → K) :
    calcDudz style false n dat z = calcDvdz style n dat z := by
  unfold calcDudz calcDvdz
  cases diffFunc style n dat z <;> rfl

/-- C58 is false for downward-facing instruments: `calc_dudz` (and `calc_shear2`) raises for every
profile instead of flipping the sign. -/
theorem dudz_down_raises (style : DiffStyle) (n : ℕ) (u v : ℕ → Option K) (z : ℕ → K) :
    (∃ e, calcDudz style true n u z = .error e) ∧
      ∃ e, calcShear2 style true n u v z = .error e := by
  have h : ∃ e, calcDudz style true n u z = .error e := by
    unfold calcDudz
    cases diffFunc style n u z <;> exact ⟨_, rfl⟩
  refine ⟨h, ?_⟩
  obtain ⟨e, h⟩ := h
  exact ⟨e, by simp only [calcShear2, h]⟩

/-- C58 (partial: upward-facing only): `calc_dudz` returns the exact slope. -/
theorem dudz_linear_partial [CharZero K] (style : DiffStyle) (hs : style ≠ .other) (n : ℕ)
    (hn : 2 ≤ n) (dat : ℕ → Option K) (z : ℕ → K) (m h : K) (hz : Spec.UniformGrid n z h)
    (hl : Spec.LinearProfile n dat z m) :
    ∃ d rng, calcDudz style false n dat z = .ok (d, rng) ∧ d.length = rng.length ∧
      ∀ x ∈ d, x = some m := by
  obtain ⟨d, rng, h1, h2, h3, _⟩ := shear_linear style hs n hn dat z m h hz hl
  exact ⟨d, rng, by rw [dudz_up, h1], h2, h3⟩

/-- C58, squared shear: for two linear profiles it is the sum of the squared slopes everywhere. -/
theorem shear2_linear_partial [CharZero K] (style : DiffStyle) (hs : style ≠ .other) (n : ℕ)
    (hn : 2 ≤ n) (u v : ℕ → Option K) (z : ℕ → K) (mu mv h : K) (hz : Spec.UniformGrid n z h)
    (hu : Spec.LinearProfile n u z mu) (hv : Spec.LinearProfile n v z mv) :
    ∃ s, calcShear2 style false n u v z = .ok s ∧ ∀ x ∈ s, x = some (mu ^ 2 + mv ^ 2) := by
  obtain ⟨d, rng, h1, h2, h3⟩ := dudz_linear_partial style hs n hn u z mu h hz hu
  obtain ⟨d', rng', h1', h2', h3', _⟩ := shear_linear style hs n hn v z mv h hz hv
  unfold calcShear2
  rw [h1, h1']
  refine ⟨_, rfl, fun x hx => ?_⟩
  obtain ⟨i, hi, rfl⟩ := List.getElem_of_mem hx
  rw [List.getElem_zipWith, h3 _ (List.getElem_mem _), h3' _ (List.getElem_mem _)]
  rfl

/-- Each shear function is linear in the profile: the shear of a sum of profiles is the sum of the
shears (first differences; the other schemes are built the same way). -/
theorem first_diff_add (n : ℕ) (a b : ℕ → K) (z : ℕ → K) (hz : ∀ i, i + 1 < n → z (i + 1) ≠ z i)
    (i : ℕ) (hi : i + 1 < n) :
    (diffzFirst n (fun j => some (a j + b j)) z)[i]? =
      some (opt2 (· + ·)
        (((diffzFirst n (fun j => some (a j)) z)[i]?).getD none)
        (((diffzFirst n (fun j => some (b j)) z)[i]?).getD none)) := by
  have h0 : z (i + 1) - z i ≠ 0 := sub_ne_zero.mpr (hz i hi)
  simp only [diffzFirst, List.getElem?_map, List.getElem?_range (show i < n - 1 by omega),
    Option.map_some, Option.getD_some, opt2, npDiv, if_neg h0]
  congr 2
  field_simp
  ring

/-- On a non-uniform grid the centred scheme is exact for a non-constant linear profile only where
the two spacings agree: it divides by twice the upper spacing. -/
theorem centered_diff_nonuniform [CharZero K] (dat : ℕ → Option K) (z : ℕ → K) (m c : K) (n i : ℕ)
    (hi : i + 2 < n) (hd : ∀ j, j < n → dat j = some (m * z j + c)) (hm : m ≠ 0)
    (hz : z (i + 2) - z (i + 1) ≠ 0) :
    (diffzCentered n dat z)[i]? = some (some m) ↔ z (i + 2) - z (i + 1) = z (i + 1) - z i := by
  have h3 : (2 : K) * (z (i + 2) - z (i + 1)) ≠ 0 := mul_ne_zero two_ne_zero hz
  simp only [diffzCentered, List.getElem?_map, List.getElem?_range (show i < n - 2 by omega),
    Option.map_some, hd i (by omega), hd (i + 2) (by omega), opt2, npDiv, if_neg h3,
    Option.some.injEq]
  rw [div_eq_iff h3]
  constructor
  · intro h
    have : m * (z (i + 2) - z i - 2 * (z (i + 2) - z (i + 1))) = 0 := by linear_combination h
    rcases mul_eq_zero.mp this with h | h
    · exact absurd h hm
    · linear_combination -h
  · intro h
    linear_combination -m * h

end

/-- The hypotheses of `shear_linear` hold for a real profile: four cells half a metre apart. -/
example : Spec.UniformGrid 4 (fun i => (i : ℚ) / 2 + 1) (1 / 2) ∧
    Spec.LinearProfile 4 (fun i => some (3 * ((i : ℚ) / 2 + 1) + 7)) (fun i => (i : ℚ) / 2 + 1) 3 := by
  refine ⟨⟨by norm_num, fun i _ => ?_⟩, 7, fun i _ => rfl⟩
  push_cast
  ring

end Dolfyn
