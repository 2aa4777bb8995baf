import Verif.Lemmas.SfSep
import Verif.Lemmas.Time
import Verif.Model.SfCall
import Verif.Props.Dissip
import Verif.Props.FrameInv

/-! C141: the structure function and the dissipation computed from it, as a call. -/

namespace Dolfyn

open Finset

/-- Mean squared difference of the fluctuations of two records in bin `t`. -/
noncomputable def Spec.sqDiff (n : ℕ) (x y : ℕ → ℝ) (t : ℕ) : ℝ :=
  (∑ j ∈ range n, ((x (t * n + j) - Spec.mean n fun i => x (t * n + i)) -
    (y (t * n + j) - Spec.mean n fun i => y (t * n + i))) ^ 2) / n

/-- **C141, separations.** The separations are the multiples of the cell size (to one part in 2⁵²) up to the first that
reaches the upper end of the range, where reaching it is decided to one part in 2⁵⁰. -/
theorem sf_separations (bin r1 : ℚ) (hb : 0 < bin) (hr : bin ≤ r1) (hq : r1 / bin < 2 ^ 49) :
    r1 * (1 - 1 / 2 ^ 50) ≤ sfCount bin r1 * bin ∧ ((sfCount bin r1 : ℚ) - 1) * bin < r1 * (1 + 1 / 2 ^ 50) ∧
      0 < sfCount bin r1 ∧ ∀ k < sfCount bin r1,
        |sfSep bin k - ((k + 1 : ℕ) : ℚ) * bin| ≤ ((k + 1 : ℕ) : ℚ) * bin / 2 ^ 52 := by
  have hr0 : 0 < r1 := lt_of_lt_of_le hb hr
  have e1 := fl64_err (r1 + bin)
  rw [abs_of_pos (by linarith : 0 < r1 + bin), abs_le] at e1
  norm_num at e1
  have e2 := fl64_err (fl64 (r1 + bin) - bin)
  have hy : 0 < fl64 (r1 + bin) - bin := by linarith [e1.1]
  rw [abs_of_pos hy, abs_le] at e2
  norm_num at e2
  set x := fl64 (fl64 (r1 + bin) - bin) with hx
  have hx1 : |x - r1| ≤ r1 / 2 ^ 51 := by
    rw [abs_le]
    norm_num
    constructor <;> linarith [e1.1, e1.2, e2.1, e2.2]
  have hx0 : 0 < x := by
    rw [abs_le] at hx1
    norm_num at hx1
    linarith [hx1.1]
  have e3 := fl64_err (x / bin)
  rw [abs_of_pos (div_pos hx0 hb)] at e3
  have hd : |x / bin - r1 / bin| ≤ r1 / bin / 2 ^ 51 := by
    rw [← sub_div, abs_div, abs_of_pos hb, div_le_iff₀ hb]
    have : r1 / bin / 2 ^ 51 * bin = r1 / 2 ^ 51 := by field_simp
    rw [this]
    exact hx1
  have hp : 1 ≤ r1 / bin := by rw [le_div_iff₀ hb]; linarith
  have h4 : |fl64 (x / bin) - r1 / bin| ≤ r1 / bin / 2 ^ 50 := by
    rw [abs_le] at e3 hd ⊢
    norm_num at e3 hd ⊢
    constructor <;> linarith [e3.1, e3.2, hd.1, hd.2]
  rw [abs_le] at h4
  norm_num at h4
  have h5 : 0 < fl64 (x / bin) := by linarith [h4.1]
  have hc : 0 < ⌈fl64 (x / bin)⌉ := Int.ceil_pos.mpr h5
  have e : ((sfCount bin r1 : ℕ) : ℚ) = (⌈fl64 (x / bin)⌉ : ℚ) := by
    unfold sfCount
    rw [← hx]
    have : ((⌈fl64 (x / bin)⌉.toNat : ℕ) : ℤ) = ⌈fl64 (x / bin)⌉ := Int.toNat_of_nonneg hc.le
    exact_mod_cast this
  have hr' : r1 = r1 / bin * bin := by field_simp
  have c1 := Int.le_ceil (fl64 (x / bin))
  have c2 := Int.ceil_lt_add_one (fl64 (x / bin))
  refine ⟨?_, ?_, ?_, ?_⟩
  · rw [e]
    have : r1 / bin * (1 - 1 / 2 ^ 50) ≤ (⌈fl64 (x / bin)⌉ : ℚ) := by norm_num; linarith [h4.1]
    have := mul_le_mul_of_nonneg_right this hb.le
    calc r1 * (1 - 1 / 2 ^ 50) = r1 / bin * (1 - 1 / 2 ^ 50) * bin := by field_simp
      _ ≤ _ := this
  · rw [e]
    have : (⌈fl64 (x / bin)⌉ : ℚ) - 1 < r1 / bin * (1 + 1 / 2 ^ 50) := by norm_num; linarith [h4.2]
    have := mul_lt_mul_of_pos_right this hb
    calc _ < r1 / bin * (1 + 1 / 2 ^ 50) * bin := this
      _ = _ := by field_simp
  · have : (0 : ℚ) < (sfCount bin r1 : ℕ) := by rw [e]; exact_mod_cast hc
    exact_mod_cast this
  · intro k hk
    apply sfSep_near bin hb
    have : ((sfCount bin r1 : ℕ) : ℚ) < 2 ^ 50 := by
      rw [e]
      norm_num at hq ⊢
      linarith [h4.2]
    have : sfCount bin r1 < 2 ^ 50 := by exact_mod_cast this
    omega

/-- For sizes with few binary digits (such as 0.25, 0.5, 0.75, 1, 1.5 or 2 m) there is no rounding. -/
theorem sf_separations_exact (p q : ℕ) (e : ℤ) (hp : 0 < p) (hq : 0 < q) (h : q + p ≤ 2 ^ 53) :
    (q : ℚ) * 2 ^ e ≤ sfCount (p * 2 ^ e) (q * 2 ^ e) * (p * 2 ^ e) ∧
      ((sfCount (p * 2 ^ e) (q * 2 ^ e) : ℚ) - 1) * (p * 2 ^ e) < q * 2 ^ e := by
  have hpow : (0 : ℚ) < 2 ^ e := zpow_pos (by norm_num) _
  have hpq : (0 : ℚ) < p := by exact_mod_cast hp
  have hqq : (0 : ℚ) < q := by exact_mod_cast hq
  have h1 := fl64_exact ((q + p : ℕ) : ℤ) e (by rw [abs_of_nonneg (by positivity)]; exact_mod_cast h)
  have h2 := fl64_exact (q : ℤ) e (by rw [abs_of_nonneg (by positivity)]; exact_mod_cast (by omega : q ≤ 2 ^ 53))
  push_cast at h1 h2
  have hx : fl64 (fl64 ((q : ℚ) * 2 ^ e + p * 2 ^ e) - p * 2 ^ e) = q * 2 ^ e := by
    rw [show (q : ℚ) * 2 ^ e + p * 2 ^ e = (q + p) * 2 ^ e by ring, h1,
      show ((q : ℚ) + p) * 2 ^ e - p * 2 ^ e = q * 2 ^ e by ring, h2]
  have hlt : q < 2 ^ 53 := by omega
  have hltq : (q : ℚ) < 2 ^ 53 := by exact_mod_cast hlt
  have hdiv : (0 : ℚ) < (q : ℚ) / p := div_pos hqq hpq
  have hf0 : 0 < fl64 ((q : ℚ) / p) := by
    have := fl64_err ((q : ℚ) / p)
    rw [abs_of_pos hdiv, abs_le] at this
    norm_num at this
    linarith [this.1]
  have hc : 0 < ⌈fl64 ((q : ℚ) / p)⌉ := Int.ceil_pos.mpr hf0
  have hm : ((sfCount (p * 2 ^ e) (q * 2 ^ e) : ℕ) : ℤ) = ⌈fl64 ((q : ℚ) / p)⌉ := by
    unfold sfCount
    rw [hx, mul_div_mul_right _ _ hpow.ne', Int.toNat_of_nonneg hc.le]
  set m := sfCount (p * 2 ^ e) (q * 2 ^ e) with hmd
  have hmq : (m : ℚ) = (⌈fl64 ((q : ℚ) / p)⌉ : ℚ) := by exact_mod_cast hm
  have c1 := Int.le_ceil (fl64 ((q : ℚ) / p))
  have c2 := Int.ceil_lt_add_one (fl64 ((q : ℚ) / p))
  have err := fl64_err ((q : ℚ) / p)
  rw [abs_of_pos hdiv] at err
  have hsmall : (q : ℚ) / p / 2 ^ 53 < 1 / p := by
    rw [div_div, div_lt_div_iff₀ (by positivity) hpq]
    have := mul_lt_mul_of_pos_right hltq hpq
    linarith
  rw [abs_le] at err
  constructor
  · have hle : q ≤ m * p := by
      by_contra hcon
      have h3 : (m * p : ℕ) + 1 ≤ q := by omega
      have h4 : ((m : ℚ) * p) + 1 ≤ q := by exact_mod_cast h3
      have h5 : (m : ℚ) + 1 / p ≤ q / p := by
        rw [le_div_iff₀ hpq, add_mul, div_mul_cancel₀ _ hpq.ne']
        exact h4
      rw [hmq] at h5
      linarith [err.1]
    have : (q : ℚ) ≤ m * p := by exact_mod_cast hle
    calc (q : ℚ) * 2 ^ e ≤ m * p * 2 ^ e := mul_le_mul_of_nonneg_right this hpow.le
      _ = _ := by ring
  · have hlt2 : m * p < q + p := by
      by_contra hcon
      have h3 : q + p ≤ m * p := by omega
      obtain ⟨m', hm'⟩ : ∃ m', m = m' + 1 := ⟨m - 1, by
        have : (0 : ℤ) < (m : ℤ) := by rw [hm]; exact hc
        omega⟩
      have h4 : q ≤ m' * p := by
        rw [hm', Nat.add_mul] at h3
        omega
      have h5 : (q : ℚ) / p ≤ m' := by
        rw [div_le_iff₀ hpq]
        exact_mod_cast h4
      have h6 : fl64 ((q : ℚ) / p) ≤ m' := by
        rcases le_or_gt m' (2 ^ 53) with hs | hs
        · have := fl64_mono hdiv.le h5
          rwa [fl64_natCast _ hs] at this
        · have hs' : (2 : ℚ) ^ 53 < m' := by exact_mod_cast hs
          have hqp : (q : ℚ) / p ≤ q := by
            apply div_le_self hqq.le
            exact_mod_cast hp
          have := fl64_mono hdiv.le hqp
          rw [fl64_natCast _ hlt.le] at this
          linarith
      rw [hmq.symm, hm'] at c2
      push_cast at c2
      linarith
    have : (m : ℚ) * p < q + p := by exact_mod_cast hlt2
    have := mul_lt_mul_of_pos_right this hpow
    linarith

theorem getD_of_some {α : Type*} (l : List α) (i : ℕ) (a d : α) (h : l[i]? = some a) : l.getD i d = a := by
  rw [List.getD_eq_getElem?_getD, h, Option.getD_some]

/-- The line `a x + c` through the points `(X k, Y k)`, `k` from `R` to `m-1`, with the least sum of squares: residuals
sum up to zero, also weighted with the abscissae. -/
def Spec.LsLine (R m : ℕ) (X Y : ℕ → ℝ) (a c : ℝ) : Prop :=
  ∑ k ∈ Finset.Ico R m, (Y k - (a * X k + c)) = 0 ∧ ∑ k ∈ Finset.Ico R m, X k * (Y k - (a * X k + c)) = 0

theorem lsLine_congr (R m : ℕ) (X Y X' Y' : ℕ → ℝ) (a c : ℝ)
    (h : ∀ k ∈ Finset.Ico R m, X k = X' k ∧ Y k = Y' k) (hl : Spec.LsLine R m X Y a c) : Spec.LsLine R m X' Y' a c := by
  obtain ⟨h1, h2⟩ := hl
  constructor
  · rw [← h1]
    exact (Finset.sum_congr rfl fun k hk => by rw [(h k hk).1, (h k hk).2]).symm
  · rw [← h2]
    exact (Finset.sum_congr rfl fun k hk => by rw [(h k hk).1, (h k hk).2]).symm

theorem drop_range (R m : ℕ) : (List.range m).drop R = List.range' R (m - R) := by
  rw [List.range_eq_range', List.drop_range']
  simp

theorem sum_range' (f : ℕ → ℝ) (R k : ℕ) :
    ((List.range' R k).map f).sum = ∑ i ∈ Finset.Ico R (R + k), f i := by
  induction k with
  | zero => simp
  | succ k ih =>
    rw [List.range'_concat, List.map_append, List.sum_append, ih, ← Nat.add_assoc,
      Finset.sum_Ico_succ_top (by omega)]
    simp

theorem sum_drop_range (f : ℕ → ℝ) (R m : ℕ) (h : R ≤ m) :
    (((List.range m).drop R).map f).sum = ∑ i ∈ Finset.Ico R m, f i := by
  rw [drop_range, sum_range']
  congr 2
  omega

/-- `np.polyfit` returns the least-squares line whenever there are two different abscissae. -/
theorem polyfit1_ls (R m : ℕ) (hR : R < m) (X Y : ℕ → ℝ) (hX : ∃ i j, R ≤ i ∧ i < m ∧ R ≤ j ∧ j < m ∧ X i ≠ X j) :
    ∃ p, polyfit1 (((List.range m).drop R).map X) (((List.range m).drop R).map Y) = some p ∧
      Spec.LsLine R m X Y p.1 p.2 := by
  have hlen : ((List.range m).drop R).length = m - R := by simp
  have hz : ∀ f : ℝ → ℝ → ℝ, ((((List.range m).drop R).map X).zipWith f (((List.range m).drop R).map Y)) =
      ((List.range m).drop R).map fun k => f (X k) (Y k) := by
    intro f
    rw [List.zipWith_map, List.zipWith_self]
  unfold polyfit1
  simp only [List.length_map, hlen, hz, List.map_map, Function.comp_def]
  simp only [sum_drop_range _ R m hR.le]
  have hN : ((m - R : ℕ) : ℝ) ≠ 0 := by
    have : 0 < m - R := by omega
    positivity
  set N := ((m - R : ℕ) : ℝ) with hNdef
  have hcard : ∑ _i ∈ Finset.Ico R m, (1 : ℝ) = N := by simp [hNdef]
  set sX := ∑ i ∈ Finset.Ico R m, X i with hsX
  set sY := ∑ i ∈ Finset.Ico R m, Y i with hsY
  set sxx := ∑ i ∈ Finset.Ico R m, (X i - sX / N) ^ 2 with hsxx
  set sxy := ∑ i ∈ Finset.Ico R m, (X i - sX / N) * (Y i - sY / N) with hsxy
  have hne : sxx ≠ 0 := by
    intro h0
    have hall := (Finset.sum_eq_zero_iff_of_nonneg (fun i _ => sq_nonneg (X i - sX / N))).mp h0
    obtain ⟨i, j, h1, h2, h3, h4, h5⟩ := hX
    have hi := hall i (Finset.mem_Ico.mpr ⟨h1, h2⟩)
    have hj := hall j (Finset.mem_Ico.mpr ⟨h3, h4⟩)
    have hi' : X i - sX / N = 0 := by simpa using hi
    have hj' : X j - sX / N = 0 := by simpa using hj
    exact h5 (by linarith)
  rw [if_neg hne]
  have d1 : ∑ i ∈ Finset.Ico R m, (X i - sX / N) = 0 := by
    have : ∑ i ∈ Finset.Ico R m, (X i - sX / N) = sX - sX / N * ∑ _i ∈ Finset.Ico R m, (1 : ℝ) := by
      rw [Finset.sum_sub_distrib, Finset.mul_sum]
      simp [hsX]
    rw [this, hcard, div_mul_cancel₀ _ hN, sub_self]
  have d2 : ∑ i ∈ Finset.Ico R m, (Y i - sY / N) = 0 := by
    have : ∑ i ∈ Finset.Ico R m, (Y i - sY / N) = sY - sY / N * ∑ _i ∈ Finset.Ico R m, (1 : ℝ) := by
      rw [Finset.sum_sub_distrib, Finset.mul_sum]
      simp [hsY]
    rw [this, hcard, div_mul_cancel₀ _ hN, sub_self]
  have e : ∀ i, Y i - (sxy / sxx * X i + (sY / N - sxy / sxx * (sX / N))) =
      (Y i - sY / N) - sxy / sxx * (X i - sX / N) := by intro i; ring
  refine ⟨_, rfl, ?_, ?_⟩
  · simp only [e]
    rw [Finset.sum_sub_distrib, ← Finset.mul_sum, d1, d2]
    ring
  · simp only [e]
    have e2 : ∀ i, X i * ((Y i - sY / N) - sxy / sxx * (X i - sX / N)) =
        (X i - sX / N) * (Y i - sY / N) - sxy / sxx * (X i - sX / N) ^ 2 +
          sX / N * ((Y i - sY / N) - sxy / sxx * (X i - sX / N)) := by intro i; ring
    simp only [e2]
    rw [Finset.sum_add_distrib, Finset.sum_sub_distrib, ← Finset.mul_sum, ← Finset.mul_sum,
      Finset.sum_sub_distrib, ← Finset.mul_sum, d1, d2, ← hsxy, ← hsxx, div_mul_cancel₀ _ hne]
    ring

theorem sfSep_sq_lt (bin : ℚ) (hb : 0 < bin) (k : ℕ) (hk : k + 1 < 2 ^ 50) :
    (sfSep bin k : ℝ) ^ 2 / 3 < (sfSep bin (k + 1) : ℝ) ^ 2 / 3 := by
  have h1 : (sfSep bin k : ℝ) < sfSep bin (k + 1) := by exact_mod_cast sfSep_lt bin hb k hk
  have h0 : (0 : ℝ) < sfSep bin k := by exact_mod_cast sfSep_pos bin hb k (by omega)
  nlinarith

/-- **C141, results for any cell size.** Complete records, at least two cells and a range that fits into the profile.
The call succeeds. Its structure function at cell `z` and separation `k+1` cells is the mean squared difference
of the fluctuations of cells `z` and `z-(k+1)` in every bin and missing where there is no such cell, if some
separation counts as `k+1` cells; otherwise it is zero everywhere. The dissipation is
missing in the first cells, as many as there are separations; elsewhere it is that of the least-squares line through
`(r²/3, D)`, zeros included. -/
theorem sf_call_hits (fitNan : List ℝ → List (Option ℝ) → Option ℝ × Option ℝ) (b : Binner) (n nz len : ℕ)
    (hb : b.nBin = n) (hn : 0 < n) (hlen : n ≤ len) (hnz : 2 ≤ nz) (rng : ℕ → ℚ) (r0 r1 : ℚ)
    (hbin : 0 < sfCell rng) (hm : sfCount (sfCell rng) r1 ≤ nz) (hz : nz < 2 ^ 50)
    (u : ℕ → ℕ → ℝ) :
    ∃ out, calcSF fitNan b 2 nz len rng r0 r1 (fun z t => some (u z t)) = .ok out ∧ out.cells = nz ∧
      out.bins = len / n ∧ out.seps.length = sfCount (sfCell rng) r1 ∧
      (∀ k < sfCount (sfCell rng) r1, out.seps[k]? = some (sfSep (sfCell rng) k)) ∧
      (∀ z < nz, ∀ k, ∀ t < len / n, out.sf z k t =
        if sfHit (sfCell rng) (sfCount (sfCell rng) r1) (k + 1) then
          (if z < k + 1 then none else some (Spec.sqDiff n (u z) (u (z - (k + 1))) t))
        else some 0) ∧
      (∀ z < sfCount (sfCell rng) r1, ∀ t, out.eps z t = none ∧ out.noise z t = none) ∧
      ∀ z, sfCount (sfCell rng) r1 ≤ z → z < nz → ∀ t < len / n,
        sfFirst (sfCell rng) r0 + 2 ≤ sfCount (sfCell rng) r1 → ∃ a c,
          Spec.LsLine (sfFirst (sfCell rng) r0) (sfCount (sfCell rng) r1)
            (fun k => (sfSep (sfCell rng) k : ℝ) ^ 2 / 3)
            (fun k => if sfHit (sfCell rng) (sfCount (sfCell rng) r1) (k + 1) then
              Spec.sqDiff n (u z) (u (z - (k + 1))) t else 0) a c ∧
          out.eps z t = (if a < 0 then none else some ((a / 2.1) ^ (3 / 2 : ℝ))) ∧
          out.noise z t = if c / 2 < 0 then none else some (Real.sqrt (c / 2)) := by
  have hf := fun z => fluct_demean b n len hb hn hlen (u z)
  choose g g1 g2 g3 g4 using hf
  have hmap : (List.range nz).mapM (fun z => fluct b false len (fun t => some (u z t))) =
      .ok ((List.range nz).map g) := mapM_ok_eq _ _ _ fun z _ => g1 z
  have hhead : ((List.range nz).map g).headD ⟨0, 0, fun _ _ => none⟩ = g 0 := by
    obtain ⟨k, rfl⟩ : ∃ k, nz = k + 1 := ⟨nz - 1, by omega⟩
    simp [List.range_succ_eq_map]
  have hget : ∀ z < nz, ((List.range nz).map g).getD z ⟨0, 0, fun _ _ => none⟩ = g z := by
    intro z hz
    apply getD_of_some
    rw [List.getElem?_map, List.getElem?_range hz]
    rfl
  set bin := sfCell rng with hbd
  set m := sfCount bin r1 with hmd
  set R := sfFirst bin r0 with hRd
  have hD : ∀ z < nz, ∀ k, ∀ t < len / n, structFun n (fun z j =>
      (((List.range nz).map g).getD z ⟨0, 0, fun _ _ => none⟩).at_ t j) z (k + 1) =
      if z < k + 1 then none else some (Spec.sqDiff n (u z) (u (z - (k + 1))) t) := by
    intro z hz k t ht
    unfold structFun
    by_cases hzk : z < k + 1
    · rw [if_pos hzk, if_pos hzk]
    · rw [if_neg hzk, if_neg hzk]
      simp only [hget z hz, hget (z - (k + 1)) (by omega)]
      have : vals n (fun j => (opt2 (· - ·) ((g (z - (k + 1))).at_ t j) ((g z).at_ t j)).map (· ^ 2)) =
          vals n fun j => some (((u z (t * n + j) - Spec.mean n fun i => u z (t * n + i)) -
            (u (z - (k + 1)) (t * n + j) - Spec.mean n fun i => u (z - (k + 1)) (t * n + i))) ^ 2) := by
        unfold vals
        apply List.map_congr_left
        intro j hj
        rw [g4 _ t ht j (List.mem_range.mp hj), g4 _ t ht j (List.mem_range.mp hj)]
        simp only [opt2, Option.map_some]
        congr 1
        ring
      rw [this, nanmean_some n hn]
      rfl
  have hD' : ∀ z < nz, ∀ k, ∀ t < len / n, (if sfHit bin m (k + 1) then structFun n (fun z j =>
      (((List.range nz).map g).getD z ⟨0, 0, fun _ _ => none⟩).at_ t j) z (k + 1) else some 0) =
      if sfHit bin m (k + 1) then
        (if z < k + 1 then none else some (Spec.sqDiff n (u z) (u (z - (k + 1))) t)) else some 0 := by
    intro z hz k t ht
    rw [hD z hz k t ht]
  have hany : (List.range m).any (fun k => decide (nz < sfIdx bin k)) = false := by
    rw [List.any_eq_false]
    intro k hk
    have hk' := List.mem_range.mp hk
    have := sfIdx_le bin hbin k (by omega)
    simp only [decide_eq_true_eq]
    omega
  unfold calcSF
  rw [if_neg (by simp), hmap]
  simp only [bind, Except.bind, pure, Except.pure]
  rw [if_neg (by omega)]
  simp only [hhead, g2, g3, ← hbd]
  rw [if_neg hbin.ne']
  simp only [← hmd, ← hRd]
  rw [hany, if_neg (by simp)]
  refine ⟨_, rfl, rfl, rfl, by simp, ?_, hD', ?_, ?_⟩
  · intro k hk
    simp only
    rw [List.getElem?_map, List.getElem?_range hk]
    rfl
  · intro z hz t
    simp only
    rw [if_pos hz]
    exact ⟨rfl, rfl⟩
  · intro z hz hz' t ht hR
    simp only
    rw [if_neg (by omega)]
    unfold sfLine
    set Y := fun k => if sfHit bin m (k + 1) then Spec.sqDiff n (u z) (u (z - (k + 1))) t else 0 with hY
    have hy : ((List.range m).drop R).map (fun k => if sfHit bin m (k + 1) then structFun n (fun z j =>
        (((List.range nz).map g).getD z ⟨0, 0, fun _ _ => none⟩).at_ t j) z (k + 1) else some 0) =
        ((List.range m).drop R).map fun k => some (Y k) := by
      apply List.map_congr_left
      intro k hk
      have hk' : k < m := List.mem_range.mp (List.mem_of_mem_drop hk)
      rw [hD' z hz' k t ht, if_neg (by omega : ¬ z < k + 1), hY]
      by_cases hh : sfHit bin m (k + 1) = true
      · simp [hh]
      · simp [hh]
    simp only [hy]
    have hne : (List.range m).drop R ≠ [] := by
      intro h
      have := congrArg List.length h
      simp at this
      omega
    rw [if_neg, if_pos]
    · rw [List.map_map]
      obtain ⟨p, p1, p2⟩ := polyfit1_ls R m (by omega)
        (fun k => (sfSep bin k : ℝ) ^ 2 / 3) Y
        ⟨R, R + 1, le_rfl, by omega, by omega, by omega, by
          apply ne_of_lt
          exact sfSep_sq_lt bin hbin R (by omega)⟩
      have p1' : polyfit1 (((List.range m).drop R).map fun k : ℕ => (sfSep bin k : ℝ) ^ 2 / 3)
          (((List.range m).drop R).map ((fun d : Option ℝ => d.getD 0) ∘ fun k => some (Y k))) = some p := p1
      rw [p1']
      exact ⟨p.1, p.2, p2, rfl, rfl⟩
    · rw [List.all_eq_true]
      intro x hx
      obtain ⟨k, -, rfl⟩ := List.mem_map.mp hx
      rfl
    · simp only [List.all_map, Bool.not_eq_true, List.all_eq_false]
      obtain ⟨a, ha⟩ := List.exists_mem_of_ne_nil _ hne
      exact ⟨a, ha, by simp⟩

/-- **C141, results.** Complete records, at least two cells, a range that fits into the profile and a cell size with few
binary digits (such as 0.25, 0.5, 0.75, 1, 1.5 or 2 m).
The call succeeds. Its structure function at cell `z` and separation `k+1` cells is the mean squared difference
of the fluctuations of cells `z` and `z-(k+1)` in every bin and missing where there is no such cell. The dissipation is
missing in the first cells, as many as there are separations; elsewhere it is that of the least-squares line through
`(r²/3, D)`. -/
theorem sf_call_values (fitNan : List ℝ → List (Option ℝ) → Option ℝ × Option ℝ) (b : Binner) (n nz len : ℕ)
    (hb : b.nBin = n) (hn : 0 < n) (hlen : n ≤ len) (hnz : 2 ≤ nz) (rng : ℕ → ℚ) (r0 r1 : ℚ)
    (p : ℕ) (e : ℤ) (hp : 0 < p) (hc : sfCell rng = p * 2 ^ e) (hm : sfCount (sfCell rng) r1 ≤ nz) (hz : nz < 2 ^ 50)
    (hpm : sfCount (sfCell rng) r1 * p ≤ 2 ^ 53) (u : ℕ → ℕ → ℝ) :
    ∃ out, calcSF fitNan b 2 nz len rng r0 r1 (fun z t => some (u z t)) = .ok out ∧ out.cells = nz ∧
      out.bins = len / n ∧ out.seps.length = sfCount (sfCell rng) r1 ∧
      (∀ k < sfCount (sfCell rng) r1, out.seps[k]? = some (((k + 1 : ℕ) : ℚ) * sfCell rng)) ∧
      (∀ z < nz, ∀ k < sfCount (sfCell rng) r1, ∀ t < len / n, out.sf z k t =
        if z < k + 1 then none else some (Spec.sqDiff n (u z) (u (z - (k + 1))) t)) ∧
      (∀ z < sfCount (sfCell rng) r1, ∀ t, out.eps z t = none ∧ out.noise z t = none) ∧
      ∀ z, sfCount (sfCell rng) r1 ≤ z → z < nz → ∀ t < len / n,
        sfFirst (sfCell rng) r0 + 2 ≤ sfCount (sfCell rng) r1 → ∃ a c,
          Spec.LsLine (sfFirst (sfCell rng) r0) (sfCount (sfCell rng) r1)
            (fun k => (((k + 1 : ℕ) : ℝ) * (sfCell rng : ℝ)) ^ 2 / 3)
            (fun k => Spec.sqDiff n (u z) (u (z - (k + 1))) t) a c ∧
          out.eps z t = (if a < 0 then none else some ((a / 2.1) ^ (3 / 2 : ℝ))) ∧
          out.noise z t = if c / 2 < 0 then none else some (Real.sqrt (c / 2)) := by
  have hbin : 0 < sfCell rng := by
    rw [hc]
    exact mul_pos (by exact_mod_cast hp) (zpow_pos (by norm_num) _)
  obtain ⟨out, o1, o2, o3, o4, o5, o6, o7, o8⟩ :=
    sf_call_hits fitNan b n nz len hb hn hlen hnz rng r0 r1 hbin hm hz u
  set m := sfCount (sfCell rng) r1 with hmd
  have hle : ∀ k < m, (k + 1) * p ≤ 2 ^ 53 := fun k hk => (Nat.mul_le_mul_right p (by omega)).trans hpm
  have hit : ∀ k < m, sfHit (sfCell rng) m (k + 1) = true := by
    intro k hk
    rw [sfHit_iff]
    refine ⟨k, hk, ?_⟩
    rw [hc]
    exact sfIdx_exact p hp e k (hle k hk)
  have hsep : ∀ k < m, sfSep (sfCell rng) k = ((k + 1 : ℕ) : ℚ) * sfCell rng := by
    intro k hk
    rw [hc]
    exact sfSep_exact p e k (hle k hk)
  refine ⟨out, o1, o2, o3, o4, ?_, ?_, o7, ?_⟩
  · intro k hk
    rw [o5 k hk, hsep k hk]
  · intro z hz k hk t ht
    rw [o6 z hz k t ht, if_pos (hit k hk)]
  · intro z hz hz' t ht hR
    obtain ⟨a, c, l, r1, r2⟩ := o8 z hz hz' t ht hR
    refine ⟨a, c, lsLine_congr _ _ _ _ _ _ a c ?_ l, r1, r2⟩
    intro k hk
    have hk' := (Finset.mem_Ico.mp hk).2
    refine ⟨?_, if_pos (hit k hk')⟩
    beta_reduce
    rw [hsep k hk']
    push_cast
    ring

/-- **C141 for other cell sizes.** Every entry of the structure function is the right one or zero; those of
one and two cells are right. -/
theorem sf_call_or_zero (fitNan : List ℝ → List (Option ℝ) → Option ℝ × Option ℝ) (b : Binner) (n nz len : ℕ)
    (hb : b.nBin = n) (hn : 0 < n) (hlen : n ≤ len) (hnz : 2 ≤ nz) (rng : ℕ → ℚ) (r0 r1 : ℚ)
    (hbin : 0 < sfCell rng) (hm : sfCount (sfCell rng) r1 ≤ nz) (hz : nz < 2 ^ 50) (u : ℕ → ℕ → ℝ) :
    ∃ out, calcSF fitNan b 2 nz len rng r0 r1 (fun z t => some (u z t)) = .ok out ∧
      ∀ z < nz, ∀ k < sfCount (sfCell rng) r1, ∀ t < len / n,
        (out.sf z k t = (if z < k + 1 then none else some (Spec.sqDiff n (u z) (u (z - (k + 1))) t)) ∨
          2 ≤ k ∧ out.sf z k t = some 0) := by
  obtain ⟨out, o1, -, -, -, -, o6, -⟩ := sf_call_hits fitNan b n nz len hb hn hlen hnz rng r0 r1 hbin hm hz u
  refine ⟨out, o1, fun z hz k hk t ht => ?_⟩
  rw [o6 z hz k t ht]
  by_cases hh : sfHit (sfCell rng) (sfCount (sfCell rng) r1) (k + 1) = true
  · rw [if_pos hh]
    exact Or.inl rfl
  · rw [if_neg hh]
    refine Or.inr ⟨?_, rfl⟩
    by_contra h2
    apply hh
    rw [sfHit_iff]
    rcases (by omega : k = 0 ∨ k = 1) with rfl | rfl
    · exact ⟨0, hk, sfIdx_zero _ hbin (sfCell_double rng)⟩
    · exact ⟨1, hk, sfIdx_one _ hbin (sfCell_double rng)⟩

/-- **C141 is false for cells of 10, 20, 40 or 80 cm** (and all other sizes `0.2·2^j`): the quotient of the sixth
separation and the cell size is rounded to a number below six, so the structure function of six cells stays zero,
at all cells and in all bins, whatever the record. -/
theorem sf_hole_false (fitNan : List ℝ → List (Option ℝ) → Option ℝ × Option ℝ) (b : Binner) (n nz len : ℕ)
    (hb : b.nBin = n) (hn : 0 < n) (hlen : n ≤ len) (hnz : 2 ≤ nz) (rng : ℕ → ℚ) (r0 r1 : ℚ) (j : ℤ)
    (hc : sfCell rng = fl64 (1 / 5) * 2 ^ j) (hm : sfCount (sfCell rng) r1 ≤ nz) (hz : nz < 2 ^ 50) (u : ℕ → ℕ → ℝ) :
    ∃ out, calcSF fitNan b 2 nz len rng r0 r1 (fun z t => some (u z t)) = .ok out ∧
      ∀ z < nz, ∀ t < len / n, out.sf z 5 t = some 0 := by
  have hbin : 0 < sfCell rng := by
    rw [hc, fl64_fifth]
    exact mul_pos (by norm_num [zpow_neg]) (zpow_pos (by norm_num) _)
  obtain ⟨out, o1, -, -, -, -, o6, -⟩ := sf_call_hits fitNan b n nz len hb hn hlen hnz rng r0 r1 hbin hm hz u
  refine ⟨out, o1, fun z hz t ht => ?_⟩
  rw [o6 z hz 5 t ht, hc, sfHit_fifth j _ (by rw [← hc]; omega)]
  rfl

/-- Other usual cell sizes (in millimetres) with the number of cells of the first separation that is never computed,
among the separations up to 5 m. -/
theorem sf_hole_sizes_false : ∀ q ∈ [(50, 6), (100, 6), (150, 7), (200, 6), (300, 7), (350, 3), (400, 6), (550, 6),
    (600, 7), (700, 3), (800, 6)], sfHit (fl64 ((q.1 : ℕ) / 1000)) (sfCount (fl64 ((q.1 : ℕ) / 1000)) 5) q.2 = false ∧
      q.2 ≤ sfCount (fl64 ((q.1 : ℕ) / 1000)) 5 := by
  decide +kernel

/-- Replacing the first of the values by zero makes the least-squares line steeper. -/
theorem lsLine_hole (R m : ℕ) (hR : R + 2 ≤ m) (X Y : ℕ → ℝ) (hX : ∀ k, R < k → k < m → X R < X k) (hY : 0 < Y R)
    (a c a' c' : ℝ) (h : Spec.LsLine R m X Y a c)
    (h' : Spec.LsLine R m X (fun k => if k = R then 0 else Y k) a' c') : a < a' := by
  obtain ⟨h1, h2⟩ := h
  obtain ⟨h3, h4⟩ := h'
  have hmem : R ∈ Finset.Ico R m := Finset.mem_Ico.mpr ⟨le_rfl, by omega⟩
  have s1 : ∑ k ∈ Finset.Ico R m, ((if k = R then Y R else 0) - ((a - a') * X k + (c - c'))) = 0 := by
    have : ∑ k ∈ Finset.Ico R m, ((if k = R then Y R else 0) - ((a - a') * X k + (c - c'))) =
        ∑ k ∈ Finset.Ico R m, (Y k - (a * X k + c)) -
          ∑ k ∈ Finset.Ico R m, ((if k = R then 0 else Y k) - (a' * X k + c')) := by
      rw [← Finset.sum_sub_distrib]
      apply Finset.sum_congr rfl
      intro k _
      split
      · next e => subst e; ring
      · ring
    rw [this, h1, h3, sub_zero]
  have s2 : ∑ k ∈ Finset.Ico R m, (X k - X R) * ((if k = R then Y R else 0) - ((a - a') * X k + (c - c'))) = 0 := by
    have : ∑ k ∈ Finset.Ico R m, (X k - X R) * ((if k = R then Y R else 0) - ((a - a') * X k + (c - c'))) =
        ∑ k ∈ Finset.Ico R m, X k * (Y k - (a * X k + c)) -
          ∑ k ∈ Finset.Ico R m, X k * ((if k = R then 0 else Y k) - (a' * X k + c')) -
          X R * ∑ k ∈ Finset.Ico R m, ((if k = R then Y R else 0) - ((a - a') * X k + (c - c'))) := by
      rw [Finset.mul_sum, ← Finset.sum_sub_distrib, ← Finset.sum_sub_distrib]
      apply Finset.sum_congr rfl
      intro k _
      split
      · next e => subst e; ring
      · ring
    rw [this, h2, h4, s1]
    ring
  set α := a - a' with hα
  set γ := α * X R + (c - c') with hγ
  have e1 : Y R = α * ∑ k ∈ Finset.Ico R m, (X k - X R) + γ * ((m : ℝ) - R) := by
    have hsum : ∑ k ∈ Finset.Ico R m, (if k = R then Y R else 0) = Y R := by
      rw [Finset.sum_ite_eq' (Finset.Ico R m) R fun _ => Y R, if_pos hmem]
    rw [Finset.sum_sub_distrib, hsum] at s1
    have hcst : ∑ _k ∈ Finset.Ico R m, γ = γ * ((m : ℝ) - R) := by
      rw [Finset.sum_const, Nat.card_Ico, nsmul_eq_mul, Nat.cast_sub (by omega)]
      ring
    have : ∑ k ∈ Finset.Ico R m, (α * X k + (c - c')) =
        α * ∑ k ∈ Finset.Ico R m, (X k - X R) + ∑ _k ∈ Finset.Ico R m, γ := by
      rw [Finset.mul_sum, ← Finset.sum_add_distrib]
      apply Finset.sum_congr rfl
      intro k _
      rw [hγ]
      ring
    rw [this, hcst] at s1
    linarith
  have e2 : α * ∑ k ∈ Finset.Ico R m, (X k - X R) ^ 2 + γ * ∑ k ∈ Finset.Ico R m, (X k - X R) = 0 := by
    have : ∑ k ∈ Finset.Ico R m, (X k - X R) * ((if k = R then Y R else 0) - (α * X k + (c - c'))) =
        -(α * ∑ k ∈ Finset.Ico R m, (X k - X R) ^ 2 + γ * ∑ k ∈ Finset.Ico R m, (X k - X R)) := by
      rw [Finset.mul_sum, Finset.mul_sum, ← Finset.sum_add_distrib, ← Finset.sum_neg_distrib]
      apply Finset.sum_congr rfl
      intro k _
      rw [hγ]
      split
      · next e => subst e; ring
      · ring
    rw [this] at s2
    linarith
  have hpos : ∀ k ∈ Finset.Ico R m, 0 ≤ X k - X R := by
    intro k hk
    obtain ⟨k1, k2⟩ := Finset.mem_Ico.mp hk
    rcases k1.eq_or_lt with rfl | k1
    · simp
    · linarith [hX k k1 k2]
  have hS1 : 0 < ∑ k ∈ Finset.Ico R m, (X k - X R) :=
    Finset.sum_pos' hpos ⟨R + 1, Finset.mem_Ico.mpr ⟨by omega, by omega⟩, by linarith [hX (R + 1) (by omega) (by omega)]⟩
  have hS2 : 0 < ∑ k ∈ Finset.Ico R m, (X k - X R) ^ 2 := by
    apply Finset.sum_pos' (fun k _ => sq_nonneg _)
    refine ⟨R + 1, Finset.mem_Ico.mpr ⟨by omega, by omega⟩, ?_⟩
    have := hX (R + 1) (by omega) (by omega)
    have h0 : 0 < X (R + 1) - X R := by linarith
    positivity
  have hN : (0 : ℝ) < (m : ℝ) - R := by
    have : ((R : ℕ) : ℝ) < m := by exact_mod_cast (by omega : R < m)
    linarith
  have : α < 0 := by
    by_contra hα0
    have hα0' : 0 ≤ α := not_lt.mp hα0
    have t1 : 0 ≤ α * ∑ k ∈ Finset.Ico R m, (X k - X R) ^ 2 := mul_nonneg hα0' hS2.le
    have t2 : γ ≤ 0 := by
      by_contra hg
      have := mul_pos (not_le.mp hg) hS1
      linarith
    rcases t2.eq_or_lt with hg | hg
    · rw [hg] at e2 e1
      have : α = 0 := by
        have : α * ∑ k ∈ Finset.Ico R m, (X k - X R) ^ 2 = 0 := by linarith
        rcases mul_eq_zero.mp this with h | h
        · exact h
        · exact absurd h hS2.ne'
      rw [this] at e1
      linarith
    · -- Cauchy–Schwarz
      have cs := Finset.sum_mul_sq_le_sq_mul_sq (Finset.Ico R m) (fun k => X k - X R) fun _ => (1 : ℝ)
      simp only [mul_one, one_pow, Finset.sum_const, Nat.card_Ico, nsmul_eq_mul] at cs
      rw [Nat.cast_sub (by omega)] at cs
      set S1 := ∑ k ∈ Finset.Ico R m, (X k - X R) with hS1d
      set S2 := ∑ k ∈ Finset.Ico R m, (X k - X R) ^ 2 with hS2d
      have f1 : α * S2 = -γ * S1 := by linarith
      have f2 : α * (S1 ^ 2) ≤ α * (S2 * ((m : ℝ) - R)) := mul_le_mul_of_nonneg_left cs hα0'
      have f3 : α * S1 * S1 ≤ -γ * ((m : ℝ) - R) * S1 := by nlinarith
      have f4 : α * S1 ≤ -γ * ((m : ℝ) - R) := le_of_mul_le_mul_right f3 hS1
      linarith
  linarith

/-- **C141 is false for the dissipation.** Cells of 20 cm and the range from 1 m to 5 m of the default arguments:
the missing separation is the first one of the fit. Wherever its structure function is positive, the dissipation is
larger than that of the least-squares line through the structure function. -/
theorem sf_dissipation_high_false (fitNan : List ℝ → List (Option ℝ) → Option ℝ × Option ℝ) (b : Binner)
    (n nz len : ℕ) (hb : b.nBin = n) (hn : 0 < n) (hlen : n ≤ len) (hnz : 25 ≤ nz) (rng : ℕ → ℚ)
    (hc : sfCell rng = fl64 (1 / 5)) (hz : nz < 2 ^ 50) (u : ℕ → ℕ → ℝ) :
    ∃ out, calcSF fitNan b 2 nz len rng 1 5 (fun z t => some (u z t)) = .ok out ∧ out.seps.length = 25 ∧
      ∀ z, 25 ≤ z → z < nz → ∀ t < len / n, 0 < Spec.sqDiff n (u z) (u (z - 6)) t → ∀ a c, 0 ≤ a →
        Spec.LsLine 5 25 (fun k => (sfSep (sfCell rng) k : ℝ) ^ 2 / 3)
          (fun k => Spec.sqDiff n (u z) (u (z - (k + 1))) t) a c →
        ∃ v, out.eps z t = some v ∧ (a / 2.1) ^ (3 / 2 : ℝ) < v := by
  have hbin : 0 < sfCell rng := by rw [hc]; decide +kernel
  have hm : sfCount (sfCell rng) 5 = 25 := by rw [hc]; decide +kernel
  have hR : sfFirst (sfCell rng) 1 = 5 := by rw [hc]; decide +kernel
  have hhit : ∀ k < 25, sfHit (sfCell rng) 25 (k + 1) = if k = 5 then false else true := by
    rw [hc]
    decide +kernel
  obtain ⟨out, o1, -, -, o4, -, -, -, o8⟩ :=
    sf_call_hits fitNan b n nz len hb hn hlen (by omega) rng 1 5 hbin (by omega) hz u
  rw [hm, hR] at o8
  refine ⟨out, o1, by rw [o4, hm], fun z hz hz' t ht hpos a c ha hl => ?_⟩
  obtain ⟨a', c', l, e1, -⟩ := o8 z hz hz' t ht (by norm_num)
  have l' : Spec.LsLine 5 25 (fun k => (sfSep (sfCell rng) k : ℝ) ^ 2 / 3)
      (fun k => if k = 5 then 0 else Spec.sqDiff n (u z) (u (z - (k + 1))) t) a' c' := by
    apply lsLine_congr _ _ _ _ _ _ a' c' _ l
    intro k hk
    refine ⟨rfl, ?_⟩
    beta_reduce
    rw [hhit k (Finset.mem_Ico.mp hk).2]
    by_cases h5 : k = 5
    · simp [h5]
    · simp [h5]
  have hmono : ∀ d k, k + (d + 1) < 25 →
      (sfSep (sfCell rng) k : ℝ) ^ 2 / 3 < (sfSep (sfCell rng) (k + (d + 1)) : ℝ) ^ 2 / 3 := by
    intro d
    induction d with
    | zero => exact fun k hk => sfSep_sq_lt _ hbin k (by omega)
    | succ d ih =>
      intro k hk
      exact (ih k (by omega)).trans (sfSep_sq_lt _ hbin (k + (d + 1)) (by omega))
  have hlt := lsLine_hole 5 25 (by norm_num) _ _ (fun k k1 k2 => by
    obtain ⟨d, rfl⟩ : ∃ d, k = 5 + (d + 1) := ⟨k - 6, by omega⟩
    exact hmono d 5 k2) hpos a c a' c' hl l'
  refine ⟨_, by rw [e1, if_neg (by linarith)], ?_⟩
  apply Real.rpow_lt_rpow
  · positivity
  · exact div_lt_div_of_pos_right hlt (by norm_num)
  · norm_num

/-- **C141 is false for the labels.** The documentation has `D(z,r)` between `z` and `z+r`. For every profile the
entry of the lowest cell is missing although the cell above exists, and the entry of a cell is the
one documented for the cell `r` below (shown here for one and two cells). -/
theorem sf_label_false (fitNan : List ℝ → List (Option ℝ) → Option ℝ × Option ℝ) (b : Binner) (n nz len : ℕ)
    (hb : b.nBin = n) (hn : 0 < n) (hlen : n ≤ len) (hnz : 2 ≤ nz) (rng : ℕ → ℚ) (r0 r1 : ℚ)
    (hbin : 0 < sfCell rng) (hm1 : 2 ≤ sfCount (sfCell rng) r1) (hm : sfCount (sfCell rng) r1 ≤ nz) (hz : nz < 2 ^ 50)
    (u : ℕ → ℕ → ℝ) :
    ∃ out, calcSF fitNan b 2 nz len rng r0 r1 (fun z t => some (u z t)) = .ok out ∧
      (∀ t < len / n, out.sf 0 0 t = none) ∧
      ∀ z, ∀ k < 2, z + (k + 1) < nz → ∀ t < len / n, out.sf (z + (k + 1)) k t =
        some (Spec.sqDiff n (u (z + (k + 1))) (u z) t) := by
  obtain ⟨out, h1, h2⟩ := sf_call_or_zero fitNan b n nz len hb hn hlen hnz rng r0 r1 hbin hm hz u
  refine ⟨out, h1, fun t ht => ?_, fun z k hk hz t ht => ?_⟩
  · rcases h2 0 (by omega) 0 (by omega) t ht with h | h
    · rw [h, if_pos (by omega)]
    · omega
  · rcases h2 _ hz k (by omega) t ht with h | h
    · rw [h, if_neg (by omega), Nat.add_sub_cancel]
    · omega

/-- **C141 is false for long ranges.** A range that reaches two cells beyond the profile makes the call raise ValueError
instead of giving missing values. -/
theorem sf_too_far_false (fitNan : List ℝ → List (Option ℝ) → Option ℝ × Option ℝ) (b : Binner) (n nz len : ℕ)
    (hb : b.nBin = n) (hn : 0 < n) (hlen : n ≤ len) (hnz : 2 ≤ nz) (rng : ℕ → ℚ) (r0 r1 : ℚ)
    (hbin : 0 < sfCell rng) (hm : (nz + 2) * sfCell rng ≤ r1) (hr : r1 / sfCell rng < 2 ^ 49) (u : ℕ → ℕ → ℝ) :
    calcSF fitNan b 2 nz len rng r0 r1 (fun z t => some (u z t)) = .error .valueError := by
  have hf := fun z => fluct_demean b n len hb hn hlen (u z)
  choose g g1 g2 g3 g4 using hf
  have hmap : (List.range nz).mapM (fun z => fluct b false len (fun t => some (u z t))) =
      .ok ((List.range nz).map g) := mapM_ok_eq _ _ _ fun z _ => g1 z
  have hhead : ((List.range nz).map g).headD ⟨0, 0, fun _ _ => none⟩ = g 0 := by
    obtain ⟨k, rfl⟩ : ∃ k, nz = k + 1 := ⟨nz - 1, by omega⟩
    simp [List.range_succ_eq_map]
  have hnzq : (2 : ℚ) ≤ nz := by exact_mod_cast hnz
  have hr1 : sfCell rng ≤ r1 := by nlinarith
  have hq : ((nz : ℚ) + 2) < 2 ^ 49 := lt_of_le_of_lt ((le_div_iff₀ hbin).mpr hm) hr
  have hnzb : nz + 2 < 2 ^ 49 := by exact_mod_cast hq
  have hmm : nz + 1 < sfCount (sfCell rng) r1 := by
    have h1 := (sf_separations (sfCell rng) r1 hbin hr1 hr).1
    have h2 : ((nz : ℚ) + 2) * (1 - 1 / 2 ^ 50) * sfCell rng ≤ sfCount (sfCell rng) r1 * sfCell rng := by
      refine le_trans ?_ h1
      have : (0 : ℚ) ≤ 1 - 1 / 2 ^ 50 := by norm_num
      nlinarith [mul_le_mul_of_nonneg_right hm this]
    have h3 := le_of_mul_le_mul_right h2 hbin
    have h4 : ((nz : ℚ) + 1) < sfCount (sfCell rng) r1 := by
      norm_num at h3 hq
      linarith
    exact_mod_cast h4
  have hany : (List.range (sfCount (sfCell rng) r1)).any (fun k => decide (nz < sfIdx (sfCell rng) k)) = true := by
    rw [List.any_eq_true]
    refine ⟨nz + 1, List.mem_range.mpr hmm, ?_⟩
    have := sfIdx_range (sfCell rng) hbin (nz + 1) (by omega)
    rw [decide_eq_true_eq]
    omega
  unfold calcSF
  rw [if_neg (by simp), hmap]
  simp only [bind, Except.bind, pure, Except.pure]
  rw [if_neg (by omega)]
  simp only [hhead, g2, g3]
  rw [if_neg hbin.ne', if_pos ⟨Nat.div_pos hlen hn, hany⟩]
  rfl

/-- Cells of half a metre, range from 1 m to 3 m: six separations, the fit starts at 1.5 m. -/
example : sfCell (fun k => k / 2 + 1) = 1 / 2 ∧ sfCount (1 / 2) 3 = 6 ∧ sfFirst (1 / 2) 1 = 2 ∧
    (1 / 2 : ℚ) = (1 : ℕ) * 2 ^ (-1 : ℤ) := by
  decide +kernel

/-- Cells of 20 cm beyond a blanking distance of 10 cm, with the ranges the reader computes for a Signature. -/
example : sfCell (fun k => fl64 (fl64 ((k + 1 : ℕ) * fl64 (1 / 5)) + fl64 (1 / 10))) = fl64 (1 / 5) * 2 ^ (0 : ℤ) ∧
    fl64 (fl64 (fl64 (1 * fl64 (1 / 5)) + fl64 (1 / 10))) ≠ 3 / 10 := by
  decide +kernel

/-- Records that grow with the number of the cell: a positive structure function. -/
example : Spec.sqDiff 2 (fun t => 30 * t) (fun t => 24 * t) 0 = 9 := by
  norm_num [Spec.sqDiff, Spec.mean, Finset.sum_range_succ]

/-- Cells of 20 cm: range beyond a profile of 30 cells. -/
example : ((30 : ℚ) + 2) * fl64 (1 / 5) ≤ 8 ∧ 8 / fl64 (1 / 5) < 2 ^ 49 := by
  decide +kernel

end Dolfyn
