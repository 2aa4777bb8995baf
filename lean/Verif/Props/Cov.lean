import Verif.Lemmas.Float64
import Verif.Model.Cov
import Verif.Props.Binned
import Mathlib.Algebra.Order.BigOperators.Ring.Finset
import Mathlib.Tactic.FieldSimp
import Mathlib.Tactic.Linarith

/-!
Properties of the auto- and cross-covariance: C94, C95.
-/

namespace Dolfyn

/-! ### Specification -/

/-- Mean of bin `r` of size `n`. -/
noncomputable def Spec.binAvg (x : ℕ → ℝ) (n r : ℕ) : ℝ := (∑ i ∈ Finset.range n, x (r * n + i)) / n

/-- Covariance (as a sum over the bin) of the samples of bin `r` with the samples `l` later. -/
noncomputable def Spec.covFwd (x y : ℕ → ℝ) (n r l : ℕ) : ℝ :=
  ∑ i ∈ Finset.range n, (x (r * n + i + l) - Spec.binAvg x n r) * (y (r * n + i) - Spec.binAvg y n r)

/-- The same with the samples `l` earlier. -/
noncomputable def Spec.covBwd (x y : ℕ → ℝ) (n r l : ℕ) : ℝ :=
  ∑ i ∈ Finset.range n, (x (r * n + i - l) - Spec.binAvg x n r) * (y (r * n + i) - Spec.binAvg y n r)

/-! ### Correlation with a series of mean zero -/

theorem sum_dev_zero (n : ℕ) (hn : 0 < n) (v : ℕ → ℝ) :
    ∑ i ∈ Finset.range n, (v i - (∑ j ∈ Finset.range n, v j) / n) = 0 := by
  have : (n : ℝ) ≠ 0 := by exact_mod_cast hn.ne'
  rw [Finset.sum_sub_distrib, Finset.sum_const, Finset.card_range, nsmul_eq_mul]
  field_simp
  ring

theorem corr_offset (n : ℕ) (a v : ℕ → ℝ) (c d : ℝ) (k : ℕ) (hv : ∑ i ∈ Finset.range n, v i = 0) :
    corrValid n (fun j => a j - c) v k = ∑ i ∈ Finset.range n, (a (i + k) - d) * v i := by
  have h1 : ∀ e : ℝ, ∑ i ∈ Finset.range n, (a (i + k) - e) * v i = ∑ i ∈ Finset.range n, a (i + k) * v i := by
    intro e
    simp only [sub_mul, Finset.sum_sub_distrib, ← Finset.mul_sum, hv]
    ring
  unfold corrValid
  rw [h1, h1]

theorem sliceMean_zero (n : ℕ) (v : ℕ → ℝ) : sliceMean v 0 n = (∑ j ∈ Finset.range n, v j) / n := by
  unfold sliceMean
  rw [Finset.range_eq_Ico, Nat.sub_zero]

/-- **C94**. With at least two bins of `n = 4m` samples, every bin gives, at every lag below `m`, the
covariance with the samples that many steps later (first bin), earlier (last bin), or the average of both
(all others). -/
theorem acov_spec (n len : ℕ) (x : ℕ → ℝ) (hn4 : 4 ≤ n) (hmod : n % 4 ≤ 1) (hn5 : n ≠ 5) (hlen : 2 * n ≤ len) :
    ∃ out, calcAcov n n len x = .ok out ∧ out.rows = len / n ∧
      ∀ r, r < out.rows → ∃ f, out.row r = some f ∧ ∀ l < n / 4, f l =
        if r = 0 then Spec.covFwd x x n r l
        else if r + 1 = out.rows then Spec.covBwd x x n r l
        else (Spec.covFwd x x n r l + Spec.covBwd x x n r l) / 2 := by
  have hpad : ((n / 2 : ℕ) - 2 : ℤ) = ((n / 2 - 2 : ℕ) : ℤ) := by omega
  obtain ⟨m1, e1, r1, c1, a1⟩ := reshape_spec (0 : ℝ) len x n (n / 2 - 2) (by omega) (by omega) (by omega)
  obtain ⟨m2, e2, r2, c2, a2⟩ := reshape_no_pad (0 : ℝ) len x n (by omega) (by omega)
  have hrows : 2 ≤ len / n := (Nat.le_div_iff_mul_le (by omega)).mpr hlen
  have hp2 : (n / 2 - 2) / 2 = n / 4 - 1 := by omega
  unfold calcAcov
  rw [if_neg (fun h => hn5 h.1), hpad, e1, e2]
  simp only [c1, c2, r1, r2]
  rw [if_neg (by omega), if_neg (by omega), if_neg (by omega)]
  refine ⟨_, rfl, rfl, fun r hr => ⟨_, if_pos hr, fun l hl => ?_⟩⟩
  simp only at hr
  rw [r1] at a1
  rw [r2] at a2
  rw [c1] at a1
  simp only [hp2] at a1
  -- the second factor
  have hd2 : ∀ i < n, m2.at_ r i - sliceMean (m2.at_ r) 0 n =
      x (r * n + i) - Spec.binAvg x n r := by
    intro i hi
    rw [a2 r i hr hi, sliceMean_zero]
    unfold Spec.binAvg
    congr 2
    apply Finset.sum_congr rfl
    intro j hj
    exact a2 r j hr (Finset.mem_range.mp hj)
  have hz : ∑ i ∈ Finset.range n, (m2.at_ r i - sliceMean (m2.at_ r) 0 n) = 0 := by
    rw [sliceMean_zero]; exact sum_dev_zero _ (by omega) _
  have hend : (r + 1) * n ≤ len / n * n := Nat.mul_le_mul_right _ hr
  have hend2 : r + 1 < len / n → (r + 2) * n ≤ len / n * n :=
    fun h => Nat.mul_le_mul_right _ h
  have hbeg : 0 < r → n ≤ r * n := fun h => Nat.le_mul_of_pos_left _ h
  rw [Nat.add_mul] at hend hend2
  -- forward
  have hf : r + 1 < len / n →
      corrValid n (fun j => m1.at_ r j - sliceMean (m1.at_ r) (n / 4) (n + (n / 2 - 2) - (n + 3) / 4))
        (fun j => m2.at_ r j - sliceMean (m2.at_ r) 0 n) (n / 4 - 1 + l) = Spec.covFwd x x n r l := by
    intro hlast
    have := hend2 hlast
    rw [corr_offset n _ _ _ (Spec.binAvg x n r) _ hz]
    unfold Spec.covFwd
    apply Finset.sum_congr rfl
    intro i hi
    have hi := Finset.mem_range.mp hi
    rw [hd2 i hi, a1 r _ hr (by omega), if_pos (by omega)]
    congr 3
    omega
  have hb : 0 < r →
      corrValid n (fun j => m1.at_ r j - sliceMean (m1.at_ r) (n / 4) (n + (n / 2 - 2) - (n + 3) / 4))
        (fun j => m2.at_ r j - sliceMean (m2.at_ r) 0 n) (n / 4 - 1 - l) = Spec.covBwd x x n r l := by
    intro h0
    have := hbeg h0
    rw [corr_offset n _ _ _ (Spec.binAvg x n r) _ hz]
    unfold Spec.covBwd
    apply Finset.sum_congr rfl
    intro i hi
    have hi := Finset.mem_range.mp hi
    rw [hd2 i hi, a1 r _ hr (by omega), if_pos (by omega)]
    congr 3
    omega
  by_cases h0 : r = 0
  · rw [if_pos h0, if_pos h0]
    exact hf (by omega)
  · rw [if_neg h0, if_neg h0]
    by_cases hl' : r + 1 = len / n
    · rw [if_pos (by omega), if_pos hl']
      exact hb (by omega)
    · rw [if_neg (by omega), if_neg hl', hf (by omega), hb (by omega)]

/-- **C94** (lag zero). The first lag of every bin is the number of samples times the variance of the
bin. -/
theorem acov_lag_zero (n len : ℕ) (x : ℕ → ℝ) (hn4 : 4 ≤ n) (hmod : n % 4 ≤ 1) (hn5 : n ≠ 5) (hlen : 2 * n ≤ len) :
    ∃ out, calcAcov n n len x = .ok out ∧
      ∀ r, r < len / n → ∃ f, out.row r = some f ∧
        f 0 = ∑ i ∈ Finset.range n, (x (r * n + i) - Spec.binAvg x n r) ^ 2 := by
  obtain ⟨out, h1, h2, h3⟩ := acov_spec n len x hn4 hmod hn5 hlen
  refine ⟨out, h1, fun r hr => ?_⟩
  obtain ⟨f, hf, hv⟩ := h3 r (by rw [h2]; exact hr)
  refine ⟨f, hf, ?_⟩
  rw [hv 0 (by omega)]
  have e1 : Spec.covFwd x x n r 0 = ∑ i ∈ Finset.range n, (x (r * n + i) - Spec.binAvg x n r) ^ 2 := by
    unfold Spec.covFwd
    exact Finset.sum_congr rfl fun i _ => by rw [Nat.add_zero, sq]
  have e2 : Spec.covBwd x x n r 0 = ∑ i ∈ Finset.range n, (x (r * n + i) - Spec.binAvg x n r) ^ 2 := by
    unfold Spec.covBwd
    exact Finset.sum_congr rfl fun i _ => by rw [Nat.sub_zero, sq]
  rw [e1, e2]
  split_ifs
  · rfl
  · rfl
  · ring

/-- **C94** (offset). Adding a constant to the signal does not change its auto-covariance. -/
theorem acov_offset (n len : ℕ) (x : ℕ → ℝ) (c : ℝ) (hn4 : 4 ≤ n) (hmod : n % 4 ≤ 1) (hn5 : n ≠ 5) (hlen : 2 * n ≤ len) :
    ∃ out out', calcAcov n n len x = .ok out ∧
      calcAcov n n len (fun i => x i + c) = .ok out' ∧
      ∀ r, r < len / n → ∃ f f', out.row r = some f ∧ out'.row r = some f' ∧ ∀ l < n / 4, f l = f' l := by
  obtain ⟨out, h1, h2, h3⟩ := acov_spec n len x hn4 hmod hn5 hlen
  obtain ⟨out', g1, g2, g3⟩ := acov_spec n len (fun i => x i + c) hn4 hmod hn5 hlen
  refine ⟨out, out', h1, g1, fun r hr => ?_⟩
  obtain ⟨f, hf, hv⟩ := h3 r (by rw [h2]; exact hr)
  obtain ⟨f', hf', hv'⟩ := g3 r (by rw [g2]; exact hr)
  refine ⟨f, f', hf, hf', fun l hl => ?_⟩
  have hn : ((n : ℕ) : ℝ) ≠ 0 := by exact_mod_cast (by omega : n ≠ 0)
  have ha : Spec.binAvg (fun i => x i + c) n r = Spec.binAvg x n r + c := by
    unfold Spec.binAvg
    rw [Finset.sum_add_distrib, Finset.sum_const, Finset.card_range, nsmul_eq_mul]
    field_simp
  have hF : Spec.covFwd (fun i => x i + c) (fun i => x i + c) n r l = Spec.covFwd x x n r l := by
    unfold Spec.covFwd
    rw [ha]
    exact Finset.sum_congr rfl fun i _ => by ring
  have hB : Spec.covBwd (fun i => x i + c) (fun i => x i + c) n r l = Spec.covBwd x x n r l := by
    unfold Spec.covBwd
    rw [ha]
    exact Finset.sum_congr rfl fun i _ => by ring
  rw [hv l hl, hv' l hl, hF, hB, h2, g2]

/-- **C94 is false of the code** for bin sizes that leave the remainder two or three on division by four:
they always raise. -/
theorem acov_mod4_false (n len : ℕ) (x : ℕ → ℝ) (hn : 4 ≤ n) (hmod : 2 ≤ n % 4) (hlen : n ≤ len) :
    calcAcov n n len x = .error .valueError := by
  have hpad : ((n / 2 : ℕ) - 2 : ℤ) = ((n / 2 - 2 : ℕ) : ℤ) := by omega
  obtain ⟨m1, e1, r1, c1, a1⟩ := reshape_spec (0 : ℝ) len x n (n / 2 - 2) (by omega) (by omega) (by omega)
  obtain ⟨m2, e2, r2, c2, a2⟩ := reshape_no_pad (0 : ℝ) len x n (by omega) (by omega)
  have hrows : 1 ≤ len / n := (Nat.le_div_iff_mul_le (by omega)).mpr (by omega)
  unfold calcAcov
  rw [if_neg (by omega), hpad, e1, e2]
  simp only [c1, c2]
  rw [if_neg (by omega), if_pos (by omega)]

/-- **C94 is false of the code** for bins of five samples, although bins of four, eight and nine work: the
padding of half a sample leaves an empty slice that is assigned to whole rows. -/
theorem acov_five_false (nSelf len : ℕ) (x : ℕ → ℝ) (hn : 0 < nSelf) (hlen : nSelf ≤ len) :
    calcAcov nSelf 5 len x = .error .valueError := by
  unfold calcAcov
  rw [if_pos ⟨rfl, hn, hlen⟩]

example : (∃ out, calcAcov 9 9 18 (fun i => (i : ℝ)) = .ok out) ∧
    calcAcov 5 5 18 (fun i => (i : ℝ)) = .error .valueError ∧
    calcAcov 7 7 18 (fun i => (i : ℝ)) = .error .valueError := by
  obtain ⟨out, h, -⟩ := acov_spec 9 18 (fun i => (i : ℝ)) (by omega) (by omega) (by omega) (by omega)
  exact ⟨⟨out, h⟩, acov_five_false 5 18 _ (by omega) (by omega), acov_mod4_false 7 18 _ (by omega) (by omega) (by omega)⟩

/-- **C94 is false of the code** when `n_bin` overrides the bin size of the binner: with a smaller bin
size the later rows are never written, with a larger one the call raises. -/
theorem acov_override_false (m k len : ℕ) (x : ℕ → ℝ) (hm : 0 < m) (hk : 0 < k) (hlen : 4 * k ≤ len)
    (hmk : 2 * m ≤ 8 * k + 2) :
    (len / (4 * k) < len / (4 * m) → ∃ out, calcAcov (4 * k) (4 * m) len x = .ok out ∧
      out.rows = len / (4 * m) ∧ ∀ r, len / (4 * k) ≤ r → out.row r = none) ∧
    (len / (4 * m) < len / (4 * k) → calcAcov (4 * k) (4 * m) len x = .error .indexError) := by
  have hpad : (((4 * m) / 2 : ℕ) - 2 : ℤ) = ((2 * m - 2 : ℕ) : ℤ) := by omega
  obtain ⟨m1, e1, r1, c1, a1⟩ := reshape_spec (0 : ℝ) len x (4 * k) (2 * m - 2) (by omega) (by omega) (by omega)
  obtain ⟨m2, e2, r2, c2, a2⟩ := reshape_no_pad (0 : ℝ) len x (4 * k) (by omega) (by omega)
  unfold calcAcov
  rw [if_neg (by omega), hpad, e1, e2]
  simp only [c1, c2, r1]
  constructor
  · intro h
    rw [if_neg (by omega), if_neg (by omega), if_neg (by omega)]
    refine ⟨_, rfl, rfl, fun r hr => ?_⟩
    simp only
    rw [if_neg (by omega)]
  · intro h
    by_cases h0 : len / (4 * m) = 0
    · rw [if_pos h0]
    · rw [if_neg h0, if_neg (by omega), if_pos h]

example : ∃ len, 2 * (4 * 2) ≤ len ∧ len / (4 * 2) < len / (4 * 1) := ⟨24, by decide, by decide⟩

/-- **C94** (one bin). When the data fill only one bin, samples behind it count as zero. -/
theorem acov_single (n len : ℕ) (x : ℕ → ℝ) (hn4 : 4 ≤ n) (hmod : n % 4 ≤ 1) (hn5 : n ≠ 5)
    (hlen : n ≤ len) (hlen2 : len < 2 * n) :
    ∃ out f, calcAcov n n len x = .ok out ∧ out.rows = 1 ∧ out.row 0 = some f ∧
      ∀ l < n / 4, f l = ∑ i ∈ Finset.range n,
        (if i + l < n then x (i + l) else 0) * (x i - Spec.binAvg x n 0) := by
  have hpad : ((n / 2 : ℕ) - 2 : ℤ) = ((n / 2 - 2 : ℕ) : ℤ) := by omega
  obtain ⟨m1, e1, r1, c1, a1⟩ := reshape_spec (0 : ℝ) len x n (n / 2 - 2) (by omega) (by omega) (by omega)
  obtain ⟨m2, e2, r2, c2, a2⟩ := reshape_no_pad (0 : ℝ) len x n (by omega) (by omega)
  have hrows : len / n = 1 := by
    rw [Nat.div_eq_iff (by omega)]; omega
  have hp2 : (n / 2 - 2) / 2 = n / 4 - 1 := by omega
  unfold calcAcov
  rw [if_neg (by omega), hpad, e1, e2]
  simp only [c1, c2, r1, r2, hrows]
  rw [if_neg (by omega), if_neg (by omega), if_neg (by omega)]
  refine ⟨_, _, rfl, rfl, rfl, fun l hl => ?_⟩
  rw [if_pos rfl]
  rw [r1, c1, hrows] at a1
  rw [r2, hrows] at a2
  simp only [hp2] at a1
  have hz : ∑ i ∈ Finset.range n, (m2.at_ 0 i - sliceMean (m2.at_ 0) 0 n) = 0 := by
    rw [sliceMean_zero]; exact sum_dev_zero _ (by omega) _
  rw [corr_offset n _ _ _ 0 _ hz]
  apply Finset.sum_congr rfl
  intro i hi
  have hi := Finset.mem_range.mp hi
  have hd2 : m2.at_ 0 i - sliceMean (m2.at_ 0) 0 n = x i - Spec.binAvg x n 0 := by
    rw [a2 0 i (by omega) hi, sliceMean_zero]
    unfold Spec.binAvg
    simp only [Nat.zero_mul, Nat.zero_add]
    congr 2
    refine Finset.sum_congr rfl fun j hj => ?_
    rw [a2 0 j (by omega) (Finset.mem_range.mp hj)]
    simp
  rw [hd2, sub_zero, a1 0 _ (by omega) (by omega)]
  congr 1
  by_cases h : i + l < n
  · rw [if_pos h, if_pos (by omega)]; congr 1; omega
  · rw [if_neg h, if_neg (by omega)]

/-- **C94 is false of the code** for a single bin: adding a constant to the signal changes the result. -/
theorem acov_single_false :
    let x : ℕ → ℝ := fun i => if i = 7 then 8 else 0
    (∃ out f, calcAcov 8 8 8 x = .ok out ∧ out.row 0 = some f ∧ f 1 = -8) ∧
    (∃ out f, calcAcov 8 8 8 (fun i => x i + 1) = .ok out ∧ out.row 0 = some f ∧ f 1 = -15) := by
  intro x
  constructor
  · obtain ⟨out, f, h1, -, h3, h4⟩ := acov_single 8 8 x (by omega) (by omega) (by omega) (by omega) (by omega)
    refine ⟨out, f, h1, h3, ?_⟩
    rw [h4 1 (by omega)]
    simp only [Spec.binAvg, x]
    norm_num [Finset.sum_range_succ]
  · obtain ⟨out, f, h1, -, h3, h4⟩ := acov_single 8 8 (fun i => x i + 1) (by omega) (by omega) (by omega) (by omega) (by omega)
    refine ⟨out, f, h1, h3, ?_⟩
    rw [h4 1 (by omega)]
    simp only [Spec.binAvg, x]
    norm_num [Finset.sum_range_succ]

/-! ### Cross-covariance -/

/-- Sample `i` of a series, zero outside the binned range. -/
noncomputable def Spec.padded (x : ℕ → ℝ) (tot : ℕ) (i : ℤ) : ℝ :=
  if 0 ≤ i ∧ i < tot then x i.toNat else 0

/-- **C95**. For series of equal length, bins that fill the record or have 2^k samples, and `npt` lags the entry `k` of each bin is the covariance sum with the
first series shifted by `k - (npt-1)/2` samples, zeros standing for samples outside the binned range. -/
theorem xcov_spec (n npt len : ℕ) (x y : ℕ → ℝ) (hn : 0 < n) (hlen : n ≤ len) (hp : 0 < npt)
    (hp2 : npt ≤ 2 * n)
    (hl : len < 2 ^ 53) (hb : n ∣ len ∨ ∃ k, n = 2 ^ k) :
    ∃ out dt, calcXcov n npt len len x y false = .ok (out, dt) ∧ out.rows = len / n ∧ (∀ k, dt k = k) ∧
      ∀ r, r < len / n → ∃ f, out.row r = some f ∧ ∀ k < npt, f k =
        ∑ i ∈ Finset.range n, Spec.padded x (len / n * n) (r * n + i + k - ((npt - 1) / 2 : ℕ)) *
          (y (r * n + i) - Spec.binAvg y n r) := by
  have hn1 : pairBin len len n = n := pairBin_self len n hn hlen hl hb
  have hpad : ((n : ℤ) - n + npt - 1) = ((npt - 1 : ℕ) : ℤ) := by omega
  obtain ⟨m1, e1, r1, c1, a1⟩ := reshape_spec (0 : ℝ) len x n (npt - 1) hn hlen (by omega)
  obtain ⟨m2, e2, r2, c2, a2⟩ := reshape_no_pad (0 : ℝ) len y n hn hlen
  unfold calcXcov
  simp only [hn1, hpad]
  rw [e1, e2]
  simp only [c1, c2, Nat.min_self]
  refine ⟨_, _, rfl, rfl, fun _ => rfl, fun r hr => ⟨_, if_pos hr, fun k hk => ?_⟩⟩
  simp only [Bool.false_eq_true, if_false]
  rw [r1, c1] at a1
  rw [r2] at a2
  have hz : ∑ i ∈ Finset.range n, (m2.at_ r i - sliceMean (m2.at_ r) 0 n) = 0 := by
    rw [sliceMean_zero]; exact sum_dev_zero _ hn _
  rw [corr_offset n _ _ _ 0 _ hz]
  apply Finset.sum_congr rfl
  intro i hi
  have hi := Finset.mem_range.mp hi
  have hd2 : m2.at_ r i - sliceMean (m2.at_ r) 0 n = y (r * n + i) - Spec.binAvg y n r := by
    rw [a2 r i hr hi, sliceMean_zero]
    unfold Spec.binAvg
    congr 2
    exact Finset.sum_congr rfl fun j hj => a2 r j hr (Finset.mem_range.mp hj)
  rw [hd2, sub_zero, a1 r _ hr (by omega)]
  congr 1
  unfold Spec.padded
  by_cases h : (npt - 1) / 2 ≤ r * n + (i + k) ∧ r * n + (i + k) - (npt - 1) / 2 < len / n * n
  · rw [if_pos h, if_pos]
    · congr 1
      push_cast
      omega
    · constructor
      · push_cast; omega
      · have := h.2
        zify [h.1] at this
        push_cast
        push_cast at this
        linarith
  · rw [if_neg h, if_neg]
    rintro ⟨g1, g2⟩
    apply h
    have g1' : (npt - 1) / 2 ≤ r * n + (i + k) := by
      zify
      push_cast at g1 ⊢
      linarith
    refine ⟨g1', ?_⟩
    zify [g1']
    push_cast at g2 ⊢
    linarith

/-- **C95** (one lag). With a single lag the result is the covariance sum of the two series over the bin. -/
theorem xcov_single (n len : ℕ) (x y : ℕ → ℝ) (hn : 0 < n) (hlen : n ≤ len) (hl : len < 2 ^ 53)
    (hb : n ∣ len ∨ ∃ k, n = 2 ^ k) :
    ∃ out dt, calcXcov n 1 len len x y false = .ok (out, dt) ∧
      ∀ r, r < len / n → ∃ f, out.row r = some f ∧ f 0 = Spec.covFwd x y n r 0 := by
  obtain ⟨out, dt, h1, h2, -, h3⟩ := xcov_spec n 1 len x y hn hlen (by omega) (by omega) hl hb
  refine ⟨out, dt, h1, fun r hr => ?_⟩
  obtain ⟨f, hf, hv⟩ := h3 r hr
  refine ⟨f, hf, ?_⟩
  rw [hv 0 (by omega)]
  have hz : ∑ i ∈ Finset.range n, (y (r * n + i) - Spec.binAvg y n r) = 0 :=
    sum_dev_zero n hn fun i => y (r * n + i)
  have hoff := corr_offset n (fun j => x (r * n + j)) (fun i => y (r * n + i) - Spec.binAvg y n r) 0
    (Spec.binAvg x n r) 0 hz
  unfold Spec.covFwd
  simp only [Nat.add_zero] at hoff ⊢
  rw [← hoff]
  unfold corrValid
  apply Finset.sum_congr rfl
  intro i hi
  have hi := Finset.mem_range.mp hi
  congr 1
  have hend : (r + 1) * n ≤ len / n * n := Nat.mul_le_mul_right _ hr
  rw [Nat.add_mul] at hend
  unfold Spec.padded
  rw [if_pos]
  · simp only [Nat.add_zero, sub_zero]
    congr 1
  · constructor
    · simp only [Nat.sub_self, Nat.zero_div, Nat.cast_zero, add_zero, sub_zero]; positivity
    · push_cast
      have : r * n + i < len / n * n := by omega
      have : ((r * n + i : ℕ) : ℤ) < ((len / n * n : ℕ) : ℤ) := by exact_mod_cast this
      push_cast at this
      linarith

/-- **C95** (normed). With a single lag and normalisation the result is a correlation coefficient: it lies
between -1 and 1 whenever neither series is constant in the bin. -/
theorem xcov_normed (n len : ℕ) (x y : ℕ → ℝ) (hn : 0 < n) (hlen : n ≤ len) (hl : len < 2 ^ 53)
    (hb : n ∣ len ∨ ∃ k, n = 2 ^ k) :
    ∃ out dt, calcXcov n 1 len len x y true = .ok (out, dt) ∧
      ∀ r, r < len / n → ∃ f, out.row r = some f ∧
        f 0 = Spec.covFwd x y n r 0 / (Real.sqrt (Spec.covFwd x x n r 0) * Real.sqrt (Spec.covFwd y y n r 0)) ∧
        |f 0| ≤ 1 := by
  obtain ⟨out, dt, h1, h3⟩ := xcov_single n len x y hn hlen hl hb
  have hn1 : pairBin len len n = n := pairBin_self len n hn hlen hl hb
  have hpad : ((n : ℤ) - n + (1 : ℕ) - 1) = ((1 - 1 : ℕ) : ℤ) := by omega
  obtain ⟨m1, e1, r1, c1, a1⟩ := reshape_spec (0 : ℝ) len x n (1 - 1) hn hlen (by omega)
  obtain ⟨m2, e2, r2, c2, a2⟩ := reshape_no_pad (0 : ℝ) len y n hn hlen
  unfold calcXcov at h1 ⊢
  simp only [hn1, hpad] at h1 ⊢
  rw [e1, e2] at h1 ⊢
  simp only [c1, c2, Nat.min_self, Bool.false_eq_true, if_false, if_true] at h1 ⊢
  refine ⟨_, _, rfl, fun r hr => ⟨_, if_pos hr, ?_⟩⟩
  obtain ⟨f, hf, hv⟩ := h3 r hr
  obtain ⟨rfl, -⟩ := Prod.mk.inj (Except.ok.inj h1)
  simp only [if_pos hr] at hf
  have hf := Option.some.inj hf
  have hv0 := congrFun hf 0
  rw [hv] at hv0
  rw [hv0]
  have hnr : (0 : ℝ) < n := by exact_mod_cast hn
  have hvar : ∀ z : ℕ → ℝ, ∑ i ∈ Finset.range n, (z (r * n + i) - sliceMean (fun j => z (r * n + j)) 0 n) ^ 2 =
      Spec.covFwd z z n r 0 := by
    intro z
    unfold Spec.covFwd Spec.binAvg
    rw [sliceMean_zero]
    exact Finset.sum_congr rfl fun i _ => by rw [Nat.add_zero, sq]
  rw [hvar, hvar]
  have hx0 : 0 ≤ Spec.covFwd x x n r 0 := by rw [← hvar]; positivity
  have hy0 : 0 ≤ Spec.covFwd y y n r 0 := by rw [← hvar]; positivity
  have hden : √(Spec.covFwd x x n r 0 / n) * √(Spec.covFwd y y n r 0 / n) * n =
      √(Spec.covFwd x x n r 0) * √(Spec.covFwd y y n r 0) := by
    rw [Real.sqrt_div hx0, Real.sqrt_div hy0, div_mul_div_comm, Real.mul_self_sqrt hnr.le]
    field_simp
  rw [hden]
  refine ⟨rfl, ?_⟩
  rw [← Real.sqrt_mul hx0, abs_div, abs_of_nonneg (Real.sqrt_nonneg _)]
  apply div_le_one_of_le₀ _ (Real.sqrt_nonneg _)
  apply Real.abs_le_sqrt
  have := Finset.sum_mul_sq_le_sq_mul_sq (Finset.range n) (fun i => x (r * n + i) - Spec.binAvg x n r)
    (fun i => y (r * n + i) - Spec.binAvg y n r)
  have cx : ∀ z : ℕ → ℝ, Spec.covFwd z z n r 0 = ∑ i ∈ Finset.range n, (z (r * n + i) - Spec.binAvg z n r) ^ 2 := by
    intro z
    unfold Spec.covFwd
    exact Finset.sum_congr rfl fun i _ => by rw [Nat.add_zero, sq]
  rw [cx x, cx y]
  exact this

/-- **C95 is false of the code**: the lags are numbered from 0, but with three lags the one called 0 is the
covariance with the samples one step *earlier*. -/
theorem xcov_label_false (x y : ℕ → ℝ) (len : ℕ) (hlen : 12 ≤ len) (hl : len < 2 ^ 53) :
    ∃ out dt, calcXcov 4 3 len len x y false = .ok (out, dt) ∧ dt 0 = 0 ∧
      ∃ f, out.row 1 = some f ∧ f 0 = Spec.covBwd x y 4 1 1 := by
  obtain ⟨out, dt, h1, h2, hd, h3⟩ := xcov_spec 4 3 len x y (by omega) (by omega) (by omega) (by omega) hl
    (.inr ⟨2, by norm_num⟩)
  obtain ⟨f, hf, hv⟩ := h3 1 (by omega)
  refine ⟨out, dt, h1, hd 0, f, hf, ?_⟩
  · rw [hv 0 (by omega)]
    have hz : ∑ i ∈ Finset.range 4, (y (1 * 4 + i) - Spec.binAvg y 4 1) = 0 :=
      sum_dev_zero 4 (by omega) fun i => y (1 * 4 + i)
    have hoff := corr_offset 4 (fun j => x (1 * 4 + j - 1)) (fun i => y (1 * 4 + i) - Spec.binAvg y 4 1) 0
      (Spec.binAvg x 4 1) 0 hz
    unfold Spec.covBwd
    simp only [Nat.add_zero] at hoff ⊢
    rw [← hoff]
    unfold corrValid
    apply Finset.sum_congr rfl
    intro i hi
    have hi := Finset.mem_range.mp hi
    congr 1
    unfold Spec.padded
    rw [if_pos (by push_cast; omega)]
    simp only [Nat.add_zero, sub_zero]
    congr 1
    push_cast
    omega

example : ∃ len, 12 ≤ len ∧ len < 2 ^ 53 ∧ 4 ∣ len := ⟨100, by decide⟩

/-- **C95 is false of the code** also for one lag: the bin size of the first series is computed in floating point
and comes out one short for some lengths (`pairBin_short`). Then the first series is taken `r` samples too early in
bin `r`. -/
theorem xcov_drift_false (n len : ℕ) (x y : ℕ → ℝ) (hn : 2 ≤ n) (hlen : n ≤ len) (hs : pairBin len len n = n - 1) :
    ∃ out dt, calcXcov n 1 len len x y false = .ok (out, dt) ∧ out.rows = len / n ∧
      ∀ r, r < len / n → ∃ f, out.row r = some f ∧ f 0 =
        ∑ i ∈ Finset.range n, Spec.padded x (len / (n - 1) * (n - 1)) (r * n + i - r) *
          (y (r * n + i) - Spec.binAvg y n r) := by
  obtain ⟨m1, e1, r1, c1, a1⟩ := reshape_spec (0 : ℝ) len x (n - 1) 1 (by omega) (by omega) (by omega)
  obtain ⟨m2, e2, r2, c2, a2⟩ := reshape_no_pad (0 : ℝ) len y n (by omega) (by omega)
  have hpad : ((n : ℤ) - ((n - 1 : ℕ) : ℤ) + ((1 : ℕ) : ℤ) - 1) = ((1 : ℕ) : ℤ) := by omega
  have hrows : len / n ≤ len / (n - 1) := Nat.div_le_div_left (by omega) (by omega)
  unfold calcXcov
  simp only [hs, hpad]
  rw [e1, e2]
  simp only [c1, c2]
  rw [Nat.min_eq_right hrows]
  refine ⟨_, _, rfl, rfl, fun r hr => ⟨_, if_pos hr, ?_⟩⟩
  simp only [Bool.false_eq_true, if_false]
  rw [r1, c1] at a1
  rw [r2] at a2
  have hz : ∑ i ∈ Finset.range n, (m2.at_ r i - sliceMean (m2.at_ r) 0 n) = 0 := by
    rw [sliceMean_zero]; exact sum_dev_zero _ (by omega) _
  rw [corr_offset n _ _ _ 0 _ hz]
  apply Finset.sum_congr rfl
  intro i hi
  have hi := Finset.mem_range.mp hi
  have hd2 : m2.at_ r i - sliceMean (m2.at_ r) 0 n = y (r * n + i) - Spec.binAvg y n r := by
    rw [a2 r i hr hi, sliceMean_zero]
    unfold Spec.binAvg
    congr 2
    exact Finset.sum_congr rfl fun j hj => a2 r j hr (Finset.mem_range.mp hj)
  rw [hd2, sub_zero, a1 r _ (by omega) (by omega)]
  congr 1
  have e : (r : ℤ) * n + i - r = ((r * (n - 1) + i : ℕ) : ℤ) := by
    obtain ⟨k, rfl⟩ : ∃ k, n = k + 1 := ⟨n - 1, by omega⟩
    rw [Nat.add_sub_cancel]
    push_cast
    ring
  unfold Spec.padded
  rw [e]
  by_cases h : r * (n - 1) + i < len / (n - 1) * (n - 1)
  · rw [if_pos ⟨by omega, by simpa using h⟩, if_pos ⟨by omega, by exact_mod_cast h⟩, Int.toNat_natCast]
    rfl
  · rw [if_neg (fun hc => h (by simpa using hc.2)), if_neg (fun hc => h (by exact_mod_cast hc.2))]

/-- A single spike, correlated with itself: in bin 63 its variance sum is 1499/1500, the code gives −1/1500. -/
theorem xcov_drift_witness :
    let x : ℕ → ℝ := fun i => if i = 94600 then 1 else 0
    Spec.covFwd x x 1500 63 0 = 1499 / 1500 ∧
      ∃ out dt f, calcXcov 1500 1 96006 96006 x x false = .ok (out, dt) ∧ out.row 63 = some f ∧ f 0 = -1 / 1500 := by
  intro x
  have havg : Spec.binAvg x 1500 63 = 1 / 1500 := by
    unfold Spec.binAvg
    simp only [x]
    rw [Finset.sum_eq_single 100]
    · norm_num
    · intro b _ hb
      rw [if_neg (by omega)]
    · intro h; exact absurd (Finset.mem_range.mpr (by omega)) h
  have hz : ∑ i ∈ Finset.range 1500, (x (63 * 1500 + i) - Spec.binAvg x 1500 63) = 0 :=
    sum_dev_zero 1500 (by omega) fun i => x (63 * 1500 + i)
  constructor
  · have hoff := corr_offset 1500 (fun j => x (63 * 1500 + j)) (fun i => x (63 * 1500 + i) - Spec.binAvg x 1500 63) 0
      (Spec.binAvg x 1500 63) 0 hz
    unfold corrValid at hoff
    unfold Spec.covFwd
    simp only [Nat.add_zero] at hoff ⊢
    rw [← hoff, Finset.sum_eq_single 100]
    · rw [havg]; simp only [x]; norm_num
    · intro b _ hb
      simp only [x]
      rw [if_neg (by omega), sub_zero, zero_mul]
    · intro h; exact absurd (Finset.mem_range.mpr (by omega)) h
  · obtain ⟨out, dt, h1, -, h2⟩ := xcov_drift_false 1500 96006 x x (by omega) (by omega) pairBin_short
    obtain ⟨f, hf, hv⟩ := h2 63 (by norm_num)
    refine ⟨out, dt, f, h1, hf, ?_⟩
    rw [hv, Finset.sum_eq_single 163]
    · rw [havg]; simp only [x, Spec.padded]; norm_num
      rfl
    · intro b _ hb
      have hz : Spec.padded x (96006 / (1500 - 1) * (1500 - 1)) (((63 : ℕ) : ℤ) * ((1500 : ℕ) : ℤ) + b - ((63 : ℕ) : ℤ)) = 0 := by
        unfold Spec.padded
        simp only [x]
        split_ifs with g1 g2
        · exfalso; push_cast at g2; omega
        · rfl
        · rfl
      rw [hz, zero_mul]
    · intro h; exact absurd (Finset.mem_range.mpr (by omega)) h

end Dolfyn
