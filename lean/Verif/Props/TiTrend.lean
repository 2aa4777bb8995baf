import Verif.Props.FiveTilt
import Verif.Props.TurbMore

/-!
C73: turbulence intensity of bins from which the trend has been removed.
-/

namespace Dolfyn

open Finset

/-- Variance about the line that fits the bin best. -/
noncomputable def Spec.trendVar (n : ℕ) (x : ℕ → ℝ) (r : ℕ) : ℝ :=
  (∑ j ∈ range n, Spec.noTrend n (fun i => x (r * n + i)) j ^ 2) / n

/-- **C73 with `detrend=True`.** For a complete record every bin gets the root mean square about the line that fits its own
samples best, less the noise, over their mean; it gets no value when the mean is zero or when the variance is below that
of the noise. -/
theorem ti_trend (b : Binner) (n len : ℕ) (hb : b.nBin = n) (hn : 2 ≤ n) (hlen : n ≤ len) (noise th : ℝ) (x : ℕ → ℝ) :
    calcTi b true noise th true len (fun i => some (x i)) = .ok ((List.range (len / n)).map fun r =>
      if Spec.trendVar n x r < noise ^ 2 ∨ Spec.mean n (fun j => x (r * n + j)) = 0 then none
      else some (Real.sqrt (Spec.trendVar n x r - noise ^ 2) / Spec.mean n fun j => x (r * n + j))) := by
  have hn0 : 0 < n := by omega
  obtain ⟨m, h1, h2, h3, h4⟩ := fluct_complete b n len hb hn hlen x
  obtain ⟨m', g1, g2, g3⟩ := row_eq_samples (some 0) len (fun i => some (x i)) n hn0 hlen
  have hmean : binMean b len (fun i => some (x i)) none =
      .ok ((List.range (len / n)).map fun r => some (Spec.mean n fun j => x (r * n + j))) := by
    unfold binMean parseNbin
    rw [Option.getD_none, hb, g1]
    simp only [Except.map, g2]
    congr 1
    apply List.map_congr_left
    intro r hr
    rw [g3 r (List.mem_range.mp hr)]
    exact nanmean_some n hn0 fun j => x (r * n + j)
  have hprod : rowProd m m = (List.range (len / n)).map fun r => some (Spec.trendVar n x r) := by
    unfold rowProd
    rw [h2, h3]
    apply List.map_congr_left
    intro r hr
    have : vals n (fun j => opt2 (· * ·) (m.at_ r j) (m.at_ r j)) = vals n (fun j => some
        (Spec.noTrend n (fun i => x (r * n + i)) j ^ 2)) := by
      unfold vals
      apply List.map_congr_left
      intro j hj
      rw [h4 r (List.mem_range.mp hr) j (List.mem_range.mp hj), pow_two]
      rfl
    rw [this, nanmean_some n hn0]
    rfl
  unfold calcTi
  rw [if_neg (by simp), h1, hmean]
  simp only [bind, Except.bind, pure, Except.pure, hprod, subNoise, List.map_map]
  congr 1
  rw [List.zipWith_map_left, List.zipWith_map_right, List.zipWith_self]
  apply List.map_congr_left
  intro r hr
  simp only [Function.comp_apply, Option.map_some, Option.bind_some, npSqrt]
  by_cases hv : Spec.trendVar n x r < noise ^ 2
  · rw [if_pos (Or.inl hv), if_pos (sub_neg.mpr hv)]
    unfold npDiv
    split <;> simp_all
  · rw [if_neg (not_lt.mpr (sub_nonneg.mpr (not_lt.mp hv)))]
    by_cases hm : Spec.mean n (fun j => x (r * n + j)) = 0
    · rw [if_pos (Or.inr hm)]
      simp only [npDiv, if_pos hm]
    · rw [if_neg (not_or.mpr ⟨hv, hm⟩)]
      simp only [npDiv, if_neg hm]

/-- A bin whose samples lie on a line has no turbulence; about the mean it has. -/
example : Spec.trendVar 4 (fun i => 1 + i) 0 = 0 ∧ Spec.binCov 4 (fun i => 1 + i) (fun i => 1 + i) 0 = 5 / 4 := by
  constructor
  · norm_num [Spec.trendVar, Spec.noTrend, Spec.mean, sum_range_succ]
  · norm_num [Spec.binCov, Spec.cov, Spec.mean, sum_range_succ]

end Dolfyn
