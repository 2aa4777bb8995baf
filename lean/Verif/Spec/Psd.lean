import Verif.Model.Psd

/-! Specification vocabulary for spectra. -/

namespace Dolfyn

/-- The average over the segments starting at `starts` of the one-sided cross periodogram
`2 X_a conj(X_b) / (fs Σ w²)`. -/
noncomputable def Spec.welch (starts : List ℕ) (a b : ℕ → ℝ) (n : ℕ) (w : ℕ → ℝ) (fs : ℝ) (k : ℕ) : ℂ :=
  (starts.map fun i => 2 * (segFft a i n w k * (starRingEnd ℂ) (segFft b i n w k)) /
    ((fs * ∑ t ∈ Finset.range n, w t ^ 2 : ℝ) : ℂ)).sum / starts.length

/-- The average over the segments of the unit phasor of the cross spectrum of the segment
(phase of `b` relative to `a`). -/
noncomputable def Spec.meanPhase (starts : List ℕ) (a b : ℕ → ℝ) (n : ℕ) (w : ℕ → ℝ) (k : ℕ) : ℂ :=
  (starts.map fun i => (starRingEnd ℂ) (segFft a i n w k) * segFft b i n w k /
    ((‖segFft a i n w k‖ * ‖segFft b i n w k‖ : ℝ) : ℂ)).sum / starts.length

end Dolfyn
