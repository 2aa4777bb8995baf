import Verif.Model.Csd
import Verif.Props.Cov
import Verif.Props.Motion

/-!
Properties of binned coherences and cross spectra: C96.
-/

namespace Dolfyn

/-- Bin `r` of `n` samples with half of `nf` further samples on either side; zeros outside the binned
range. -/
noncomputable def Spec.window (x : ℕ → ℝ) (len n nf r : ℕ) : List ℝ :=
  (List.range (n + nf)).map fun j : ℕ => Spec.padded x (len / n * n) (r * n + j - (nf / 2 : ℕ))

theorem reshape_window (len n nf : ℕ) (x : ℕ → ℝ) (hn : 0 < n) (hlen : n ≤ len) (hnf : nf ≤ 2 * n) :
    ∃ m, reshape (0 : ℝ) len x n nf = .ok m ∧ m.rows = len / n ∧
      ∀ r < len / n, m.row r = Spec.window x len n nf r := by
  obtain ⟨m, h1, h2, h3, h4⟩ := reshape_spec (0 : ℝ) len x n nf hn hlen hnf
  refine ⟨m, h1, h2, fun r hr => ?_⟩
  unfold Mat2.row Spec.window
  rw [h3]
  apply List.map_congr_left
  intro j hj
  rw [h4 r j (by rw [h2]; exact hr) (by rw [h3]; exact List.mem_range.mp hj)]
  unfold Spec.padded
  by_cases h : nf / 2 ≤ r * n + j ∧ r * n + j - nf / 2 < len / n * n
  · rw [if_pos h, if_pos]
    · congr 1; omega
    · refine ⟨?_, ?_⟩
      · have := h.1; zify at this; push_cast at this ⊢; linarith
      · have := h.2; zify [h.1] at this; push_cast at this ⊢; linarith
  · rw [if_neg h, if_neg]
    rintro ⟨g1, g2⟩
    apply h
    have g1' : nf / 2 ≤ r * n + j := by zify; push_cast at g1 ⊢; linarith
    refine ⟨g1', ?_⟩
    zify [g1']
    push_cast at g2 ⊢
    linarith

theorem assignRow_ok {β : Type*} (cols : ℕ) (v : List β) (h : v.length = cols) : assignRow cols v = .ok v := by
  unfold assignRow; rw [if_pos h]

theorem mapM_ok_eq {α β : Type*} (f : α → Except Err β) (g : α → β) :
    ∀ l : List α, (∀ a ∈ l, f a = .ok (g a)) → l.mapM f = .ok (l.map g)
  | [], _ => rfl
  | a :: l, h => by
    rw [List.mapM_cons, h a (by simp), mapM_ok_eq f g l fun b hb => h b (by simp [hb])]
    rfl

/-- The bins of a coherence or phase angle, for the size of the first series' bins that the code arrives at. -/
theorem coh_bins {β : Type*} (est : List ℝ → List ℝ → ℕ → List β) (n nf c len n1 : ℕ) (nFft : Option ℕ)
    (x1 x2 : ℕ → ℝ) (hn : 0 < n) (hlen : n ≤ len) (hc : 0 < c) (hnf : nFft.getD nf ≤ n) (hcn : c * n < 2 ^ 51)
    (hl : len < 2 ^ 53) (hp : pairBin (c * len) len n = n1) (hest : ∀ a b, (est a b (nFft.getD nf)).length = nFft.getD nf / 2) :
    calcCoh est n nf none nFft (c * len) len x1 x2 =
      if nFft.getD nf / 2 = nf / 2 then .ok ((List.range (len / n)).map fun r =>
        est (Spec.window x1 (c * len) n1 (nFft.getD nf) r) (Spec.window x2 len n (nFft.getD nf) r) (nFft.getD nf), nf / 2)
      else .error .valueError := by
  obtain ⟨p1, p2, p3, p4, p5⟩ := pairBin_rows c len n hn hlen hc hcn hl
  rw [hp] at p1 p2 p3 p4 p5
  have hcn : n ≤ c * n := Nat.le_mul_of_pos_left _ hc
  have hcl : len ≤ c * len := Nat.le_mul_of_pos_left _ hc
  have hcc : c * n ≤ c * len := Nat.mul_le_mul_left _ hlen
  obtain ⟨m1, e1, r1, w1⟩ := reshape_window (c * len) n1 (nFft.getD nf) x1 p1 (by omega) (by omega)
  obtain ⟨m2, e2, r2, w2⟩ := reshape_window len n (nFft.getD nf) x2 hn hlen (by omega)
  unfold calcCoh
  rw [if_neg (by omega)]
  simp only [Option.getD_none, hp, Nat.min_eq_right p5, Nat.min_eq_left hnf]
  rw [e1, e2]
  simp only
  rw [mapM_ok_eq _ (fun r => est (Spec.window x1 (c * len) n1 (nFft.getD nf) r) (Spec.window x2 len n (nFft.getD nf) r)
    (nFft.getD nf))]
  · intro r hr'
    have hr' := List.mem_range.mp hr'
    rw [w1 r (by omega), w2 r hr', assignRow_ok _ _ (hest _ _)]

/-- **C96** (coherence, phase angle). When the first series has `c` samples for each sample of the second,
bin `r` of the result compares the `c·n` samples from sample `r·c·n` of the first with the `n` samples from
sample `r·n` of the second: the same span of time. Proved for bins that fill the record or have 2^k samples. -/
theorem coh_same_span {β : Type*} (est : List ℝ → List ℝ → ℕ → List β) (n nf c len : ℕ) (x1 x2 : ℕ → ℝ)
    (hn : 0 < n) (hlen : n ≤ len) (hc : 0 < c) (hnf : nf ≤ n)
    (hest : ∀ a b, (est a b nf).length = nf / 2) (hcn : c * n < 2 ^ 51) (hcl : c * len < 2 ^ 53)
    (hb : n ∣ len ∨ ∃ k, n = 2 ^ k) :
    calcCoh est n nf none none (c * len) len x1 x2 =
      .ok ((List.range (len / n)).map fun r =>
        est (Spec.window x1 (c * len) (c * n) nf r) (Spec.window x2 len n nf r) nf, nf / 2) := by
  have := coh_bins est n nf c len (c * n) none x1 x2 hn hlen hc hnf hcn
    (lt_of_le_of_lt (Nat.le_mul_of_pos_left _ hc) hcl) (pairBin_rate c len n hn hlen hc hcl hb) hest
  rw [this]
  exact if_pos rfl

/-- **C96 is false of the code** for other bins: the bin size of the first series is computed in floating point, and
where it comes out one sample short, bin `r` of two series of one length compares samples that are `r` apart; the
end of the first series has no influence. -/
theorem coh_drift_false {β : Type*} (est : List ℝ → List ℝ → ℕ → List β) (n nf len : ℕ) (x1 x2 : ℕ → ℝ)
    (hn : 2 ≤ n) (hlen : n ≤ len) (hnf : nf ≤ n) (hest : ∀ a b, (est a b nf).length = nf / 2) (hn2 : n < 2 ^ 51)
    (hl : len < 2 ^ 53) (hs : pairBin len len n = n - 1) :
    calcCoh est n nf none none len len x1 x2 =
      .ok ((List.range (len / n)).map fun r =>
        est (Spec.window x1 len (n - 1) nf r) (Spec.window x2 len n nf r) nf, nf / 2) ∧
      ∀ x1', (∀ i, i + len / n < len + (nf + 1) / 2 → x1 i = x1' i) →
        calcCoh est n nf none none len len x1 x2 = calcCoh est n nf none none len len x1' x2 := by
  have key : ∀ x1, calcCoh est n nf none none len len x1 x2 =
      .ok ((List.range (len / n)).map fun r =>
        est (Spec.window x1 len (n - 1) nf r) (Spec.window x2 len n nf r) nf, nf / 2) := by
    intro x1
    have := coh_bins est n nf 1 len (n - 1) none x1 x2 (by omega) hlen (by omega) hnf (by omega) hl
      (by rw [one_mul]; exact hs) hest
    rw [one_mul] at this
    rw [this]
    exact if_pos rfl
  refine ⟨key x1, fun x1' hx => ?_⟩
  rw [key x1, key x1']
  congr 2
  apply List.map_congr_left
  intro r hr
  have hr := List.mem_range.mp hr
  congr 1
  unfold Spec.window
  apply List.map_congr_left
  intro j hj
  have hj := List.mem_range.mp hj
  unfold Spec.padded
  split
  · rename_i hc
    apply hx
    have hq := Nat.div_mul_le_self len n
    generalize len / n = q at *
    have h2 : q * (n - 1) + q ≤ len := by
      obtain ⟨k, rfl⟩ : ∃ k, n = k + 1 := ⟨n - 1, by omega⟩
      rw [Nat.add_sub_cancel]
      linarith [Nat.mul_succ q k]
    have h1 : (r + 1) * (n - 1) ≤ q * (n - 1) := Nat.mul_le_mul_right _ hr
    rw [Nat.add_mul, one_mul] at h1
    have h4 : (r : ℤ) * ((n - 1 : ℕ) : ℤ) = ((r * (n - 1) : ℕ) : ℤ) := by push_cast; rfl
    rw [h4]
    generalize r * (n - 1) = u at *
    generalize q * (n - 1) = w at *
    omega
  · rfl

/-- **C96 is false of the code**: asking `calc_coh` for an FFT size that gives a different number of
frequencies than the binner's own raises. -/
theorem coh_nfft_false {β : Type*} (est : List ℝ → List ℝ → ℕ → List β) (n nf nf' len : ℕ) (x1 x2 : ℕ → ℝ)
    (hn : 0 < n) (hlen : n ≤ len) (hnf : nf' ≤ n) (hne : nf' / 2 ≠ nf / 2) (hn2 : n < 2 ^ 51) (hl : len < 2 ^ 53)
    (hest : ∀ a b, (est a b nf').length = nf' / 2) :
    calcCoh est n nf none (some nf') len len x1 x2 = .error .valueError := by
  have := coh_bins est n nf 1 len _ (some nf') x1 x2 hn hlen (by omega) hnf (by omega) hl rfl hest
  rw [one_mul] at this
  rw [this]
  exact if_neg hne

/-- **C96** (cross spectra, partial). For series of equal length bin `r` of the result is the cross
spectrum of bin `r` of both. -/
theorem csd_same_span_partial {β : Type*} (cross quasi : List ℝ → List ℝ → ℕ → List β) (n nf len : ℕ)
    (x1 x2 : ℕ → ℝ) (hn : 0 < n) (hlen : n ≤ len) (hnf : nf ≤ n)
    (hest : ∀ a b, (cross a b nf).length = nf / 2) (hn2 : n < 2 ^ 51) (hl : len < 2 ^ 53) :
    calcCsd cross quasi n nf none none len len x1 x2 =
      .ok ((List.range (len / n)).map fun r =>
        cross (Spec.window x1 len n nf r) (Spec.window x2 len n nf r) nf) := by
  have hp := (pairBin_rows 1 len n hn hlen (by omega) (by omega) hl).2.2.2.2
  rw [one_mul] at hp
  obtain ⟨m1, e1, r1, w1⟩ := reshape_window len n nf x1 hn hlen (by omega)
  obtain ⟨m2, e2, r2, w2⟩ := reshape_window len n nf x2 hn hlen (by omega)
  unfold calcCsd
  simp only [Option.getD_none, Nat.min_eq_right hp, Nat.min_eq_left hnf]
  rw [e1, e2]
  simp only
  apply mapM_ok_eq
  intro r hr'
  have hr' := List.mem_range.mp hr'
  rw [if_pos ⟨by omega, by omega⟩, if_pos (by rw [r1, r2]), w1 r hr', w2 r hr', assignRow_ok _ _ (hest _ _)]

/-- What the code computes when the first series has `c` samples for each of the second: bins of the same
number of samples are compared, not of the same duration. -/
theorem csd_rates {β : Type*} (cross quasi : List ℝ → List ℝ → ℕ → List β) (n nf c len : ℕ)
    (x1 x2 : ℕ → ℝ) (hn : 0 < n) (hlen : n ≤ len) (hc : 2 ≤ c) (hnf : nf ≤ n)
    (hest : ∀ a b, (quasi a b nf).length = nf / 2) (hcn : c * n < 2 ^ 51) (hl : len < 2 ^ 53) :
    calcCsd cross quasi n nf none none (c * len) len x1 x2 =
      .ok ((List.range (len / n)).map fun r =>
        quasi (Spec.window x1 (c * len) n nf r) (Spec.window x2 len n nf r) nf) := by
  have hp := (pairBin_rows c len n hn hlen (by omega) hcn hl).2.2.2.2
  have hcl : 2 * len ≤ c * len := Nat.mul_le_mul_right _ hc
  obtain ⟨m1, e1, r1, w1⟩ := reshape_window (c * len) n nf x1 hn (by omega) (by omega)
  obtain ⟨m2, e2, r2, w2⟩ := reshape_window len n nf x2 hn hlen (by omega)
  have hmore : len / n < c * len / n := by
    have h1 : 1 ≤ len / n := (Nat.one_le_div_iff hn).mpr hlen
    have h2 : 2 * (len / n) ≤ c * len / n := by
      rw [Nat.le_div_iff_mul_le hn]
      have := Nat.div_mul_le_self len n
      nlinarith
    omega
  unfold calcCsd
  simp only [Option.getD_none, Nat.min_eq_right hp, Nat.min_eq_left hnf]
  rw [e1, e2]
  simp only
  apply mapM_ok_eq
  intro r hr'
  have hr' := List.mem_range.mp hr'
  rw [if_pos ⟨by omega, by omega⟩, if_neg (by rw [r1, r2]; omega), w1 r (by omega), w2 r hr',
    assignRow_ok _ _ (hest _ _)]

/-- **C96 is false of the code** for cross spectra of series with different rates: whatever the first
series does after its first `len + nf/2 + 1` of `c·len` samples has no influence on the result. -/
theorem csd_rates_false {β : Type*} (cross quasi : List ℝ → List ℝ → ℕ → List β) (n nf c len : ℕ)
    (x1 x1' x2 : ℕ → ℝ) (hn : 0 < n) (hlen : n ≤ len) (hc : 2 ≤ c) (hnf : nf ≤ n)
    (hest : ∀ a b, (quasi a b nf).length = nf / 2) (hcn : c * n < 2 ^ 51) (hl : len < 2 ^ 53) (hx : ∀ i ≤ len + nf / 2, x1 i = x1' i) :
    calcCsd cross quasi n nf none none (c * len) len x1 x2 =
      calcCsd cross quasi n nf none none (c * len) len x1' x2 := by
  rw [csd_rates cross quasi n nf c len x1 x2 hn hlen hc hnf hest hcn hl,
    csd_rates cross quasi n nf c len x1' x2 hn hlen hc hnf hest hcn hl]
  congr 1
  apply List.map_congr_left
  intro r hr
  have hr := List.mem_range.mp hr
  congr 1
  unfold Spec.window
  apply List.map_congr_left
  intro j hj
  have hj := List.mem_range.mp hj
  unfold Spec.padded
  split
  · apply hx
    have h1 : (r + 1) * n ≤ len / n * n := Nat.mul_le_mul_right _ hr
    have h2 := Nat.div_mul_le_self len n
    rw [Nat.add_mul] at h1
    have h3 : ((r * n + j : ℕ) : ℤ) ≤ ((len + nf : ℕ) : ℤ) := by exact_mod_cast (by omega)
    have : (r : ℤ) * n + j - (nf / 2 : ℕ) ≤ (len + nf / 2 : ℕ) + 1 := by
      push_cast at h3 ⊢
      omega
    by_cases hlt : (r : ℤ) * n + j - (nf / 2 : ℕ) ≤ (len + nf / 2 : ℕ)
    · omega
    · -- the last entry of the window
      exfalso
      apply hlt
      have h4 : ((r * n + j : ℕ) : ℤ) + 1 ≤ ((len + nf : ℕ) : ℤ) := by exact_mod_cast (by omega)
      push_cast at h4 ⊢
      omega
  · rfl

/-- Sizes as in the theorems. -/
example : ∃ n nf c len : ℕ, 0 < n ∧ n ≤ len ∧ 2 ≤ c ∧ nf ≤ n ∧ len + nf / 2 < c * len ∧ len / n = 3 ∧ c * n < 2 ^ 51 ∧
    c * len < 2 ^ 53 ∧ n ∣ len := ⟨100, 20, 2, 300, by decide⟩

/-- Sizes with the drift; the last 14 samples of the first series are ignored. -/
example : ∃ n nf len : ℕ, 2 ≤ n ∧ n ≤ len ∧ nf ≤ n ∧ n < 2 ^ 51 ∧ len < 2 ^ 53 ∧ len / n = 64 ∧ nf = 100 ∧
    len + (nf + 1) / 2 - len / n = len - 14 ∧ pairBin len len n = n - 1 :=
  ⟨1500, 100, 96006, by norm_num, by norm_num, by norm_num, by norm_num, by norm_num, by norm_num, rfl, by norm_num,
    pairBin_short⟩

end Dolfyn
