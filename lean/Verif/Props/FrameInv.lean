import Verif.Props.FiveTilt
import Verif.Props.VelPsd
import Verif.Props.RotateMore

/-! C139: turbulent energy and the sum of the velocity spectra do not depend on the frame. -/

namespace Dolfyn

open Finset Spec

/-! ### Reynolds stresses in a turned frame -/

/-- `S` collects the results of the variance and stress functions for bin `r`. -/
structure Spec.Tensor (tke stress : Fin 3 → List (Option ℝ)) (r : ℕ) (S : M3) : Prop where
  diag : ∀ i, (tke i)[r]? = some (some (S i i))
  uv : (stress 0)[r]? = some (some (S 0 1))
  uw : (stress 1)[r]? = some (some (S 0 2))
  vw : (stress 2)[r]? = some (some (S 1 2))
  symm : S.transpose = S

/-- Fluctuations about the mean of the bin. -/
theorem fluct_demean (b : Binner) (n len : ℕ) (hb : b.nBin = n) (hn : 0 < n) (hlen : n ≤ len)
    (x : ℕ → ℝ) : ∃ m, fluct b false len (fun i => some (x i)) = .ok m ∧ m.rows = len / n ∧
      m.cols = n ∧ ∀ r < len / n, ∀ j < n,
        m.at_ r j = some (x (r * n + j) - Spec.mean n fun i => x (r * n + i)) := by
  obtain ⟨m, h1, h2, h3, h4⟩ := reshape_no_pad (some 0) len (fun i => some (x i)) n hn hlen
  unfold fluct
  rw [hb, h1]
  refine ⟨_, rfl, h2, h3, fun r hr j hj => ?_⟩
  have hrow : m.row r = vals n fun j => some (x (r * n + j)) := by
    unfold Mat2.row vals
    rw [h3]
    apply List.map_congr_left
    intro i hi
    exact h4 r i (by omega) (List.mem_range.mp hi)
  simp only [Bool.false_eq_true, if_false]
  rw [hrow, nanmean_some n hn, h4 r j (by omega) hj]
  rfl

/-- The fluctuations of one bin: about the least-squares line or about the mean. -/
noncomputable def Spec.fluctVal (dt : Bool) (n : ℕ) (v : ℕ → ℝ) (j : ℕ) : ℝ :=
  if dt then Spec.noTrend n v j else v j - Spec.mean n v

theorem fluct_vals (dt : Bool) (b : Binner) (n len : ℕ) (hb : b.nBin = n) (hn : 2 ≤ n)
    (hlen : n ≤ len) (x : ℕ → ℝ) : ∃ m, fluct b dt len (fun i => some (x i)) = .ok m ∧
      m.rows = len / n ∧ m.cols = n ∧ ∀ r < len / n, ∀ j < n,
        m.at_ r j = some (Spec.fluctVal dt n (fun i => x (r * n + i)) j) := by
  cases dt with
  | true => exact fluct_complete b n len hb hn hlen x
  | false => exact fluct_demean b n len hb (by omega) hlen x

/-- Second moments of the fluctuations of bin `r`. -/
noncomputable def Spec.stressOf (dt : Bool) (n : ℕ) (x : Fin 3 → ℕ → ℝ) (r : ℕ) : M3 :=
  Matrix.of fun k l => (∑ j ∈ range n, Spec.fluctVal dt n (fun i => x k (r * n + i)) j *
    Spec.fluctVal dt n (fun i => x l (r * n + i)) j) / n

/-- The variances and stresses of a complete record form the matrix of second moments. -/
theorem tke_stress_tensor (b : Binner) (n len : ℕ) (hb : b.nBin = n) (hn : 2 ≤ n) (hlen : n ≤ len)
    (dt : Bool) (x : Fin 3 → ℕ → ℝ) :
    ∃ tke stress, calcTke b true none dt len (fun i t => some (x i t)) = .ok tke ∧
      calcStress b dt len (fun i t => some (x i t)) = .ok stress ∧
      (∀ i, (tke i).length = len / n) ∧ (∀ i, (stress i).length = len / n) ∧
      ∀ r < len / n, Spec.Tensor tke stress r (Spec.stressOf dt n x r) := by
  have hn0 : 0 < n := by omega
  obtain ⟨f0, a1, a2, a3, a4⟩ := fluct_vals dt b n len hb hn hlen (x 0)
  obtain ⟨f1, b1, b2, b3, b4⟩ := fluct_vals dt b n len hb hn hlen (x 1)
  obtain ⟨f2, c1, c2, c3, c4⟩ := fluct_vals dt b n len hb hn hlen (x 2)
  have hlen' : ∀ {f g : Mat2 (Option ℝ)}, f.rows = len / n → (rowProd f g).length = len / n := by
    intro f g hf
    simp [rowProd, hf]
  have key : ∀ {f g : Mat2 (Option ℝ)} {p q : Fin 3}, f.rows = len / n → f.cols = n →
      (∀ r < len / n, ∀ j < n,
        f.at_ r j = some (Spec.fluctVal dt n (fun i => x p (r * n + i)) j)) →
      (∀ r < len / n, ∀ j < n,
        g.at_ r j = some (Spec.fluctVal dt n (fun i => x q (r * n + i)) j)) →
      ∀ r < len / n, (rowProd f g)[r]? = some (some (Spec.stressOf dt n x r p q)) := by
    intro f g p q h2 h3 h4 h4' r hr
    have h := rowProd_complete hn0 h2 h3 h4 h4' r hr
    rw [List.getD_eq_getElem?_getD] at h
    rw [List.getElem?_eq_getElem (by rw [hlen' h2]; exact hr)] at h ⊢
    rw [Option.getD_some] at h
    rw [h]
    rfl
  refine ⟨![rowProd f0 f0, rowProd f1 f1, rowProd f2 f2],
    fun i => rowProd ((![f0, f1, f2] : Fin 3 → Mat2 (Option ℝ)) (crossPair i).1)
      ((![f0, f1, f2] : Fin 3 → Mat2 (Option ℝ)) (crossPair i).2), ?_, ?_, ?_, ?_, ?_⟩
  · unfold calcTke tke1
    simp only [a1, b1, c1, Bool.true_eq_false, if_false, bind, Except.bind, pure, Except.pure,
      Except.map]
  · unfold calcStress
    simp only [a1, b1, c1, bind, Except.bind, pure, Except.pure]
  · intro i
    fin_cases i
    · exact hlen' a2
    · exact hlen' b2
    · exact hlen' c2
  · intro i
    fin_cases i
    · exact hlen' a2
    · exact hlen' a2
    · exact hlen' b2
  · intro r hr
    refine ⟨?_, key a2 a3 a4 b4 r hr, key a2 a3 a4 c4 r hr, key b2 b3 b4 c4 r hr, ?_⟩
    · intro i
      fin_cases i
      · exact key a2 a3 a4 a4 r hr
      · exact key b2 b3 b4 b4 r hr
      · exact key c2 c3 c4 c4 r hr
    · ext k l
      simp only [Spec.stressOf, Matrix.transpose_apply, Matrix.of_apply]
      congr 1
      apply Finset.sum_congr rfl
      intros
      ring

theorem fluctVal_sum3 (dt : Bool) (n : ℕ) (a : Fin 3 → ℝ) (x : Fin 3 → ℕ → ℝ) (j : ℕ) :
    Spec.fluctVal dt n (fun m => ∑ k, a k * x k m) j = ∑ k, a k * Spec.fluctVal dt n (x k) j := by
  cases dt with
  | true => exact noTrend_sum3 n a x j
  | false =>
    simp only [Spec.fluctVal, Bool.false_eq_true, if_false]
    rw [mean_sum3 n a x, ← Finset.sum_sub_distrib]
    simp only [mul_sub]

/-- The second moments in the turned frame. -/
theorem stressOf_tilted (dt : Bool) (n : ℕ) (R : M3) (x : Fin 3 → ℕ → ℝ) (r : ℕ) :
    Spec.stressOf dt n (Spec.tilted R x) r = Spec.turned R (Spec.stressOf dt n x r) := by
  ext i j
  have e : ∀ p : Fin 3, (fun m => Spec.tilted R x p (r * n + m)) =
      fun m => ∑ k, R p k * (fun k m => x k (r * n + m)) k m := fun p => rfl
  have h1 : Spec.stressOf dt n (Spec.tilted R x) r i j =
      ∑ k, ∑ l, R i k * R j l * Spec.stressOf dt n x r k l := by
    simp only [Spec.stressOf, Matrix.of_apply, e i, e j, fluctVal_sum3]
    rw [prod_sum3]
  rw [h1]
  generalize Spec.stressOf dt n x r = S
  simp only [Spec.turned, Matrix.mul_apply, Matrix.transpose_apply, Fin.sum_univ_three]
  ring

/-- **C139, stresses.** When all samples of a velocity record are turned by the same matrix, the
matrix of variances and stresses of every bin is turned by it. -/
theorem reynolds_turned (b : Binner) (n len : ℕ) (hb : b.nBin = n) (hn : 2 ≤ n) (hlen : n ≤ len)
    (dt : Bool) (R : M3) (x : Fin 3 → ℕ → ℝ) :
    ∃ tke stress tke' stress',
      calcTke b true none dt len (fun i t => some (x i t)) = .ok tke ∧
      calcStress b dt len (fun i t => some (x i t)) = .ok stress ∧
      calcTke b true none dt len (fun i t => some (Spec.tilted R x i t)) = .ok tke' ∧
      calcStress b dt len (fun i t => some (Spec.tilted R x i t)) = .ok stress' ∧
      ∀ r < len / n, ∃ S, Spec.Tensor tke stress r S ∧
        Spec.Tensor tke' stress' r (R * S * R.transpose) := by
  obtain ⟨t, s, h1, h2, -, -, h3⟩ := tke_stress_tensor b n len hb hn hlen dt x
  obtain ⟨t', s', k1, k2, -, -, k3⟩ := tke_stress_tensor b n len hb hn hlen dt (Spec.tilted R x)
  refine ⟨t, s, t', s', h1, h2, k1, k2, fun r hr => ⟨_, h3 r hr, ?_⟩⟩
  have := k3 r hr
  rw [stressOf_tilted] at this
  exact this

/-! ### Spectra in a turned frame -/

theorem segFft_sum3 (a : Fin 3 → ℝ) (x : Fin 3 → ℕ → ℝ) (i n : ℕ) (hn : 2 ≤ n) (w : ℕ → ℝ)
    (k : ℕ) : segFft (fun j => ∑ p, a p * x p j) i n w k =
      ∑ p, (a p : ℂ) * segFft (x p) i n w k := by
  have h1 := segFft_lin (x 0) (x 1) (a 0) (a 1) i n hn w k
  have h2 := segFft_lin (fun j => a 0 * x 0 j + a 1 * x 1 j) (x 2) 1 (a 2) i n hn w k
  rw [h1] at h2
  simp only [Fin.sum_univ_three]
  rw [← one_mul ((a 0 : ℂ) * _ + _), ← Complex.ofReal_one, ← h2]
  congr 1
  funext j
  ring

theorem norm_turned (R : M3) (hR : Orthonormal R) (z : Fin 3 → ℂ) :
    ∑ i, ‖∑ k, (R i k : ℂ) * z k‖ ^ 2 = ∑ k, ‖z k‖ ^ 2 := by
  have h' : R.transpose * R = 1 := orth_comm hR
  have e : ∀ i j, (R.transpose * R) i j = (1 : M3) i j := fun i j => by rw [h']
  have e00 := e 0 0; have e01 := e 0 1; have e02 := e 0 2
  have e11 := e 1 1; have e12 := e 1 2; have e22 := e 2 2
  simp [Matrix.mul_apply, Fin.sum_univ_three] at e00 e01 e02 e11 e12 e22
  simp only [Complex.sq_norm, Complex.normSq_apply, Fin.sum_univ_three, Complex.add_re,
    Complex.add_im, Complex.mul_re, Complex.mul_im, Complex.ofReal_re, Complex.ofReal_im, zero_mul,
    sub_zero, add_zero]
  linear_combination ((z 0).re ^ 2 + (z 0).im ^ 2) * e00 + ((z 1).re ^ 2 + (z 1).im ^ 2) * e11 +
    ((z 2).re ^ 2 + (z 2).im ^ 2) * e22 +
    2 * ((z 0).re * (z 1).re + (z 0).im * (z 1).im) * e01 +
    2 * ((z 0).re * (z 2).re + (z 0).im * (z 2).im) * e02 +
    2 * ((z 1).re * (z 2).re + (z 1).im * (z 2).im) * e12

/-- **C139, spectra.** The sum of the power spectra of the three components does not change when
the record is turned by an orthonormal matrix; a call that fails fails for every component. -/
theorem psd_turned (l : ℕ) (R : M3) (hR : Orthonormal R) (x : Fin 3 → ℕ → ℝ) (nfft : ℕ) (fs : ℝ)
    (hfs : 0 < fs) (window : WinArg) (step : Option ℕ) :
    (∃ e, ∀ i, psd l (x i) nfft fs window step = .error e ∧
      psd l (Spec.tilted R x i) nfft fs window step = .error e) ∨
    ∃ (m : ℕ) (p p' : Fin 3 → List ℝ), ∀ i, psd l (x i) nfft fs window step = .ok (p i) ∧
      psd l (Spec.tilted R x i) nfft fs window step = .ok (p' i) ∧ (p i).length = m ∧
      (p' i).length = m ∧ ∀ f, ∑ c, (p' c).getD f 0 = ∑ c, (p c).getD f 0 := by
  simp only [psd_eq_core _ _ _ _ hfs]
  cases hc : core l nfft fs window step with
  | error e => exact .inl ⟨e, fun i => ⟨rfl, rfl⟩⟩
  | ok q =>
    refine .inr ⟨q.1 / 2, _, _, fun i => ⟨rfl, rfl, by simp, by simp, fun f => ?_⟩⟩
    simp only [List.getD_eq_getElem?_getD, List.getElem?_map]
    by_cases hf : f < q.1 / 2
    · rw [List.getElem?_range hf]
      simp only [Option.map_some, Option.getD_some]
      rw [← Finset.sum_mul, ← Finset.sum_mul]
      congr 1
      have hs : ∀ (i : ℕ) (c : Fin 3), segFft (Spec.tilted R x c) i q.1 q.2.1 (f + 1) =
          ∑ p, (R c p : ℂ) * segFft (x p) i q.1 q.2.1 (f + 1) := fun i c =>
        segFft_sum3 (R c) x i q.1 (by omega) q.2.1 (f + 1)
      simp only [hs]
      generalize q.2.2.1 = st
      induction st with
      | nil => simp
      | cons a t ih =>
        simp only [List.map_cons, List.sum_cons, Finset.sum_add_distrib]
        rw [ih, norm_turned R hR fun p => segFft (x p) a q.1 q.2.1 (f + 1)]
    · rw [List.getElem?_eq_none (by simpa using hf)]
      simp

theorem paddedBin_tilted (len n pad : ℕ) (R : M3) (x : Fin 3 → ℕ → ℝ) (r : ℕ) (i : Fin 3) :
    Spec.paddedBin len n pad (Spec.tilted R x i) r =
      Spec.tilted R (fun k => Spec.paddedBin len n pad (x k) r) i := by
  funext j
  unfold Spec.paddedBin Spec.tilted
  by_cases h : pad / 2 ≤ r * n + j ∧ r * n + j - pad / 2 < len / n * n
  · simp only [if_pos h]
  · simp only [if_neg h, mul_zero, Finset.sum_const_zero]

/-- Spectral density of component `c` in bin `r` at the `f`-th frequency. -/
noncomputable def Spec.specAt (s : VelSpec) (c : Fin 3) (r f : ℕ) : ℝ :=
  ((s.psd.getD c.val []).getD r []).getD f 0

/-- **C139, spectra of a velocity record** by `calc_psd`: same frequencies, and in every bin and
at every frequency the same sum over the components. -/
theorem velPsd_turned (junk : ℕ → List ℝ) (b : VelBinner) (len : ℕ) (R : M3) (hR : Orthonormal R)
    (x : Fin 3 → ℕ → ℝ) (t : ℕ → ℝ) (window : WinArg) (nFft : Option ℕ) (hfs : 0 < b.fs)
    (hn : b.nBin ≤ len) (h3 : 3 ≤ velNfft b nFft) (hnf : velNfft b nFft ≤ b.nBin) (w : ℕ → ℝ)
    (hw : getWindow window (velNfft b nFft) = .ok w) :
    ∃ s s', velPsd junk b len (.rows [x 0, x 1, x 2]) t "Hz" none window none none nFft none none
        = .ok s ∧
      velPsd junk b len (.rows [Spec.tilted R x 0, Spec.tilted R x 1, Spec.tilted R x 2]) t "Hz"
        none window none none nFft none none = .ok s' ∧
      s'.freq = s.freq ∧ ∀ r < len / b.nBin, ∀ f,
        ∑ c, Spec.specAt s' c r f = ∑ c, Spec.specAt s c r f := by
  obtain ⟨s, h1, h2, -, h4⟩ := velPsd_three junk b len x t window nFft hfs hn h3 hnf w hw
  obtain ⟨s', k1, k2, -, k4⟩ :=
    velPsd_three junk b len (Spec.tilted R x) t window nFft hfs hn h3 hnf w hw
  refine ⟨s, s', h1, k1, by rw [h2, k2], fun r hr f => ?_⟩
  have hs : ∀ c : Fin 3, psd (b.nBin + min (b.nBin - velNfft b nFft) (velNfft b nFft))
      (Spec.paddedBin len b.nBin (min (b.nBin - velNfft b nFft) (velNfft b nFft)) (x c) r)
      (velNfft b nFft) b.fs window none = .ok ((s.psd.getD c.val []).getD r []) := by
    intro c
    obtain ⟨o, v, e1, e2, e3⟩ := h4 c r hr
    simp only [e3, List.getD_eq_getElem?_getD, e1, e2, Option.getD_some]
  have hs' : ∀ c : Fin 3, psd (b.nBin + min (b.nBin - velNfft b nFft) (velNfft b nFft))
      (Spec.tilted R (fun k => Spec.paddedBin len b.nBin
        (min (b.nBin - velNfft b nFft) (velNfft b nFft)) (x k) r) c)
      (velNfft b nFft) b.fs window none = .ok ((s'.psd.getD c.val []).getD r []) := by
    intro c
    obtain ⟨o, v, e1, e2, e3⟩ := k4 c r hr
    rw [← paddedBin_tilted]
    simp only [e3, List.getD_eq_getElem?_getD, e1, e2, Option.getD_some]
  rcases psd_turned (b.nBin + min (b.nBin - velNfft b nFft) (velNfft b nFft)) R hR
    (fun k => Spec.paddedBin len b.nBin (min (b.nBin - velNfft b nFft) (velNfft b nFft)) (x k) r)
    (velNfft b nFft) b.fs hfs window none with ⟨e, he⟩ | ⟨m, p, p', hp⟩
  · have := (he 0).1
    rw [hs 0] at this
    cases this
  · have e : ∀ c, (s.psd.getD c.val []).getD r [] = p c := fun c => by
      have := (hp c).1
      rw [hs c] at this
      exact Except.ok.inj this
    have e' : ∀ c, (s'.psd.getD c.val []).getD r [] = p' c := fun c => by
      have := (hp c).2.1
      rw [hs' c] at this
      exact Except.ok.inj this
    unfold Spec.specAt
    simp only [e, e']
    exact (hp 0).2.2.2.2 f

/-! ### Rotation by the package -/

variable {T : Type}

/-- Instrument that does not move: all matrices the dataset may use are the same for all samples. -/
def Spec.Steady (ds : RDS T) : Prop := ∀ m, UsesOmat ds m → ∀ t t', m t = m t'

theorem Steady.of_same {a b : RDS T} (h : SameFrameInfo a b) (hs : Spec.Steady a) :
    Spec.Steady b := by
  obtain ⟨_, _, _, _, _, _, _, _, _, _, _, _⟩ := a
  obtain ⟨_, _, _, _, _, _, _, _, _, _, _, _⟩ := b
  simp only [SameFrameInfo, RDS.mk.injEq, true_and] at h
  obtain ⟨rfl, rfl, rfl, rfl, rfl, rfl, rfl, rfl, rfl, rfl⟩ := h
  exact hs

theorem orth_mul {A B : M3} (hA : Orthonormal A) (hB : Orthonormal B) : Orthonormal (A * B) := by
  unfold Orthonormal at *
  rw [Matrix.transpose_mul, Matrix.mul_assoc, ← Matrix.mul_assoc B, hB, Matrix.one_mul, hA]

/-- Rotation about the vertical. -/
noncomputable def Spec.rotZ (a : ℝ) : M3 :=
  !![Real.cos a, -Real.sin a, 0; Real.sin a, Real.cos a, 0; 0, 0, 1]

theorem rotZ_orth (a : ℝ) : Orthonormal (Spec.rotZ a) := by
  unfold Orthonormal Spec.rotZ
  have h := Real.sin_sq_add_cos_sq a
  ext i j
  fin_cases i <;> fin_cases j <;>
    simp [Matrix.mul_apply, Fin.sum_univ_three] <;> nlinarith

theorem applyM_rot2 (a : ℝ) (v : ℕ → ℝ) : applyM (rot2 a) v = applyM (Spec.rotZ a) v := by
  funext i
  match i with
  | 0 => simp [applyM, rot2, Spec.rotZ, Fin.sum_univ_three, Fin.sum_univ_two]
  | 1 => simp [applyM, rot2, Spec.rotZ, Fin.sum_univ_three, Fin.sum_univ_two]
  | 2 => simp [applyM, Spec.rotZ, Fin.sum_univ_three]
  | i + 3 => simp [applyM]

theorem oneStep_steady [Inhabited T] {k : ℕ} {r : Bool} {ds ds' : RDS T} (hk : k ≠ 0)
    (hr : Rotatable ds) (hst : Spec.Steady ds)
    (h3 : ds.inst = .signature → ∀ v ∈ ds.vars, v.n = 3) (h : oneStep ds (k, r) = .ok ds') :
    ∃ R : M3, Orthonormal R ∧ List.Forall₂
      (fun v v' => v'.name = v.name ∧ v'.n = v.n ∧ ∀ t, v'.val t = applyM R (v.val t))
      ds.vars ds'.vars := by
  match k with
  | 0 => exact absurd rfl hk
  | 1 =>
    obtain ⟨_, _, m, hm, _, vs, hvs, rfl⟩ := inst2earth_iff.mp h
    have ho := hr.omat m (effOmat_uses hm) default
    have hmt : ∀ t, m t = m default := fun t => hst m (effOmat_uses hm) t default
    generalize m default = M at ho hmt
    have ho' : Orthonormal M.transpose := by
      unfold Orthonormal; rw [Matrix.transpose_transpose]; exact orth_comm ho
    have hsg : Orthonormal sign3 := by
      unfold Orthonormal
      rw [show sign3.transpose = sign3 from Matrix.diagonal_transpose _, sign3_mul_self]
    have hf2 := mapM_forall₂ hvs
    have hf3 : List.Forall₂ (fun v v' => v ∈ ds.vars ∧ i2eVar ds.inst r ds.down m v = .ok v')
        ds.vars vs := by
      have := List.forall₂_iff_zip.mp hf2
      refine List.forall₂_iff_zip.mpr ⟨this.1, ?_⟩
      intro a b hab
      exact ⟨(List.of_mem_zip hab).1, this.2 hab⟩
    refine ⟨if ds.inst = .signature ∧ ds.down = true then
        (if r then sign3 * M else M.transpose * sign3) else if r then M else M.transpose, ?_, ?_⟩
    · split_ifs
      · exact orth_mul hsg ho
      · exact orth_mul ho' hsg
      · exact ho
      · exact ho'
    · refine hf3.imp ?_
      rintro v v' ⟨hv, hvv⟩
      refine ⟨(i2eVar_shape hvv).2, (i2eVar_shape hvv).1, ?_⟩
      intro t
      unfold i2eVar at hvv
      cases hi : ds.inst <;> simp only [hi] at hvv
      · obtain ⟨_, rfl⟩ := ite_err_ok.mp hvv
        simp only [RVar.rot, hmt]
        simp
      · obtain ⟨_, rfl⟩ := ite_err_ok.mp hvv
        simp only [RVar.rot, hmt]
        simp
      · rw [if_pos (h3 hi v hv)] at hvv
        cases hvv
        simp only [RVar.rot, hmt, sigMat3]
        cases r <;> cases ds.down <;> simp
      · obtain ⟨_, rfl⟩ := ite_err_ok.mp hvv
        simp only [RVar.rot, hmt]
        simp
      · cases hvv
  | 2 =>
    obtain ⟨ph, _, _, vs, hvs, rfl⟩ := earth2principal_iff.mp h
    refine ⟨Spec.rotZ (if r then deg2rad (90 - ph) else -deg2rad (90 - ph)), rotZ_orth _,
      (mapM_forall₂ hvs).imp ?_⟩
    intro v v' hv
    by_cases h2 : v.n < 2
    · rw [if_pos h2] at hv; cases hv
    · rw [if_neg h2] at hv
      cases hv
      exact ⟨rfl, rfl, fun t => applyM_rot2 _ _⟩
  | k + 3 => cases h

/-- Rotating the data of an instrument that does not move multiplies all samples of all
variables by one orthonormal matrix. -/
theorem rotate2_steady [Inhabited T] {fuel : ℕ} (hfuel : 3 ≤ fuel) {out : Frame} {ds ds' : RDS T}
    {i j : ℕ} (hi : Pos ds.coordSys i) (ho : Pos out j) (hi1 : 1 ≤ i) (hj1 : 1 ≤ j)
    (hr : Rotatable ds) (hst : Spec.Steady ds)
    (h3 : ds.inst = .signature → ∀ v ∈ ds.vars, v.n = 3)
    (h : rotate2 fuel out ds = some (.ok ds')) :
    ∃ R : M3, Orthonormal R ∧ List.Forall₂
      (fun v v' => v'.name = v.name ∧ v'.n = v.n ∧ ∀ t, v'.val t = applyM R (v.val t))
      ds.vars ds'.vars := by
  obtain ⟨hu, b, hb⟩ := rotate2_ok_checks h
  rw [rotate2_eq fuel ds hi ho hfuel hu hb] at h
  replace h := Option.some.inj h
  have hmem : ∀ s ∈ steps i j, s.1 ≠ 0 := by
    intro s hs
    unfold steps at hs
    split_ifs at hs
    · simp only [List.mem_map, List.mem_range'] at hs
      obtain ⟨a, ⟨c, _, rfl⟩, rfl⟩ := hs
      simp only; omega
    · simp only [List.mem_map, List.mem_reverse, List.mem_range'] at hs
      obtain ⟨a, ⟨c, _, rfl⟩, rfl⟩ := hs
      simp only; omega
  have hship := hi.ne_ship
  generalize steps i j = l at h hmem
  clear hi ho hu hb
  induction l generalizing ds with
  | nil =>
    cases h
    refine ⟨1, by simp [Orthonormal], ?_⟩
    rw [List.forall₂_same]
    intro v _
    exact ⟨rfl, rfl, fun t => (applyM_one _).symm⟩
  | cons s l ih =>
    simp only [List.foldlM_cons, bind, Except.bind] at h
    split at h
    · cases h
    · rename_i d hd
      obtain ⟨k, r⟩ := s
      obtain ⟨_, hs⟩ := oneStep_undo hr hship hd
      obtain ⟨A, hA, n1⟩ := oneStep_steady (hmem (k, r) (by simp)) hr hst h3 hd
      obtain ⟨B, hB, n2⟩ := ih (Rotatable.of_same hs hr) (Steady.of_same hs hst) (by
        intro hsg v' hv'
        obtain ⟨v, hv, hn, _⟩ := forall₂_mem (oneStep_shapes hd) v' hv'
        rw [hn]; exact h3 (by rw [← hs.inst_eq]; exact hsg) v hv)
        (oneStep_frame hd).1.ne_ship h (fun s hs => hmem s (by simp [hs]))
      refine ⟨B * A, orth_mul hB hA, ?_⟩
      clear ih h hd hs h3 hr hst
      generalize ds.vars = V at n1
      generalize d.vars = V' at n1 n2
      generalize ds'.vars = V'' at n2
      induction n1 generalizing V'' with
      | nil => cases n2; exact .nil
      | cons h1 _ ih =>
        cases n2 with
        | cons h2 t2 =>
          exact .cons ⟨by rw [h2.1, h1.1], by rw [h2.2.1, h1.2.1],
            fun t => by rw [h2.2.2, h1.2.2, applyM_mul]⟩ (ih _ t2)

/-- Components of a variable as records for the turbulence functions, read along the samples `τ`
(all samples of a point measurement, or the samples of one depth cell). -/
def Spec.comps (τ : ℕ → T) (v : RVar T) (i : Fin 3) (t : ℕ) : ℝ := v.val (τ t) i

theorem comps_applyM (τ : ℕ → T) {v v' : RVar T} {R : M3} (h : ∀ t, v'.val t = applyM R (v.val t)) :
    Spec.comps τ v' = Spec.tilted R (Spec.comps τ v) := by
  funext i t
  unfold Spec.comps Spec.tilted
  rw [h (τ t), applyM, dif_pos i.isLt]

/-- **C139.** An instrument that does not move, data rotated by `rotate2` between inst, earth and
principal in any direction: every vector variable is found again, and the variances and stresses,
computed before and after the rotation, belong to the same tensor; their sum (twice the turbulent
kinetic energy) is the same in every bin; and so is the sum of the three spectra at every
frequency. -/
theorem turbulence_frame_invariant [Inhabited T] (τ : ℕ → T) {fuel : ℕ} (hfuel : 3 ≤ fuel)
    {out : Frame} {ds ds' : RDS T}
    {i j : ℕ} (hi : Pos ds.coordSys i) (ho : Pos out j) (hi1 : 1 ≤ i) (hj1 : 1 ≤ j)
    (hr : Rotatable ds) (hst : Spec.Steady ds)
    (h3 : ds.inst = .signature → ∀ v ∈ ds.vars, v.n = 3)
    (h : rotate2 fuel out ds = some (.ok ds')) :
    ∃ R : M3, Orthonormal R ∧ List.Forall₂ (fun v v' => v'.name = v.name ∧
      (∀ (b : Binner) (n len : ℕ) (dt : Bool), b.nBin = n → 2 ≤ n → n ≤ len →
        ∃ tke stress tke' stress',
          calcTke b true none dt len (fun i t => some (Spec.comps τ v i t)) = .ok tke ∧
          calcStress b dt len (fun i t => some (Spec.comps τ v i t)) = .ok stress ∧
          calcTke b true none dt len (fun i t => some (Spec.comps τ v' i t)) = .ok tke' ∧
          calcStress b dt len (fun i t => some (Spec.comps τ v' i t)) = .ok stress' ∧
          ∀ r < len / n, ∃ S S', Spec.Tensor tke stress r S ∧ Spec.Tensor tke' stress' r S' ∧
            S' = R * S * R.transpose ∧ S'.trace = S.trace) ∧
      (∀ (junk : ℕ → List ℝ) (b : VelBinner) (len : ℕ) (t : ℕ → ℝ) (window : WinArg)
        (nFft : Option ℕ) (w : ℕ → ℝ), 0 < b.fs → b.nBin ≤ len → 3 ≤ velNfft b nFft →
        velNfft b nFft ≤ b.nBin → getWindow window (velNfft b nFft) = .ok w →
        ∃ s s', velPsd junk b len (.rows [Spec.comps τ v 0, Spec.comps τ v 1, Spec.comps τ v 2]) t "Hz"
            none window none none nFft none none = .ok s ∧
          velPsd junk b len (.rows [Spec.comps τ v' 0, Spec.comps τ v' 1, Spec.comps τ v' 2]) t "Hz"
            none window none none nFft none none = .ok s' ∧
          s'.freq = s.freq ∧ ∀ r < len / b.nBin, ∀ f,
            ∑ c, Spec.specAt s' c r f = ∑ c, Spec.specAt s c r f)) ds.vars ds'.vars := by
  obtain ⟨R, hR, hv⟩ := rotate2_steady hfuel hi ho hi1 hj1 hr hst h3 h
  refine ⟨R, hR, hv.imp ?_⟩
  rintro v v' ⟨e1, _, e2⟩
  rw [comps_applyM τ e2]
  refine ⟨e1, ?_, ?_⟩
  · intro b n len dt hb hn hlen
    obtain ⟨t, s, t', s', q1, q2, q3, q4, q5⟩ :=
      reynolds_turned b n len hb hn hlen dt R (Spec.comps τ v)
    refine ⟨t, s, t', s', q1, q2, q3, q4, fun r hr => ?_⟩
    obtain ⟨S, a1, a2⟩ := q5 r hr
    refine ⟨S, _, a1, a2, rfl, ?_⟩
    rw [Matrix.trace_mul_comm, ← Matrix.mul_assoc, orth_comm hR, Matrix.one_mul]
  · intro junk b len t window nFft w hfs hn h3 hnf hw
    exact velPsd_turned junk b len R hR (Spec.comps τ v) t window nFft hfs hn h3 hnf w hw

/-- The hypotheses are met: the example dataset, rotated from inst to principal. -/
example (τ : ℕ → ℤ) : ∃ ds' v v', rotate2 3 .principal (exDS .inst) = some (.ok ds') ∧
    (exDS .inst).vars[0]? = some v ∧ ds'.vars[0]? = some v' ∧
    ∃ tke tke' : Fin 3 → List (Option ℝ),
      calcTke ⟨10, 1, 10, 10⟩ true none true 30 (fun i t => some (Spec.comps τ v i t)) = .ok tke ∧
      calcTke ⟨10, 1, 10, 10⟩ true none true 30 (fun i t => some (Spec.comps τ v' i t)) = .ok tke' ∧
      ∃ e : ℝ, (∃ a : Fin 3 → ℝ, (∀ i, (tke i)[2]? = some (some (a i))) ∧ ∑ i, a i = e) ∧
        ∃ a : Fin 3 → ℝ, (∀ i, (tke' i)[2]? = some (some (a i))) ∧ ∑ i, a i = e := by
  obtain ⟨ds', h, _⟩ := rotate2_succeeds (fuel := 3) le_rfl (ds := exDS .inst) .inst .principal
    (exDS_rotatable _) (exDS_complete _)
  obtain ⟨R, hR, hv⟩ := turbulence_frame_invariant τ le_rfl (ds := exDS .inst) .inst .principal
    (by decide) (by decide) (exDS_rotatable _)
    (by
      rintro m (hm | ⟨hm, _⟩) t t'
      · cases hm; rfl
      · cases hm)
    (by intro h; cases h) h
  have e : (exDS .inst).vars = [⟨"vel", 3, fun t i => t + i⟩, ⟨"accel", 3, fun t i => t * i⟩] := rfl
  rw [e] at hv
  cases hd : ds'.vars with
  | nil => rw [hd] at hv; cases hv
  | cons v' l =>
    rw [hd] at hv
    obtain ⟨-, h1, -⟩ := (List.forall₂_cons.mp hv).1
    obtain ⟨t, s, t', s', q1, -, q2, -, q3⟩ := h1 ⟨10, 1, 10, 10⟩ 10 30 true rfl (by norm_num) (by norm_num)
    obtain ⟨S, S', a1, a2, -, a3⟩ := q3 2 (by norm_num)
    exact ⟨ds', _, v', h, rfl, by rw [hd]; rfl, t, t', q1, q2, S.trace,
      ⟨fun i => S i i, a1.diag, rfl⟩, fun i => S' i i, a2.diag, a3⟩

end Dolfyn
