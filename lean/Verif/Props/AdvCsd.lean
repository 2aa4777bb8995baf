import Verif.Model.AdvCsd
import Verif.Props.VelPsd

/-! C120: cross spectra of the components of a point velocimeter; angle of the fluctuations (C107). -/

namespace Dolfyn

theorem csdBase_fs (b : VelBinner) (len : ℕ) (x y : ℕ → ℝ) (fs c : ℝ) (window : WinArg) (nBin : Option ℕ) (nf : ℕ) :
    csdBase b len x y (c * fs) window nBin nf =
      (csdBase b len x y fs window nBin nf).map fun o => o.map fun r => r.map fun z => z / (c : ℂ) := by
  unfold csdBase
  simp only
  split_ifs with h0
  · rfl
  cases reshape (0 : ℝ) len x (b.nBin : ℚ) (nf : ℤ) with
  | error e => rfl
  | ok m1 =>
    cases reshape (0 : ℝ) len y (b.nBin : ℚ) (nf : ℤ) with
    | error e => rfl
    | ok m2 =>
      simp only
      apply mapM_comm
      intro r
      simp only [bind]
      split_ifs with hr
      · rw [cpsd_fs]
        cases cpsd false m1.cols (m1.at_ r) (m2.at_ r) nf fs window none with
        | error e => rfl
        | ok s =>
          simp only [Except.map, Except.bind]
          rw [assignRow_map]
          rfl
      · rfl

/-- A cross spectrum per Hertz expressed per radian. -/
noncomputable def Spec.csdPerRadian (s : AdvCsd) : AdvCsd :=
  { freq := s.freq.map fun f => f * (2 * Real.pi)
    time := s.time
    csd := s.csd.map fun o => o.map fun r => r.map fun z => z / ((2 * Real.pi : ℝ) : ℂ) }

theorem calcFreq_units_coh (b : VelBinner) (fs : ℝ) (nf : ℕ) :
    ∃ f, calcFreq b (some fs) "Hz" (some nf) true = .ok f ∧
      calcFreq b (some fs) "rad s-1" (some nf) true = .ok (f.map fun x => x * (2 * Real.pi)) :=
  calcFreq_units b fs nf

/-- **C120.** Cross spectra in rad/s are those in Hz, per radian, for every input. -/
theorem advCsd_units (b : VelBinner) (len : ℕ) (vel : Fin 3 → ℕ → ℝ) (t : ℕ → ℝ) (u u' : String)
    (hu : strIn "rad" u = true) (hu' : strIn "rad" u' = false)
    (fs : Option ℝ) (window : WinArg) (nBin nFftCoh : Option ℕ) :
    advCsd b len vel t u fs window nBin nFftCoh = (advCsd b len vel t u' fs window nBin nFftCoh).map Spec.csdPerRadian := by
  unfold advCsd
  simp only [hu, hu', if_true, Bool.false_eq_true, if_false]
  cases specTimes b len t with
  | error e => rfl
  | ok tm =>
    obtain ⟨f, hf1, hf2⟩ := calcFreq_units_coh b (fs.getD b.fs) (velNfftCoh b nFftCoh)
    rw [hf1, hf2]
    simp only [bind, Except.bind]
    rw [mapM_comm (fun p : Fin 3 × Fin 3 => csdBase b len (vel p.1) (vel p.2) (fs.getD b.fs) window nBin
      (velNfftCoh b nFftCoh)) _ (fun o => o.map fun r => r.map fun z => z / ((2 * Real.pi : ℝ) : ℂ))
      (fun p => csdBase_fs _ _ _ _ _ _ _ _ _)]
    generalize (List.mapM _ _ : Except Err (List (List (List ℂ)))) = M
    cases M with
    | error e => rfl
    | ok o =>
      simp only [Except.map, List.all_map, Function.comp_def, List.length_map]
      split_ifs <;> rfl

/-- **C120.** A returned cross spectrum has one row per time and one value per frequency; the times are those of the
binner's own bins; a per-call `n_bin` that gives another number of bins never succeeds. -/
theorem advCsd_aligned (b : VelBinner) (len : ℕ) (vel : Fin 3 → ℕ → ℝ) (t : ℕ → ℝ) (u : String)
    (fs : Option ℝ) (window : WinArg) (nBin nFftCoh : Option ℕ) (s : AdvCsd)
    (h : advCsd b len vel t u fs window nBin nFftCoh = .ok s) :
    s.csd.length = 3 ∧ (∀ o ∈ s.csd, o.length = s.time.length ∧ ∀ r ∈ o, r.length = s.freq.length) ∧
      s.time.length = len / b.nBin ∧ len / nBin.getD b.nBin = len / b.nBin ∧
      ∀ r, r < len / b.nBin → s.time[r]? = some (some ((∑ j ∈ Finset.range b.nBin, t (r * b.nBin + j)) / b.nBin)) := by
  unfold advCsd at h
  simp only [bind] at h
  generalize (if strIn "rad" u = true then 2 * Real.pi * fs.getD b.fs else fs.getD b.fs) = F0 at h
  cases hT : specTimes b len t with
  | error e => rw [hT] at h; cases h
  | ok tm =>
    rw [hT] at h
    simp only [Except.bind] at h
    generalize calcFreq _ _ _ _ _ = F at h
    cases F with
    | error e => cases h
    | ok freq =>
      simp only at h
      generalize hP : (List.mapM _ _ : Except Err (List (List (List ℂ)))) = P at h
      cases P with
      | error e => cases h
      | ok o =>
        simp only at h
        split_ifs at h with hc
        cases h
        obtain ⟨t1, -, -, t4⟩ := specTimes_spec b len t tm hT
        have hall : ∀ q ∈ o, q.length = tm.length ∧ ∀ r ∈ q, r.length = freq.length := by
          intro q hq
          have := List.all_eq_true.mp hc q hq
          rw [Bool.and_eq_true] at this
          exact ⟨by simpa using this.1, fun r hr => by simpa using List.all_eq_true.mp this.2 r hr⟩
        have hF := mapM_forall₂ hP
        refine ⟨hF.length_eq.symm, hall, t1, ?_, t4⟩
        obtain ⟨q, o', ha, -, rfl⟩ := List.forall₂_cons_left_iff.mp hF
        have hl : q.length = len / nBin.getD b.nBin := by
          unfold csdBase at ha
          simp only at ha
          split_ifs at ha
          split at ha
          · cases ha
          · cases ha
          · rw [← (mapM_forall₂ ha).length_eq, List.length_range]
        rw [← hl, (hall q (by simp)).1, t1]

/-- **C120.** Refuted for a per-call `n_bin` that changes the number of bins. -/
theorem advCsd_override_false (b : VelBinner) (len : ℕ) (vel : Fin 3 → ℕ → ℝ) (t : ℕ → ℝ) (u : String)
    (fs : Option ℝ) (window : WinArg) (n' : ℕ) (nFftCoh : Option ℕ) (hne : len / n' ≠ len / b.nBin) (s : AdvCsd) :
    advCsd b len vel t u fs window (some n') nFftCoh ≠ .ok s := fun h =>
  hne (advCsd_aligned b len vel t u fs window (some n') nFftCoh s h).2.2.2.1

/-- The pairs of components, in the order of the labels `Cxy`, `Cxz`, `Cyz`. -/
def Spec.csdPair : Fin 3 → Fin 3 × Fin 3 := ![(0, 1), (0, 2), (1, 2)]

theorem cpsd_congr (l : ℕ) (a a' c c' : ℕ → ℝ) (h : ∀ i, i < l → a i = a' i) (h' : ∀ i, i < l → c i = c' i) (nf : ℕ)
    (fs : ℝ) (h3 : 3 ≤ nf) (hl : nf ≤ l) (window : WinArg) (w : ℕ → ℝ) (hw : getWindow window nf = .ok w) :
    ∃ v, cpsd false l a c nf fs window none = .ok v ∧ cpsd false l a' c' nf fs window none = .ok v ∧
      v.length = nf / 2 := by
  have key : ∃ s st, stepsize l nf none none = .ok s ∧ s.nfft = nf ∧ segStarts l s = .ok st ∧ ∀ i ∈ st, i + nf ≤ l := by
    rcases Nat.lt_or_ge nf l with hlt | hge
    · obtain ⟨s, st, h1, h2, h4, -, -, -, h5, -⟩ := segments_default l nf h3 hlt
      exact ⟨s, st, h1, h4, h2, fun i hi => ((h5 i).mp hi).2⟩
    · obtain rfl : l = nf := le_antisymm hge hl
      exact ⟨⟨0, 1, l⟩, [0], by simp [stepsize], rfl, by simp [segStarts], by simp⟩
  obtain ⟨s, st, h1, h2, h4, h5⟩ := key
  unfold cpsd
  rw [h1]
  simp only
  rw [h2, hw]
  simp only
  rw [h4]
  simp only [Bool.false_eq_true, if_false]
  refine ⟨_, rfl, ?_, by simp⟩
  congr 1
  apply List.map_congr_left
  intro k _
  congr 2
  apply List.map_congr_left
  intro i hi
  have hi5 := h5 i hi
  rw [segFft_congr a a' i nf w (k + 1) fun j hj => h _ (by omega),
    segFft_congr c c' i nf w (k + 1) fun j hj => h' _ (by omega)]

theorem get3 {α : Type*} (o : Fin 3 → α) (c : Fin 3) : [o 0, o 1, o 2][c.val]? = some (o c) := by
  match c with
  | 0 => rfl
  | 1 => rfl
  | 2 => rfl

/-- **C120.** Without an override the call succeeds and returns, for each pair and bin, the cross spectrum of the two
components over the same padded bin, at the frequencies `k fs / n_fft_coh`. -/
theorem advCsd_spec (b : VelBinner) (len : ℕ) (vel : Fin 3 → ℕ → ℝ) (t : ℕ → ℝ) (window : WinArg) (nFftCoh : Option ℕ)
    (hfs : 0 < b.fs) (hn : b.nBin ≤ len) (h3 : 3 ≤ velNfftCoh b nFftCoh) (hnf : velNfftCoh b nFftCoh ≤ b.nBin)
    (w : ℕ → ℝ) (hw : getWindow window (velNfftCoh b nFftCoh) = .ok w) :
    ∃ s, advCsd b len vel t "Hz" none window none nFftCoh = .ok s ∧
      s.freq = (List.range (velNfftCoh b nFftCoh / 2)).map
        (fun k : ℕ => ((k + 1 : ℕ) : ℝ) * b.fs / velNfftCoh b nFftCoh) ∧
      ∀ (c : Fin 3) r, r < len / b.nBin → ∃ o v, s.csd[c.val]? = some o ∧ o[r]? = some v ∧
        cpsd false (b.nBin + velNfftCoh b nFftCoh)
          (Spec.paddedBin len b.nBin (velNfftCoh b nFftCoh) (vel (Spec.csdPair c).1) r)
          (Spec.paddedBin len b.nBin (velNfftCoh b nFftCoh) (vel (Spec.csdPair c).2) r)
          (velNfftCoh b nFftCoh) b.fs window none = .ok v := by
  generalize hnfe : velNfftCoh b nFftCoh = nf at *
  have hbase : ∀ x y : ℕ → ℝ, ∃ o, csdBase b len x y b.fs window none nf = .ok o ∧ o.length = len / b.nBin ∧
      (∀ r ∈ o, r.length = nf / 2) ∧ ∀ r, r < len / b.nBin → ∃ v, o[r]? = some v ∧
        cpsd false (b.nBin + nf) (Spec.paddedBin len b.nBin nf x r) (Spec.paddedBin len b.nBin nf y r) nf b.fs window none
          = .ok v := by
    intro x y
    obtain ⟨m1, p1, p2, p3, p4⟩ := reshape_spec (0 : ℝ) len x b.nBin nf (by omega) hn (by omega)
    obtain ⟨m2, q1, q2, q3, q4⟩ := reshape_spec (0 : ℝ) len y b.nBin nf (by omega) hn (by omega)
    have hr : ∀ r, ∃ v, r < len / b.nBin → cpsd false m1.cols (m1.at_ r) (m2.at_ r) nf b.fs window none = .ok v ∧
        cpsd false m1.cols (Spec.paddedBin len b.nBin nf x r) (Spec.paddedBin len b.nBin nf y r) nf b.fs window none = .ok v ∧
        v.length = nf / 2 := by
      intro r
      by_cases hlt : r < len / b.nBin
      · obtain ⟨v, hv⟩ := cpsd_congr m1.cols (m1.at_ r) (Spec.paddedBin len b.nBin nf x r) (m2.at_ r)
          (Spec.paddedBin len b.nBin nf y r) (fun i hi => p4 r i (by omega) hi) (fun i hi => q4 r i (by omega) (by omega))
          nf b.fs h3 (by omega) window w hw
        exact ⟨v, fun _ => hv⟩
      · exact ⟨[], fun h => absurd h hlt⟩
    choose g hg using hr
    have hM : csdBase b len x y b.fs window none nf = .ok ((List.range (len / b.nBin)).map g) := by
      unfold csdBase
      simp only [Option.getD_none]
      rw [if_neg (by omega), p1, q1]
      simp only
      apply mapM_ok_eq
      intro r hr
      rw [List.mem_range] at hr
      obtain ⟨g1, -, g3⟩ := hg r hr
      rw [if_pos (by omega), g1]
      simp only [bind, Except.bind]
      unfold assignRow
      rw [if_pos g3]
    refine ⟨_, hM, by simp, ?_, ?_⟩
    · intro v hv
      obtain ⟨r, hr, rfl⟩ := List.mem_map.mp hv
      exact (hg r (List.mem_range.mp hr)).2.2
    · intro r hr
      refine ⟨g r, by rw [List.getElem?_map, List.getElem?_range hr]; rfl, ?_⟩
      rw [← p3]
      exact (hg r hr).2.1
  choose o ho1 ho2 ho3 ho4 using fun c : Fin 3 => hbase (vel (Spec.csdPair c).1) (vel (Spec.csdPair c).2)
  have hT : ∃ tm, specTimes b len t = .ok tm := by
    obtain ⟨m, h1, -⟩ := reshape_spec (some (0 : ℝ)) len (fun i => some (t i)) b.nBin 0 (by omega) hn (by omega)
    have h1' : reshape (some (0 : ℝ)) len (fun i => some (t i)) b.nBin 0 = .ok m := by exact_mod_cast h1
    unfold specTimes binMean
    simp only [parseNbin, Option.getD_none]
    rw [h1']
    exact ⟨_, rfl⟩
  obtain ⟨tm, htm⟩ := hT
  obtain ⟨t1, -⟩ := specTimes_spec b len t tm htm
  have a1 : strIn "Hz" "Hz" = true := by decide
  have a2 : strIn "rad" "Hz" = false := by decide
  have hF : calcFreq b (some b.fs) "Hz" (some nf) true = .ok (psdFreq nf b.fs) := by
    unfold calcFreq; simp [a1, a2]
  have hfl : (psdFreq nf b.fs).length = nf / 2 := by
    rw [psd_freq_spec _ _ hfs]; simp
  have hM : [((0 : Fin 3), (1 : Fin 3)), (0, 2), (1, 2)].mapM (fun p =>
      csdBase b len (vel p.1) (vel p.2) b.fs window none nf) = .ok [o 0, o 1, o 2] := by
    have e0 := ho1 0
    have e1 := ho1 1
    have e2 := ho1 2
    simp only [Spec.csdPair, Matrix.cons_val_zero, Matrix.cons_val_one, Matrix.cons_val] at e0 e1 e2
    simp only [List.mapM_cons, List.mapM_nil, e0, e1, e2, bind, Except.bind, pure, Except.pure]
  refine ⟨AdvCsd.mk (psdFreq nf b.fs) tm [o 0, o 1, o 2], ?_, psd_freq_spec _ _ hfs, ?_⟩
  · unfold advCsd
    simp only [a2, Option.getD_none, Bool.false_eq_true, if_false, hnfe]
    rw [htm, hF]
    simp only [bind, Except.bind]
    rw [hM]
    simp only
    rw [if_pos]
    simp only [List.all_eq_true]
    intro q hq
    have : ∃ c, q = o c := by
      simp only [List.mem_cons, List.not_mem_nil, or_false] at hq
      rcases hq with rfl | rfl | rfl
      exacts [⟨0, rfl⟩, ⟨1, rfl⟩, ⟨2, rfl⟩]
    obtain ⟨c, rfl⟩ := this
    rw [Bool.and_eq_true]
    refine ⟨by simp [ho2, t1], ?_⟩
    rw [List.all_eq_true]
    intro r hr
    simp [ho3 c r hr, hfl]
  · intro c r hr
    obtain ⟨v, hv1, hv2⟩ := ho4 c r hr
    exact ⟨o c, v, get3 o c, hv1, hv2⟩

/-! ### Angle of the fluctuations -/

theorem exp_ipi : Complex.exp (Complex.I * Real.pi) = -1 := by rw [mul_comm, Complex.exp_pi_mul_I]

/-- The angle of the fluctuations lies between 0 and `π`. -/
theorem upAngle_range (n : ℕ) (u : ℕ → ℂ) : 0 ≤ upAngle n u ∧ upAngle n u ≤ Real.pi := by
  unfold upAngle
  simp only [exp_ipi]
  refine ⟨Complex.arg_nonneg_iff.mpr ?_, Complex.arg_le_pi _⟩
  rw [Complex.div_natCast_im, Complex.im_sum]
  apply div_nonneg _ (Nat.cast_nonneg n)
  apply Finset.sum_nonneg
  intro i _
  split_ifs with h
  · simp only [mul_neg, mul_one, Complex.neg_im]
    linarith
  · exact (not_le.mp h).le

/-- It does not depend on the mean flow. -/
theorem upAngle_shift (n : ℕ) (hn : 0 < n) (u : ℕ → ℂ) (c : ℂ) : upAngle n (fun i => u i + c) = upAngle n u := by
  have hn' : (n : ℂ) ≠ 0 := by exact_mod_cast hn.ne'
  have hm : (∑ i ∈ Finset.range n, (u i + c)) / (n : ℂ) = (∑ i ∈ Finset.range n, u i) / n + c := by
    rw [Finset.sum_add_distrib, Finset.sum_const, Finset.card_range, add_div, nsmul_eq_mul, mul_comm,
      mul_div_assoc, div_self hn', mul_one]
  unfold upAngle
  simp only [hm, add_sub_add_right_eq_sub]

/-- Reversing all fluctuations gives the same angle if none is parallel to the real axis. -/
theorem upAngle_neg (n : ℕ) (u : ℕ → ℂ)
    (h : ∀ i, i < n → (u i - (∑ j ∈ Finset.range n, u j) / n).im ≠ 0) :
    upAngle n (fun i => -u i) = upAngle n u := by
  unfold upAngle
  simp only [exp_ipi, Finset.sum_neg_distrib, neg_div]
  congr 2
  apply Finset.sum_congr rfl
  intro i hi
  have hi' := h i (Finset.mem_range.mp hi)
  generalize (∑ j ∈ Finset.range n, u j) / (n : ℂ) = m at hi' ⊢
  have e : -u i - -m = -(u i - m) := by ring
  rw [e]
  generalize u i - m = z at hi' ⊢
  rw [Complex.neg_im]
  rcases lt_or_gt_of_ne hi' with hz | hz
  · rw [if_neg (by linarith), if_pos hz.le]; ring
  · rw [if_pos (by linarith), if_neg (by linarith)]; ring

example : upAngle 2 (fun i => if i = 0 then Complex.I else -Complex.I) = Real.pi / 2 := by
  unfold upAngle
  simp only [exp_ipi, Finset.sum_range_succ, Finset.sum_range_zero]
  norm_num

end Dolfyn
