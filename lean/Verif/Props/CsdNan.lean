import Verif.Model.CsdNan
import Verif.Props.PsdNan
import Verif.Props.PsdMore
import Verif.Props.AdvCsd

/-! C160: cross spectra, coherence and phase of records with missing samples. -/

namespace Dolfyn

theorem opt2_none_left {α : Type*} (f : α → α → α) (b : Option α) : opt2 f none b = none := rfl

theorem opt2_none_right {α : Type*} (f : α → α → α) (a : Option α) : opt2 f a none = none := by cases a <;> rfl

/-- Complete records have the cross spectrum of their values. -/
theorem cpsdN_complete (l nf : ℕ) (h3 : 3 ≤ nf) (hl : nf ≤ l) (a b : ℕ → Option ℝ) (u v : ℕ → ℝ)
    (ha : ∀ i, i < l → a i = some (u i)) (hb : ∀ i, i < l → b i = some (v i)) (fs : ℝ) (window : WinArg) :
    cpsdN l a b nf fs window none = (cpsd false l u v nf fs window none).map fun r => r.map some := by
  obtain ⟨s, st, h1, h2, h4, h5, -⟩ := steps_default l nf h3 hl
  unfold cpsdN cpsd
  rw [h1]
  simp only
  rw [h2]
  cases getWindow window nf with
  | error e => rfl
  | ok w =>
    simp only
    rw [h4]
    simp only [Except.map, List.map_map, Bool.false_eq_true, if_false]
    congr 1
    apply List.map_congr_left
    intro k _
    rw [mapM_some_eq _ (fun i => segFft u i nf w (k + 1) * (starRingEnd ℂ) (segFft v i nf w (k + 1)))]
    · rfl
    · intro i hi
      have := h5 i hi
      rw [segFftN_complete a u i nf (by omega) w (k + 1) fun j hj => ha _ (by omega),
        segFftN_complete b v i nf (by omega) w (k + 1) fun j hj => hb _ (by omega)]
      rfl

/-- A sample missing in either record, unless among the last that no segment reaches, makes the whole cross spectrum
missing. -/
theorem cpsdN_missing (l nf : ℕ) (h3 : 3 ≤ nf) (hl : nf ≤ l) (a b : ℕ → Option ℝ) (i : ℕ) (hi : i + nf / 2 < l)
    (h : a i = none ∨ b i = none) (fs : ℝ) (window : WinArg) (w : ℕ → ℝ) (hw : getWindow window nf = .ok w) :
    cpsdN l a b nf fs window none = .ok (List.replicate (nf / 2) none) := by
  obtain ⟨s, st, h1, h2, h4, h5, h6⟩ := steps_default l nf h3 hl
  obtain ⟨q, hq, hqi, hiq⟩ := h6 i hi
  unfold cpsdN
  rw [h1]
  simp only
  rw [h2, hw]
  simp only
  rw [h4]
  simp only
  congr 1
  rw [List.eq_replicate_iff]
  refine ⟨by simp, ?_⟩
  intro x hx
  obtain ⟨k, -, rfl⟩ := List.mem_map.mp hx
  rw [mapM_none_of _ _ ⟨q, hq, ?_⟩]
  · rfl
  · rcases h with h | h
    · rw [segFftN_missing a q nf w (k + 1) (i - q) (by omega) (by rw [Nat.add_sub_cancel' hqi]; exact h)]
      rfl
    · rw [segFftN_missing b q nf w (k + 1) (i - q) (by omega) (by rw [Nat.add_sub_cancel' hqi]; exact h)]
      exact opt2_none_right _ _

theorem cpsdN_congr (l : ℕ) (a a' c c' : ℕ → Option ℝ) (h : ∀ i, i < l → a i = a' i) (h' : ∀ i, i < l → c i = c' i)
    (nf : ℕ) (fs : ℝ) (h3 : 3 ≤ nf) (hl : nf ≤ l) (window : WinArg) (w : ℕ → ℝ) (hw : getWindow window nf = .ok w) :
    ∃ v, cpsdN l a c nf fs window none = .ok v ∧ cpsdN l a' c' nf fs window none = .ok v ∧ v.length = nf / 2 := by
  obtain ⟨s, st, h1, h2, h4, h5, -⟩ := steps_default l nf h3 hl
  unfold cpsdN
  rw [h1]
  simp only
  rw [h2, hw]
  simp only
  rw [h4]
  simp only
  refine ⟨_, rfl, ?_, by simp⟩
  congr 1
  apply List.map_congr_left
  intro k _
  congr 1
  apply mapM_congr_mem
  intro i hi
  have := h5 i hi
  rw [segFftN_congr a a' i nf w (k + 1) fun j hj => h _ (by omega),
    segFftN_congr c c' i nf w (k + 1) fun j hj => h' _ (by omega)]

theorem csdBaseN_spec (b : VelBinner) (len : ℕ) (x y : ℕ → Option ℝ) (fs : ℝ) (window : WinArg) (nf : ℕ)
    (hn : b.nBin ≤ len) (h3 : 3 ≤ nf) (hnf : nf ≤ b.nBin) (w : ℕ → ℝ) (hw : getWindow window nf = .ok w) :
    ∃ o, csdBaseN b len x y fs window none nf = .ok o ∧ ∀ r, r < len / b.nBin → ∃ v, o[r]? = some v ∧
      cpsdN (b.nBin + nf) (Spec.paddedBinN len b.nBin nf x r) (Spec.paddedBinN len b.nBin nf y r) nf fs window none
        = .ok v := by
  obtain ⟨m1, p1, p2, p3, p4⟩ := reshape_spec (some (0 : ℝ)) len x b.nBin nf (by omega) hn (by omega)
  obtain ⟨m2, q1, q2, q3, q4⟩ := reshape_spec (some (0 : ℝ)) len y b.nBin nf (by omega) hn (by omega)
  have hr : ∀ r, ∃ v, r < len / b.nBin → cpsdN m1.cols (m1.at_ r) (m2.at_ r) nf fs window none = .ok v ∧
      cpsdN m1.cols (Spec.paddedBinN len b.nBin nf x r) (Spec.paddedBinN len b.nBin nf y r) nf fs window none = .ok v ∧
      v.length = nf / 2 := by
    intro r
    by_cases hlt : r < len / b.nBin
    · obtain ⟨v, hv⟩ := cpsdN_congr m1.cols (m1.at_ r) (Spec.paddedBinN len b.nBin nf x r) (m2.at_ r)
        (Spec.paddedBinN len b.nBin nf y r) (fun i hi => p4 r i (by omega) hi) (fun i hi => q4 r i (by omega) (by omega))
        nf fs h3 (by omega) window w hw
      exact ⟨v, fun _ => hv⟩
    · exact ⟨[], fun h => absurd h hlt⟩
  choose g hg using hr
  have hM : csdBaseN b len x y fs window none nf = .ok ((List.range (len / b.nBin)).map g) := by
    unfold csdBaseN
    simp only [Option.getD_none]
    rw [if_neg (by omega), p1, q1]
    simp only
    apply mapM_ok_eq
    intro r hr
    rw [List.mem_range] at hr
    obtain ⟨g1, -, g3⟩ := hg r hr
    rw [if_pos (by omega), g1]
    simp only [bind, Except.bind]
    unfold assignRow
    rw [if_pos g3]
  refine ⟨_, hM, ?_⟩
  intro r hr
  refine ⟨g r, by rw [List.getElem?_map, List.getElem?_range hr]; rfl, ?_⟩
  rw [← p3]
  exact (hg r hr).2.1

theorem advCsdN_spec (b : VelBinner) (len : ℕ) (vel : Fin 3 → ℕ → Option ℝ) (window : WinArg) (nFftCoh : Option ℕ)
    (hn : b.nBin ≤ len) (h3 : 3 ≤ velNfftCoh b nFftCoh) (hnf : velNfftCoh b nFftCoh ≤ b.nBin) (w : ℕ → ℝ)
    (hw : getWindow window (velNfftCoh b nFftCoh) = .ok w) :
    ∃ s, advCsdN b len vel window nFftCoh = .ok s ∧
      ∀ (c : Fin 3) r, r < len / b.nBin → ∃ o v, s[c.val]? = some o ∧ o[r]? = some v ∧
        cpsdN (b.nBin + velNfftCoh b nFftCoh)
          (Spec.paddedBinN len b.nBin (velNfftCoh b nFftCoh) (vel (Spec.csdPair c).1) r)
          (Spec.paddedBinN len b.nBin (velNfftCoh b nFftCoh) (vel (Spec.csdPair c).2) r)
          (velNfftCoh b nFftCoh) b.fs window none = .ok v := by
  choose o ho1 ho2 using fun c : Fin 3 => csdBaseN_spec b len (vel (Spec.csdPair c).1) (vel (Spec.csdPair c).2) b.fs
    window (velNfftCoh b nFftCoh) hn h3 hnf w hw
  refine ⟨[o 0, o 1, o 2], ?_, ?_⟩
  · have e0 := ho1 0
    have e1 := ho1 1
    have e2 := ho1 2
    simp only [Spec.csdPair, Matrix.cons_val_zero, Matrix.cons_val_one, Matrix.cons_val] at e0 e1 e2
    unfold advCsdN
    simp only [List.mapM_cons, List.mapM_nil, e0, e1, e2, bind, Except.bind, pure, Except.pure]
  · intro c r hr
    obtain ⟨v, hv1, hv2⟩ := ho2 c r hr
    exact ⟨o c, v, get3 o c, hv1, hv2⟩

/-- **C160.** Where a bin and its padding are complete in both components of a pair, the cross spectrum is the one of
velocities without missing samples (any `v` that agrees there), whatever is missing elsewhere. -/
theorem csd_missing_elsewhere (b : VelBinner) (len : ℕ) (vel : Fin 3 → ℕ → Option ℝ) (v : Fin 3 → ℕ → ℝ) (t : ℕ → ℝ)
    (window : WinArg) (nFftCoh : Option ℕ) (hfs : 0 < b.fs) (hn : b.nBin ≤ len) (h3 : 3 ≤ velNfftCoh b nFftCoh)
    (hnf : velNfftCoh b nFftCoh ≤ b.nBin) (w : ℕ → ℝ) (hw : getWindow window (velNfftCoh b nFftCoh) = .ok w) :
    ∃ s s', advCsdN b len vel window nFftCoh = .ok s ∧ advCsd b len v t "Hz" none window none nFftCoh = .ok s' ∧
      ∀ (c : Fin 3) r, r < len / b.nBin →
        (∀ i, i < len → r * b.nBin ≤ i + velNfftCoh b nFftCoh / 2 →
          i < (r + 1) * b.nBin + (velNfftCoh b nFftCoh + 1) / 2 →
          vel (Spec.csdPair c).1 i = some (v (Spec.csdPair c).1 i) ∧
          vel (Spec.csdPair c).2 i = some (v (Spec.csdPair c).2 i)) →
        ∃ o o' q, s[c.val]? = some o ∧ s'.csd[c.val]? = some o' ∧ o'[r]? = some q ∧ o[r]? = some (q.map some) := by
  obtain ⟨s, h1, h2⟩ := advCsdN_spec b len vel window nFftCoh hn h3 hnf w hw
  obtain ⟨s', h1', -, h2'⟩ := advCsd_spec b len v t window nFftCoh hfs hn h3 hnf w hw
  refine ⟨s, s', h1, h1', ?_⟩
  intro c r hr hx
  obtain ⟨o, u, e1, e2, hu⟩ := h2 c r hr
  obtain ⟨o', u', e1', e2', hu'⟩ := h2' c r hr
  have hd : len / b.nBin * b.nBin ≤ len := Nat.div_mul_le_self _ _
  have hpad : ∀ j, j < b.nBin + velNfftCoh b nFftCoh → ∀ d : Fin 3,
      (∀ i, i < len → r * b.nBin ≤ i + velNfftCoh b nFftCoh / 2 →
        i < (r + 1) * b.nBin + (velNfftCoh b nFftCoh + 1) / 2 → vel d i = some (v d i)) →
      Spec.paddedBinN len b.nBin (velNfftCoh b nFftCoh) (vel d) r j
        = some (Spec.paddedBin len b.nBin (velNfftCoh b nFftCoh) (v d) r j) := by
    intro j hj d hd'
    unfold Spec.paddedBinN Spec.paddedBin
    split_ifs with hc
    · refine hd' _ (by omega) (by omega) ?_
      rw [Nat.succ_mul]
      omega
    · rfl
  rw [cpsdN_complete _ _ h3 (by omega) _ _
    (Spec.paddedBin len b.nBin (velNfftCoh b nFftCoh) (v (Spec.csdPair c).1) r)
    (Spec.paddedBin len b.nBin (velNfftCoh b nFftCoh) (v (Spec.csdPair c).2) r)
    (fun j hj => hpad j hj _ fun i a1 a2 a3 => (hx i a1 a2 a3).1)
    (fun j hj => hpad j hj _ fun i a1 a2 a3 => (hx i a1 a2 a3).2), hu'] at hu
  simp only [Except.map, Except.ok.injEq] at hu
  exact ⟨o, o', u', e1, e1', e2', by rw [e2, ← hu]⟩

/-- **C160.** A bin that lacks a sample of its own in either component of a pair has no cross spectrum of that pair. -/
theorem csd_missing_here (b : VelBinner) (len : ℕ) (vel : Fin 3 → ℕ → Option ℝ) (window : WinArg)
    (nFftCoh : Option ℕ) (hn : b.nBin ≤ len) (h3 : 3 ≤ velNfftCoh b nFftCoh) (hnf : velNfftCoh b nFftCoh ≤ b.nBin)
    (w : ℕ → ℝ) (hw : getWindow window (velNfftCoh b nFftCoh) = .ok w) :
    ∃ s, advCsdN b len vel window nFftCoh = .ok s ∧ ∀ (c : Fin 3) i, i < len / b.nBin * b.nBin →
      (vel (Spec.csdPair c).1 i = none ∨ vel (Spec.csdPair c).2 i = none) →
      ∃ o, s[c.val]? = some o ∧ o[i / b.nBin]? = some (List.replicate (velNfftCoh b nFftCoh / 2) none) := by
  obtain ⟨s, h1, h2⟩ := advCsdN_spec b len vel window nFftCoh hn h3 hnf w hw
  refine ⟨s, h1, ?_⟩
  intro c i hi hx
  have hb : 0 < b.nBin := by omega
  obtain ⟨o, u, e1, e2, hu⟩ := h2 c (i / b.nBin) ((Nat.div_lt_iff_lt_mul hb).mpr hi)
  refine ⟨o, e1, ?_⟩
  rw [e2]
  have d1 := Nat.div_add_mod i b.nBin
  have d2 := Nat.mod_lt i hb
  have key : ∀ d : Fin 3, vel d i = none → Spec.paddedBinN len b.nBin (velNfftCoh b nFftCoh) (vel d) (i / b.nBin)
      (i % b.nBin + velNfftCoh b nFftCoh / 2) = none := by
    intro d hd
    unfold Spec.paddedBinN
    rw [Nat.mul_comm] at d1
    have e3 : i / b.nBin * b.nBin + (i % b.nBin + velNfftCoh b nFftCoh / 2) - velNfftCoh b nFftCoh / 2 = i := by omega
    rw [e3, if_pos ⟨by omega, hi⟩]
    exact hd
  rw [cpsdN_missing _ _ h3 (by omega) _ _ (i % b.nBin + velNfftCoh b nFftCoh / 2) (by omega)
    (hx.imp (key _) (key _)) _ _ w hw] at hu
  rw [Except.ok.inj hu]

/-- A binner with bins of 16 samples and FFTs of 4; a gap in `w` of the second bin. -/
example : let b : VelBinner := ⟨16, 2, 4, 4⟩
    b.nBin ≤ 40 ∧ 3 ≤ velNfftCoh b none ∧ velNfftCoh b none ≤ b.nBin ∧ 25 < 40 / b.nBin * b.nBin ∧
      (Spec.csdPair 1).2 = 2 := by
  decide

/-! ### Phase -/

/-- Complete records have the phase of their values. -/
theorem phaseAngleN_first (l nf : ℕ) (h3 : 3 ≤ nf) (hl : nf ≤ l) (a b : ℕ → Option ℝ) (u v : ℕ → ℝ)
    (ha : ∀ i, i < l → a i = some (u i)) (hb : ∀ i, i < nf → b i = some (v i)) (window : WinArg) :
    phaseAngleN l a b nf window none = (phaseAngle l u v nf window none).map fun r => r.map some := by
  obtain ⟨s, st, h1, h2, h4, h5, -⟩ := steps_default l nf h3 hl
  unfold phaseAngleN phaseAngle
  cases getWindow window nf with
  | error e => rfl
  | ok w =>
    simp only
    rw [if_neg (by omega), if_neg (by omega), h1]
    simp only
    rw [h4]
    simp only [Except.map, List.map_map]
    congr 1
    apply List.map_congr_left
    intro k _
    rw [mapM_some_eq _ (fun i => segFft u i nf w (k + 1) / (‖segFft u i nf w (k + 1)‖ : ℂ) /
      (segFft u i nf w (k + 1) / (‖segFft u i nf w (k + 1)‖ : ℂ))),
      segFftN_complete a u 0 nf (by omega) w (k + 1) fun j hj => ha _ (by omega),
      segFftN_complete b v 0 nf (by omega) w (k + 1) fun j hj => hb _ (by omega)]
    · rfl
    · intro i hi
      have := h5 i (List.mem_of_mem_drop hi)
      rw [segFftN_complete a u i nf (by omega) w (k + 1) fun j hj => ha _ (by omega)]
      rfl

/-- **C160, phase.** A sample missing in the first record, or in the first segment of the second, makes the phase
missing. -/
theorem phase_missing_partial (l nf : ℕ) (h3 : 3 ≤ nf) (hl : nf ≤ l) (a b : ℕ → Option ℝ) (i : ℕ)
    (h : (a i = none ∧ i + nf / 2 < l) ∨ (b i = none ∧ i < nf)) (window : WinArg) (w : ℕ → ℝ)
    (hw : getWindow window nf = .ok w) :
    phaseAngleN l a b nf window none = .ok (List.replicate (nf / 2) none) := by
  obtain ⟨s, st, h1, h2, h4, h5, h6⟩ := steps_default l nf h3 hl
  unfold phaseAngleN
  rw [hw]
  simp only
  rw [if_neg (by omega), h1]
  simp only
  rw [h4]
  simp only
  congr 1
  rw [List.eq_replicate_iff]
  refine ⟨by simp, ?_⟩
  intro x hx
  obtain ⟨k, -, rfl⟩ := List.mem_map.mp hx
  rcases h with ⟨h, hi⟩ | ⟨h, hi⟩
  · obtain ⟨q, hq, hqi, hiq⟩ := h6 i hi
    by_cases hq0 : i < nf
    · rw [segFftN_missing a 0 nf w (k + 1) i hq0 (by rw [Nat.zero_add]; exact h), opt2_none_right]
      rfl
    · have hmem : q ∈ st.drop 1 := by
        have hst : st.head? = some 0 ∨ st = [] := by
          unfold segStarts at h4
          split_ifs at h4
          · cases h4
            simp
          · generalize pyRange s.step (l - s.nfft + 1) s.step = R at h4
            cases R with
            | error e => cases h4
            | ok r => cases h4; simp
        cases st with
        | nil => cases hq
        | cons p st =>
          rcases List.mem_cons.mp hq with rfl | hq
          · simp at hst
            omega
          · exact hq
      rw [mapM_none_of _ _ ⟨q, hmem, ?_⟩]
      · exact opt2_none_right _ _
      · rw [segFftN_missing a q nf w (k + 1) (i - q) (by omega) (by rw [Nat.add_sub_cancel' hqi]; exact h)]
        rfl
  · rw [segFftN_missing b 0 nf w (k + 1) i hi (by rw [Nat.zero_add]; exact h)]
    rfl

/-- **C160, refuted for the phase.** Everything the second record misses after its first segment goes unnoticed: the
phase is that of any complete record. -/
theorem phase_missing_false (l nf : ℕ) (h3 : 3 ≤ nf) (hl : nf ≤ l) (a b : ℕ → Option ℝ) (u v : ℕ → ℝ)
    (ha : ∀ i, i < l → a i = some (u i)) (hb : ∀ i, i < nf → b i = some (v i)) (window : WinArg) (w : ℕ → ℝ)
    (hw : getWindow window nf = .ok w) :
    ∃ p : List ℂ, p.length = nf / 2 ∧ phaseAngleN l a b nf window none = .ok (p.map some) := by
  rw [phaseAngleN_first l nf h3 hl a b u v ha hb]
  obtain ⟨s, st, h1, h2, h4, -, -⟩ := steps_default l nf h3 hl
  unfold phaseAngle
  rw [hw]
  simp only
  rw [if_neg (by omega), h1]
  simp only
  rw [h4]
  exact ⟨_, by simp, rfl⟩

/-- Its hypotheses are met by a second record of which all but the first of many segments is missing. -/
example : (∀ i, i < 1000 → (fun i : ℕ => some (i : ℝ)) i = some ((fun i : ℕ => (i : ℝ)) i)) ∧
    (∀ i, i < 4 → (fun i : ℕ => if i < 4 then some ((i : ℝ) ^ 2) else none) i = some ((fun i : ℕ => (i : ℝ) ^ 2) i)) :=
  ⟨fun _ _ => rfl, fun i hi => by simp only [if_pos hi]⟩

/-! ### Coherence -/

theorem psdN_complete_at (l nf : ℕ) (hn : 2 ≤ nf) (a : ℕ → Option ℝ) (v : ℕ → ℝ)
    (h : ∀ i, i < l → a i = some (v i)) (fs : ℝ) (window : WinArg) (step : Option ℕ) (s : Steps) (st : List ℕ)
    (h1 : stepsize l nf none step = .ok s) (h2 : s.nfft = nf) (h4 : segStarts l s = .ok st)
    (h5 : ∀ i ∈ st, i + nf ≤ l) :
    psdN l a nf fs window step = (psd l v nf fs window step).map fun r => r.map some := by
  unfold psdN psd cpsd
  rw [h1]
  simp only
  rw [h2]
  cases getWindow window nf with
  | error e => rfl
  | ok w =>
    simp only
    rw [h4]
    simp only [Except.map, List.map_map, if_true]
    congr 1
    apply List.map_congr_left
    intro k _
    rw [mapM_some_eq _ (fun i => ((‖segFft v i nf w (k + 1)‖ ^ 2 : ℝ) : ℂ))]
    · rfl
    · intro i hi
      rw [segFftN_complete a v i nf hn w (k + 1) fun j hj => h _ (by have := h5 i hi; omega)]
      rfl

/-- **C160, coherence.** Complete records have the coherence of their values. -/
theorem coherence_complete (l nf : ℕ) (h3 : 3 ≤ nf) (hl : nf < l) (a b : ℕ → Option ℝ) (u v : ℕ → ℝ)
    (ha : ∀ i, i < l → a i = some (u i)) (hb : ∀ i, i < l → b i = some (v i)) (window : WinArg) (debias : Bool)
    (noise : ℝ × ℝ) :
    coherenceN l a b nf window debias noise = (coherence false l u v nf window debias noise).map fun r => r.map some := by
  obtain ⟨s, st, h1, -, h2, hp, -⟩ := segments_default l nf h3 hl
  unfold coherenceN coherence
  rw [h1]
  simp only
  rw [h2]
  have hs := stepsize_default l nf (by omega) hl
  rw [h1] at hs
  have hs' := Except.ok.inj hs
  have hn2 : 2 ≤ s.nens := by
    rw [hs']
    exact (Nat.le_div_iff_mul_le (by omega)).mpr (by omega)
  have hst2 : stepsize l nf (some s.nens) none = .ok s := by
    unfold stepsize
    simp only
    rw [if_neg (by omega : ¬ l < nf), if_neg (by omega : ¬ s.nens = 1),
      if_neg (by omega : ¬ s.nens = 0), hs']
  rw [hst2]
  simp only
  by_cases hens : s.nens ≤ 2
  · rw [if_pos hens, if_pos hens]
    rfl
  rw [if_neg hens, if_neg hens, h2, cpsdN_complete l nf h3 hl.le a b u v ha hb]
  obtain ⟨t, ts, k1, k2, -, k4⟩ := segments_explicit l nf s.step hp
  have k5 : t.nfft = nf := by
    rw [stepsize_step l nf s.step hp] at k1
    cases k1
    exact min_eq_right hl.le
  have k6 : ∀ i ∈ ts, i + nf ≤ l := by
    intro i hi
    have := ((k4 i).mp hi).2
    rw [min_eq_right hl.le] at this
    exact this
  rw [psdN_complete_at l nf (by omega) a u ha 1 window (some s.step) t ts k1 k5 k2 k6,
    psdN_complete_at l nf (by omega) b v hb 1 window (some s.step) t ts k1 k5 k2 k6]
  cases cpsd false l u v nf 1 window none with
  | error e => rfl
  | ok c =>
    cases psd l u nf 1 window (some s.step) with
    | error e => rfl
    | ok pa =>
      cases psd l v nf 1 window (some s.step) with
      | error e => rfl
      | ok pb =>
        simp only [Except.map, List.map_map]
        congr 1
        rw [List.zip_map, List.zip_map, List.map_map]
        rfl

/-- **C160, coherence.** A sample missing in either record, unless among the last that no segment reaches, leaves no
coherence at any frequency. -/
theorem coherence_missing (l nf : ℕ) (h3 : 3 ≤ nf) (hl : nf ≤ l) (a b : ℕ → Option ℝ) (i : ℕ) (hi : i + nf / 2 < l)
    (h : a i = none ∨ b i = none) (window : WinArg) (debias : Bool) (noise : ℝ × ℝ) (c : List (Option ℝ))
    (hc : coherenceN l a b nf window debias noise = .ok c) : ∀ x ∈ c, x = none := by
  obtain ⟨s, st, h1, h2, h4, h5, h6⟩ := steps_default l nf h3 hl
  unfold coherenceN at hc
  rw [h1] at hc
  simp only at hc
  rw [h2] at hc
  cases hs : stepsize l nf (some s.nens) none with
  | error e => rw [hs] at hc; cases hc
  | ok s2 =>
    have hnf2 : s2.nfft = nf := by
      unfold stepsize at hs
      simp only at hs
      split_ifs at hs <;> first | (cases hs; rfl) | skip
      all_goals (cases hs; omega)
    rw [hs] at hc
    simp only at hc
    by_cases hens : s2.nens ≤ 2
    · rw [if_pos hens] at hc; cases hc
    rw [if_neg hens, hnf2] at hc
    cases hw : getWindow window nf with
    | error e =>
      exfalso
      have : cpsdN l a b nf 1 window none = .error e := by
        unfold cpsdN
        rw [h1]
        simp only
        rw [h2, hw]
      rw [this] at hc
      cases hc
    | ok w =>
      rw [cpsdN_missing l nf h3 hl a b i hi h 1 window w hw] at hc
      split at hc
      · cases hc
      · cases hc
      · cases hc
      · rename_i c' pa pb e1 _ _
        obtain rfl := Except.ok.inj e1
        obtain rfl := Except.ok.inj hc
        intro x hx
        obtain ⟨⟨p, q⟩, hp, rfl⟩ := List.mem_map.mp hx
        have := List.of_mem_zip hp
        obtain rfl := List.eq_of_mem_replicate this.1
        rfl

end Dolfyn
