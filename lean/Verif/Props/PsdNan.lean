import Verif.Model.PsdNan
import Verif.Props.VelPsd

/-!
C136: spectra of records with missing samples.
-/

namespace Dolfyn

/-- What a bin and its padding read from the record; zeros beyond the ends. -/
def Spec.paddedBinN (len n pad : ℕ) (x : ℕ → Option ℝ) (r j : ℕ) : Option ℝ :=
  if pad / 2 ≤ r * n + j ∧ r * n + j - pad / 2 < len / n * n then x (r * n + j - pad / 2) else some 0

/-- Detrending sees only the segment. -/
theorem detrend_congr (n : ℕ) (v v' : ℕ → Option ℝ) (h : ∀ i, i < n → v i = v' i) (t : ℕ) (ht : t < n) :
    detrend n v t = detrend n v' t := by
  unfold detrend
  simp only
  rw [vals_congr n v v' h, h t ht]
  rw [vals_congr n (fun i => opt2 (· * ·) (opt2 (· - ·) (some (i : ℝ)) (nanmean (vals n fun i => some (i : ℝ))))
    (opt2 (· - ·) (v i) (nanmean (vals n v')))) (fun i => opt2 (· * ·) (opt2 (· - ·) (some (i : ℝ))
    (nanmean (vals n fun i => some (i : ℝ)))) (opt2 (· - ·) (v' i) (nanmean (vals n v')))) fun i hi => by
      simp only [h i hi]]

theorem detrend_missing (n : ℕ) (v : ℕ → Option ℝ) (t : ℕ) (h : v t = none) : detrend n v t = none := by
  unfold detrend
  simp only [h, opt2]

theorem segFftN_complete (a : ℕ → Option ℝ) (v : ℕ → ℝ) (i n : ℕ) (hn : 2 ≤ n) (w : ℕ → ℝ) (k : ℕ)
    (h : ∀ j, j < n → a (i + j) = some (v (i + j))) : segFftN a i n w k = some (segFft v i n w k) := by
  have e : ∀ t, t < n → detrend n (fun j => a (i + j)) t = some (detrendR n (fun j => v (i + j)) t) := by
    intro t ht
    rw [detrend_congr n (fun j => a (i + j)) (fun j => some (v (i + j))) h t ht]
    obtain ⟨α, β, r, h1, -⟩ := detrend_normal n hn fun j => v (i + j)
    unfold detrendR
    rw [h1]
    rfl
  unfold segFftN segFft
  simp only
  rw [if_pos]
  · congr 1
    unfold dft
    apply Finset.sum_congr rfl
    intro t ht
    simp only [e t (Finset.mem_range.mp ht), Option.getD_some]
  · rw [List.all_eq_true]
    intro t ht
    rw [e t (List.mem_range.mp ht)]
    rfl

theorem segFftN_missing (a : ℕ → Option ℝ) (i n : ℕ) (w : ℕ → ℝ) (k j : ℕ) (hj : j < n) (h : a (i + j) = none) :
    segFftN a i n w k = none := by
  unfold segFftN
  simp only
  rw [if_neg]
  rw [List.all_eq_true]
  intro hc
  have := hc j (List.mem_range.mpr hj)
  rw [detrend_missing n _ j h] at this
  cases this

theorem mapM_some_eq {α β : Type*} (f : α → Option β) (g : α → β) :
    ∀ l : List α, (∀ a ∈ l, f a = some (g a)) → l.mapM f = some (l.map g)
  | [], _ => rfl
  | a :: l, h => by
    rw [List.mapM_cons, h a (by simp), mapM_some_eq f g l fun b hb => h b (by simp [hb])]
    rfl

theorem mapM_none_of {α β : Type*} (f : α → Option β) :
    ∀ l : List α, (∃ a ∈ l, f a = none) → l.mapM f = none
  | [], h => by simp at h
  | a :: l, h => by
    rw [List.mapM_cons]
    cases ha : f a with
    | none => rfl
    | some b =>
      have : ∃ c ∈ l, f c = none := by
        obtain ⟨c, hc, hn⟩ := h
        rcases List.mem_cons.mp hc with rfl | hc
        · rw [ha] at hn; cases hn
        · exact ⟨c, hc, hn⟩
      rw [mapM_none_of f l this]
      rfl

theorem steps_default (l nf : ℕ) (h3 : 3 ≤ nf) (hl : nf ≤ l) :
    ∃ s st, stepsize l nf none none = .ok s ∧ s.nfft = nf ∧ segStarts l s = .ok st ∧ (∀ i ∈ st, i + nf ≤ l) ∧
      ∀ i, i + nf / 2 < l → ∃ q ∈ st, q ≤ i ∧ i < q + nf := by
  rcases Nat.lt_or_ge nf l with hlt | hge
  · obtain ⟨s, st, h1, h2, h4, hp, hh, -, h5, -⟩ := segments_default l nf h3 hlt
    refine ⟨s, st, h1, h4, h2, fun i hi => ((h5 i).mp hi).2, fun i hi => ?_⟩
    have d1 := Nat.div_add_mod i s.step
    have d2 := Nat.mod_lt i hp
    have c1 := Nat.div_add_mod (l - nf) s.step
    have c2 := Nat.mod_lt (l - nf) hp
    by_cases hc : s.step * (i / s.step) + nf ≤ l
    · exact ⟨s.step * (i / s.step), (h5 _).mpr ⟨Dvd.intro _ rfl, hc⟩, by omega, by omega⟩
    · exact ⟨s.step * ((l - nf) / s.step), (h5 _).mpr ⟨Dvd.intro _ rfl, by omega⟩, by omega, by omega⟩
  · obtain rfl : l = nf := le_antisymm hge hl
    exact ⟨⟨0, 1, l⟩, [0], by simp [stepsize], rfl, by simp [segStarts], by simp,
      fun i hi => ⟨0, by simp, by omega, by omega⟩⟩

/-- A record without missing samples has the spectrum of its values. -/
theorem psdN_complete (l nf : ℕ) (h3 : 3 ≤ nf) (hl : nf ≤ l) (a : ℕ → Option ℝ) (v : ℕ → ℝ)
    (h : ∀ i, i < l → a i = some (v i)) (fs : ℝ) (window : WinArg) :
    psdN l a nf fs window none = (psd l v nf fs window none).map fun r => r.map some := by
  obtain ⟨s, st, h1, h2, h4, h5, -⟩ := steps_default l nf h3 hl
  unfold psdN psd cpsd
  rw [h1]
  simp only
  rw [h2]
  cases getWindow window nf with
  | error e => rfl
  | ok w =>
    simp only
    rw [h4]
    simp only [Except.map, List.map_map, if_true]
    congr 1
    apply List.map_congr_left
    intro k _
    rw [mapM_some_eq _ (fun i => ((‖segFft v i nf w (k + 1)‖ ^ 2 : ℝ) : ℂ))]
    · rfl
    · intro i hi
      rw [segFftN_complete a v i nf (by omega) w (k + 1) fun j hj => h _ (by have := h5 i hi; omega)]
      rfl

/-- A missing sample, unless among the last that no segment reaches, makes the whole spectrum missing. -/
theorem psdN_missing (l nf : ℕ) (h3 : 3 ≤ nf) (hl : nf ≤ l) (a : ℕ → Option ℝ) (i : ℕ) (hi : i + nf / 2 < l)
    (h : a i = none) (fs : ℝ) (window : WinArg) (w : ℕ → ℝ) (hw : getWindow window nf = .ok w) :
    psdN l a nf fs window none = .ok (List.replicate (nf / 2) none) := by
  obtain ⟨s, st, h1, h2, h4, h5, h6⟩ := steps_default l nf h3 hl
  obtain ⟨q, hq, hqi, hiq⟩ := h6 i hi
  unfold psdN
  rw [h1]
  simp only
  rw [h2, hw]
  simp only
  rw [h4]
  simp only
  congr 1
  rw [List.eq_replicate_iff]
  refine ⟨by simp, ?_⟩
  intro x hx
  obtain ⟨k, -, rfl⟩ := List.mem_map.mp hx
  rw [mapM_none_of _ _ ⟨q, hq, ?_⟩]
  · rfl
  · rw [segFftN_missing a q nf w (k + 1) (i - q) (by omega) (by rw [Nat.add_sub_cancel' hqi]; exact h)]
    rfl

theorem mapM_congr_mem {α β : Type*} (f g : α → Option β) :
    ∀ l : List α, (∀ a ∈ l, f a = g a) → l.mapM f = l.mapM g
  | [], _ => rfl
  | a :: l, h => by
    rw [List.mapM_cons, List.mapM_cons, h a (by simp), mapM_congr_mem f g l fun b hb => h b (by simp [hb])]

theorem segFftN_congr (a a' : ℕ → Option ℝ) (i n : ℕ) (w : ℕ → ℝ) (k : ℕ) (h : ∀ j, j < n → a (i + j) = a' (i + j)) :
    segFftN a i n w k = segFftN a' i n w k := by
  have e : ∀ t, t < n → detrend n (fun j => a (i + j)) t = detrend n (fun j => a' (i + j)) t :=
    fun t ht => detrend_congr n _ _ h t ht
  have e2 : (List.range n).all (fun t => (detrend n (fun j => a (i + j)) t).isSome)
      = (List.range n).all (fun t => (detrend n (fun j => a' (i + j)) t).isSome) := by
    rw [Bool.eq_iff_iff, List.all_eq_true, List.all_eq_true]
    constructor
    · intro hx t ht; rw [← e t (List.mem_range.mp ht)]; exact hx t ht
    · intro hx t ht; rw [e t (List.mem_range.mp ht)]; exact hx t ht
  unfold segFftN
  simp only
  rw [e2]
  split_ifs
  · congr 1
    unfold dft
    apply Finset.sum_congr rfl
    intro t ht
    simp only [e t (Finset.mem_range.mp ht)]
  · rfl

theorem psdN_congr (l : ℕ) (a a' : ℕ → Option ℝ) (h : ∀ i, i < l → a i = a' i) (nf : ℕ) (fs : ℝ) (h3 : 3 ≤ nf)
    (hl : nf ≤ l) (window : WinArg) : psdN l a nf fs window none = psdN l a' nf fs window none := by
  obtain ⟨s, st, h1, h2, h4, h5, -⟩ := steps_default l nf h3 hl
  unfold psdN
  rw [h1]
  simp only
  rw [h2]
  cases getWindow window nf with
  | error e => rfl
  | ok w =>
    simp only
    rw [h4]
    simp only
    congr 1
    apply List.map_congr_left
    intro k _
    congr 1
    apply mapM_congr_mem
    intro i hi
    rw [segFftN_congr a a' i nf w (k + 1) fun j hj => h _ (by have := h5 i hi; omega)]

theorem psdN_ok (l nf : ℕ) (h3 : 3 ≤ nf) (hl : nf ≤ l) (a : ℕ → Option ℝ) (fs : ℝ) (window : WinArg) (w : ℕ → ℝ)
    (hw : getWindow window nf = .ok w) :
    ∃ r, psdN l a nf fs window none = .ok r ∧ r.length = nf / 2 := by
  obtain ⟨s, st, h1, h2, h4, -, -⟩ := steps_default l nf h3 hl
  unfold psdN
  rw [h1]
  simp only
  rw [h2, hw]
  simp only
  rw [h4]
  exact ⟨_, rfl, by simp⟩

/-- The spectra without noise correction: row by row those of the padded bins. -/
theorem psdBaseN_spec (junk : ℕ → List (Option ℝ)) (b : VelBinner) (len : ℕ) (x : ℕ → Option ℝ) (fs : ℝ)
    (window : WinArg) (nFft : Option ℕ) (hn : b.nBin ≤ len) (h3 : 3 ≤ velNfft b nFft) (hnf : velNfft b nFft ≤ b.nBin)
    (w : ℕ → ℝ) (hw : getWindow window (velNfft b nFft) = .ok w) :
    ∃ o, (∀ noise, psdBaseN junk b len x fs window noise none nFft none none = noiseRowsN o noise fs) ∧ o.length = len / b.nBin ∧
      (∀ r ∈ o, r.length = velNfft b nFft / 2) ∧
      ∀ r, r < len / b.nBin → ∃ v, o[r]? = some v ∧
        psdN (b.nBin + min (b.nBin - velNfft b nFft) (velNfft b nFft))
          (Spec.paddedBinN len b.nBin (min (b.nBin - velNfft b nFft) (velNfft b nFft)) x r) (velNfft b nFft) fs window
          none = .ok v := by
  generalize hnfe : velNfft b nFft = nf at *
  obtain ⟨m, h1, h2, h4, h5⟩ := reshape_spec (some (0 : ℝ)) len x b.nBin (min (b.nBin - nf) nf) (by omega) hn (by omega)
  have hpad : ((min (b.nBin - nf) nf : ℕ) : ℤ) = min ((b.nBin : ℤ) - nf) nf := by omega
  rw [hpad] at h1
  have hr : ∀ r, ∃ v, psdN m.cols (m.at_ r) nf fs window none = .ok v ∧ v.length = nf / 2 := fun r =>
    psdN_ok _ _ h3 (by omega) _ _ _ w hw
  choose g hg hgl using hr
  have hM : (List.range (len / b.nBin)).mapM (fun r => if r < m.rows then
      (psdN m.cols (m.at_ r) nf fs window none).bind (fun s => assignRow (nf / 2) s) else .ok (junk r)) =
      .ok ((List.range (len / b.nBin)).map g) := by
    apply mapM_ok_eq
    intro r hr
    rw [List.mem_range] at hr
    rw [if_pos (by omega), hg]
    simp only [Except.bind]
    unfold assignRow
    rw [if_pos (hgl r)]
  refine ⟨(List.range (len / b.nBin)).map g, ?_, by simp, ?_, ?_⟩
  · intro noise
    unfold psdBaseN
    simp only [Option.getD_none, hnfe]
    rw [if_neg (by omega), h1]
    simp only [bind]
    rw [if_neg (by omega), hM]
    rfl
  · intro v hv
    obtain ⟨r, -, rfl⟩ := List.mem_map.mp hv
    exact hgl r
  · intro r hr
    refine ⟨g r, by rw [List.getElem?_map, List.getElem?_range hr]; rfl, ?_⟩
    rw [← hg r, h4]
    symm
    refine psdN_congr _ _ _ ?_ nf fs h3 (by omega) window
    intro j hj
    exact h5 r j (by omega) (by omega)

theorem noiseRowsN_zero (o : List (List (Option ℝ))) (fs : ℝ) : noiseRowsN o 0 fs = .ok o := by
  unfold noiseRowsN
  rw [if_pos rfl]

/-- **C136, no noise level.** Where a bin and its padding are complete, the spectrum is the one of a record without
missing samples (any `v` that agrees with the record there), whatever is missing elsewhere. -/
theorem psd_missing_elsewhere (junk : ℕ → List (Option ℝ)) (junk' : ℕ → List ℝ) (b : VelBinner) (len : ℕ)
    (x : ℕ → Option ℝ) (v : ℕ → ℝ) (fs : ℝ) (window : WinArg) (nFft : Option ℕ) (hn : b.nBin ≤ len)
    (h3 : 3 ≤ velNfft b nFft) (hnf : velNfft b nFft ≤ b.nBin) (w : ℕ → ℝ)
    (hw : getWindow window (velNfft b nFft) = .ok w) :
    ∃ o o', psdBaseN junk b len x fs window 0 none nFft none none = .ok o ∧
      psdBase junk' b len v fs window 0 none nFft none none = .ok o' ∧
      ∀ r, r < len / b.nBin →
        (∀ i, i < len → r * b.nBin ≤ i + velNfft b nFft / 2 → i < (r + 1) * b.nBin + (velNfft b nFft + 1) / 2 →
          x i = some (v i)) →
        o[r]? = (o'[r]?).map fun row => row.map some := by
  obtain ⟨o, h1, -, -, h4⟩ := psdBaseN_spec junk b len x fs window nFft hn h3 hnf w hw
  obtain ⟨o', h1', -, -, h4'⟩ := psdBase_spec junk' b len v fs window nFft hn h3 hnf w hw
  replace h1 := h1 0
  rw [noiseRowsN_zero] at h1
  refine ⟨o, o', h1, h1', ?_⟩
  intro r hr hx
  obtain ⟨u, e, hu⟩ := h4 r hr
  obtain ⟨u', e', hu'⟩ := h4' r hr
  rw [psdN_complete _ _ h3 (by omega) _ (Spec.paddedBin len b.nBin
    (min (b.nBin - velNfft b nFft) (velNfft b nFft)) v r) ?_] at hu
  · rw [hu'] at hu
    simp only [Except.map, Except.ok.injEq] at hu
    rw [e, e', ← hu]
    rfl
  · intro j hj
    unfold Spec.paddedBinN Spec.paddedBin
    split_ifs with hc
    · refine hx _ ?_ ?_ ?_
      · have := Nat.div_mul_le_self len b.nBin
        omega
      · omega
      · rw [Nat.succ_mul]
        omega
    · rfl

/-- A bin that lacks one of its own samples has no spectrum (bins of at least two FFT lengths). -/
theorem psd_missing_here (junk : ℕ → List (Option ℝ)) (b : VelBinner) (len : ℕ)
    (x : ℕ → Option ℝ) (fs : ℝ) (window : WinArg) (nFft : Option ℕ) (hn : b.nBin ≤ len)
    (h3 : 3 ≤ velNfft b nFft) (hnf : 2 * velNfft b nFft ≤ b.nBin) (w : ℕ → ℝ)
    (hw : getWindow window (velNfft b nFft) = .ok w) (i : ℕ) (hi : i < len / b.nBin * b.nBin) (hx : x i = none) :
    ∃ o, psdBaseN junk b len x fs window 0 none nFft none none = .ok o ∧
      o[i / b.nBin]? = some (List.replicate (velNfft b nFft / 2) none) := by
  obtain ⟨o, h1, -, -, h4⟩ := psdBaseN_spec junk b len x fs window nFft hn h3 (by omega) w hw
  replace h1 := h1 0
  rw [noiseRowsN_zero] at h1
  refine ⟨o, h1, ?_⟩
  have hb : 0 < b.nBin := by omega
  obtain ⟨u, e, hu⟩ := h4 (i / b.nBin) ((Nat.div_lt_iff_lt_mul hb).mpr hi)
  rw [e]
  have d1 := Nat.div_add_mod i b.nBin
  have d2 := Nat.mod_lt i hb
  have hm : min (b.nBin - velNfft b nFft) (velNfft b nFft) = velNfft b nFft := by omega
  rw [hm] at hu
  rw [psdN_missing _ _ h3 (by omega) _ (i % b.nBin + velNfft b nFft / 2) (by omega) ?_ _ _ w hw] at hu
  · rw [Except.ok.inj hu]
  · unfold Spec.paddedBinN
    rw [Nat.mul_comm] at d1
    have e2 : i / b.nBin * b.nBin + (i % b.nBin + velNfft b nFft / 2) - velNfft b nFft / 2 = i := by omega
    rw [e2, if_pos ⟨by omega, hi⟩]
    exact hx

theorem noiseRowsN_entry {o : List (List (Option ℝ))} {noise fs : ℝ} (h0 : noise ≠ 0) (hne : o.flatten ≠ []) :
    ∃ o', noiseRowsN o noise fs = .ok o' ∧ ∀ (r k : ℕ) (row : List (Option ℝ)) (s : ℝ), o[r]? = some row →
      row[k]? = some (some s) → ∃ row', o'[r]? = some row' ∧
        (noise ^ 2 / (fs / 2) ≤ s → row'[k]? = some (some (s - noise ^ 2 / (fs / 2)))) ∧
        ((∃ q ∈ o, none ∈ q) → s < noise ^ 2 / (fs / 2) → row'[k]? = some none) := by
  unfold noiseRowsN
  rw [if_neg h0]
  simp only
  rw [if_neg]
  · refine ⟨_, rfl, ?_⟩
    intro r k row s hr hk
    rw [List.getElem?_map, List.getElem?_map, hr]
    refine ⟨_, rfl, ?_, ?_⟩
    · intro hs
      rw [List.getElem?_map, List.getElem?_map, hk]
      simp only [Option.map_some]
      rw [if_neg (by linarith)]
    · rintro ⟨q, hq, hnq⟩ hs
      rw [List.getElem?_map, List.getElem?_map, hk]
      simp only [Option.map_some]
      rw [if_pos (by linarith), mapM_none_of]
      · rfl
      · refine ⟨none, ?_, rfl⟩
        rw [List.mem_flatten]
        exact ⟨_, List.mem_map_of_mem hq, List.mem_map.mpr ⟨none, hnq, rfl⟩⟩
  · intro hc
    apply hne
    rw [List.flatten_eq_nil_iff] at hc ⊢
    intro l hl
    have := hc _ (List.mem_map_of_mem hl)
    exact List.map_eq_nil_iff.mp this

/-- With a noise level the full statement is false: if anything is missing anywhere in the spectra, every value
below the noise level is missing too, also in complete bins; values above it are corrected as they should. -/
theorem psd_missing_noise_false (junk : ℕ → List (Option ℝ)) (b : VelBinner) (len : ℕ)
    (x : ℕ → Option ℝ) (fs noise : ℝ) (window : WinArg) (nFft : Option ℕ) (hn : b.nBin ≤ len)
    (h3 : 3 ≤ velNfft b nFft) (hnf : 2 * velNfft b nFft ≤ b.nBin) (w : ℕ → ℝ)
    (hw : getWindow window (velNfft b nFft) = .ok w) (h0 : noise ≠ 0) (i : ℕ) (hi : i < len / b.nBin * b.nBin)
    (hx : x i = none) :
    ∃ o o', psdBaseN junk b len x fs window 0 none nFft none none = .ok o ∧
      psdBaseN junk b len x fs window noise none nFft none none = .ok o' ∧
      ∀ (r k : ℕ) (row : List (Option ℝ)) (s : ℝ), o[r]? = some row → row[k]? = some (some s) →
        ∃ row', o'[r]? = some row' ∧
          (s < noise ^ 2 / (fs / 2) → row'[k]? = some none) ∧
          (noise ^ 2 / (fs / 2) ≤ s → row'[k]? = some (some (s - noise ^ 2 / (fs / 2)))) := by
  obtain ⟨o, h1, -⟩ := psdBaseN_spec junk b len x fs window nFft hn h3 (by omega) w hw
  obtain ⟨p, h2, h4⟩ := psd_missing_here junk b len x fs window nFft hn h3 hnf w hw i hi hx
  obtain rfl : o = p := by
    rw [h1 0, noiseRowsN_zero] at h2
    exact Except.ok.inj h2
  have hmem : List.replicate (velNfft b nFft / 2) (none : Option ℝ) ∈ o := List.mem_of_getElem? h4
  have hnone : (none : Option ℝ) ∈ List.replicate (velNfft b nFft / 2) (none : Option ℝ) :=
    List.mem_replicate.mpr ⟨by omega, rfl⟩
  obtain ⟨o', h5, h6⟩ := noiseRowsN_entry (o := o) (fs := fs) h0 (by
    intro hc
    have := List.flatten_eq_nil_iff.mp hc _ hmem
    rw [this] at hnone
    cases hnone)
  refine ⟨o, o', h2, by rw [h1 noise, h5], ?_⟩
  intro r k row s hr hk
  obtain ⟨row', e1, e2, e3⟩ := h6 r k row s hr hk
  exact ⟨row', e1, e3 ⟨_, hmem, hnone⟩, e2⟩

/-- A binner with bins of 16 samples and FFTs of 4. -/
example : let b : VelBinner := ⟨16, 2, 4, 4⟩
    b.nBin ≤ 40 ∧ 3 ≤ velNfft b none ∧ 2 * velNfft b none ≤ b.nBin ∧ 20 < 40 / b.nBin * b.nBin := by
  decide

/-- The statement it refutes fails on a record: water at rest, one sample missing in the second of two bins. The
first bin is complete, but with a noise level all of its spectrum is missing. -/
theorem psd_missing_noise_witness (junk : ℕ → List (Option ℝ)) (fs noise : ℝ) (hfs : 0 < fs) (h0 : noise ≠ 0) :
    ∃ o', psdBaseN junk ⟨16, 2, 4, 4⟩ 40 (fun i => if i = 25 then none else some 0) fs .none noise none none none none
        = .ok o' ∧ ∃ row, o'[0]? = some row ∧ row[0]? = some none := by
  set b : VelBinner := ⟨16, 2, 4, 4⟩ with hb
  have hv : velNfft b none = 4 := rfl
  obtain ⟨o, o', h1, h2, h3⟩ := psd_missing_noise_false junk b 40 (fun i => if i = 25 then none else some 0) fs noise
    .none none (by decide) (by decide) (by decide) (fun _ => 1) rfl h0 25 (by decide) (by simp)
  obtain ⟨p, q, g1, g2, g3⟩ := psd_missing_elsewhere junk (fun _ => []) b 40 (fun i => if i = 25 then none else some 0)
    (fun _ => 0) fs .none none (by decide) (by decide) (by decide) (fun _ => 1) rfl
  obtain rfl : o = p := by rw [h1] at g1; exact Except.ok.inj g1
  obtain ⟨q', k1, -, -, k4⟩ := psdBase_spec (fun _ => []) b 40 (fun _ => 0) fs .none none (by decide) (by decide)
    (by decide) (fun _ => 1) rfl
  obtain rfl : q = q' := by rw [k1] at g2; exact (Except.ok.inj g2).symm
  obtain ⟨u, e1, e2⟩ := k4 0 (by decide)
  have hrow := g3 0 (by decide) (by
    intro i _ _ hi
    rw [hv, hb] at hi
    simp only at hi
    rw [if_neg (by omega)])
  rw [e1] at hrow
  have hz : (Spec.paddedBin 40 b.nBin (min (b.nBin - velNfft b none) (velNfft b none)) (fun _ => 0) 0)
      = fun i => (0 : ℝ) * (fun _ => (0 : ℝ)) i := by
    funext j
    unfold Spec.paddedBin
    simp
  obtain ⟨u0, f1, f2⟩ := psd_ok (b.nBin + min (b.nBin - velNfft b none) (velNfft b none)) (velNfft b none) (by decide)
    (by decide) (fun _ => (0 : ℝ)) fs .none (fun _ => 1) rfl
  rw [hz, psd_scale _ _ _ _ _ hfs, f1] at e2
  simp only [Except.map, Except.ok.injEq] at e2
  have hu : u[0]? = some 0 := by
    rw [← e2, List.getElem?_map]
    cases hc : u0[0]? with
    | none =>
      rw [List.getElem?_eq_none_iff, f2, hv] at hc
      omega
    | some y => simp
  obtain ⟨row', r1, r2, -⟩ := h3 0 0 (u.map some) 0 hrow (by rw [List.getElem?_map, hu]; rfl)
  exact ⟨o', h2, row', r1, r2 (by positivity)⟩

/-- **C136.** Refuted for a longer per-call `n_bin`, as without missing samples (C118): the bins stay those of the
binner, and there are more of them than the result has room for. -/
theorem psdN_override_false (junk : ℕ → List (Option ℝ)) (b : VelBinner) (len : ℕ) (x : ℕ → Option ℝ) (fs : ℝ)
    (window : WinArg) (noise : ℝ) (n' : ℕ) (nFft : Option ℕ) (step : Option ℕ) (hb : 0 < b.nBin) (hn : b.nBin ≤ len)
    (hnf : velNfft b nFft ≤ b.nBin) (hlt : len / n' < len / b.nBin) :
    psdBaseN junk b len x fs window noise (some n') nFft none step =
      .error (if n' = 0 then .zeroDivision else .indexError) := by
  unfold psdBaseN
  simp only [Option.getD_some, Option.getD_none]
  by_cases h0 : n' = 0
  · rw [if_pos h0, if_pos h0]
  · rw [if_neg h0, if_neg h0]
    have hbn : b.nBin < n' := by
      by_contra hc
      have := Nat.div_le_div_left (a := len) (by omega : n' ≤ b.nBin) (by omega)
      omega
    obtain ⟨m, h1, h2, -, -⟩ := reshape_spec (some (0 : ℝ)) len x b.nBin (min (n' - velNfft b nFft) (velNfft b nFft)) hb hn
      (by omega)
    have e : ((min (n' - velNfft b nFft) (velNfft b nFft) : ℕ) : ℤ) = min ((n' : ℤ) - velNfft b nFft) (velNfft b nFft) := by
      omega
    rw [e] at h1
    rw [h1]
    simp only
    rw [if_pos (by rw [h2]; exact hlt)]

example (x : ℕ → Option ℝ) : psdBaseN (fun _ => []) ⟨4, 1, 4, 4⟩ 16 x 1 .none 0 (some 8) none none none = .error .indexError :=
  psdN_override_false (fun _ => []) ⟨4, 1, 4, 4⟩ 16 x 1 .none 0 8 none none (by decide) (by decide) (by decide) (by decide)

end Dolfyn
