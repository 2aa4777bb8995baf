import Verif.Model.VelPsd
import Verif.Props.Psd
import Verif.Props.Binned
import Verif.Props.Csd

/-! C117: spectra per Hertz and per radian; C118: spectra, frequencies and times of `calc_psd` belong together. -/

namespace Dolfyn

/-! ### Change of unit -/

theorem mapM_comm {α β : Type*} (f f' : α → Except Err β) (g : β → β) (h : ∀ a, f' a = (f a).map g) :
    ∀ l : List α, l.mapM f' = (l.mapM f).map fun r => r.map g
  | [] => rfl
  | a :: l => by
    rw [List.mapM_cons, List.mapM_cons, h a, mapM_comm f f' g h l]
    cases f a with
    | error e => rfl
    | ok b =>
      cases l.mapM f with
      | error e => rfl
      | ok r => rfl

theorem cpsd_fs (auto : Bool) (l : ℕ) (a b : ℕ → ℝ) (nfft : ℕ) (fs c : ℝ) (window : WinArg) (step : Option ℕ) :
    cpsd auto l a b nfft (c * fs) window step =
      (cpsd auto l a b nfft fs window step).map fun r => r.map fun z => z / (c : ℂ) := by
  unfold cpsd
  cases stepsize l nfft none step with
  | error e => rfl
  | ok s =>
    simp only
    cases getWindow window s.nfft with
    | error e => rfl
    | ok w =>
      simp only
      cases segStarts l s with
      | error e => rfl
      | ok st =>
        simp only [Except.map, List.map_map]
        congr 1
        apply List.map_congr_left
        intro k _
        simp only [Function.comp]
        have : psdScale s w (c * fs) = psdScale s w fs / c := by
          unfold psdScale
          rw [mul_comm, div_mul_eq_div_div]
        rw [this]
        push_cast
        rw [mul_div_assoc]

theorem psd_fs (l : ℕ) (a : ℕ → ℝ) (nfft : ℕ) (fs c : ℝ) (hc : 0 < c) (window : WinArg) (step : Option ℕ) :
    psd l a nfft (c * fs) window step = (psd l a nfft fs window step).map fun r => r.map fun x => x / c := by
  unfold psd
  rw [cpsd_fs]
  cases cpsd true l a a nfft fs window step with
  | error e => rfl
  | ok r =>
    simp only [Except.map, List.map_map]
    congr 1
    apply List.map_congr_left
    intro z _
    simp only [Function.comp]
    rw [norm_div, Complex.norm_real, Real.norm_eq_abs, abs_of_pos hc]

theorem assignRow_map {β γ : Type*} (cols : ℕ) (v : List β) (g : β → γ) :
    assignRow cols (v.map g) = (assignRow cols v).map fun r => r.map g := by
  unfold assignRow
  rw [List.length_map]
  split_ifs with h
  · rfl
  · match v with
    | [] => rfl
    | [b] => simp [Except.map]
    | b :: b' :: r => rfl

theorem min?_div (l : List ℝ) (c : ℝ) (hc : 0 < c) : (l.map fun x => x / c).min? = l.min?.map fun x => x / c := by
  cases l with
  | nil => rfl
  | cons a l =>
    rw [List.map_cons, List.min?_cons', List.min?_cons', Option.map_some]
    congr 1
    induction l generalizing a with
    | nil => rfl
    | cons b l ih =>
      rw [List.map_cons, List.foldl_cons, List.foldl_cons, ← ih]
      congr 1
      rw [min_div_div_right hc.le]

theorem noiseRows_fs (out : List (List ℝ)) (noise fs c : ℝ) (hc : 0 < c) :
    noiseRows (out.map fun r => r.map fun x => x / c) noise (c * fs) =
      (noiseRows out noise fs).map fun o => o.map fun r => r.map fun x => x / c := by
  unfold noiseRows
  split_ifs with h
  · rfl
  have e1 : (out.map fun r => r.map fun x => x / c).map (fun row => row.map fun s => s - noise ^ 2 / (c * fs / 2)) =
      (out.map fun row => row.map fun s => s - noise ^ 2 / (fs / 2)).map fun r => r.map fun x => x / c := by
    simp only [List.map_map]
    apply List.map_congr_left
    intro r _
    simp only [Function.comp, List.map_map]
    apply List.map_congr_left
    intro x _
    simp only [Function.comp]
    have : noise ^ 2 / (c * fs / 2) = noise ^ 2 / (fs / 2) / c := by
      rw [mul_div_assoc, mul_comm, div_mul_eq_div_div]
    rw [this, sub_div]
  simp only
  rw [e1]
  generalize (out.map fun row => row.map fun s => s - noise ^ 2 / (fs / 2)) = o
  have e2 : ((o.map fun r => r.map fun x => x / c).flatten.map fun s => |s|) =
      (o.flatten.map fun s => |s|).map fun x => x / c := by
    rw [← List.map_flatten, List.map_map, List.map_map]
    apply List.map_congr_left
    intro x _
    simp only [Function.comp]
    rw [abs_div, abs_of_pos hc]
  rw [e2, min?_div _ _ hc]
  cases (o.flatten.map fun s => |s|).min? with
  | none => rfl
  | some m =>
    simp only [Option.map_some, Except.map, List.map_map]
    congr 1
    apply List.map_congr_left
    intro r _
    simp only [Function.comp, List.map_map]
    apply List.map_congr_left
    intro x _
    simp only [Function.comp]
    by_cases hx : x < 0
    · rw [if_pos (div_neg_of_neg_of_pos hx hc), if_pos hx]; ring
    · rw [if_neg (not_lt.mpr (div_nonneg (not_lt.mp hx) hc.le)), if_neg hx]

theorem psdBase_fs (junk : ℕ → List ℝ) (b : VelBinner) (len : ℕ) (x : ℕ → ℝ) (fs c : ℝ) (hc : 0 < c)
    (window : WinArg) (noise : ℝ) (nBin nFft : Option ℕ) (nPad : Option ℤ) (step : Option ℕ) :
    psdBase (fun r => (junk r).map fun x => x / c) b len x (c * fs) window noise nBin nFft nPad step =
      (psdBase junk b len x fs window noise nBin nFft nPad step).map fun o => o.map fun r => r.map fun x => x / c := by
  unfold psdBase
  simp only
  split_ifs with h0
  · rfl
  generalize reshape (0 : ℝ) len x (b.nBin : ℚ) _ = R
  cases R with
  | error e => rfl
  | ok m =>
    simp only
    split_ifs with h1
    · rfl
    generalize velNfft b nFft = nf
    rw [mapM_comm (fun r => if r < m.rows then (psd m.cols (m.at_ r) nf fs window step).bind
        (fun s => assignRow (nf / 2) s) else .ok (junk r)) _ (fun r => r.map fun x => x / c)]
    · simp only [bind]
      generalize (List.mapM _ _ : Except Err (List (List ℝ))) = M
      cases M with
      | error e => rfl
      | ok rows =>
        simp only [Except.map, Except.bind]
        exact noiseRows_fs rows noise fs c hc
    · intro r
      simp only [bind]
      split_ifs with hr
      · rw [psd_fs _ _ _ _ _ hc]
        cases psd m.cols (m.at_ r) nf fs window step with
        | error e => rfl
        | ok s =>
          simp only [Except.map, Except.bind]
          rw [assignRow_map]
          rfl
      · rfl

/-- The spectra of integer bins without an override do not contain uninitialised memory. -/
theorem psdBase_junk (junk junk' : ℕ → List ℝ) (b : VelBinner) (len : ℕ) (x : ℕ → ℝ) (fs : ℝ)
    (window : WinArg) (noise : ℝ) (nFft : Option ℕ) (nPad : Option ℤ) (step : Option ℕ) :
    psdBase junk b len x fs window noise none nFft nPad step =
      psdBase junk' b len x fs window noise none nFft nPad step := by
  unfold psdBase
  simp only [Option.getD_none]
  split_ifs with h0
  · rfl
  cases hR : reshape (0 : ℝ) len x (b.nBin : ℚ) (nPad.getD (min ((b.nBin : ℤ) -
    (velNfft b nFft : ℤ))
    (velNfft b nFft : ℤ))) with
  | error e => rfl
  | ok m =>
    have hm : m.rows = len / b.nBin := by
      unfold reshape at hR
      rw [pyInt_natCast] at hR
      simp only [Int.toNat_natCast, if_true] at hR
      split_ifs at hR
      · cases hR; rfl
    simp only
    split_ifs with h1
    · rfl
    congr 1
    have key : ∀ g g' : ℕ → Except Err (List ℝ), (∀ r, r < len / b.nBin → g r = g' r) →
        (List.range (len / b.nBin)).mapM g = (List.range (len / b.nBin)).mapM g' := by
      intro g g' hg
      have : ∀ l : List ℕ, (∀ r ∈ l, g r = g' r) → l.mapM g = l.mapM g' := by
        intro l
        induction l with
        | nil => intro _; rfl
        | cons a l ih =>
          intro h
          rw [List.mapM_cons, List.mapM_cons, h a (by simp), ih fun r hr => h r (by simp [hr])]
      exact this _ fun r hr => hg r (List.mem_range.mp hr)
    apply key
    intro r hr
    rw [if_pos (by omega), if_pos (by omega)]

/-- `calcFreq` in rad/s is `2π` times that in Hz. -/
theorem calcFreq_units (b : VelBinner) (fs : ℝ) (nf : ℕ) :
    ∃ f, calcFreq b (some fs) "Hz" (some nf) false = .ok f ∧
      calcFreq b (some fs) "rad s-1" (some nf) false = .ok (f.map fun x => x * (2 * Real.pi)) := by
  have a1 : strIn "Hz" "Hz" = true := by decide
  have a2 : strIn "rad" "Hz" = false := by decide
  have a3 : strIn "rad" "rad s-1" = true := by decide
  refine ⟨_, by unfold calcFreq; simp [a1, a2]; rfl, ?_⟩
  unfold calcFreq
  simp only [a3, Bool.not_true, Bool.and_false, Bool.false_eq_true, if_false, if_true, Option.getD_some]
  congr 1
  have hp := Real.pi_pos
  unfold psdFreq
  rw [List.map_map]
  have : fftfreq nf (2 * Real.pi * fs) = (fftfreq nf fs).map fun x => x * (2 * Real.pi) := by
    unfold fftfreq
    rw [List.map_append, List.map_map, List.map_map]
    congr 1 <;>
    · apply List.map_congr_left
      intro i _
      simp only [Function.comp]
      ring
  rw [this, ← List.map_take, ← List.map_drop, List.map_map]
  apply List.map_congr_left
  intro x _
  simp only [Function.comp]
  rw [abs_mul, abs_of_pos (by positivity : (0 : ℝ) < 2 * Real.pi)]

/-- A spectrum per Hertz expressed per radian: the frequencies times `2π`, the densities divided by `2π`. -/
noncomputable def Spec.perRadian (s : VelSpec) : VelSpec :=
  { freq := s.freq.map fun f => f * (2 * Real.pi)
    time := s.time
    psd := s.psd.map fun o => o.map fun r => r.map fun x => x / (2 * Real.pi) }

theorem packSpec_units (freq : List ℝ) (time : List (Option ℝ)) (out : List (List (List ℝ))) (c d : ℝ) :
    packSpec (freq.map fun x => x * d) time (out.map fun o => o.map fun r => r.map fun x => x / c) =
      (packSpec freq time out).map fun s => VelSpec.mk (s.freq.map fun f => f * d) s.time
        (s.psd.map fun o => o.map fun r => r.map fun x => x / c) := by
  unfold packSpec
  simp only [List.all_map, Function.comp_def, List.length_map]
  split_ifs <;> rfl

/-- **C117.** For every input the spectrum in rad/s is the spectrum in Hz per radian, noise correction included: same
bins, same times, frequencies times `2π`, densities divided by `2π`; and one raises exactly when the other does. -/
theorem velPsd_units (junk : ℕ → List ℝ) (b : VelBinner) (len : ℕ) (vel : VelArg) (t : ℕ → ℝ) (u u' : String)
    (hu : strIn "rad" u = true) (hu' : strIn "rad" u' = false) (hz : strIn "Hz" u' = true)
    (fs : Option ℝ) (window : WinArg) (noise : Option (List ℝ)) (nFft : Option ℕ) (nPad : Option ℤ)
    (step : Option ℕ) :
    velPsd junk b len vel t u fs window noise none nFft nPad step =
      (velPsd junk b len vel t u' fs window noise none nFft nPad step).map Spec.perRadian := by
  have hp : (0 : ℝ) < 2 * Real.pi := by positivity
  have hb : ∀ (x : ℕ → ℝ) (q : Option ℕ) (F nz : ℝ), psdBase junk b len x (2 * Real.pi * F) window nz none q nPad step =
      (psdBase junk b len x F window nz none q nPad step).map fun o => o.map fun r => r.map fun x => x / (2 * Real.pi) := by
    intro x q F nz
    rw [← psdBase_fs _ _ _ _ _ _ hp]
    exact psdBase_junk _ _ _ _ _ _ _ _ _ _ _
  unfold velPsd
  simp only [hu, hu', hz, Bool.not_true, Bool.not_false, Bool.false_and, Bool.and_false, Bool.false_eq_true, if_false,
    if_true]
  generalize velNfft b nFft = nf
  obtain ⟨f, hf1, hf2⟩ := calcFreq_units b (fs.getD b.fs) nf
  rw [hf1, hf2]
  simp only [bind, Except.bind]
  cases vel with
  | one x =>
    simp only
    split_ifs with h
    · rfl
    rw [hb]
    cases psdBase junk b len x (fs.getD b.fs) window ((noise.getD [0]).getD 0 0) none (some nf) nPad step with
    | error e => rfl
    | ok o =>
      simp only [Except.map]
      cases specTimes b len t with
      | error e => rfl
      | ok tm => exact packSpec_units f tm [o] _ _
  | rows l =>
    simp only
    split_ifs with h h2
    · rfl
    · rfl
    rw [mapM_comm (fun p : (ℕ → ℝ) × ℝ => psdBase junk b len p.1 (fs.getD b.fs) window p.2 none (some nf) nPad step) _
      (fun o => o.map fun r => r.map fun x => x / (2 * Real.pi)) (fun p => hb _ _ _ _)]
    generalize (List.mapM _ _ : Except Err (List (List (List ℝ)))) = M
    cases M with
    | error e => rfl
    | ok o =>
      simp only [Except.map]
      cases specTimes b len t with
      | error e => rfl
      | ok tm => exact packSpec_units f tm o _ _

/-- The energy of every component in every bin: the densities summed, times the frequency spacing (which is the first
frequency). -/
noncomputable def Spec.energy (s : VelSpec) : List (List ℝ) := s.psd.map fun o => o.map fun r => r.sum * s.freq.headD 0

/-- **C117.** Hence the energy of each component in each bin is the same in both units. -/
theorem perRadian_energy (s : VelSpec) : Spec.energy (Spec.perRadian s) = Spec.energy s := by
  have hp : (2 * Real.pi) ≠ 0 := by positivity
  unfold Spec.energy Spec.perRadian
  simp only [List.map_map]
  apply List.map_congr_left
  intro o _
  simp only [Function.comp, List.map_map]
  apply List.map_congr_left
  intro r _
  simp only [Function.comp]
  have h1 : (r.map fun x => x / (2 * Real.pi)).sum = r.sum / (2 * Real.pi) := by
    simp only [div_eq_mul_inv]
    rw [List.sum_map_mul_right]
    simp
  have h2 : (s.freq.map fun f => f * (2 * Real.pi)).headD 0 = s.freq.headD 0 * (2 * Real.pi) := by
    cases s.freq <;> simp
  rw [h1, h2]
  field_simp

/-- Unknown units raise. -/
theorem velPsd_bad_units (junk : ℕ → List ℝ) (b : VelBinner) (len : ℕ) (vel : VelArg) (t : ℕ → ℝ) (u : String)
    (hu : strIn "rad" u = false) (hz : strIn "Hz" u = false)
    (fs : Option ℝ) (window : WinArg) (noise : Option (List ℝ)) (nBin nFft : Option ℕ) (nPad : Option ℤ)
    (step : Option ℕ) :
    velPsd junk b len vel t u fs window noise nBin nFft nPad step = .error .valueError := by
  unfold velPsd
  simp [hu, hz]

/-! ### Spectra, frequencies and times -/

theorem psd_ok (l nf : ℕ) (h3 : 3 ≤ nf) (hl : nf ≤ l) (a : ℕ → ℝ) (fs : ℝ) (window : WinArg) (w : ℕ → ℝ)
    (hw : getWindow window nf = .ok w) :
    ∃ r, psd l a nf fs window none = .ok r ∧ r.length = nf / 2 := by
  have key : ∃ s st, stepsize l nf none none = .ok s ∧ s.nfft = nf ∧ segStarts l s = .ok st := by
    rcases Nat.lt_or_ge nf l with h | h
    · obtain ⟨s, st, h1, h2, h4, -⟩ := segments_default l nf h3 h
      exact ⟨s, st, h1, h4, h2⟩
    · obtain rfl : l = nf := le_antisymm h hl
      exact ⟨⟨0, 1, l⟩, [0], by simp [stepsize], rfl, by simp [segStarts]⟩
  obtain ⟨s, st, h1, h2, h4⟩ := key
  unfold psd cpsd
  rw [h1]
  simp only
  rw [h2, hw]
  simp only
  rw [h4]
  simp only [Except.map]
  exact ⟨_, rfl, by simp⟩

theorem specTimes_spec (b : VelBinner) (len : ℕ) (t : ℕ → ℝ) (tm : List (Option ℝ)) (h : specTimes b len t = .ok tm) :
    tm.length = len / b.nBin ∧ 0 < b.nBin ∧ b.nBin ≤ len ∧ ∀ r, r < len / b.nBin →
      tm[r]? = some (some ((∑ j ∈ Finset.range b.nBin, t (r * b.nBin + j)) / b.nBin)) := by
  unfold specTimes binMean at h
  simp only [parseNbin, Option.getD_none] at h
  have hpos : 0 < b.nBin ∧ b.nBin ≤ len := by
    by_contra hcon
    unfold reshape at h
    rw [pyInt_natCast] at h
    by_cases hl : (len : ℚ) < (b.nBin : ℚ)
    · rw [if_pos hl] at h; cases h
    · rw [if_neg hl] at h
      have : b.nBin ≤ len := by exact_mod_cast not_lt.mp hl
      have h0 : b.nBin = 0 := by omega
      rw [if_pos (by rw [h0]; rfl)] at h
      cases h
  obtain ⟨hn, hle⟩ := hpos
  obtain ⟨m, h1, h2, h3, h4⟩ := reshape_spec (some (0 : ℝ)) len (fun i => some (t i)) b.nBin 0 hn hle (by omega)
  have h1' : reshape (some (0 : ℝ)) len (fun i => some (t i)) b.nBin 0 = .ok m := by exact_mod_cast h1
  rw [h1'] at h
  simp only [Except.map] at h
  replace h := Except.ok.inj h
  subst h
  refine ⟨by simp [h2], hn, hle, fun r hr => ?_⟩
  rw [List.getElem?_map, List.getElem?_range (by omega), Option.map_some]
  congr 1
  rw [← nanmean_some b.nBin hn (fun j => t (r * b.nBin + j))]
  congr 1
  unfold Mat2.row vals
  rw [h3]
  apply List.map_congr_left
  intro j hj
  rw [List.mem_range] at hj
  rw [h4 r j (by omega) (by omega)]
  have : (r + 1) * b.nBin ≤ len / b.nBin * b.nBin := Nat.mul_le_mul_right _ hr
  rw [add_mul] at this
  rw [if_pos ⟨by omega, by omega⟩]
  simp

theorem noiseRows_length (o o' : List (List ℝ)) (noise fs : ℝ) (h : noiseRows o noise fs = .ok o') :
    o'.length = o.length := by
  unfold noiseRows at h
  split_ifs at h
  · cases h; rfl
  simp only at h
  split at h
  · cases h
  · cases h; simp

theorem psdBase_length (junk : ℕ → List ℝ) (b : VelBinner) (len : ℕ) (x : ℕ → ℝ) (fs : ℝ) (window : WinArg)
    (noise : ℝ) (nBin nFft : Option ℕ) (nPad : Option ℤ) (step : Option ℕ) (o : List (List ℝ))
    (h : psdBase junk b len x fs window noise nBin nFft nPad step = .ok o) :
    o.length = len / nBin.getD b.nBin := by
  unfold psdBase at h
  simp only at h
  split_ifs at h
  split at h
  · cases h
  split_ifs at h
  simp only [bind] at h
  generalize hM : (List.mapM _ _ : Except Err (List (List ℝ))) = M at h
  cases M with
  | error e => cases h
  | ok rows =>
    simp only [Except.bind] at h
    rw [noiseRows_length _ _ _ _ h, ← (mapM_forall₂ hM).length_eq, List.length_range]

theorem packSpec_ok (freq : List ℝ) (time : List (Option ℝ)) (out : List (List (List ℝ))) (s : VelSpec)
    (h : packSpec freq time out = .ok s) :
    s = VelSpec.mk freq time out ∧ ∀ o ∈ out, o.length = time.length ∧ ∀ r ∈ o, r.length = freq.length := by
  unfold packSpec at h
  split_ifs at h with hc
  cases h
  refine ⟨rfl, fun o ho => ?_⟩
  have := List.all_eq_true.mp hc o ho
  rw [Bool.and_eq_true] at this
  refine ⟨by simpa using this.1, fun r hr => ?_⟩
  simpa using List.all_eq_true.mp this.2 r hr

/-- **C118.** Whatever the arguments: a returned spectrum has one row of densities per time, one density per
frequency, and the times are the means of the binner's own bins. -/
theorem velPsd_aligned (junk : ℕ → List ℝ) (b : VelBinner) (len : ℕ) (vel : VelArg) (t : ℕ → ℝ) (u : String)
    (fs : Option ℝ) (window : WinArg) (noise : Option (List ℝ)) (nBin nFft : Option ℕ) (nPad : Option ℤ)
    (step : Option ℕ) (s : VelSpec) (h : velPsd junk b len vel t u fs window noise nBin nFft nPad step = .ok s) :
    (∀ o ∈ s.psd, o.length = s.time.length ∧ ∀ r ∈ o, r.length = s.freq.length) ∧
      s.time.length = len / b.nBin ∧ len / nBin.getD b.nBin = len / b.nBin ∧
      ∀ r, r < len / b.nBin → s.time[r]? = some (some ((∑ j ∈ Finset.range b.nBin, t (r * b.nBin + j)) / b.nBin)) := by
  unfold velPsd at h
  simp only at h
  split at h
  · cases h
  generalize (if strIn "rad" u = true then 2 * Real.pi * fs.getD b.fs else fs.getD b.fs) = F0 at h
  simp only [bind] at h
  generalize calcFreq _ _ _ _ _ = F at h
  cases F with
  | error e => cases h
  | ok freq =>
    simp only [Except.bind] at h
    cases vel with
    | one x =>
      simp only at h
      split_ifs at h
      generalize hP : psdBase _ _ _ _ _ _ _ _ _ _ _ = P at h
      cases P with
      | error e => cases h
      | ok o =>
        simp only at h
        cases hT : specTimes b len t with
        | error e => rw [hT] at h; cases h
        | ok tm =>
          rw [hT] at h
          obtain ⟨rfl, h2⟩ := packSpec_ok _ _ _ _ h
          obtain ⟨t1, -, -, t4⟩ := specTimes_spec b len t tm hT
          refine ⟨h2, t1, ?_, t4⟩
          rw [← psdBase_length _ _ _ _ _ _ _ _ _ _ _ _ hP, (h2 o (by simp)).1, t1]
    | rows l =>
      simp only at h
      split_ifs at h with h3 h4
      generalize hP : (List.mapM _ _ : Except Err (List (List (List ℝ)))) = P at h
      cases P with
      | error e => cases h
      | ok o =>
        simp only at h
        cases hT : specTimes b len t with
        | error e => rw [hT] at h; cases h
        | ok tm =>
          rw [hT] at h
          obtain ⟨rfl, h2⟩ := packSpec_ok _ _ _ _ h
          obtain ⟨t1, -, -, t4⟩ := specTimes_spec b len t tm hT
          refine ⟨h2, t1, ?_, t4⟩
          generalize noise.getD [0, 0, 0] = nz at h4 hP
          push Not at h3 h4
          match l, nz, h3, h4 with
          | x :: l', z :: nz', _, _ =>
            rw [List.zip_cons_cons] at hP
            obtain ⟨p, q, ha, -, rfl⟩ := List.forall₂_cons_left_iff.mp (mapM_forall₂ hP)
            rw [← psdBase_length _ _ _ _ _ _ _ _ _ _ _ _ ha, (h2 _ (by simp)).1, t1]

/-- **C118.** Refuted: with a per-call `n_bin` that gives another number of bins than the binner's own, no arguments
return a spectrum (IndexError or ValueError). -/
theorem velPsd_override_false (junk : ℕ → List ℝ) (b : VelBinner) (len : ℕ) (vel : VelArg) (t : ℕ → ℝ) (u : String)
    (fs : Option ℝ) (window : WinArg) (noise : Option (List ℝ)) (n' : ℕ) (nFft : Option ℕ) (nPad : Option ℤ)
    (step : Option ℕ) (hne : len / n' ≠ len / b.nBin) (s : VelSpec) :
    velPsd junk b len vel t u fs window noise (some n') nFft nPad step ≠ .ok s := fun h =>
  hne (velPsd_aligned junk b len vel t u fs window noise (some n') nFft nPad step s h).2.2.1

/-- The samples a spectrum of bin `r` is computed from: the bin and half of `pad` samples of its neighbours on each
side, zeros beyond the ends of the record. -/
noncomputable def Spec.paddedBin (len n pad : ℕ) (x : ℕ → ℝ) (r j : ℕ) : ℝ :=
  if pad / 2 ≤ r * n + j ∧ r * n + j - pad / 2 < len / n * n then x (r * n + j - pad / 2) else 0

theorem vals_congr {α : Type*} (n : ℕ) (a a' : ℕ → α) (h : ∀ i, i < n → a i = a' i) : vals n a = vals n a' :=
  List.map_congr_left fun i hi => h i (List.mem_range.mp hi)

theorem detrendR_congr (n : ℕ) (v v' : ℕ → ℝ) (h : ∀ i, i < n → v i = v' i) (t : ℕ) (ht : t < n) :
    detrendR n v t = detrendR n v' t := by
  unfold detrendR detrend
  simp only
  rw [vals_congr n (fun i => some (v i)) (fun i => some (v' i)) fun i hi => by rw [h i hi], h t ht]
  congr 4
  apply congrArg
  apply vals_congr
  intro i hi
  rw [h i hi]

theorem segFft_congr (a a' : ℕ → ℝ) (i n : ℕ) (w : ℕ → ℝ) (k : ℕ) (h : ∀ j, j < n → a (i + j) = a' (i + j)) :
    segFft a i n w k = segFft a' i n w k := by
  unfold segFft dft
  apply Finset.sum_congr rfl
  intro t ht
  simp only
  rw [detrendR_congr n _ _ h t (Finset.mem_range.mp ht)]

theorem psd_congr (l : ℕ) (a a' : ℕ → ℝ) (h : ∀ i, i < l → a i = a' i) (nf : ℕ) (fs : ℝ) (h3 : 3 ≤ nf) (hl : nf ≤ l)
    (window : WinArg) : psd l a nf fs window none = psd l a' nf fs window none := by
  have key : ∃ s st, stepsize l nf none none = .ok s ∧ s.nfft = nf ∧ segStarts l s = .ok st ∧ ∀ i ∈ st, i + nf ≤ l := by
    rcases Nat.lt_or_ge nf l with hlt | hge
    · obtain ⟨s, st, h1, h2, h4, -, -, -, h5, -⟩ := segments_default l nf h3 hlt
      exact ⟨s, st, h1, h4, h2, fun i hi => ((h5 i).mp hi).2⟩
    · obtain rfl : l = nf := le_antisymm hge hl
      exact ⟨⟨0, 1, l⟩, [0], by simp [stepsize], rfl, by simp [segStarts], by simp⟩
  obtain ⟨s, st, h1, h2, h4, h5⟩ := key
  unfold psd cpsd
  rw [h1]
  simp only
  rw [h2]
  cases getWindow window nf with
  | error e => rfl
  | ok w =>
    simp only
    rw [h4]
    simp only [if_true]
    congr 2
    apply List.map_congr_left
    intro k _
    congr 2
    apply List.map_congr_left
    intro i hi
    rw [segFft_congr a a' i nf w (k + 1) fun j hj => h _ (by have := h5 i hi; omega)]

theorem psdBase_spec (junk : ℕ → List ℝ) (b : VelBinner) (len : ℕ) (x : ℕ → ℝ) (fs : ℝ) (window : WinArg)
    (nFft : Option ℕ) (hn : b.nBin ≤ len) (h3 : 3 ≤ velNfft b nFft) (hnf : velNfft b nFft ≤ b.nBin)
    (w : ℕ → ℝ) (hw : getWindow window (velNfft b nFft) = .ok w) :
    ∃ o, psdBase junk b len x fs window 0 none nFft none none = .ok o ∧ o.length = len / b.nBin ∧
      (∀ r ∈ o, r.length = velNfft b nFft / 2) ∧
      ∀ r, r < len / b.nBin → ∃ v, o[r]? = some v ∧
        psd (b.nBin + min (b.nBin - velNfft b nFft) (velNfft b nFft))
          (Spec.paddedBin len b.nBin (min (b.nBin - velNfft b nFft) (velNfft b nFft)) x r) (velNfft b nFft) fs window none
          = .ok v := by
  generalize hnfe : velNfft b nFft = nf at *
  obtain ⟨m, h1, h2, h4, h5⟩ := reshape_spec (0 : ℝ) len x b.nBin (min (b.nBin - nf) nf) (by omega) hn (by omega)
  have hpad : ((min (b.nBin - nf) nf : ℕ) : ℤ) = min ((b.nBin : ℤ) - nf) nf := by omega
  rw [hpad] at h1
  have hr : ∀ r, ∃ v, psd m.cols (m.at_ r) nf fs window none = .ok v ∧ v.length = nf / 2 := fun r =>
    psd_ok _ _ h3 (by omega) _ _ _ w hw
  choose g hg hgl using hr
  have hM : (List.range (len / b.nBin)).mapM (fun r => if r < m.rows then
      (psd m.cols (m.at_ r) nf fs window none).bind (fun s => assignRow (nf / 2) s) else .ok (junk r)) =
      .ok ((List.range (len / b.nBin)).map g) := by
    apply mapM_ok_eq
    intro r hr
    rw [List.mem_range] at hr
    rw [if_pos (by omega), hg]
    simp only [Except.bind]
    unfold assignRow
    rw [if_pos (hgl r)]
  refine ⟨(List.range (len / b.nBin)).map g, ?_, by simp, ?_, ?_⟩
  · unfold psdBase
    simp only [Option.getD_none, hnfe]
    rw [if_neg (by omega), h1]
    simp only [bind]
    rw [if_neg (by omega), hM]
    simp [Except.bind, noiseRows]
  · intro v hv
    obtain ⟨r, -, rfl⟩ := List.mem_map.mp hv
    exact hgl r
  · intro r hr
    refine ⟨g r, by rw [List.getElem?_map, List.getElem?_range hr]; rfl, ?_⟩
    rw [← hg r, h4]
    symm
    refine psd_congr _ _ _ ?_ nf fs h3 (by omega) window
    intro j hj
    exact h5 r j (by omega) (by omega)

/-- **C118.** Three components: the call succeeds and returns, for each component and each bin, the spectrum of the
(padded) bin, at the frequencies `k fs / n_fft`, `k = 1 .. n_fft / 2`. -/
theorem velPsd_three (junk : ℕ → List ℝ) (b : VelBinner) (len : ℕ) (x : Fin 3 → ℕ → ℝ) (t : ℕ → ℝ)
    (window : WinArg) (nFft : Option ℕ) (hfs : 0 < b.fs) (hn : b.nBin ≤ len) (h3 : 3 ≤ velNfft b nFft)
    (hnf : velNfft b nFft ≤ b.nBin) (w : ℕ → ℝ) (hw : getWindow window (velNfft b nFft) = .ok w) :
    ∃ s, velPsd junk b len (.rows [x 0, x 1, x 2]) t "Hz" none window none none nFft none none = .ok s ∧
      s.freq = (List.range (velNfft b nFft / 2)).map (fun k : ℕ => ((k + 1 : ℕ) : ℝ) * b.fs / velNfft b nFft) ∧
      s.psd.length = 3 ∧
      ∀ (c : Fin 3) r, r < len / b.nBin → ∃ o v, s.psd[c.val]? = some o ∧ o[r]? = some v ∧
        psd (b.nBin + min (b.nBin - velNfft b nFft) (velNfft b nFft))
          (Spec.paddedBin len b.nBin (min (b.nBin - velNfft b nFft) (velNfft b nFft)) (x c) r) (velNfft b nFft) b.fs
          window none = .ok v := by
  have hid : velNfft b (some (velNfft b nFft)) = velNfft b nFft := if_neg (by omega)
  have hx : ∀ c : Fin 3, _ := fun c =>
    psdBase_spec junk b len (x c) b.fs window (some (velNfft b nFft)) hn (by rw [hid]; exact h3) (by rw [hid]; exact hnf) w
      (by rw [hid]; exact hw)
  rw [hid] at hx
  choose o ho1 ho2 ho3 ho4 using hx
  have a1 : strIn "Hz" "Hz" = true := by decide
  have a2 : strIn "rad" "Hz" = false := by decide
  have hT : ∃ tm, specTimes b len t = .ok tm := by
    obtain ⟨m, h1, -⟩ := reshape_spec (some (0 : ℝ)) len (fun i => some (t i)) b.nBin 0 (by omega) hn (by omega)
    have h1' : reshape (some (0 : ℝ)) len (fun i => some (t i)) b.nBin 0 = .ok m := by exact_mod_cast h1
    unfold specTimes binMean
    simp only [parseNbin, Option.getD_none]
    rw [h1']
    exact ⟨_, rfl⟩
  obtain ⟨tm, htm⟩ := hT
  obtain ⟨t1, -⟩ := specTimes_spec b len t tm htm
  have hF : calcFreq b (some b.fs) "Hz" (some (velNfft b nFft)) false = .ok (psdFreq (velNfft b nFft) b.fs) := by
    unfold calcFreq; simp [a1, a2]
  have hfl : (psdFreq (velNfft b nFft) b.fs).length = velNfft b nFft / 2 := by
    rw [psd_freq_spec _ _ hfs]; simp
  have hM : ([x 0, x 1, x 2].zip [(0 : ℝ), 0, 0]).mapM (fun p => psdBase junk b len p.1 b.fs window p.2 none
      (some (velNfft b nFft)) none none) = .ok [o 0, o 1, o 2] := by
    simp only [List.zip_cons_cons, List.zip_nil_left, List.mapM_cons, List.mapM_nil, ho1, bind, Except.bind, pure,
      Except.pure]
  refine ⟨VelSpec.mk (psdFreq (velNfft b nFft) b.fs) tm [o 0, o 1, o 2], ?_, psd_freq_spec _ _ hfs, rfl, ?_⟩
  · unfold velPsd
    simp only [a1, a2, Option.getD_none, Bool.not_true, Bool.and_false, Bool.false_eq_true, if_false]
    rw [hF]
    simp only [bind, Except.bind]
    rw [hM]
    simp only [List.length_cons, List.length_nil, htm]
    unfold packSpec
    rw [if_neg (by simp), if_neg (by simp), if_pos]
    simp only [List.all_eq_true]
    intro q hq
    have : ∃ c, q = o c := by
      simp only [List.mem_cons, List.not_mem_nil, or_false] at hq
      rcases hq with rfl | rfl | rfl
      exacts [⟨0, rfl⟩, ⟨1, rfl⟩, ⟨2, rfl⟩]
    obtain ⟨c, rfl⟩ := this
    rw [Bool.and_eq_true]
    refine ⟨by simp [ho2, t1], ?_⟩
    rw [List.all_eq_true]
    intro r hr
    simp [ho3 c r hr, hfl]
  · intro c r hr
    obtain ⟨v, hv1, hv2⟩ := ho4 c r hr
    refine ⟨o c, v, ?_, hv1, hv2⟩
    match c with
    | 0 => rfl
    | 1 => rfl
    | 2 => rfl

/-- The hypotheses are met by 1000 samples at 32 Hz in bins of 100 with an FFT length of 64 and a Hann window. -/
example : (100 : ℕ) ≤ 1000 ∧ 3 ≤ velNfft ⟨100, 32, 64, 64⟩ none ∧ velNfft ⟨100, 32, 64, 64⟩ none ≤ 100 ∧
    getWindow (.str "hann") 64 = .ok (hanning 64) := by
  refine ⟨by omega, by simp [velNfft], by simp [velNfft], ?_⟩
  have : strIn "hann" "hann" = true := by decide
  simp [getWindow, this]

example : strIn "rad" "rad/s" = true ∧ strIn "rad" "Hz" = false ∧ strIn "Hz" "Hz" = true := by decide

end Dolfyn
