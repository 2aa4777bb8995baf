import Verif.Model.SurfFilt
import Verif.Props.MedOrient
import Verif.Props.AdpClean

/-! C168: smoothing of the detected surface. -/

namespace Dolfyn

/-- The depths of the profiles at most `h` away from profile `i`. -/
def Spec.near (n h : ℕ) (a : ℕ → ℝ) (i : ℕ) : List ℝ :=
  ((List.range n).filter fun j => decide (j ≤ i + h ∧ i ≤ j + h)).map a

theorem map_ite_countP {α β : Type*} (q : α → Bool) (f : α → β) (z : β) (p : β → Bool) : ∀ L : List α,
    (L.map fun j => if q j then f j else z).countP p
      = ((L.filter q).map f).countP p + (L.filter fun j => !q j).length * (if p z then 1 else 0)
  | [] => by simp
  | x :: L => by
    have ih := map_ite_countP q f z p L
    cases hq : q x
    · cases hp : p z <;> simp [hq, hp, ih] <;> omega
    · cases hp : p (f x) <;> simp [hq, hp, ih] <;> omega

theorem near_perm (n h : ℕ) (a : ℕ → ℝ) (i : ℕ) :
    (((List.range (2 * h + 1)).filter fun j => decide (h ≤ i + j ∧ i + j - h < n)).map fun j => a (i + j - h)).Perm
      (Spec.near n h a i) := by
  unfold Spec.near
  rw [show (fun j => a (i + j - h)) = a ∘ fun j => i + j - h from rfl, ← List.map_map]
  refine List.Perm.map a ?_
  rw [List.perm_ext_iff_of_nodup]
  · intro x
    simp only [List.mem_map, List.mem_filter, List.mem_range, decide_eq_true_eq]
    constructor
    · rintro ⟨j, ⟨h1, h2, h3⟩, rfl⟩
      omega
    · rintro ⟨h1, h2, h3⟩
      exact ⟨x + h - i, ⟨by omega, by omega, by omega⟩, by omega⟩
  · refine List.Nodup.map_on ?_ (List.nodup_range.filter _)
    intro x hx y hy hxy
    simp only [List.mem_filter, List.mem_range, decide_eq_true_eq] at hx hy
    omega
  · exact List.nodup_range.filter _

theorem medWindow_countP (n h : ℕ) (a : ℕ → ℝ) (i : ℕ) (p : ℝ → Bool) :
    (medWindow n h a i).countP p
      = (Spec.near n h a i).countP p + (2 * h + 1 - (Spec.near n h a i).length) * (if p 0 then 1 else 0) := by
  have h1 := map_ite_countP (fun j => decide (h ≤ i + j ∧ i + j - h < n)) (fun j => a (i + j - h)) 0 p
    (List.range (2 * h + 1))
  have hl : ((List.range (2 * h + 1)).filter fun j => !decide (h ≤ i + j ∧ i + j - h < n)).length
      = 2 * h + 1 - (Spec.near n h a i).length := by
    rw [← (near_perm n h a i).length_eq, List.length_map]
    have := List.length_eq_length_filter_add (l := List.range (2 * h + 1))
      (fun j => decide (h ≤ i + j ∧ i + j - h < n))
    rw [List.length_range] at this
    omega
  rw [hl, (near_perm n h a i).countP_eq] at h1
  rw [← h1]
  unfold medWindow
  simp only [decide_eq_true_eq]

theorem near_length (n h : ℕ) (a : ℕ → ℝ) (i : ℕ) : (Spec.near n h a i).length ≤ 2 * h + 1 := by
  rw [← (near_perm n h a i).length_eq, List.length_map]
  exact (List.length_filter_le _ _).trans (by simp)

theorem near_length_ge {n h : ℕ} (a : ℕ → ℝ) {i : ℕ} (hn : h < n) (hi : i < n) :
    h + 1 ≤ (Spec.near n h a i).length := by
  unfold Spec.near
  rw [List.length_map]
  have hsub : ((List.range (h + 1)).map (· + (i - h))).Subperm
      ((List.range n).filter fun j => decide (j ≤ i + h ∧ i ≤ j + h)) := by
    apply List.subperm_of_subset
    · exact List.Nodup.map (fun a b hab => by simpa using hab) List.nodup_range
    · intro j hj
      obtain ⟨k, hk, rfl⟩ := List.mem_map.mp hj
      rw [List.mem_range] at hk
      rw [List.mem_filter, List.mem_range, decide_eq_true_eq]
      omega
  have := hsub.length_le
  rwa [List.length_map, List.length_range] at this

theorem near_length_le (n h : ℕ) (a : ℕ → ℝ) (i : ℕ) : (Spec.near n h a i).length ≤ n := by
  unfold Spec.near
  rw [List.length_map]
  exact (List.length_filter_le _ _).trans (by simp)

/-- The filtered depth is an order statistic of the depths in the window: the missing neighbours count as smaller. -/
theorem medfilt_near {n h : ℕ} {a : ℕ → ℝ} (hpos : ∀ j < n, 0 < a j) {i : ℕ} (hn : h < n) (hi : i < n) :
    0 < medfilt n h a i ∧ medfilt n h a i ∈ Spec.near n h a i ∧
      h + 1 ≤ (Spec.near n h a i).countP (fun x => decide (medfilt n h a i ≤ x)) ∧
      (Spec.near n h a i).length - h ≤ (Spec.near n h a i).countP (fun x => decide (x ≤ medfilt n h a i)) := by
  obtain ⟨hm, h1, h2⟩ := medfilt_median n h a i
  have hlen := near_length n h a i
  have hge := near_length_ge a hn hi
  have hR : ∀ x ∈ Spec.near n h a i, 0 < x := by
    intro x hx
    unfold Spec.near at hx
    simp only [List.mem_map, List.mem_filter, List.mem_range] at hx
    obtain ⟨j, ⟨hj, -⟩, rfl⟩ := hx
    exact hpos j hj
  generalize medfilt n h a i = m at *
  have h0 : 0 < m := by
    by_contra hc
    rw [medWindow_countP] at h1
    have : (Spec.near n h a i).countP (fun x => decide (x ≤ m)) = 0 := by
      rw [List.countP_eq_zero]
      intro x hx
      rw [decide_eq_true_eq]
      linarith [hR x hx, not_lt.mp hc]
    rw [this, zero_add] at h1
    have : (2 * h + 1 - (Spec.near n h a i).length) * (if decide (0 ≤ m) = true then 1 else 0)
        ≤ 2 * h + 1 - (Spec.near n h a i).length := by
      split_ifs <;> omega
    omega
  refine ⟨h0, ?_, ?_, ?_⟩
  · unfold medWindow at hm
    simp only [List.mem_map, List.mem_range] at hm
    obtain ⟨j, hj, hjm⟩ := hm
    split_ifs at hjm with hc
    · unfold Spec.near
      simp only [List.mem_map, List.mem_filter, List.mem_range, decide_eq_true_eq]
      exact ⟨i + j - h, by omega, hjm⟩
    · exact absurd hjm h0.ne
  · rw [medWindow_countP, if_neg (by simp [h0]), mul_zero, add_zero] at h2
    exact h2
  · rw [medWindow_countP, if_pos (by simp [h0.le]), mul_one] at h1
    omega

theorem surfaceFilt_complete {lib : ℕ → Option ℝ} {n nfilt : ℕ} {a : ℕ → ℝ} (hodd : nfilt % 2 = 1) :
    ∃ f, surfaceFilt lib n nfilt (fun j => some (a j)) = .ok f ∧
      ∀ i, f i = if medfilt n (nfilt / 2) a i = 0 then none else some (medfilt n (nfilt / 2) a i) := by
  refine ⟨_, by unfold surfaceFilt; rw [if_neg (by omega), if_neg (by omega)], fun i => ?_⟩
  simp only
  rw [medfiltnan_never n nfilt (by omega) hodd 4 (by norm_num)]
  have : medfiltRow lib n (nfilt / 2) (fun j => some (a j)) i = some (medfilt n (nfilt / 2) a i) := by
    unfold medfiltRow
    rw [if_pos (by simp)]
    rfl
  rw [this]
  simp only [Option.some.injEq]

/-- C168: in a complete record of positive depths longer than half the filter no depth is lost, and every smoothed depth
is one of the depths within half a filter length. Where the filter lies inside the record it is their median. -/
theorem surface_filter_median {lib : ℕ → Option ℝ} {n nfilt : ℕ} {a : ℕ → ℝ} (hodd : nfilt % 2 = 1)
    (hpos : ∀ j < n, 0 < a j) (hn : nfilt / 2 < n) :
    ∃ f, surfaceFilt lib n nfilt (fun j => some (a j)) = .ok f ∧ ∀ i < n, ∃ m, f i = some m ∧
      m ∈ Spec.near n (nfilt / 2) a i ∧
      (nfilt / 2 ≤ i → i + nfilt / 2 < n →
        nfilt < 2 * (Spec.near n (nfilt / 2) a i).countP (fun x => decide (m ≤ x)) ∧
        nfilt < 2 * (Spec.near n (nfilt / 2) a i).countP (fun x => decide (x ≤ m)) ∧
        (Spec.near n (nfilt / 2) a i).length = nfilt) := by
  obtain ⟨f, hf, hv⟩ := surfaceFilt_complete (lib := lib) (n := n) (a := a) hodd
  refine ⟨f, hf, fun i hi => ?_⟩
  obtain ⟨h0, h1, h2, h3⟩ := medfilt_near hpos hn hi
  refine ⟨_, by rw [hv, if_neg h0.ne'], h1, fun ha hb => ?_⟩
  have hl : (Spec.near n (nfilt / 2) a i).length = nfilt := by
    have e : ((List.range n).filter fun j => decide (j ≤ i + nfilt / 2 ∧ i ≤ j + nfilt / 2)).Perm
        ((List.range nfilt).map (· + (i - nfilt / 2))) := by
      rw [List.perm_ext_iff_of_nodup (List.nodup_range.filter _)
        (List.Nodup.map (fun a b hab => by simpa using hab) List.nodup_range)]
      intro x
      simp only [List.mem_map, List.mem_filter, List.mem_range, decide_eq_true_eq]
      constructor
      · rintro ⟨h4, h5, h6⟩
        exact ⟨x - (i - nfilt / 2), by omega, by omega⟩
      · rintro ⟨k, hk, rfl⟩
        omega
    unfold Spec.near
    rw [List.length_map, e.length_eq, List.length_map, List.length_range]
  rw [hl] at h3
  exact ⟨by omega, by omega, hl⟩

/-- C168: the same of the depths that `find_surface` detects, when it detects one in every profile. -/
theorem find_surface_smooth {lib : ℕ → Option ℝ} {median : List ℝ → ℝ} {nb nr nt nfilt : ℕ} {amp : ℕ → ℕ → ℕ → ℚ}
    {range : ℕ → ℝ} {thresh : ℤ} {d : ℕ → Option ℝ} (h : findSurface median nb nr nt amp range thresh = .ok d)
    (hc : ∀ t < nt, ∃ x, d t = some x ∧ 0 < x) (hodd : nfilt % 2 = 1) (hn : nfilt / 2 < nt) :
    ∃ a f, (∀ t < nt, d t = some (a t)) ∧ findSurfaceAll lib median nb nr nt amp range thresh nfilt = .ok f ∧
      ∀ i < nt, ∃ m, f i = some m ∧ m ∈ Spec.near nt (nfilt / 2) a i ∧
        (nfilt / 2 ≤ i → i + nfilt / 2 < nt →
          nfilt < 2 * (Spec.near nt (nfilt / 2) a i).countP (fun x => decide (m ≤ x)) ∧
          nfilt < 2 * (Spec.near nt (nfilt / 2) a i).countP (fun x => decide (x ≤ m)) ∧
          (Spec.near nt (nfilt / 2) a i).length = nfilt) := by
  have hall : d = fun j => some ((d j).getD 0) := by
    funext j
    by_cases hj : j < nt
    · obtain ⟨x, hx, -⟩ := hc j hj
      rw [hx]; rfl
    · by_cases hnt : nt < nr
      · rw [find_surface_short _ _ _ _ hnt] at h
        cases h
      · obtain ⟨d', h1, x, h2⟩ := find_surface_untested median nb nr nt (not_lt.mp hnt) amp range thresh j (by omega)
        rw [h] at h1
        rw [Except.ok.inj h1, h2]; rfl
  obtain ⟨f, hf, hv⟩ := surface_filter_median (lib := lib) (n := nt) (a := fun j => (d j).getD 0) hodd (by
    intro j hj
    obtain ⟨x, hx, h0⟩ := hc j hj
    simp only [hx]
    exact h0) hn
  refine ⟨_, f, fun t _ => congrFun hall t, ?_, hv⟩
  unfold findSurfaceAll
  rw [h]
  simp only
  rw [hall]
  exact hf

/-- C168: a depth that holds for more than half of the window is kept exactly; shorter spikes are removed. -/
theorem surface_filter_spike {lib : ℕ → Option ℝ} {n nfilt : ℕ} {a : ℕ → ℝ} (hodd : nfilt % 2 = 1) {i : ℕ} {c : ℝ}
    (hc0 : c ≠ 0) (hc : nfilt < 2 * (Spec.near n (nfilt / 2) a i).count c) :
    ∃ f, surfaceFilt lib n nfilt (fun j => some (a j)) = .ok f ∧ f i = some c := by
  obtain ⟨f, hf, hv⟩ := surfaceFilt_complete (lib := lib) (n := n) (a := a) hodd
  refine ⟨f, hf, ?_⟩
  have hm : medfilt n (nfilt / 2) a i = c := by
    apply medfilt_majority
    rw [List.count, medWindow_countP]
    rw [List.count] at hc
    omega
  rw [hv, hm, if_neg hc0]

/-- C168 is false at the ends of every record: the first smoothed depth is not the median but the smallest of the depths
in reach. -/
theorem surface_filter_first_false {lib : ℕ → Option ℝ} {n nfilt : ℕ} {a : ℕ → ℝ} (hodd : nfilt % 2 = 1)
    (hpos : ∀ j < n, 0 < a j) (hn : nfilt / 2 < n) :
    ∃ f m, surfaceFilt lib n nfilt (fun j => some (a j)) = .ok f ∧ f 0 = some m ∧
      (∃ j ≤ nfilt / 2, a j = m) ∧ ∀ j ≤ nfilt / 2, m ≤ a j := by
  obtain ⟨f, hf, hv⟩ := surfaceFilt_complete (lib := lib) (n := n) (a := a) hodd
  obtain ⟨h0, h1, h2, -⟩ := medfilt_near (i := 0) hpos hn (by omega)
  have e : Spec.near n (nfilt / 2) a 0 = ((List.range n).filter fun j => decide (j ≤ nfilt / 2)).map a := by
    unfold Spec.near; simp
  have hl : (Spec.near n (nfilt / 2) a 0).length ≤ nfilt / 2 + 1 := by
    rw [e, List.length_map]
    have : ((List.range n).filter fun j => decide (j ≤ nfilt / 2)).Subperm (List.range (nfilt / 2 + 1)) := by
      apply List.subperm_of_subset (List.nodup_range.filter _)
      intro x hx
      simp only [List.mem_filter, List.mem_range, decide_eq_true_eq] at hx ⊢
      omega
    simpa using this.length_le
  refine ⟨f, _, hf, by rw [hv, if_neg h0.ne'], ?_, ?_⟩
  · rw [e] at h1
    simp only [List.mem_map, List.mem_filter, List.mem_range, decide_eq_true_eq] at h1
    obtain ⟨j, ⟨-, hj⟩, hm⟩ := h1
    exact ⟨j, hj, hm⟩
  · have hall := List.countP_eq_length.mp (le_antisymm List.countP_le_length (hl.trans h2))
    intro j hj
    have := hall (a j) (by
      rw [e]
      simp only [List.mem_map, List.mem_filter, List.mem_range, decide_eq_true_eq]
      exact ⟨j, ⟨by omega, hj⟩, rfl⟩)
    simpa using this

/-- C168 is false at the other end, too. -/
theorem surface_filter_last_false {lib : ℕ → Option ℝ} {n nfilt : ℕ} {a : ℕ → ℝ} (hodd : nfilt % 2 = 1)
    (hpos : ∀ j < n, 0 < a j) (hn : nfilt / 2 < n) :
    ∃ f m, surfaceFilt lib n nfilt (fun j => some (a j)) = .ok f ∧ f (n - 1) = some m ∧
      (∃ j < n, n - 1 ≤ j + nfilt / 2 ∧ a j = m) ∧ ∀ j < n, n - 1 ≤ j + nfilt / 2 → m ≤ a j := by
  obtain ⟨f, hf, hv⟩ := surfaceFilt_complete (lib := lib) (n := n) (a := a) hodd
  obtain ⟨h0, h1, h2, -⟩ := medfilt_near (i := n - 1) hpos hn (by omega)
  have hmem : ∀ x, x ∈ Spec.near n (nfilt / 2) a (n - 1) ↔ ∃ j < n, n - 1 ≤ j + nfilt / 2 ∧ a j = x := by
    intro x
    unfold Spec.near
    simp only [List.mem_map, List.mem_filter, List.mem_range, decide_eq_true_eq]
    constructor
    · rintro ⟨j, ⟨h3, h4, h5⟩, h6⟩
      exact ⟨j, h3, h5, h6⟩
    · rintro ⟨j, h3, h5, h6⟩
      exact ⟨j, ⟨h3, by omega, h5⟩, h6⟩
  have hl : (Spec.near n (nfilt / 2) a (n - 1)).length ≤ nfilt / 2 + 1 := by
    unfold Spec.near
    rw [List.length_map]
    have : ((List.range n).filter fun j => decide (j ≤ n - 1 + nfilt / 2 ∧ n - 1 ≤ j + nfilt / 2)).Subperm
        ((List.range (nfilt / 2 + 1)).map (· + (n - 1 - nfilt / 2))) := by
      apply List.subperm_of_subset (List.nodup_range.filter _)
      intro x hx
      simp only [List.mem_filter, List.mem_range, decide_eq_true_eq, List.mem_map] at hx ⊢
      exact ⟨x - (n - 1 - nfilt / 2), by omega, by omega⟩
    simpa using this.length_le
  refine ⟨f, _, hf, by rw [hv, if_neg h0.ne'], (hmem _).mp h1, ?_⟩
  have hall := List.countP_eq_length.mp (le_antisymm List.countP_le_length (hl.trans h2))
  intro j hj hj'
  have := hall (a j) ((hmem _).mpr ⟨j, hj, hj', rfl⟩)
  simpa using this

/-- C168 is false of short records: if the record is no longer than half the filter, every depth is lost. -/
theorem surface_filter_short_false {lib : ℕ → Option ℝ} {n nfilt : ℕ} {a : ℕ → ℝ} (hodd : nfilt % 2 = 1)
    (hn : n ≤ nfilt / 2) :
    ∃ f, surfaceFilt lib n nfilt (fun j => some (a j)) = .ok f ∧ ∀ i, f i = none := by
  obtain ⟨f, hf, hv⟩ := surfaceFilt_complete (lib := lib) (n := n) (a := a) hodd
  refine ⟨f, hf, fun i => ?_⟩
  have hm : medfilt n (nfilt / 2) a i = 0 := by
    apply medfilt_majority
    rw [List.count, medWindow_countP, if_pos (by simp)]
    have := near_length_le n (nfilt / 2) a i
    have := near_length n (nfilt / 2) a i
    omega
  rw [hv, if_pos hm]

/-- C168 is false of missing depths: the threshold of `find_surface` never makes a smoothed depth missing, however many
of the depths in the window are. -/
theorem surface_filter_gap_false {lib : ℕ → Option ℝ} {n nfilt : ℕ} {d : ℕ → Option ℝ} (hodd : nfilt % 2 = 1)
    (hgap : ∃ j < n, d j = none) {i : ℕ} {x : ℝ} (hx : x ≠ 0) (hl : lib i = some x) :
    ∃ f, surfaceFilt lib n nfilt d = .ok f ∧ f i = some x := by
  refine ⟨_, by unfold surfaceFilt; rw [if_neg (by omega), if_neg (by omega)], ?_⟩
  simp only
  rw [medfiltnan_never n nfilt (by omega) hodd 4 (by norm_num)]
  obtain ⟨j, hj, hd⟩ := hgap
  have : medfiltRow lib n (nfilt / 2) d i = some x := by
    unfold medfiltRow
    rw [if_neg, hl]
    intro hc
    rw [List.all_eq_true] at hc
    have := hc j (List.mem_range.mpr hj)
    rw [hd] at this
    cases this
  rw [this, if_neg (by simpa using hx)]

/-- C168: even filter lengths raise, and 0 does not filter. -/
theorem surface_filter_even {lib : ℕ → Option ℝ} {n nfilt : ℕ} {d : ℕ → Option ℝ} (h : nfilt % 2 = 0) :
    surfaceFilt lib n nfilt d = if nfilt = 0 then .ok d else .error .valueError := by
  unfold surfaceFilt
  rw [if_pos h]

/-- The hypotheses of `find_surface_smooth` are met: one beam, two cells, three profiles with the strongest echo in the
first cell; the threshold -1 accepts all. -/
example : ∃ d, findSurface (fun _ => (4 : ℝ)) 1 2 3 (fun _ c _ => 1 - (c : ℚ)) (fun c => 1 + (c : ℝ)) (-1) = .ok d ∧
    ∀ t < 3, ∃ x, d t = some x ∧ 0 < x := by
  refine ⟨_, by unfold findSurface; simp only; rw [if_neg (by decide)], fun t _ => ⟨4, ?_, by norm_num⟩⟩
  beta_reduce
  rw [if_neg]
  rintro ⟨-, h⟩
  have := h 0 (by decide) ?_ 0 (by decide)
  · norm_num [truncAmp] at this
  · norm_num [argmaxN]

/-- A sloping bottom of 10, 11, 12, … m and a filter over 5 profiles: the third depth stays 12 m, the first is 10 m
(the median of what is in reach would be 11 m). -/
example : ∃ f m, surfaceFilt (fun _ => none) 9 5 (fun j => some (10 + (j : ℝ))) = .ok f ∧ f 0 = some m ∧ m ≤ 10 := by
  obtain ⟨f, m, h1, h2, -, h4⟩ := surface_filter_first_false (lib := fun _ => none) (n := 9) (nfilt := 5)
    (a := fun j => 10 + (j : ℝ)) rfl (fun j _ => by positivity) (by decide)
  exact ⟨f, m, h1, h2, by simpa using h4 0 (by decide)⟩

example : ∃ f, surfaceFilt (fun _ => none) 9 5 (fun j => some (if j = 4 then 50 else 10)) = .ok f ∧
    f 3 = some 10 := by
  refine surface_filter_spike (nfilt := 5) rfl (by norm_num) ?_
  have : Spec.near 9 2 (fun j => if j = 4 then 50 else 10) 3 = [10, 10, 10, 50, 10] := by
    unfold Spec.near
    rw [show ((List.range 9).filter fun j => decide (j ≤ 3 + 2 ∧ 3 ≤ j + 2)) = [1, 2, 3, 4, 5] by decide]
    norm_num
  rw [show 5 / 2 = 2 by rfl, this]
  norm_num [List.count_cons]

end Dolfyn
