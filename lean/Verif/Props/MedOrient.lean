import Verif.Model.MedOrient
import Verif.Props.Orient
import Verif.Lemmas.RotateTotal
import Mathlib.Tactic.NormNum
import Mathlib.Data.List.GetD

/-! C121: median filtering of the orientation. -/

namespace Dolfyn

theorem medWindow_length (n h : ℕ) (a : ℕ → ℝ) (i : ℕ) : (medWindow n h a i).length = 2 * h + 1 := by
  simp [medWindow]

/-- The sorted window, its middle and the two halves. -/
theorem medfilt_sorted (n h : ℕ) (a : ℕ → ℝ) (i : ℕ) :
    ∃ lo hi : List ℝ, (medWindow n h a i).Perm (lo ++ medfilt n h a i :: hi) ∧ lo.length = h ∧ hi.length = h ∧
      (∀ x ∈ lo, x ≤ medfilt n h a i) ∧ ∀ x ∈ hi, medfilt n h a i ≤ x := by
  have hl : ((medWindow n h a i).insertionSort (· ≤ ·)).length = 2 * h + 1 := by
    rw [List.length_insertionSort, medWindow_length]
  have hs := List.pairwise_insertionSort (· ≤ ·) (medWindow n h a i)
  have hp := List.perm_insertionSort (· ≤ ·) (medWindow n h a i)
  unfold medfilt
  generalize (medWindow n h a i).insertionSort (· ≤ ·) = s at hl hs hp ⊢
  have hh : h < s.length := by omega
  have hd : s.getD h 0 = s[h] := by rw [List.getD_eq_getElem _ _ hh]
  have hsplit : s = s.take h ++ s[h] :: s.drop (h + 1) := by
    rw [List.getElem_cons_drop, List.take_append_drop]
  refine ⟨s.take h, s.drop (h + 1), ?_, by simp; omega, by simp; omega, ?_, ?_⟩
  · rw [hd, ← hsplit]; exact hp.symm
  · intro x hx
    rw [hd]
    rw [hsplit] at hs
    exact (List.pairwise_append.mp hs).2.2 x hx _ List.mem_cons_self
  · intro x hx
    rw [hd]
    rw [hsplit] at hs
    exact (List.pairwise_cons.mp (List.pairwise_append.mp hs).2.1).1 x hx

/-- **C121.** The filtered value is the median of its window: at least half of the window lies on either side. -/
theorem medfilt_median (n h : ℕ) (a : ℕ → ℝ) (i : ℕ) :
    medfilt n h a i ∈ medWindow n h a i ∧
      h + 1 ≤ (medWindow n h a i).countP (fun x => decide (x ≤ medfilt n h a i)) ∧
      h + 1 ≤ (medWindow n h a i).countP (fun x => decide (medfilt n h a i ≤ x)) := by
  obtain ⟨lo, hi, hp, l1, l2, h1, h2⟩ := medfilt_sorted n h a i
  generalize medfilt n h a i = m at *
  refine ⟨hp.mem_iff.mpr (by simp), ?_, ?_⟩
  · rw [hp.countP_eq, List.countP_append, List.countP_cons]
    have : lo.countP (fun x => decide (x ≤ m)) = lo.length :=
      List.countP_eq_length.mpr fun x hx => decide_eq_true (h1 x hx)
    simp [this, l1]
  · rw [hp.countP_eq, List.countP_append, List.countP_cons]
    have : hi.countP (fun x => decide (m ≤ x)) = hi.length :=
      List.countP_eq_length.mpr fun x hx => decide_eq_true (h2 x hx)
    simp [this, l2]

/-- **C121.** A value taken by the majority of the window is the filtered value: constant stretches are kept and spikes
shorter than half the window are removed. -/
theorem medfilt_majority (n h : ℕ) (a : ℕ → ℝ) (i : ℕ) (c : ℝ) (hc : h < (medWindow n h a i).count c) :
    medfilt n h a i = c := by
  obtain ⟨lo, hi, hp, l1, l2, h1, h2⟩ := medfilt_sorted n h a i
  generalize medfilt n h a i = m at *
  rw [hp.count_eq, List.count_append, List.count_cons] at hc
  have clo : lo.count c ≤ h := l1 ▸ List.count_le_length
  have chi : hi.count c ≤ h := l2 ▸ List.count_le_length
  by_contra hne
  have hb : (m == c) = false := by simpa using hne
  rw [hb] at hc
  simp only [Bool.false_eq_true, if_false, add_zero] at hc
  rcases lt_or_gt_of_ne hne with hlt | hgt
  · have : lo.count c = 0 := List.count_eq_zero.mpr fun hm => absurd (h1 c hm) (not_le.mpr hlt)
    omega
  · have : hi.count c = 0 := List.count_eq_zero.mpr fun hm => absurd (h2 c hm) (not_le.mpr hgt)
    omega

/-- The window contains the sample and its `h` successors (or predecessors), so a constant record of at least `h + 1`
samples is unchanged, including its ends. -/
theorem medfilt_const (n h : ℕ) (hn : h < n) (c : ℝ) (i : ℕ) (hi : i < n) : medfilt n h (fun _ => c) i = c := by
  apply medfilt_majority
  unfold medWindow
  rw [List.count, List.countP_map, List.countP_eq_length_filter]
  have hsub : ((List.range (h + 1)).map (· + (h - i))).Subperm ((List.range (2 * h + 1)).filter
      ((fun x => x == c) ∘ fun j => if h ≤ i + j ∧ i + j - h < n then c else 0)) := by
    apply List.subperm_of_subset
    · exact List.Nodup.map (fun a b hab => by simpa using hab) List.nodup_range
    · intro j hj
      obtain ⟨k, hk, rfl⟩ := List.mem_map.mp hj
      rw [List.mem_range] at hk
      rw [List.mem_filter, List.mem_range]
      refine ⟨by omega, ?_⟩
      simp only [Function.comp]
      rw [if_pos (by omega)]
      simp
  have := hsub.length_le
  rw [List.length_map, List.length_range] at this
  exact Nat.lt_of_succ_le this

/-- **C121 (part).** With an IMU: if the filtered quaternion of no sample is zero, the call succeeds and the new matrices
are the rotations of the filtered quaternions. Missing: zero quaternions (see below). -/
theorem medfiltOrient_imu_partial (ds : OrientDs) (nfilt : ℕ) (hi : ds.hasImu = some true) (ho : nfilt % 2 = 1)
    (hq : ∀ i, i < ds.n → (fun c => medfilt ds.n (nfilt / 2) (ds.quat c) i) ≠ 0) :
    ∃ out om, medfiltOrient ds nfilt = .ok out ∧ out.orientmat = some om ∧ out.n = ds.n ∧
      (∀ c i, out.quat c i = medfilt ds.n (nfilt / 2) (ds.quat c) i) ∧ out.angle = ds.angle ∧
      ∀ i, i < ds.n → Spec.IsRotation (om i) ∧ quaternion2orient (fun c => out.quat c i) = .ok (om i) := by
  have hm : ∀ i, ∃ m, i < ds.n → quaternion2orient (fun c => medfilt ds.n (nfilt / 2) (ds.quat c) i) = .ok m ∧
      Spec.IsRotation m := by
    intro i
    by_cases hlt : i < ds.n
    · obtain ⟨m, h1, h2, -⟩ := quaternion2orient_spec _ (hq i hlt)
      exact ⟨m, fun _ => ⟨h1, h2⟩⟩
    · exact ⟨0, fun h => absurd h hlt⟩
  choose g hg using hm
  have hM : (List.range ds.n).mapM (fun i => quaternion2orient fun c => medfilt ds.n (nfilt / 2) (ds.quat c) i) =
      .ok ((List.range ds.n).map g) :=
    mapM_ok_of_forall _ fun i hi => (hg i (List.mem_range.mp hi)).1
  refine ⟨OrientDs.mk (some true) ds.n (fun c => medfilt ds.n (nfilt / 2) (ds.quat c)) ds.angle
    (some fun i => ((List.range ds.n).map g).getD i 0), _, by
    unfold medfiltOrient
    rw [hi]
    simp only [if_true]
    rw [if_neg (by omega), hM]
    rfl, rfl, rfl, fun _ _ => rfl, rfl, ?_⟩
  intro i hlt
  have e : ((List.range ds.n).map g).getD i 0 = g i := by
    rw [List.getD_eq_getElem _ _ (by simpa using hlt)]
    simp
  rw [e]
  exact ⟨(hg i hlt).2, (hg i hlt).1⟩

/-- **C121.** Without an IMU the angles are filtered and the matrix is removed. -/
theorem medfiltOrient_angles (ds : OrientDs) (nfilt : ℕ) (hi : ds.hasImu = some false) (ho : nfilt % 2 = 1)
    (om : ℕ → M3) (hom : ds.orientmat = some om) :
    ∃ out, medfiltOrient ds nfilt = .ok out ∧ out.orientmat = none ∧ out.quat = ds.quat ∧
      ∀ c i, out.angle c i = medfilt ds.n (nfilt / 2) (ds.angle c) i := by
  refine ⟨OrientDs.mk (some false) ds.n ds.quat (fun c => medfilt ds.n (nfilt / 2) (ds.angle c)) none, by
    unfold medfiltOrient
    rw [hi, hom]
    simp only [Bool.false_eq_true, if_false]
    rw [if_neg (by omega)], rfl, rfl, fun _ _ => rfl⟩

/-- A constant orientation recorded as quaternions of alternating sign (`q` and `-q` are the same orientation). -/
noncomputable def altQuat : OrientDs :=
  { hasImu := some true, n := 8, quat := fun c i => if i % 2 = 0 then (if c = 0 then 1 else 0) else
      (if c = 0 then -1 else 0), angle := fun _ _ => 0, orientmat := none }

/-- **C121.** Refuted: for unit quaternions of one and the same orientation the call raises, because the filter mixes
the two signs with the zeros beyond the ends of the record. -/
theorem medfiltOrient_signs_false :
    (∀ i, ∑ c, altQuat.quat c i ^ 2 = 1) ∧
    (∀ i, quaternion2orient (fun c => altQuat.quat c i) = quaternion2orient fun c => altQuat.quat c 0) ∧
    medfiltOrient altQuat 7 = .error .valueError := by
  refine ⟨?_, ?_, ?_⟩
  · intro i
    rw [Fin.sum_univ_four]
    by_cases h : i % 2 = 0 <;> simp [altQuat, h]
  · intro i
    rcases Nat.mod_two_eq_zero_or_one i with h | h
    · congr 1
      funext c
      unfold altQuat
      simp [h]
    · rw [← quaternion2orient_neg]
      congr 1
      funext c
      unfold altQuat
      simp only [h, Pi.neg_apply]
      split_ifs <;> simp_all
  · have h0 : medfilt 8 3 (altQuat.quat 0) 0 = 0 := by
      obtain ⟨h1, h2, h3⟩ := medfilt_median 8 3 (altQuat.quat 0) 0
      generalize medfilt 8 3 (altQuat.quat 0) 0 = m at *
      have hw : medWindow 8 3 (altQuat.quat 0) 0 = [0, 0, 0, 1, -1, 1, -1] := by
        unfold medWindow altQuat
        simp [List.range_succ]
      rw [hw] at h1 h2 h3
      simp only [List.mem_cons, List.not_mem_nil, or_false] at h1
      have hm : m = 0 ∨ m = 1 ∨ m = -1 := by tauto
      rcases hm with rfl | rfl | rfl
      · rfl
      · exfalso; norm_num [List.countP_cons] at h3
      · exfalso; norm_num [List.countP_cons] at h2
    have hc : ∀ c : Fin 4, c ≠ 0 → medfilt 8 3 (altQuat.quat c) 0 = 0 := by
      intro c hc
      have : altQuat.quat c = fun _ => 0 := by
        funext i
        unfold altQuat
        simp [hc]
      rw [this]
      exact medfilt_const 8 3 (by omega) 0 0 (by omega)
    have hz : (fun c => medfilt 8 3 (altQuat.quat c) 0) = 0 := by
      funext c
      by_cases h : c = 0
      · rw [h, h0]; rfl
      · rw [hc c h]; rfl
    unfold medfiltOrient
    have e1 : altQuat.hasImu = some true := rfl
    have e2 : altQuat.n = 8 := rfl
    rw [e1, e2]
    simp only [if_true]
    rw [if_neg (by omega), show List.range 8 = 0 :: [1, 2, 3, 4, 5, 6, 7] from rfl, List.mapM_cons]
    simp only [show 7 / 2 = 3 from rfl]
    rw [hz, quaternion2orient_zero]
    rfl

/-- **C121.** Even kernels and datasets without `has_imu` raise. -/
theorem medfiltOrient_even (ds : OrientDs) (nfilt : ℕ) (b : Bool) (hi : ds.hasImu = some b) (he : nfilt % 2 = 0) :
    medfiltOrient ds nfilt = .error .valueError := by
  unfold medfiltOrient
  rw [hi]
  simp only [if_pos he]

/-- A spike in an otherwise constant pitch is removed. -/
example : medfilt 9 3 (fun i => if i = 4 then 50 else 2) 4 = 2 := by
  apply medfilt_majority
  unfold medWindow
  simp [List.range_succ, List.count_cons]

end Dolfyn
