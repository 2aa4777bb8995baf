import Verif.Model.DetrendNd
import Verif.Props.Detrend

/-!
C185: `detrend` for arrays with any number of axes.
-/

namespace Dolfyn

open Finset

/-- `idx` is an index into an array of that shape. -/
def Spec.inShape (idx shape : List ℕ) : Prop := List.Forall₂ (· < ·) idx shape

/-- The line of an array along axis `k` through the entry `idx`. -/
def Spec.lineOf (a : NdArr) (k : ℕ) (idx : List ℕ) : ℕ → Option ℝ := fun j => a.at_ (idx.set k j)

theorem inShape_length {idx s : List ℕ} (h : Spec.inShape idx s) : idx.length = s.length := h.length_eq

theorem bcIdx_self {idx s : List ℕ} (h : Spec.inShape idx s) : bcIdx s idx = idx := by
  unfold bcIdx
  induction h with
  | nil => rfl
  | cons hab _ ih =>
    rw [List.zipWith_cons_cons, ih]
    congr 1
    split <;> omega

theorem bcIdx_set {idx s : List ℕ} (h : Spec.inShape idx s) (k : ℕ) : bcIdx (s.set k 1) idx = idx.set k 0 := by
  induction h generalizing k with
  | nil => rfl
  | cons hab hs ih =>
    cases k with
    | zero =>
      have := bcIdx_self hs
      unfold bcIdx at this ⊢
      simp only [List.set_cons_zero, List.zipWith_cons_cons, if_true, this]
    | succ k =>
      have := ih k
      unfold bcIdx at this ⊢
      simp only [List.set_cons_succ, List.zipWith_cons_cons, this]
      congr 1
      split <;> omega

theorem bcIdx_ones (n : ℕ) (idx : List ℕ) (k : ℕ) (hk : k < idx.length) (hi : idx.getD k 0 < n) :
    (bcIdx ((List.replicate idx.length 1).set k n) idx).getD k 0 = idx.getD k 0 := by
  induction idx generalizing k with
  | nil => simp at hk
  | cons i l ih =>
    cases k with
    | zero =>
      simp only [List.getD_cons_zero] at hi ⊢
      unfold bcIdx
      simp only [List.length_cons, List.replicate_succ, List.set_cons_zero, List.zipWith_cons_cons, List.getD_cons_zero]
      split <;> omega
    | succ k =>
      have := ih k (by simpa using hk) (by simpa using hi)
      unfold bcIdx at this ⊢
      simpa [List.replicate_succ] using this

theorem inShape_getD {idx s : List ℕ} (h : Spec.inShape idx s) {k : ℕ} (hk : k < s.length) : idx.getD k 0 < s.getD k 0 := by
  induction h generalizing k with
  | nil => simp at hk
  | cons hab hs ih =>
    cases k with
    | zero => simpa using hab
    | succ k => simpa using ih (by simpa using hk)

theorem inShape_set {idx s : List ℕ} (h : Spec.inShape idx s) {k j : ℕ} (hj : j < s.getD k 0) :
    Spec.inShape (idx.set k j) s := by
  induction h generalizing k with
  | nil => exact .nil
  | cons hab hs ih =>
    cases k with
    | zero => exact .cons (by simpa using hj) hs
    | succ k => exact .cons hab (ih (by simpa using hj))

theorem set_getD_self (idx : List ℕ) (k : ℕ) : idx.set k (idx.getD k 0) = idx := by
  induction idx generalizing k with
  | nil => rfl
  | cons i l ih =>
    cases k with
    | zero => rfl
    | succ k => simp only [List.set_cons_succ, List.getD_cons_succ, ih]

theorem getD_set_self (idx : List ℕ) (k j : ℕ) (hk : k < idx.length) : (idx.set k j).getD k 0 = j := by
  induction idx generalizing k with
  | nil => simp at hk
  | cons i l ih =>
    cases k with
    | zero => rfl
    | succ k => simpa using ih k (by simpa using hk)

theorem fits_set (s : List ℕ) (k : ℕ) : bcFits s (s.set k 1) = true ∧
    List.zipWith (fun s t => if s = 1 then t else s) s (s.set k 1) = s := by
  induction s generalizing k with
  | nil => exact ⟨rfl, rfl⟩
  | cons a l ih =>
    cases k with
    | zero =>
      constructor
      · simp only [bcFits, List.set_cons_zero, List.length_cons, beq_self_eq_true, List.zip_cons_cons, List.all_cons,
          Bool.or_true, Bool.true_and, List.all_eq_true]
        intro p hp
        obtain ⟨i, hi, rfl⟩ := List.mem_iff_getElem.mp hp
        simp
      · simp only [List.set_cons_zero, List.zipWith_cons_cons]
        congr 1
        · split <;> omega
        · clear ih
          induction l with
          | nil => rfl
          | cons b l ih2 => rw [List.zipWith_cons_cons, ih2]; simp
    | succ k =>
      obtain ⟨h1, h2⟩ := ih k
      constructor
      · simp only [bcFits, Bool.and_eq_true, List.set_cons_succ, List.length_cons, List.zip_cons_cons, List.all_cons,
          List.length_set, beq_self_eq_true, Bool.true_or, true_and] at h1 ⊢
        exact h1
      · simp only [List.set_cons_succ, List.zipWith_cons_cons, h2]
        congr 1
        split <;> simp

theorem fits_self (s : List ℕ) : bcFits s s = true ∧ List.zipWith (fun s t => if s = 1 then t else s) s s = s := by
  constructor
  · simp only [bcFits, beq_self_eq_true, Bool.true_and, List.all_eq_true]
    intro p hp
    obtain ⟨i, hi, rfl⟩ := List.mem_iff_getElem.mp hp
    simp
  · induction s with
    | nil => rfl
    | cons b l ih2 => rw [List.zipWith_cons_cons, ih2]; simp

theorem fits_ones (s : List ℕ) (k : ℕ) :
    bcFits ((List.replicate s.length 1).set k (s.getD k 0)) s = true ∧
      List.zipWith (fun s t => if s = 1 then t else s) ((List.replicate s.length 1).set k (s.getD k 0)) s = s := by
  induction s generalizing k with
  | nil => exact ⟨rfl, rfl⟩
  | cons a l ih =>
    cases k with
    | zero =>
      constructor
      · simp only [bcFits, List.length_cons, List.replicate_succ, List.set_cons_zero, List.getD_cons_zero, List.length_replicate,
          beq_self_eq_true, List.zip_cons_cons, List.all_cons, Bool.true_or, Bool.true_and, List.all_eq_true]
        intro p hp
        have := (List.of_mem_zip hp).1
        rw [List.mem_replicate] at this
        simp [this.2]
      · simp only [List.length_cons, List.replicate_succ, List.set_cons_zero, List.getD_cons_zero, List.zipWith_cons_cons]
        congr 1
        · simp
        · clear ih
          induction l with
          | nil => rfl
          | cons b l ih2 => simp only [List.length_cons, List.replicate_succ, List.zipWith_cons_cons, if_true, ih2]
    | succ k =>
      obtain ⟨h1, h2⟩ := ih k
      constructor
      · simp only [bcFits, Bool.and_eq_true, List.length_cons, List.replicate_succ, List.set_cons_succ, List.getD_cons_succ,
          List.length_set, List.length_replicate, beq_self_eq_true, List.zip_cons_cons, List.all_cons, Bool.or_true,
          Bool.true_or, true_and] at h1 ⊢
        exact h1
      · simp only [List.length_cons, List.replicate_succ, List.set_cons_succ, List.getD_cons_succ, List.zipWith_cons_cons,
          if_true, h2]

theorem fits_swap (s : List ℕ) (k : ℕ) :
    bcFits (s.set k 1) ((List.replicate s.length 1).set k (s.getD k 0)) = true ∧
      List.zipWith (fun s t => if s = 1 then t else s) (s.set k 1) ((List.replicate s.length 1).set k (s.getD k 0)) = s := by
  induction s generalizing k with
  | nil => exact ⟨rfl, rfl⟩
  | cons a l ih =>
    cases k with
    | zero =>
      constructor
      · simp only [bcFits, List.length_cons, List.replicate_succ, List.set_cons_zero, List.getD_cons_zero, List.length_replicate,
          beq_self_eq_true, List.zip_cons_cons, List.all_cons, Bool.or_true, Bool.true_or, Bool.true_and, List.all_eq_true]
        intro p hp
        have := (List.of_mem_zip hp).2
        rw [List.mem_replicate] at this
        simp [this.2]
      · simp only [List.length_cons, List.replicate_succ, List.set_cons_zero, List.getD_cons_zero, List.zipWith_cons_cons, if_true]
        congr 1
        clear ih
        induction l with
        | nil => rfl
        | cons b l ih2 =>
          simp only [List.length_cons, List.replicate_succ, List.zipWith_cons_cons, ih2]
          congr 1
          split <;> omega
    | succ k =>
      obtain ⟨h1, h2⟩ := ih k
      constructor
      · simp only [bcFits, Bool.and_eq_true, List.length_cons, List.replicate_succ, List.set_cons_succ, List.getD_cons_succ,
          List.length_set, List.length_replicate, beq_self_eq_true, List.zip_cons_cons, List.all_cons, Bool.or_true,
          true_and] at h1 ⊢
        exact h1
      · simp only [List.length_cons, List.replicate_succ, List.set_cons_succ, List.getD_cons_succ, List.zipWith_cons_cons, h2]
        congr 1
        split <;> omega

theorem bin_ok (f : Option ℝ → Option ℝ → Option ℝ) (a b : NdArr) (h : bcFits a.shape b.shape = true) :
    a.bin f b = .ok ⟨List.zipWith (fun s t => if s = 1 then t else s) a.shape b.shape,
      fun idx => f (a.at_ (bcIdx a.shape idx)) (b.at_ (bcIdx b.shape idx))⟩ := by
  unfold NdArr.bin
  rw [if_pos h]

theorem isub_ok (a b : NdArr) (h : bcFits a.shape b.shape = true)
    (h' : List.zipWith (fun s t => if s = 1 then t else s) a.shape b.shape = a.shape) :
    a.isub false b = .ok ⟨a.shape, fun idx => opt2 (· - ·) (a.at_ (bcIdx a.shape idx)) (b.at_ (bcIdx b.shape idx))⟩ := by
  unfold NdArr.isub
  rw [bin_ok _ _ _ h]
  simp only [Bool.false_eq_true, if_false, h', if_true]

theorem bcIdx_length (s idx : List ℕ) (h : idx.length = s.length) : (bcIdx s idx).length = s.length := by
  unfold bcIdx; simp [h]

/-- The centred positions along the axis. -/
noncomputable def xDev (n i : ℕ) : Option ℝ := opt2 (· - ·) (some (i : ℝ)) (nanmean (vals n fun j => some (j : ℝ)))

theorem x_value (nd k n : ℕ) (hk : k < nd) (J : List ℕ) (hJ : J.length = nd) (hi : J.getD k 0 < n) :
    opt2 (· - ·) ((detrendX nd k n).at_ (bcIdx (detrendX nd k n).shape J))
      (((detrendX nd k n).mean k).at_ (bcIdx ((detrendX nd k n).mean k).shape J)) = xDev n (J.getD k 0) := by
  have e1 : (bcIdx ((List.replicate nd 1).set k n) J).getD k 0 = J.getD k 0 := by
    rw [← hJ]; exact bcIdx_ones n J k (by omega) hi
  have e2 : ((List.replicate nd 1).set k n).getD k 0 = n := getD_set_self _ k n (by simpa using hk)
  unfold xDev
  simp only [detrendX, NdArr.mean, e1, e2]
  congr 3
  funext j
  rw [getD_set_self _ k j (by rw [bcIdx_length _ _ (by simp [hJ])]; simpa using hk)]

/-- **C185** (every line on its own). For floats and any valid axis, the result has the shape of the array, and each entry is
what `detrend` of its line along that axis alone gives. -/
theorem detrend_lines (axis : ℤ) (k : ℕ) (a : NdArr) (hax : normAxis a.shape.length axis = some k) (hk : k < a.shape.length) :
    ∃ r, detrendNd false axis a = .ok r ∧ r.shape = a.shape ∧
      ∀ idx, Spec.inShape idx a.shape →
        r.at_ idx = detrend (a.shape.getD k 0) (Spec.lineOf a k idx) (idx.getD k 0) := by
  obtain ⟨s, A⟩ := a
  simp only at hax hk ⊢
  set n := s.getD k 0 with hn
  set S := (List.replicate s.length 1).set k n with hS
  have hSk : S.getD k 0 = n := getD_set_self _ k n (by simpa using hk)
  have hSl : S.length = s.length := by simp [hS]
  have hs1 : (s.set k 1).getD k 0 = 1 := getD_set_self s k 1 hk
  have hx := isub_ok (detrendX s.length k n) ((detrendX s.length k n).mean k) (fits_set S k).1 (fits_set S k).2
  have ha := isub_ok ⟨s, A⟩ (NdArr.mean k ⟨s, A⟩) (fits_set s k).1 (fits_set s k).2
  have hd : bcFits (s.set k 1) (S.set k 1) = true ∧
      List.zipWith (fun s t => if s = 1 then t else s) (s.set k 1) (S.set k 1) = s.set k 1 := by
    have := fits_swap (s.set k 1) k
    rwa [hs1, List.set_set, List.length_set, show (List.replicate s.length 1).set k 1 = S.set k 1 by
      rw [hS, List.set_set]] at this
  unfold detrendNd
  simp only [hax]
  rw [← hn, hx]
  simp only
  rw [ha]
  simp only
  rw [bin_ok _ _ _ (by exact (fits_ones s k).1), bin_ok _ _ _ (by exact (fits_self S).1)]
  simp only
  rw [bin_ok _ _ _ (by
    simp only [NdArr.mean, detrendX]
    rw [show List.zipWith (fun s t => if s = 1 then t else s) ((List.replicate s.length 1).set k n) s = s from (fits_ones s k).2,
      show List.zipWith (fun s t => if s = 1 then t else s) ((List.replicate s.length 1).set k n)
        ((List.replicate s.length 1).set k n) = S from (fits_self S).2]
    exact hd.1)]
  simp only [NdArr.mean, detrendX]
  rw [show List.zipWith (fun s t => if s = 1 then t else s) ((List.replicate s.length 1).set k n) s = s from (fits_ones s k).2,
      show List.zipWith (fun s t => if s = 1 then t else s) ((List.replicate s.length 1).set k n)
        ((List.replicate s.length 1).set k n) = S from (fits_self S).2, ← hS, hd.2, hSk, ← hn]
  rw [bin_ok _ _ _ (by exact (fits_swap s k).1)]
  simp only
  rw [show List.zipWith (fun s t => if s = 1 then t else s) (s.set k 1) S = s from (fits_swap s k).2]
  rw [isub_ok _ _ (by exact (fits_self s).1) (by exact (fits_self s).2)]
  refine ⟨_, rfl, rfl, fun idx hidx => ?_⟩
  have hl : idx.length = s.length := inShape_length hidx
  have hin : idx.getD k 0 < n := inShape_getD hidx hk
  have hJ : ∀ (J : List ℕ), J.length = s.length → J.getD k 0 < n →
      opt2 (· - ·) (some (((bcIdx S J).getD k 0 : ℕ) : ℝ))
        (nanmean (vals n fun j => some ((((bcIdx (S.set k 1) J).set k j).getD k 0 : ℕ) : ℝ))) = xDev n (J.getD k 0) := by
    intro J h1 h2
    have := x_value s.length k n hk J h1 h2
    simp only [detrendX, NdArr.mean, ← hS, hSk] at this
    exact this
  have hB : ∀ (J : List ℕ), J.length = s.length → J.getD k 0 < n → (bcIdx S J).getD k 0 = J.getD k 0 := by
    intro J h1 h2
    rw [hS, ← h1]
    exact bcIdx_ones n J k (by omega) h2
  have hBl : ∀ (J : List ℕ), J.length = s.length → (bcIdx S J).length = s.length := by
    intro J h1
    rw [bcIdx_length _ _ (by rw [hSl, h1]), hSl]
  have h0 : Spec.inShape (idx.set k 0) s := inShape_set hidx (by omega)
  have hset : ∀ j < n, Spec.inShape (idx.set k j) s := fun j hj => inShape_set hidx hj
  simp only [bcIdx_self hidx, bcIdx_set hidx k, bcIdx_set h0 k, List.set_set]
  have hv : ∀ (f g : ℕ → Option ℝ), (∀ j < n, f j = g j) → vals n f = vals n g :=
    fun f g h => List.map_congr_left fun j hj => h j (List.mem_range.mp hj)
  have hX : ∀ (J : List ℕ), J.length = s.length → J.getD k 0 < n →
      opt2 (· - ·) (some (((bcIdx S (bcIdx S J)).getD k 0 : ℕ) : ℝ))
        (nanmean (vals n fun j => some ((((bcIdx (S.set k 1) (bcIdx S J)).set k j).getD k 0 : ℕ) : ℝ))) = xDev n (J.getD k 0) := by
    intro J h1 h2
    rw [hJ (bcIdx S J) (hBl J h1) (by rw [hB J h1 h2]; exact h2), hB J h1 h2]
  unfold detrend
  dsimp only
  refine congrArg₂ (opt2 (· - ·)) ?_ (congrArg₂ (opt2 (· * ·)) (congrArg₂ npDiv (congrArg nanmean ?_) (congrArg nanmean ?_)) ?_)
  · unfold Spec.lineOf
    rw [set_getD_self]
  · refine hv _ _ fun j hj => ?_
    have hj' : (idx.set k j).getD k 0 = j := getD_set_self idx k j (by omega)
    have hs := hset j hj
    refine congrArg₂ (opt2 (· * ·)) ?_ ?_
    · rw [hX (idx.set k j) (by simp [hl]) (by rw [hj']; exact hj), hj']
      rfl
    · rw [bcIdx_self hs, bcIdx_self hs, bcIdx_set hs k]
      simp only [List.set_set]
      rfl
  · refine hv _ _ fun j hj => ?_
    have hJl : ∀ M : List ℕ, M.length = s.length → (M.set k j).length = s.length ∧ (M.set k j).getD k 0 = j :=
      fun M hM => ⟨by simp [hM], getD_set_self M k j (by omega)⟩
    have hM : (bcIdx (S.set k 1) (idx.set k 0)).length = s.length := by
      rw [bcIdx_length _ _ (by simp [hSl, hl])]; simp [hSl]
    obtain ⟨m1, m2⟩ := hJl _ hM
    have := hX _ m1 (by rw [m2]; exact hj)
    rw [m2] at this
    exact congrArg₂ (opt2 (· * ·)) this this
  · exact hX idx hl hin

/-- **C185** (axis numbers). Axis `k` can be given as `k` or counted from the end; everything else is refused. -/
theorem detrend_axis (nd : ℕ) (axis : ℤ) :
    (∀ k < nd, normAxis nd k = some k ∧ normAxis nd ((k : ℤ) - nd) = some k) ∧
    (∀ k, normAxis nd axis = some k → k < nd) ∧
    (axis < -nd ∨ (nd : ℤ) ≤ axis → normAxis nd axis = none) := by
  unfold normAxis
  refine ⟨fun k hk => ⟨?_, ?_⟩, fun k h => ?_, fun h => ?_⟩
  · rw [if_pos ⟨by omega, by omega⟩]; simp
  · rw [if_neg (by omega), if_pos ⟨by omega, by omega⟩]; simp
  · split at h
    · cases h; omega
    · split at h
      · cases h; omega
      · cases h
  · rw [if_neg (by omega), if_neg (by omega)]

/-- **C185** (what is removed). In an array of floats without missing values, every line along the axis loses a straight
line and has no mean and no slope left, whatever the other axes. -/
theorem detrend_lines_normal (axis : ℤ) (k : ℕ) (a : NdArr) (v : List ℕ → ℝ) (hax : normAxis a.shape.length axis = some k)
    (hv : ∀ idx, Spec.inShape idx a.shape → a.at_ idx = some (v idx)) (hn : 2 ≤ a.shape.getD k 0) :
    ∃ r, detrendNd false axis a = .ok r ∧ ∀ idx, Spec.inShape idx a.shape → ∃ α β : ℝ, ∃ w : ℕ → ℝ,
      (∀ j < a.shape.getD k 0, r.at_ (idx.set k j) = some (w j) ∧ w j = v (idx.set k j) - (α + β * j)) ∧
      ∑ j ∈ range (a.shape.getD k 0), w j = 0 ∧ ∑ j ∈ range (a.shape.getD k 0), (j : ℝ) * w j = 0 := by
  have hk := (detrend_axis a.shape.length axis).2.1 k hax
  obtain ⟨r, h1, h2, h3⟩ := detrend_lines axis k a hax hk
  refine ⟨r, h1, fun idx hidx => ?_⟩
  obtain ⟨α, β, w, e1, e2, e3, e4⟩ := detrend_normal (a.shape.getD k 0) hn fun j => v (idx.set k j)
  refine ⟨α, β, w, fun j hj => ⟨?_, e2 j⟩, e3, e4⟩
  have hl := inShape_length hidx
  rw [h3 _ (inShape_set hidx hj), getD_set_self idx k j (by omega), ← e1 j]
  have hline : Spec.lineOf a k (idx.set k j) = Spec.lineOf a k idx := by
    funext m; unfold Spec.lineOf; rw [List.set_set]
  rw [hline]
  unfold detrend
  have hc : ∀ (f g : ℕ → Option ℝ), (∀ j < a.shape.getD k 0, f j = g j) →
      vals (a.shape.getD k 0) f = vals (a.shape.getD k 0) g :=
    fun f g h => List.map_congr_left fun j hj => h j (List.mem_range.mp hj)
  have hlv : ∀ m < a.shape.getD k 0, Spec.lineOf a k idx m = some (v (idx.set k m)) :=
    fun m hm => hv _ (inShape_set hidx hm)
  dsimp only
  rw [hc (Spec.lineOf a k idx) (fun m => some (v (idx.set k m))) hlv, hlv j hj]
  refine congrArg₂ (opt2 (· - ·)) rfl (congrArg₂ (opt2 (· * ·)) (congrArg₂ npDiv (congrArg nanmean (hc _ _ fun m hm => ?_)) rfl) rfl)
  rw [hlv m hm]

/-- **C185** (lines do not mix): two arrays that agree along the line through an entry get the same result there. -/
theorem detrend_lines_apart (axis : ℤ) (k : ℕ) (a b : NdArr) (hax : normAxis a.shape.length axis = some k)
    (hab : b.shape = a.shape) (idx : List ℕ) (hidx : Spec.inShape idx a.shape)
    (h : ∀ j, a.at_ (idx.set k j) = b.at_ (idx.set k j)) :
    ∃ r r', detrendNd false axis a = .ok r ∧ detrendNd false axis b = .ok r' ∧ r.at_ idx = r'.at_ idx := by
  have hk := (detrend_axis a.shape.length axis).2.1 k hax
  obtain ⟨r, h1, -, h3⟩ := detrend_lines axis k a hax hk
  obtain ⟨r', g1, -, g3⟩ := detrend_lines axis k b (by rw [hab]; exact hax) (by rw [hab]; exact hk)
  refine ⟨r, r', h1, g1, ?_⟩
  rw [h3 idx hidx, g3 idx (by rw [hab]; exact hidx), hab]
  have : Spec.lineOf a k idx = Spec.lineOf b k idx := funext h
  rw [this]

/-- **C185** (the argument). A call on floats changes its argument only when asked to work in place on an array; then the
argument becomes the result. Calls that fail change nothing. -/
theorem detrend_argument (inPlace isArr : Bool) (axis : ℤ) (a : NdArr) :
    (∀ k, normAxis a.shape.length axis = some k → ∃ r, (detrendCall inPlace isArr false axis a).1 = .ok r ∧
      detrendNd false axis a = .ok r ∧
      (detrendCall inPlace isArr false axis a).2 = if inPlace = true ∧ isArr = true then r else a) ∧
    (axis < -(a.shape.length : ℤ) ∨ (a.shape.length : ℤ) ≤ axis →
      ∀ isInt, detrendCall inPlace isArr isInt axis a = (.error .indexError, a)) := by
  constructor
  · intro k hax
    obtain ⟨r, h1, -⟩ := detrend_lines axis k a hax ((detrend_axis a.shape.length axis).2.1 k hax)
    refine ⟨r, ?_, h1, ?_⟩
    · unfold detrendCall; rw [h1]
    · unfold detrendCall; rw [h1]; cases inPlace <;> cases isArr <;> simp
  · intro h isInt
    unfold detrendCall detrendNd
    rw [(detrend_axis a.shape.length axis).2.2 h]

/-- **C185 is false of integers**: every array of integers is refused, in place or not, also when the trend is a whole
number, and stays as it was. -/
theorem detrend_integers_false (inPlace isArr : Bool) (axis : ℤ) (k : ℕ) (a : NdArr)
    (hax : normAxis a.shape.length axis = some k) :
    detrendCall inPlace isArr true axis a = (.error .typeError, a) := by
  have hx := isub_ok (detrendX a.shape.length k (a.shape.getD k 0)) ((detrendX a.shape.length k (a.shape.getD k 0)).mean k)
    (fits_set _ k).1 (fits_set _ k).2
  unfold detrendCall detrendNd
  simp only [hax]
  rw [hx]
  simp [NdArr.isub]

/-- Non-vacuity: two profiles of three values, along either axis. -/
example : normAxis 2 (-1) = some 1 ∧ normAxis 2 0 = some 0 ∧ normAxis 2 2 = none ∧ Spec.inShape [1, 2] [2, 3] ∧
    ∃ r, detrendNd false (-1) ⟨[2, 3], fun idx => some ((idx.getD 0 0 : ℝ) + 5 * (idx.getD 1 0 : ℝ) ^ 2)⟩ = .ok r ∧ r.shape = [2, 3] := by
  refine ⟨by decide, by decide, by decide, .cons (by norm_num) (.cons (by norm_num) .nil), ?_⟩
  obtain ⟨r, h1, h2, -⟩ := detrend_lines (-1) 1 ⟨[2, 3], fun idx => some ((idx.getD 0 0 : ℝ) + 5 * (idx.getD 1 0 : ℝ) ^ 2)⟩
    (by simp [normAxis]) (by simp)
  exact ⟨r, h1, h2⟩

end Dolfyn
