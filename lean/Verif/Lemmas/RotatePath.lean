import Verif.Lemmas.RotateSteps
import Verif.Spec.RotatePath
import Mathlib.Tactic.IntervalCases

/-! The `while` loop of `rotate2` performs exactly the specified steps. -/

namespace Dolfyn

open Spec

variable {T : Type}

theorem pos_iff {f : Frame} {i : ℕ} : Pos f i ↔ chainIndex f = some i := by
  constructor
  · intro h; cases h <;> rfl
  · intro h
    cases f <;> simp [chainIndex] at h <;> subst h <;> constructor

theorem Spec.Pos.shipAsInst {f : Frame} {i : ℕ} (h : Pos f i) : shipAsInst f = f := by
  cases h <;> rfl

theorem Spec.Pos.inj {f g : Frame} {i : ℕ} (h : Pos f i) (h' : Pos g i) : f = g := by
  cases h <;> cases h' <;> rfl

theorem Spec.Pos.fn {f : Frame} {i j : ℕ} (h : Pos f i) (h' : Pos f j) : i = j := by
  cases h <;> cases h' <;> rfl

theorem Spec.Pos.lt {f : Frame} {i : ℕ} (h : Pos f i) : i < 4 := by
  cases h <;> decide

theorem Spec.Pos.ne_ship {f : Frame} {i : ℕ} (h : Pos f i) : f ≠ .ship := by
  cases h <;> decide

theorem linkFun_oneStep (k : ℕ) (hk : k < 3) (r : Bool) (ds : RDS T) :
    linkFun (k : ℤ) r ds = oneStep ds (k, r) := by
  interval_cases k <;> rfl

/-- Frame bookkeeping of one step, with no assumption on the matrices. -/
theorem beam2inst_frame {r : Bool} {ds ds' : RDS T} (h : beam2inst r ds = .ok ds') :
    ds'.coordSys = (if r then .beam else .inst) ∧ SameFrameInfo ds ds' ∧
    ds.coordSys = (if r then .inst else .beam) := by
  have hI : ∀ {r : Bool} {a b : RDS T}, rotateInst2head r a = .ok b →
      b.coordSys = a.coordSys ∧ SameFrameInfo a b := by
    intro r a b hab
    rcases rotateInst2head_cases hab with ⟨_, rfl⟩ | ⟨R, _, _, _, vs, _, rfl⟩
    · exact ⟨rfl, rfl⟩
    · exact ⟨rfl, rfl⟩
  have hB : ∀ {r : Bool} {a b : RDS T}, beam2instBase r a = .ok b →
      b.coordSys = (if r then .beam else .inst) ∧ SameFrameInfo a b ∧
      a.coordSys = (if r then .inst else .beam) := by
    intro r a b hab
    obtain ⟨hc, B, _, _, rfl⟩ := beam2instBase_cases hab
    exact ⟨rfl, rfl, hc⟩
  unfold beam2inst at h
  split at h
  · cases r
    · simp only [Bool.false_eq_true, if_false, bind, Except.bind] at h
      split at h
      · cases h
      · rename_i d hd
        obtain ⟨a1, a2, a3⟩ := hB hd
        obtain ⟨b1, b2⟩ := hI h
        exact ⟨by rw [b1, a1], a2.trans b2, a3⟩
    · simp only [if_true, bind, Except.bind] at h
      split at h
      · cases h
      · rename_i d hd
        obtain ⟨b1, b2⟩ := hI hd
        obtain ⟨a1, a2, a3⟩ := hB h
        exact ⟨a1, b2.trans a2, by rw [← b1, a3]⟩
  · exact hB h

theorem inst2earth_frame {r : Bool} {ds ds' : RDS T} (h : inst2earth r ds = .ok ds') :
    ds'.coordSys = (if r then .inst else .earth) ∧ SameFrameInfo ds ds' := by
  unfold inst2earth at h
  split at h
  · obtain ⟨hc, m, hm, vs, hvs, rfl⟩ := inst2earthNortek_iff.mp h
    exact ⟨rfl, rfl⟩
  · obtain ⟨hc, m, hm, vs, hvs, rfl⟩ := inst2earthNortek_iff.mp h
    exact ⟨rfl, rfl⟩
  · obtain ⟨hc, m, hm, _, vs, hvs, rfl⟩ := inst2earthSig_iff.mp h
    exact ⟨rfl, rfl⟩
  · obtain ⟨hc, m, hm, vs, hvs, rfl⟩ := inst2earthRdi_iff.mp h
    exact ⟨rfl, rfl⟩
  · cases h

theorem earth2principal_frame {r : Bool} {ds ds' : RDS T} (h : earth2principal r ds = .ok ds') :
    ds'.coordSys = (if r then .earth else .principal) ∧ SameFrameInfo ds ds' := by
  obtain ⟨ph, hp, hc, vs, hvs, rfl⟩ := earth2principal_iff.mp h
  exact ⟨rfl, rfl⟩

theorem oneStep_frame {k : ℕ} {r : Bool} {ds ds' : RDS T} (h : oneStep ds (k, r) = .ok ds') :
    Pos ds'.coordSys (if r then k else k + 1) ∧ SameFrameInfo ds ds' := by
  match k with
  | 0 =>
    obtain ⟨a, b, _⟩ := beam2inst_frame h
    refine ⟨?_, b⟩
    rw [a]; cases r
    · exact .inst
    · exact .beam
  | 1 =>
    obtain ⟨a, b⟩ := inst2earth_frame h
    refine ⟨?_, b⟩
    rw [a]; cases r
    · exact .earth
    · exact .inst
  | 2 =>
    obtain ⟨a, b⟩ := earth2principal_frame h
    refine ⟨?_, b⟩
    rw [a]; cases r
    · exact .principal
    · exact .earth
  | k + 3 => cases h

theorem rotateLoop_fwd {out : Frame} {j : ℕ} (ho : Pos out j) (n i fuel : ℕ) (ds : RDS T)
    (hi : Pos ds.coordSys i) (hn : i + n = j) (hf : n ≤ fuel) :
    rotateLoop false out fuel ds
      = some (((List.range' i n).map (·, false)).foldlM oneStep ds) := by
  induction n generalizing i fuel ds with
  | zero =>
    have : ds.coordSys = out := by
      apply Pos.inj hi; rw [← hn] at ho; exact ho
    cases fuel <;> simp [rotateLoop, this] <;> rfl
  | succ n ih =>
    obtain ⟨fuel, rfl⟩ : ∃ f, fuel = f + 1 := ⟨fuel - 1, by omega⟩
    have hne : ds.coordSys ≠ out := by
      intro h; rw [h] at hi; have := hi.fn ho; omega
    have hj := ho.lt
    simp only [rotateLoop, hne, if_false, hi.shipAsInst, pos_iff.mp hi, Bool.false_eq_true]
    rw [linkFun_oneStep i (by omega)]
    simp only [List.range'_succ, List.map_cons, List.foldlM_cons]
    cases h : oneStep ds (i, false) with
    | error e => rfl
    | ok d =>
      have := (oneStep_frame h).1
      simp only [Bool.false_eq_true, if_false] at this
      exact ih (i + 1) fuel d this (by omega) (by omega)

theorem rotateLoop_bwd {out : Frame} {j : ℕ} (ho : Pos out j) (n fuel : ℕ) (ds : RDS T)
    (hi : Pos ds.coordSys (j + n)) (hf : n ≤ fuel) :
    rotateLoop true out fuel ds
      = some (((List.range' j n).reverse.map (·, true)).foldlM oneStep ds) := by
  induction n generalizing fuel ds with
  | zero =>
    have : ds.coordSys = out := Pos.inj hi ho
    cases fuel <;> simp [rotateLoop, this] <;> rfl
  | succ n ih =>
    obtain ⟨fuel, rfl⟩ : ∃ f, fuel = f + 1 := ⟨fuel - 1, by omega⟩
    have hne : ds.coordSys ≠ out := by
      intro h; rw [h] at hi; have := hi.fn ho; omega
    have hj := hi.lt
    simp only [rotateLoop, hne, if_false, hi.shipAsInst, pos_iff.mp hi, if_true]
    rw [show ((j + (n + 1) : ℕ) : ℤ) - 1 = ((j + n : ℕ) : ℤ) by push_cast; ring,
      linkFun_oneStep (j + n) (by omega)]
    rw [List.range'_concat]
    simp only [List.reverse_append, List.reverse_cons, List.reverse_nil, List.nil_append,
      List.cons_append, List.map_cons, List.foldlM_cons, one_mul]
    cases h : oneStep ds (j + n, true) with
    | error e => rfl
    | ok d =>
      have := (oneStep_frame h).1
      simp only [if_true] at this
      exact ih fuel d this (by omega)

/-- The loop of `rotate2` is exactly the specified list of single steps. -/
theorem rotateLoop_eq {out : Frame} {i j : ℕ} (fuel : ℕ) (ds : RDS T)
    (hi : Pos ds.coordSys i) (ho : Pos out j) (hf : 3 ≤ fuel) :
    rotateLoop (decide (¬ i < j)) out fuel ds = some ((steps i j).foldlM oneStep ds) := by
  have h1 := hi.lt
  have h2 := ho.lt
  unfold steps
  by_cases h : i < j
  · simp only [h, not_true, decide_false, if_true]
    exact rotateLoop_fwd ho (j - i) i fuel ds hi (by omega) (by omega)
  · simp only [h, not_false_eq_true, decide_true, if_false]
    exact rotateLoop_bwd ho (i - j) fuel ds (by rw [show j + (i - j) = i by omega]; exact hi)
      (by omega)

theorem steps_swap (i j : ℕ) :
    steps j i = ((steps i j).map fun s => (s.1, !s.2)).reverse := by
  unfold steps
  rcases lt_trichotomy i j with h | h | h
  · rw [if_neg (by omega), if_pos h]
    simp [List.map_reverse, Function.comp_def]
  · subst h; simp
  · rw [if_pos h, if_neg (by omega)]
    simp [List.map_reverse, Function.comp_def]

theorem oneStep_undo {k : ℕ} {r : Bool} {ds ds' : RDS T} (hr : Rotatable ds)
    (hship : ds.coordSys ≠ .ship) (h : oneStep ds (k, r) = .ok ds') :
    oneStep ds' (k, !r) = .ok ds ∧ SameFrameInfo ds ds' := by
  match k with
  | 0 => obtain ⟨a, b, _⟩ := beam2inst_undo r hr h; exact ⟨a, b⟩
  | 1 => obtain ⟨a, b, _⟩ := inst2earth_undo r hr hship h; exact ⟨a, b⟩
  | 2 => obtain ⟨a, b, _⟩ := earth2principal_undo r h; exact ⟨a, b⟩
  | k + 3 => cases h

theorem foldlM_undo (l : List (ℕ × Bool)) {ds ds' : RDS T} (hr : Rotatable ds)
    (hship : ds.coordSys ≠ .ship) (h : l.foldlM oneStep ds = .ok ds') :
    ((l.map fun s => (s.1, !s.2)).reverse).foldlM oneStep ds' = .ok ds
      ∧ SameFrameInfo ds ds' := by
  induction l generalizing ds with
  | nil =>
    cases h
    exact ⟨rfl, rfl⟩
  | cons s l ih =>
    obtain ⟨k, r⟩ := s
    simp only [List.foldlM_cons, bind, Except.bind] at h
    split at h
    · cases h
    · rename_i d hd
      obtain ⟨a, b⟩ := oneStep_undo hr hship hd
      have hp := (oneStep_frame hd).1
      obtain ⟨c1, c2⟩ := ih (Rotatable.of_same b hr) hp.ne_ship h
      refine ⟨?_, b.trans c2⟩
      simp only [List.map_cons, List.reverse_cons, List.foldlM_append, bind, Except.bind, c1,
        List.foldlM_cons, a, List.foldlM_nil]
      rfl

theorem foldlM_frame {ds ds' : RDS T} {i j : ℕ} (hi : Pos ds.coordSys i)
    (h : (steps i j).foldlM oneStep ds = .ok ds') :
    Pos ds'.coordSys j := by
  unfold steps at h
  by_cases hij : i < j
  · rw [if_pos hij] at h
    obtain ⟨n, rfl⟩ : ∃ n, j = i + n := ⟨j - i, by omega⟩
    rw [show i + n - i = n by omega] at h
    clear hij
    induction n generalizing i ds with
    | zero => cases h; exact hi
    | succ n ih =>
      simp only [List.range'_succ, List.map_cons, List.foldlM_cons, bind, Except.bind] at h
      split at h
      · cases h
      · rename_i d hd
        have := (oneStep_frame hd).1
        simp only [Bool.false_eq_true, if_false] at this
        have := ih this h
        rwa [show i + (n + 1) = i + 1 + n by omega]
  · rw [if_neg hij] at h
    obtain ⟨n, rfl⟩ : ∃ n, i = j + n := ⟨i - j, by omega⟩
    rw [show j + n - j = n by omega] at h
    clear hij
    induction n generalizing ds with
    | zero => cases h; exact hi
    | succ n ih =>
      rw [List.range'_concat] at h
      simp only [List.reverse_append, List.reverse_cons, List.reverse_nil, List.nil_append,
        List.cons_append, List.map_cons, List.foldlM_cons, one_mul, bind, Except.bind] at h
      split at h
      · cases h
      · rename_i d hd
        have := (oneStep_frame hd).1
        simp only [if_true] at this
        exact ih this h

theorem foldlM_same (l : List (ℕ × Bool)) {ds ds' : RDS T}
    (h : l.foldlM oneStep ds = .ok ds') : SameFrameInfo ds ds' := by
  induction l generalizing ds with
  | nil => cases h; rfl
  | cons s l ih =>
    simp only [List.foldlM_cons, bind, Except.bind] at h
    split at h
    · cases h
    · rename_i d hd
      exact (oneStep_frame (k := s.1) (r := s.2) hd).2.trans (ih h)

/-- `rotate2` on a dataset in a chain frame. -/
theorem rotate2_eq {out : Frame} {i j : ℕ} (fuel : ℕ) (ds : RDS T)
    (hi : Pos ds.coordSys i) (ho : Pos out j) (hf : 3 ≤ fuel) (hu : ds.inst ≠ .unknown)
    {b : Bool} (hc : checkInst2head ds = .ok b) :
    rotate2 fuel out ds = some ((steps i j).foldlM oneStep ds) := by
  unfold rotate2
  rw [hc]
  simp only [hu, if_false, hi.shipAsInst, pos_iff.mp hi, pos_iff.mp ho]
  exact rotateLoop_eq fuel ds hi ho hf

theorem rotate2_ok_checks {out : Frame} {fuel : ℕ} {ds ds' : RDS T}
    (h : rotate2 fuel out ds = some (.ok ds')) :
    ds.inst ≠ .unknown ∧ ∃ b, checkInst2head ds = .ok b := by
  unfold rotate2 at h
  split at h
  · cases h
  · rename_i b hb
    split_ifs at h with hu
    · cases h
    · exact ⟨hu, b, hb⟩

/-- `rotate2` on ship-frame data. -/
theorem rotate2_ship {out : Frame} {j : ℕ} (fuel : ℕ) (ds : RDS T)
    (hs : ds.coordSys = .ship) (ho : Pos out j) (hu : ds.inst ≠ .unknown)
    {b : Bool} (hc : checkInst2head ds = .ok b) :
    rotate2 (fuel + 1) out ds =
      (if 1 < j then
        match inst2earth false ds with
        | .error e => some (.error e)
        | .ok d => rotateLoop false out fuel d
      else match beam2inst true ds with
        | .error e => some (.error e)
        | .ok d => rotateLoop true out fuel d) := by
  have e1 : chainIndex (shipAsInst ds.coordSys) = some 1 := by rw [hs]; rfl
  have hne : ds.coordSys ≠ out := by rw [hs]; exact ho.ne_ship.symm
  unfold rotate2
  rw [hc, e1, pos_iff.mp ho]
  simp only [hu, if_false]
  rw [rotateLoop, if_neg hne, e1]
  by_cases hj : 1 < j
  · simp only [hj, not_true, decide_false, Bool.false_eq_true, if_false, if_true]
    rw [linkFun_oneStep 1 (by omega)]
    rfl
  · simp only [hj, not_false_eq_true, decide_true, if_false, if_true]
    rw [show ((1 : ℕ) : ℤ) - 1 = ((0 : ℕ) : ℤ) by norm_num, linkFun_oneStep 0 (by omega)]
    rfl

end Dolfyn
