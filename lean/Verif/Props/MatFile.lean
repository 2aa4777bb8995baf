import Verif.Model.MatFile
import Verif.Props.CreateDs

/-!
Properties of MATLAB files: C99.
-/

namespace Dolfyn

theorem squeeze_id (s : List ℕ) (h : ∀ n ∈ s, n ≠ 1) : squeezeShape s = s := by
  unfold squeezeShape
  rw [List.filter_eq_self]
  intro n hn
  simpa using h n hn

/-- The coordinates of a dataset with their lengths. -/
def Spec.dsCoords {α : Type*} (nb : ℕ) (nbAvg : Option ℕ) (coords : List (Key × ℕ)) (r : List (DsVar α)) :
    List (Key × ℕ) :=
  coords ++ [("beam".toList, clampBeams nb nbAvg), ("dir".toList, clampBeams nb nbAvg)] ++
    extraDims (clampBeams nb nbAvg) r

theorem dsCoords_time_bt {α : Type*} (nb : ℕ) (nbAvg : Option ℕ) (coords : List (Key × ℕ))
    (r : List (DsVar α)) :
    ((Spec.dsCoords nb nbAvg coords r).any fun p => p.1 = "time_bt".toList) =
      coords.any fun p => p.1 = "time_bt".toList := by
  unfold Spec.dsCoords
  rw [List.any_append, List.any_append]
  have h1 : ([("beam".toList, clampBeams nb nbAvg), ("dir".toList, clampBeams nb nbAvg)].any
      fun p => decide (p.1 = "time_bt".toList)) = false := by
    rw [List.any_eq_false]
    intro p hp
    simp only [List.mem_cons, List.not_mem_nil, or_false] at hp
    rcases hp with rfl | rfl <;> simp
  have h2 : ((extraDims (clampBeams nb nbAvg) r).any fun p => decide (p.1 = "time_bt".toList)) = false := by
    rw [List.any_eq_false]
    intro p hp
    unfold extraDims at hp
    obtain ⟨d, -, hd⟩ := List.mem_filterMap.mp hp
    rw [decide_eq_true_eq]
    split at hd
    · next h =>
      obtain rfl := Option.some.inj hd
      rcases h with rfl | rfl <;> simp
    · split at hd
      · next h =>
        obtain rfl := Option.some.inj hd
        rcases h with rfl | rfl | rfl <;> decide
      · split at hd
        · next h =>
          obtain rfl := Option.some.inj hd
          subst h
          decide
        · cases hd
  rw [h1, h2, Bool.or_false, Bool.or_false]

/-- **C99** (round trip, partial). A dataset made of variables of the supported shapes without fifth-beam
profiles, in which no axis has length one, is the same after saving to and loading from a MATLAB file: names,
dimensions, shapes and values. -/
theorem mat_roundtrip_partial {α : Type*} (fst : α → α) (nb : ℕ) (nbAvg : Option ℕ) (coords : List (Key × ℕ))
    (vs : List (DVar α)) (r : List (DsVar α)) (h : createDataset fst nb nbAvg coords vs = .ok r)
    (hs : ∀ v ∈ vs, Spec.supported (clampBeams nb nbAvg) v ∧ (∀ n ∈ v.shape, n ≠ 1) ∧ v.shape ≠ [] ∧
      ¬ "b5".toList <:+: v.key)
    (hc : ∀ c ∈ Spec.dsCoords nb nbAvg coords r, c.2 ≠ 1) :
    loadMat fst nb nbAvg (Spec.dsCoords nb nbAvg coords r) (saveMat r) = .ok r := by
  unfold createDataset at h
  simp only at h
  obtain ⟨r', hr', hf⟩ := create_keeps fst (clampBeams nb nbAvg)
    (coords.any fun p => decide (p.1 = "time_bt".toList)) none vs fun v hv => (hs v hv).1
  rw [hr'] at h
  simp only at h
  unfold fromDict at h
  simp only at h
  split at h
  case isFalse => cases h
  case isTrue hok =>
  obtain rfl := Except.ok.inj h
  have hsave : saveMat r' = vs := by
    clear hr' hok hc h
    induction hf with
    | nil => rfl
    | @cons v e vs' r'' hve _ ih =>
      unfold saveMat at ih ⊢
      rw [List.map_cons, ih fun w hw => hs w (by simp [hw])]
      congr 1
      obtain ⟨hk, hd⟩ := hve
      rcases hd with ⟨h1, h2⟩ | ⟨_, _, _, hb⟩
      · rw [hk, h1, h2]
      · exact absurd hb (hs v (by simp)).2.2.2
  have hsq : (vs.map fun v => { v with shape := squeezeShape v.shape }) = vs := by
    conv_rhs => rw [← List.map_id vs]
    apply List.map_congr_left
    intro v hv
    rw [squeeze_id _ (hs v hv).2.1]
    rfl
  unfold loadMat
  rw [hsave, if_neg, if_neg, hsq]
  · unfold createDataset
    simp only
    rw [dsCoords_time_bt, hr']
    simp only
    unfold fromDict
    simp only
    rw [if_pos]
    refine ⟨hok.1, fun p hp q hq => hok.2 p ?_ q ?_⟩
    · unfold Spec.dsCoords at hp
      simp only [List.mem_append] at hp ⊢
      tauto
    · unfold Spec.dsCoords at hq
      simp only [List.mem_append] at hq ⊢
      tauto
  · rw [Bool.not_eq_true, List.any_eq_false]
    intro c hcc
    simpa using hc c hcc
  · rw [Bool.not_eq_true, List.any_eq_false]
    intro v hv
    rw [squeeze_id _ (hs v hv).2.1]
    simpa using (hs v hv).2.2.1

/-- **C99 is false of the code** for datasets with an axis of length one (one ping, one cell): loading
raises. -/
theorem mat_single_false {α : Type*} (fst : α → α) (nb : ℕ) (nbAvg : Option ℕ) (coords : List (Key × ℕ))
    (saved : List (DVar α)) (c : Key × ℕ) (hc : c ∈ coords) (h1 : c.2 = 1) :
    ∃ e, loadMat fst nb nbAvg coords saved = .error e := by
  unfold loadMat
  split
  · exact ⟨_, rfl⟩
  · rw [if_pos]
    · exact ⟨_, rfl⟩
    · rw [List.any_eq_true]
      exact ⟨c, hc, by simpa using h1⟩

/-- **C99 is false of the code** for derived profiles like the standard deviation of the speed, which
`do_avg` adds to every averaged profiler dataset: they are lost without a message. -/
theorem mat_derived_false {α : Type*} (fst : α → α) (a n : ℕ) (ha : a ≠ 1 ∧ a ≠ 3 ∧ a ≠ 4) (hn : n ≠ 1)
    (x y : α) :
    loadMat fst 4 none [("range".toList, a), ("time".toList, n)]
        (saveMat [⟨"temp".toList, ["time".toList], [n], x⟩,
          ⟨"U_std".toList, ["range".toList, "time".toList], [a, n], y⟩]) =
      .ok [⟨"temp".toList, ["time".toList], [n], x⟩] := by
  have h1 : squeezeShape [n] = [n] := squeeze_id _ (by simpa using hn)
  have h2 : squeezeShape [a, n] = [a, n] := squeeze_id _ (by simp [ha.1, hn])
  unfold loadMat saveMat
  rw [if_neg (by simp [h1, h2]), if_neg (by simp [ha.1, hn])]
  simp only [List.map_cons, List.map_nil, h1, h2]
  unfold createDataset
  have hcl : clampBeams 4 none = 4 := by decide
  have hbt : ([("range".toList, a), ("time".toList, n)].any fun p => decide (p.1 = "time_bt".toList)) =
      false := by
    rw [List.any_eq_false]
    intro p hp
    simp only [List.mem_cons, List.not_mem_nil, or_false] at hp
    rcases hp with rfl | rfl <;> simp
  simp only [hcl, hbt]
  have e1 : createVar fst 4 false none ⟨"temp".toList, [n], x⟩ =
      .ok (some [], some ⟨"temp".toList, ["time".toList], [n], x⟩) := rfl
  have e2 : createVar fst 4 false (some []) ⟨"U_std".toList, [a, n], y⟩ = .ok (some [], none) := by
    have m1 : keyIn "mat" "U_std".toList = false := by decide
    have m2 : keyIn "quaternions" "U_std".toList = false := by decide
    have m3 : keyIn "b5" [] = false := by decide
    unfold createVar
    simp only [m1, m2, m3, Bool.false_eq_true, if_false, if_neg ha.2.1, ha.2.2, false_and]
    rw [if_neg (by decide), if_neg (by decide), if_neg (by decide)]
  rw [createVars, e1]
  simp only
  rw [createVars, e2]
  simp only
  rw [createVars]
  simp only [Option.toList_some, Option.toList_none, List.append_nil]
  unfold fromDict
  simp only
  rw [if_pos]
  refine ⟨by simp, ?_⟩
  intro p hp q hq hpq
  simp only [extraDims, DsVar.sizes, List.flatMap_cons, List.flatMap_nil, List.append_nil, List.zip_cons_cons,
    List.zip_nil_right, List.filterMap_cons, List.filterMap_nil, List.cons_append, List.nil_append,
    List.mem_cons, List.mem_append, List.not_mem_nil, or_false] at hp hq
  have ht : ("time".toList = "x1".toList ∨ "time".toList = "x2".toList) = False := by simp
  have ht2 : ("time".toList = "earth".toList ∨ "time".toList = "inst".toList ∨
    "time".toList = "dirIMU".toList) = False := by simp
  simp only [ht, ht2, if_false] at hp hq
  rcases hp with rfl | rfl | rfl | rfl | hp <;> rcases hq with rfl | rfl | rfl | rfl | hq <;>
    first
    | rfl
    | (exfalso; revert hpq; simp; done)
    | (simp at hp hq; aesop)
    | (simp at hp; aesop)
    | (simp at hq; aesop)

/-- A dataset as in the first theorem. -/
example : ∃ (vs : List (DVar ℕ)) (r : List (DsVar ℕ)), createDataset (fun n => n) 4 none
    [("time".toList, 7), ("range".toList, 10)] vs = .ok r ∧ vs.length = 3 ∧
    ∀ v ∈ vs, (∀ n ∈ v.shape, n ≠ 1) ∧ v.shape ≠ [] ∧ ¬ "b5".toList <:+: v.key :=
  ⟨[⟨"temp".toList, [7], 1⟩, ⟨"accel".toList, [3, 7], 2⟩, ⟨"vel".toList, [4, 10, 7], 3⟩], _, rfl, rfl, by
    intro v hv
    simp only [List.mem_cons, List.not_mem_nil, or_false] at hv
    rcases hv with rfl | rfl | rfl <;> exact ⟨by decide, by decide, by decide⟩⟩

end Dolfyn
