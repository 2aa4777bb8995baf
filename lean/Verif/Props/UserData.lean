import Verif.Model.UserData
import Verif.Props.CreateDs

/-!
Properties of the userdata file: C100.
-/

namespace Dolfyn

theorem jget_set (d : JDict) (k k' : Key) (v : JVal) :
    (d.set k v).get k' = if k' = k then some v else d.get k' := by
  unfold JDict.set JDict.get
  by_cases h : (d.any fun p => decide (p.1 = k)) = true
  · rw [if_pos h]
    induction d with
    | nil => simp at h
    | cons p d ih =>
      rw [List.map_cons, List.find?_cons, List.find?_cons]
      by_cases hp : p.1 = k
      · simp only [if_pos hp]
        by_cases hk : k' = k
        · simp [hk]
        · have h1 : ¬ k = k' := fun e => hk e.symm
          have h2 : ¬ p.1 = k' := fun e => hk (e.symm.trans hp)
          simp only [h1, h2, decide_false, if_neg hk]
          by_cases hd : (d.any fun p => decide (p.1 = k)) = true
          · rw [ih hd, if_neg hk]
          · congr 1
            rw [List.map_congr_left (g := id), List.map_id]
            intro q hq
            rw [if_neg]
            · rfl
            · intro e
              exact hd (List.any_eq_true.mpr ⟨q, hq, by simpa using e⟩)
      · simp only [if_neg hp]
        have hd : (d.any fun p => decide (p.1 = k)) = true := by
          rw [List.any_cons] at h
          simpa [hp] using h
        by_cases hk : p.1 = k'
        · have : ¬ k' = k := fun e => hp (hk.trans e)
          simp [hk, this]
        · simp only [hk, decide_false]
          exact ih hd
  · rw [if_neg h]
    rw [Bool.not_eq_true, List.any_eq_false] at h
    rw [List.find?_append]
    by_cases hk : k' = k
    · subst hk
      have : d.find? (fun p => decide (p.1 = k')) = none := by
        rw [List.find?_eq_none]
        exact h
      simp [this]
    · have : ([(k, v)] : JDict).find? (fun p => decide (p.1 = k')) = none := by
        simp [Ne.symm hk]
      rw [this, if_neg hk]
      simp

theorem jget_del (d : JDict) (k k' : Key) : (d.del k).get k' = if k' = k then none else d.get k' := by
  unfold JDict.del JDict.get
  induction d with
  | nil => simp
  | cons p d ih =>
    rw [List.filter_cons]
    by_cases hp : p.1 = k
    · rw [if_neg (by simpa using hp), ih]
      by_cases hk : k' = k
      · rw [if_pos hk, if_pos hk]
      · rw [if_neg hk, if_neg hk, List.find?_cons]
        have : ¬ p.1 = k' := fun e => hk (e.symm.trans hp)
        simp [this]
    · rw [if_pos (by simpa using hp), List.find?_cons, List.find?_cons]
      by_cases h : p.1 = k'
      · have : ¬ k' = k := fun e => hp (h.trans e)
        simp [h, this]
      · simp only [h, decide_false]
        exact ih

theorem jget_rename (d : JDict) (nm : String) (k : Key) (hne : "inst".toList ++ nm.toList.drop 4 ≠ nm.toList) :
    (renameKey d nm).get k =
      if k = nm.toList then none
      else if k = "inst".toList ++ nm.toList.drop 4 ∧ (d.get nm.toList).isSome then d.get nm.toList
      else d.get k := by
  unfold renameKey
  cases h : d.get nm.toList with
  | none =>
    simp only [Option.isSome_none, Bool.false_eq_true, and_false, if_false]
    by_cases hk : k = nm.toList
    · rw [if_pos hk, hk, h]
    · rw [if_neg hk]
  | some v =>
    simp only [Option.isSome_some, and_true]
    rw [jget_set, jget_del]
    by_cases hk : k = nm.toList
    · rw [if_pos hk, if_neg (by rw [hk]; exact fun e => hne e.symm), if_pos hk]
    · rw [if_neg hk, if_neg hk]

/-- The value a userdata file gives for a current name: that of the deprecated name if it is there, else that
of the name itself. -/
def Spec.userVal (d : JDict) (old new : String) : Option JVal :=
  match d.get old.toList with
  | some v => some v
  | none => d.get new.toList

/-- **C100** (contents). Reading a userdata file with a vector given as list keeps every entry other than the
four special names; deprecated names are renamed; the rotation matrix becomes the identity for `identity`,
`eye` and 1, and an array otherwise. -/
theorem userdata_contents (d : JDict)
    (hvec : ∀ v, Spec.userVal d "body2head_vec" "inst2head_vec" = some v → ∃ l, v = .list l) :
    ∃ r, readUserdata d = .ok r ∧
      (∀ k, k ≠ "body2head_rotmat".toList → k ≠ "body2head_vec".toList → k ≠ "inst2head_rotmat".toList →
        k ≠ "inst2head_vec".toList → r.get k = d.get k) ∧
      r.get "body2head_rotmat".toList = none ∧ r.get "body2head_vec".toList = none ∧
      r.get "inst2head_vec".toList = Spec.userVal d "body2head_vec" "inst2head_vec" ∧
      r.get "inst2head_rotmat".toList = (Spec.userVal d "body2head_rotmat" "inst2head_rotmat").map
        fun v => if isIdentity v then .eye else .array v := by
  have n1 : "inst".toList ++ "body2head_rotmat".toList.drop 4 = "inst2head_rotmat".toList := by decide
  have n2 : "inst".toList ++ "body2head_vec".toList.drop 4 = "inst2head_vec".toList := by decide
  have e1 : ∀ k, (renameKey d "body2head_rotmat").get k =
      if k = "body2head_rotmat".toList then none
      else if k = "inst2head_rotmat".toList then Spec.userVal d "body2head_rotmat" "inst2head_rotmat"
      else d.get k := by
    intro k
    rw [jget_rename d _ k (by rw [n1]; decide), n1]
    by_cases h1 : k = "body2head_rotmat".toList
    · rw [if_pos h1, if_pos h1]
    rw [if_neg h1, if_neg h1]
    unfold Spec.userVal
    cases hg : d.get "body2head_rotmat".toList with
    | none =>
      simp only [Option.isSome_none, Bool.false_eq_true, and_false, if_false]
      by_cases h2 : k = "inst2head_rotmat".toList
      · rw [if_pos h2, h2]
      · rw [if_neg h2]
    | some v =>
      simp only [Option.isSome_some, and_true]
  have e2 : ∀ k, (renameKey (renameKey d "body2head_rotmat") "body2head_vec").get k =
      if k = "body2head_rotmat".toList ∨ k = "body2head_vec".toList then none
      else if k = "inst2head_rotmat".toList then Spec.userVal d "body2head_rotmat" "inst2head_rotmat"
      else if k = "inst2head_vec".toList then Spec.userVal d "body2head_vec" "inst2head_vec"
      else d.get k := by
    intro k
    rw [jget_rename _ _ k (by rw [n2]; decide), n2, e1, e1]
    have m1 : ¬ "body2head_vec".toList = "body2head_rotmat".toList := by decide
    have m2 : ¬ "body2head_vec".toList = "inst2head_rotmat".toList := by decide
    rw [if_neg m1, if_neg m2]
    by_cases h1 : k = "body2head_vec".toList
    · rw [if_pos h1, if_pos (Or.inr h1)]
    rw [if_neg h1]
    by_cases h2 : k = "body2head_rotmat".toList
    · have h3 : ¬ k = "inst2head_vec".toList := by rw [h2]; decide
      rw [if_neg (fun h => h3 h.1), if_pos h2, if_pos (Or.inl h2)]
    rw [if_neg h2, if_neg (show ¬ (k = "body2head_rotmat".toList ∨ k = "body2head_vec".toList) from
      fun h => h.elim h2 h1)]
    by_cases h3 : k = "inst2head_rotmat".toList
    · have h4 : ¬ k = "inst2head_vec".toList := by rw [h3]; decide
      rw [if_neg (fun h => h4 h.1), if_pos h3, if_pos h3]
    rw [if_neg h3, if_neg h3]
    by_cases h4 : k = "inst2head_vec".toList
    · rw [if_pos h4]
      unfold Spec.userVal
      cases hg : d.get "body2head_vec".toList with
      | none => simp only [Option.isSome_none, Bool.false_eq_true, and_false, if_false, h4]
      | some v => simp only [Option.isSome_some, and_true, if_pos h4]
    · rw [if_neg (fun h => h4 h.1), if_neg h4]
  set d1 := renameKey (renameKey d "body2head_rotmat") "body2head_vec" with hd1
  set d2 := fixRotmat d1 with hd2
  have g1 : d1.get "inst2head_rotmat".toList = Spec.userVal d "body2head_rotmat" "inst2head_rotmat" := by
    rw [e2, if_neg (by decide), if_pos rfl]
  have g2 : ∀ k, d2.get k = if k = "inst2head_rotmat".toList then
      (Spec.userVal d "body2head_rotmat" "inst2head_rotmat").map fun v => if isIdentity v then .eye else .array v
      else d1.get k := by
    intro k
    rw [hd2, fixRotmat]
    cases hg : d1.get "inst2head_rotmat".toList with
    | none =>
      rw [g1] at hg
      simp only
      by_cases hk : k = "inst2head_rotmat".toList
      · rw [if_pos hk, hk, g1, hg]; rfl
      · rw [if_neg hk]
    | some v =>
      rw [g1] at hg
      simp only
      rw [jget_set, hg]
      rfl
  have g3 : d2.get "inst2head_vec".toList = Spec.userVal d "body2head_vec" "inst2head_vec" := by
    rw [g2, if_neg (by decide), e2, if_neg (by decide), if_neg (by decide), if_pos rfl]
  have hr : readUserdata d = .ok d2 := by
    unfold readUserdata
    simp only
    rw [← hd1, ← hd2, g3]
    cases hg : Spec.userVal d "body2head_vec" "inst2head_vec" with
    | none => rfl
    | some v =>
      obtain ⟨l, rfl⟩ := hvec v hg
      rfl
  refine ⟨d2, hr, fun k h1 h2 h3 h4 => ?_, ?_, ?_, g3, ?_⟩
  · rw [g2, if_neg h3, e2, if_neg (fun h => h.elim h1 h2), if_neg h3, if_neg h4]
  · rw [g2, if_neg (by decide), e2, if_pos (Or.inl rfl)]
  · rw [g2, if_neg (by decide), e2, if_pos (Or.inr rfl)]
  · rw [g2, if_pos rfl]

/-- **C100** (search). With `userdata=True` the file named after the data file without its extension is read
if there is one, otherwise the one named after the whole name, otherwise there is no userdata; with `False` or `None`
there is none. -/
theorem userdata_search (files : Key → Option JDict) (f : Key) :
    (∀ d, files (dropExt f ++ ".userdata.json".toList) = some d →
      findUserdata files f (.bool true) = readUserdata d) ∧
    (files (dropExt f ++ ".userdata.json".toList) = none →
      ∀ d, files (f ++ ".userdata.json".toList) = some d → findUserdata files f (.bool true) = readUserdata d) ∧
    (files (dropExt f ++ ".userdata.json".toList) = none → files (f ++ ".userdata.json".toList) = none →
      findUserdata files f (.bool true) = .ok []) ∧
    findUserdata files f (.bool false) = .ok [] ∧ findUserdata files f .none = .ok [] := by
  refine ⟨fun d h => ?_, fun h d h2 => ?_, fun h h2 => ?_, rfl, rfl⟩
  · unfold findUserdata; simp only [UArg.truthy, if_true, h]
  · unfold findUserdata; simp only [UArg.truthy, if_true, h, h2]
  · unfold findUserdata; simp only [UArg.truthy, if_true, h, h2]

/-- The name without the extension. -/
theorem drop_ext (base ext : Key) (h : '.' ∉ ext) : dropExt (base ++ '.' :: ext) = base := by
  unfold dropExt
  rw [if_pos (by simp)]
  have : afterLast '.' (base ++ '.' :: ext) = ext := by
    unfold afterLast
    have e : (base ++ '.' :: ext).reverse = ext.reverse ++ '.' :: base.reverse := by simp
    rw [e, List.takeWhile_append_of_pos]
    · simp
    · intro a ha
      have : a ≠ '.' := by rintro rfl; exact h (List.mem_reverse.mp ha)
      simpa using this
  rw [this]
  have : (base ++ '.' :: ext).length - ext.length - 1 = base.length := by
    simp only [List.length_append, List.length_cons]; omega
  rw [this]
  exact List.take_left' rfl

/-- **C100 is false of the code** for the name of a userdata file passed to the reader, as its documentation
allows: it is not read; the result is that for `True`. -/
theorem userdata_path_false (files : Key → Option JDict) (f p : Key) (hp : p ≠ []) :
    findUserdata files f (.path p) = findUserdata files f (.bool true) ∧
      ∀ d', p ≠ dropExt f ++ ".userdata.json".toList → p ≠ f ++ ".userdata.json".toList →
        findUserdata (fun q => if q = p then d' else files q) f (.path p) = findUserdata files f (.path p) := by
  refine ⟨?_, fun d' h1 h2 => ?_⟩
  · unfold findUserdata; simp only [UArg.truthy, if_true, hp, ne_eq, not_false_eq_true, decide_true]
  · unfold findUserdata
    simp only [UArg.truthy, if_true, hp, ne_eq, not_false_eq_true, decide_true, if_neg (Ne.symm h1),
      if_neg (Ne.symm h2)]

/-- **C100** (use, partial). Without names that contain `dec` other than `declination`, or `rotmat` other
than `inst2head_rotmat`, the Nortek reader applies exactly these two and makes attributes of all others. -/
theorem userdata_use_partial (attrs d : JDict) (hnd : (d.map Prod.fst).Nodup)
    (hk : ∀ p ∈ d, (keyIn "rotmat" p.1 = true → p.1 = "inst2head_rotmat".toList) ∧
      (keyIn "dec" p.1 = true → p.1 = "declination".toList)) :
    (applyUserdata useNortek attrs d).rotmat = d.get "inst2head_rotmat".toList ∧
      (applyUserdata useNortek attrs d).declin = d.get "declination".toList ∧
      ∀ k, k ≠ "inst2head_rotmat".toList → k ≠ "declination".toList →
        (applyUserdata useNortek attrs d).attrs.get k = (d.get k).orElse fun _ => attrs.get k := by
  have key : ∀ (d : JDict) (u : UserUse), (d.map Prod.fst).Nodup →
      (∀ p ∈ d, (keyIn "rotmat" p.1 = true → p.1 = "inst2head_rotmat".toList) ∧
      (keyIn "dec" p.1 = true → p.1 = "declination".toList)) →
      (d.foldl useNortek u).rotmat = (d.get "inst2head_rotmat".toList).orElse (fun _ => u.rotmat) ∧
      (d.foldl useNortek u).declin = (d.get "declination".toList).orElse (fun _ => u.declin) ∧
      ∀ k, k ≠ "inst2head_rotmat".toList → k ≠ "declination".toList →
        (d.foldl useNortek u).attrs.get k = (d.get k).orElse fun _ => u.attrs.get k := by
    intro d
    induction d with
    | nil => intro u _ _; exact ⟨rfl, rfl, fun _ _ _ => rfl⟩
    | cons p d ih =>
      intro u hnd hk
      rw [List.map_cons, List.nodup_cons] at hnd
      obtain ⟨k, v⟩ := p
      simp only at hnd
      have hnone : ∀ k', k = k' → JDict.get d k' = none := by
        rintro k' rfl
        unfold JDict.get
        rw [Option.map_eq_none_iff, List.find?_eq_none]
        intro q hq e
        exact hnd.1 (by rw [← of_decide_eq_true e]; exact List.mem_map_of_mem hq)
      have hget : ∀ k', JDict.get ((k, v) :: d) k' = if k = k' then some v else JDict.get d k' := by
        intro k'
        unfold JDict.get
        rw [List.find?_cons]
        by_cases h : k = k'
        · simp [h]
        · simp [h]
      obtain ⟨i1, i2, i3⟩ := ih (useNortek u (k, v)) hnd.2 fun q hq => hk q (by simp [hq])
      obtain ⟨c1, c2⟩ := hk (k, v) (by simp)
      simp only at c1 c2
      rw [List.foldl_cons, i1, i2, hget, hget]
      have w1 : k ≠ "inst2head_rotmat".toList → keyIn "rotmat" k = false := fun h => by
        by_contra hh; exact h (c1 (by simpa using hh))
      have w2 : k ≠ "declination".toList → keyIn "dec" k = false := fun h => by
        by_contra hh; exact h (c2 (by simpa using hh))
      by_cases h1 : k = "inst2head_rotmat".toList
      · have h2 : ¬ k = "declination".toList := by rw [h1]; decide
        have hu : useNortek u (k, v) = { u with rotmat := some v } := by
          unfold useNortek; simp only; rw [if_pos (by rw [h1]; decide)]
        rw [hnone _ h1, if_pos h1, if_neg h2, hu]
        refine ⟨rfl, rfl, fun k' a1 a2 => ?_⟩
        rw [hget, if_neg (by rw [h1]; exact Ne.symm a1)]
        rw [hu] at i3
        exact i3 k' a1 a2
      by_cases h2 : k = "declination".toList
      · have hu : useNortek u (k, v) = { u with declin := some v } := by
          unfold useNortek; simp only; rw [w1 h1, if_neg (by simp), if_pos (by rw [h2]; decide)]
        rw [hnone _ h2, if_neg h1, if_pos h2, hu]
        refine ⟨rfl, rfl, fun k' a1 a2 => ?_⟩
        rw [hget, if_neg (by rw [h2]; exact Ne.symm a2)]
        rw [hu] at i3
        exact i3 k' a1 a2
      have hu : useNortek u (k, v) = { u with attrs := u.attrs.set k v } := by
        unfold useNortek; simp only; rw [w1 h1, w2 h2]; simp
      rw [if_neg h1, if_neg h2, hu]
      refine ⟨rfl, rfl, fun k' a1 a2 => ?_⟩
      rw [hu] at i3
      rw [i3 k' a1 a2, hget]
      simp only
      rw [jget_set]
      by_cases h3 : k = k'
      · rw [hnone _ h3, if_pos h3, if_pos h3.symm]; rfl
      · rw [if_neg h3, if_neg (fun e => h3 e.symm)]
  obtain ⟨h1, h2, h3⟩ := key d ⟨none, none, attrs⟩ hnd hk
  unfold applyUserdata
  refine ⟨?_, ?_, h3⟩
  · rw [h1]; cases d.get "inst2head_rotmat".toList <;> rfl
  · rw [h2]; cases d.get "declination".toList <;> rfl

/-- **C100 is false of the code** for other names that contain `dec`: a height `deck_height` behind the
declination is taken for the declination, by both Nortek readers, and does not become an attribute. -/
theorem userdata_dec_false (attrs : JDict) (a b : JVal) (hno : attrs.get "deck_height".toList = none) :
    let d : JDict := [("declination".toList, a), ("deck_height".toList, b)]
    (applyUserdata useNortek attrs d).declin = some b ∧ (applyUserdata useSignature attrs d).declin = some b ∧
      (applyUserdata useNortek attrs d).attrs.get "deck_height".toList = none := by
  intro d
  have k1 : keyIn "rotmat" "declination".toList = false := by decide
  have k2 : keyIn "dec" "declination".toList = true := by decide
  have k3 : keyIn "rotmat" "deck_height".toList = false := by decide
  have k4 : keyIn "dec" "deck_height".toList = true := by decide
  refine ⟨rfl, rfl, ?_⟩
  have : (applyUserdata useNortek attrs d).attrs = attrs := rfl
  rw [this, hno]

/-- A file as in the theorems. -/
example : ∃ d : JDict, (d.map Prod.fst).Nodup ∧ d.length = 3 ∧
    (∀ v, Spec.userVal d "body2head_vec" "inst2head_vec" = some v → ∃ l, v = .list l) ∧
    ∀ p ∈ d, (keyIn "rotmat" p.1 = true → p.1 = "inst2head_rotmat".toList) ∧
      (keyIn "dec" p.1 = true → p.1 = "declination".toList) := by
  refine ⟨[("inst2head_rotmat".toList, .str "identity".toList), ("declination".toList, .num 3),
    ("body2head_vec".toList, .list [.num 1, .num 0, .num 2])], by decide, rfl, ?_, ?_⟩
  · intro v hv
    have : v = .list [.num 1, .num 0, .num 2] := (Option.some.inj hv).symm
    exact ⟨_, this⟩
  · intro p hp
    simp only [List.mem_cons, List.not_mem_nil, or_false] at hp
    rcases hp with rfl | rfl | rfl <;> exact ⟨by decide, by decide⟩

end Dolfyn
