import Verif.Model.CreateDs
import Mathlib.Tactic.Tauto
import Mathlib.Data.List.Infix

/-!
Properties of the dataset made from a reader's dictionary: C97.
-/

namespace Dolfyn

/-- The record types whose variables carry a tag. -/
def Spec.recordTags : List Key := ["avg", "b5", "echo", "bt", "gps", "altraw", "sl"].map String.toList

theorem takeWhile_all' {α : Type*} (p : α → Bool) : ∀ l : List α, (∀ a ∈ l, p a = true) → l.takeWhile p = l
  | [], _ => rfl
  | a :: l, h => by
    rw [List.takeWhile_cons, if_pos (h a (by simp)), takeWhile_all' p l fun b hb => h b (by simp [hb])]

theorem afterLast_tag (base t : Key) (ht : '_' ∉ t) : afterLast '_' (base ++ '_' :: t) = t := by
  unfold afterLast
  have h : (base ++ '_' :: t).reverse = t.reverse ++ '_' :: base.reverse := by simp
  rw [h, List.takeWhile_append_of_pos]
  · simp
  · intro a ha
    have : a ≠ '_' := by
      rintro rfl
      exact ht (List.mem_reverse.mp ha)
    simpa using this

theorem recordTags_no_underscore {t : Key} (ht : t ∈ Spec.recordTags) : '_' ∉ t := by
  unfold Spec.recordTags at ht
  simp only [List.map_cons, List.map_nil, List.mem_cons, List.not_mem_nil, or_false] at ht
  rcases ht with rfl | rfl | rfl | rfl | rfl | rfl | rfl <;> decide

theorem hasTag_record (base : Key) {t : Key} (ht : t ∈ Spec.recordTags) : hasTag (base ++ '_' :: t) = true := by
  unfold hasTag keyIn
  rw [List.any_eq_true]
  unfold Spec.recordTags at ht
  simp only [List.map_cons, List.map_nil, List.mem_cons, List.not_mem_nil, or_false] at ht
  have key : ∀ s : String, s ∈ dsTags → s.toList = '_' :: t →
      ∃ x ∈ dsTags, decide (x.toList <:+: base ++ '_' :: t) = true := by
    intro s hs e
    refine ⟨s, hs, ?_⟩
    rw [decide_eq_true_eq, e]
    exact (List.suffix_append _ _).isInfix
  rcases ht with rfl | rfl | rfl | rfl | rfl | rfl | rfl
  · exact key "_avg" (by decide) (by decide)
  · exact key "_b5" (by decide) (by decide)
  · exact key "_echo" (by decide) (by decide)
  · exact key "_bt" (by decide) (by decide)
  · exact key "_gps" (by decide) (by decide)
  · exact key "_altraw" (by decide) (by decide)
  · exact key "_sl" (by decide) (by decide)

/-- Names of scalars, vectors and profiles: neither a matrix nor quaternions. -/
def Spec.ordinary (key : Key) : Prop :=
  ¬ "mat".toList <:+: key ∧ ¬ "quaternions".toList <:+: key

theorem keyIn_false {s : String} {k : Key} (h : ¬ s.toList <:+: k) : keyIn s k = false := by
  unfold keyIn; simpa using h

theorem keyIn_true {s : String} {k : Key} (h : s.toList <:+: k) : keyIn s k = true := by
  unfold keyIn; exact decide_eq_true h

/-- **C97** (scalars). A scalar without a tag is put on the time axis `time`, one named `base_t` with the tag
of a record type on `time_t`, one named `base_altraw_avg` on `time_altraw_avg`; the values are unchanged. -/
theorem scalar_time {α : Type*} (fst : α → α) (nBeams : ℕ) (timeBt : Bool) (tg : Option Key) (key : Key)
    (n : ℕ) (x : α) (hk : Spec.ordinary key) :
    (hasTag key = false → ∃ tg', createVar fst nBeams timeBt tg ⟨key, [n], x⟩ =
      .ok (tg', some ⟨key, ["time".toList], [n], x⟩)) ∧
    (∀ base t, t ∈ Spec.recordTags → key = base ++ '_' :: t → ¬ "_altraw_avg".toList <:+: key →
      ∃ tg', createVar fst nBeams timeBt tg ⟨key, [n], x⟩ =
        .ok (tg', some ⟨key, ["time".toList ++ '_' :: t], [n], x⟩)) ∧
    (∀ base : Key, key = base ++ "_altraw_avg".toList →
      ∃ tg', createVar fst nBeams timeBt tg ⟨key, [n], x⟩ =
        .ok (tg', some ⟨key, ["time_altraw_avg".toList], [n], x⟩)) := by
  have step : createVar fst nBeams timeBt tg ⟨key, [n], x⟩ =
      .ok (some (tag1 key), some ⟨key, [timeDim (tag1 key)], [n], x⟩) := by
    unfold createVar
    simp only [keyIn_false hk.1, keyIn_false hk.2, Bool.false_eq_true, if_false]
  refine ⟨fun h => ⟨some (tag1 key), ?_⟩, fun base t ht e hno => ⟨some (tag1 key), ?_⟩,
    fun base e => ⟨some (tag1 key), ?_⟩⟩
  · rw [step]
    have h2 : keyIn "_altraw_avg" key = false := by
      unfold hasTag at h
      rw [List.any_eq_false] at h
      simpa using h "_altraw_avg" (by decide)
    have : tag1 key = [] := by
      unfold tag1; rw [h2, h]; rfl
    rw [this]; rfl
  · rw [step]
    have : tag1 key = '_' :: t := by
      unfold tag1
      rw [keyIn_false hno, e, hasTag_record base ht]
      simp only [Bool.false_eq_true, if_false, if_true]
      unfold lastTag
      rw [afterLast_tag _ _ (recordTags_no_underscore ht)]
    rw [this]; rfl
  · rw [step]
    have : tag1 key = "_altraw_avg".toList := by
      unfold tag1 keyIn
      rw [if_pos]
      rw [decide_eq_true_eq, e]
      exact (List.suffix_append _ _).isInfix
    rw [this]; rfl

/-- **C97** (units). A variable `base_t` gets the units of `base` where the reader has these, and otherwise
its own; a variable without a tag its own. -/
theorem tagged_units (md : Key → Option String) :
    (∀ key, hasTag key = false → varAttr md key = md key) ∧
    (∀ base t, t ∈ Spec.recordTags → varAttr md (base ++ '_' :: t) =
      if (md base).isSome then md base else md (base ++ '_' :: t)) := by
  refine ⟨fun key h => ?_, fun base t ht => ?_⟩
  · unfold varAttr; simp [h]
  · unfold varAttr lastTag
    rw [afterLast_tag _ _ (recordTags_no_underscore ht), hasTag_record base ht]
    have : (base ++ '_' :: t).take ((base ++ '_' :: t).length - ('_' :: t).length) = base := by
      rw [List.length_append, Nat.add_sub_cancel]
      exact List.take_left' rfl
    simp only [this, true_and]

/-- **C97** (profiles). An untagged profile variable is put on (`dir` or `beam`, `range`, `time`), one with
`_avg` on the axes of the averaged record. -/
theorem profile_dims {α : Type*} (fst : α → α) (nBeams : ℕ) (timeBt : Bool) (tg : Option Key) (key : Key)
    (a b c : ℕ) (x : α) (hk : Spec.ordinary key) :
    (hasTag key = false → ∃ tg', createVar fst nBeams timeBt tg ⟨key, [a, b, c], x⟩ =
      .ok (tg', some ⟨key, [if "vel".toList <:+: key then "dir".toList else "beam".toList, "range".toList,
        "time".toList], [a, b, c], x⟩)) ∧
    ("_avg".toList <:+: key → ∃ tg', createVar fst nBeams timeBt tg ⟨key, [a, b, c], x⟩ =
      .ok (tg', some ⟨key, [if "vel".toList <:+: key then "dir".toList else "beam".toList, "range_avg".toList,
        "time_avg".toList], [a, b, c], x⟩)) ∧
    (∀ base : Key, key = base ++ "_b5".toList → ¬ "_avg".toList <:+: key →
      ∃ tg', createVar fst nBeams timeBt tg ⟨key, [a, b, c], x⟩ =
      .ok (tg', some ⟨key, ["range_b5".toList, "time_b5".toList], [b, c], fst x⟩)) := by
  have hv : ∀ k : Key, (if keyIn "vel" k = true then "dir".toList else "beam".toList) =
      if "vel".toList <:+: k then "dir".toList else "beam".toList := by
    intro k
    unfold keyIn
    simp only [decide_eq_true_eq]
  refine ⟨fun h => ?_, fun h => ?_, fun base e h => ?_⟩
  · have h2 : keyIn "_avg" key = false := by
      unfold hasTag at h
      rw [List.any_eq_false] at h
      simpa using h "_avg" (by decide)
    unfold createVar
    simp only [keyIn_false hk.1, keyIn_false hk.2, Bool.false_eq_true, if_false, h, h2, true_or, if_true, hv]
    exact ⟨_, rfl⟩
  · have h2 : keyIn "_avg" key = true := keyIn_true (h)
    unfold createVar
    simp only [keyIn_false hk.1, keyIn_false hk.2, Bool.false_eq_true, if_false, h2, or_true, if_true, hv]
    exact ⟨_, rfl⟩
  · have h2 : keyIn "_avg" key = false := keyIn_false h
    have h3 : keyIn "b5" key = true := by
      unfold keyIn
      rw [decide_eq_true_eq, e]
      exact List.IsInfix.trans (by decide) (List.suffix_append base "_b5".toList).isInfix
    have h4 : hasTag key = true := by
      have := hasTag_record base (t := "b5".toList) (by decide)
      rw [e]; exact this
    unfold createVar
    simp only [keyIn_false hk.1, keyIn_false hk.2, Bool.false_eq_true, if_false, h2, h3, h4, if_true,
      Bool.true_eq_false, or_false]
    exact ⟨_, rfl⟩

/-! ### Which variables are kept -/

/-- The shapes the dataset has room for: scalars; 2-D arrays with one row per beam or three rows (or one of
three named arrays); 3-D arrays without a tag or with `_avg`, `b5`, `sl`; matrices named `inst` or
`orientmat`; quaternions. -/
def Spec.supported {α : Type*} (nBeams : ℕ) (v : DVar α) : Prop :=
  if "mat".toList <:+: v.key then "inst".toList <:+: v.key ∨ "orientmat".toList <:+: v.key
  else "quaternions".toList <:+: v.key ∨ match v.shape with
    | [_] => True
    | [a, _] => v.key = "echo".toList ∨ v.key = "samp_altraw".toList ∨ v.key = "samp_altraw_avg".toList ∨
        a = 3 ∨ (a = nBeams ∧ ∀ t ∈ ["_avg", "_b5", "_echo"], ¬ String.toList t <:+: v.key)
    | [_, _, _] => hasTag v.key = false ∨ "_avg".toList <:+: v.key ∨ "b5".toList <:+: v.key ∨
        "sl".toList <:+: v.key
    | _ => False

/-- A supported variable gets an entry that does not depend on the variables before it. -/
theorem supported_entry {α : Type*} (fst : α → α) (nBeams : ℕ) (timeBt : Bool) (v : DVar α)
    (h : Spec.supported nBeams v) :
    ∃ e : DsVar α, e.key = v.key ∧ (e.shape = v.shape ∧ e.data = v.data ∨
        v.shape.length = 3 ∧ e.shape = v.shape.tail ∧ e.data = fst v.data ∧ "b5".toList <:+: v.key) ∧
      ∀ tg, ∃ tg', createVar fst nBeams timeBt tg v = .ok (tg', some e) := by
  obtain ⟨key, shape, x⟩ := v
  unfold Spec.supported at h
  simp only at h
  unfold createVar
  by_cases hm : "mat".toList <:+: key
  · have hm' : keyIn "mat" key = true := keyIn_true (hm)
    rw [if_pos hm] at h
    simp only [hm', if_true]
    by_cases hi : "inst".toList <:+: key
    · have hi' : keyIn "inst" key = true := keyIn_true (hi)
      simp only [hi', if_true]
      exact ⟨_, rfl, Or.inl ⟨rfl, rfl⟩, fun tg => ⟨_, rfl⟩⟩
    · have ho : keyIn "orientmat" key = true := keyIn_true (h.resolve_left hi)
      simp only [keyIn_false hi, ho, if_true, Bool.false_eq_true, if_false]
      exact ⟨_, rfl, Or.inl ⟨rfl, rfl⟩, fun tg => ⟨_, rfl⟩⟩
  · rw [if_neg hm] at h
    simp only [keyIn_false hm, Bool.false_eq_true, if_false]
    by_cases hq : "quaternions".toList <:+: key
    · have hq' : keyIn "quaternions" key = true := keyIn_true (hq)
      simp only [hq', if_true]
      exact ⟨_, rfl, Or.inl ⟨rfl, rfl⟩, fun tg => ⟨_, rfl⟩⟩
    · simp only [keyIn_false hq, Bool.false_eq_true, if_false]
      replace h := h.resolve_left hq
      match shape, h with
      | [_], _ => exact ⟨_, rfl, Or.inl ⟨rfl, rfl⟩, fun tg => ⟨_, rfl⟩⟩
      | [a, n], h =>
        simp only at h ⊢
        by_cases h1 : key = "echo".toList
        · simp only [h1, if_true]
          exact ⟨_, rfl, Or.inl ⟨rfl, rfl⟩, fun tg => ⟨_, rfl⟩⟩
        simp only [if_neg h1]
        by_cases h2 : key = "samp_altraw".toList
        · simp only [h2, if_true]
          exact ⟨_, rfl, Or.inl ⟨rfl, rfl⟩, fun tg => ⟨_, rfl⟩⟩
        simp only [if_neg h2]
        by_cases h3 : key = "samp_altraw_avg".toList
        · simp only [h3, if_true]
          exact ⟨_, rfl, Or.inl ⟨rfl, rfl⟩, fun tg => ⟨_, rfl⟩⟩
        simp only [if_neg h3]
        by_cases h4 : a = nBeams ∧ ¬ (dsTags.take 3).any (fun t => keyIn t key) = true
        · simp only [if_pos h4]
          exact ⟨_, rfl, Or.inl ⟨rfl, rfl⟩, fun tg => ⟨_, rfl⟩⟩
        simp only [if_neg h4]
        have h5 : a = 3 := by
          rcases h with h | h | h | h | ⟨h, hh⟩
          · exact absurd h h1
          · exact absurd h h2
          · exact absurd h h3
          · exact h
          · exfalso
            apply h4
            refine ⟨h, ?_⟩
            rw [Bool.not_eq_true, List.any_eq_false]
            intro t ht
            have : keyIn t key = false := keyIn_false (hh t ht)
            simp [this]
        simp only [if_pos h5]
        exact ⟨_, rfl, Or.inl ⟨rfl, rfl⟩, fun tg => ⟨_, rfl⟩⟩
      | [a, b, c], h =>
        simp only at h ⊢
        by_cases h1 : hasTag key = false ∨ keyIn "_avg" key = true
        · simp only [if_pos h1]
          exact ⟨_, rfl, Or.inl ⟨rfl, rfl⟩, fun tg => ⟨_, rfl⟩⟩
        simp only [if_neg h1]
        by_cases h2 : "b5".toList <:+: key
        · have h2' : keyIn "b5" key = true := keyIn_true (h2)
          simp only [h2', if_true]
          exact ⟨_, rfl, Or.inr ⟨rfl, rfl, rfl, h2⟩, fun tg => ⟨_, rfl⟩⟩
        have h3 : keyIn "sl" key = true := by
          rcases h with h | h | h | h
          · exact absurd (Or.inl h) h1
          · exfalso; apply h1; right; exact keyIn_true h
          · exact absurd h h2
          · exact keyIn_true h
        simp only [keyIn_false h2, Bool.false_eq_true, if_false, h3, if_true]
        exact ⟨_, rfl, Or.inl ⟨rfl, rfl⟩, fun tg => ⟨_, rfl⟩⟩

/-- The entry of a supported variable. -/
noncomputable def entryOf {α : Type*} (fst : α → α) (nBeams : ℕ) (timeBt : Bool) (v : DVar α) : DsVar α :=
  open Classical in
  if h : Spec.supported nBeams v then (supported_entry fst nBeams timeBt v h).choose
  else ⟨v.key, [], v.shape, v.data⟩

theorem createVars_map {α : Type*} (fst : α → α) (nBeams : ℕ) (timeBt : Bool) :
    ∀ (vs : List (DVar α)) (tg : Option Key), (∀ v ∈ vs, Spec.supported nBeams v) →
      createVars fst nBeams timeBt tg vs = .ok (vs.map (entryOf fst nBeams timeBt))
  | [], _, _ => rfl
  | v :: vs, tg, h => by
    have hv := h v (by simp)
    have hs := (supported_entry fst nBeams timeBt v hv).choose_spec.2.2 tg
    obtain ⟨tg', e⟩ := hs
    rw [createVars, e]
    simp only
    rw [createVars_map fst nBeams timeBt vs tg' fun w hw => h w (by simp [hw])]
    have : entryOf fst nBeams timeBt v = (supported_entry fst nBeams timeBt v hv).choose := by
      unfold entryOf; rw [dif_pos hv]
    rw [List.map_cons, this]
    rfl

/-- **C97** (nothing is lost). Every supported variable of the reader's dictionary gets an entry with its
name, shape and values (for a fifth-beam profile, those of its one beam), in the order of the dictionary. -/
theorem create_keeps {α : Type*} (fst : α → α) (nBeams : ℕ) (timeBt : Bool) (tg : Option Key)
    (vs : List (DVar α)) (h : ∀ v ∈ vs, Spec.supported nBeams v) :
    ∃ r, createVars fst nBeams timeBt tg vs = .ok r ∧
      List.Forall₂ (fun (v : DVar α) (e : DsVar α) => e.key = v.key ∧ (e.shape = v.shape ∧ e.data = v.data ∨
        v.shape.length = 3 ∧ e.shape = v.shape.tail ∧ e.data = fst v.data ∧ "b5".toList <:+: v.key)) vs r := by
  refine ⟨_, createVars_map fst nBeams timeBt vs tg h, ?_⟩
  rw [List.forall₂_map_right_iff, List.forall₂_same]
  intro v hv
  have hs := (supported_entry fst nBeams timeBt v (h v hv)).choose_spec
  have : entryOf fst nBeams timeBt v = (supported_entry fst nBeams timeBt v (h v hv)).choose := by
    unfold entryOf; rw [dif_pos (h v hv)]
  rw [this]
  exact ⟨hs.1, hs.2.1⟩

/-- **C97** (order). The dataset does not depend on the order of the (supported) variables. -/
theorem create_order {α : Type*} (fst : α → α) (nBeams : ℕ) (timeBt : Bool) (tg tg' : Option Key)
    (vs vs' : List (DVar α)) (h : ∀ v ∈ vs, Spec.supported nBeams v) (hp : vs.Perm vs') :
    ∃ r r', createVars fst nBeams timeBt tg vs = .ok r ∧ createVars fst nBeams timeBt tg' vs' = .ok r' ∧
      r.Perm r' :=
  ⟨_, _, createVars_map fst nBeams timeBt vs tg h,
    createVars_map fst nBeams timeBt vs' tg' fun v hv => h v (hp.mem_iff.mpr hv), hp.map _⟩

/-- **C97** (two-dimensional fifth-beam profiles). Directly behind a scalar of the fifth beam, a
two-dimensional fifth-beam profile is put on `range_b5`, `time_b5`, and so are the ones behind it. -/
theorem b5_block {α : Type*} (fst : α → α) (nBeams : ℕ) (timeBt : Bool) (tg : Option Key) (base : Key)
    (n : ℕ) (x : α) (ws : List (DVar α)) (hk : Spec.ordinary (base ++ "_b5".toList))
    (hno : ¬ "_altraw_avg".toList <:+: base ++ "_b5".toList)
    (hws : ∀ w ∈ ws, Spec.ordinary w.key ∧ "_b5".toList <:+: w.key ∧ ∃ a b, w.shape = [a, b] ∧ a ≠ 3 ∧
      w.key ≠ "echo".toList ∧ w.key ≠ "samp_altraw".toList ∧ w.key ≠ "samp_altraw_avg".toList) :
    createVars fst nBeams timeBt tg (⟨base ++ "_b5".toList, [n], x⟩ :: ws) =
      .ok (⟨base ++ "_b5".toList, ["time_b5".toList], [n], x⟩ ::
        ws.map fun w => ⟨w.key, ["range_b5".toList, "time_b5".toList], w.shape, w.data⟩) := by
  have ht : tag1 (base ++ "_b5".toList) = "_b5".toList := by
    unfold tag1
    rw [keyIn_false hno]
    have h := hasTag_record base (t := "b5".toList) (by decide)
    have h' : hasTag (base ++ "_b5".toList) = true := h
    rw [h']
    simp only [Bool.false_eq_true, if_false, if_true]
    unfold lastTag
    have h2 := afterLast_tag base "b5".toList (by decide)
    have h3 : afterLast '_' (base ++ "_b5".toList) = "b5".toList := h2
    rw [h3]
    rfl
  have hrest : ∀ ws : List (DVar α), (∀ w ∈ ws, Spec.ordinary w.key ∧ "_b5".toList <:+: w.key ∧
      ∃ a b, w.shape = [a, b] ∧ a ≠ 3 ∧ w.key ≠ "echo".toList ∧ w.key ≠ "samp_altraw".toList ∧
        w.key ≠ "samp_altraw_avg".toList) →
      createVars fst nBeams timeBt (some "_b5".toList) ws =
        .ok (ws.map fun w => ⟨w.key, ["range_b5".toList, "time_b5".toList], w.shape, w.data⟩) := by
    intro ws
    induction ws with
    | nil => intro _; rfl
    | cons w ws ih =>
      intro h
      obtain ⟨ho, hb, a, b, hsh, ha, n1, n2, n3⟩ := h w (by simp)
      obtain ⟨key, shape, y⟩ := w
      simp only at ho hb hsh n1 n2 n3
      subst hsh
      have hany : (dsTags.take 3).any (fun t => keyIn t key) = true := by
        rw [List.any_eq_true]
        exact ⟨"_b5", by decide, keyIn_true hb⟩
      have hb5 : keyIn "b5" "_b5".toList = true := by decide
      have hstep : createVar fst nBeams timeBt (some "_b5".toList) ⟨key, [a, b], y⟩ =
          .ok (some "_b5".toList, some ⟨key, ["range_b5".toList, "time_b5".toList], [a, b], y⟩) := by
        unfold createVar
        simp only [keyIn_false ho.1, keyIn_false ho.2, Bool.false_eq_true, if_false, if_neg n1, if_neg n2,
          if_neg n3, hany, not_true_eq_false, and_false, if_neg ha, hb5, if_true]
      rw [createVars, hstep]
      simp only
      rw [ih fun w hw => h w (by simp [hw])]
      rfl
  rw [createVars]
  have hstep : createVar fst nBeams timeBt tg ⟨base ++ "_b5".toList, [n], x⟩ =
      .ok (some "_b5".toList, some ⟨base ++ "_b5".toList, ["time_b5".toList], [n], x⟩) := by
    unfold createVar
    simp only [keyIn_false hk.1, keyIn_false hk.2, Bool.false_eq_true, if_false, ht]
    rfl
  rw [hstep]
  simp only
  rw [hrest ws hws]
  rfl

/-- **C97 is false of the code** for two-dimensional fifth-beam profiles: behind a variable of another
record type they are dropped without a message, as first variable they raise, and with three cells they are
taken for a vector of the motion sensor. -/
theorem b5_order_false {α : Type*} (fst : α → α) (x y : α) (n : ℕ) :
    createVars fst 4 false none [⟨"temp".toList, [n], x⟩, ⟨"vel_b5".toList, [10, n], y⟩] =
        .ok [⟨"temp".toList, ["time".toList], [n], x⟩] ∧
      createVars fst 4 false none [⟨"vel_b5".toList, [10, n], y⟩, ⟨"temp".toList, [n], x⟩] =
        .error .unboundLocal ∧
      createVars fst 4 false none [⟨"temp_b5".toList, [n], x⟩, ⟨"vel_b5".toList, [3, n], y⟩] =
        .ok [⟨"temp_b5".toList, ["time_b5".toList], [n], x⟩,
          ⟨"vel_b5".toList, ["dirIMU".toList, "time_b5".toList], [3, n], y⟩] := by
  refine ⟨?_, ?_, ?_⟩
  · rfl
  · rfl
  · rfl

/-- **C97 is false of the code** for instruments with one or two beams: the number of beams is raised to
three, so a dataset with a velocity profile cannot be made. -/
theorem few_beams_false {α : Type*} (fst : α → α) (nb : ℕ) (hnb : nb < 3) (coords : List (Key × ℕ))
    (vs : List (DVar α)) (b c : ℕ) (x : α) (hv : (⟨"vel".toList, [nb, b, c], x⟩ : DVar α) ∈ vs) :
    ∃ e, createDataset fst nb none coords vs = .error e := by
  unfold createDataset
  have hcl : clampBeams nb none = 3 := by unfold clampBeams; simp only [Option.getD_none]; omega
  simp only [hcl]
  have hmem : ∀ (vs : List (DVar α)) (tg : Option Key) (tb : Bool) (r : List (DsVar α)),
      (⟨"vel".toList, [nb, b, c], x⟩ : DVar α) ∈ vs → createVars fst 3 tb tg vs = .ok r →
      (⟨"vel".toList, ["dir".toList, "range".toList, "time".toList], [nb, b, c], x⟩ : DsVar α) ∈ r := by
    intro vs
    induction vs with
    | nil => intro _ _ _ h; simp at h
    | cons v vs ih =>
      intro tg tb r h hr
      rw [createVars] at hr
      cases hc : createVar fst 3 tb tg v with
      | error e => rw [hc] at hr; simp at hr
      | ok o =>
        rw [hc] at hr
        obtain ⟨tg', o⟩ := o
        simp only at hr
        cases hc2 : createVars fst 3 tb tg' vs with
        | error e => rw [hc2] at hr; simp at hr
        | ok r2 =>
          rw [hc2] at hr
          have hr := Except.ok.inj hr
          subst hr
          rcases List.mem_cons.mp h with rfl | h
          · obtain ⟨tg'', e⟩ := (profile_dims fst 3 tb tg "vel".toList nb b c x
              ⟨by decide, by decide⟩).1 (by decide)
            rw [e] at hc
            obtain ⟨-, rfl⟩ := Prod.mk.inj (Except.ok.inj hc)
            rw [if_pos (by decide)]
            simp
          · exact List.mem_append_right _ (ih tg' tb r2 h hc2)
  split
  · exact ⟨_, rfl⟩
  · next r hr =>
    have hm := hmem vs none _ r hv hr
    refine ⟨.valueError, ?_⟩
    unfold fromDict
    simp only
    rw [if_neg]
    rintro ⟨-, h⟩
    have := h ("dir".toList, 3) (by simp) ("dir".toList, nb)
      (List.mem_append_right _ (List.mem_flatMap.mpr ⟨_, hm, by simp [DsVar.sizes]⟩)) rfl
    simp only at this
    omega

/-- A dataset that is made has one size for each dimension, that of the coordinate. -/
theorem create_sizes {α : Type*} (fst : α → α) (nb : ℕ) (nbAvg : Option ℕ) (coords : List (Key × ℕ))
    (vs : List (DVar α)) (r : List (DsVar α)) (h : createDataset fst nb nbAvg coords vs = .ok r)
    (v : DsVar α) (hv : v ∈ r) (d : Key) (n : ℕ) (hd : (d, n) ∈ v.dims.zip v.shape) :
    v.dims.length = v.shape.length ∧ (∀ m, (d, m) ∈ coords → m = n) ∧
      (d = "dir".toList ∨ d = "beam".toList → n = clampBeams nb nbAvg) ∧
      ∀ w ∈ r, ∀ m, (d, m) ∈ w.dims.zip w.shape → m = n := by
  unfold createDataset at h
  simp only at h
  split at h
  · cases h
  · next r' hr =>
    unfold fromDict at h
    simp only at h
    split at h
    · next hc =>
      obtain rfl := Except.ok.inj h
      obtain ⟨h1, h2⟩ := hc
      have hin : ∀ w ∈ r', ∀ m, (d, m) ∈ w.dims.zip w.shape → (d, m) ∈ r'.flatMap DsVar.sizes :=
        fun w hw m hm => List.mem_flatMap.mpr ⟨w, hw, hm⟩
      refine ⟨h1 v hv, fun m hm => ?_, fun hdd => ?_, fun w hw m hm => ?_⟩
      · exact h2 (d, m) (by simp [hm]) (d, n) (List.mem_append_right _ (hin v hv n hd)) rfl
      · refine (h2 (d, clampBeams nb nbAvg) ?_ (d, n) (List.mem_append_right _ (hin v hv n hd)) rfl).symm
        rcases hdd with rfl | rfl <;> simp
      · exact h2 (d, m) (List.mem_append_right _ (hin w hw m hm)) (d, n)
          (List.mem_append_right _ (hin v hv n hd)) rfl
    · cases h

/-- A dictionary like that of a Signature with bottom track and fifth beam: the dataset is made. -/
example : (createDataset (fun n : ℕ => n) 4 none
    [("time".toList, 7), ("time_b5".toList, 6), ("range".toList, 10), ("range_b5".toList, 12)]
    [⟨"temp".toList, [7], 1⟩, ⟨"accel".toList, [3, 7], 2⟩, ⟨"vel".toList, [4, 10, 7], 3⟩,
      ⟨"temp_b5".toList, [6], 4⟩, ⟨"vel_b5".toList, [1, 12, 6], 5⟩, ⟨"quaternions".toList, [4, 7], 6⟩,
      ⟨"beam2inst_orientmat".toList, [4, 4], 7⟩]).toOption.map (fun l => l.map DsVar.dims) =
    some [["time".toList], ["dirIMU".toList, "time".toList], ["dir".toList, "range".toList, "time".toList],
      ["time_b5".toList], ["range_b5".toList, "time_b5".toList], ["q".toList, "time".toList],
      ["x1".toList, "x2".toList]] := by
  decide +kernel

/-- Names as in the theorems. -/
example : Spec.ordinary "c_sound_avg".toList ∧ "avg".toList ∈ Spec.recordTags ∧
    ¬ "_altraw_avg".toList <:+: "c_sound_avg".toList ∧
    Spec.supported 4 (⟨"accel".toList, [3, 7], ()⟩ : DVar Unit) := by
  refine ⟨⟨by decide, by decide⟩, by decide, by decide, ?_⟩
  unfold Spec.supported
  rw [if_neg (by decide)]
  right; right; right; right; left; rfl

end Dolfyn
