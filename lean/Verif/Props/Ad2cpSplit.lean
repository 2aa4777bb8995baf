import Verif.Model.Ad2cpSplit
import Verif.Props.Ad2cpHead

/-!
Properties of the splitting of dual-profile datasets (C105).
-/

namespace Dolfyn

variable {α : Type*}

/-- The variable is recorded on a time axis of the second profile: one of another length than `time`, other than
the raw altimeter of the burst. -/
def Spec.onSecond (ds : SplitDs α) (n : ℕ) (v : Key × SpVar α) : Prop :=
  ∃ c ∈ ds.coords, c.1 ∈ v.2.coords ∧ "time".toList <:+: c.1 ∧ c.2 ≠ n ∧ ¬ "altraw".toList <:+ c.1

theorem onSecond_iff (ds : SplitDs α) (n : ℕ) (v : Key × SpVar α) :
    (v.2.coords.any fun x => decide (x ∈ otherTimes ds n)) = true ↔ Spec.onSecond ds n v := by
  rw [List.any_eq_true]
  unfold Spec.onSecond otherTimes keyIn
  constructor
  · rintro ⟨x, hx, h⟩
    rw [decide_eq_true_eq, List.mem_map] at h
    obtain ⟨c, hc, rfl⟩ := h
    rw [List.mem_filter, List.mem_filter] at hc
    obtain ⟨⟨h1, h2⟩, h3⟩ := hc
    rw [decide_eq_true_eq] at h2 h3
    exact ⟨c, h1, hx, h2, h3.1, h3.2⟩
  · rintro ⟨c, h1, hx, h2, h3, h4⟩
    refine ⟨c.1, hx, ?_⟩
    rw [decide_eq_true_eq, List.mem_map]
    refine ⟨c, ?_, rfl⟩
    rw [List.mem_filter, List.mem_filter]
    exact ⟨⟨h1, decide_eq_true h2⟩, decide_eq_true ⟨h3, h4⟩⟩

/-- What a successful split consists of. -/
theorem splitAt_ok {ds d1 d2 : SplitDs α} {oc : List Key} (h : splitAt ds oc = .ok (d1, d2)) :
    ∃ bm tag cy fr, pget ds.vars "beam2inst_orientmat".toList = some bm ∧
      (oc.map (afterLast '_')).head? = some tag ∧
      d1.vars = ds.vars.filter (fun v => ¬ (v.2.coords.any fun x => decide (x ∈ oc)) = true) ∧
      d1.rotateVars = removeAll ds.rotateVars (ds.rotateVars.filter fun v =>
        (ds.vars.filter fun v => v.2.coords.any fun x => x ∈ oc).any fun w => w.1 = v) ∧
      d2.vars = (pset (ds.vars.filter fun v => v.2.coords.any fun x => x ∈ oc) "beam2inst_orientmat".toList bm).map
        (fun v => if v.1 = "orientmat_".toList ++ tag then ("orientmat".toList, v.2) else v) ∧
      d2.rotateVars = (ds.rotateVars.filter fun v =>
        (ds.vars.filter fun v => v.2.coords.any fun x => x ∈ oc).any fun w => w.1 = v) ∧
      (pget (pset (ds.vars.filter fun v => v.2.coords.any fun x => x ∈ oc) "beam2inst_orientmat".toList bm)
        ("orientmat_".toList ++ tag)).isSome ∧
      d2.attrs = pset (((ds.attrs.filter fun a => anyIn (oc.map (afterLast '_')) a.1) ++
        ds.attrs.filter fun a => a.1 ∈ criticalAttrs).foldl (fun d a => pset d a.1 a.2) [])
          "coord_sys".toList fr ∧
      pget (((ds.attrs.filter fun a => anyIn (oc.map (afterLast '_')) a.1) ++
        ds.attrs.filter fun a => a.1 ∈ criticalAttrs).foldl (fun d a => pset d a.1 a.2) [])
          ("coord_sys_axes_".toList ++ tag) = some cy ∧ cyFrame cy = .ok fr := by
  unfold splitAt at h
  simp only at h
  rcases ite_eq_iff.mp h with ⟨_, h⟩ | ⟨_, h⟩
  · cases h
  cases hb : pget ds.vars "beam2inst_orientmat".toList with
  | none => rw [hb] at h; cases h
  | some bm =>
    rw [hb] at h
    simp only at h
    cases ht : oc.map (afterLast '_') with
    | nil => rw [ht] at h; cases h
    | cons tag r =>
      rw [ht] at h
      simp only at h
      rcases ite_eq_iff.mp h with ⟨_, h⟩ | ⟨ho, h⟩
      · cases h
      split at h
      · cases h
      · next cy hcy =>
        split at h
        · cases h
        · next fr hfr =>
          obtain ⟨rfl, rfl⟩ := Prod.mk.inj (Except.ok.inj h)
          refine ⟨bm, tag, cy, fr, rfl, rfl, rfl, rfl, rfl, rfl, ?_, rfl, hcy, hfr⟩
          rw [Bool.not_eq_true, Option.isNone_eq_false_iff] at ho
          exact ho

theorem erase_fold {l : List Key} (h : l.Nodup) : ∀ (r : List Key), (removeAll l r).Nodup ∧
    ∀ x, x ∈ removeAll l r ↔ x ∈ l ∧ x ∉ r := by
  intro r
  unfold removeAll
  induction r generalizing l with
  | nil => exact ⟨h, by simp⟩
  | cons a r ih =>
    rw [List.foldl_cons]
    obtain ⟨h1, h2⟩ := ih (h.erase a)
    refine ⟨h1, fun x => ?_⟩
    rw [h2 x, h.mem_erase_iff, List.mem_cons]
    tauto

theorem nodup_fst_eq {l : List (Key × α)} (h : (l.map Prod.fst).Nodup) {a b : Key × α} (ha : a ∈ l) (hb : b ∈ l)
    (e : a.1 = b.1) : a = b := by
  have h1 := pget_of_mem h (k := a.1) (v := a.2) ha
  have h2 := pget_of_mem h (k := b.1) (v := b.2) hb
  rw [e, h2] at h1
  exact Prod.ext e (Option.some.inj h1).symm

/-- **C105**. A split gives every variable to exactly one dataset: the second one gets the variables on its time
axes, its orientation matrix under the name `orientmat`, and the beam matrix; the first one gets all the
others. Each dataset lists the variables to be rotated that it holds. -/
theorem split_vars {ds d1 d2 : SplitDs α} {n : ℕ} (hn : pget ds.coords "time".toList = some n)
    (hnd : (ds.vars.map Prod.fst).Nodup) (hrn : ds.rotateVars.Nodup)
    (hr : ∀ k ∈ ds.rotateVars, k ∈ ds.vars.map Prod.fst)
    (h : splitDp ds = .ok (d1, d2)) :
    (∀ v, v ∈ d1.vars ↔ v ∈ ds.vars ∧ ¬ Spec.onSecond ds n v) ∧
    (∃ tag, (∃ c ∈ ds.coords, afterLast '_' c.1 = tag ∧ c.2 ≠ n) ∧
      (∃ v ∈ d2.vars, v.1 = "orientmat".toList ∧ ("orientmat_".toList ++ tag, v.2) ∈ ds.vars) ∧
      ∀ v ∈ ds.vars, Spec.onSecond ds n v → v.1 ≠ "orientmat_".toList ++ tag →
        v.1 ≠ "beam2inst_orientmat".toList → v ∈ d2.vars) ∧
    (∀ v ∈ d2.vars, ∃ w ∈ ds.vars, w.2.val = v.2.val ∧
      (Spec.onSecond ds n w ∨ w.1 = "beam2inst_orientmat".toList)) ∧
    (∀ v ∈ ds.vars, v.1 ∈ d1.rotateVars ↔ v.1 ∈ ds.rotateVars ∧ ¬ Spec.onSecond ds n v) ∧
    (∀ v ∈ ds.vars, v.1 ∈ d2.rotateVars ↔ v.1 ∈ ds.rotateVars ∧ Spec.onSecond ds n v) := by
  unfold splitDp at h
  rw [hn] at h
  simp only at h
  obtain ⟨bm, tag, cy, fr, hb, ht, e1, e2, e3, e4, e5, e6, e7, e8⟩ := splitAt_ok h
  have hfil : ∀ v : Key × SpVar α, v ∈ (ds.vars.filter fun v => v.2.coords.any fun x => x ∈ otherTimes ds n) ↔
      v ∈ ds.vars ∧ Spec.onSecond ds n v := by
    intro v
    rw [List.mem_filter, onSecond_iff]
  have hsec : ∀ v ∈ ds.vars, ((ds.vars.filter fun v => v.2.coords.any fun x => x ∈ otherTimes ds n).any
      fun w => w.1 = v.1) = true ↔ Spec.onSecond ds n v := by
    intro v hv
    rw [List.any_eq_true]
    constructor
    · rintro ⟨w, hw, e⟩
      rw [hfil] at hw
      have : w = v := nodup_fst_eq hnd hw.1 hv (by simpa using e)
      rw [← this]
      exact hw.2
    · intro hs
      exact ⟨v, (hfil v).mpr ⟨hv, hs⟩, by simp⟩
  have hpnd : (((ds.vars.filter fun v => v.2.coords.any fun x => x ∈ otherTimes ds n)).map Prod.fst).Nodup :=
    hnd.sublist (List.Sublist.map _ List.filter_sublist)
  have hpset : ∀ k v, pget (pset (ds.vars.filter fun v => v.2.coords.any fun x => x ∈ otherTimes ds n)
      "beam2inst_orientmat".toList bm) k = some v → (k, v) ∈ ds.vars ∧
        (Spec.onSecond ds n (k, v) ∨ k = "beam2inst_orientmat".toList) := by
    intro k v hv
    rw [pget_pset] at hv
    by_cases hk : k = "beam2inst_orientmat".toList
    · rw [if_pos hk] at hv
      rw [← Option.some.inj hv, hk]
      exact ⟨pget_mem hb, Or.inr rfl⟩
    · rw [if_neg hk] at hv
      have := (hfil _).mp (pget_mem hv)
      exact ⟨this.1, Or.inl this.2⟩
  refine ⟨?_, ?_, ?_, ?_, ?_⟩
  · intro v
    rw [e1, List.mem_filter, decide_eq_true_eq, onSecond_iff]
  · refine ⟨tag, ?_, ?_, ?_⟩
    · rw [List.head?_map, Option.map_eq_some_iff] at ht
      obtain ⟨k, hk, rfl⟩ := ht
      have hk := List.mem_of_mem_head? hk
      unfold otherTimes at hk
      obtain ⟨c, hc, rfl⟩ := List.mem_map.mp hk
      rw [List.mem_filter, List.mem_filter, decide_eq_true_eq] at hc
      exact ⟨c, hc.1.1, rfl, hc.2.1⟩
    · obtain ⟨w, hw⟩ := Option.isSome_iff_exists.mp e5
      refine ⟨("orientmat".toList, w), ?_, rfl, (hpset _ _ hw).1⟩
      rw [e3, List.mem_map]
      exact ⟨_, pget_mem hw, by rw [if_pos rfl]⟩
    · intro v hv hs h1 h2
      rw [e3, List.mem_map]
      refine ⟨v, ?_, if_neg h1⟩
      have : pget (pset (ds.vars.filter fun v => v.2.coords.any fun x => x ∈ otherTimes ds n)
          "beam2inst_orientmat".toList bm) v.1 = some v.2 := by
        rw [pget_pset, if_neg h2]
        exact pget_of_mem hpnd ((hfil v).mpr ⟨hv, hs⟩)
      exact pget_mem this
  · intro v hv
    rw [e3, List.mem_map] at hv
    obtain ⟨w, hw, rfl⟩ := hv
    have := hpset w.1 w.2 (pget_of_mem (pset_keys_nodup hpnd _ _) hw)
    refine ⟨w, this.1, ?_, this.2⟩
    by_cases hk : w.1 = "orientmat_".toList ++ tag
    · rw [if_pos hk]
    · rw [if_neg hk]
  · intro v hv
    rw [e2, (erase_fold hrn _).2, List.mem_filter, ← hsec v hv]
    tauto
  · intro v hv
    rw [e4, List.mem_filter, ← hsec v hv]

/-- **C105 is false of the code** when both profiles have the same number of samples: the call raises, so such a
file cannot be read. -/
theorem split_equal_false (ds : SplitDs α) (n : ℕ) (hn : pget ds.coords "time".toList = some n)
    (heq : ∀ c ∈ ds.coords, "time".toList <:+: c.1 → c.2 = n) : ∃ e, splitDp ds = .error e := by
  have ho : otherTimes ds n = [] := by
    unfold otherTimes keyIn
    rw [List.map_eq_nil_iff, List.filter_eq_nil_iff]
    intro c hc
    rw [List.mem_filter, decide_eq_true_eq] at hc
    rw [decide_eq_true_eq]
    exact fun h => h.1 (heq c hc.1 hc.2)
  unfold splitDp
  rw [hn]
  simp only
  rw [ho]
  cases hs : splitAt ds [] with
  | error e => exact ⟨e, rfl⟩
  | ok p =>
    obtain ⟨d1, d2⟩ := p
    obtain ⟨bm, tag, cy, fr, -, ht, -⟩ := splitAt_ok hs
    simp at ht

theorem foldl_pset_none {β : Type*} (k : Key) : ∀ (l : List (Key × β)) (d : List (Key × β)),
    (∀ a ∈ l, a.1 ≠ k) → pget d k = none → pget (l.foldl (fun d a => pset d a.1 a.2) d) k = none
  | [], d, _, h => h
  | a :: l, d, hl, h => by
    rw [List.foldl_cons]
    apply foldl_pset_none k l _ (fun b hb => hl b (by simp [hb]))
    rw [pget_pset, if_neg (fun e => hl a (by simp) e.symm)]
    exact h

/-- **C105 is false of the code** for the declination: a declination given for the file is not applied to the
second dataset. Whatever the declination, its orientation matrix is the one in the file, and the declination is
not among its attributes. -/
theorem split_dec_false {ds ds' d1 d2 : SplitDs α} {n : ℕ} (rot add : α → α) (declin : Key)
    (hn : pget ds.coords "time".toList = some n) (hnd : (ds.vars.map Prod.fst).Nodup)
    (hdec : setDecSplit rot add declin ds = .ok ds')
    (htag : ∀ t ∈ otherTimes ds n, ¬ afterLast '_' t <:+: "declination".toList)
    (hot : ∀ t ∈ otherTimes ds n, afterLast '_' t ≠ [])
    (h : splitDp ds' = .ok (d1, d2)) :
    (∃ tag v w, ("orientmat".toList, v) ∈ d2.vars ∧ ("orientmat_".toList ++ tag, w) ∈ ds.vars ∧ v.val = w.val) ∧
      pget d2.attrs "declination".toList = none := by
  unfold setDecSplit at hdec
  cases hom : pget ds.vars "orientmat".toList with
  | none => rw [hom] at hdec; cases hdec
  | some om =>
    rw [hom] at hdec
    simp only at hdec
    have hcoords : ds'.coords = ds.coords := by rw [← Except.ok.inj hdec]
    have hvars : ∀ k, k ≠ "orientmat".toList → k ≠ "heading".toList → pget ds'.vars k = pget ds.vars k := by
      intro k h1 h2
      rw [← Except.ok.inj hdec]
      simp only
      cases hh : pget (pset ds.vars "orientmat".toList { om with val := rot om.val }) "heading".toList with
      | none => simp only; rw [pget_pset, if_neg h1]
      | some x => simp only; rw [pget_pset, if_neg h2, pget_pset, if_neg h1]
    have hnd' : (ds'.vars.map Prod.fst).Nodup := by
      rw [← Except.ok.inj hdec]
      simp only
      cases hh : pget (pset ds.vars "orientmat".toList { om with val := rot om.val }) "heading".toList with
      | none => exact pset_keys_nodup hnd _ _
      | some x => exact pset_keys_nodup (pset_keys_nodup hnd _ _) _ _
    unfold splitDp at h
    rw [hcoords, hn] at h
    simp only at h
    obtain ⟨bm, tag, cy, fr, hb, ht, e1, e2, e3, e4, e5, e6, e7, e8⟩ := splitAt_ok h
    have hoc : otherTimes ds' n = otherTimes ds n := by unfold otherTimes; rw [hcoords]
    rw [hoc] at ht e3 e5 e6
    constructor
    · obtain ⟨w, hw⟩ := Option.isSome_iff_exists.mp e5
      have htag0 : tag ≠ [] := by
        rw [List.head?_map, Option.map_eq_some_iff] at ht
        obtain ⟨k, hk, rfl⟩ := ht
        exact hot k (List.mem_of_mem_head? hk)
      have n1 : "orientmat_".toList ++ tag ≠ "orientmat".toList := by
        intro e
        have := congrArg List.length e
        simp at this
      have n2 : "orientmat_".toList ++ tag ≠ "heading".toList := by
        intro e
        have := congrArg List.head? e
        simp at this
      have n3 : "orientmat_".toList ++ tag ≠ "beam2inst_orientmat".toList := by
        intro e
        have := congrArg List.head? e
        simp at this
      refine ⟨tag, w, w, ?_, ?_, rfl⟩
      · rw [e3, List.mem_map]
        exact ⟨_, pget_mem hw, by rw [if_pos rfl]⟩
      · rw [pget_pset, if_neg n3] at hw
        have hm := (List.mem_filter.mp (pget_mem hw)).1
        have hg := pget_of_mem hnd' hm
        rw [hvars _ n1 n2] at hg
        exact pget_mem hg
    · rw [e6, pget_pset, if_neg (by decide)]
      apply foldl_pset_none
      · intro a ha e
        rcases List.mem_append.mp ha with ha | ha
        · rw [List.mem_filter, e] at ha
          have h2 := ha.2
          unfold anyIn at h2
          rw [List.any_eq_true] at h2
          obtain ⟨x, hx, hin⟩ := h2
          obtain ⟨t, htm, rfl⟩ := List.mem_map.mp hx
          exact htag t htm (of_decide_eq_true hin)
        · rw [List.mem_filter, e] at ha
          exact absurd ha.2 (by decide)
      · rfl

/-- A dual-profile dataset as in C105. -/
def exSplit : SplitDs ℕ where
  coords := [("time".toList, 5), ("range".toList, 3), ("time_avg".toList, 2), ("range_avg".toList, 4)]
  vars := [("vel".toList, ⟨["time".toList, "range".toList], 1⟩),
    ("vel_avg".toList, ⟨["time_avg".toList, "range_avg".toList], 2⟩),
    ("orientmat".toList, ⟨["time".toList], 3⟩), ("orientmat_avg".toList, ⟨["time_avg".toList], 4⟩),
    ("beam2inst_orientmat".toList, ⟨[], 5⟩)]
  attrs := criticalAttrs.map (fun k => (k, "".toList)) ++
    [("coord_sys_axes".toList, "beam".toList), ("coord_sys_axes_avg".toList, "beam".toList)]
  rotateVars := ["vel".toList, "vel_avg".toList]

example : pget exSplit.coords "time".toList = some 5 ∧ (exSplit.vars.map Prod.fst).Nodup ∧
    exSplit.rotateVars.Nodup ∧ (∀ k ∈ exSplit.rotateVars, k ∈ exSplit.vars.map Prod.fst) ∧
    otherTimes exSplit 5 = ["time_avg".toList] ∧
    (splitDp exSplit).toOption.map (fun p => (p.1.vars.map Prod.fst, p.2.vars.map Prod.fst)) =
      some (["vel".toList, "orientmat".toList, "beam2inst_orientmat".toList],
        ["vel_avg".toList, "orientmat".toList, "beam2inst_orientmat".toList]) := by
  refine ⟨by decide, by decide, by decide, by decide, by decide +kernel, ?_⟩
  decide +kernel

end Dolfyn
