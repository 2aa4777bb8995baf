import Verif.Model.RdiMisc
import Verif.Props.RotateMore

/-!
GPS duplicates (C52), declination (C53) and ensemble numbers (C89) of TRDI files.
-/

namespace Dolfyn

open Spec

/-! ### GPS -/

theorem nanLe_total (a b : Option ℚ) : nanLe a b = true ∨ nanLe b a = true := by
  cases a <;> cases b <;> simp [nanLe]
  exact le_total _ _

theorem nanLe_trans (a b c : Option ℚ) (h : nanLe a b = true) (g : nanLe b c = true) : nanLe a c = true := by
  cases a <;> cases b <;> cases c <;> simp [nanLe] at h g ⊢
  exact le_trans h g

theorem nanLe_antisymm {a b : Option ℚ} (h : nanLe a b = true) (g : nanLe b a = true) : a = b := by
  cases a <;> cases b <;> simp [nanLe] at h g ⊢
  exact le_antisymm h g

instance : Std.Total (fun a b : Option ℚ => nanLe a b = true) := ⟨nanLe_total⟩
instance : IsTrans (Option ℚ) (fun a b => nanLe a b = true) := ⟨nanLe_trans⟩

/-- The distinct times in order. -/
def gpsSorted (l : List (Option ℚ)) : List (Option ℚ) :=
  l.dedup.insertionSort (fun a b => nanLe a b = true)

theorem gpsSorted_mem {l : List (Option ℚ)} {v : Option ℚ} : v ∈ gpsSorted l ↔ v ∈ l := by
  unfold gpsSorted
  rw [List.mem_insertionSort, List.mem_dedup]

theorem gpsSorted_nodup (l : List (Option ℚ)) : (gpsSorted l).Nodup := by
  unfold gpsSorted
  exact (List.perm_insertionSort _ _).nodup_iff.mpr (List.nodup_dedup l)

theorem gpsSorted_pairwise (l : List (Option ℚ)) : (gpsSorted l).Pairwise (fun a b => nanLe a b = true) :=
  List.pairwise_insertionSort _ _

/-- Strictly increasing without NaN, as numbers. -/
def Spec.StrictTimes (ts : List (Option ℚ)) : Prop :=
  (∀ t ∈ ts, t ≠ none) ∧ ts.Pairwise fun a b => ∀ x y, a = some x → b = some y → x < y

/-- The record a surviving sample belongs to: the first one with its time. -/
def Spec.firstRecord (times : List (Option ℚ)) (t : Option ℚ) : ℕ := times.idxOf t

theorem maskOff_map {α β : Type} (l : List β) (f : β → α) (q : β → Bool) :
    maskOff (l.map f) (l.map q) = (l.filter fun x => !q x).map f := by
  unfold maskOff
  induction l with
  | nil => rfl
  | cons a l ih =>
    rw [List.map_cons, List.map_cons, List.zip_cons_cons, List.filter_cons, List.filter_cons]
    cases h : q a <;> simp [ih]

theorem takeIdx_ok {α : Type} [Inhabited α] {col : List α} : ∀ (is : List ℕ), (∀ i ∈ is, i < col.length) →
    takeIdx col is = .ok (is.map fun i => col.getD i default)
  | [], _ => rfl
  | i :: is, h => by
    rw [takeIdx, takeIdx_ok is (fun j hj => h j (by simp [hj])), List.getElem?_eq_getElem (h i (by simp))]
    simp [List.getD_eq_getElem?_getD, List.getElem?_eq_getElem (h i (by simp))]

theorem gpsVars_forall {α : Type} {idx : List ℕ} {nan : List Bool} {anyNan : Bool} :
    ∀ (vs rs : List (Bool × String × List α)), gpsVars idx nan anyNan vs = .ok rs →
    List.Forall₂ (fun v r => r.1 = v.1 ∧ r.2.1 = v.2.1 ∧ (v.1 = false → r.2.2 = v.2.2) ∧
      (v.1 = true → ∃ c, takeIdx v.2.2 idx = .ok c ∧ r.2.2 = if anyNan then maskOff c nan else c)) vs rs
  | [], rs, h => by
    obtain rfl := Except.ok.inj h
    exact .nil
  | (false, nm, c) :: vs, rs, h => by
    rw [gpsVars] at h
    split at h
    · exact absurd h (by simp)
    · next r' hr =>
      obtain rfl := Except.ok.inj h
      exact .cons ⟨rfl, rfl, fun _ => rfl, fun h => absurd h (by simp)⟩ (gpsVars_forall vs _ hr)
  | (true, nm, c) :: vs, rs, h => by
    rw [gpsVars] at h
    split at h
    · exact absurd h (by simp)
    · exact absurd h (by simp)
    · next c' r' hc hr =>
      obtain rfl := Except.ok.inj h
      exact .cons ⟨rfl, rfl, fun h => absurd h (by simp), fun _ => ⟨c', hc, rfl⟩⟩ (gpsVars_forall vs _ hr)

theorem forall₂_with_mem {α β : Type} {R : α → β → Prop} : ∀ {l : List α} {m : List β}, List.Forall₂ R l m →
    List.Forall₂ (fun a b => a ∈ l ∧ R a b) l m
  | _, _, .nil => .nil
  | _, _, .cons h t => .cons ⟨by simp, h⟩ ((forall₂_with_mem t).imp fun _ _ x => ⟨by simp [x.1], x.2⟩)

/-- C52: the times that remain are strictly increasing without NaN, and they are exactly the valid times
of the record. -/
theorem gps_times {α : Type} {d d' : GpsDat α} (h : removeGpsDuplicates d = .ok d') :
    Spec.StrictTimes d'.timeGps ∧ ∀ x : ℚ, some x ∈ d'.timeGps ↔ some x ∈ d.timeGps := by
  have ht : d'.timeGps = (gpsSorted d.timeGps).filter (fun t => !t.isNone) := by
    unfold removeGpsDuplicates at h
    simp only at h
    split at h
    · exact absurd h (by simp)
    · obtain rfl := Except.ok.inj h
      simp only
      have e1 : (npUniqueIndex d.timeGps).map (·.1) = gpsSorted d.timeGps := by
        unfold npUniqueIndex
        rw [List.map_map]
        exact (List.map_congr_left (fun _ _ => rfl)).trans (List.map_id _)
      rw [e1]
      split
      · have := maskOff_map (gpsSorted d.timeGps) id (fun t => t.isNone)
        rwa [List.map_id, List.map_id] at this
      · next hn =>
        symm
        apply List.filter_eq_self.mpr
        intro a ha
        by_contra hc
        apply hn
        rw [List.any_map, List.any_eq_true]
        exact ⟨a, ha, by simpa using hc⟩
  constructor
  · constructor
    · intro t hm
      rw [ht, List.mem_filter] at hm
      intro e
      rw [e] at hm
      exact absurd hm.2 (by simp)
    · rw [ht]
      apply List.Pairwise.filter
      have hp := (gpsSorted_pairwise d.timeGps).and (gpsSorted_nodup d.timeGps)
      refine hp.imp ?_
      rintro a b ⟨hle, hne⟩ x y rfl rfl
      simp only [nanLe, decide_eq_true_eq] at hle
      exact lt_of_le_of_ne hle (fun e => hne (by rw [e]))
  · intro x
    rw [ht, List.mem_filter, gpsSorted_mem]
    simp

/-- C52: every GPS variable has, for each remaining time, the value of the first record with that
time; other variables are untouched; the hardware clock is kept for the remaining records. -/
theorem gps_fields {α : Type} [Inhabited α] {d d' : GpsDat α} (h : removeGpsDuplicates d = .ok d')
    (hlen : ∀ v ∈ d.vars, v.1 = true → v.2.2.length = d.timeGps.length)
    (hl2 : d.time.length = d.timeGps.length) :
    List.Forall₂ (fun v r => r.1 = v.1 ∧ r.2.1 = v.2.1 ∧ (v.1 = false → r.2.2 = v.2.2) ∧
      (v.1 = true → r.2.2 = d'.timeGps.map fun t => v.2.2.getD (Spec.firstRecord d.timeGps t) default))
      (d.vars ++ [(true, "hdwtime_gps", d.time)]) d'.vars := by
  unfold removeGpsDuplicates at h
  simp only at h
  split at h
  · exact absurd h (by simp)
  · next vs hv =>
    obtain rfl := Except.ok.inj h
    simp only
    have hf := gpsVars_forall _ _ hv
    have hlen' : ∀ v ∈ d.vars ++ [(true, "hdwtime_gps", d.time)], v.1 = true → v.2.2.length = d.timeGps.length := by
      intro v hv ht
      rcases List.mem_append.mp hv with hv | hv
      · exact hlen v hv ht
      · rw [List.mem_singleton.mp hv]; exact hl2
    have hboth : List.Forall₂ (fun v r => v ∈ d.vars ++ [(true, "hdwtime_gps", d.time)] ∧
        (r.1 = v.1 ∧ r.2.1 = v.2.1 ∧ (v.1 = false → r.2.2 = v.2.2) ∧
        (v.1 = true → ∃ c, takeIdx v.2.2 (((npUniqueIndex d.timeGps).map (·.2))) = .ok c ∧ r.2.2 =
          if (((npUniqueIndex d.timeGps).map (·.1)).map fun t => t.isNone).any id then
            maskOff c (((npUniqueIndex d.timeGps).map (·.1)).map fun t => t.isNone) else c)))
        (d.vars ++ [(true, "hdwtime_gps", d.time)]) vs :=
      forall₂_with_mem hf
    refine hboth.imp ?_
    rintro v r ⟨hmem, h1, h2, h3, h4⟩
    refine ⟨h1, h2, h3, fun ht => ?_⟩
    obtain ⟨c, hc, hr⟩ := h4 ht
    have hidx : ∀ i ∈ (npUniqueIndex d.timeGps).map (·.2), i < v.2.2.length := by
      intro i hi
      rw [hlen' v hmem ht]
      unfold npUniqueIndex at hi
      rw [List.map_map] at hi
      obtain ⟨t, htm, rfl⟩ := List.mem_map.mp hi
      simp only [Function.comp]
      exact List.idxOf_lt_length_of_mem (gpsSorted_mem.mp htm)
    rw [takeIdx_ok _ hidx] at hc
    have hc' := (Except.ok.inj hc).symm
    have e1 : (npUniqueIndex d.timeGps).map (·.1) = gpsSorted d.timeGps := by
      unfold npUniqueIndex
      rw [List.map_map]
      exact (List.map_congr_left (fun _ _ => rfl)).trans (List.map_id _)
    have e2 : c = (gpsSorted d.timeGps).map fun t => v.2.2.getD (Spec.firstRecord d.timeGps t) default := by
      rw [hc']
      unfold npUniqueIndex
      rw [List.map_map, List.map_map]
      rfl
    rw [hr, e1, e2]
    split
    · rw [maskOff_map]
      have := maskOff_map (gpsSorted d.timeGps) id (fun t => t.isNone)
      rw [List.map_id] at this
      rw [this, List.map_id]
    · rfl

/-- Two repeated times, one missing. -/
example : removeGpsDuplicates (α := ℕ) ⟨[1, 2, 3, 4, 5], [some 30, some 20, none, some 30, some 25],
    [(true, "latitude_gps", [10, 11, 12, 13, 14]), (false, "heading", [7, 7, 7, 7, 7])]⟩
    = .ok ⟨[1, 2, 3, 4, 5], [some 20, some 25, some 30],
      [(true, "latitude_gps", [11, 14, 10]), (false, "heading", [7, 7, 7, 7, 7]),
       (true, "hdwtime_gps", [2, 5, 1])]⟩ := by
  decide +kernel

/-! ### Declination -/

section

variable {T : Type}

/-- C53 (partial: the software has applied no declination): the heading moves by the user's declination,
and so does the data in earth coordinates. -/
theorem rdi_declination_partial {fuel : ℕ} (hfuel : 3 ≤ fuel) {d : ℝ} {ds e : RDS T} {i : ℕ}
    (hd : ds.declination = some d)
    (hi : Pos ds.coordSys i) (hr : Rotatable ds) (hm : ds.orientmat ≠ none)
    (hinst : ds.coordSys = .earth → ∃ d1, rotate2 fuel .inst { ds with declination := none } = some (.ok d1))
    (he : rotate2 fuel .earth { ds with declination := none } = some (.ok e)) :
    ∃ ds' e', setRdiDeclination fuel 0 ds = some (.ok ds') ∧
      ds'.heading = ds.heading.map (fun h t => h t + d) ∧ ds'.declination = some d ∧
      rotate2 fuel .earth ds' = some (.ok e') ∧
      e'.vars = e.vars.map (fun v => { v with val := fun t => turnCW d (v.val t) }) := by
  have hr' : Rotatable { ds with declination := none } := ⟨hr.1, hr.2, hr.3, hr.4⟩
  obtain ⟨ds', e', h1, _, h3, h4⟩ := set_declination_turns_earth (d := d)
    (ds := { ds with declination := none }) hfuel hi hr' hm hinst he
  have hh := set_declination_heading (ds := { ds with declination := none }) hfuel hi hr' hm hinst h1
  have hc : declChange d { ds with declination := none } = d := by simp [declChange]
  rw [hc] at h4 hh
  refine ⟨ds', e', ?_, hh.1, hh.2, h3, h4⟩
  unfold setRdiDeclination
  rw [hd]
  simp only [ne_eq, not_true_eq_false, if_false]
  exact h1

/-- C53 is false: when the software had applied a declination, nothing is turned whatever the user asks
for; the dataset only claims to be relative to the user's value. -/
theorem rdi_declination_false {fuel : ℕ} (hfuel : 3 ≤ fuel) {d magVar : ℝ} (hmag : magVar ≠ 0)
    {ds : RDS T} {i : ℕ} (hd : ds.declination = some d)
    (hi : Pos ds.coordSys i) (hr : Rotatable ds) (hm : ds.orientmat ≠ none)
    (hinst : ds.coordSys = .earth → ∃ d1, rotate2 fuel .inst ds = some (.ok d1))
    {ds' : RDS T} (h : setRdiDeclination fuel magVar ds = some (.ok ds')) :
    ds'.heading = ds.heading ∧ ds'.declination = some d := by
  unfold setRdiDeclination at h
  rw [hd] at h
  simp only [ne_eq, hmag, not_false_eq_true, if_true] at h
  have e : ({ ds with declination := some d } : RDS T) = ds := by rw [← hd]
  rw [e] at h
  have hh := set_declination_heading hfuel hi hr hm hinst h
  have hc : declChange d ds = 0 := by simp [declChange, hd]
  rw [hc] at hh
  refine ⟨?_, hh.2⟩
  rw [hh.1]
  cases ds.heading <;> simp

/-- With a software value different from the user's, the heading is therefore not the one relative to the
user's declination. -/
theorem rdi_declination_wrong {fuel : ℕ} (hfuel : 3 ≤ fuel) {d magVar : ℝ} (hmag : magVar ≠ 0)
    (hne : d ≠ magVar) [Inhabited T] {ds : RDS T} {i : ℕ} (hd : ds.declination = some d)
    (hi : Pos ds.coordSys i) (hr : Rotatable ds) (hm : ds.orientmat ≠ none)
    (hinst : ds.coordSys = .earth → ∃ d1, rotate2 fuel .inst ds = some (.ok d1))
    {ds' : RDS T} {h : T → ℝ} (hh : ds.heading = some h)
    (hs : setRdiDeclination fuel magVar ds = some (.ok ds')) :
    ds'.heading ≠ some (fun t => h t + (d - magVar)) := by
  rw [(rdi_declination_false hfuel hmag hd hi hr hm hinst hs).1, hh]
  intro e
  have := congrFun (Option.some.inj e) default
  exact hne (by linarith)

/-- An instrument-frame dataset with the identity as orientation meets the hypotheses. -/
example (d : ℝ) : ∃ ds : RDS Unit, ds.declination = some d ∧ Pos ds.coordSys 1 ∧ Rotatable ds ∧
    ds.orientmat ≠ none ∧ ds.heading = some (fun _ => 10) ∧
    ∃ ds', setRdiDeclination 3 5 ds = some (.ok ds') := by
  refine ⟨⟨.rdi, .inst, [⟨"vel", 3, fun _ _ => 1⟩], none, some (fun _ => 1), fun _ => .error .keyError, false, none,
    some d, some (fun _ => 10), none, false⟩, rfl, .inst, ?_, by simp, rfl, ?_⟩
  · refine ⟨?_, by simp, by simp, by simp⟩
    rintro m (hm | ⟨hm, _⟩) t
    · rw [← Option.some.inj hm]; simp [Orthonormal]
    · exact absurd hm (by simp)
  · exact ⟨_, by unfold setRdiDeclination setDeclination; simp; rfl⟩

end

/-! ### Ensemble numbers -/

/-- C89 (partial: below 65536): the number stored in the file comes out. -/
theorem rdi_number_partial {n : ℕ} (h : n < 65536) : rdNumber (n % 65536) (n / 65536) = n := by
  unfold rdNumber; omega

/-- C89: in general the number `n` comes out too small by `n / 65536`, and the order of the ensembles is
kept, but not strictly. -/
theorem rdi_number_value (n : ℕ) : rdNumber (n % 65536) (n / 65536) = n - n / 65536 := by
  unfold rdNumber; omega

theorem rdi_number_mono {n m : ℕ} (h : n ≤ m) :
    rdNumber (n % 65536) (n / 65536) ≤ rdNumber (m % 65536) (m / 65536) := by
  rw [rdi_number_value, rdi_number_value]; omega

example : rdNumber (70000 % 65536) (70000 / 65536) = 69999 := by decide

/-- C89 is false from ensemble 65536 on: the number is too small by the most significant byte. -/
theorem rdi_number_short (lsb msb : ℕ) : rdNumber lsb msb + msb = lsb + 65536 * msb := by
  unfold rdNumber; ring

/-- C89 is false: two consecutive ensembles get the same number at every overflow of the low word. -/
theorem rdi_number_false (msb : ℕ) : rdNumber 65535 msb = rdNumber 0 (msb + 1) := by
  unfold rdNumber; ring

end Dolfyn
