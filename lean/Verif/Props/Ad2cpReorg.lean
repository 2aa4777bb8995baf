import Verif.Model.Ad2cpReorg
import Mathlib.Data.List.Infix
import Mathlib.Data.List.Nodup
import Mathlib.Data.List.Dedup

/-! C112: vectors of a Signature file are registered for rotation; C113: empty slots of dual profiles. -/

namespace Dolfyn

/-- The names of vector quantities. -/
def Spec.vectorNames : List String := ["vel", "accel", "angrt", "mag"]

/-- Every name a variable can have: record type, suffix, base name. -/
def rgUniverse : List ((ℕ × String) × String) :=
  rgTags.flatMap fun it => (rgFixed ++ rgOpt).map fun b => (it, b)

/-- A name as a number, for quick comparison. -/
def rgNum (k : Key) : ℕ := k.foldl (fun n c => 256 * n + c.toNat) 1

set_option maxRecDepth 100000 in
theorem rg_universe_num : (rgUniverse.map fun x => rgNum (rgKey x.2 x.1.2)).Nodup := by
  decide +kernel

theorem rg_universe_nodup : (rgUniverse.map fun x => rgKey x.2 x.1.2).Nodup := by
  apply List.Nodup.of_map rgNum
  rw [List.map_map]
  exact rg_universe_num

set_option maxRecDepth 100000 in
/-- What the prefix tests of `_reorg` select, over all names. -/
theorem rg_starts : ∀ x ∈ rgUniverse, ∀ ky ∈ ["accel", "angrt", "mag"],
    ((rgKey x.2 x.1.2 == ky.toList || keyStarts (ky ++ "_") (rgKey x.2 x.1.2)) = true ↔
      x.2 = ky ∧ x.1.1 ∉ [26, 31]) := by decide +kernel

set_option maxRecDepth 100000 in
/-- The clean-up of the raw altimeter and status variables touches no vector of the other record types. -/
theorem rg_kept : ∀ x ∈ rgUniverse, x.2 ∈ Spec.vectorNames → x.1.1 ∉ [26, 31] →
    rgAltraw "" [rgKey x.2 x.1.2] = [rgKey x.2 x.1.2] ∧
    rgAltraw "_avg" [rgKey x.2 x.1.2] = [rgKey x.2 x.1.2] ∧
    keyIn "status0" (rgKey x.2 x.1.2) = false := by decide +kernel

/-- The record type `id` is in the file and has the variable `b`. -/
def Spec.recorded (present : ℕ → Bool) (has : ℕ → String → Bool) (id : ℕ) (b : String) : Prop :=
  present id = true ∧ (b ∈ rgFixed ∨ b ∈ rgOpt ∧ has id b = true)

theorem mem_rgAll (present : ℕ → Bool) (has : ℕ → String → Bool) (k : Key) :
    k ∈ rgAll present has ↔ ∃ x ∈ rgUniverse, Spec.recorded present has x.1.1 x.2 ∧ k = rgKey x.2 x.1.2 := by
  unfold rgAll rgVars rgUniverse Spec.recorded
  simp only [List.mem_flatMap, List.mem_filter, List.mem_map, List.mem_append]
  constructor
  · rintro ⟨it, ⟨hit, hp⟩, b, hb, rfl⟩
    refine ⟨(it, b), ⟨it, hit, b, ?_, rfl⟩, ⟨hp, ?_⟩, rfl⟩
    · rcases hb with hb | hb
      · exact Or.inl hb
      · exact Or.inr hb.1
    · exact hb
  · rintro ⟨_, ⟨it, hit, b, hb, rfl⟩, ⟨hp, h2⟩, rfl⟩
    exact ⟨it, ⟨hit, hp⟩, b, h2, rfl⟩

theorem rgAltraw_sub (tag : String) (ks : List Key) : rgAltraw tag ks ⊆ ks := by
  unfold rgAltraw
  exact fun _ h => (List.mem_filter.mp h).1

theorem mem_rgAltraw (tag : String) (ks : List Key) (k : Key) (h : rgAltraw tag [k] = [k]) :
    k ∈ rgAltraw tag ks ↔ k ∈ ks := by
  have hk : k ∈ rgAltraw tag [k] := by rw [h]; simp
  unfold rgAltraw at hk ⊢
  rw [List.mem_filter] at hk ⊢
  exact ⟨fun h => h.1, fun h => ⟨h, hk.2⟩⟩

theorem rgDataVars_sub (present : ℕ → Bool) (has : ℕ → String → Bool) (k : Key)
    (h : k ∈ rgDataVars present has) : k ∈ rgAll present has := by
  unfold rgDataVars at h
  have h1 := (List.mem_filter.mp h).1
  split_ifs at h1
  · exact rgAltraw_sub _ _ (rgAltraw_sub _ _ h1)
  · exact rgAltraw_sub _ _ h1
  · exact rgAltraw_sub _ _ h1
  · exact h1

theorem mem_rgDataVars (present : ℕ → Bool) (has : ℕ → String → Bool) (x : (ℕ × String) × String)
    (hx : x ∈ rgUniverse) (hv : x.2 ∈ Spec.vectorNames) (ht : x.1.1 ∉ [26, 31]) :
    rgKey x.2 x.1.2 ∈ rgDataVars present has ↔ Spec.recorded present has x.1.1 x.2 := by
  obtain ⟨k1, k2, k3⟩ := rg_kept x hx hv ht
  have hall : rgKey x.2 x.1.2 ∈ rgAll present has ↔ Spec.recorded present has x.1.1 x.2 := by
    rw [mem_rgAll]
    constructor
    · rintro ⟨y, hy, hr, he⟩
      have := List.inj_on_of_nodup_map rg_universe_nodup hx hy he
      rw [this]; exact hr
    · intro hr; exact ⟨x, hx, hr, rfl⟩
  rw [← hall]
  unfold rgDataVars
  rw [List.mem_filter]
  simp only [k3, Bool.not_false, and_true]
  split_ifs
  · rw [mem_rgAltraw _ _ _ k2, mem_rgAltraw _ _ _ k1]
  · rw [mem_rgAltraw _ _ _ k2]
  · rw [mem_rgAltraw _ _ _ k1]
  · rfl

theorem rgAll_nodup (present : ℕ → Bool) (has : ℕ → String → Bool) : (rgAll present has).Nodup := by
  refine List.Nodup.sublist ?_ rg_universe_nodup
  unfold rgAll rgUniverse
  rw [List.map_flatMap]
  generalize rgTags = l
  induction l with
  | nil => simp
  | cons it l ih =>
    have h1 : (rgVars has it).Sublist
        (List.map (fun x => rgKey x.2 x.1.2) (List.map (fun b => (it, b)) (rgFixed ++ rgOpt))) := by
      unfold rgVars
      rw [List.map_map]
      exact (List.Sublist.append (List.Sublist.refl _) List.filter_sublist).map _
    by_cases hp : present it.1 = true
    · rw [List.filter_cons_of_pos (p := fun it : ℕ × String => present it.1) hp, List.flatMap_cons, List.flatMap_cons]
      exact h1.append ih
    · rw [List.filter_cons_of_neg (p := fun it : ℕ × String => present it.1) hp, List.flatMap_cons]
      exact ih.trans (List.sublist_append_right _ _)

theorem rgDataVars_nodup (present : ℕ → Bool) (has : ℕ → String → Bool) :
    (rgDataVars present has).Nodup := by
  unfold rgDataVars
  apply List.Nodup.filter
  have h0 := rgAll_nodup present has
  split_ifs
  · exact (h0.filter _).filter _
  · exact h0.filter _
  · exact h0.filter _
  · exact h0

set_option maxRecDepth 100000 in
/-- **C112 (part).** For every combination of record types and optional variables, provided burst records carry
velocities: the variables registered for rotation are exactly the velocities, accelerations, rotation rates
and magnetometer vectors recorded – except the single-beam velocity of the fifth beam and of echo
sounders, and except the sensors of raw altimeter records, which are dropped. -/
theorem rotate_vars_mem_partial (present : ℕ → Bool) (has : ℕ → String → Bool)
    (hvel : present 21 = true → has 21 "vel" = true) (k : Key) :
    k ∈ rgRotateVars present has ↔ ∃ x ∈ rgUniverse, x.2 ∈ Spec.vectorNames ∧ x.1.1 ∉ [26, 31] ∧
      ¬ (x.2 = "vel" ∧ x.1.1 ∈ [24, 28]) ∧ Spec.recorded present has x.1.1 x.2 ∧ k = rgKey x.2 x.1.2 := by
  have u1 : ((21, ""), "vel") ∈ rgUniverse := by decide +kernel
  have u2 : ((22, "_avg"), "vel") ∈ rgUniverse := by decide +kernel
  have u3 : ((23, "_bt"), "vel") ∈ rgUniverse := by decide +kernel
  have e1 : rgKey "vel" "" = "vel".toList := by decide +kernel
  have e2 : rgKey "vel" "_avg" = "vel_avg".toList := by decide +kernel
  have e3 : rgKey "vel" "_bt" = "vel_bt".toList := by decide +kernel
  have hvo : "vel" ∈ rgOpt := by decide
  have hvv : "vel" ∈ Spec.vectorNames := by decide
  have m2 := mem_rgDataVars present has ((22, "_avg"), "vel") u2 hvv (by decide)
  have m3 := mem_rgDataVars present has ((23, "_bt"), "vel") u3 hvv (by decide)
  simp only [e2] at m2
  simp only [e3] at m3
  unfold rgRotateVars
  simp only [List.mem_append, List.mem_flatMap, List.mem_filter]
  constructor
  · rintro (((h | ⟨ky, hky, hk, hs⟩) | h) | h)
    · split_ifs at h with hp
      · simp only [List.mem_singleton] at h
        subst h
        exact ⟨((21, ""), "vel"), u1, hvv, by decide, by decide, ⟨hp, Or.inr ⟨hvo, hvel hp⟩⟩, e1.symm⟩
      · simp at h
    · obtain ⟨x, hx, hr, rfl⟩ := (mem_rgAll present has k).mp (rgDataVars_sub _ _ _ hk)
      obtain ⟨hb, hid⟩ := (rg_starts x hx ky hky).mp hs
      refine ⟨x, hx, ?_, hid, ?_, hr, rfl⟩
      · rw [hb]
        have : ∀ s ∈ ["accel", "angrt", "mag"], s ∈ Spec.vectorNames := by decide
        exact this ky hky
      · rintro ⟨hv, -⟩
        rw [hb] at hv
        rw [hv] at hky
        exact absurd hky (by decide)
    · split_ifs at h with hp
      · simp only [List.mem_singleton] at h
        subst h
        exact ⟨((23, "_bt"), "vel"), u3, hvv, by decide, by decide, m3.mp hp, e3.symm⟩
      · simp at h
    · split_ifs at h with hp
      · simp only [List.mem_singleton] at h
        subst h
        exact ⟨((22, "_avg"), "vel"), u2, hvv, by decide, by decide, m2.mp hp, e2.symm⟩
      · simp at h
  · rintro ⟨x, hx, hv, hid, hne, hr, rfl⟩
    have hmem := (mem_rgDataVars present has x hx hv hid).mpr hr
    by_cases hb : x.2 = "vel"
    · have hids : ∀ y ∈ rgUniverse, y.2 = "vel" → y.1.1 ∉ [26, 31] → ¬ (y.2 = "vel" ∧ y.1.1 ∈ [24, 28]) →
          y = ((21, ""), "vel") ∨ y = ((22, "_avg"), "vel") ∨ y = ((23, "_bt"), "vel") := by decide +kernel
      rcases hids x hx hb hid hne with rfl | rfl | rfl
      · left; left; left
        rw [if_pos hr.1, e1]; simp
      · right
        simp only [e2] at hmem ⊢
        rw [if_pos hmem]; simp
      · left; right
        simp only [e3] at hmem ⊢
        rw [if_pos hmem]; simp
    · left; left; right
      have hky : x.2 ∈ ["accel", "angrt", "mag"] := by
        unfold Spec.vectorNames at hv
        rcases List.mem_cons.mp hv with h | h
        · exact absurd h hb
        · exact h
      exact ⟨x.2, hky, hmem, (rg_starts x hx x.2 hky).mpr ⟨rfl, hid⟩⟩

/-- **C112.** No variable is registered twice, so that none is rotated twice. -/
theorem rotate_vars_nodup (present : ℕ → Bool) (has : ℕ → String → Bool) :
    (rgRotateVars present has).Nodup := by
  have hdv := rgDataVars_nodup present has
  have hsel : ∀ ky ∈ ["accel", "angrt", "mag"], ∀ k,
      k ∈ (rgDataVars present has).filter (fun dky => dky == ky.toList || keyStarts (ky ++ "_") dky) →
      ∃ x ∈ rgUniverse, x.2 = ky ∧ k = rgKey x.2 x.1.2 := by
    intro ky hky k hk
    rw [List.mem_filter] at hk
    obtain ⟨x, hx, hr, rfl⟩ := (mem_rgAll present has k).mp (rgDataVars_sub _ _ _ hk.1)
    exact ⟨x, hx, ((rg_starts x hx ky hky).mp hk.2).1, rfl⟩
  have hmid : (["accel", "angrt", "mag"].flatMap fun ky =>
      (rgDataVars present has).filter fun dky => dky == ky.toList || keyStarts (ky ++ "_") dky).Nodup := by
    rw [List.nodup_flatMap]
    refine ⟨fun ky _ => hdv.filter _, ?_⟩
    have hdis : ∀ a ∈ ["accel", "angrt", "mag"], ∀ b ∈ ["accel", "angrt", "mag"], a ≠ b →
        List.Disjoint
          ((rgDataVars present has).filter fun dky => dky == a.toList || keyStarts (a ++ "_") dky)
          ((rgDataVars present has).filter fun dky => dky == b.toList || keyStarts (b ++ "_") dky) := by
      intro a ha b hb hab k hka hkb
      obtain ⟨x, hx, hxa, rfl⟩ := hsel a ha k hka
      obtain ⟨y, hy, hyb, he⟩ := hsel b hb _ hkb
      have := List.inj_on_of_nodup_map rg_universe_nodup hx hy he
      rw [this] at hxa
      exact hab (hxa.symm.trans hyb)
    refine List.Pairwise.imp_of_mem (R := fun a b => a ≠ b) ?_ (by decide)
    intro a b ha hb hab
    exact hdis a ha b hb hab
  have hnv : ∀ b : Key, b ∈ ["vel".toList, "vel_bt".toList, "vel_avg".toList] →
      b ∉ (["accel", "angrt", "mag"].flatMap fun ky =>
      (rgDataVars present has).filter fun dky => dky == ky.toList || keyStarts (ky ++ "_") dky) := by
    intro b hb hin
    rw [List.mem_flatMap] at hin
    obtain ⟨ky, hky, hk⟩ := hin
    have hk2 := (List.mem_filter.mp hk).2
    have : ∀ b ∈ ["vel".toList, "vel_bt".toList, "vel_avg".toList], ∀ ky ∈ ["accel", "angrt", "mag"],
        (b == ky.toList || keyStarts (ky ++ "_") b) = false := by decide +kernel
    rw [this b hb ky hky] at hk2
    cases hk2
  unfold rgRotateVars
  generalize hM : (["accel", "angrt", "mag"].flatMap fun ky =>
      (rgDataVars present has).filter fun dky => dky == ky.toList || keyStarts (ky ++ "_") dky) = M at hmid hnv
  simp only [hM]
  have n1 := hnv "vel".toList (by decide)
  have n2 := hnv "vel_bt".toList (by decide)
  have n3 := hnv "vel_avg".toList (by decide)
  have d12 : "vel".toList ≠ "vel_bt".toList := by decide
  have d13 : "vel".toList ≠ "vel_avg".toList := by decide
  have d23 : "vel_bt".toList ≠ "vel_avg".toList := by decide
  generalize "vel".toList = a at *
  generalize "vel_bt".toList = b at *
  generalize "vel_avg".toList = c at *
  have perm : ∀ (p q r : Prop) [Decidable p] [Decidable q] [Decidable r],
      ((if p then [a] else []) ++ M ++ (if q then [b] else []) ++ (if r then [c] else [])).Nodup := by
    intro p q r _ _ _
    split_ifs <;> simp only [List.append_nil, List.nil_append, List.cons_append, List.nodup_append,
      List.nodup_cons, List.mem_append, List.mem_singleton, hmid, true_and, and_true] <;> aesop
  exact perm _ _ _

/-- A file with burst and averaged profiles, fifth beam and bottom track. -/
example : rgRotateVars (fun id => id ∈ [21, 22, 23, 24]) (fun id b => b = "vel" || (id == 21 && b = "angrt")) =
    ["vel", "accel", "accel_avg", "accel_bt", "accel_b5", "angrt", "mag", "mag_avg", "mag_bt", "mag_b5", "vel_bt",
      "vel_avg"].map String.toList := by decide +kernel

/-- **C112.** Burst records without velocities still register `vel`, a variable the dataset does not have. -/
theorem rotate_vars_missing_false : ∃ (present : ℕ → Bool) (has : ℕ → String → Bool),
    "vel".toList ∈ rgRotateVars present has ∧ "vel".toList ∉ rgDataVars present has :=
  ⟨fun id => id = 21, fun _ b => b = "amp" || b = "status0", by decide +kernel, by decide +kernel⟩

/-- **C112 (part).** The coordinate system of the dataset is the frame of the recorded velocities, burst and
averaged, when both were recorded in the same axes. Missing: files that record them in different axes. -/
theorem coord_sys_shared_partial (present : ℕ → Bool) (cy : ℕ → RgAxes)
    (h : present 21 = true ∨ present 22 = true)
    (hs : present 21 = true → present 22 = true → cy 21 = cy 22) :
    ∃ f, rgCoordSys present cy = .ok f ∧ (present 21 = true → f = rgFrame (cy 21)) ∧
      (present 22 = true → f = rgFrame (cy 22)) := by
  unfold rgCoordSys
  by_cases h1 : present 21 = true
  · rw [if_pos h1]
    exact ⟨_, rfl, fun _ => rfl, fun h2 => by rw [hs h1 h2]⟩
  · rw [if_neg h1]
    have h2 : present 22 = true := h.resolve_left h1
    rw [if_pos h2]
    exact ⟨_, rfl, fun h => absurd h h1, fun _ => rfl⟩

/-- **C112.** Burst velocities along the beams with averages in earth coordinates: both are registered for
rotation, and the dataset claims both are in beam coordinates. -/
theorem coord_sys_mixed_false : ∃ (present : ℕ → Bool) (has : ℕ → String → Bool) (cy : ℕ → RgAxes),
    rgCoordSys present cy = .ok "beam" ∧ cy 22 = .ENU ∧ "vel_avg".toList ∈ rgRotateVars present has :=
  ⟨fun id => id = 21 || id = 22, fun _ b => b = "vel", fun id => if id = 21 then .beam else .ENU,
    by decide +kernel, by decide, by decide +kernel⟩

/-- **C112.** A file with neither burst nor averaged profiles (fifth beam, echo sounder or bottom track alone)
cannot be read. -/
theorem coord_sys_needs_profiles (present : ℕ → Bool) (cy : ℕ → RgAxes) (h1 : present 21 = false)
    (h2 : present 22 = false) : rgCoordSys present cy = .error .keyError := by
  unfold rgCoordSys
  simp [h1, h2]

/-- **C112.** Three bits of orientation: every code gives an orientation except 6. -/
theorem orientation_codes (code : ℕ) (h : code < 8) :
    (∃ s, rgOrient code = .ok s) ↔ code ≠ 6 := by
  have : ∀ c < 8, (match rgOrient c with | .ok _ => true | .error _ => false) = decide (c ≠ 6) := by decide
  have h' := this code h
  cases hc : rgOrient code with
  | ok s => rw [hc] at h'; simp at h' ⊢; exact h'
  | error e => rw [hc] at h'; simp at h' ⊢; exact h'

/-- **C113.** Removing the slots left empty by the other profile keeps every recorded slot, in order, and keeps all
variables of the record type aligned: one list of slots serves them all. -/
theorem clean_skips_spec (n : ℕ) (ver : ℕ → ℕ) : ∃ slots : List ℕ, slots.Pairwise (· < ·) ∧
    (∀ k, k ∈ slots ↔ k < n ∧ ver k ≠ 0) ∧
    ∀ {α : Type} (v : ℕ → α), cleanSkips n ver v = slots.map v := by
  refine ⟨(List.range n).filter fun k => ver k ≠ 0, ?_, ?_, ?_⟩
  · exact List.pairwise_lt_range.filter _
  · intro k; simp
  · intro α v; rfl

example : cleanSkips 5 (fun k => if k % 2 = 0 then 3 else 0) (fun k => 10 * k) = [0, 20, 40] := by decide

end Dolfyn
