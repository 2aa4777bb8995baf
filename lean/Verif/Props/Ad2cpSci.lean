import Verif.Model.Ad2cpSci
import Verif.Props.Ad2cp

/-! C142: AD2CP data in physical units. -/

namespace Dolfyn

/-- Physical value of a stored number: metres, metres per second, degrees Celsius, decibar, degrees, volt, microtesla,
decibel, seconds, radians per second. `k` is the exponent of the velocity, `blank` the unit of the blanking distance. -/
noncomputable def Spec.adPhysical (blank : ℝ) (k : ℤ) (name : AdVar) (x : ℝ) : ℝ :=
  match name with
  | .cSound => x / 10
  | .temp | .heading | .pitch | .roll | .tempClock => x / 100
  | .pressure | .cellSize | .ambigVel | .dist => x / 1000
  | .blankDist => x * blank
  | .tempPress => x / 5 - 4
  | .batt | .mag | .pressStd => x / 10
  | .accel => x / 16384 * 9.81
  | .amp => x / 2
  | .echo | .leQuality | .astQuality | .pitchStd | .rollStd | .headingStd => x / 100
  | .astOffsetTime | .dsampAlt => x / 10000
  | .angrt => x * (Real.pi / 180)
  | .vel => x * (10 : ℝ) ^ k
  | _ => x

/-- What `sci_data` does to one number. -/
noncomputable def adFunc (df : AdDef) (x : ℝ) : ℝ :=
  match df.sci with
  | none => x
  | some (s, o) => adLinR s o x

theorem adLinR_eq (s o x : ℝ) : adLinR s o x = (x + o) * s := by
  unfold adLinR
  split
  · rfl
  · rename_i h
    push Not at h
    rw [h.1, h.2]; ring

theorem adInto_other (fl : ℤ → ℝ) (dfs : List AdDef) (fs : List AdField) (its : List AdItem) (d : AdData)
    (nm : AdVar) (h : nm ∉ dfs.map AdDef.name) : adInto fl dfs fs its d nm = d nm := by
  induction dfs generalizing fs its d with
  | nil => rw [adInto.eq_def]
  | cons df dfs ih =>
    rcases fs with _ | ⟨fd, fs⟩
    · rw [adInto.eq_def]
    · rcases its with _ | ⟨it, its⟩
      · rw [adInto.eq_def]
      · rw [adInto, ih _ _ _ (by simp at h ⊢; tauto), Function.update_of_ne]
        simp at h
        exact h.1

theorem adInto_get (fl : ℤ → ℝ) (dfs : List AdDef) (hnd : (dfs.map AdDef.name).Nodup) (fs : List AdField)
    (its : List AdItem) (d : AdData) (i : ℕ) (df : AdDef) (fd : AdField) (it : AdItem) (h1 : dfs[i]? = some df)
    (h2 : fs[i]? = some fd) (h3 : its[i]? = some it) :
    adInto fl dfs fs its d df.name = some (it.elems.map (adNumber fl fd.fmt)) := by
  induction i generalizing dfs fs its d with
  | zero =>
    rcases dfs with _ | ⟨df', dfs⟩ <;> rcases fs with _ | ⟨fd', fs⟩ <;> rcases its with _ | ⟨it', its⟩ <;>
      simp at h1 h2 h3
    subst h1 h2 h3
    rw [List.map_cons, List.nodup_cons] at hnd
    rw [adInto, adInto_other _ _ _ _ _ _ hnd.1, Function.update_self]
  | succ i ih =>
    rcases dfs with _ | ⟨df', dfs⟩ <;> rcases fs with _ | ⟨fd', fs⟩ <;> rcases its with _ | ⟨it', its⟩ <;>
      simp at h1 h2 h3
    rw [List.map_cons, List.nodup_cons] at hnd
    rw [adInto]
    exact ih dfs hnd.2 fs its _ (by simpa using h1) (by simpa using h2) (by simpa using h3)

theorem adSciDefs_spec (dfs : List AdDef) (hnd : (dfs.map AdDef.name).Nodup) (d : AdData)
    (hd : ∀ df ∈ dfs, ∃ x, d df.name = some x) :
    ∃ d', adSciDefs dfs d = .ok d' ∧ (∀ nm, nm ∉ dfs.map AdDef.name → d' nm = d nm) ∧
      ∀ df ∈ dfs, d' df.name = (d df.name).map fun x => x.map (adFunc df) := by
  induction dfs generalizing d with
  | nil => exact ⟨d, rfl, fun _ _ => rfl, by simp⟩
  | cons df dfs ih =>
    rw [List.map_cons, List.nodup_cons] at hnd
    have hne : ∀ x ∈ dfs, x.name ≠ df.name := fun x hx h => hnd.1 (h ▸ List.mem_map_of_mem hx)
    obtain ⟨x, hx⟩ := hd df (by simp)
    rcases hs : df.sci with _ | ⟨s, o⟩
    · obtain ⟨d', h1, h2, h3⟩ := ih hnd.2 d (fun y hy => hd y (by simp [hy]))
      refine ⟨d', by rw [adSciDefs, hs]; exact h1, fun nm hnm => h2 nm (by simp at hnm ⊢; tauto), ?_⟩
      intro y hy
      rcases List.mem_cons.mp hy with rfl | hy
      · rw [h2 _ hnd.1, hx]
        have : adFunc y = id := by funext z; simp [adFunc, hs]
        simp [this]
      · exact h3 y hy
    · obtain ⟨d', h1, h2, h3⟩ := ih hnd.2 (Function.update d df.name (some (x.map (adLinR s o)))) (by
        intro y hy
        rw [Function.update_of_ne (hne y hy)]
        exact hd y (by simp [hy]))
      refine ⟨d', by rw [adSciDefs, hs]; simp only [hx]; exact h1, ?_, ?_⟩
      · intro nm hnm
        simp only [List.map_cons, List.mem_cons, not_or] at hnm
        rw [h2 nm hnm.2, Function.update_of_ne hnm.1]
      · intro y hy
        rcases List.mem_cons.mp hy with rfl | hy
        · rw [h2 _ hnd.1, Function.update_self, hx]
          have : adFunc y = adLinR s o := by funext z; simp [adFunc, hs]
          simp [this]
        · rw [h3 y hy, Function.update_of_ne (hne y hy)]

theorem item_elems (vs : List ℤ) : (Spec.item vs).elems = vs := by
  rcases vs with _ | ⟨a, _ | ⟨b, l⟩⟩ <;> rfl

theorem encodes_length_vss {fs : List AdField} {vss : List (List ℤ)} {bs : List ℕ}
    (h : Spec.Encodes fs vss bs) : vss.length = fs.length := by
  induction h with
  | nil => rfl
  | cons _ _ _ _ _ ih => simp [ih]

/-- The whole way for any definition list without repeated names. -/
theorem adPing_spec (fl : ℤ → ℝ) (dfs : List AdDef) (hnd : (dfs.map AdDef.name).Nodup) (fs : List AdField)
    (hlen : dfs.length = fs.length) (vss : List (List ℤ)) (bs : List ℕ) (hE : Spec.Encodes fs vss bs)
    (rest : List ℕ) :
    ∃ d, adPing fl dfs fs (bs ++ rest) = .ok (adVelScaled d, rest) ∧
      ∀ (i : ℕ) (df : AdDef) (fd : AdField) (vs : List ℤ), dfs[i]? = some df → fs[i]? = some fd → vss[i]? = some vs →
        d df.name = some (vs.map fun v => adFunc df (adNumber fl fd.fmt v)) := by
  have hlv := encodes_length_vss hE
  have hread := adRead_encodes hE rest
  have hget : ∀ (i : ℕ) (df : AdDef) (fd : AdField) (vs : List ℤ), dfs[i]? = some df → fs[i]? = some fd →
      vss[i]? = some vs → adInto fl dfs fs (vss.map Spec.item) (fun _ => none) df.name =
        some (vs.map (adNumber fl fd.fmt)) := by
    intro i df fd vs h1 h2 h3
    rw [adInto_get fl dfs hnd fs (vss.map Spec.item) (fun _ => none) i df fd (Spec.item vs) h1 h2
      (by rw [List.getElem?_map, h3]; rfl), item_elems]
  obtain ⟨d', h1, h2, h3⟩ := adSciDefs_spec dfs hnd (adInto fl dfs fs (vss.map Spec.item) fun _ => none) (by
    intro df hdf
    obtain ⟨i, hi, he⟩ := List.getElem_of_mem hdf
    exact ⟨_, hget i df (fs[i]'(by omega)) (vss[i]'(by omega)) (by rw [← he]; simp) (by simp) (by simp)⟩)
  refine ⟨d', ?_, ?_⟩
  · unfold adPing adSci
    rw [hread]
    simp only [bind, Except.bind, h1, pure, Except.pure]
  · intro i df fd vs e1 e2 e3
    rw [h3 df (List.mem_of_getElem? e1), hget i df fd vs e1 e2 e3]
    simp

theorem adPing_units (fl : ℤ → ℝ) (phys : AdVar → ℝ → ℝ) (k : ℤ) (hphys : ∀ x, phys .vel x = x * (10 : ℝ) ^ k)
    (dfs : List AdDef) (hnd : (dfs.map AdDef.name).Nodup)
    (hu : ∀ df ∈ dfs, ∀ x, df.name ≠ .vel → adFunc df x = phys df.name x)
    (hv : ∀ df ∈ dfs, df.name = .vel → df.sci = none)
    (hscale : dfs[28]? = some (adPlain .velScale)) (fs : List AdField) (hfs : fs[28]? = some ⟨.b, 0, 1⟩)
    (hlen : dfs.length = fs.length) (vss : List (List ℤ)) (bs : List ℕ) (hE : Spec.Encodes fs vss bs)
    (hk : vss[28]? = some [k]) (rest : List ℕ) :
    ∃ d, adPing fl dfs fs (bs ++ rest) = .ok (d, rest) ∧
      ∀ (i : ℕ) (df : AdDef) (fd : AdField) (vs : List ℤ), dfs[i]? = some df → fs[i]? = some fd → vss[i]? = some vs →
        d df.name = some (vs.map fun v => phys df.name (if fd.fmt = .f then fl v else v)) := by
  obtain ⟨d, h1, h2⟩ := adPing_spec fl dfs hnd fs hlen vss bs hE rest
  refine ⟨_, h1, ?_⟩
  intro i df fd vs e1 e2 e3
  have hd := h2 i df fd vs e1 e2 e3
  have hs : d .velScale = some [(k : ℝ)] := by
    have := h2 28 (adPlain .velScale) ⟨.b, 0, 1⟩ [k] hscale hfs hk
    simpa [adPlain, adFunc, adNumber] using this
  have hmem := List.mem_of_getElem? e1
  by_cases hvel : df.name = .vel
  · rw [hvel] at hd ⊢
    unfold adVelScaled
    simp only [hd, hs, Function.update_self, List.map_map]
    congr 1
    apply List.map_congr_left
    intro v _
    simp only [Function.comp, adFunc, hv df hmem hvel, hphys, Real.rpow_intCast, adNumber]
  · have : adVelScaled d df.name = d df.name := by
      unfold adVelScaled
      rw [hs]
      rcases d .vel with _ | v
      · rfl
      · exact Function.update_of_ne hvel _ _
    rw [this, hd]
    congr 1
    apply List.map_congr_left
    intro v _
    rw [hu df hmem _ hvel]
    rfl

theorem ite_sublist {α : Type} (b : Bool) (l : List α) : (if b then l else []).Sublist l := by
  cases b
  · exact List.nil_sublist l
  · exact List.Sublist.refl l

/-- All definitions of a velocity record. -/
noncomputable def adBurstAll : List AdDef :=
  adBurstHdrDefs 0.01 ++ [adPlain .vel] ++ [adScale .amp 0.5] ++ [adPlain .corr] ++
    [adScale .leDist 1, adScale .leQuality 0.01, adPlain .statusAlt] ++
    [adScale .astDist 1, adScale .astQuality 0.01, adScale .astOffsetTime 0.0001, adPlain .pressureAlt,
      adPlain .spare] ++
    [adPlain .nsampAlt, adScale .dsampAlt 0.0001, adPlain .sampAlt] ++ adAhrsDefs ++ [adPlain .percentGood] ++
    [adScale .pitchStd 0.01, adScale .rollStd 0.01, adScale .headingStd 0.01, adScale .pressStd 0.1,
      adPlain .stdSpare]

theorem adBurstDefs_sub (config : ℕ) : (adBurstDefs config).Sublist adBurstAll := by
  unfold adBurstDefs adBurstAll
  repeat' apply List.Sublist.append
  all_goals first | exact List.Sublist.refl _ | exact ite_sublist _ _

noncomputable def adEchoAll : List AdDef := adBurstHdrDefs 0.001 ++ [adScale .echo 0.01] ++ adAhrsDefs

theorem adEchoDefs_sub (config : ℕ) : (adEchoDefs config).Sublist adEchoAll := by
  unfold adEchoDefs adEchoAll
  repeat' apply List.Sublist.append
  all_goals first | exact List.Sublist.refl _ | exact ite_sublist _ _

noncomputable def adBtAll : List AdDef :=
  adBtHdrDefs ++ [adPlain .vel] ++ [adScale .dist 0.001] ++ [adPlain .fom] ++ adAhrsDefs

theorem adBtDefs_sub (config : ℕ) : (adBtDefs config).Sublist adBtAll := by
  unfold adBtDefs adBtAll
  repeat' apply List.Sublist.append
  all_goals first | exact List.Sublist.refl _ | exact ite_sublist _ _

theorem adBurstAll_nodup : (adBurstAll.map AdDef.name).Nodup := by
  simp only [adBurstAll, adBurstHdrDefs, adAhrsDefs, adPlain, adScale, List.map_append, List.map_cons, List.map_nil]
  decide

theorem adEchoAll_nodup : (adEchoAll.map AdDef.name).Nodup := by
  simp only [adEchoAll, adBurstHdrDefs, adAhrsDefs, adPlain, adScale, List.map_append, List.map_cons, List.map_nil]
  decide

theorem adBtAll_nodup : (adBtAll.map AdDef.name).Nodup := by
  simp only [adBtAll, adBtHdrDefs, adAhrsDefs, adPlain, adScale, List.map_append, List.map_cons, List.map_nil]
  decide

theorem adBurstAll_units : ∀ df ∈ adBurstAll, ∀ x k, df.name ≠ .vel →
    adFunc df x = Spec.adPhysical (1 / 100) k df.name x := by
  simp only [adBurstAll, adBurstHdrDefs, adAhrsDefs, adPlain, adScale, List.forall_mem_append, List.forall_mem_cons]
  simp only [List.not_mem_nil, false_imp_iff, implies_true, and_true]
  and_intros
  all_goals
    intros
    first
      | contradiction
      | rfl
      | (simp only [adFunc, adLinR_eq, Spec.adPhysical]; ring)

theorem adBurstAll_vel : ∀ df ∈ adBurstAll, df.name = .vel → df.sci = none := by
  simp only [adBurstAll, adBurstHdrDefs, adAhrsDefs, adPlain, adScale, List.forall_mem_append, List.forall_mem_cons]
  simp

theorem adEchoAll_units : ∀ df ∈ adEchoAll, ∀ x k, df.name ≠ .vel →
    adFunc df x = Spec.adPhysical (1 / 1000) k df.name x := by
  simp only [adEchoAll, adBurstHdrDefs, adAhrsDefs, adPlain, adScale, List.forall_mem_append, List.forall_mem_cons]
  simp only [List.not_mem_nil, false_imp_iff, implies_true, and_true]
  and_intros
  all_goals
    intros
    first
      | contradiction
      | rfl
      | (simp only [adFunc, adLinR_eq, Spec.adPhysical]; ring)

theorem adEchoAll_vel : ∀ df ∈ adEchoAll, df.name = .vel → df.sci = none := by
  simp only [adEchoAll, adBurstHdrDefs, adAhrsDefs, adPlain, adScale, List.forall_mem_append, List.forall_mem_cons]
  simp

theorem adBtAll_units : ∀ df ∈ adBtAll, ∀ x k, df.name ≠ .vel → df.name ≠ .mag →
    adFunc df x = Spec.adPhysical (1 / 100) k df.name x := by
  simp only [adBtAll, adBtHdrDefs, adAhrsDefs, adPlain, adScale, List.forall_mem_append, List.forall_mem_cons]
  simp only [List.not_mem_nil, false_imp_iff, implies_true, and_true]
  and_intros
  all_goals
    intros
    first
      | contradiction
      | rfl
      | (simp only [adFunc, adLinR_eq, Spec.adPhysical]; ring)

theorem adBtAll_vel : ∀ df ∈ adBtAll, df.name = .vel → df.sci = none := by
  simp only [adBtAll, adBtHdrDefs, adAhrsDefs, adPlain, adScale, List.forall_mem_append, List.forall_mem_cons]
  simp


/-- **C142, velocity records.** A velocity record with the numbers `vss` in its fields is read completely and every variable
gets its numbers in physical units: the factor and offset of the table once, velocities times ten to the power of the scale
stored in the same record. -/
theorem ad_burst_units (fl : ℤ → ℝ) (config nb nc : ℕ) (fs : List AdField)
    (hfs : adBurstStruct config nb nc = .ok fs) (vss : List (List ℤ)) (bs : List ℕ)
    (hE : Spec.Encodes fs vss bs) (k : ℤ) (hk : vss[28]? = some [k]) (rest : List ℕ) :
    ∃ d, adPing fl (adBurstDefs config) fs (bs ++ rest) = .ok (d, rest) ∧
      (adBurstDefs config).length = vss.length ∧
      ∀ (i : ℕ) (df : AdDef) (fd : AdField) (vs : List ℤ), (adBurstDefs config)[i]? = some df → fs[i]? = some fd →
        vss[i]? = some vs →
        d df.name = some (vs.map fun v => Spec.adPhysical (1 / 100) k df.name (if fd.fmt = .f then fl v else v)) := by
  have hsub := adBurstDefs_sub config
  have hlen : (adBurstDefs config).length = fs.length := by
    unfold adBurstStruct at hfs
    split at hfs
    · cases hfs
    · cases hfs
      simp [adBurstDefs, apply_ite List.length, adBurstHdrDefs, adBurstHdr, adAhrsDefs, adAhrs]
  have h28 : fs[28]? = some ⟨.b, 0, 1⟩ := by
    unfold adBurstStruct at hfs
    split at hfs
    · cases hfs
    · cases hfs
      rfl
  obtain ⟨d, h1, h2⟩ := adPing_units fl (Spec.adPhysical (1 / 100) k) k (fun _ => rfl) (adBurstDefs config)
    (adBurstAll_nodup.sublist (hsub.map _)) (fun df h x => adBurstAll_units df (hsub.subset h) x k)
    (fun df h => adBurstAll_vel df (hsub.subset h)) rfl fs h28 hlen vss bs hE hk rest
  exact ⟨d, h1, by rw [hlen, encodes_length_vss hE], h2⟩

/-- **C142, echo sounder records.** As for velocity records; the blanking distance is in millimetres. -/
theorem ad_echo_units (fl : ℤ → ℝ) (config nc : ℕ) (fs : List AdField)
    (hfs : adEchoStruct config nc = .ok fs) (vss : List (List ℤ)) (bs : List ℕ)
    (hE : Spec.Encodes fs vss bs) (k : ℤ) (hk : vss[28]? = some [k]) (rest : List ℕ) :
    ∃ d, adPing fl (adEchoDefs config) fs (bs ++ rest) = .ok (d, rest) ∧
      (adEchoDefs config).length = vss.length ∧
      ∀ (i : ℕ) (df : AdDef) (fd : AdField) (vs : List ℤ), (adEchoDefs config)[i]? = some df → fs[i]? = some fd →
        vss[i]? = some vs →
        d df.name = some (vs.map fun v => Spec.adPhysical (1 / 1000) k df.name (if fd.fmt = .f then fl v else v)) := by
  have hsub := adEchoDefs_sub config
  have hlen : (adEchoDefs config).length = fs.length := by
    unfold adEchoStruct at hfs
    split at hfs
    · cases hfs
    · cases hfs
      simp [adEchoDefs, apply_ite List.length, adBurstHdrDefs, adBurstHdr, adAhrsDefs, adAhrs]
  have h28 : fs[28]? = some ⟨.b, 0, 1⟩ := by
    unfold adEchoStruct at hfs
    split at hfs
    · cases hfs
    · cases hfs
      rfl
  obtain ⟨d, h1, h2⟩ := adPing_units fl (Spec.adPhysical (1 / 1000) k) k (fun _ => rfl) (adEchoDefs config)
    (adEchoAll_nodup.sublist (hsub.map _)) (fun df h x => adEchoAll_units df (hsub.subset h) x k)
    (fun df h => adEchoAll_vel df (hsub.subset h)) rfl fs h28 hlen vss bs hE hk rest
  exact ⟨d, h1, by rw [hlen, encodes_length_vss hE], h2⟩

/-- **C142, bottom-track records.** As for velocity records, for all variables except the magnetometer. -/
theorem ad_bt_units_partial (fl : ℤ → ℝ) (config nb : ℕ) (vss : List (List ℤ)) (bs : List ℕ)
    (hE : Spec.Encodes (adBtStruct config nb) vss bs) (k : ℤ) (hk : vss[28]? = some [k]) (rest : List ℕ) :
    ∃ d, adPing fl (adBtDefs config) (adBtStruct config nb) (bs ++ rest) = .ok (d, rest) ∧
      (adBtDefs config).length = vss.length ∧
      ∀ (i : ℕ) (df : AdDef) (fd : AdField) (vs : List ℤ), (adBtDefs config)[i]? = some df →
        (adBtStruct config nb)[i]? = some fd → vss[i]? = some vs →
        d df.name = some (vs.map fun v : ℤ => if df.name = .mag then (if fd.fmt = .f then fl v else v) else
          Spec.adPhysical (1 / 100) k df.name (if fd.fmt = .f then fl v else v)) := by
  have hsub := adBtDefs_sub config
  have hlen : (adBtDefs config).length = (adBtStruct config nb).length := by
    simp [adBtDefs, adBtStruct, apply_ite List.length, adBtHdrDefs, adBtHdr, adAhrsDefs, adAhrs]
  have hmag : ∀ df ∈ adBtAll, df.name = .mag → df.sci = none := by
    simp only [adBtAll, adBtHdrDefs, adAhrsDefs, adPlain, adScale, List.forall_mem_append, List.forall_mem_cons]
    simp
  obtain ⟨d, h1, h2⟩ := adPing_units fl
    (fun nm x => if nm = .mag then x else Spec.adPhysical (1 / 100) k nm x) k (fun _ => rfl) (adBtDefs config)
    (adBtAll_nodup.sublist (hsub.map _)) (fun df h x hv => by
      by_cases hm : df.name = .mag
      · simp only [if_pos hm, adFunc, hmag df (hsub.subset h) hm]
      · simp only [if_neg hm]
        exact adBtAll_units df (hsub.subset h) x k hv hm)
    (fun df h => adBtAll_vel df (hsub.subset h)) rfl (adBtStruct config nb) rfl hlen vss bs hE hk rest
  exact ⟨d, h1, by rw [hlen, encodes_length_vss hE], h2⟩

/-- **C142 is false for the magnetometer in bottom-track records.** Its values are labelled microtesla like those in velocity
records, but the same stored numbers come out ten times larger. -/
theorem ad_bt_mag_false (fl : ℤ → ℝ) (config nb : ℕ) (vss : List (List ℤ)) (bs : List ℕ)
    (hE : Spec.Encodes (adBtStruct config nb) vss bs) (k : ℤ) (hk : vss[28]? = some [k]) (m : List ℤ)
    (hm : vss[23]? = some m) (rest : List ℕ) :
    ∃ d, adPing fl (adBtDefs config) (adBtStruct config nb) (bs ++ rest) = .ok (d, rest) ∧
      d .mag = some (m.map fun v : ℤ => 10 * Spec.adPhysical (1 / 100) k .mag (v : ℝ)) := by
  obtain ⟨d, h1, -, h2⟩ := ad_bt_units_partial fl config nb vss bs hE k hk rest
  refine ⟨d, h1, ?_⟩
  have h3 := h2 23 (adPlain .mag) ⟨.h, 0, 3⟩ m rfl rfl hm
  rw [show (adPlain .mag).name = AdVar.mag from rfl] at h3
  rw [h3, Option.some.injEq]
  apply List.map_congr_left
  intro v _
  simp only [Spec.adPhysical, if_true]
  rw [if_neg (by decide)]
  ring

theorem encodes_range {fs : List AdField} {vss : List (List ℤ)} {bs : List ℕ} (h : Spec.Encodes fs vss bs) :
    ∀ (i : ℕ) (fd : AdField) (vs : List ℤ), fs[i]? = some fd → vss[i]? = some vs →
      ∀ v ∈ vs, Spec.inRange fd.fmt v := by
  induction h with
  | nil => intro i fd vs h; simp at h
  | @cons fd fs vs vss pad r hn h1 hr hp h ih =>
    intro i fd' vs' e1 e2
    rcases i with _ | i
    · simp at e1 e2
      subst e1 e2
      exact hr
    · exact ih i fd' vs' (by simpa using e1) (by simpa using e2)

/-- **C142 is false below 0 °C.** The water temperature of a velocity record is never negative, whatever its bytes are;
a stored -1 °C (-100 in two bytes) is read as 654.36 °C. -/
theorem ad_cold_false (fl : ℤ → ℝ) (config nb nc : ℕ) (fs : List AdField)
    (hfs : adBurstStruct config nb nc = .ok fs) (vss : List (List ℤ)) (bs : List ℕ)
    (hE : Spec.Encodes fs vss bs) (k : ℤ) (hk : vss[28]? = some [k]) (rest : List ℕ) (t : ℤ)
    (ht : vss[12]? = some [t]) :
    (∃ d x, adPing fl (adBurstDefs config) fs (bs ++ rest) = .ok (d, rest) ∧ d .temp = some [x] ∧ 0 ≤ x) ∧
      adVal .H (Spec.encVal .h (-100)) = 65436 := by
  have h12 : fs[12]? = some ⟨.H, 0, 1⟩ := by
    unfold adBurstStruct at hfs
    split at hfs
    · cases hfs
    · cases hfs
      rfl
  obtain ⟨d, h1, -, h2⟩ := ad_burst_units fl config nb nc fs hfs vss bs hE k hk rest
  have h3 := h2 12 (adScale .temp 0.01) ⟨.H, 0, 1⟩ [t] rfl h12 ht
  rw [show (adScale .temp 0.01).name = AdVar.temp from rfl] at h3
  have hr := encodes_range hE 12 _ _ h12 ht t (by simp)
  refine ⟨⟨d, (t : ℝ) / 100, h1, ?_, ?_⟩, by decide⟩
  · rw [h3]
    simp [Spec.adPhysical]
  · have : 0 ≤ t := by
      have := hr
      simp [Spec.inRange, AdFmt.signed] at this
      exact this.1
    have : (0 : ℝ) ≤ t := by exact_mod_cast this
    positivity

theorem encodes_exists (fs : List AdField) (vss : List (List ℤ)) (h : List.Forall₂ (fun fd vs =>
    vs.length = fd.n ∧ 1 ≤ fd.n ∧ ∀ v ∈ vs, Spec.inRange fd.fmt v) fs vss) : ∃ bs, Spec.Encodes fs vss bs := by
  induction h with
  | nil => exact ⟨[], .nil⟩
  | @cons fd vs fs vss h _ ih =>
    obtain ⟨r, hr⟩ := ih
    exact ⟨_, .cons (pad := List.replicate fd.pad 0) h.1 h.2.1 h.2.2 (by simp) hr⟩

/-- A velocity record of two beams and one cell with the scale -3. -/
example : ∃ fs vss bs, adBurstStruct 32 2 1 = .ok fs ∧ Spec.Encodes fs vss bs ∧ vss[28]? = some [-3] ∧
    vss[36]? = some [250, -40] := by
  obtain ⟨bs, h⟩ := encodes_exists (adBurstHdr ++ [⟨.h, 0, 2⟩])
    [[0], [0], [0], [0], [0], [0], [0], [0], [0], [0], [0], [0], [0], [0], [0], [0], [0], [0], [0], [0], [0], [0], [0],
      [0, 0, 0], [0, 0, 0], [0], [0], [0], [-3], [0], [0], [0], [0], [0], [0], [0], [250, -40]]
    (by simp [adBurstHdr, Spec.inRange, AdFmt.signed, AdFmt.size])
  exact ⟨_, _, bs, rfl, h, rfl, rfl⟩

end Dolfyn
