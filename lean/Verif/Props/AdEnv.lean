import Verif.Model.AdEnv
import Verif.Props.Ad2cpFile
import Verif.Props.Ad2cpBits

/-! C159: sound speed, temperature, pressure and attitude of Signature pings with a fifth beam. -/

namespace Dolfyn

/-- The sensors that are averaged. -/
def Spec.adMeanVars : List AdVar := [.cSound, .temp, .pressure, .tempPress, .tempClock, .batt]

/-- The angles. -/
def Spec.adAngleVars : List AdVar := [.heading, .pitch, .roll]

/-- Where the number of a variable is in a velocity record. -/
def Spec.adIndex : AdVar → ℕ
  | .cSound => 11 | .temp => 12 | .pressure => 13 | .heading => 14 | .pitch => 15 | .roll => 16 | .tempPress => 21
  | .batt => 22 | .tempClock => 31 | _ => 0

theorem adBurst_at (config : ℕ) (v : AdVar) (hv : v ∈ Spec.adMeanVars ++ Spec.adAngleVars) :
    ∃ df, (adBurstDefs config)[Spec.adIndex v]? = some df ∧ df.name = v := by
  have h : ∀ (i : ℕ) (df : AdDef), (adBurstHdrDefs 0.01)[i]? = some df → (adBurstDefs config)[i]? = some df := by
    intro i df hi
    obtain ⟨l, hl⟩ : ∃ l, adBurstDefs config = adBurstHdrDefs 0.01 ++ l := by
      unfold adBurstDefs
      simp only [List.append_assoc]
      exact ⟨_, rfl⟩
    rw [hl, List.getElem?_append_left, hi]
    exact (List.getElem?_eq_some_iff.mp hi).1
  simp only [Spec.adMeanVars, Spec.adAngleVars, List.cons_append, List.nil_append, List.mem_cons, List.not_mem_nil,
    or_false] at hv
  rcases hv with rfl | rfl | rfl | rfl | rfl | rfl | rfl | rfl | rfl <;> exact ⟨_, h _ _ rfl, rfl⟩

theorem adBurst_fmt (config nb nc : ℕ) (fs : List AdField) (hfs : adBurstStruct config nb nc = .ok fs) (v : AdVar)
    (hv : v ∈ Spec.adMeanVars ++ Spec.adAngleVars) :
    ∃ fd : AdField, fs[Spec.adIndex v]? = some fd ∧ fd.fmt ≠ .f ∧ fd.n = 1 := by
  have h : ∀ (i : ℕ) (fd : AdField), adBurstHdr[i]? = some fd → fs[i]? = some fd := by
    intro i fd hi
    unfold adBurstStruct at hfs
    split at hfs
    · cases hfs
    · cases hfs
      simp only [List.append_assoc]
      rw [List.getElem?_append_left, hi]
      exact (List.getElem?_eq_some_iff.mp hi).1
  simp only [Spec.adMeanVars, Spec.adAngleVars, List.cons_append, List.nil_append, List.mem_cons, List.not_mem_nil,
    or_false] at hv
  rcases hv with rfl | rfl | rfl | rfl | rfl | rfl | rfl | rfl | rfl <;>
    exact ⟨_, h _ _ rfl, by decide, rfl⟩

/-- A velocity record is read with the burst structure. -/
theorem adReaderOf_burst (id config beams : ℕ) (h28 : id ≠ 28) (h23 : id ≠ 23) (fs : List AdField)
    (h : adReaderOf id config beams = .ok fs) : ∃ nb nc, adBurstStruct config nb nc = .ok fs := by
  unfold adReaderOf at h
  simp only [if_neg h28, if_neg h23] at h
  split at h
  · cases h
  · exact ⟨_, _, h⟩

/-- The column has been written. -/
theorem adColNum_written (fl : ℤ → ℝ) (o : AdOpen) (ws : List AdWrite) (id col : ℕ) (v : AdVar) (d : AdData) (x : ℝ)
    (h : adValues fl o ws id col = some (.ok d)) (hx : d v = some [x]) : adColNum fl o ws id col v = some x := by
  unfold adValues at h
  unfold adColNum adColData
  split at h
  · rename_i items fs config b h1 h2 h3
    simp only [h1, h2, h3, Option.getD_some]
    rw [Option.some.inj h]
    simp [hx]
  · cases h

theorem adBurstDefs_length (config nb nc : ℕ) (fs : List AdField) (hfs : adBurstStruct config nb nc = .ok fs) :
    (adBurstDefs config).length = fs.length := by
  unfold adBurstStruct at hfs
  split at hfs
  · cases hfs
  · cases hfs
    simp [adBurstDefs, apply_ite List.length, adBurstHdrDefs, adBurstHdr, adAhrsDefs, adAhrs]

/-- The column has not been written: it holds the physical value of the stored number 0. -/
theorem adColNum_blank (fl : ℤ → ℝ) (o : AdOpen) (ws : List AdWrite) (id col config beams : ℕ) (fs : List AdField)
    (v : AdVar) (hv : v ∈ Spec.adMeanVars ++ Spec.adAngleVars) (h28 : id ≠ 28) (h23 : id ≠ 23)
    (hfs : adReaderOf id config beams = .ok fs) (hr : o.readers.lookup id = some fs)
    (hc : o.cfg.lookup id = some (config, beams)) (h : adColumn ws id col = none) :
    adColNum fl o ws id col v = some (Spec.adPhysical (1 / 100) 0 v 0) := by
  obtain ⟨nb, nc, hb⟩ := adReaderOf_burst id config beams h28 h23 fs hfs
  obtain ⟨df, hd1, hd2⟩ := adBurst_at config v hv
  obtain ⟨fd, hf1, hf2, hf3⟩ := adBurst_fmt config nb nc fs hb v hv
  have hlen : (adBurstDefs config).length = fs.length := adBurstDefs_length config nb nc fs hb
  have hnd : ((adBurstDefs config).map AdDef.name).Nodup :=
    ((adBurstDefs_sub config).map AdDef.name).nodup adBurstAll_nodup
  have hget : ∀ (i : ℕ) (df : AdDef) (fd : AdField), (adBurstDefs config)[i]? = some df → fs[i]? = some fd →
      adInto fl (adBurstDefs config) fs (adBlankItems fs) (fun _ => none) df.name =
        some ((if fd.n = 1 then AdItem.num 0 else .tup (List.replicate fd.n 0)).elems.map (adNumber fl fd.fmt)) := by
    intro i df fd h1 h2
    exact adInto_get fl _ hnd fs _ (fun _ => none) i df fd _ h1 h2 (by unfold adBlankItems; rw [List.getElem?_map, h2]; rfl)
  obtain ⟨d', h1, -, h3⟩ := adSciDefs_spec (adBurstDefs config) hnd
      (adInto fl (adBurstDefs config) fs (adBlankItems fs) fun _ => none) (by
    intro df hdf
    obtain ⟨i, hi, he⟩ := List.getElem_of_mem hdf
    exact ⟨_, hget i df (fs[i]'(by omega)) (by rw [← he]; simp) (by simp)⟩)
  have hmem := List.mem_of_getElem? hd1
  have hvel : v ≠ .vel := by
    rintro rfl
    revert hv; decide
  have hval : d' v = some [Spec.adPhysical (1 / 100) 0 v 0] := by
    have := h3 df hmem
    rw [hget _ df fd hd1 hf1, if_pos hf3, hd2] at this
    rw [this]
    simp only [AdItem.elems, List.map_cons, List.map_nil, Option.map_some, adNumber, if_neg hf2, Int.cast_zero]
    rw [adBurstAll_units df ((adBurstDefs_sub config).subset hmem) 0 0 (by rw [hd2]; exact hvel), hd2]
  have hvs : ∀ d : AdData, adVelScaled d v = d v := by
    intro d
    unfold adVelScaled
    rcases d .vel with _ | y
    · rfl
    · rcases d .velScale with _ | _ | ⟨a, _ | ⟨b, l⟩⟩
      · rfl
      · rfl
      · exact Function.update_of_ne hvel _ _
      · rfl
  unfold adColNum adColData
  simp only [hr, hc, h, Option.getD_none]
  have hdefs : adDefsOf id config = adBurstDefs config := by
    unfold adDefsOf
    rw [if_neg h28, if_neg h23]
  rw [hdefs]
  unfold adSci
  simp only [bind, Except.bind, h1, pure, Except.pure, hvs, hval, Option.bind_some, List.head?_cons]

/-- **C159 (first part).** A file as in C143 with burst records: the sensors of a ping are those of its burst record when the
file has no fifth beam, and the means of the two records when it has; angles are the middle of the two directions, up to
whole turns (`n` is the number of turns between the two numbers, as between 359° and 1°). `v` is a variable with the stored number `x` (and `x'` in the record of the fifth beam). -/
theorem sig_sensors_partial (fl : ℤ → ℝ) (order : List ℕ) (cb : ℕ → ℕ × ℕ) (fs : ℕ → List AdField)
    (pre : List Spec.AdRec) (es : List (List Spec.AdRec)) (tail : List ℕ) (h : Spec.AdEnsembles order cb fs es)
    (hpre : ∀ r ∈ pre, r.ok ∧ r.id ∉ adIds) (h2 : 2 ≤ es.length) (ht : tail.length < 10)
    (hh : ∀ r ∈ pre ++ es.flatten, r.hw + (pre ++ es.flatten).length < 2 ^ 32)
    (hn : (pre ++ es.flatten).length < 2 ^ 32) (fuel : ℕ) (hf : (pre ++ es.flatten).length < fuel) (dp : Bool)
    (h21 : 21 ∈ order) :
    ∃ (o : AdOpen) (ws : List AdWrite),
      adOpen fuel ((pre ++ es.flatten).flatMap Spec.AdRec.bytes ++ tail) dp = some (.ok o) ∧
      adReadOpen fuel ((pre ++ es.flatten).flatMap Spec.AdRec.bytes ++ tail) o 0 none = some (.ok ws) ∧
      (adNens o = es.length ∨ adNens o + 1 = es.length) ∧
      ∀ (j : ℕ) (e : List Spec.AdRec), j < adNens o → es[j]? = some e → ∀ r ∈ e, r.id = 21 →
        ∀ (vss : List (List ℤ)) (k : ℤ), Spec.Encodes (fs 21) vss r.body → vss[28]? = some [k] →
        (24 ∉ order → ∀ (v : AdVar) (x : ℤ), vss[Spec.adIndex v]? = some [x] →
          (v ∈ Spec.adMeanVars → adSensor fl o ws v j = some (Spec.adPhysical (1 / 100) k v x)) ∧
          (v ∈ Spec.adAngleVars → adAttitude fl o ws v j = some (Spec.adPhysical (1 / 100) k v x))) ∧
        ∀ r' ∈ e, r'.id = 24 → 24 ∈ order →
          ∀ (vss' : List (List ℤ)) (k' : ℤ), Spec.Encodes (fs 24) vss' r'.body → vss'[28]? = some [k'] →
          ∀ (v : AdVar) (x x' : ℤ), vss[Spec.adIndex v]? = some [x] → vss'[Spec.adIndex v]? = some [x'] →
          (v ∈ Spec.adMeanVars → adSensor fl o ws v j =
            some ((Spec.adPhysical (1 / 100) k v x + Spec.adPhysical (1 / 100) k' v x') / 2)) ∧
          (v ∈ Spec.adAngleVars → ∀ n : ℤ,
            |Spec.adPhysical (1 / 100) k v x - (Spec.adPhysical (1 / 100) k' v x' + 360 * n)| < 180 →
            ∃ m : ℤ, adAttitude fl o ws v j =
              some ((Spec.adPhysical (1 / 100) k v x + (Spec.adPhysical (1 / 100) k' v x' + 360 * n)) / 2 + 360 * m)) := by
  obtain ⟨o, ws, nt, ho, hw, hnt, -, hne, hcfg, hval⟩ :=
    ad_file_values_partial fl order cb fs pre es tail h hpre h2 ht hh hn fuel hf dp
  refine ⟨o, ws, ho, hw, by rw [← hne]; exact hnt, ?_⟩
  have num : ∀ (id j : ℕ) (e : List Spec.AdRec), j < adNens o → es[j]? = some e → ∀ r ∈ e, r.id = id → id ∈ order →
      id ≠ 28 → id ≠ 23 → ∀ (vss : List (List ℤ)) (k : ℤ), Spec.Encodes (fs id) vss r.body → vss[28]? = some [k] →
      ∀ (v : AdVar) (x : ℤ), v ∈ Spec.adMeanVars ++ Spec.adAngleVars → vss[Spec.adIndex v]? = some [x] →
      adColNum fl o ws id j v = some (Spec.adPhysical (1 / 100) k v x) := by
    rintro id j e hj he r hr rfl hid h28 h23 vss k hE hk v x hv hx
    obtain ⟨d, hd, hlen, hvals⟩ := hval j e (by rw [hne]; exact hj) he r hr hid vss k hE hk
    obtain ⟨nb, nc, hb⟩ := adReaderOf_burst r.id (cb r.id).1 (cb r.id).2 h28 h23 (fs r.id) (h.reader r.id hid)
    obtain ⟨df, hd1, hd2⟩ := adBurst_at (cb r.id).1 v hv
    obtain ⟨fd, hf1, hf2, hf3⟩ := adBurst_fmt (cb r.id).1 nb nc (fs r.id) hb v hv
    have hdefs : adDefsOf r.id (cb r.id).1 = adBurstDefs (cb r.id).1 := by
      unfold adDefsOf
      rw [if_neg h28, if_neg h23]
    have hx' := hvals _ df fd [x] (by rw [hdefs]; exact hd1) hf1 hx
    rw [hd2] at hx'
    refine adColNum_written fl o ws r.id j v d _ hd ?_
    rw [hx']
    simp [Spec.adUnits, h23, h28, hf2]
  have none24 : 24 ∉ order → ∀ j v, adColNum fl o ws 24 j v = none := by
    intro h24 j v
    have := hcfg 24
    rw [if_neg h24] at this
    unfold adColNum adColData
    rw [this]
    rcases o.readers.lookup 24 with _ | l <;> rfl
  intro j e hj he r hr h21' vss k hE hk
  have n21 := num 21 j e hj he r hr h21' h21 (by decide) (by decide) vss k hE hk
  refine ⟨?_, ?_⟩
  · intro h24 v x hx
    refine ⟨fun hv => ?_, fun hv => ?_⟩
    · unfold adSensor
      rw [n21 v x (List.mem_append_left _ hv) hx, none24 h24 j v]
      rfl
    · unfold adAttitude
      rw [n21 v x (List.mem_append_right _ hv) hx, none24 h24 j v]
      rfl
  · intro r' hr' h24' h24 vss' k' hE' hk' v x x' hx hx'
    have n24 := num 24 j e hj he r' hr' h24' h24 (by decide) (by decide) vss' k' hE' hk'
    refine ⟨fun hv => ?_, fun hv n hlt => ?_⟩
    · unfold adSensor
      rw [n21 v x (List.mem_append_left _ hv) hx, n24 v x' (List.mem_append_left _ hv) hx']
      rfl
    · unfold adAttitude
      rw [n21 v x (List.mem_append_right _ hv) hx, n24 v x' (List.mem_append_right _ hv) hx']
      obtain ⟨m, hm⟩ := reduceAvgAngle_midpoint _ _ hlt
      have hp := reduceAvgAngle_periodic (Spec.adPhysical (1 / 100) k v x) (Spec.adPhysical (1 / 100) k' v x') 0 n
      rw [Int.cast_zero, mul_zero, add_zero] at hp
      exact ⟨m, by rw [← hp, hm]⟩

/-- **C159 is false for pings without a record of the fifth beam.** When a file has records of the fifth beam and one is
missing, the sensors of that ping are the means of the recorded numbers and zero: half the speed of sound, half the
temperature, half the pressure, and a heading between the recorded one and north. The pressure sensor, whose zero is -4 °C,
is averaged with that. -/
theorem sig_sensors_missing (fl : ℤ → ℝ) (o : AdOpen) (ws : List AdWrite) (j config beams : ℕ) (fs : List AdField)
    (hfs : adReaderOf 24 config beams = .ok fs) (hr : o.readers.lookup 24 = some fs)
    (hc : o.cfg.lookup 24 = some (config, beams)) (hmiss : adColumn ws 24 j = none) (v : AdVar) (x : ℝ)
    (hx : adColNum fl o ws 21 j v = some x) :
    (v ∈ Spec.adMeanVars → adSensor fl o ws v j = some (if v = .tempPress then (x - 4) / 2 else x / 2)) ∧
    (v ∈ Spec.adAngleVars → |x| < 180 → adAttitude fl o ws v j = some (x / 2)) := by
  refine ⟨fun hv => ?_, fun hv hlt => ?_⟩
  · have hb := adColNum_blank fl o ws 24 j config beams fs v (List.mem_append_left _ hv) (by decide) (by decide) hfs hr hc hmiss
    unfold adSensor
    rw [hx, hb]
    simp only [reduceAvg]
    simp only [Spec.adMeanVars, List.mem_cons, List.not_mem_nil, or_false] at hv
    rcases hv with rfl | rfl | rfl | rfl | rfl | rfl <;> simp [Spec.adPhysical]
    ring
  · have hb := adColNum_blank fl o ws 24 j config beams fs v (List.mem_append_right _ hv) (by decide) (by decide) hfs hr hc hmiss
    have h0 : Spec.adPhysical (1 / 100) 0 v 0 = 0 := by
      simp only [Spec.adAngleVars, List.mem_cons, List.not_mem_nil, or_false] at hv
      rcases hv with rfl | rfl | rfl <;> simp [Spec.adPhysical]
    unfold adAttitude
    rw [hx, hb, h0]
    obtain ⟨m, hm⟩ := reduceAvgAngle_midpoint x 0 (by simpa using hlt)
    obtain ⟨r, hr, hr1, hr2⟩ := reduceAvgAngle_range x 0
    rw [hm] at hr ⊢
    simp only [Prod.mk.injEq, Option.some.injEq, and_true] at hr
    rw [abs_lt] at hlt
    have hm0 : m = 0 := by
      have h1 : (-1 : ℝ) < m := by linarith
      have h2 : (m : ℝ) < 1 := by linarith
      have h1' : (-1 : ℤ) < m := by exact_mod_cast h1
      have h2' : m < 1 := by exact_mod_cast h2
      omega
    rw [hm0]
    simp

/-- A velocity record without profile: speed of sound, temperature, heading and counter. -/
def exSensorVss (cs t h c : ℤ) : List (List ℤ) :=
  [[0], [0], [0], [0], [0], [0], [0], [0], [0], [0], [0], [cs], [t], [0], [h], [0], [0], [0], [0], [0], [0], [0], [0],
    [0, 0, 0], [0, 0, 0], [0], [0], [0], [0], [0], [0], [0], [0], [0], [0], [c]]

def exSensorRec (id : ℕ) (cs t h c : ℤ) : Spec.AdRec :=
  ⟨165, 10, id, 16, [0, 0, 0, 0], Spec.encodeAll adBurstHdr (exSensorVss cs t h c)⟩

/-- Five pings with a fifth beam, at 1500 m/s, 10 °C and heading east; the record of the fifth beam is missing in the third
ping. -/
def exSensorFile : List ℕ :=
  [exSensorRec 21 15000 1000 9000 1, exSensorRec 24 15000 1000 9000 1, exSensorRec 21 15000 1000 9000 2,
   exSensorRec 24 15000 1000 9000 2, exSensorRec 21 15000 1000 9000 3, exSensorRec 21 15000 1000 9000 4,
   exSensorRec 24 15000 1000 9000 4, exSensorRec 21 15000 1000 9000 5, exSensorRec 24 15000 1000 9000 5].flatMap
    Spec.AdRec.bytes

/-- What the reader finds in that file. -/
def exSensorCheck : Bool :=
  match adOpen 20 exSensorFile false with
  | some (.ok o) =>
    match adReadOpen 20 exSensorFile o 0 none with
    | some (.ok ws) =>
      decide (o.readers.lookup 24 = some adBurstHdr) && decide (o.cfg.lookup 24 = some (0, 0)) &&
      decide (o.readers.lookup 21 = some adBurstHdr) && decide (o.cfg.lookup 21 = some (0, 0)) &&
      decide (adColumn ws 24 2 = none) && decide (adNens o = 5) &&
      decide (adColumn ws 21 2 = some ((exSensorVss 15000 1000 9000 3).map Spec.item))
    | _ => false
  | _ => false

theorem exSensor_encodes : Spec.Encodes adBurstHdr (exSensorVss 15000 1000 9000 3)
    (Spec.encodeAll adBurstHdr (exSensorVss 15000 1000 9000 3)) := by
  apply encodes_encodeAll
  simp [exSensorVss, adBurstHdr, Spec.inRange, AdFmt.signed, AdFmt.size]

/-- **C159, a file.** 1500 m/s become 750 m/s, 10 °C become 5 °C and a heading of 90° becomes 45° in the ping whose record of
the fifth beam is missing. -/
theorem sig_sensors_missing_false (fl : ℤ → ℝ) : ∃ (o : AdOpen) (ws : List AdWrite),
    adOpen 20 exSensorFile false = some (.ok o) ∧ adReadOpen 20 exSensorFile o 0 none = some (.ok ws) ∧ adNens o = 5 ∧
    adColNum fl o ws 21 2 .cSound = some 1500 ∧ adSensor fl o ws .cSound 2 = some 750 ∧
    adColNum fl o ws 21 2 .temp = some 10 ∧ adSensor fl o ws .temp 2 = some 5 ∧
    adColNum fl o ws 21 2 .heading = some 90 ∧ adAttitude fl o ws .heading 2 = some 45 := by
  have hchk : exSensorCheck = true := by decide +kernel
  unfold exSensorCheck at hchk
  split at hchk
  swap
  · cases hchk
  rename_i o ho
  split at hchk
  swap
  · cases hchk
  rename_i ws hw
  simp only [Bool.and_eq_true, decide_eq_true_eq] at hchk
  obtain ⟨⟨⟨⟨⟨⟨r24, c24⟩, r21⟩, c21⟩, m24⟩, n5⟩, m21⟩ := hchk
  have hfs : ∀ id, id = 21 ∨ id = 24 → adReaderOf id 0 0 = .ok adBurstHdr := by
    rintro id (rfl | rfl) <;> decide +kernel
  obtain ⟨d, hd, -, hvals⟩ := adValues_units fl 21 0 0 adBurstHdr (hfs 21 (.inl rfl)) _ _ exSensor_encodes 0 rfl
  have hval : adValues fl o ws 21 2 = some (.ok d) := by
    unfold adValues
    rw [m21, r21, c21]
    simp only [hd]
  have hnum : ∀ (v : AdVar) (x : ℤ), v ∈ Spec.adMeanVars ++ Spec.adAngleVars →
      (exSensorVss 15000 1000 9000 3)[Spec.adIndex v]? = some [x] →
      adColNum fl o ws 21 2 v = some (Spec.adPhysical (1 / 100) 0 v x) := by
    intro v x hv hx
    obtain ⟨nb, nc, hb⟩ := adReaderOf_burst 21 0 0 (by decide) (by decide) adBurstHdr (hfs 21 (.inl rfl))
    obtain ⟨df, hd1, hd2⟩ := adBurst_at 0 v hv
    obtain ⟨fd, hf1, hf2, hf3⟩ := adBurst_fmt 0 nb nc adBurstHdr hb v hv
    have hx' := hvals _ df fd [x] hd1 hf1 hx
    rw [hd2] at hx'
    refine adColNum_written fl o ws 21 2 v d _ hval ?_
    rw [hx']
    simp [Spec.adUnits, hf2]
  have hc := hnum .cSound 15000 (by decide) rfl
  have ht := hnum .temp 1000 (by decide) rfl
  have hh := hnum .heading 9000 (by decide) rfl
  norm_num [Spec.adPhysical] at hc ht hh
  have key := fun v x => sig_sensors_missing fl o ws 2 0 0 adBurstHdr (hfs 24 (.inr rfl)) r24 c24 m24 v x
  refine ⟨o, ws, ho, hw, n5, hc, ?_, ht, ?_, hh, ?_⟩
  · rw [(key .cSound 1500 hc).1 (by decide), if_neg (by decide)]
    norm_num
  · rw [(key .temp 10 ht).1 (by decide), if_neg (by decide)]
    norm_num
  · rw [(key .heading 90 hh).2 (by decide) (by norm_num [abs_lt])]
    norm_num

/-- Two complete pings. -/
def exSensorPings : List (List Spec.AdRec) :=
  [[exSensorRec 21 15000 1000 35900 1, exSensorRec 24 15002 1002 100 1],
   [exSensorRec 21 15000 1000 9000 2, exSensorRec 24 15000 1000 9000 2]]

theorem exSensor_encodes' (cs t h c : ℤ) (h1 : 0 ≤ cs ∧ cs < 2 ^ 16) (h2 : 0 ≤ t ∧ t < 2 ^ 16) (h3 : 0 ≤ h ∧ h < 2 ^ 16)
    (h4 : 0 ≤ c ∧ c < 2 ^ 32) : Spec.Encodes adBurstHdr (exSensorVss cs t h c)
    (Spec.encodeAll adBurstHdr (exSensorVss cs t h c)) := by
  apply encodes_encodeAll
  norm_num at h1 h2 h3 h4
  simp [exSensorVss, adBurstHdr, Spec.inRange, AdFmt.signed, AdFmt.size, h1, h2, h3, h4]

example : Spec.AdEnsembles [21, 24] (fun _ => (0, 0)) (fun _ => adBurstHdr) exSensorPings where
  nodup := by decide
  types := by decide
  reader := by decide +kernel
  data := by decide +kernel
  head := by
    intro e he
    simp only [exSensorPings, List.mem_cons, List.not_mem_nil, or_false] at he
    rcases he with rfl | rfl
    · exact ⟨_, _, rfl, by decide⟩
    · exact ⟨_, _, rfl, by decide⟩
  ok := by
    unfold Spec.AdRec.ok
    decide +kernel
  words := by decide +kernel
  content := by
    intro e he r hr hro
    simp only [exSensorPings, List.mem_cons, List.not_mem_nil, or_false] at he
    rcases he with rfl | rfl
    · simp only [List.mem_cons, List.not_mem_nil, or_false] at hr
      rcases hr with rfl | rfl
      · exact ⟨_, exSensor_encodes' 15000 1000 35900 1 (by norm_num) (by norm_num) (by norm_num) (by norm_num)⟩
      · exact ⟨_, exSensor_encodes' 15002 1002 100 1 (by norm_num) (by norm_num) (by norm_num) (by norm_num)⟩
    · simp only [List.mem_cons, List.not_mem_nil, or_false] at hr
      rcases hr with rfl | rfl
      · exact ⟨_, exSensor_encodes' 15000 1000 9000 2 (by norm_num) (by norm_num) (by norm_num) (by norm_num)⟩
      · exact ⟨_, exSensor_encodes' 15000 1000 9000 2 (by norm_num) (by norm_num) (by norm_num) (by norm_num)⟩
  counters := by
    have e1 : Spec.counters 21 exSensorPings.flatten = [1, 2] := by decide +kernel
    have e2 : Spec.counters 24 exSensorPings.flatten = [1, 2] := by decide +kernel
    intro id hid
    simp only [List.mem_cons, List.not_mem_nil, or_false] at hid
    rcases hid with rfl | rfl
    · rw [e1]; simp
    · rw [e2]; simp

end Dolfyn
