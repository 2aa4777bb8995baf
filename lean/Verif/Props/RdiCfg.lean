import Verif.Model.RdiCfg
import Verif.Props.RdiVals

/-!
Configuration and assembly of TRDI data (C123, C124).
-/

namespace Dolfyn

/-! ### The setup of an instrument and its fixed leader -/

/-- The setup of an instrument as PD0 files describe it. Numbers in the units of the file; `other*` are bits
the reader does not use. -/
structure Spec.RdSetup where
  fw : ℕ
  rev : ℕ
  freqIdx : Fin 7
  convex : Bool
  otherLow : Fin 8
  up : Bool
  angleIdx : Fin 3
  otherA : Fin 4
  beam5 : Bool
  otherB : Fin 8
  sim : Fin 2
  lagLen : ℕ
  beams : ℕ
  cells : ℕ
  pings : ℕ
  cellSize : ℕ
  blank : ℕ
  mode : ℕ
  minCorr : ℕ
  codeReps : ℕ
  minGood : ℕ
  maxErr : ℕ
  minutes : ℕ
  seconds : ℕ
  hundredths : ℕ
  frame : RdFrame
  tilts : Bool
  three : Bool
  binMap : Bool
  otherC : Fin 8
  misalign : ℤ
  magVar : ℤ
  src : ℕ
  avail : ℕ
  bin1 : ℕ
  pulse : ℕ
  ref0 : ℕ
  ref1 : ℕ
  falseTarget : ℕ
  spare : ℕ
  lag : ℕ
  cpu : Fin 8 → ℕ
  bandwidth : ℕ
  power : ℕ
  spare2 : ℕ
  serial : ℕ
  angle : ℕ

/-- The code of a frame. -/
def Spec.frameCode : RdFrame → ℕ
  | .beam => 0
  | .inst => 1
  | .ship => 2
  | .earth => 3

/-- Low byte of the system configuration. -/
def Spec.RdSetup.low (S : Spec.RdSetup) : ℕ := S.freqIdx + 8 * S.convex.toNat + 16 * S.otherLow + 128 * S.up.toNat

/-- High byte of the system configuration. -/
def Spec.RdSetup.high (S : Spec.RdSetup) : ℕ := S.angleIdx + 4 * S.otherA + 16 * S.beam5.toNat + 32 * S.otherB

/-- Byte of the coordinate transformation. -/
def Spec.RdSetup.coord (S : Spec.RdSetup) : ℕ :=
  S.binMap.toNat + 2 * S.three.toNat + 4 * S.tilts.toNat + 8 * Spec.frameCode S.frame + 32 * S.otherC

/-- The fixed leader. -/
def Spec.RdSetup.fields (S : Spec.RdSetup) : List (AdFmt × ℤ) :=
  [(AdFmt.B, (S.fw : ℤ)), (AdFmt.B, (S.rev : ℤ)), (AdFmt.B, (S.low : ℤ)), (AdFmt.B, (S.high : ℤ)),
    (AdFmt.B, ((S.sim : ℕ) : ℤ)), (AdFmt.B, (S.lagLen : ℤ)), (AdFmt.B, (S.beams : ℤ)),
    (AdFmt.B, (S.cells : ℤ)), (AdFmt.H, (S.pings : ℤ)), (AdFmt.H, (S.cellSize : ℤ)), (AdFmt.H, (S.blank : ℤ)),
    (AdFmt.B, (S.mode : ℤ)), (AdFmt.B, (S.minCorr : ℤ)), (AdFmt.B, (S.codeReps : ℤ)),
    (AdFmt.B, (S.minGood : ℤ)), (AdFmt.H, (S.maxErr : ℤ)), (AdFmt.B, (S.minutes : ℤ)),
    (AdFmt.B, (S.seconds : ℤ)), (AdFmt.B, (S.hundredths : ℤ)), (AdFmt.B, (S.coord : ℤ)),
    (AdFmt.h, (S.misalign : ℤ)), (AdFmt.h, (S.magVar : ℤ)), (AdFmt.B, (S.src : ℤ)), (AdFmt.B, (S.avail : ℤ)),
    (AdFmt.H, (S.bin1 : ℤ)), (AdFmt.H, (S.pulse : ℤ)), (AdFmt.B, (S.ref0 : ℤ)), (AdFmt.B, (S.ref1 : ℤ)),
    (AdFmt.B, (S.falseTarget : ℤ)), (AdFmt.B, (S.spare : ℤ)), (AdFmt.H, (S.lag : ℤ)), (AdFmt.B, (S.cpu 0 : ℤ)),
    (AdFmt.B, (S.cpu 1 : ℤ)), (AdFmt.B, (S.cpu 2 : ℤ)), (AdFmt.B, (S.cpu 3 : ℤ)), (AdFmt.B, (S.cpu 4 : ℤ)),
    (AdFmt.B, (S.cpu 5 : ℤ)), (AdFmt.B, (S.cpu 6 : ℤ)), (AdFmt.B, (S.cpu 7 : ℤ)), (AdFmt.H, (S.bandwidth : ℤ)),
    (AdFmt.B, (S.power : ℤ)), (AdFmt.B, (S.spare2 : ℤ)), (AdFmt.I, (S.serial : ℤ)), (AdFmt.B, (S.angle : ℤ))]

/-- The configuration a user should see. -/
def Spec.RdSetup.cfg (S : Spec.RdSetup) : RdCfg where
  progVer := S.fw + S.rev / 100
  model := rdModel S.fw
  beamAngle := if 1627 ≤ 100 * S.fw + S.rev then S.angle else ![15, 20, 30] S.angleIdx
  freq := ![75, 150, 300, 600, 1200, 2400, 38] S.freqIdx
  convex := S.convex
  up := S.up
  nBeams := S.beams + S.beam5.toNat
  nCells := S.cells
  pings := S.pings
  cellSize := S.cellSize / 100
  blank := S.blank / 100
  mode := S.mode
  minCorr := S.minCorr
  codeReps := S.codeReps
  minGood := S.minGood
  maxErr := S.maxErr / 1000
  secBetween := 60 * S.minutes + S.seconds + S.hundredths / 100
  frame := S.frame
  usePitchRoll := S.tilts
  use3Beam := S.three
  binMap := S.binMap
  misalign := S.misalign / 100
  magVar := S.magVar / 100
  sensorsSrc := binRepr8 S.src
  sensorsAvail := binRepr8 S.avail
  bin1 := S.bin1 / 100
  pulse := S.pulse / 100
  refCells := (S.ref0, S.ref1)
  falseTarget := S.falseTarget
  lag := S.lag / 100
  bandwidth := if 824 ≤ 100 * S.fw + S.rev then some S.bandwidth else none
  power := if 1605 ≤ 100 * S.fw + S.rev then some S.power else none
  serial := if 1627 ≤ 100 * S.fw + S.rev then some S.serial else none

theorem setup_sizes (S : Spec.RdSetup) : S.fields.map (·.1.size) = [1, 1, 1, 1, 1, 1, 1, 1, 2, 2, 2, 1, 1, 1, 1, 2, 1, 1,
    1, 1, 2, 2, 1, 1, 2, 2, 1, 1, 1, 1, 2, 1, 1, 1, 1, 1, 1, 1, 1, 2, 1, 1, 4, 1] := rfl

theorem low_bits : ∀ (a : Fin 7) (b : Bool) (x : Fin 8) (u : Bool),
    (a + 8 * b.toNat + 16 * x + 128 * u.toNat : ℕ) &&& 7 = a ∧
    decide ((a + 8 * b.toNat + 16 * x + 128 * u.toNat : ℕ) &&& 8 = 8) = b ∧
    decide ((a + 8 * b.toNat + 16 * x + 128 * u.toNat : ℕ) &&& 128 = 128) = u := by
  decide +kernel

theorem high_bits : ∀ (a : Fin 3) (x : Fin 4) (b : Bool) (y : Fin 8),
    (a + 4 * x + 16 * b.toNat + 32 * y : ℕ) &&& 3 = a ∧
    (if (a + 4 * x + 16 * b.toNat + 32 * y : ℕ) &&& 16 = 16 then 1 else 0) = b.toNat := by
  decide +kernel

theorem coord_bits : ∀ (a b c : Bool) (f : RdFrame) (x : Fin 8),
    decide ((a.toNat + 2 * b.toNat + 4 * c.toNat + 8 * Spec.frameCode f + 32 * x : ℕ) &&& 4 = 4) = c ∧
    decide ((a.toNat + 2 * b.toNat + 4 * c.toNat + 8 * Spec.frameCode f + 32 * x : ℕ) &&& 2 = 2) = b ∧
    decide ((a.toNat + 2 * b.toNat + 4 * c.toNat + 8 * Spec.frameCode f + 32 * x : ℕ) &&& 1 = 1) = a ∧
    ((a.toNat + 2 * b.toNat + 4 * c.toNat + 8 * Spec.frameCode f + 32 * x : ℕ) >>> 3) &&& 3 = Spec.frameCode f := by
  intro a b c f x
  cases f <;> revert a b c x <;> decide +kernel

theorem frame_of (f : RdFrame) : (if Spec.frameCode f = 0 then RdFrame.beam else if Spec.frameCode f = 1 then .inst
    else if Spec.frameCode f = 2 then .ship else .earth) = f := by cases f <;> rfl

theorem angle_of (a : Fin 3) : [15, 20, 30][(a : ℕ)]? = some (![15, 20, 30] a) := by
  fin_cases a <;> rfl

theorem freq_of (a : Fin 7) : [75, 150, 300, 600, 1200, 2400, 38][(a : ℕ)]? =
    some (![75, 150, 300, 600, 1200, 2400, 38] a) := by
  fin_cases a <;> rfl

/-- C124: the configuration decoded from a fixed leader is the setup the instrument recorded. -/
theorem rdi_config_decoded {S : Spec.RdSetup} (hr : ∀ x ∈ S.fields, Spec.inRange x.1 x.2) (extra : List ℕ) :
    rdDecodeCfg (Spec.record S.fields ++ extra) = .ok S.cfg := by
  have at' : ∀ (fmt : AdFmt) (j i : ℕ) (w : ℤ), S.fields[j]? = some (fmt, w) →
      ([1, 1, 1, 1, 1, 1, 1, 1, 2, 2, 2, 1, 1, 1, 1, 2, 1, 1, 1, 1, 2, 2, 1, 1, 2, 2, 1, 1, 1, 1, 2, 1, 1, 1, 1, 1, 1, 1,
        1, 2, 1, 1, 4, 1].take j).sum = i → rdAt fmt (Spec.record S.fields ++ extra) i = w :=
    fun fmt j i w h1 h2 => rdAt_record hr h1 (by rw [List.map_take, setup_sizes, h2])
  have bt : ∀ (j i : ℕ) (w : ℕ), S.fields[j]? = some (.B, (w : ℤ)) →
      ([1, 1, 1, 1, 1, 1, 1, 1, 2, 2, 2, 1, 1, 1, 1, 2, 1, 1, 1, 1, 2, 2, 1, 1, 2, 2, 1, 1, 1, 1, 2, 1, 1, 1, 1, 1, 1, 1,
        1, 2, 1, 1, 4, 1].take j).sum = i → cfgB (Spec.record S.fields ++ extra) i = w :=
    fun j i w h1 h2 => by rw [cfgB, at' .B j i w h1 h2, Int.toNat_natCast]
  have wd : ∀ (j i : ℕ) (w : ℕ), S.fields[j]? = some (.H, (w : ℤ)) →
      ([1, 1, 1, 1, 1, 1, 1, 1, 2, 2, 2, 1, 1, 1, 1, 2, 1, 1, 1, 1, 2, 2, 1, 1, 2, 2, 1, 1, 1, 1, 2, 1, 1, 1, 1, 1, 1, 1,
        1, 2, 1, 1, 4, 1].take j).sum = i → cfgH (Spec.record S.fields ++ extra) i = w :=
    fun j i w h1 h2 => by rw [cfgH, at' .H j i w h1 h2, Int.toNat_natCast]
  obtain ⟨l1, l2, l3⟩ := low_bits S.freqIdx S.convex S.otherLow S.up
  obtain ⟨g1, g2⟩ := high_bits S.angleIdx S.otherA S.beam5 S.otherB
  obtain ⟨c1, c2, c3, c4⟩ := coord_bits S.binMap S.three S.tilts S.frame S.otherC
  unfold rdDecodeCfg
  rw [bt 0 0 S.fw rfl (by decide), bt 1 1 S.rev rfl (by decide), bt 2 2 S.low rfl (by decide),
    bt 3 3 S.high rfl (by decide), bt 4 4 S.sim rfl (by decide), bt 6 6 S.beams rfl (by decide),
    bt 7 7 S.cells rfl (by decide), wd 8 8 S.pings rfl (by decide), wd 9 10 S.cellSize rfl (by decide),
    wd 10 12 S.blank rfl (by decide), bt 11 14 S.mode rfl (by decide), bt 12 15 S.minCorr rfl (by decide),
    bt 13 16 S.codeReps rfl (by decide), bt 14 17 S.minGood rfl (by decide), wd 15 18 S.maxErr rfl (by decide),
    bt 16 20 S.minutes rfl (by decide), bt 17 21 S.seconds rfl (by decide), bt 18 22 S.hundredths rfl (by decide),
    bt 19 23 S.coord rfl (by decide), at' .h 20 24 S.misalign rfl (by decide), at' .h 21 26 S.magVar rfl (by decide),
    bt 22 28 S.src rfl (by decide), bt 23 29 S.avail rfl (by decide), wd 24 30 S.bin1 rfl (by decide),
    wd 25 32 S.pulse rfl (by decide), bt 26 34 S.ref0 rfl (by decide), bt 27 35 S.ref1 rfl (by decide),
    bt 28 36 S.falseTarget rfl (by decide), wd 30 38 S.lag rfl (by decide), wd 39 48 S.bandwidth rfl (by decide),
    bt 40 50 S.power rfl (by decide), at' .I 42 52 S.serial rfl (by decide), bt 43 56 S.angle rfl (by decide)]
  rw [show S.high &&& 3 = S.angleIdx from g1, show S.low &&& 7 = S.freqIdx from l1, angle_of, freq_of]
  simp only
  rw [if_neg (by have := S.sim.2; omega)]
  congr 1
  unfold Spec.RdSetup.cfg
  have k1 : decide (S.low &&& 8 = 8) = S.convex := l2
  have k2 : decide (S.low &&& 128 = 128) = S.up := l3
  have k3 : (if S.high &&& 16 = 16 then 1 else 0) = S.beam5.toNat := g2
  have k4 : decide (S.coord &&& 4 = 4) = S.tilts := c1
  have k5 : decide (S.coord &&& 2 = 2) = S.three := c2
  have k6 : decide (S.coord &&& 1 = 1) = S.binMap := c3
  have k7 : (S.coord >>> 3) &&& 3 = Spec.frameCode S.frame := c4
  rw [k7, frame_of]
  simp only [k1, k2, k3, k4, k5, k6, Int.toNat_natCast, mul_one_div, mul_one]
  congr 1
  ring

/-- C124: instruments whose beam angle is none of 15, 20 and 30 degrees (code 3, "other") cannot be read. -/
theorem rdi_config_other_angle_false {c : List ℕ} (h : cfgB c 3 &&& 3 = 3) : rdDecodeCfg c = .error .indexError := by
  unfold rdDecodeCfg
  rw [h]
  rfl

/-- TRDI's firmware families. -/
def Spec.adcpTable : List (ℕ × String) :=
  [(4, "Broadband"), (5, "Broadband"), (6, "Navigator"), (10, "Rio Grande"), (11, "H-ADCP"), (14, "Ocean Surveyor"),
    (16, "Workhorse"), (19, "Navigator"), (23, "Ocean Surveyor"), (28, "ChannelMaster"), (31, "StreamPro"),
    (34, "Explorer"), (37, "Navigator"), (41, "DVS"), (43, "Workhorse"), (44, "RiverRay"), (47, "SentinelV"),
    (50, "Workhorse"), (51, "Workhorse"), (52, "Workhorse"), (53, "Navigator"), (55, "DVS"), (56, "RiverPro"),
    (59, "Meridian"), (61, "Pinnacle"), (66, "SentinelV"), (67, "Pathfinder"), (73, "Pioneer"), (74, "Tasman"),
    (76, "WayFinder"), (77, "Workhorse"), (78, "Workhorse")]

/-- C124: the model name is that of the firmware family. -/
theorem rdi_model_name : ∀ fw < 256,
    rdModel fw = ((Spec.adcpTable.lookup fw).getD "unrecognized firmware version").toList := by
  decide +kernel

/-- C124: the sensor words are the binary digits of the recorded bytes. -/
theorem rdi_sensor_bits : ∀ x < 256, (binRepr8 x).length = 8 ∧
    (binRepr8 x).foldl (fun a ch => 2 * a + (if ch = '1' then 1 else 0)) 0 = x ∧
    ∀ ch ∈ binRepr8 x, ch = '0' ∨ ch = '1' := by
  decide +kernel

/-! ### Which variables a dataset has -/

/-- Whether the leaders of the instrument carry a pressure word at all (not: Broadband, Ocean Surveyor). -/
def Spec.pressureKind (f : RdFixed) : Prop := f.fw ≠ 4 ∧ f.fw ≠ 5 ∧ f.fw ≠ 14 ∧ f.fw ≠ 23

instance (f : RdFixed) : Decidable (Spec.pressureKind f) := by unfold Spec.pressureKind; infer_instance

/-- Block `id` provides the variable `nm`. -/
def Spec.provides (f : RdFixed) (id : ℕ) (nm : RdName) : Prop :=
  id = Spec.rdId nm ∧ (nm = .pressure ∨ nm = .pressureStd → Spec.pressureKind f)

theorem mem_seenAdd_iff {a x : RdName} {r seen : List RdName} (h : GroupOk a r seen) :
    x ∈ seenAdd seen (a :: r) ↔ x ∈ seen ∨ x = a ∨ x ∈ r := by
  unfold seenAdd
  simp only
  split_ifs with hs
  · constructor
    · exact Or.inl
    · rintro (h1 | rfl | h1)
      · exact h1
      · exact hs
      · exact h hs x h1
  · simp

theorem pressureKind_iff (f : RdFixed) :
    Spec.pressureKind f ↔ (rdBroadband f.fw || rdOcean f.fw) = false := by
  unfold Spec.pressureKind rdBroadband rdOcean
  simp only [Bool.or_eq_false_iff, decide_eq_false_iff_not]
  tauto

theorem blkStore_names {f : RdFixed} {b : Spec.RdBlk} {m : RdMem} (hm : SeenOk m.seen)
    (hid : b.id ∈ [0, 128, 256, 512, 768, 1024, 1280, 1536, 16640] ∨
      (b.id ≠ 0 ∧ b.id ≠ 1 ∧ b.id ≠ 128 ∧ b.id ≠ 129 ∧ b.id ≠ 1536 ∧ b.id ≠ 16640 ∧ rdCellInfo b.id = none))
    (x : RdName) :
    x ∈ (blkStore f b m).seen ↔ x ∈ m.seen ∨ Spec.provides f b.id x := by
  rcases hid with hid | ⟨h0, h1, h2, h3, h4, h5, h6⟩
  · simp only [List.mem_cons, List.not_mem_nil, or_false] at hid
    have cellCase : ∀ nm : RdName, b.id = Spec.rdId nm → (∀ y : RdName, Spec.rdId nm = Spec.rdId y → y = nm) →
        nm ≠ .pressure → nm ≠ .pressureStd →
        (blkStore f b m).seen = seenAdd m.seen [nm] →
        (x ∈ (blkStore f b m).seen ↔ x ∈ m.seen ∨ Spec.provides f b.id x) := by
      intro nm hn hu hp1 hp2 hs
      rw [hs, mem_seenAdd_iff (by intro _ y hy; cases hy)]
      unfold Spec.provides
      rw [hn]
      simp only [List.not_mem_nil, or_false]
      constructor
      · rintro (h | rfl)
        · exact Or.inl h
        · exact Or.inr ⟨rfl, by tauto⟩
      · rintro (h | ⟨h, -⟩)
        · exact Or.inl h
        · exact Or.inr (hu x h)
    rcases hid with h | h | h | h | h | h | h | h | h
    · have : (blkStore f b m).seen = m.seen := by
        unfold blkStore rdStore; rw [h]; rfl
      rw [this]
      unfold Spec.provides
      rw [h]
      have : (0 : ℕ) ≠ Spec.rdId x := by cases x <;> decide
      tauto
    · have hs : (blkStore f b m).seen = rdVarSeen f m.seen := by
        unfold blkStore rdStore; rw [h]; rfl
      have hp : GroupOk RdName.pressure [.pressureStd] (seenAdd m.seen (RdName.number :: [.builtin, .cSound, .depth,
          .heading, .pitch, .roll, .salinity, .temp, .preping, .headingStd, .pitchStd, .rollStd, .adc])) :=
        groupOk_add hm.press (Or.inr (by decide))
      rw [hs]
      unfold rdVarSeen
      simp only
      unfold Spec.provides
      rw [h, pressureKind_iff]
      by_cases hb : (rdBroadband f.fw || rdOcean f.fw) = true
      · rw [if_pos hb, mem_seenAdd_iff hm.leader, hb]
        have : (x = .number ∨ x ∈ [RdName.builtin, .cSound, .depth, .heading, .pitch, .roll, .salinity, .temp, .preping,
            .headingStd, .pitchStd, .rollStd, .adc]) ↔
            (128 = Spec.rdId x ∧ (x = .pressure ∨ x = .pressureStd → true = false)) := by
          cases x <;> decide
        rw [this]
      · have hb' : (rdBroadband f.fw || rdOcean f.fw) = false := by simpa using hb
        rw [if_neg hb, mem_seenAdd_iff hp, mem_seenAdd_iff hm.leader, hb', or_assoc]
        have : ((x = .number ∨ x ∈ [RdName.builtin, .cSound, .depth, .heading, .pitch, .roll, .salinity, .temp, .preping,
            .headingStd, .pitchStd, .rollStd, .adc]) ∨ (x = .pressure ∨ x ∈ [RdName.pressureStd])) ↔
            (128 = Spec.rdId x ∧ (x = .pressure ∨ x = .pressureStd → false = false)) := by
          cases x <;> decide
        rw [this]
    · refine cellCase .vel h (by intro y; cases y <;> decide) (by decide) (by decide) ?_
      unfold blkStore rdStore; rw [h]; rfl
    · refine cellCase .corr h (by intro y; cases y <;> decide) (by decide) (by decide) ?_
      unfold blkStore rdStore; rw [h]; rfl
    · refine cellCase .amp h (by intro y; cases y <;> decide) (by decide) (by decide) ?_
      unfold blkStore rdStore; rw [h]; rfl
    · refine cellCase .prcntGd h (by intro y; cases y <;> decide) (by decide) (by decide) ?_
      unfold blkStore rdStore; rw [h]; rfl
    · refine cellCase .status h (by intro y; cases y <;> decide) (by decide) (by decide) ?_
      unfold blkStore rdStore; rw [h]; rfl
    · rw [blkStore_bottom h]
      simp only
      rw [mem_seenAdd_iff hm.bottom]
      unfold Spec.provides
      rw [h]
      have h1 : (x = .distBt ∨ x ∈ [RdName.velBt, .corrBt, .ampBt, .prcntGdBt]) ↔ 1536 = Spec.rdId x := by
        cases x <;> decide
      have h2 : 1536 = Spec.rdId x → ¬ (x = .pressure ∨ x = .pressureStd) := by cases x <;> decide
      rw [h1]
      tauto
    · rw [blkStore_alt h]
      simp only
      rw [mem_seenAdd_iff hm.alt]
      unfold Spec.provides
      rw [h]
      have h1 : (x = .altDist ∨ x ∈ [RdName.altRssi, .altEval, .altStatus]) ↔ 16640 = Spec.rdId x := by
        cases x <;> decide
      have h2 : 16640 = Spec.rdId x → ¬ (x = .pressure ∨ x = .pressureStd) := by cases x <;> decide
      rw [h1]
      tauto
  · have hs : (blkStore f b m).seen = m.seen := by
      unfold blkStore rdStore
      simp only [h0, h1, h2, h3, h4, h5, h6, false_or, if_false]
    have hne : b.id ≠ Spec.rdId x := by
      intro hc
      rw [hc] at h2 h4 h5 h6
      cases x <;> first
        | exact absurd rfl h2
        | exact absurd rfl h4
        | exact absurd rfl h5
        | exact absurd h6 (by decide)
    rw [hs]
    unfold Spec.provides
    tauto

theorem ok_kinds {f : RdFixed} {e : Spec.RdEns} (h : e.Ok f) : ∀ b ∈ e.blks,
    b.id ∈ [0, 128, 256, 512, 768, 1024, 1280, 1536, 16640] ∨
      (b.id ≠ 0 ∧ b.id ≠ 1 ∧ b.id ≠ 128 ∧ b.id ≠ 129 ∧ b.id ≠ 1536 ∧ b.id ≠ 16640 ∧ rdCellInfo b.id = none) := by
  obtain ⟨fx, vr, rest, hb, hfx, hvid, _, hrest⟩ := h.shape
  intro b hm
  rw [hb] at hm
  rcases List.mem_cons.mp hm with rfl | hm
  · rw [hfx.1]; exact Or.inl (by decide)
  rcases List.mem_cons.mp hm with rfl | hm
  · rw [hvid]; exact Or.inl (by decide)
  obtain ⟨_, k, hk, _⟩ := hrest b hm
  unfold Spec.rdMin at hk
  by_cases h1 : b.id = 256
  · rw [h1]; exact Or.inl (by decide)
  rw [if_neg h1] at hk
  by_cases h2 : b.id ∈ [512, 768, 1024, 1280]
  · left
    simp only [List.mem_cons, List.not_mem_nil, or_false] at h2 ⊢
    tauto
  rw [if_neg h2] at hk
  by_cases h3 : b.id = 1536
  · rw [h3]; exact Or.inl (by decide)
  rw [if_neg h3] at hk
  by_cases h4 : b.id = 16640
  · rw [h4]; exact Or.inl (by decide)
  rw [if_neg h4] at hk
  rcases ite_eq_iff.mp hk with ⟨h5, -⟩ | ⟨-, hk⟩
  · right
    revert h5
    generalize b.id = n
    revert n
    have : ∀ n ∈ [259, 515, 524, 1027, 3000, 3841, 8211, 12800, 12288, 12496, 12504, 17408, 17409, 22531, 22532,
      22785, 22786, 28673, 770, 771, 1793, 1794, 1795, 2560, 2816, 3072, 3328], n ≠ 0 ∧ n ≠ 1 ∧ n ≠ 128 ∧ n ≠ 129 ∧
        n ≠ 1536 ∧ n ≠ 16640 ∧ rdCellInfo n = none := by decide
    exact this
  · cases hk

theorem ensStore_names {f : RdFixed} (x : RdName) : ∀ (bs : List Spec.RdBlk) (m : RdMem), SeenOk m.seen →
    (∀ b ∈ bs, b.id ∈ [0, 128, 256, 512, 768, 1024, 1280, 1536, 16640] ∨
      (b.id ≠ 0 ∧ b.id ≠ 1 ∧ b.id ≠ 128 ∧ b.id ≠ 129 ∧ b.id ≠ 1536 ∧ b.id ≠ 16640 ∧ rdCellInfo b.id = none)) →
    (x ∈ (ensStore f bs m).seen ↔ x ∈ m.seen ∨ ∃ b ∈ bs, Spec.provides f b.id x)
  | [], m, _, _ => by simp [ensStore]
  | b :: bs, m, hm, hk => by
    rw [show ensStore f (b :: bs) m = ensStore f bs (blkStore f b m) from rfl,
      ensStore_names x bs (blkStore f b m) (seenOk_blk hm) (fun y hy => hk y (by simp [hy])),
      blkStore_names hm (hk b (by simp))]
    simp only [List.mem_cons, exists_eq_or_imp]
    tauto

theorem memAt_names {f : RdFixed} (x : RdName) : ∀ (es : List Spec.RdEns) (m : RdMem), SeenOk m.seen →
    (∀ e ∈ es, e.Ok f) →
    (x ∈ (memAt f es m).seen ↔ x ∈ m.seen ∨ ∃ e ∈ es, ∃ b ∈ e.blks, Spec.provides f b.id x)
  | [], m, _, _ => by simp [memAt]
  | e :: es, m, hm, hk => by
    rw [show memAt f (e :: es) m = memAt f es (ensAfter f e m) from rfl,
      memAt_names x es (ensAfter f e m) (seenOk_ens (f := f) e.blks m hm) (fun y hy => hk y (by simp [hy])),
      show (ensAfter f e m).seen = (ensStore f e.blks m).seen from rfl,
      ensStore_names x e.blks m hm (ok_kinds (hk e (by simp)))]
    simp only [List.mem_cons, exists_eq_or_imp, or_assoc]

/-! ### The dataset -/

/-- `r` is what `read_rdi` gives for a file of regular ensembles. -/
def RdDsOf (env : RdEnv) (junk : RdName → ℕ → ℕ → ℕ → ℚ) (f : RdFixed) (cells : ℕ) (es : List Spec.RdEns) (nens : ℕ)
    (r : Except Err RdDs) : Prop :=
  ∃ fuel s, 2 ≤ fuel ∧ s.pos = 0 ∧ RdBetween f cells s ∧
    rdReadDs env junk (Spec.rdFile es) fuel nens s rdMem0 (rdOut0 cells) = some r

theorem rdDsOf_spec {env : RdEnv} {junk : RdName → ℕ → ℕ → ℕ → ℚ} {f : RdFixed} (hf : 0 < f.nCells) {cells nens : ℕ}
    {es : List Spec.RdEns} (hok : ∀ e ∈ es, e.Ok f) {r : Except Err RdDs} (h : RdDsOf env junk f cells es nens r) :
    ∃ o, RdReadOf env f cells es nens o ∧
      r = rdAssemble junk cells (memAt f (es.take (min nens (es.length - 1))) rdMem0) o := by
  obtain ⟨fuel, s, hfu, hp, hb, hl⟩ := h
  obtain ⟨t', m', o', h1, h2, h3, h4, h5⟩ := rdi_columns (env := env) (bs := Spec.rdFile es) hf hfu nens es 0 s rdMem0
    (rdOut0 cells) hok rfl (by simpa using hp) hb rfl (fun _ => rfl)
  refine ⟨o', ⟨fuel, s, t', m', hfu, hp, hb, h1⟩, ?_⟩
  unfold rdReadDs at hl
  rw [h1] at hl
  simp only [Option.some.injEq] at hl
  rw [← hl, h4, h5]

theorem rdAssemble_ok {junk : RdName → ℕ → ℕ → ℕ → ℚ} {cells : ℕ} {m : RdMem} {o : RdOutV} {ds : RdDs}
    (h : rdAssemble junk cells m o = .ok ds) :
    rdDecodeCfg m.cfgB = .ok ds.cfg ∧ ds.names = m.seen ∧ ds.width = o.cols.length ∧ ds.cells = cells ∧
      ds.range = (List.range cells).map (fun k : ℕ => ds.cfg.bin1 + k * ds.cfg.cellSize) ∧ ds.fs = rdFs ds.cfg ∧
      (∀ i, ds.time i = o.cols[i]?.bind (·.time)) ∧ (∀ nm b c i, ds.elem nm b c i = rdElem junk o nm c b i) ∧
      (ds.rotateVars = .vel :: (if RdName.velBt ∈ m.seen then [.velBt] else [])) ∧ 0 < o.cols.length := by
  unfold rdAssemble at h
  cases ho : o.cols with
  | nil => rw [ho] at h; cases h
  | cons col rest =>
    rw [ho] at h
    simp only at h
    cases hc : rdDecodeCfg m.cfgB with
    | error e => rw [hc] at h; cases h
    | ok cfg =>
      rw [hc] at h
      simp only at h
      rcases ite_eq_iff.mp h with ⟨-, h⟩ | ⟨-, h⟩
      · cases h
      · cases h
        exact ⟨rfl, rfl, by simp, rfl, rfl, rfl, fun _ => rfl, fun _ _ _ _ => rfl, rfl, by simp⟩

/-- C123: the dataset holds exactly the variables of the blocks in the ensembles read. -/
theorem rdi_names {env : RdEnv} {junk : RdName → ℕ → ℕ → ℕ → ℚ} {f : RdFixed} (hf : 0 < f.nCells) {cells nens : ℕ}
    {es : List Spec.RdEns} (hok : ∀ e ∈ es, e.Ok f) {ds : RdDs} (h : RdDsOf env junk f cells es nens (.ok ds))
    (nm : RdName) :
    nm ∈ ds.names ↔ ∃ e ∈ es.take (min nens (es.length - 1)), ∃ b ∈ e.blks, Spec.provides f b.id nm := by
  obtain ⟨o, -, hr⟩ := rdDsOf_spec hf hok h
  rw [(rdAssemble_ok hr.symm).2.1, memAt_names nm _ rdMem0 (seenOk_start (f := f) [])
    (fun e he => hok e (List.mem_of_mem_take he))]
  simp [rdMem0]

/-- C123: one column per ensemble read, one row and one range per cell. -/
theorem rdi_shape {env : RdEnv} {junk : RdName → ℕ → ℕ → ℕ → ℚ} {f : RdFixed} (hf : 0 < f.nCells) {cells nens : ℕ}
    {es : List Spec.RdEns} (hok : ∀ e ∈ es, e.Ok f) {ds : RdDs} (h : RdDsOf env junk f cells es nens (.ok ds)) :
    ds.width = min nens (es.length - 1) ∧ ds.cells = cells ∧ ds.range.length = cells := by
  obtain ⟨o, ho, hr⟩ := rdDsOf_spec hf hok h
  obtain ⟨-, -, h3, h4, h5, -⟩ := rdAssemble_ok hr.symm
  refine ⟨?_, h4, by rw [h5]; simp⟩
  rw [h3, (rdReadOf_cols hf hok ho).2, ensCols_length, List.length_take]
  omega

theorem blkStore_cfgB {f : RdFixed} {b : Spec.RdBlk} {m : RdMem} :
    (blkStore f b m).cfgB = if b.id = 0 then b.pl.take 57 else m.cfgB := by
  unfold blkStore rdStore
  by_cases h0 : b.id = 0 ∨ b.id = 1
  · rw [if_pos h0, if_pos rfl]; rfl
  rw [if_neg h0]
  have hz : b.id ≠ 0 := fun hc => h0 (Or.inl hc)
  rw [if_neg hz]
  by_cases h1 : b.id = 128 ∨ b.id = 129
  · rw [if_pos h1]
  rw [if_neg h1]
  by_cases h2 : b.id = 1536
  · rw [if_pos h2, if_neg (by decide)]
  rw [if_neg h2]
  by_cases h3 : b.id = 16640
  · rw [if_pos h3]
  rw [if_neg h3]
  rcases rdCellInfo b.id with _ | ⟨nm', fmt, q, p⟩
  · rfl
  · simp only
    unfold rdStoreCells
    simp only
    split_ifs <;> rfl

theorem ensStore_cfgB {f : RdFixed} : ∀ (bs : List Spec.RdBlk) (m : RdMem), (∀ b ∈ bs, b.id ≠ 0) →
    (ensStore f bs m).cfgB = m.cfgB
  | [], _, _ => rfl
  | b :: bs, m, h => by
    rw [show ensStore f (b :: bs) m = ensStore f bs (blkStore f b m) from rfl,
      ensStore_cfgB bs _ (fun x hx => h x (by simp [hx])), blkStore_cfgB, if_neg (h b (by simp))]

theorem ok_fixed {f : RdFixed} {e : Spec.RdEns} (h : e.Ok f) {b : Spec.RdBlk} (hb : b ∈ e.blks) (hid : b.id = 0) :
    ∃ rest, e.blks = b :: rest ∧ (∀ x ∈ rest, x.id ≠ 0) ∧ 57 ≤ b.pl.length := by
  obtain ⟨fx, vr, rest, hbl, hfx, hvid, _, hrest⟩ := h.shape
  have hr : ∀ x ∈ rest, x.id ≠ 0 := by
    intro x hx hc
    obtain ⟨_, k, hk, _⟩ := hrest x hx
    rw [hc] at hk
    exact absurd hk (by simp [Spec.rdMin])
  rw [hbl] at hb
  rcases List.mem_cons.mp hb with rfl | hb
  · refine ⟨vr :: rest, hbl, ?_, hfx.2.1⟩
    intro x hx
    rcases List.mem_cons.mp hx with rfl | hx
    · rw [hvid]; decide
    · exact hr x hx
  rcases List.mem_cons.mp hb with rfl | hb
  · rw [hvid] at hid; exact absurd hid (by decide)
  · exact absurd hid (hr b hb)

theorem memAt_last_cfgB {f : RdFixed} {es : List Spec.RdEns} {n : ℕ} {e : Spec.RdEns} (he : es[n]? = some e) (hok : e.Ok f)
    {b : Spec.RdBlk} (hb : b ∈ e.blks) (hid : b.id = 0) (m : RdMem) :
    (memAt f (es.take (n + 1)) m).cfgB = b.pl.take 57 := by
  rw [List.take_add_one, he]
  have hap : ∀ (l : List Spec.RdEns) (m : RdMem), memAt f (l ++ [e]) m = ensAfter f e (memAt f l m) := by
    intro l
    induction l with
    | nil => intro m; rfl
    | cons a l ih => intro m; exact ih (ensAfter f a m)
  show (memAt f (es.take n ++ [e]) m).cfgB = _
  rw [hap]
  obtain ⟨rest, hbl, hr, hl⟩ := ok_fixed hok hb hid
  show (ensStore f e.blks _).cfgB = _
  rw [hbl]
  show (ensStore f rest (blkStore f b _)).cfgB = _
  rw [ensStore_cfgB rest _ hr, blkStore_cfgB, if_pos hid]

/-- C124: the attributes of a dataset are the setup recorded in the fixed leader of the last ensemble read. -/
theorem rdi_config {env : RdEnv} {junk : RdName → ℕ → ℕ → ℕ → ℚ} {f : RdFixed} (hf : 0 < f.nCells) {cells nens n : ℕ}
    {es : List Spec.RdEns} (hok : ∀ e ∈ es, e.Ok f) {ds : RdDs} (h : RdDsOf env junk f cells es nens (.ok ds))
    (hn : min nens (es.length - 1) = n + 1) {e : Spec.RdEns} (he : es[n]? = some e) {b : Spec.RdBlk} (hb : b ∈ e.blks)
    (hid : b.id = 0) {S : Spec.RdSetup} {extra : List ℕ} (hpl : b.pl = Spec.record S.fields ++ extra)
    (hr : ∀ x ∈ S.fields, Spec.inRange x.1 x.2) : ds.cfg = S.cfg := by
  obtain ⟨o, -, has⟩ := rdDsOf_spec hf hok h
  have h1 := (rdAssemble_ok has.symm).1
  rw [hn, memAt_last_cfgB he (hok e (List.mem_of_getElem? he)) hb hid, hpl,
    List.take_append_of_le_length (by rw [record_length, setup_sizes]; decide),
    List.take_of_length_le (by rw [record_length, setup_sizes]; decide)] at h1
  have h2 := rdi_config_decoded hr []
  rw [List.append_nil] at h2
  rw [h2] at h1
  exact (Except.ok.inj h1).symm

/-- C123: the range coordinate: the distance of the first cell, then steps of one cell size. -/
theorem rdi_range {env : RdEnv} {junk : RdName → ℕ → ℕ → ℕ → ℚ} {f : RdFixed} (hf : 0 < f.nCells) {cells nens n : ℕ}
    {es : List Spec.RdEns} (hok : ∀ e ∈ es, e.Ok f) {ds : RdDs} (h : RdDsOf env junk f cells es nens (.ok ds))
    (hn : min nens (es.length - 1) = n + 1) {e : Spec.RdEns} (he : es[n]? = some e) {b : Spec.RdBlk} (hb : b ∈ e.blks)
    (hid : b.id = 0) {S : Spec.RdSetup} {extra : List ℕ} (hpl : b.pl = Spec.record S.fields ++ extra)
    (hr : ∀ x ∈ S.fields, Spec.inRange x.1 x.2) {k : ℕ} (hk : k < cells) :
    ds.range[k]? = some (((S.bin1 + k * S.cellSize : ℕ) : ℚ) / 100) := by
  have hcfg := rdi_config hf hok h hn he hb hid hpl hr
  obtain ⟨o, -, has⟩ := rdDsOf_spec hf hok h
  obtain ⟨-, -, -, -, h5, -⟩ := rdAssemble_ok has.symm
  rw [h5, List.getElem?_map, List.getElem?_range hk, hcfg]
  simp only [Option.map_some, Option.some.injEq, Spec.RdSetup.cfg]
  push_cast
  ring

/-- C123: the sampling rate is the reciprocal of pings per ensemble times seconds between pings, whatever the
recorded times are; it is infinite when the instrument pings as fast as it can (zero seconds). -/
theorem rdi_fs {env : RdEnv} {junk : RdName → ℕ → ℕ → ℕ → ℚ} {f : RdFixed} (hf : 0 < f.nCells) {cells nens n : ℕ}
    {es : List Spec.RdEns} (hok : ∀ e ∈ es, e.Ok f) {ds : RdDs} (h : RdDsOf env junk f cells es nens (.ok ds))
    (hn : min nens (es.length - 1) = n + 1) {e : Spec.RdEns} (he : es[n]? = some e) {b : Spec.RdBlk} (hb : b ∈ e.blks)
    (hid : b.id = 0) {S : Spec.RdSetup} {extra : List ℕ} (hpl : b.pl = Spec.record S.fields ++ extra)
    (hr : ∀ x ∈ S.fields, Spec.inRange x.1 x.2) :
    (0 < S.pings → 0 < 6000 * S.minutes + 100 * S.seconds + S.hundredths →
      ds.fs = some ((100 : ℚ) / (S.pings * (6000 * S.minutes + 100 * S.seconds + S.hundredths : ℕ)))) ∧
    (6000 * S.minutes + 100 * S.seconds + S.hundredths = 0 → ds.fs = none) := by
  have hcfg := rdi_config hf hok h hn he hb hid hpl hr
  obtain ⟨o, -, has⟩ := rdDsOf_spec hf hok h
  obtain ⟨-, -, -, -, -, h6, -⟩ := rdAssemble_ok has.symm
  have hsec : S.cfg.secBetween * S.cfg.pings =
      S.pings * (6000 * S.minutes + 100 * S.seconds + S.hundredths : ℕ) / 100 := by
    simp only [Spec.RdSetup.cfg]
    push_cast
    ring
  rw [h6, hcfg]
  unfold rdFs
  rw [hsec]
  constructor
  · intro hp hs
    have h1 : (S.pings : ℚ) ≠ 0 := by exact_mod_cast hp.ne'
    have h2 : ((6000 * S.minutes + 100 * S.seconds + S.hundredths : ℕ) : ℚ) ≠ 0 := by exact_mod_cast hs.ne'
    rw [if_neg (div_ne_zero (mul_ne_zero h1 h2) (by norm_num)), inv_div]
  · intro hs
    rw [hs, if_pos (by simp)]

/-- C123: beams come first: the velocity of beam `k` in cell `c` at ensemble `i` is at `[k, c, i]`, as recorded. -/
theorem rdi_vel_layout {env : RdEnv} {junk : RdName → ℕ → ℕ → ℕ → ℚ} {f : RdFixed} (hf : 0 < f.nCells) {cells nens : ℕ}
    {es : List Spec.RdEns} (hok : ∀ e ∈ es, e.Ok f) {ds : RdDs} (h : RdDsOf env junk f cells es nens (.ok ds)) {i : ℕ}
    {e : Spec.RdEns} (hi : i < ds.width) (he : es[i]? = some e) {b : Spec.RdBlk} (hb : Spec.LastBlk e b) (hid : b.id = 256)
    {w : ℕ → ℕ → ℤ} {extra : List ℕ} (hpl : b.pl = Spec.cellRecord .h f.nCells w ++ extra)
    (hw : ∀ c < f.nCells, ∀ k < 4, Spec.inRange .h (w c k)) {c k : ℕ} (hc : c < f.nCells) (hk : k < 4) :
    ds.elem .vel k c i = if w c k = -32768 then none else some ((w c k : ℚ) / 1000) := by
  rw [(rdi_shape hf hok h).1] at hi
  obtain ⟨o, ho, has⟩ := rdDsOf_spec hf hok h
  obtain ⟨-, -, -, -, -, -, -, h8, -⟩ := rdAssemble_ok has.symm
  rw [h8, rdi_cell_values hf hok ho hi he (nm := .vel) rfl hb hid hpl hw junk hc hk]
  simp only [true_and, mul_one_div]

/-- C123 (refuted): a file with a single ensemble, or `nens=0`, raises an unbound-variable error. -/
theorem rdi_short_false {env : RdEnv} {junk : RdName → ℕ → ℕ → ℕ → ℚ} {f : RdFixed} (hf : 0 < f.nCells) {cells nens : ℕ}
    {es : List Spec.RdEns} (hok : ∀ e ∈ es, e.Ok f) {r : Except Err RdDs} (h : RdDsOf env junk f cells es nens r)
    (h0 : nens = 0 ∨ es.length ≤ 1) : r = .error .unboundLocal := by
  obtain ⟨o, ho, has⟩ := rdDsOf_spec hf hok h
  have hn : min nens (es.length - 1) = 0 := by omega
  have hc := (rdReadOf_cols hf hok ho).2
  rw [hn] at has hc
  rw [has]
  unfold rdAssemble
  rw [hc]
  simp [ensCols]

theorem rdi_outcome {env : RdEnv} {junk : RdName → ℕ → ℕ → ℕ → ℚ} {f : RdFixed} (hf : 0 < f.nCells)
    {cells nens n : ℕ} {es : List Spec.RdEns} (hok : ∀ e ∈ es, e.Ok f) {r : Except Err RdDs}
    (h : RdDsOf env junk f cells es nens r) (hn : min nens (es.length - 1) = n + 1)
    {e : Spec.RdEns} (he : es[n]? = some e) {b : Spec.RdBlk} (hb : b ∈ e.blks)
    (hid : b.id = 0) {S : Spec.RdSetup} {extra : List ℕ} (hpl : b.pl = Spec.record S.fields ++ extra)
    (hr : ∀ x ∈ S.fields, Spec.inRange x.1 x.2) {e0 : Spec.RdEns} (he0 : es[0]? = some e0) {b0 : Spec.RdBlk}
    (hb0 : b0 ∈ e0.blks) (hid0 : b0.id = 128) {L : Spec.RdLeader} {extra0 : List ℕ}
    (hpl0 : b0.pl = Spec.record L.fields ++ extra0) (hr0 : ∀ x ∈ L.fields, Spec.inRange x.1 x.2) (t : CivilTime)
    (us : ℕ) (hy : t.year = L.year f) (hmo : (t.month : ℤ) = L.item f 1) (hd : (t.day : ℤ) = L.item f 2)
    (hh : (t.hour : ℤ) = L.item f 3) (hmi : (t.minute : ℤ) = L.item f 4) (hs : (t.second : ℤ) = L.item f 5)
    (hus : (us : ℤ) = L.item f 6) :
    (t.valid ∧ us < 100 → ∃ ds, r = .ok ds) ∧ (¬ (t.valid ∧ us < 100) → r = .error .indexError) := by
  obtain ⟨o, ho, has⟩ := rdDsOf_spec hf hok h
  have ht := rdi_time_values hf hok ho (i := 0) (by omega) he0 hb0 hid0 hpl0 hr0 t us hy hmo hd hh hmi hs hus
  rw [has]
  unfold rdAssemble
  have h2 := rdi_config_decoded hr []
  rw [List.append_nil] at h2
  rw [hn, memAt_last_cfgB he (hok e (List.mem_of_getElem? he)) hb hid, hpl,
    List.take_append_of_le_length (by rw [record_length, setup_sizes]; decide),
    List.take_of_length_le (by rw [record_length, setup_sizes]; decide), h2]
  cases hc : o.cols with
  | nil => rw [hc] at ht; cases ht
  | cons col rest =>
    rw [hc] at ht
    simp only [List.getElem?_cons_zero, Option.map_some, Option.some.injEq] at ht
    simp only
    rw [ht]
    constructor
    · intro hv
      rw [if_pos hv, if_neg (by simp)]
      exact ⟨_, rfl⟩
    · intro hv
      rw [if_neg hv, if_pos rfl]

/-- C123: a file of regular ensembles whose first clock shows a date gives a dataset. -/
theorem rdi_opens {env : RdEnv} {junk : RdName → ℕ → ℕ → ℕ → ℚ} {f : RdFixed} (hf : 0 < f.nCells)
    {cells nens n : ℕ} {es : List Spec.RdEns} (hok : ∀ e ∈ es, e.Ok f) {r : Except Err RdDs}
    (h : RdDsOf env junk f cells es nens r) (hn : min nens (es.length - 1) = n + 1)
    {e : Spec.RdEns} (he : es[n]? = some e) {b : Spec.RdBlk} (hb : b ∈ e.blks)
    (hid : b.id = 0) {S : Spec.RdSetup} {extra : List ℕ} (hpl : b.pl = Spec.record S.fields ++ extra)
    (hr : ∀ x ∈ S.fields, Spec.inRange x.1 x.2) {e0 : Spec.RdEns} (he0 : es[0]? = some e0) {b0 : Spec.RdBlk}
    (hb0 : b0 ∈ e0.blks) (hid0 : b0.id = 128) {L : Spec.RdLeader} {extra0 : List ℕ}
    (hpl0 : b0.pl = Spec.record L.fields ++ extra0) (hr0 : ∀ x ∈ L.fields, Spec.inRange x.1 x.2) (t : CivilTime)
    (us : ℕ) (hy : t.year = L.year f) (hmo : (t.month : ℤ) = L.item f 1) (hd : (t.day : ℤ) = L.item f 2)
    (hh : (t.hour : ℤ) = L.item f 3) (hmi : (t.minute : ℤ) = L.item f 4) (hs : (t.second : ℤ) = L.item f 5)
    (hus : (us : ℤ) = L.item f 6) (hv : t.valid) (hu : us < 100) : ∃ ds, r = .ok ds :=
  (rdi_outcome hf hok h hn he hb hid hpl hr he0 hb0 hid0 hpl0 hr0 t us hy hmo hd hh hmi hs hus).1 ⟨hv, hu⟩

/-- C123 (refuted): when the clock of the first ensemble shows no date, nothing is returned: `IndexError`,
whatever the other ensembles hold. -/
theorem rdi_first_time_false {env : RdEnv} {junk : RdName → ℕ → ℕ → ℕ → ℚ} {f : RdFixed} (hf : 0 < f.nCells)
    {cells nens n : ℕ} {es : List Spec.RdEns} (hok : ∀ e ∈ es, e.Ok f) {r : Except Err RdDs}
    (h : RdDsOf env junk f cells es nens r) (hn : min nens (es.length - 1) = n + 1)
    {e : Spec.RdEns} (he : es[n]? = some e) {b : Spec.RdBlk} (hb : b ∈ e.blks)
    (hid : b.id = 0) {S : Spec.RdSetup} {extra : List ℕ} (hpl : b.pl = Spec.record S.fields ++ extra)
    (hr : ∀ x ∈ S.fields, Spec.inRange x.1 x.2) {e0 : Spec.RdEns} (he0 : es[0]? = some e0) {b0 : Spec.RdBlk}
    (hb0 : b0 ∈ e0.blks) (hid0 : b0.id = 128) {L : Spec.RdLeader} {extra0 : List ℕ}
    (hpl0 : b0.pl = Spec.record L.fields ++ extra0) (hr0 : ∀ x ∈ L.fields, Spec.inRange x.1 x.2) (t : CivilTime)
    (us : ℕ) (hy : t.year = L.year f) (hmo : (t.month : ℤ) = L.item f 1) (hd : (t.day : ℤ) = L.item f 2)
    (hh : (t.hour : ℤ) = L.item f 3) (hmi : (t.minute : ℤ) = L.item f 4) (hs : (t.second : ℤ) = L.item f 5)
    (hus : (us : ℤ) = L.item f 6) (hv : ¬ t.valid) : r = .error .indexError :=
  (rdi_outcome hf hok h hn he hb hid hpl hr he0 hb0 hid0 hpl0 hr0 t us hy hmo hd hh hmi hs hus).2 (fun hc => hv hc.1)

/-! ### An example -/

/-- A downward 300 kHz instrument with two cells of 1 m, 30 pings 2 s apart, recording in ship axes. -/
def exSetup : Spec.RdSetup where
  fw := 16
  rev := 28
  freqIdx := 2
  convex := true
  otherLow := 4
  up := false
  angleIdx := 1
  otherA := 0
  beam5 := false
  otherB := 2
  sim := 0
  lagLen := 13
  beams := 4
  cells := 2
  pings := 30
  cellSize := 100
  blank := 88
  mode := 1
  minCorr := 64
  codeReps := 9
  minGood := 0
  maxErr := 2000
  minutes := 0
  seconds := 2
  hundredths := 0
  frame := .ship
  tilts := true
  three := true
  binMap := true
  otherC := 0
  misalign := -4500
  magVar := 0
  src := 125
  avail := 61
  bin1 := 190
  pulse := 101
  ref0 := 1
  ref1 := 5
  falseTarget := 50
  spare := 0
  lag := 13
  cpu := fun _ => 7
  bandwidth := 0
  power := 255
  spare2 := 0
  serial := 12345
  angle := 20

/-- An ensemble of that instrument, with the clock of the leader. -/
def exEnsC (clock : Fin 7 → ℤ) : Spec.RdEns :=
  ⟨0, [⟨0, Spec.record exSetup.fields ++ [0, 0]⟩, ⟨128, Spec.record { exLeader with clock2 := clock }.fields ++ [0, 0]⟩,
    ⟨256, Spec.cellRecord .h 2 exVel ++ []⟩], [0, 0, 9, 9]⟩

set_option maxRecDepth 10000 in
theorem exEnsC_ok (month : Fin 2) : (exEnsC ![21, 12 + month, 4, 5, 6, 7, 8]).Ok ⟨16, 1628, 2⟩ where
  tail := rfl
  small := by revert month; decide +kernel
  count := by revert month; decide +kernel
  shape := by
    refine ⟨_, _, _, rfl, ?_, rfl, by revert month; decide +kernel, ?_⟩
    · unfold Spec.rdFixedBlk; decide +kernel
    · intro b hb
      fin_cases hb
      exact ⟨by decide, 16, by decide, by decide +kernel⟩

/-- Three ensembles; the clock of the first one shows month `12 + month`. -/
def exFileC (month : Fin 2) : List Spec.RdEns :=
  [exEnsC ![21, 12 + month, 4, 5, 6, 7, 8], exEnsC ![21, 12 + (0 : Fin 2), 4, 5, 6, 7, 8],
    exEnsC ![21, 12 + (0 : Fin 2), 4, 5, 6, 7, 8]]

theorem exFileC_ok (month : Fin 2) : ∀ e ∈ exFileC month, e.Ok ⟨16, 1628, 2⟩ := by
  intro e he
  unfold exFileC at he
  fin_cases he
  · exact exEnsC_ok month
  · exact exEnsC_ok 0
  · exact exEnsC_ok 0

theorem exFileC_read (month : Fin 2) (nens : ℕ) (junk : RdName → ℕ → ℕ → ℕ → ℚ) :
    ∃ r, RdDsOf rdYes junk ⟨16, 1628, 2⟩ 2 (exFileC month) nens r := by
  obtain ⟨t, m, o, h1, h2⟩ := rdi_reads_columns (env := rdYes) (nens := nens) (f := ⟨16, 1628, 2⟩) (by decide)
    (exFileC_ok month) (s := exStart) rfl exStart_between
  refine ⟨rdAssemble junk (ensCells t.ens) m o, 2, exStart, le_refl _, rfl, exStart_between, ?_⟩
  unfold rdReadDs
  rw [h1]

theorem exFileC_outcome (month : Fin 2) (junk : RdName → ℕ → ℕ → ℕ → ℚ) {r : Except Err RdDs}
    (h : RdDsOf rdYes junk ⟨16, 1628, 2⟩ 2 (exFileC month) 10 r) :
    (month = 0 → ∃ ds, r = .ok ds) ∧ (month = 1 → r = .error .indexError) := by
  have := rdi_outcome (f := ⟨16, 1628, 2⟩) (by decide) (exFileC_ok month) h (n := 1) rfl
    (e := exEnsC ![21, 12 + (0 : Fin 2), 4, 5, 6, 7, 8]) rfl (b := ⟨0, Spec.record exSetup.fields ++ [0, 0]⟩)
    (by simp [exEnsC]) rfl rfl (by decide +kernel) (e0 := exEnsC ![21, 12 + month, 4, 5, 6, 7, 8]) rfl
    (b0 := ⟨128, Spec.record { exLeader with clock2 := ![21, 12 + month, 4, 5, 6, 7, 8] }.fields ++ [0, 0]⟩)
    (by simp [exEnsC]) rfl rfl (by clear h; revert month; decide +kernel) ⟨2021, 12 + month, 4, 5, 6, 7⟩ 8
    (by clear h; revert month; decide +kernel) (by clear h; revert month; decide +kernel) (by clear h; revert month; decide +kernel)
    (by clear h; revert month; decide +kernel) (by clear h; revert month; decide +kernel) (by clear h; revert month; decide +kernel)
    (by clear h; revert month; decide +kernel)
  constructor
  · rintro rfl
    exact this.1 (by decide +kernel)
  · rintro rfl
    exact this.2 (by decide +kernel)

/-- The example file: range 1.90 m and 2.90 m, one sample per minute, ship axes, and the error of a bad clock. -/
example (junk : RdName → ℕ → ℕ → ℕ → ℚ) : ∃ ds, RdDsOf rdYes junk ⟨16, 1628, 2⟩ 2 (exFileC 0) 10 (.ok ds) ∧
    ds.width = 2 ∧ ds.range[1]? = some (290 / 100) ∧ ds.fs = some (1 / 60) ∧ ds.cfg.frame = .ship ∧
    ds.cfg.model = "Workhorse".toList ∧ ds.cfg.misalign = -45 ∧ RdName.pressure ∈ ds.names ∧ RdName.amp ∉ ds.names ∧
    ds.elem .vel 3 1 0 = none := by
  obtain ⟨r, hr⟩ := exFileC_read 0 10 junk
  obtain ⟨ds, rfl⟩ := (exFileC_outcome 0 junk hr).1 rfl
  have hin : ∀ x ∈ exSetup.fields, Spec.inRange x.1 x.2 := by decide +kernel
  have hb : (⟨0, Spec.record exSetup.fields ++ [0, 0]⟩ : Spec.RdBlk) ∈
    (exEnsC ![21, 12 + (0 : Fin 2), 4, 5, 6, 7, 8]).blks := by simp [exEnsC]
  have hcfg := rdi_config (f := ⟨16, 1628, 2⟩) (by decide) (exFileC_ok 0) hr (n := 1) rfl rfl hb rfl rfl hin
  have hshape := rdi_shape (f := ⟨16, 1628, 2⟩) (by decide) (exFileC_ok 0) hr
  refine ⟨ds, hr, hshape.1, ?_, ?_, by rw [hcfg]; rfl, by rw [hcfg]; rfl, ?_, ?_, ?_, ?_⟩
  · rw [rdi_range (f := ⟨16, 1628, 2⟩) (by decide) (exFileC_ok 0) hr (n := 1) rfl rfl hb rfl rfl hin (k := 1) (by decide)]
    norm_num [exSetup]
  · rw [(rdi_fs (f := ⟨16, 1628, 2⟩) (by decide) (exFileC_ok 0) hr (n := 1) rfl rfl hb rfl rfl hin).1 (by decide)
      (by decide)]
    norm_num [exSetup]
  · rw [hcfg]
    norm_num [exSetup, Spec.RdSetup.cfg]
  · rw [rdi_names (f := ⟨16, 1628, 2⟩) (by decide) (exFileC_ok 0) hr]
    exact ⟨exEnsC ![21, 12 + (0 : Fin 2), 4, 5, 6, 7, 8], by simp [exFileC], _,
      List.mem_cons_of_mem _ (List.mem_cons_self ..), rfl, by decide⟩
  · rw [rdi_names (f := ⟨16, 1628, 2⟩) (by decide) (exFileC_ok 0) hr]
    rintro ⟨e, he, b, hb, hp, -⟩
    have he' : e = exEnsC ![21, 12 + (0 : Fin 2), 4, 5, 6, 7, 8] := by
      have : e ∈ [exEnsC ![21, 12 + (0 : Fin 2), 4, 5, 6, 7, 8], exEnsC ![21, 12 + (0 : Fin 2), 4, 5, 6, 7, 8]] := he
      simpa using this
    rw [he'] at hb
    fin_cases hb <;> exact absurd hp (by decide)
  · have := rdi_vel_layout (f := ⟨16, 1628, 2⟩) (by decide) (exFileC_ok 0) hr (i := 0)
      (e := exEnsC ![21, 12 + (0 : Fin 2), 4, 5, 6, 7, 8]) (by rw [hshape.1]; decide) rfl
      (b := ⟨256, Spec.cellRecord .h 2 exVel ++ []⟩) ⟨[⟨0, Spec.record exSetup.fields ++ [0, 0]⟩,
        ⟨128, Spec.record { exLeader with clock2 := ![21, 12 + (0 : Fin 2), 4, 5, 6, 7, 8] }.fields ++ [0, 0]⟩], [], rfl,
      by simp⟩ rfl (w := exVel) (extra := []) rfl (by decide +kernel) (c := 1) (k := 3) (by decide) (by decide)
    rw [this]
    norm_num [exVel]

example (junk : RdName → ℕ → ℕ → ℕ → ℚ) :
    RdDsOf rdYes junk ⟨16, 1628, 2⟩ 2 (exFileC 1) 10 (.error .indexError) ∧
    RdDsOf rdYes junk ⟨16, 1628, 2⟩ 2 (exFileC 0) 0 (.error .unboundLocal) := by
  obtain ⟨r, hr⟩ := exFileC_read 1 10 junk
  obtain ⟨r', hr'⟩ := exFileC_read 0 0 junk
  have h1 := (exFileC_outcome 1 junk hr).2 rfl
  have h2 := rdi_short_false (f := ⟨16, 1628, 2⟩) (by decide) (exFileC_ok 0) hr' (Or.inl rfl)
  exact ⟨h1 ▸ hr, h2 ▸ hr'⟩

end Dolfyn
