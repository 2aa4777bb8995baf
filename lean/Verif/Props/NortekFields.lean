import Verif.Model.NortekFields
import Verif.Props.Clock
import Mathlib.Data.List.GetD
import Mathlib.Tactic.Linarith
import Mathlib.Tactic.NormNum
import Mathlib.Tactic.Ring
import Mathlib.Tactic.FieldSimp
import Mathlib.Tactic.FinCases
import Mathlib.Data.Fintype.Fin

/-! C109, C110: numbers decoded from Nortek Vector, Vectrino and AWAC records. -/

namespace Dolfyn

/-- A number below 65536, or a signed one in two's complement, written as two bytes. -/
def Spec.put16 (le : Bool) (v : ℤ) : List ℕ :=
  let u := (v % 65536).toNat
  if le then [u % 256, u / 256] else [u / 256, u % 256]

/-- The six clock bytes of a record. -/
def Spec.clock6 (t : CivilTime) : List ℕ :=
  [Spec.toBCD t.minute, Spec.toBCD t.second, Spec.toBCD t.day, Spec.toBCD t.hour,
    Spec.toBCD (t.year % 100).toNat, Spec.toBCD t.month]

/-- An unsigned 16-bit number. -/
def Spec.U16 (v : ℤ) : Prop := 0 ≤ v ∧ v < 65536

/-- A signed 16-bit number. -/
def Spec.I16 (v : ℤ) : Prop := -32768 ≤ v ∧ v < 32768

instance (v : ℤ) : Decidable (Spec.U16 v) := by unfold Spec.U16; infer_instance
instance (v : ℤ) : Decidable (Spec.I16 v) := by unfold Spec.I16; infer_instance

theorem put16_length (le : Bool) (v : ℤ) : (Spec.put16 le v).length = 2 := by
  unfold Spec.put16; cases le <;> rfl

theorem sUnpack_H (le : Bool) (f : List SFmt) (v : ℤ) (r : List ℕ) (hv : Spec.U16 v) :
    sUnpack le (.H :: f) (Spec.put16 le v ++ r) = v :: sUnpack le f r := by
  obtain ⟨h0, h1⟩ := hv
  have hm : v % 65536 = v := Int.emod_eq_of_lt h0 h1
  unfold Spec.put16
  rw [hm]
  cases le
  · simp only [Bool.false_eq_true, ↓reduceIte, List.cons_append, List.nil_append, sUnpack, word]
    congr 1; omega
  · simp only [↓reduceIte, List.cons_append, List.nil_append, sUnpack, word]
    congr 1; omega

theorem sUnpack_h (le : Bool) (f : List SFmt) (v : ℤ) (r : List ℕ) (hv : Spec.I16 v) :
    sUnpack le (.h :: f) (Spec.put16 le v ++ r) = v :: sUnpack le f r := by
  obtain ⟨h0, h1⟩ := hv
  have key : ∀ u : ℕ, u = (v % 65536).toNat → sInt16 u = v := by
    intro u hu
    unfold sInt16
    split_ifs <;> omega
  unfold Spec.put16
  cases le
  · simp only [Bool.false_eq_true, ↓reduceIte, List.cons_append, List.nil_append, sUnpack, word]
    congr 1; apply key; omega
  · simp only [↓reduceIte, List.cons_append, List.nil_append, sUnpack, word]
    congr 1; apply key; omega

theorem sUnpack_B (le : Bool) (f : List SFmt) (a : ℕ) (r : List ℕ) :
    sUnpack le (.B :: f) (a :: r) = (a : ℤ) :: sUnpack le f r := by
  rw [sUnpack]

theorem sUnpack_nil (le : Bool) (r : List ℕ) : sUnpack le [] r = [] := by
  cases r <;> simp [sUnpack]

/-- **C109.** The 20 bytes of a Vector sample: every number written into them is read back in its place –
pressure from its three bytes in dbar, velocities signed and scaled, amplitudes and correlations of each
beam – in either byte order. -/
theorem vec_data_decoded (le : Bool) (scale : ℚ) (al ct am m0 m1 m2 c0 c1 c2 : ℕ) (p a1 v0 v1 v2 : ℤ)
    (hp : 0 ≤ p ∧ p < 16777216) (ha : Spec.U16 a1) (h0 : Spec.I16 v0) (h1 : Spec.I16 v1)
    (h2 : Spec.I16 v2) :
    vecData le scale ([al, ct, (p / 65536).toNat, am] ++ Spec.put16 le (p % 65536) ++ Spec.put16 le a1 ++
      Spec.put16 le v0 ++ Spec.put16 le v1 ++ Spec.put16 le v2 ++ [m0, m1, m2, c0, c1, c2]) =
    .ok { ana2lsb := al, count := ct, ana2msb := am, ana1 := a1, pressure := p / 1000
          vel := fun b => (![v0, v1, v2] b : ℤ) * scale / 1000
          amp := ![m0, m1, m2], corr := ![c0, c1, c2] } := by
  unfold vecData
  rw [if_neg (by simp [put16_length])]
  have hl : Spec.U16 (p % 65536) := ⟨by omega, by omega⟩
  simp only [List.append_assoc, List.cons_append, List.nil_append]
  rw [sUnpack_B, sUnpack_B, sUnpack_B, sUnpack_B, sUnpack_H _ _ _ _ hl, sUnpack_H _ _ _ _ ha,
    sUnpack_h _ _ _ _ h0, sUnpack_h _ _ _ _ h1, sUnpack_h _ _ _ _ h2, sUnpack_B, sUnpack_B, sUnpack_B,
    sUnpack_B, sUnpack_B, sUnpack_B, sUnpack_nil]
  simp only
  congr 1
  have hpe : (((p / 65536).toNat : ℤ) : ℚ) * 65536 + ((p % 65536 : ℤ) : ℚ) = p := by
    have : ((p / 65536).toNat : ℤ) * 65536 + p % 65536 = p := by omega
    exact_mod_cast this
  rw [hpe]
  congr 1
  funext b
  fin_cases b <;> simp <;> ring

example : ∃ d, vecData true (1 / 10) ([1, 7, 0, 0] ++ Spec.put16 true 10250 ++ Spec.put16 true 3 ++
    Spec.put16 true (-1234) ++ Spec.put16 true 500 ++ Spec.put16 true (-1) ++ [80, 81, 82, 97, 98, 99]) =
    .ok d ∧ d.pressure = 10250 / 1000 ∧ d.vel 0 = -1234 / 10000 ∧ d.corr 2 = 99 := by
  refine ⟨_, vec_data_decoded true (1 / 10) 1 7 0 80 81 82 97 98 99 10250 3 (-1234) 500 (-1) (by decide)
    (by decide) (by decide) (by decide) (by decide), ?_, ?_, ?_⟩
  · norm_num
  · norm_num
  · rfl

/-- **C109.** The 18 bytes of a Vectrino sample. -/
theorem vno_data_decoded (le : Bool) (scale : ℚ) (st ct m0 m1 m2 m3 c0 c1 c2 c3 : ℕ)
    (v0 v1 v2 v3 : ℤ) (h0 : Spec.I16 v0) (h1 : Spec.I16 v1) (h2 : Spec.I16 v2) (h3 : Spec.I16 v3) :
    vnoData le scale ([st, ct] ++ Spec.put16 le v0 ++ Spec.put16 le v1 ++ Spec.put16 le v2 ++
      Spec.put16 le v3 ++ [m0, m1, m2, m3, c0, c1, c2, c3]) =
    .ok { status := st, count := ct, vel := fun b => (![v0, v1, v2, v3] b : ℤ) * scale / 1000
          amp := ![m0, m1, m2, m3], corr := ![c0, c1, c2, c3] } := by
  unfold vnoData
  rw [if_neg (by simp [put16_length])]
  simp only [List.append_assoc, List.cons_append, List.nil_append]
  rw [sUnpack_B, sUnpack_B, sUnpack_h _ _ _ _ h0, sUnpack_h _ _ _ _ h1, sUnpack_h _ _ _ _ h2,
    sUnpack_h _ _ _ _ h3, sUnpack_B, sUnpack_B, sUnpack_B, sUnpack_B, sUnpack_B, sUnpack_B, sUnpack_B,
    sUnpack_B, sUnpack_nil]
  simp only
  congr 1
  congr 1
  funext b
  fin_cases b <;> simp <;> ring

/-- **C109 (part).** The 24 bytes of a Vector system record (size, clock, battery, sound speed, heading,
pitch, roll, temperature, error, status, analog input): read back exactly, with negative pitch and roll,
provided the water is not below 0 °C. Missing: temperatures below zero (see the next theorem). -/
theorem vec_sysdata_decoded_partial (le : Bool) (t : CivilTime) (hv : t.valid) (y0 : 1990 ≤ t.year)
    (y1 : t.year ≤ 2089) (s0 s1 er st : ℕ) (ba cs he pi ro te an : ℤ) (hba : Spec.U16 ba)
    (hcs : Spec.U16 cs) (hhe : Spec.I16 he) (hpi : Spec.I16 pi) (hro : Spec.I16 ro) (hte : Spec.I16 te)
    (hte0 : 0 ≤ te) (han : Spec.U16 an) :
    vecSysdata le ([s0, s1] ++ Spec.clock6 t ++ Spec.put16 le ba ++ Spec.put16 le cs ++
      Spec.put16 le he ++ Spec.put16 le pi ++ Spec.put16 le ro ++ Spec.put16 le te ++ [er, st] ++
      Spec.put16 le an) =
    .ok { time := t, batt := ba / 10, cSound := cs / 10, heading := he / 10, pitch := pi / 10
          roll := ro / 10, temp := te / 100, error := er, status := st, anaIn := an } := by
  have ht := rd_time_roundtrip t hv y0 y1 []
  have hte' : Spec.U16 te := ⟨hte0, by unfold Spec.I16 at hte; omega⟩
  unfold vecSysdata Spec.clock6
  simp only [List.append_assoc, List.cons_append, List.nil_append, List.append_nil, List.drop_succ_cons,
    List.drop_zero, List.take_succ_cons, List.take_zero] at ht ⊢
  rw [ht]
  simp only [bind, Except.bind]
  rw [if_neg (by simp [put16_length])]
  have hand : Spec.put16 le an = Spec.put16 le an ++ [] := by simp
  rw [hand, sUnpack_H _ _ _ _ hba, sUnpack_H _ _ _ _ hcs, sUnpack_h _ _ _ _ hhe, sUnpack_h _ _ _ _ hpi,
    sUnpack_h _ _ _ _ hro, sUnpack_H _ _ _ _ hte', sUnpack_B, sUnpack_B, sUnpack_H _ _ _ _ han,
    sUnpack_nil]

/-- **C109.** A Vector in water of −1.80 °C reports 653.56 °C: the temperature is unpacked unsigned. -/
theorem vec_sysdata_cold_false : ∃ d : VecSys,
    vecSysdata true ([14, 0] ++ [0x00, 0x00, 0x01, 0x12, 0x12, 0x02] ++ Spec.put16 true 120 ++
      Spec.put16 true 14500 ++ Spec.put16 true 900 ++ Spec.put16 true (-20) ++ Spec.put16 true 15 ++
      Spec.put16 true (-180) ++ [0, 0] ++ Spec.put16 true 0) = .ok d ∧
    d.pitch = -2 ∧ d.temp = 65356 / 100 ∧ d.temp ≠ -180 / 100 := by
  refine ⟨_, rfl, ?_, ?_, ?_⟩
  · decide +kernel
  · decide +kernel
  · decide +kernel

theorem flat_length {α : Type} (n m : ℕ) (v : ℕ → ℕ → α) :
    ((List.range n).flatMap fun b => (List.range m).map (v b)).length = n * m := by
  induction n with
  | zero => simp
  | succ n ih =>
    rw [List.range_succ, List.flatMap_append, List.length_append, ih]
    simp [Nat.succ_mul]

theorem flat_get {α : Type} (n m : ℕ) (v : ℕ → ℕ → α) (b k : ℕ) (hb : b < n) (hk : k < m) :
    ((List.range n).flatMap fun b => (List.range m).map (v b))[b * m + k]? = some (v b k) := by
  induction n with
  | zero => omega
  | succ n ih =>
    rw [List.range_succ, List.flatMap_append]
    rcases Nat.lt_succ_iff_lt_or_eq.mp hb with h | rfl
    · rw [List.getElem?_append_left]
      · exact ih h
      · rw [flat_length]
        have : (b + 1) * m ≤ n * m := Nat.mul_le_mul_right m h
        rw [Nat.succ_mul] at this
        omega
    · rw [List.getElem?_append_right (by rw [flat_length]; omega), flat_length]
      have : b * m + k - b * m = k := by omega
      rw [this]
      simp [hk]

theorem sUnpack_hs (le : Bool) (f : List SFmt) (vs : List ℤ) (hv : ∀ v ∈ vs, Spec.I16 v) (r : List ℕ) :
    sUnpack le (List.replicate vs.length .h ++ f) (vs.flatMap (Spec.put16 le) ++ r) =
      vs ++ sUnpack le f r := by
  induction vs with
  | nil => simp
  | cons v vs ih =>
    simp only [List.length_cons, List.replicate_succ, List.cons_append, List.flatMap_cons,
      List.append_assoc]
    rw [sUnpack_h _ _ _ _ (hv v (by simp)), ih fun w hw => hv w (by simp [hw])]

theorem sUnpack_Bs (le : Bool) (vs : List ℕ) :
    sUnpack le (List.replicate vs.length .B) vs = vs.map fun v : ℕ => (v : ℤ) := by
  induction vs with
  | nil => simp [sUnpack]
  | cons v vs ih => rw [List.length_cons, List.replicate_succ, sUnpack_B, ih, List.map_cons]

theorem flatMap_put16_length (le : Bool) (vs : List ℤ) :
    (vs.flatMap (Spec.put16 le)).length = 2 * vs.length := by
  induction vs with
  | nil => rfl
  | cons v vs ih => rw [List.flatMap_cons, List.length_append, put16_length, ih, List.length_cons]; omega

/-- The velocities of all cells, beam by beam. -/
def Spec.byBeam {α : Type} (n nbins : ℕ) (v : ℕ → ℕ → α) : List α :=
  (List.range n).flatMap fun b => (List.range nbins).map (v b)

/-- The bytes of an AWAC profile after the id: size, clock, ten numbers, 88 spare bytes, velocities, then
amplitudes (System Integrator Manual). -/
def Spec.awacBytes (le : Bool) (n nbins : ℕ) (size spare : List ℕ) (t : CivilTime)
    (er a1 ba cs he pi ro : ℤ) (p : ℤ) (st : ℕ) (te : ℤ) (v : ℕ → ℕ → ℤ) (a : ℕ → ℕ → ℕ) : List ℕ :=
  size ++ (Spec.clock6 t ++ (Spec.put16 le er ++ (Spec.put16 le a1 ++ (Spec.put16 le ba ++
    (Spec.put16 le cs ++ (Spec.put16 le he ++ (Spec.put16 le pi ++ (Spec.put16 le ro ++
    ([(p / 65536).toNat, st] ++ (Spec.put16 le (p % 65536) ++ (Spec.put16 le te ++ (spare ++
    ((Spec.byBeam n nbins v).flatMap (Spec.put16 le) ++ Spec.byBeam n nbins a)))))))))))))

/-- What `read_awac_profile` stores for any values written. -/
theorem awac_profile_stored (le : Bool) (n nbins : ℕ) (hn : n ≤ 3) (size spare : List ℕ)
    (hsz : size.length = 2) (hsp : spare.length = 88) (t : CivilTime) (hv : t.valid)
    (y0 : 1990 ≤ t.year) (y1 : t.year ≤ 2089) (er a1 ba cs he pi ro p : ℤ) (st : ℕ) (te : ℤ)
    (v : ℕ → ℕ → ℤ) (a : ℕ → ℕ → ℕ)
    (her : Spec.U16 er) (ha1 : Spec.U16 a1) (hba : Spec.U16 ba) (hcs : Spec.U16 cs) (hhe : Spec.U16 he)
    (hpi : Spec.U16 pi) (hro : Spec.U16 ro) (hp : 0 ≤ p ∧ p < 16777216) (hte : Spec.U16 te)
    (hvel : ∀ b k, b < n → k < nbins → Spec.I16 (v b k)) :
    ∃ d, awacProfile le n nbins (Spec.awacBytes le n nbins size spare t er a1 ba cs he pi ro p st te v a) =
        .ok d ∧
      d.time = t ∧ d.error = er ∧ d.ana1 = a1 ∧ d.batt = ba / 10 ∧ d.cSound = cs / 10 ∧
      d.heading = he / 10 ∧ d.pitch = pi / 10 ∧ d.roll = ro / 10 ∧ d.pressure = p / 1000 ∧
      d.status = st ∧ d.temp = te / 100 ∧
      (∀ b k, b < n → k < nbins → d.vel b k = some ((v b k : ℚ) / 1000) ∧ d.amp b k = a b k) ∧
      (∀ b k, n ≤ b → d.vel b k = none) := by
  have ht := rd_time_roundtrip t hv y0 y1 []
  obtain ⟨s0, s1, rfl⟩ : ∃ x y, size = [x, y] := by
    match size, hsz with
    | [x, y], _ => exact ⟨x, y, rfl⟩
  have hl : Spec.U16 (p % 65536) := ⟨by omega, by omega⟩
  have hvs : ∀ w ∈ Spec.byBeam n nbins v, Spec.I16 w := by
    intro w hw
    unfold Spec.byBeam at hw
    simp only [List.mem_flatMap, List.mem_range, List.mem_map] at hw
    obtain ⟨b, hb, k, hk, rfl⟩ := hw
    exact hvel b k hb hk
  have hlv : (Spec.byBeam n nbins v).length = n * nbins := flat_length n nbins v
  have hla : (Spec.byBeam n nbins a).length = n * nbins := flat_length n nbins a
  have hlen : (Spec.awacBytes le n nbins [s0, s1] spare t er a1 ba cs he pi ro p st te v a).length =
      116 + n * 3 * nbins := by
    unfold Spec.awacBytes Spec.clock6
    simp only [List.length_append, put16_length, flatMap_put16_length, hlv, hla, hsp, List.length_cons,
      List.length_nil]
    have : n * 3 * nbins = 3 * (n * nbins) := by ring
    omega
  have hd2 : ((Spec.awacBytes le n nbins [s0, s1] spare t er a1 ba cs he pi ro p st te v a).drop 2).take 6 =
      Spec.clock6 t := by
    unfold Spec.awacBytes Spec.clock6
    simp
  have hd8 : ((Spec.awacBytes le n nbins [s0, s1] spare t er a1 ba cs he pi ro p st te v a).drop 8).take 20 =
      Spec.put16 le er ++ (Spec.put16 le a1 ++ (Spec.put16 le ba ++
    (Spec.put16 le cs ++ (Spec.put16 le he ++ (Spec.put16 le pi ++ (Spec.put16 le ro ++
    ([(p / 65536).toNat, st] ++ (Spec.put16 le (p % 65536) ++ (Spec.put16 le te ++ []))))))))) := by
    unfold Spec.awacBytes Spec.clock6
    cases le <;> simp [Spec.put16]
  have hd116 : (Spec.awacBytes le n nbins [s0, s1] spare t er a1 ba cs he pi ro p st te v a).drop 116 =
      (Spec.byBeam n nbins v).flatMap (Spec.put16 le) ++ Spec.byBeam n nbins a := by
    unfold Spec.awacBytes Spec.clock6
    have hsp' : ∀ z : List ℕ, (spare ++ z).drop 88 = z := by
      intro z
      rw [← hsp, List.drop_left]
    cases le <;> simp [Spec.put16, hsp']
  have htmp : sUnpack le (List.replicate (n * nbins) .h ++ List.replicate (n * nbins) .B)
      ((Spec.byBeam n nbins v).flatMap (Spec.put16 le) ++ Spec.byBeam n nbins a) =
      Spec.byBeam n nbins v ++ (Spec.byBeam n nbins a).map fun v : ℕ => (v : ℤ) := by
    have h1 := sUnpack_hs le (List.replicate (n * nbins) .B) _ hvs (Spec.byBeam n nbins a)
    rw [hlv] at h1
    rw [h1]
    have h2 := sUnpack_Bs le (Spec.byBeam n nbins a)
    rw [hla] at h2
    rw [h2]
  unfold awacProfile
  rw [hlen, hd2, hd8, hd116, htmp]
  unfold Spec.clock6
  rw [show [Spec.toBCD t.minute, Spec.toBCD t.second, Spec.toBCD t.day, Spec.toBCD t.hour,
    Spec.toBCD (t.year % 100).toNat, Spec.toBCD t.month] = [Spec.toBCD t.minute, Spec.toBCD t.second,
    Spec.toBCD t.day, Spec.toBCD t.hour, Spec.toBCD (t.year % 100).toNat, Spec.toBCD t.month] ++ []
    from (List.append_nil _).symm, ht]
  simp only [bind, Except.bind]
  rw [if_neg (by simp), sUnpack_H _ _ _ _ her, sUnpack_H _ _ _ _ ha1, sUnpack_H _ _ _ _ hba,
    sUnpack_H _ _ _ _ hcs, sUnpack_H _ _ _ _ hhe, sUnpack_H _ _ _ _ hpi, sUnpack_H _ _ _ _ hro]
  simp only [List.cons_append, List.nil_append]
  rw [sUnpack_B, sUnpack_B, sUnpack_H _ _ _ _ hl, sUnpack_H _ _ _ _ hte, sUnpack_nil]
  simp only
  rw [if_neg (by omega)]
  refine ⟨_, rfl, rfl, rfl, rfl, rfl, rfl, rfl, rfl, rfl, ?_, rfl, rfl, ?_, ?_⟩
  · have : (65536 * (((p / 65536).toNat : ℕ) : ℤ) + p % 65536) = p := by omega
    simp only [this]
  · intro b k hb hk
    simp only [hb, hk, and_self, ↓reduceIte]
    have hbk : b * nbins + k < n * nbins := by
      have : (b + 1) * nbins ≤ n * nbins := Nat.mul_le_mul_right nbins hb
      rw [Nat.succ_mul] at this
      omega
    constructor
    · congr 2
      rw [List.getD_eq_getElem?_getD, List.getElem?_take_of_lt hk, List.getElem?_drop,
        List.getElem?_append_left (by rw [hlv]; exact hbk)]
      unfold Spec.byBeam
      rw [flat_get n nbins v b k hb hk]
      rfl
    · rw [List.getD_eq_getElem?_getD, List.getElem?_take_of_lt hk, List.getElem?_drop,
        List.getElem?_append_right (by rw [hlv, Nat.add_mul]; omega), hlv, List.getElem?_map]
      have : (b + n) * nbins + k - n * nbins = b * nbins + k := by rw [Nat.add_mul]; omega
      rw [this]
      unfold Spec.byBeam
      rw [flat_get n nbins a b k hb hk]
      rfl
  · intro b k hb
    simp only
    rw [if_neg (by omega)]

/-- **C109 (part).** An AWAC profile of up to three beams: the clock, error code, battery, sound speed, heading,
pitch, roll, pressure, status and temperature and the velocity and amplitude of every cell of every beam
come out as they were written, in either byte order, provided heading, pitch, roll and temperature are not
negative. Missing: negative values (see the next theorem). -/
theorem awac_profile_decoded_partial (le : Bool) (n nbins : ℕ) (hn : n ≤ 3) (size spare : List ℕ)
    (hsz : size.length = 2) (hsp : spare.length = 88) (t : CivilTime) (hv : t.valid)
    (y0 : 1990 ≤ t.year) (y1 : t.year ≤ 2089) (er a1 ba cs he pi ro p : ℤ) (st : ℕ) (te : ℤ)
    (v : ℕ → ℕ → ℤ) (a : ℕ → ℕ → ℕ)
    (her : Spec.U16 er) (ha1 : Spec.U16 a1) (hba : Spec.U16 ba) (hcs : Spec.U16 cs) (hhe : Spec.I16 he)
    (hpi : Spec.I16 pi) (hro : Spec.I16 ro) (hp : 0 ≤ p ∧ p < 16777216) (hte : Spec.I16 te)
    (h0 : 0 ≤ he ∧ 0 ≤ pi ∧ 0 ≤ ro ∧ 0 ≤ te)
    (hvel : ∀ b k, b < n → k < nbins → Spec.I16 (v b k)) :
    ∃ d, awacProfile le n nbins (Spec.awacBytes le n nbins size spare t er a1 ba cs he pi ro p st te v a) =
        .ok d ∧
      d.time = t ∧ d.error = er ∧ d.ana1 = a1 ∧ d.batt = ba / 10 ∧ d.cSound = cs / 10 ∧
      d.heading = he / 10 ∧ d.pitch = pi / 10 ∧ d.roll = ro / 10 ∧ d.pressure = p / 1000 ∧
      d.status = st ∧ d.temp = te / 100 ∧
      (∀ b k, b < n → k < nbins → d.vel b k = some ((v b k : ℚ) / 1000) ∧ d.amp b k = a b k) ∧
      (∀ b k, n ≤ b → d.vel b k = none) := by
  have up : ∀ x : ℤ, Spec.I16 x → 0 ≤ x → Spec.U16 x := fun x hx h => ⟨h, by unfold Spec.I16 at hx; omega⟩
  exact awac_profile_stored le n nbins hn size spare hsz hsp t hv y0 y1 er a1 ba cs he pi ro p st te v a
    her ha1 hba hcs (up _ hhe h0.1) (up _ hpi h0.2.1) (up _ hro h0.2.2.1) hp (up _ hte h0.2.2.2) hvel

/-- **C109.** Every negative pitch, roll or temperature of an AWAC comes out wrong: too large by 6553.6 degrees
or 655.36 °C. -/
theorem awac_negative_false (le : Bool) (n nbins : ℕ) (hn : n ≤ 3) (size spare : List ℕ)
    (hsz : size.length = 2) (hsp : spare.length = 88) (t : CivilTime) (hv : t.valid)
    (y0 : 1990 ≤ t.year) (y1 : t.year ≤ 2089) (er a1 ba cs he pi ro p : ℤ) (st : ℕ) (te : ℤ)
    (v : ℕ → ℕ → ℤ) (a : ℕ → ℕ → ℕ)
    (her : Spec.U16 er) (ha1 : Spec.U16 a1) (hba : Spec.U16 ba) (hcs : Spec.U16 cs) (hhe : Spec.U16 he)
    (hpi : Spec.I16 pi) (hro : Spec.I16 ro) (hp : 0 ≤ p ∧ p < 16777216) (hte : Spec.I16 te)
    (h0 : pi < 0 ∧ ro < 0 ∧ te < 0)
    (hvel : ∀ b k, b < n → k < nbins → Spec.I16 (v b k)) :
    ∃ d, awacProfile le n nbins (Spec.awacBytes le n nbins size spare t er a1 ba cs he pi ro p st te v a) =
        .ok d ∧
      d.pitch = pi / 10 + 65536 / 10 ∧ d.roll = ro / 10 + 65536 / 10 ∧ d.temp = te / 100 + 65536 / 100 := by
  have up : ∀ x : ℤ, Spec.I16 x → x < 0 → Spec.U16 (x + 65536) := fun x hx h => by
    unfold Spec.I16 at hx; exact ⟨by omega, by omega⟩
  have pe : ∀ x : ℤ, Spec.put16 le x = Spec.put16 le (x + 65536) := by
    intro x
    unfold Spec.put16
    rw [Int.add_emod_right]
  obtain ⟨d, hd, -, -, -, -, -, -, h7, h8, -, -, h11, -⟩ := awac_profile_stored le n nbins hn size spare
    hsz hsp t hv y0 y1 er a1 ba cs he (pi + 65536) (ro + 65536) p st (te + 65536) v a
    her ha1 hba hcs hhe (up _ hpi h0.1) (up _ hro h0.2.1) hp (up _ hte h0.2.2) hvel
  refine ⟨d, ?_, ?_, ?_, ?_⟩
  · rw [← hd]
    unfold Spec.awacBytes
    rw [pe pi, pe ro, pe te]
  · rw [h7]; push_cast; ring
  · rw [h8]; push_cast; ring
  · rw [h11]; push_cast; ring

example : ∃ d, awacProfile true 3 2 (Spec.awacBytes true 3 2 [0x43, 0] (List.replicate 88 0)
    ⟨2012, 2, 29, 23, 59, 7⟩ 0 0 120 14850 1800 12 5 10250 0 1250 (fun b k => (b : ℤ) * 100 - k)
    fun b k => 40 + b + k) = .ok d ∧ d.pitch = 12 / 10 ∧ d.vel 2 1 = some (199 / 1000) := by
  obtain ⟨d, h, h1⟩ := awac_profile_decoded_partial true 3 2 le_rfl [0x43, 0] (List.replicate 88 0) rfl
    (by simp) ⟨2012, 2, 29, 23, 59, 7⟩ (by decide) (by decide) (by decide) 0 0 120 14850 1800 12 5 10250 0
    1250 (fun b k => (b : ℤ) * 100 - k) (fun b k => 40 + b + k) (by decide) (by decide) (by decide)
    (by decide) (by decide) (by decide) (by decide) (by decide) (by decide) (by decide)
    (by intro b k hb hk; unfold Spec.I16; constructor <;> omega)
  refine ⟨d, h, h1.2.2.2.2.2.2.1, ?_⟩
  rw [(h1.2.2.2.2.2.2.2.2.2.2.2.1 2 1 (by norm_num) (by norm_num)).1]
  norm_num

/-- **C109.** More than three beams cannot be stored. -/
theorem awac_four_beams (le : Bool) (n nbins : ℕ) (hn : 3 < n) (byts : List ℕ) (d : AwacProfile) :
    awacProfile le n nbins byts ≠ .ok d := by
  unfold awacProfile
  intro h
  simp only [bind, Except.bind] at h
  split at h
  · exact absurd h (by simp)
  · split_ifs at h
    split at h
    · exact absurd h (by simp)
    · exact absurd h (by simp)

/-- **C110.** AWAC ranges: the cells are spaced by the reported cell size, the first one lies one cell size
beyond the reported blanking distance, and cell `i` is within half a centimetre times `i + 1` of its
nominal range. `round` is any rounding to a nearest integer. -/
theorem awac_range_spec (round : ℝ → ℤ) (hr : ∀ x, |(round x : ℝ) - x| ≤ 1 / 2) (cosH : ℝ)
    (freq binLength blank : ℕ) (coef : ℝ) (hc : awacCoef freq = some coef) :
    ∃ cs bd r, awacRange round cosH freq binLength blank = .ok (cs, bd, r) ∧
      r 0 = bd + cs ∧ (∀ i, r (i + 1) - r i = cs) ∧
      |cs - binLength * coef / 256 * cosH| ≤ 1 / 200 ∧
      (∀ i, |r i - (blank * (229 / 10000) * cosH + i * (binLength * coef / 256 * cosH))| ≤
        (i + 1) / 200) ∧
      ∃ m : ℤ, r 0 = m / 100 := by
  have hr2 : ∀ x, |round2 round x - x| ≤ 1 / 200 := by
    intro x
    have h := hr (x * 100)
    unfold round2
    rw [abs_le] at h ⊢
    constructor <;> linarith [h.1, h.2]
  unfold awacRange
  rw [hc]
  simp only
  set X := (binLength : ℝ) / 256 * coef * cosH with hX
  set cs := round2 round X with hcs
  set Y := (blank : ℝ) * (229 / 10000) * cosH with hY
  set bd := round2 round (Y - cs) with hbd
  have e1 := hr2 X
  have e2 := hr2 (Y - cs)
  rw [← hcs] at e1
  rw [← hbd] at e2
  have hXe : (binLength : ℝ) * coef / 256 * cosH = X := by rw [hX]; ring
  refine ⟨cs, bd, _, rfl, ?_, ?_, ?_, ?_, ?_⟩
  · norm_num; ring
  · intro i; push_cast; ring
  · rw [hXe]; exact e1
  · intro i
    rw [hXe]
    have e3 : ((i : ℝ) + 1) * cs + bd - (Y + i * X) = i * (cs - X) + (bd - (Y - cs)) := by ring
    rw [e3]
    have hi : (0 : ℝ) ≤ i := Nat.cast_nonneg i
    calc |(i : ℝ) * (cs - X) + (bd - (Y - cs))| ≤ |(i : ℝ) * (cs - X)| + |bd - (Y - cs)| := abs_add_le _ _
      _ ≤ i * (1 / 200) + 1 / 200 := by
        rw [abs_mul, abs_of_nonneg hi]
        exact add_le_add (mul_le_mul_of_nonneg_left e1 hi) e2
      _ = (i + 1) / 200 := by ring
  · refine ⟨round (X * 100) + round ((Y - cs) * 100), ?_⟩
    have hcs' : cs = (round (X * 100) : ℝ) / 100 := rfl
    have hbd' : bd = (round ((Y - cs) * 100) : ℝ) / 100 := rfl
    push_cast
    linarith [hcs', hbd']

/-- **C110.** A head frequency other than 2000, 1000, 600 or 400 kHz raises. -/
theorem awac_range_unknown (round : ℝ → ℤ) (cosH : ℝ) (freq binLength blank : ℕ)
    (h : freq ∉ [2000, 1000, 600, 400]) :
    awacRange round cosH freq binLength blank = .error .keyError := by
  simp only [List.mem_cons, List.not_mem_nil, or_false, not_or] at h
  have : awacCoef freq = none := by
    unfold awacCoef
    rw [if_neg h.1, if_neg h.2.1, if_neg h.2.2.1, if_neg h.2.2.2]
  unfold awacRange
  rw [this]

example : ∃ coef, awacCoef 1000 = some coef := ⟨478 / 10000, by unfold awacCoef; norm_num⟩

theorem nearest_unique (round : ℝ → ℤ) (hr : ∀ x, |(round x : ℝ) - x| ≤ 1 / 2) (x : ℝ) (m : ℤ)
    (h : |(m : ℝ) - x| < 1 / 2) : round x = m := by
  have h1 := hr x
  rw [abs_le] at h1
  rw [abs_lt] at h
  have a : ((round x - m : ℤ) : ℝ) < 1 := by push_cast; linarith [h1.2, h.1]
  have b : (-1 : ℝ) < ((round x - m : ℤ) : ℝ) := by push_cast; linarith [h1.1, h.2]
  have a' : round x - m < 1 := by exact_mod_cast a
  have b' : -1 < round x - m := by exact_mod_cast b
  omega

/-- **C110.** The ranges drift away from the nominal ones: with a nominal cell size of 1.004 m and no blanking
the cell size is stored as 1.00 m and cell `i` is `0.004 i` m too near (40 cm for cell 100). -/
theorem awac_range_drift_false (round : ℝ → ℤ) (hr : ∀ x, |(round x : ℝ) - x| ≤ 1 / 2)
    (cosH : ℝ) (binLength : ℕ) (h : (binLength : ℝ) * (478 / 10000) / 256 * cosH = 1004 / 1000) :
    ∃ r, awacRange round cosH 1000 binLength 0 = .ok (1, -1, r) ∧
    ∀ i : ℕ, r i - ((0 : ℕ) * (229 / 10000) * cosH + i * (binLength * (478 / 10000) / 256 * cosH)) =
      -(i * (4 / 1000)) := by
  have hX : (binLength : ℝ) / 256 * (478 / 10000) * cosH = 1004 / 1000 := by rw [← h]; ring
  have e1 : round2 round (1004 / 1000) = 1 := by
    unfold round2
    rw [nearest_unique round hr _ 100 (by rw [abs_lt]; constructor <;> norm_num)]
    norm_num
  have e2 : round2 round (-1) = -1 := by
    unfold round2
    rw [nearest_unique round hr _ (-100) (by rw [abs_lt]; constructor <;> norm_num)]
    norm_num
  have e3 : awacCoef 1000 = some (478 / 10000) := by unfold awacCoef; norm_num
  refine ⟨fun i => ((i : ℝ) + 1) * 1 + -1, ?_, ?_⟩
  · unfold awacRange
    rw [e3]
    simp only
    rw [hX, e1]
    have e4 : ((0 : ℕ) : ℝ) * (229 / 10000) * cosH - 1 = -1 := by norm_num
    rw [e4, e2]
  · intro i
    simp only
    rw [h]
    norm_num
    ring

/-- Such a cell size is reachable: 5930 counts at a cosine of 0.9067… -/
example : ∃ c : ℝ, 90 / 100 < c ∧ c < 91 / 100 ∧
    ((5930 : ℕ) : ℝ) * (478 / 10000) / 256 * c = 1004 / 1000 :=
  ⟨1004 / 1000 * 256 / (5930 * (478 / 10000)), by norm_num, by norm_num, by norm_num⟩

/-- **C110.** The head matrix is the 3×3 table of signed numbers written row by row in the head
configuration, divided by 4096. -/
theorem head_matrix_decoded (le : Bool) (pre mid post : List ℕ) (m : ℕ → ℕ → ℤ) (hpre : pre.length = 20)
    (hmid : mid.length = 8) (hpost : post.length = 174) (hm : ∀ i j, i < 3 → j < 3 → Spec.I16 (m i j)) :
    headMatrix le (pre ++ (mid ++ ((Spec.byBeam 3 3 m).flatMap (Spec.put16 le) ++ post))) =
      .ok fun i j => (m i j : ℚ) / 4096 := by
  have hl : (Spec.byBeam 3 3 m).length = 9 := flat_length 3 3 m
  have hl2 : ((Spec.byBeam 3 3 m).flatMap (Spec.put16 le)).length = 18 := by
    rw [flatMap_put16_length, hl]
  have hvs : ∀ w ∈ Spec.byBeam 3 3 m, Spec.I16 w := by
    intro w hw
    unfold Spec.byBeam at hw
    simp only [List.mem_flatMap, List.mem_range, List.mem_map] at hw
    obtain ⟨b, hb, k, hk, rfl⟩ := hw
    exact hm b k hb hk
  unfold headMatrix
  rw [if_neg (by simp only [List.length_append, hl2]; omega)]
  simp only
  have hcut : ((((pre ++ (mid ++ ((Spec.byBeam 3 3 m).flatMap (Spec.put16 le) ++ post))).drop 20).take
      176).drop 8).take 18 = (Spec.byBeam 3 3 m).flatMap (Spec.put16 le) ++ [] := by
    have h1 : (pre ++ (mid ++ ((Spec.byBeam 3 3 m).flatMap (Spec.put16 le) ++ post))).drop 20 =
        mid ++ ((Spec.byBeam 3 3 m).flatMap (Spec.put16 le) ++ post) := by
      rw [← hpre, List.drop_left]
    have h2 : ∀ z : List ℕ, (mid ++ z).drop 8 = z := by
      intro z
      rw [← hmid, List.drop_left]
    rw [h1, List.drop_take, h2, List.take_take, List.append_nil]
    have h3 : min 18 (176 - 8) = ((Spec.byBeam 3 3 m).flatMap (Spec.put16 le)).length := by
      rw [hl2]; norm_num
    rw [h3, List.take_left]
  rw [hcut]
  have h9 := sUnpack_hs le [] _ hvs []
  rw [hl, List.append_nil, List.append_nil, sUnpack_nil, List.append_nil] at h9
  rw [List.append_nil, h9]
  congr 1
  funext i j
  have hg := flat_get 3 3 m i j i.isLt j.isLt
  unfold Spec.byBeam
  rw [List.getD_eq_getElem?_getD, mul_comm 3, hg]
  rfl

example : ∀ i j : ℕ, i < 3 → j < 3 → Spec.I16 (if i = j then 4096 else -1024) := by
  intro i j _ _
  split_ifs <;> decide

end Dolfyn
