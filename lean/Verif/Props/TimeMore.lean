import Verif.Model.TimeMore
import Verif.Lemmas.Time
import Mathlib.Tactic.Linarith
import Mathlib.Tactic.NormNum
import Mathlib.Tactic.Ring
import Mathlib.Tactic.IntervalCases

/-! C114: epoch times, `datetime64` and `datetime`; C115: time strings. -/

namespace Dolfyn

theorem pyRound_mono {p q : ℚ} (h : p ≤ q) : pyRound p ≤ pyRound q := by
  have hf := Int.floor_mono h
  have hp0 := Int.floor_le p
  have hp1 := Int.lt_floor_add_one p
  have hq0 := Int.floor_le q
  have hq1 := Int.lt_floor_add_one q
  unfold pyRound
  simp only
  rcases lt_or_eq_of_le hf with hlt | heq
  · split_ifs <;> omega
  · rw [heq] at hp0 hp1 ⊢
    split_ifs <;> first | omega | (exfalso; linarith)

/-- The list functions succeed exactly when every element does, and then act on each element. -/
theorem mapM_spec {α β : Type} (f : α → Except Err β) (l : List α) (out : List β) :
    l.mapM f = .ok out ↔ List.Forall₂ (fun a b => f a = .ok b) l out := by
  induction l generalizing out with
  | nil =>
    rw [List.mapM_nil]
    constructor
    · intro h; cases h; exact .nil
    · intro h; cases h; rfl
  | cons a l ih =>
    rw [List.mapM_cons]
    constructor
    · intro h
      cases hf : f a with
      | error e => rw [hf] at h; cases h
      | ok b =>
        rw [hf] at h
        cases hl : l.mapM f with
        | error e => rw [hl] at h; cases h
        | ok bs =>
          rw [hl] at h
          cases h
          exact .cons hf ((ih bs).mp hl)
    · intro h
      cases h with
      | cons h1 h2 =>
        rw [h1, (ih _).mpr h2]
        rfl

/-- **C114.** Every date returned lies within half a microsecond of the epoch time plus the offset (plus another
half microsecond if the offset is not a whole number of microseconds), one date per time, in order. -/
theorem epoch2date_near (ts : List ℚ) (off : ℚ) (out : List ℤ) (h : epoch2date ts off = .ok out) :
    List.Forall₂ (fun t d => |((d - usEpoch : ℤ) : ℚ) - timedeltaHours off - t * 1000000| ≤ 1 / 2 ∧ validDate d)
      ts out := by
  have h0 : timedeltaHours 0 = 0 := by decide +kernel
  unfold epoch2date at h
  split_ifs at h with ho
  · refine List.Forall₂.imp ?_ ((mapM_spec _ _ _).mp h)
    intro t d hd
    unfold utcfromtimestamp at hd
    simp only at hd
    split_ifs at hd with hv
    · simp only [bind, Except.bind] at hd
      split_ifs at hd with hv2
      cases hd
      refine ⟨?_, hv2⟩
      have := pyRound_spec (t * 1000000)
      rw [abs_sub_comm] at this
      have e : ((usEpoch + pyRound (t * 1000000) + timedeltaHours off - usEpoch : ℤ) : ℚ) - timedeltaHours off -
          t * 1000000 = pyRound (t * 1000000) - t * 1000000 := by push_cast; ring
      rw [e]; exact this
    · cases hd
  · have ho : off = 0 := by simpa using ho
    subst ho
    refine List.Forall₂.imp ?_ ((mapM_spec _ _ _).mp h)
    intro t d hd
    unfold utcfromtimestamp at hd
    simp only at hd
    split_ifs at hd with hv
    cases hd
    refine ⟨?_, hv⟩
    have := pyRound_spec (t * 1000000)
    rw [abs_sub_comm] at this
    rw [h0]
    have e : ((usEpoch + pyRound (t * 1000000) - usEpoch : ℤ) : ℚ) - (0 : ℤ) - t * 1000000 =
        pyRound (t * 1000000) - t * 1000000 := by push_cast; ring
    rw [e]; exact this

/-- **C114.** Later times give later (or equal) dates. -/
theorem epoch2date_mono (t t' off : ℚ) (d d' : ℤ) (h : epoch2date [t] off = .ok [d])
    (h' : epoch2date [t'] off = .ok [d']) (hle : t ≤ t') : d ≤ d' := by
  have hr := pyRound_mono (show t * 1000000 ≤ t' * 1000000 by linarith)
  unfold epoch2date at h h'
  split_ifs at h h' with ho
  · obtain ⟨h1, -⟩ := List.forall₂_cons.mp ((mapM_spec _ _ _).mp h)
    obtain ⟨h2, -⟩ := List.forall₂_cons.mp ((mapM_spec _ _ _).mp h')
    unfold utcfromtimestamp at h1 h2
    simp only at h1 h2
    split_ifs at h1 h2 with a b
    · simp only [bind, Except.bind] at h1 h2
      split_ifs at h1 h2
      cases h1; cases h2
      omega
    all_goals first | cases h1 | cases h2
  · obtain ⟨h1, -⟩ := List.forall₂_cons.mp ((mapM_spec _ _ _).mp h)
    obtain ⟨h2, -⟩ := List.forall₂_cons.mp ((mapM_spec _ _ _).mp h')
    unfold utcfromtimestamp at h1 h2
    simp only at h1 h2
    split_ifs at h1 h2
    cases h1; cases h2
    omega

/-- **C114.** A whole number of hours of offset moves every date by exactly that many hours. -/
theorem epoch2date_offset (ts : List ℚ) (h : ℤ) (hne : h ≠ 0) (out out0 : List ℤ)
    (h1 : epoch2date ts h = .ok out) (h0 : epoch2date ts 0 = .ok out0) :
    out = out0.map fun d => d + h * 3600000000 := by
  have htd : timedeltaHours (h : ℚ) = h * 3600000000 := by
    unfold timedeltaHours
    have : (h : ℚ) * 3600000000 = ((h * 3600000000 : ℤ) : ℚ) := by push_cast; ring
    rw [this, pyRound_intCast]
  unfold epoch2date at h1 h0
  rw [if_pos (by exact_mod_cast hne)] at h1
  rw [if_neg (by simp)] at h0
  have f1 := (mapM_spec _ _ _).mp h1
  have f0 := (mapM_spec _ _ _).mp h0
  clear h1 h0
  induction ts generalizing out out0 with
  | nil => cases f1; cases f0; rfl
  | cons t ts ih =>
    cases f1 with
    | cons a1 b1 =>
      cases f0 with
      | cons a0 b0 =>
        rw [List.map_cons, ← ih _ _ b1 b0]
        rw [a0] at a1
        simp only [bind, Except.bind] at a1
        split_ifs at a1
        cases a1
        rw [htd]

/-- **C114.** Dates turned into `datetime64` and back are unchanged. -/
theorem dt642date_date2dt64 (ds : List ℤ) (h : ∀ d ∈ ds, validDate d) :
    dt642date (ds.map date2dt64) = .ok ds := by
  unfold dt642date epoch2date
  rw [if_neg (by simp)]
  rw [mapM_spec, List.map_map, List.forall₂_map_left_iff]
  rw [List.forall₂_same]
  intro d hd
  unfold utcfromtimestamp dt642epoch date2dt64
  simp only [Function.comp]
  have e : (((d - usEpoch) * 1000 : ℤ) : ℚ) / 1000000000 * 1000000 = ((d - usEpoch : ℤ) : ℚ) := by
    push_cast; ring
  rw [e, pyRound_intCast]
  have e2 : usEpoch + (d - usEpoch) = d := by ring
  rw [e2, if_pos (h d hd)]

/-- 2017-07-14 02:40:00.25 UTC is 2017-07-13 19:40:00.25 at UTC-7. -/
example : epoch2date [1500000000 + 1 / 4] (-7) =
    .ok [736523 * usDay + (19 * 3600 + 40 * 60) * 1000000 + 250000] := by
  have h1 : pyRound ((1500000000 + 1 / 4 : ℚ) * 1000000) = 1500000000250000 := by decide +kernel
  have h2 : timedeltaHours (-7) = -25200000000 := by decide +kernel
  unfold epoch2date
  rw [if_pos (by norm_num), mapM_spec]
  refine .cons ?_ .nil
  unfold utcfromtimestamp
  simp only [h1, h2]
  decide

/-- Reading a decimal number. -/
def Spec.readDec (l : List Char) : ℕ := l.foldl (fun n c => 10 * n + (c.toNat - 48)) 0

theorem padDigits_length (w n : ℕ) : (padDigits w n).length = w := by
  induction w generalizing n with
  | zero => rfl
  | succ w ih => unfold padDigits; simp [ih]

theorem digitChar_val (d : ℕ) (h : d < 10) : (Nat.digitChar d).toNat - 48 = d := by
  interval_cases d <;> decide

theorem readDec_pad (w n : ℕ) (h : n < 10 ^ w) : Spec.readDec (padDigits w n) = n := by
  induction w generalizing n with
  | zero => simp at h; subst h; rfl
  | succ w ih =>
    unfold padDigits Spec.readDec
    rw [List.foldl_append]
    have := ih (n / 10) (by rw [pow_succ] at h; omega)
    unfold Spec.readDec at this
    rw [this]
    simp only [List.foldl_cons, List.foldl_nil]
    rw [digitChar_val _ (Nat.mod_lt _ (by norm_num))]
    omega

/-- The fields of a printed time, at their fixed columns. -/
def Spec.parseTime (s : List Char) : CivilTime × ℕ :=
  (⟨Spec.readDec (s.take 4), Spec.readDec ((s.drop 5).take 2), Spec.readDec ((s.drop 8).take 2),
    Spec.readDec ((s.drop 11).take 2), Spec.readDec ((s.drop 14).take 2), Spec.readDec ((s.drop 17).take 2)⟩,
   Spec.readDec ((s.drop 20).take 6))

theorem len2 (n : ℕ) : ∃ a b, padDigits 2 n = [a, b] := ⟨_, _, rfl⟩

/-- **C115.** The printed time always has 26 characters, and reading its columns gives back the year, month, day, hour,
minute, second and microsecond. -/
theorem date2str_parse (t : CivilTime) (us : ℕ) (hv : t.valid) (hus : us < 1000000) :
    (date2str t us).length = 26 ∧ Spec.parseTime (date2str t us) = (t, us) := by
  obtain ⟨y, mo, d, ho, mi, se⟩ := t
  obtain ⟨a1, a2, a3, a4, a5, a6, a7, a8, a9⟩ := hv
  simp only at a1 a2 a3 a4 a5 a6 a7 a8 a9
  have hd : d < 100 := by
    have : daysInMonth y mo ≤ 31 := by unfold daysInMonth; split_ifs <;> omega
    omega
  refine ⟨by unfold date2str; simp [padDigits_length], ?_⟩
  have e4 : Spec.readDec (padDigits 4 y.toNat) = y.toNat := readDec_pad 4 _ (by omega)
  have em : Spec.readDec (padDigits 2 mo) = mo := readDec_pad 2 _ (by omega)
  have ed : Spec.readDec (padDigits 2 d) = d := readDec_pad 2 _ (by omega)
  have eh : Spec.readDec (padDigits 2 ho) = ho := readDec_pad 2 _ (by omega)
  have ei : Spec.readDec (padDigits 2 mi) = mi := readDec_pad 2 _ (by omega)
  have es : Spec.readDec (padDigits 2 se) = se := readDec_pad 2 _ (by omega)
  have eu : Spec.readDec (padDigits 6 us) = us := readDec_pad 6 _ (by omega)
  have l4 := padDigits_length 4 y.toNat
  have lu := padDigits_length 6 us
  obtain ⟨y0, y1, y2, y3, hy⟩ : ∃ a b c d, padDigits 4 y.toNat = [a, b, c, d] := ⟨_, _, _, _, rfl⟩
  obtain ⟨u0, u1, u2, u3, u4, u5, hu⟩ : ∃ a b c d e f, padDigits 6 us = [a, b, c, d, e, f] :=
    ⟨_, _, _, _, _, _, rfl⟩
  obtain ⟨m0, m1, hm⟩ := len2 mo
  obtain ⟨d0, d1, hdd⟩ := len2 d
  obtain ⟨h0, h1, hh⟩ := len2 ho
  obtain ⟨i0, i1, hi⟩ := len2 mi
  obtain ⟨s0, s1, hs⟩ := len2 se
  unfold date2str Spec.parseTime
  simp only [hy, hm, hdd, hh, hi, hs, hu] at e4 em ed eh ei es eu ⊢
  simp only [List.cons_append, List.nil_append, List.take_succ_cons, List.take_zero, List.drop_succ_cons,
    List.drop_zero]
  rw [e4, em, ed, eh, ei, es, eu]
  have : ((y.toNat : ℕ) : ℤ) = y := by omega
  rw [this]

example : String.ofList (date2str ⟨2012, 2, 29, 23, 59, 7⟩ 25) = "2012-02-29 23:59:07.000025" := by decide

/-- **C115.** Different times print differently. -/
theorem date2str_injective (t t' : CivilTime) (us us' : ℕ) (hv : t.valid) (hv' : t'.valid) (hus : us < 1000000)
    (hus' : us' < 1000000) (h : date2str t us = date2str t' us') : t = t' ∧ us = us' := by
  have h1 := (date2str_parse t us hv hus).2
  have h2 := (date2str_parse t' us' hv' hus').2
  rw [h, h2] at h1
  exact ⟨(Prod.mk.inj h1).1.symm, (Prod.mk.inj h1).2.symm⟩

end Dolfyn
