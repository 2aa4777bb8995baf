import Verif.Props.RdiVals
import Verif.Props.RdiNav

/-!
Bottom track in WinRiver files (C122): velocities and the like are the recorded ones, but the high bytes of the ranges are
taken from twelve bytes before their place.
-/

namespace Dolfyn

/-- **C122 (bottom track in WinRiver files).** When a bottom-track record of a WinRiver file is read, velocities,
correlations, amplitudes and percentages are the recorded ones. The ranges have the recorded low bytes, but their high bytes
(firmware 5.3 on) are bytes 21 to 24 of the 33 bytes in front of the recorded high bytes. -/
theorem winriver_bottom_values_partial {env : RdEnv} {bs : List ℕ} {s s' : RdState} {m m' : RdMem} {fail : Bool}
    {f : RdFixed} (hp : 0 ≤ s.pos) (hsrc : s.source = 2) (hc : s.cfg = some f) {R : Spec.RdBottom} {lead gap extra : List ℕ}
    (hl : lead.length = 14) (hg : gap.length = 33) (hr : ∀ x ∈ R.fields ++ R.high, Spec.inRange x.1 x.2)
    (hbs : bs.drop s.pos.toNat = [0, 6] ++ (lead ++ (Spec.record R.fields ++ (gap ++ (Spec.record R.high ++ extra)))))
    (h : rdBlockV env bs s m = .ok (s', m', fail)) (k : Fin 4) :
    (∀ nm q, nm ≠ .distBt → R.value f k nm = some q → m'.nb nm 0 k = some q) ∧
    m'.nb .distBt 0 k = some (((R.range k + if 530 ≤ f.ver then 65536 * (gap.getD (21 + k) 0 : ℤ) else 0 : ℤ) : ℚ) / 100) := by
  have h2 : rdNeed bs s.pos 2 = .ok [0, 6] := rdNeed_ok hbs rfl (by decide)
  have hd : bs.drop (s.pos + 2).toNat = lead ++ (Spec.record R.fields ++ (gap ++ (Spec.record R.high ++ extra))) := by
    rw [show (s.pos + 2).toNat = s.pos.toNat + 2 by omega, ← List.drop_drop, hbs]
    rfl
  unfold rdBlockV at h
  rw [h2] at h
  simp only at h
  rw [show leNat [0, 6] = 1536 from by decide] at h
  cases hdat : rdDat env bs 1536 { s with pos := s.pos + 2 } with
  | error e => rw [hdat] at h; cases h
  | ok x =>
    rw [hdat] at h
    simp only [Except.ok.injEq, Prod.mk.injEq] at h
    have hm : m'.nb = rdBottomValsAt 63 f (lead ++ (Spec.record R.fields ++ (gap ++ (Spec.record R.high ++ extra)))) m.nb := by
      rw [← h.2.1]
      unfold rdStoreAt rdStore
      simp only [hsrc, hc, hd, OfNat.ofNat_ne_zero, OfNat.ofNat_ne_one, Nat.reduceEqDiff, false_or, if_false, if_true,
        Option.getD_some]
      rfl
    have hother : ∀ nm, nm ≠ .distBt → m'.nb nm =
        rdBottomVals f (lead ++ (Spec.record R.fields ++ (gap ++ (Spec.record R.high ++ extra)))) m.nb nm := by
      intro nm hnm
      rw [hm]
      unfold rdBottomVals rdBottomValsAt
      cases nm <;> first | rfl | exact absurd rfl hnm
    refine ⟨fun nm q hnm hv => ?_, ?_⟩
    · rw [hother nm hnm]
      exact rdBottomVals_value hl hg hr hv 0
    · have hlow := rdBottomVals_value (f := { f with ver := 0 }) (v := m.nb) (extra := extra) hl hg hr (nm := .distBt)
        (k := k) rfl 0
      rw [hm]
      unfold rdBottomVals rdBottomValsAt at hlow
      unfold rdBottomValsAt
      have hk : (k : ℕ) < 4 := k.2
      simp only [vput, reduceCtorEq, if_false, if_true, perBeam, hk, show ¬ 530 ≤ 0 from by decide, Option.some.injEq,
        add_zero] at hlow ⊢
      rw [hlow]
      have hgap : rdAt .B (lead ++ (Spec.record R.fields ++ (gap ++ (Spec.record R.high ++ extra)))) (63 + k) =
          (gap.getD (21 + k) 0 : ℤ) := by
        have hsz : R.fields.map (·.1.size) = [2, 2, 2, 2, 2, 2, 2, 2, 1, 1, 1, 1, 1, 1, 1, 1, 1, 1, 1, 1] := rfl
        rw [show 63 + (k : ℕ) = 14 + (28 + (21 + k)) by omega, rdAt_skip hl,
          rdAt_skip (by rw [record_length, hsz]; decide)]
        have hlt : 21 + (k : ℕ) < gap.length := by omega
        unfold rdAt
        rw [List.drop_append_of_le_length hlt.le, ← List.cons_getElem_drop_succ (h := hlt)]
        show adVal .B [gap[21 + (k : ℕ)]] = _
        rw [adVal_B_one, List.getD_eq_getElem?_getD, List.getElem?_eq_getElem hlt]
        rfl
      rw [hgap]
      split_ifs <;> push_cast <;> ring

/-- A bottom track at a range of 20 m. -/
def exWinBottom : Spec.RdBottom where
  range := fun _ => 2000
  vel := fun _ => 1500
  corr := fun _ => 200
  amp := fun _ => 90
  good := fun _ => 100
  msb := fun _ => 0

/-- Its record, with a fix of quality 1 behind the longitude; then come some other bytes. -/
def exWinBytes : List ℕ := [0, 6] ++ (List.replicate 14 0 ++ (Spec.record exWinBottom.fields ++
  ((List.replicate 20 0 ++ [1, 1, 1, 1, 1] ++ List.replicate 8 0) ++ (Spec.record exWinBottom.high ++ List.replicate 40 0))))

/-- A reader of a WinRiver file. -/
def exWinState : RdState := { exStart with source := 2, cfg := some ⟨16, 1628, 2⟩, ens := some (2, 0) }

/-- **C122, refuted for WinRiver files.** The recorded range is 20 m; the dataset says 675.36 m. The velocity is right. -/
theorem winriver_bottom_range_false : ∃ s' m', rdBlockV rdYes exWinBytes exWinState rdMem0 = .ok (s', m', false) ∧
    exWinBottom.value ⟨16, 1628, 2⟩ 0 .distBt = some 20 ∧ m'.nb .distBt 0 0 = some (67536 / 100) ∧
    m'.nb .velBt 0 0 = some (1500 / 1000) := by
  have hd : (match rdDat rdYes exWinBytes 1536 { exWinState with pos := 2 } with
    | .ok x => x.2 == false
    | .error _ => false) = true := by decide +kernel
  obtain ⟨s', m', h⟩ : ∃ s' m', rdBlockV rdYes exWinBytes exWinState rdMem0 = .ok (s', m', false) := by
    have h2 : rdNeed exWinBytes exWinState.pos 2 = .ok [0, 6] := by decide +kernel
    unfold rdBlockV
    rw [h2]
    simp only
    rw [show leNat [0, 6] = 1536 from by decide, show exWinState.pos + 2 = 2 from rfl]
    cases hx : rdDat rdYes exWinBytes 1536 { exWinState with pos := 2 } with
    | error e => rw [hx] at hd; cases hd
    | ok x =>
      obtain ⟨x1, x2⟩ := x
      rw [hx] at hd
      simp only [beq_iff_eq] at hd
      subst hd
      exact ⟨_, _, rfl⟩
  have key := winriver_bottom_values_partial (f := ⟨16, 1628, 2⟩) (R := exWinBottom) (lead := List.replicate 14 0)
    (gap := List.replicate 20 0 ++ [1, 1, 1, 1, 1] ++ List.replicate 8 0) (extra := List.replicate 40 0) (bs := exWinBytes)
    (s := exWinState) (by decide) rfl rfl (by decide) (by decide) (by decide +kernel) rfl h 0
  refine ⟨s', m', h, ?_, ?_, ?_⟩
  · norm_num [Spec.RdBottom.value, exWinBottom]
  · refine key.2.trans ?_
    norm_num [exWinBottom, List.getD, List.getElem?_append]
  · exact key.1 .velBt _ (by decide) rfl

end Dolfyn
