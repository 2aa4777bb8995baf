import Verif.Model.RdiVals

/-!
The second profile of a Teledyne file (record types 257, 513, 769, 1025, 1281): what reading one such record stores,
whatever has been read before.
-/

namespace Dolfyn

/-- The record types of the second profile: variable, number format and unit (TRDI output data format: velocities in
mm/s, everything else counts of one byte). -/
def Spec.rdSecond : List (ℕ × RdName × AdFmt × ℚ) :=
  [(257, .vel, .h, 1 / 1000), (513, .corr, .B, 1), (769, .amp, .B, 1), (1025, .prcntGd, .B, 1), (1281, .status, .B, 1)]

theorem rdSecond_store {r : ℕ × RdName × AdFmt × ℚ} (h : r ∈ Spec.rdSecond) (f : RdFixed) (src n g : ℕ) (c : List ℕ)
    (m : RdMem) : rdProfileOf r.1 = 1 ∧ rdStore f src n g r.1 c m
      = { m with seen := seenAdd m.seen [r.2.1],
                 bb := vput r.2.1 (rdCellVals r.2.2.1 r.2.2.2 n c (m.bb r.2.1)) m.bb } := by
  simp only [Spec.rdSecond, List.mem_cons, List.not_mem_nil, or_false] at h
  rcases h with rfl | rfl | rfl | rfl | rfl <;> exact ⟨rfl, rfl⟩

/-- **C122.** A record of the second profile that is read stores, in cell `i` and beam `j` of the second profile, the
number in position `4 i + j` of the record in its unit, for as many cells as the second leader announced; cells behind
them, the other variables of the second profile and everything of the first profile stay as they were. -/
theorem rdi_second_values (env : RdEnv) (bs : List ℕ) (s s' : RdState) (m m' : RdMem) (fail : Bool) (k : ℤ) (n : ℕ)
    (fb : RdFixed) (r : ℕ × RdName × AdFmt × ℚ) (hr : r ∈ Spec.rdSecond) (hp : 0 ≤ s.pos)
    (hid : ∀ c, rdNeed bs s.pos 2 = .ok c → leNat c = r.1) (he : s.ensBB = some (n, k)) (hk : k = 0 ∨ k = -1)
    (hc : s.cfgbb = some fb) (hread : rdBlockV env bs s m = .ok (s', m', fail)) :
    (∀ i j, i < fb.nCells → j < 4 → m'.bb r.2.1 i j
      = some (adVal r.2.2.1 ((bs.drop (s.pos.toNat + 2 + (4 * i + j) * r.2.2.1.size)).take r.2.2.1.size) * r.2.2.2)) ∧
    (∀ i j, ¬ (i < fb.nCells ∧ j < 4) → m'.bb r.2.1 i j = m.bb r.2.1 i j) ∧
    (∀ nm, nm ≠ r.2.1 → m'.bb nm = m.bb nm) ∧ m'.nb = m.nb ∧ m'.rtc = m.rtc := by
  unfold rdBlockV at hread
  rcases hn : rdNeed bs s.pos 2 with e | c
  · rw [hn] at hread; simp at hread
  rw [hn] at hread
  simp only [hid c hn] at hread
  rcases hd : rdDat env bs r.1 { s with pos := s.pos + 2 } with e | ⟨s1, f1⟩
  · rw [hd] at hread; simp at hread
  rw [hd] at hread
  simp only [Except.ok.injEq, Prod.mk.injEq] at hread
  obtain ⟨-, hm, -⟩ := hread
  have hpos : (s.pos + 2).toNat = s.pos.toNat + 2 := by omega
  unfold rdStoreAt at hm
  obtain ⟨hprof, hst⟩ := rdSecond_store hr (s.cfg.getD ⟨0, 0, 0⟩) s.source
    (rdCellsOf r.1 { s with pos := s.pos + 2 }) (ensCells s1.ens - ensCells s.ens)
    (bs.drop (s.pos + 2).toNat) m
  have hcells : rdCellsOf r.1 { s with pos := s.pos + 2 } = fb.nCells := by
    unfold rdCellsOf rdProfile
    rw [hprof, if_pos rfl]
    simp only [he, hc, if_pos hk]
  rw [hst, hcells, hpos] at hm
  subst hm
  refine ⟨fun i j hi hj => ?_, fun i j hij => ?_, fun nm hnm => ?_, rfl, rfl⟩
  · simp only [vput, if_true]
    unfold rdCellVals rdAt
    rw [if_pos ⟨hi, hj⟩, List.drop_drop]
  · simp only [vput, if_true]
    unfold rdCellVals
    rw [if_neg hij]
  · simp only [vput, if_neg hnm]

/-- An amplitude record of one cell with counts 10, 20, 30, 40: the third beam of the second profile is 30. -/
example : (match rdBlockV ⟨fun _ => true, fun _ => true, fun _ _ _ => true⟩ [1, 3, 10, 20, 30, 40]
      ⟨0, 0, 0, false, 0, false, false, some ⟨8, 1700, 3⟩, some ⟨8, 1700, 1⟩, none, none, some (3, 0), some (1, 0), 100, []⟩
      ⟨rdZeros, fun _ => 0, rdZeros, [], 0, []⟩ with
    | .ok (_, m, fail) => (m.bb .amp 0 2, m.nb .amp 0 2, fail)
    | .error _ => (none, none, true)) = (some 30, some 0, false) := by decide +kernel

end Dolfyn
