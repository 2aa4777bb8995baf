import Verif.Props.Ad2cpIndex

/-! C46: numbering of ensembles when the counter of the instrument starts again. -/

namespace Dolfyn

/-- Counters that continue over restarts: a counter that is not larger than the one before becomes the next number. -/
def Spec.continued : ℕ → List ℕ → List ℕ
  | _, [] => []
  | last, h :: hs =>
    (if last < h then h else last + 1) :: Spec.continued (if last < h then h else last + 1) hs

/-- No counter is zero, and none equals the continued counter before it, except 1. -/
def Spec.Distinct : ℕ → List ℕ → Prop
  | _, [] => True
  | last, h :: hs => h ≠ 0 ∧ (h = last → h = 1) ∧ Spec.Distinct (if last < h then h else last + 1) hs

/-- Hardware counters of the entries of one type. -/
def Spec.hwOf (id : ℕ) (es : List AdEntry) : List ℕ := (es.filter (fun e => e.id = id)).map (·.hwEns)

/-- The hardware counters of the records of one type. -/
def Spec.counters (id : ℕ) (rs : List Spec.AdRec) : List ℕ := (rs.filter (fun r => r.id = id)).map Spec.AdRec.hw

theorem continued_increasing (last : ℕ) (hs : List ℕ) : List.IsChain (· < ·) (last :: Spec.continued last hs) := by
  induction hs generalizing last with
  | nil => simp [Spec.continued]
  | cons h hs ih =>
    rw [Spec.continued]
    refine List.IsChain.cons_cons ?_ (ih _)
    split <;> omega

theorem runEntries_restart (rs : List Spec.AdRec) (p : ℕ) (st : AdIdxState) (id last : ℕ) (hid : id ∈ adIds)
    (hlast : st.last id = if last = 0 then -1 else (last : ℤ)) (hd : Spec.Distinct last (Spec.counters id rs)) :
    Spec.ensOf id (runEntries p st rs) =
      List.range' (st.N id + if 0 < last then 1 else 0) (Spec.counters id rs).length ∧
    Spec.hwOf id (runEntries p st rs) = Spec.continued last (Spec.counters id rs) := by
  induction rs generalizing p st last with
  | nil => simp [runEntries, Spec.ensOf, Spec.hwOf, Spec.counters, Spec.continued]
  | cons r rs ih =>
    rw [runEntries]
    by_cases hi : r.id = id
    · subst hi
      rw [if_pos hid]
      have ec : Spec.counters r.id (r :: rs) = r.hw :: Spec.counters r.id rs := by simp [Spec.counters]
      rw [ec] at hd ⊢
      obtain ⟨h0, h1, h2⟩ := hd
      set c := if last < r.hw then r.hw else last + 1 with hc
      have hc0 : 0 < c := by rw [hc]; split <;> omega
      have hfix : adFixEns (st.last r.id) r.hw = c := by
        unfold adFixEns
        rw [hlast, hc]
        by_cases hz : last = 0
        · rw [if_pos hz, if_neg (by omega), if_pos (by omega)]
        · rw [if_neg hz]
          by_cases hlt : last < r.hw
          · rw [if_neg (by omega), if_pos hlt]
          · rw [if_pos (by omega), if_neg hlt]
            push_cast
            rfl
      have eN : (stepState st r).N r.id = st.N r.id + if 0 < last then 1 else 0 := by
        simp only [stepState, hid, if_true, stepEntry, Function.update_self, hfix]
        rw [hlast]
        by_cases hz : last = 0
        · rw [if_pos hz, if_neg (by omega), if_neg (by omega)]; rfl
        · rw [if_neg hz, if_pos (by rw [hc]; split <;> constructor <;> omega), if_pos (by omega)]
      have eL : (stepState st r).last r.id = if c = 0 then -1 else (c : ℤ) := by
        rw [if_neg (by omega)]
        simp [stepState, hid, hfix]
      obtain ⟨i1, i2⟩ := ih (p + 10 + r.body.length) (stepState st r) c eL h2
      rw [eN, if_pos hc0] at i1
      have e : Spec.ensOf r.id ([stepEntry p st r] ++
            runEntries (p + 10 + r.body.length) (stepState st r) rs) =
            (stepState st r).N r.id ::
              Spec.ensOf r.id (runEntries (p + 10 + r.body.length) (stepState st r) rs) := by
          simp [Spec.ensOf, stepEntry, stepState, hid]
      have e' : Spec.hwOf r.id ([stepEntry p st r] ++
            runEntries (p + 10 + r.body.length) (stepState st r) rs) =
            c :: Spec.hwOf r.id (runEntries (p + 10 + r.body.length) (stepState st r) rs) := by
          simp [Spec.hwOf, stepEntry, hfix]
      refine ⟨?_, ?_⟩
      · rw [e, i1, eN, List.length_cons, List.range'_succ]
      · rw [e', i2, Spec.continued]
    · have ec : Spec.counters id (r :: rs) = Spec.counters id rs := by
        simp [Spec.counters, hi]
      rw [ec] at hd ⊢
      have eN : (stepState st r).N id = st.N id := by
        unfold stepState; split
        · simp [Function.update_apply, Ne.symm hi]
        · rfl
      have eL : (stepState st r).last id = st.last id := by
        unfold stepState; split
        · simp [Function.update_apply, Ne.symm hi]
        · rfl
      have := ih (p + 10 + r.body.length) (stepState st r) last (by rw [eL, hlast]) hd
      rw [eN] at this
      rw [← this.1, ← this.2]
      split
      · simp [Spec.ensOf, Spec.hwOf, stepEntry, hi]
      · simp

/-- **C46, restarts.** When the counter of the instrument starts again (once or several times), the ensembles of a type
are still numbered 0, 1, 2, … and the counters in the index go on increasing. -/
theorem adIndex_restart (rs : List Spec.AdRec) (tail : List ℕ) (ht : tail.length < 10)
    (hok : ∀ r ∈ rs, r.ok) (hh : ∀ r ∈ rs, r.hw + rs.length < 2 ^ 32) (hn : rs.length < 2 ^ 32)
    (fuel : ℕ) (hf : rs.length < fuel) (id : ℕ) (hid : id ∈ adIds)
    (hd : Spec.Distinct 0 (Spec.counters id rs)) :
    ∃ es, adIndex fuel (rs.flatMap Spec.AdRec.bytes ++ tail) = some (.ok es) ∧
      Spec.ensOf id es = List.range (Spec.counters id rs).length ∧
      Spec.hwOf id es = Spec.continued 0 (Spec.counters id rs) := by
  obtain ⟨f, rfl⟩ : ∃ f, fuel = rs.length + (f + 1) := ⟨fuel - rs.length - 1, by omega⟩
  have hB : ((2 : ℤ) ^ 32 - 1 - rs.length) + rs.length < 2 ^ 32 := by omega
  obtain ⟨h1, h2⟩ := adIndexLoop_records rs [] tail { N := fun _ => 0, last := fun _ => -1 }
    (2 ^ 32) (f + 1) hok (2 ^ 32 - 1 - rs.length) hB (by intro i; simp only; omega)
    (by intro r hr; have := hh r hr; omega) (by simp only; omega)
  rw [adIndexLoop, if_pos h1, adIndexStep] at h2
  simp only [List.nil_append, List.length_nil, Nat.zero_add, List.drop_left] at h2
  rw [if_pos ht] at h2
  obtain ⟨h3, h4⟩ := runEntries_restart rs 0 { N := fun _ => 0, last := fun _ => -1 } id 0 hid rfl hd
  refine ⟨runEntries 0 { N := fun _ => 0, last := fun _ => -1 } rs, ?_, ?_, h4⟩
  · unfold adIndex
    rw [h2]
    simp only [List.append_nil]
  · rw [h3]
    simp [List.range_eq_range']

/-- A file whose counter starts again twice. -/
def exRestart (hs : List ℕ) : List Spec.AdRec := hs.map fun h => ⟨165, 10, 22, 16, [0, 0, 0, 0], exBody h⟩

example : Spec.Distinct 0 (Spec.counters 22 (exRestart [5, 6, 1, 2, 3, 1])) ∧
    Spec.continued 0 (Spec.counters 22 (exRestart [5, 6, 1, 2, 3, 1])) = [5, 6, 7, 8, 9, 10] := by
  have : Spec.counters 22 (exRestart [5, 6, 1, 2, 3, 1]) = [5, 6, 1, 2, 3, 1] := by decide
  rw [this]
  simp [Spec.Distinct, Spec.continued]

/-- **C46 is false when a counter after a restart meets the continued count.** Counters 3, 1, 4 (the instrument started again
and two pings are missing): the third record is taken for the ensemble of the second. -/
theorem adIndex_restart_false :
    (adIndex 4 ((exRestart [3, 1, 4]).flatMap Spec.AdRec.bytes)).map
      (fun r => r.map fun es => es.map fun e => (e.ens, e.hwEns)) = some (.ok [(0, 3), (1, 4), (1, 4)]) := by
  decide +kernel

end Dolfyn
