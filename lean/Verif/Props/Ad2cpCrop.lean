import Verif.Model.Ad2cpMore
import Verif.Props.Ad2cpIndex

/-!
Properties of cropped AD2CP files: C91.
-/

namespace Dolfyn

theorem runEntries_append (rs ss : List Spec.AdRec) (p : ℕ) (st : AdIdxState) (hok : ∀ r ∈ rs, r.cs.length = 4) :
    runEntries p st (rs ++ ss) = runEntries p st rs ++
      runEntries (p + (rs.flatMap Spec.AdRec.bytes).length) (runState st rs) ss := by
  induction rs generalizing p st with
  | nil => simp [runEntries, runState]
  | cons r rs ih =>
    have hb := bytes_length r (hok r (by simp))
    rw [List.cons_append, runEntries, ih _ _ (fun x hx => hok x (by simp [hx])), runEntries, runState,
      List.flatMap_cons, List.length_append, hb, ← List.append_assoc]
    congr 2; omega

/-- An entry of the index belongs to a record of the file, and splits it. -/
theorem runEntries_split (rs : List Spec.AdRec) (p : ℕ) (st : AdIdxState) (hok : ∀ r ∈ rs, r.cs.length = 4)
    (l₁ l₂ : List AdEntry) (x : AdEntry) (h : runEntries p st rs = l₁ ++ x :: l₂) :
    ∃ rs₁ r rs₂, rs = rs₁ ++ r :: rs₂ ∧ r.id ∈ adIds ∧ l₁ = runEntries p st rs₁ ∧
      x.pos = p + (rs₁.flatMap Spec.AdRec.bytes).length ∧
      x :: l₂ = runEntries (p + (rs₁.flatMap Spec.AdRec.bytes).length) (runState st rs₁) (r :: rs₂) := by
  induction rs generalizing p st l₁ with
  | nil => simp [runEntries] at h
  | cons r rs ih =>
    have hb := bytes_length r (hok r (by simp))
    have hok' : ∀ y ∈ rs, y.cs.length = 4 := fun y hy => hok y (by simp [hy])
    rw [runEntries] at h
    by_cases hm : r.id ∈ adIds
    · rw [if_pos hm] at h
      cases l₁ with
      | nil =>
        refine ⟨[], r, rs, rfl, hm, rfl, ?_, ?_⟩
        · simp only [List.singleton_append, List.nil_append, List.cons.injEq] at h
          rw [← h.1]; simp [stepEntry]
        · simp only [List.flatMap_nil, List.length_nil, Nat.add_zero, runState]
          rw [runEntries, if_pos hm]; simpa using h.symm
      | cons y l₁ =>
        simp only [List.singleton_append, List.cons_append, List.cons.injEq] at h
        obtain ⟨rs₁, s, rs₂, e1, e2, e3, e4, e5⟩ := ih _ _ hok' l₁ h.2
        refine ⟨r :: rs₁, s, rs₂, by rw [e1]; rfl, e2, ?_, ?_, ?_⟩
        · rw [runEntries, if_pos hm, ← h.1, e3]; rfl
        · rw [e4, List.flatMap_cons, List.length_append, hb]; omega
        · rw [e5, runState, List.flatMap_cons, List.length_append, hb]; congr 1; omega
    · rw [if_neg hm, List.nil_append] at h
      obtain ⟨rs₁, s, rs₂, e1, e2, e3, e4, e5⟩ := ih _ _ hok' l₁ h
      refine ⟨r :: rs₁, s, rs₂, by rw [e1]; rfl, e2, ?_, ?_, ?_⟩
      · rw [runEntries, if_neg hm, e3]; rfl
      · rw [e4, List.flatMap_cons, List.length_append, hb]; omega
      · rw [e5, runState, List.flatMap_cons, List.length_append, hb]; congr 1; omega

theorem runEntries_nil (rs : List Spec.AdRec) (p : ℕ) (st : AdIdxState) (h : runEntries p st rs = []) :
    ∀ r ∈ rs, r.id ∉ adIds := by
  induction rs generalizing p st with
  | nil => simp
  | cons r rs ih =>
    rw [runEntries] at h
    simp only [List.append_eq_nil_iff] at h
    intro x hx hxm
    rcases List.mem_cons.mp hx with rfl | hx
    · rw [if_pos hxm] at h; simp at h
    · exact ih _ _ h.2 x hx hxm

/-- Cutting bytes out. -/
theorem cut_bytes (a b c d : List ℕ) :
    (a ++ b ++ c ++ d).take a.length ++
      ((a ++ b ++ c ++ d).drop (a ++ b).length).take ((a ++ b ++ c).length - (a ++ b).length) = a ++ c := by
  congr 1
  · simp
  · rw [List.append_assoc (a ++ b) c d, List.drop_left, List.take_left']
    simp only [List.length_append]; omega

/-- The index of complete records is the one of `runEntries`. -/
theorem adIndex_eq (rs : List Spec.AdRec) (tail : List ℕ) (ht : tail.length < 10)
    (hok : ∀ r ∈ rs, r.ok) (hh : ∀ r ∈ rs, r.hw + rs.length < 2 ^ 32) (hn : rs.length < 2 ^ 32)
    (fuel : ℕ) (hf : rs.length < fuel) :
    adIndex fuel (rs.flatMap Spec.AdRec.bytes ++ tail) =
      some (.ok (runEntries 0 { N := fun _ => 0, last := fun _ => -1 } rs)) := by
  obtain ⟨f, rfl⟩ : ∃ f, fuel = rs.length + (f + 1) := ⟨fuel - rs.length - 1, by omega⟩
  have hB : ((2 : ℤ) ^ 32 - 1 - rs.length) + rs.length < 2 ^ 32 := by omega
  obtain ⟨h1, h2⟩ := adIndexLoop_records rs [] tail { N := fun _ => 0, last := fun _ => -1 }
    (2 ^ 32) (f + 1) hok (2 ^ 32 - 1 - rs.length) hB (by intro i; simp only; omega)
    (by intro r hr; have := hh r hr; omega) (by simp only; omega)
  rw [adIndexLoop, if_pos h1, adIndexStep] at h2
  simp only [List.nil_append, List.length_nil, Nat.zero_add, List.drop_left] at h2
  rw [if_pos ht] at h2
  unfold adIndex
  rw [h2]
  simp only [List.append_nil]

/-- **C91**. For a file of complete records, whenever cropping to the ensembles from `a` to `b` succeeds,
the new file consists of the records in front of the first data record, followed by the records from the
first one of ensemble `a` up to, and not including, the first one of ensemble `b`, all of them whole
and unchanged; and the index of the new file lists exactly the data records that were kept. -/
theorem crop_records (rs : List Spec.AdRec) (tail : List ℕ) (ht : tail.length < 10)
    (hok : ∀ r ∈ rs, r.ok) (hh : ∀ r ∈ rs, r.hw + rs.length < 2 ^ 32) (hn : rs.length < 2 ^ 32)
    (fuel : ℕ) (hf : rs.length < fuel) (es : List AdEntry)
    (hes : adIndex fuel (rs.flatMap Spec.AdRec.bytes ++ tail) = some (.ok es)) (a b : ℕ) (out : List ℕ)
    (h : adCrop (rs.flatMap Spec.AdRec.bytes ++ tail) es a b = .ok out) :
    ∃ (hd pre mid post : List Spec.AdRec) (e₁ e₂ e₃ : List AdEntry),
      rs = hd ++ pre ++ mid ++ post ∧ out = (hd ++ mid).flatMap Spec.AdRec.bytes ∧
      (∀ r ∈ hd, r.id ∉ adIds) ∧ es = e₁ ++ e₂ ++ e₃ ∧
      e₁.length = (Spec.indexed 0 pre).length ∧ e₂.length = (Spec.indexed 0 mid).length ∧
      (∀ e ∈ e₁, e.ens ≠ a) ∧ (∀ e ∈ e₁ ++ e₂, e.ens ≠ b) ∧
      ((e₂ ++ e₃).head?.map AdEntry.ens = some a) ∧ (e₃.head?.map AdEntry.ens = some b) ∧
      ∃ es', adIndex fuel out = some (.ok es') ∧
        List.Forall₂ Spec.describes es' (Spec.indexed 0 (hd ++ mid)) := by
  rw [adIndex_eq rs tail ht hok hh hn fuel hf] at hes
  replace hes := Except.ok.inj (Option.some.inj hes)
  have hcs : ∀ r ∈ rs, r.cs.length = 4 := fun r hr => (hok r hr).1
  set st0 : AdIdxState := { N := fun _ => 0, last := fun _ => -1 } with hst0
  unfold adCrop at h
  rcases he : es with _ | ⟨e0, er⟩
  · rw [he] at h; simp at h
  rcases hx : es.find? (fun e => e.ens = a) with _ | x
  · rw [hx, he] at h; simp at h
  rcases hy : es.find? (fun e => e.ens = b) with _ | y
  · rw [hy, hx, he] at h; simp at h
  rw [hx, hy, he] at h
  simp only at h
  by_cases hlt : y.pos < x.pos
  · rw [if_pos hlt] at h; simp at h
  rw [if_neg hlt] at h
  replace h := Except.ok.inj h
  obtain ⟨hxa, l₁, l₂, hl, hl₁⟩ := List.find?_eq_some_iff_append.mp hx
  obtain ⟨hyb, m₁, m₂, hm, hm₁⟩ := List.find?_eq_some_iff_append.mp hy
  obtain ⟨hd, r0, rest0, f1, f2, f3, f4, -⟩ := runEntries_split rs 0 _ hcs [] er e0 (by rw [hes, he]; rfl)
  obtain ⟨A, r, A', g1, g2, g3, g4, g5⟩ := runEntries_split rs 0 _ hcs l₁ l₂ x (by rw [hes, hl])
  obtain ⟨B, s, B', k1, k2, k3, k4, k5⟩ := runEntries_split rs 0 _ hcs m₁ m₂ y (by rw [hes, hm])
  have hhd := runEntries_nil hd _ _ f3.symm
  simp only [Nat.zero_add] at f4 g4 k4 g5 k5
  -- `A = hd ++ pre`
  obtain ⟨pre, hpre⟩ : ∃ pre, A = hd ++ pre := by
    rw [f1] at g1
    rcases List.append_eq_append_iff.mp g1 with ⟨c, c1, c2⟩ | ⟨c, c1, c2⟩
    · exact ⟨c, c1⟩
    · rcases c with _ | ⟨z, c⟩
      · exact ⟨[], by simpa using c1.symm⟩
      · exfalso
        simp only [List.cons_append, List.cons.injEq] at c2
        exact hhd z (by rw [c1]; simp) (c2.1 ▸ g2)
  -- `B = A ++ mid`
  obtain ⟨mid, hmid⟩ : ∃ mid, B = A ++ mid := by
    have g1' := g1
    rw [k1] at g1'
    rcases List.append_eq_append_iff.mp g1' with ⟨c, c1, c2⟩ | ⟨c, c1, c2⟩
    · rcases c with _ | ⟨z, c⟩
      · exact ⟨[], by simpa using c1.symm⟩
      · exfalso
        have hz : z ∈ rs := by rw [g1, c1]; simp
        have := bytes_length z (hcs z hz)
        apply hlt
        rw [k4, g4, c1]
        simp only [List.flatMap_append, List.flatMap_cons, List.length_append]
        omega
    · exact ⟨c, c1⟩
  have hrs : rs = hd ++ pre ++ mid ++ s :: B' := by rw [k1, hmid, hpre]
  have hcsA : ∀ r ∈ A, r.cs.length = 4 := fun r hr => hcs r (by rw [g1]; simp [hr])
  have hcsh : ∀ r ∈ hd, r.cs.length = 4 := fun r hr => hcs r (by rw [f1]; simp [hr])
  have lenI : ∀ (p : ℕ) (st : AdIdxState) (l : List Spec.AdRec), (runEntries p st l).length = (Spec.indexed 0 l).length := by
    intro p st l
    have h1 := (runEntries_describes l p st).length_eq
    have : ∀ (p q : ℕ) (l : List Spec.AdRec), (Spec.indexed p l).length = (Spec.indexed q l).length := by
      intro p q l
      induction l generalizing p q with
      | nil => rfl
      | cons z l ih =>
        rw [Spec.indexed, Spec.indexed, List.length_append, List.length_append, ih _ (q + 10 + z.body.length)]
        split <;> simp
    rw [h1]; exact this _ _ _
  -- entries of the middle part
  have hm1 : m₁ = l₁ ++ runEntries (0 + (A.flatMap Spec.AdRec.bytes).length) (runState st0 A) mid := by
    rw [k3, hmid, runEntries_append A mid 0 _ hcsA, g3]
  have hout : out = (hd ++ mid).flatMap Spec.AdRec.bytes := by
    rw [← h, f4, g4, k4, hrs, hpre, hmid, hpre]
    simp only [List.flatMap_append]
    rw [List.append_assoc _ _ tail]
    exact cut_bytes _ _ _ _
  refine ⟨hd, pre, mid, s :: B', l₁, runEntries (0 + (A.flatMap Spec.AdRec.bytes).length) (runState st0 A) mid,
    y :: m₂, hrs, ?_, hhd, ?_, ?_, lenI _ _ _, ?_, ?_, ?_, ?_, ?_⟩
  · exact hout
  · rw [← he, hm, hm1]
  · rw [g3, hpre, runEntries_append hd pre 0 _ hcsh, ← f3, List.nil_append, lenI]
  · intro e hme; simpa using hl₁ e hme
  · intro e hme; rw [← hm1] at hme; simpa using hm₁ e hme
  · have : runEntries (0 + (A.flatMap Spec.AdRec.bytes).length) (runState st0 A) mid ++ y :: m₂ = x :: l₂ := by
      have := hl.symm.trans hm
      rw [hm1, List.append_assoc] at this
      exact (List.append_cancel_left this).symm
    rw [this]; simpa using hxa
  · simpa using hyb
  · obtain ⟨es', i1, i2, -⟩ := adIndex_complete (hd ++ mid) [] (by simp)
      (fun r hr => hok r (by rw [hrs]; simp at hr ⊢; tauto))
      (fun r hr => by
        have := hh r (by rw [hrs]; simp at hr ⊢; tauto)
        have hl : (hd ++ mid).length ≤ rs.length := by rw [hrs]; simp; omega
        omega)
      (by have hl : (hd ++ mid).length ≤ rs.length := by rw [hrs]; simp; omega
          omega) fuel
      (by have hl : (hd ++ mid).length ≤ rs.length := by rw [hrs]; simp; omega
          omega)
    refine ⟨es', ?_, i2⟩
    have e : out = (hd ++ mid).flatMap Spec.AdRec.bytes ++ [] := by rw [hout, List.append_nil]
    rw [e]; exact i1

/-- **C91** (false part). The end of the range must itself be the number of an ensemble of the file, and
that ensemble is left out: no range keeps the last ensemble, and naming the number behind the last one
raises. -/
theorem crop_last_false (file : List ℕ) (idx : List AdEntry) (a b n : ℕ) (hn : ∀ e ∈ idx, e.ens < n)
    (hb : n ≤ b) : adCrop file idx a b = .error .indexError := by
  have : idx.find? (fun e => e.ens = b) = none := by
    rw [List.find?_eq_none]
    intro e he
    have := hn e he
    simp; omega
  unfold adCrop
  rw [this]
  rcases idx with _ | ⟨e0, er⟩
  · rfl
  · generalize (e0 :: er).find? (fun e => e.ens = a) = o
    cases o <;> rfl

/-- A burst record with hardware counter `n`. -/
def cropRec (n : ℕ) : Spec.AdRec := ⟨165, 10, 21, 16, [0, 0, 0, 0], List.replicate 72 0 ++ [n, 0, 0, 0]⟩

/-- A string record in front. -/
def cropHead : Spec.AdRec := ⟨165, 10, 160, 16, [0, 0, 0, 0], [1, 2, 3]⟩

/-- Three ensembles; the second one is cut out. -/
example :
    (match adIndex 10 ([cropHead, cropRec 5, cropRec 6, cropRec 7].flatMap Spec.AdRec.bytes) with
    | some (.ok es) => adCrop ([cropHead, cropRec 5, cropRec 6, cropRec 7].flatMap Spec.AdRec.bytes) es 1 2
    | _ => .error .exception) = .ok ([cropHead, cropRec 6].flatMap Spec.AdRec.bytes) := by
  decide +kernel

end Dolfyn
