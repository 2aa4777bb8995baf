import Verif.Model.IoBase
import Mathlib.Data.List.Induction

/-!
Lemmas for the file reading and writing model.
-/

namespace Dolfyn

variable {T : Type}

theorem vars_get_set (l : Vars T) (k k' : String) (v : Arr T) :
    (l.set k v).get k' = if k' = k then some v else l.get k' := by
  unfold Vars.set Vars.get
  split
  · rename_i h
    induction l with
    | nil => simp at h
    | cons p l ih =>
      simp only [List.map_cons, List.mem_cons] at h
      by_cases hp : p.1 = k
      · by_cases hk : k' = k
        · subst hk; simp [hp]
        · have hk2 : ¬ k = k' := fun e => hk e.symm
          have : ∀ m : Vars T, (List.find? (fun p => decide (p.1 = k'))
              (m.map fun p => if p.1 = k then (k, v) else p)) =
              List.find? (fun p => decide (p.1 = k')) m := by
            intro m
            induction m with
            | nil => rfl
            | cons q m ih =>
              by_cases hq : q.1 = k
              · simp [hq, hk2, ih]
              · by_cases hq' : q.1 = k' <;> simp [hq, hq', hk, ih]
          rw [this, if_neg hk]
      · rcases h with h | h
        · exact absurd h.symm hp
        · have := ih h
          by_cases hq : p.1 = k'
          · have hk : ¬ k' = k := fun e => hp (hq.trans e)
            simp [hq, hk]
          · simpa [hp, hq] using this
  · rename_i h
    by_cases hk : k' = k
    · subst hk
      have : List.find? (fun p : String × Arr T => decide (p.1 = k')) l = none := by
        rw [List.find?_eq_none]
        intro p hp he
        exact h (List.mem_map.mpr ⟨p, hp, by simpa using he⟩)
      simp [List.find?_append, this]
    · have hk2 : ¬ k = k' := fun e => hk e.symm
      simp [List.find?_append, hk, hk2]

theorem vars_get_drop (l : Vars T) (k k' : String) :
    (l.drop k).get k' = if k' = k then none else l.get k' := by
  unfold Vars.drop Vars.get
  induction l with
  | nil => simp
  | cons p l ih =>
    by_cases hp : p.1 = k
    · by_cases hk : k' = k
      · subst hk; simpa [hp] using ih
      · have hk2 : ¬ k = k' := fun e => hk e.symm
        simp only [hk, if_false] at ih
        simp [hp, hk, hk2] at ih ⊢
        exact ih
    · by_cases hq : p.1 = k'
      · have hk : ¬ k' = k := fun e => hp (hq.trans e)
        simp [hq, hk]
      · simpa [hp, hq] using ih

theorem vars_get_isSome (l : Vars T) (k : String) : (l.get k).isSome ↔ k ∈ l.map Prod.fst := by
  unfold Vars.get
  simp [List.find?_isSome]

theorem suffix_inj (a b s : String) (h : a ++ s = b ++ s) : a = b := by
  have := congrArg String.toList h
  simp only [String.toList_append] at this
  exact String.toList_inj.mp (List.append_cancel_right this)

theorem real_ne_imag (a b : String) : a ++ "_real" ≠ b ++ "_imag" := by
  intro h
  have := congrArg String.toList h
  simp only [String.toList_append] at this
  have := congrArg List.getLast? this
  simp at this

end Dolfyn
