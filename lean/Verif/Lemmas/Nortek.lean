import Verif.Model.Nortek
import Mathlib.Tactic.Linarith

/-!
Lemmas for the Nortek reader.
-/

namespace Dolfyn

/-- State `(sum, cs)` of the search after `p` words. -/
def searchState (le : Bool) (sum cs : ℕ) (w : List ℕ) : ℕ → ℕ × ℕ
  | 0 => (sum, cs)
  | p + 1 => let s := searchState le sum cs w p; (s.1 + s.2, w.getD p 0)

theorem searchState_succ (le : Bool) (sum cs a : ℕ) (w : List ℕ) (p : ℕ) :
    searchState le sum cs (a :: w) (p + 1) = searchState le (sum + cs) a w p := by
  induction p with
  | zero => simp [searchState]
  | succ p ih =>
    rw [searchState, ih]
    simp [searchState]

/-- A match of the search at word `p`. -/
def matchAt (le doCs : Bool) (sum cs : ℕ) (bytes : List ℕ) (p : ℕ) : Prop :=
  2 * p + 1 < bytes.length ∧ bytes.getD (2 * p) 0 = 165 ∧
    (doCs = false ∨
      (searchState le sum cs (words le bytes) p).2 =
        (searchState le sum cs (words le bytes) p).1 % 65536)

theorem matchAt_succ (le doCs : Bool) (sum cs a b : ℕ) (rest : List ℕ) (p : ℕ) :
    matchAt le doCs sum cs (a :: b :: rest) (p + 1) ↔
      matchAt le doCs (sum + cs) (word le a b) rest p := by
  unfold matchAt
  rw [words, searchState_succ]
  have e : 2 * (p + 1) = 2 * p + 1 + 1 := by ring
  rw [e]
  simp only [List.length_cons, List.getD_cons_succ]
  constructor
  · rintro ⟨h1, h2, h3⟩; exact ⟨by omega, h2, h3⟩
  · rintro ⟨h1, h2, h3⟩; exact ⟨by omega, h2, h3⟩

theorem word_first (le : Bool) (a b : ℕ) (ha : a < 256) (hb : b < 256) :
    (if le then word le a b % 256 else word le a b / 256) = a ∧
    (if le then word le a b / 256 else word le a b % 256) = b := by
  cases le <;> simp [word] <;> omega

theorem findnextAux_spec (le doCs : Bool) (sum cs : ℕ) (bytes : List ℕ)
    (hb : ∀ b ∈ bytes, b < 256) :
    (findnextAux le doCs sum cs bytes = none ↔ ∀ p, ¬ matchAt le doCs sum cs bytes p) ∧
    ∀ id r, findnextAux le doCs sum cs bytes = some (id, r) ↔
      ∃ p, matchAt le doCs sum cs bytes p ∧ (∀ q < p, ¬ matchAt le doCs sum cs bytes q) ∧
        r = bytes.drop (2 * p) ∧ id = bytes.getD (2 * p + 1) 0 := by
  induction bytes using words.induct generalizing sum cs with
  | case1 a b rest ih =>
    have ha : a < 256 := hb a (by simp)
    have hb' : b < 256 := hb b (by simp)
    obtain ⟨w1, w2⟩ := word_first le a b ha hb'
    have ih' := ih (sum + cs) (word le a b) (fun x hx => hb x (by simp [hx]))
    rw [findnextAux]
    simp only [w1, w2]
    have m0 : matchAt le doCs sum cs (a :: b :: rest) 0 ↔
        a = 165 ∧ (doCs = false ∨ cs = sum % 65536) := by
      simp [matchAt, searchState]
    by_cases h : a = 165 ∧ (doCs = false ∨ cs = sum % 65536)
    · rw [if_pos h]
      refine ⟨?_, ?_⟩
      · constructor
        · intro h'; cases h'
        · intro h'; exact absurd (m0.mpr h) (h' 0)
      · intro id r
        constructor
        · intro e
          obtain ⟨rfl, rfl⟩ := Prod.mk.inj (Option.some.inj e)
          exact ⟨0, m0.mpr h, by omega, by simp, by simp⟩
        · rintro ⟨p, hp, hq, hr, hid⟩
          rcases p with _ | p
          · rw [hr, hid]; simp
          · exact absurd (m0.mpr h) (hq 0 (by omega))
    · rw [if_neg h]
      refine ⟨?_, ?_⟩
      · rw [ih'.1]
        constructor
        · rintro H (_ | p)
          · exact fun hm => h (m0.mp hm)
          · rw [matchAt_succ]; exact H p
        · intro H p
          rw [← matchAt_succ]
          exact H (p + 1)
      · intro id r
        rw [ih'.2]
        constructor
        · rintro ⟨p, hp, hq, hr, hid⟩
          refine ⟨p + 1, (matchAt_succ _ _ _ _ _ _ _ _).mpr hp, ?_, ?_, ?_⟩
          · rintro (_ | q) hlt
            · exact fun hm => h (m0.mp hm)
            · rw [matchAt_succ]; exact hq q (by omega)
          · rw [hr, show 2 * (p + 1) = 2 * p + 1 + 1 by ring]; simp
          · rw [hid, show 2 * (p + 1) + 1 = 2 * p + 1 + 1 + 1 by ring]; simp
        · rintro ⟨_ | p, hp, hq, hr, hid⟩
          · exact absurd (m0.mp hp) h
          · refine ⟨p, (matchAt_succ _ _ _ _ _ _ _ _).mp hp, ?_, ?_, ?_⟩
            · intro q hlt
              rw [← matchAt_succ]
              exact hq (q + 1) (by omega)
            · rw [hr, show 2 * (p + 1) = 2 * p + 1 + 1 by ring]; simp
            · rw [hid, show 2 * (p + 1) + 1 = 2 * p + 1 + 1 + 1 by ring]; simp
  | case2 t ht =>
    have hlen : t.length ≤ 1 := by
      rcases t with _ | ⟨a, _ | ⟨b, r⟩⟩
      · simp
      · simp
      · exact (ht a b r rfl).elim
    have hn : findnextAux le doCs sum cs t = none := by
      rcases t with _ | ⟨a, _ | ⟨b, r⟩⟩
      · rfl
      · rfl
      · exact (ht a b r rfl).elim
    have hm : ∀ p, ¬ matchAt le doCs sum cs t p := fun p h => by have := h.1; omega
    refine ⟨⟨fun _ => hm, fun _ => hn⟩, ?_⟩
    intro id r
    rw [hn]
    constructor
    · intro h; cases h
    · rintro ⟨p, hp, -⟩; exact absurd hp (hm p)

theorem searchState_pos (le : Bool) (sum cs : ℕ) (w : List ℕ) (p : ℕ) :
    searchState le sum cs w (p + 1) =
      (sum + cs + ((List.range p).map fun i => w.getD i 0).sum, w.getD p 0) := by
  induction p with
  | zero => simp [searchState]
  | succ p ih =>
    rw [searchState, ih, List.range_succ]
    simp [add_assoc]

end Dolfyn
