import Verif.Model.Ad2cpRead
import Mathlib.Tactic.Ring
import Mathlib.Tactic.Common

/-!
Where the pings of an AD2CP file are stored (C143): never outside the arrays, and raw altimeter pings one after the other.
-/

namespace Dolfyn

/-- Is this stored inside arrays of `nens` columns, or of `nAlt id` columns for the raw altimeter pings of type `id`? -/
def Spec.InArrays (nens : ℕ) (nAlt : ℕ → ℕ) : AdWrite → Prop
  | .ping _ c _ => c < nens
  | .alt id k _ _ => k < nAlt id
  | .str _ _ _ => True

/-- The places of the raw altimeter pings of one type, in the order in which they are stored. -/
def Spec.altPlaces (id : ℕ) : List AdWrite → List ℕ
  | [] => []
  | .alt i k _ _ :: l => if i = id then k :: Spec.altPlaces id l else Spec.altPlaces id l
  | _ :: l => Spec.altPlaces id l

theorem altPlaces_append (id : ℕ) : ∀ a b : List AdWrite,
    Spec.altPlaces id (a ++ b) = Spec.altPlaces id a ++ Spec.altPlaces id b
  | [], _ => rfl
  | .alt i k c x :: l, b => by
    simp only [List.cons_append, Spec.altPlaces, altPlaces_append id l b]
    split <;> rfl
  | .ping _ _ _ :: l, b => by simp only [List.cons_append, Spec.altPlaces, altPlaces_append id l b]
  | .str _ _ _ :: l, b => by simp only [List.cons_append, Spec.altPlaces, altPlaces_append id l b]

theorem adStore_inside (ctx : AdCtx) (r : AdRecInfo) (c : ℕ) (k k' : ℕ → ℕ) (w : List AdWrite)
    (h : adStore ctx r c k = .ok (w, k')) : (∀ x ∈ w, Spec.InArrays ctx.nens ctx.nAlt x) ∧
      ∀ id, Spec.altPlaces id w = List.range' (k id) (k' id - k id) ∧ k id ≤ k' id := by
  unfold adStore at h
  split at h
  · split at h
    · split at h
      · cases h
      · split at h
        · cases h
        · next hk =>
          obtain ⟨rfl, rfl⟩ := Prod.mk.inj (Except.ok.inj h)
          refine ⟨?_, ?_⟩
          · intro x hx
            rw [List.mem_singleton] at hx
            subst hx
            exact not_le.mp hk
          · intro id
            by_cases hi : r.id = id
            · subst hi
              simp [Spec.altPlaces]
            · simp [Spec.altPlaces, hi, Function.update_of_ne (Ne.symm hi)]
    · split at h
      · cases h
      · next hk =>
        obtain ⟨rfl, rfl⟩ := Prod.mk.inj (Except.ok.inj h)
        refine ⟨?_, ?_⟩
        · intro x hx
          rw [List.mem_singleton] at hx
          subst hx
          exact not_le.mp hk
        · intro id; simp [Spec.altPlaces]
  · obtain ⟨rfl, rfl⟩ := Prod.mk.inj (Except.ok.inj h)
    refine ⟨?_, ?_⟩
    · intro x hx
      rw [List.mem_singleton] at hx
      subst hx
      trivial
    · intro id; simp [Spec.altPlaces]
  · obtain ⟨rfl, rfl⟩ := Prod.mk.inj (Except.ok.inj h)
    exact ⟨by simp, fun id => by simp [Spec.altPlaces]⟩

theorem adReadLoop_inside (recAt : ℕ → Except AdStop AdRecInfo) (ctx : AdCtx) (fuel p c : ℕ) (k : ℕ → ℕ)
    (l : List AdWrite) (h : adReadLoop recAt ctx fuel p c k = some (.ok l)) :
    (∀ x ∈ l, Spec.InArrays ctx.nens ctx.nAlt x) ∧ ∀ id, ∃ n, Spec.altPlaces id l = List.range' (k id) n := by
  induction fuel generalizing p c k l with
  | zero => cases h
  | succ fuel ih =>
    rw [adReadLoop] at h
    split at h
    · obtain rfl := Except.ok.inj (Option.some.inj h)
      exact ⟨by simp, fun id => ⟨0, rfl⟩⟩
    · cases Option.some.inj h
    · split at h
      · cases Option.some.inj h
      · next w k' hs =>
        obtain ⟨a1, a2⟩ := adStore_inside _ _ _ _ _ _ hs
        simp only at h
        split at h
        · obtain rfl := Except.ok.inj (Option.some.inj h)
          exact ⟨a1, fun id => ⟨_, (a2 id).1⟩⟩
        · split at h
          · cases h
          · cases Option.some.inj h
          · next l' hl =>
            obtain rfl := Except.ok.inj (Option.some.inj h)
            obtain ⟨b1, b2⟩ := ih _ _ _ _ hl
            refine ⟨?_, ?_⟩
            · intro x hx
              rcases List.mem_append.mp hx with hx | hx
              · exact a1 x hx
              · exact b1 x hx
            · intro id
              obtain ⟨n, hn⟩ := b2 id
              obtain ⟨e1, e2⟩ := a2 id
              refine ⟨(k' id - k id) + n, ?_⟩
              rw [altPlaces_append, e1, hn, ← List.range'_append_1]
              congr 2
              omega

/-- **C143.** Whatever records the file contains, a call of the reader that returns has stored every ping in a column of the
range asked for, and the raw altimeter pings of each type one after the other from the first place on, none of them
twice in a place and none beyond the number of those that the index counts in the range. -/
theorem ad2cp_stored_inside (recAt : ℕ → Except AdStop AdRecInfo) (idx : List AdEntry) (eof : ℕ) (whole : Bool)
    (fuel start : ℕ) (stop : Option ℕ) (l : List AdWrite)
    (h : adReadfile recAt idx eof whole fuel start stop = some (.ok l)) :
    ∃ stop', start ≤ stop' ∧ (∀ b, stop = some b → stop' ≤ b) ∧
      (∀ x ∈ l, Spec.InArrays (stop' - start)
        (fun id => (idx.filter fun e => e.id = id ∧ start ≤ e.ens ∧ e.ens < stop').length) x) ∧
      ∀ id, ∃ n, Spec.altPlaces id l = List.range n := by
  unfold adReadfile at h
  simp only at h
  generalize (adEnsPos idx).length - (if whole = true then 0 else 1) = nt at h
  split at h
  · cases Option.some.inj h
  · next hs =>
    split at h
    · cases Option.some.inj h
    · obtain ⟨a1, a2⟩ := adReadLoop_inside _ _ _ _ _ _ _ h
      refine ⟨_, not_lt.mp hs, ?_, a1, ?_⟩
      · rintro b rfl
        simp only [adStopOf]
        split_ifs <;> omega
      · intro id
        obtain ⟨n, hn⟩ := a2 id
        exact ⟨n, by rw [hn, List.range_eq_range']⟩

/-- A file of two bytes long raw altimeter pings only, two of them. -/
def altOnly (p : ℕ) : Except AdStop AdRecInfo :=
  if p < 4 then .ok { id := 26, next := p + 2, payload := .items [] } else .error .eof

/-- An entry of the index for the raw altimeter ping at a position. -/
def altEntry (ens pos : ℕ) : AdEntry :=
  { ens := ens, hwEns := 0, pos := pos, id := 26, config := 0, beamsCy := 0, date := [], dVer := 3 }

example : adReadfile altOnly [altEntry 0 0, altEntry 1 2] 4 true 9 0 none =
    some (.ok [.alt 26 0 0 [], .alt 26 1 1 []]) := by decide +kernel

/-- With fewer of them in the index than in the file, the reader raises. -/
example : adReadfile altOnly [altEntry 0 0, { altEntry 1 2 with id := 22 }] 4 true 9 0 none =
    some (.error .indexError) := by decide +kernel

end Dolfyn
