import Verif.Model.Repr
import Mathlib.Tactic.Linarith
import Mathlib.Tactic.Ring
import Mathlib.Tactic.FieldSimp
import Mathlib.Tactic.NormNum

/-!
C148: the printed summary of a dataset.
-/

namespace Dolfyn

/-- Seconds in a unit. -/
def Spec.unitSeconds : ReprUnit → ℚ
  | .days => 86400
  | .hours => 3600
  | .minutes => 60
  | .seconds => 1

/-- The next larger unit. -/
def Spec.unitAbove : ReprUnit → Option ReprUnit
  | .days => none
  | .hours => some .days
  | .minutes => some .hours
  | .seconds => some .minutes

theorem reprTime_cons (t : ℚ) (ts : List ℚ) : reprTime (some (t :: ts)) = if t < 1 then .ok .noInfo else
    .ok (.span (reprDelta (((t :: ts).getLast (by simp) - t) / (3600 * 24))).1
      (reprDelta (((t :: ts).getLast (by simp) - t) / (3600 * 24))).2 t) := rfl

/-- **C148.** The duration is printed in the largest unit of which it is more than one, and the number times the unit is
the time between the first and the last ping. -/
theorem repr_duration (t : ℚ) (ts : List ℚ) (h : 1 ≤ t) :
    ∃ v u, reprTime (some (t :: ts)) = .ok (.span v u t) ∧
      v * Spec.unitSeconds u = (t :: ts).getLast (by simp) - t ∧
      (u ≠ .seconds → 1 < v) ∧
      ∀ w, Spec.unitAbove u = some w → (t :: ts).getLast (by simp) - t ≤ Spec.unitSeconds w := by
  rw [reprTime_cons, if_neg (not_lt.mpr h)]
  refine ⟨_, _, rfl, ?_⟩
  generalize (t :: ts).getLast (by simp) - t = x
  unfold reprDelta
  by_cases h1 : 1 < x / (3600 * 24)
  · rw [if_pos h1]
    refine ⟨?_, fun _ => h1, ?_⟩
    · simp only [Spec.unitSeconds]; ring
    · intro w hw; simp [Spec.unitAbove] at hw
  · rw [if_neg h1]
    have g1 : x ≤ 86400 := by
      rw [not_lt, div_le_iff₀ (by norm_num)] at h1
      linarith
    by_cases h2 : 1 < x / (3600 * 24) * 24
    · rw [if_pos h2]
      refine ⟨?_, fun _ => h2, ?_⟩
      · simp only [Spec.unitSeconds]; ring
      · intro w hw
        simp only [Spec.unitAbove, Option.some.injEq] at hw
        subst hw
        simpa [Spec.unitSeconds] using g1
    · rw [if_neg h2]
      have g2 : x ≤ 3600 := by
        have e : x / (3600 * 24) * 24 = x / 3600 := by ring
        rw [e, not_lt, div_le_iff₀ (by norm_num)] at h2
        linarith
      by_cases h3 : 1 < x / (3600 * 24) * 24 * 60
      · rw [if_pos h3]
        refine ⟨?_, fun _ => ?_, ?_⟩
        · simp only [Spec.unitSeconds]; ring
        · have e : x / (3600 * 24) * (24 * 60) = x / (3600 * 24) * 24 * 60 := by ring
          rw [e]
          exact h3
        · intro w hw
          simp only [Spec.unitAbove, Option.some.injEq] at hw
          subst hw
          simpa [Spec.unitSeconds] using g2
      · rw [if_neg h3]
        refine ⟨?_, fun hc => absurd rfl hc, ?_⟩
        · simp only [Spec.unitSeconds]; ring
        · intro w hw
          simp only [Spec.unitAbove, Option.some.injEq] at hw
          subst hw
          have e : x / (3600 * 24) * 24 * 60 = x / 60 := by ring
          rw [e, not_lt, div_le_iff₀ (by norm_num)] at h3
          simp only [Spec.unitSeconds]
          linarith

/-- A name matches a pattern: it begins with it (wildcard), or is it. -/
def Spec.shows (p : List Char × Bool) (nm : List Char) : Prop := if p.2 then p.1 <+: nm else nm = p.1

theorem reprInner_eq (v : List Char) (vars : List (List Char)) : ∀ (n : ℕ) (out : List (List Char)),
    reprInner v vars (n, out) = (n + ((vars.filter (v.isPrefixOf ·)).take (13 - n)).length,
      out ++ (vars.filter (v.isPrefixOf ·)).take (13 - n)) := by
  induction vars with
  | nil => intro n out; simp [reprInner]
  | cons nm vars ih =>
    intro n out
    rw [reprInner]
    by_cases h1 : 12 < n
    · rw [if_pos h1, show 13 - n = 0 by omega]
      simp
    · rw [if_neg h1]
      by_cases h2 : v.isPrefixOf nm = true
      · rw [if_pos h2, ih, List.filter_cons_of_pos (by simpa using h2), show 13 - n = (13 - (n + 1)) + 1 by omega,
          List.take_succ_cons, List.append_assoc]
        simp only [List.length_cons, List.cons_append, List.nil_append, Prod.mk.injEq, and_true]
        omega
      · rw [if_neg h2, ih, List.filter_cons_of_neg (by simpa using h2)]

/-- What the loop over the patterns adds. -/
theorem reprOuter_spec (vars : List (List Char)) (hv : vars.Nodup) : ∀ (ps : List (List Char × Bool)),
    ps.Pairwise (fun p q => ∀ nm, Spec.shows p nm → ¬ Spec.shows q nm) → ∀ (n : ℕ) (out : List (List Char)),
    ∃ L W : List (List Char), (reprOuter vars ps (n, out)).2 = out ++ L ∧ (reprOuter vars ps (n, out)).1 = n + W.length ∧
      W.Sublist L ∧ L.Nodup ∧ (∀ nm ∈ L, nm ∈ vars ∧ ∃ p ∈ ps, Spec.shows p nm) ∧
      (n ≤ 13 → n + W.length ≤ 13) ∧
      (n + W.length ≤ 12 → ∀ nm ∈ vars, (∃ p ∈ ps, Spec.shows p nm) → nm ∈ L) ∧
      ∀ nm ∈ W, ∃ p ∈ ps, p.2 = true ∧ Spec.shows p nm := by
  intro ps
  induction ps with
  | nil =>
    intro _ n out
    exact ⟨[], [], by simp [reprOuter], by simp [reprOuter], by simp, by simp, by simp, by simp, by simp, by simp⟩
  | cons p ps ih =>
    intro hp n out
    obtain ⟨v, star⟩ := p
    rw [List.pairwise_cons] at hp
    obtain ⟨hp1, hp2⟩ := hp
    rw [reprOuter]
    by_cases h1 : 12 < n
    · rw [if_pos h1]
      refine ⟨[], [], by simp, by simp, by simp, by simp, by simp, by simp, ?_, by simp⟩
      intro h
      simp at h
      omega
    · rw [if_neg h1]
      cases star with
      | true =>
        rw [if_pos rfl, reprInner_eq]
        generalize hF : (vars.filter (v.isPrefixOf ·)).take (13 - n) = F
        obtain ⟨L, W, a1, a2, a3, a4, a5, a6, a7, a8⟩ := ih hp2 (n + F.length) (out ++ F)
        have hFs : F.Sublist (vars.filter (v.isPrefixOf ·)) := by rw [← hF]; exact List.take_sublist _ _
        have hFl : n + F.length ≤ 13 := by
          rw [← hF, List.length_take]
          omega
        have hFm : ∀ nm ∈ F, nm ∈ vars ∧ Spec.shows (v, true) nm := by
          intro nm hn
          have := List.mem_filter.mp (hFs.subset hn)
          exact ⟨this.1, by simpa [Spec.shows] using this.2⟩
        have hFc : n + F.length ≤ 12 → ∀ nm ∈ vars, Spec.shows (v, true) nm → nm ∈ F := by
          intro hl nm hn hs
          have : F = vars.filter (v.isPrefixOf ·) := by
            rw [← hF]
            apply List.take_of_length_le
            rw [← hF, List.length_take] at hl
            omega
          rw [this, List.mem_filter]
          exact ⟨hn, by simpa [Spec.shows] using hs⟩
        refine ⟨F ++ L, F ++ W, ?_, ?_, ?_, ?_, ?_, ?_, ?_, ?_⟩
        · rw [a1, List.append_assoc]
        · rw [a2, List.length_append]; omega
        · exact List.Sublist.append (List.Sublist.refl _) a3
        · rw [List.nodup_append]
          refine ⟨hFs.nodup (hv.filter _), a4, ?_⟩
          intro a ha b hb hab
          subst hab
          obtain ⟨-, q, hq, hs⟩ := a5 a hb
          exact hp1 q hq a (hFm a ha).2 hs
        · intro nm hn
          rcases List.mem_append.mp hn with hn | hn
          · exact ⟨(hFm nm hn).1, (v, true), by simp, (hFm nm hn).2⟩
          · obtain ⟨b1, q, hq, hs⟩ := a5 nm hn
            exact ⟨b1, q, by simp [hq], hs⟩
        · intro _
          have := a6 hFl
          rw [List.length_append]
          omega
        · intro hl nm hn hs
          rw [List.length_append] at hl
          obtain ⟨q, hq, hs⟩ := hs
          rcases List.mem_cons.mp hq with rfl | hq
          · exact List.mem_append_left _ (hFc (by omega) nm hn hs)
          · exact List.mem_append_right _ (a7 (by omega) nm hn ⟨q, hq, hs⟩)
        · intro nm hn
          rcases List.mem_append.mp hn with hn | hn
          · exact ⟨(v, true), by simp, rfl, (hFm nm hn).2⟩
          · obtain ⟨q, hq, hs⟩ := a8 nm hn
            exact ⟨q, by simp [hq], hs⟩
      | false =>
        rw [if_neg (by simp)]
        by_cases h2 : v ∈ vars
        · rw [if_pos h2]
          simp only
          obtain ⟨L, W, a1, a2, a3, a4, a5, a6, a7, a8⟩ := ih hp2 n (out ++ [v])
          refine ⟨v :: L, W, ?_, a2, a3.cons _, ?_, ?_, a6, ?_, ?_⟩
          · rw [a1, List.append_assoc]; rfl
          · rw [List.nodup_cons]
            refine ⟨fun hc => ?_, a4⟩
            obtain ⟨-, q, hq, hs⟩ := a5 v hc
            exact hp1 q hq v (by simp [Spec.shows]) hs
          · intro nm hn
            rcases List.mem_cons.mp hn with rfl | hn
            · exact ⟨h2, (nm, false), by simp, by simp [Spec.shows]⟩
            · obtain ⟨b1, q, hq, hs⟩ := a5 nm hn
              exact ⟨b1, q, by simp [hq], hs⟩
          · intro hl nm hn hs
            obtain ⟨q, hq, hs⟩ := hs
            rcases List.mem_cons.mp hq with rfl | hq
            · simp only [Spec.shows, Bool.false_eq_true, if_false] at hs
              simp [hs]
            · exact List.mem_cons_of_mem _ (a7 hl nm hn ⟨q, hq, hs⟩)
          · intro nm hn
            obtain ⟨q, hq, hs⟩ := a8 nm hn
            exact ⟨q, by simp [hq], hs⟩
        · rw [if_neg h2]
          obtain ⟨L, W, a1, a2, a3, a4, a5, a6, a7, a8⟩ := ih hp2 n out
          refine ⟨L, W, a1, a2, a3, a4, ?_, a6, ?_, ?_⟩
          · intro nm hn
            obtain ⟨b1, q, hq, hs⟩ := a5 nm hn
            exact ⟨b1, q, by simp [hq], hs⟩
          · intro hl nm hn hs
            obtain ⟨q, hq, hs⟩ := hs
            rcases List.mem_cons.mp hq with rfl | hq
            · simp only [Spec.shows, Bool.false_eq_true, if_false] at hs
              rw [hs] at hn
              exact absurd hn h2
            · exact a7 hl nm hn ⟨q, hq, hs⟩
          · intro nm hn
            obtain ⟨q, hq, hs⟩ := a8 nm hn
            exact ⟨q, by simp [hq], hs⟩

theorem shows_prefix {p : List Char × Bool} {nm : List Char} (h : Spec.shows p nm) : p.1 <+: nm := by
  unfold Spec.shows at h
  split_ifs at h
  · exact h
  · rw [h]
    exact List.prefix_refl _

/-- No name is shown for two reasons. -/
theorem showVars_disjoint : showVars.Pairwise (fun p q => ∀ nm, Spec.shows p nm → ¬ Spec.shows q nm) := by
  have key : showVars.Pairwise (fun p q =>
      (¬ p.1.isPrefixOf q.1 = true ∧ ¬ q.1.isPrefixOf p.1 = true) ∨ (p.2 = false ∧ q.2 = false ∧ p.1 ≠ q.1)) := by
    decide
  refine key.imp ?_
  rintro p q h nm h1 h2
  rcases h with ⟨h3, h4⟩ | ⟨h3, h4, h5⟩
  · rcases List.prefix_or_prefix_of_prefix (shows_prefix h1) (shows_prefix h2) with h5 | h5
    · exact h3 (by simpa using h5)
    · exact h4 (by simpa using h5)
  · unfold Spec.shows at h1 h2
    rw [h3] at h1
    rw [h4] at h2
    simp only [Bool.false_eq_true, if_false] at h1 h2
    exact h5 (h1.symm.trans h2)

/-- **C148.** The summary of a dataset with a time and an instrument: number of pings, sampling rate, frame and
instrument are those of the dataset; every variable shown is in the dataset, none twice; with at most twelve
variables of the kinds with a wildcard (time, velocity, pressure, amplitude, correlation) every variable of a kind to
show is shown; and when nothing is said about others, every variable of the dataset is shown. -/
theorem repr_summary {α : Type} (attrs : List Char → Option α) (t : ℚ) (ts : List ℚ) (vars : List (List Char))
    (hv : vars.Nodup) {mk md : α} (h1 : attrs ['i', 'n', 's', 't', '_', 'm', 'a', 'k', 'e'] = some mk)
    (h2 : attrs ['i', 'n', 's', 't', '_', 'm', 'o', 'd', 'e', 'l'] = some md) :
    ∃ r, reprDs attrs (some (t :: ts)) vars = .ok r ∧ r.make = mk ∧ r.model = md ∧ r.pings = (t :: ts).length ∧
      r.fs = attrs ['f', 's'] ∧ r.frame = attrs ['c', 'o', 'o', 'r', 'd', '_', 's', 'y', 's'] ∧
      reprTime (some (t :: ts)) = .ok r.time ∧
      (∀ nm ∈ r.shown, nm ∈ vars) ∧ r.shown.Nodup ∧
      ((vars.filter fun nm => decide (∃ p ∈ showVars, p.2 = true ∧ p.1.isPrefixOf nm = true)).length ≤ 12 →
        ∀ nm ∈ vars, (∃ p ∈ showVars, Spec.shows p nm) → nm ∈ r.shown) ∧
      (r.others = false → ∀ nm ∈ vars, nm ∈ r.shown) := by
  obtain ⟨L, W, a1, a2, a3, a4, a5, a6, a7, a8⟩ := reprOuter_spec vars hv showVars showVars_disjoint 0 []
  have htime : ∃ tm, reprTime (some (t :: ts)) = .ok tm := by
    rw [reprTime_cons]
    by_cases h : t < 1
    · rw [if_pos h]; exact ⟨_, rfl⟩
    · rw [if_neg h]; exact ⟨_, rfl⟩
  obtain ⟨tm, htm⟩ := htime
  unfold reprDs
  rw [htm]
  simp only
  rw [h1, h2]
  refine ⟨_, rfl, rfl, rfl, rfl, rfl, rfl, rfl, ?_⟩
  simp only
  rw [a1, List.nil_append, a2, Nat.zero_add]
  refine ⟨fun nm hn => (a5 nm hn).1, a4, ?_, ?_⟩
  · intro hl
    refine a7 ?_
    have hWs : W.Subperm (vars.filter fun nm => decide (∃ p ∈ showVars, p.2 = true ∧ p.1.isPrefixOf nm = true)) := by
      apply List.subperm_of_subset (a4.sublist a3)
      intro nm hn
      rw [List.mem_filter]
      refine ⟨(a5 nm (a3.subset hn)).1, ?_⟩
      obtain ⟨q, hq, hst, hs⟩ := a8 nm hn
      refine decide_eq_true ⟨q, hq, hst, ?_⟩
      simpa using shows_prefix hs
    have := hWs.length_le
    omega
  · intro ho nm hn
    have hlen : vars.length ≤ W.length := by
      simpa using ho
    have hWs : W.Subperm vars := by
      apply List.subperm_of_subset (a4.sublist a3)
      intro x hx
      exact (a5 x (a3.subset hx)).1
    have := hWs.perm_of_length_le hlen
    exact a3.subset (this.symm.subset hn)

/-- **C148 is false of the code**: a dataset without `time` is not summarised with a remark that there is no time
information, it cannot be printed at all. -/
theorem repr_no_time_false {α : Type} (attrs : List Char → Option α) (vars : List (List Char)) :
    reprTime none = .ok .noInfo ∧ reprDs attrs none vars = .error .keyError := ⟨rfl, rfl⟩

/-- **C148 is false of the code**: `and others` is printed although every variable is shown, whenever one of them is
shown without a wildcard (they are not counted); here `time` and `range`. -/
theorem repr_others_false {α : Type} (attrs : List Char → Option α) {mk md : α}
    (h1 : attrs ['i', 'n', 's', 't', '_', 'm', 'a', 'k', 'e'] = some mk)
    (h2 : attrs ['i', 'n', 's', 't', '_', 'm', 'o', 'd', 'e', 'l'] = some md) (t : ℚ) (ht : 1 ≤ t) :
    ∃ r, reprDs attrs (some [t]) [['r', 'a', 'n', 'g', 'e'], ['t', 'i', 'm', 'e']] = .ok r ∧
      r.shown = [['t', 'i', 'm', 'e'], ['r', 'a', 'n', 'g', 'e']] ∧ r.others = true := by
  have htm : reprTime (some [t]) = .ok (.span (reprDelta (([t].getLast (by simp) - t) / (3600 * 24))).1
      (reprDelta (([t].getLast (by simp) - t) / (3600 * 24))).2 t) := by
    rw [reprTime_cons, if_neg (not_lt.mpr ht)]
  unfold reprDs
  rw [htm]
  simp only
  rw [h1, h2]
  refine ⟨_, rfl, ?_, ?_⟩
  · dsimp only
    decide +kernel
  · dsimp only
    decide +kernel

/-- **C148 is false of the code**: `only the first 12 matches are displayed` – thirteen are. -/
theorem repr_limit_false {α : Type} (attrs : List Char → Option α) {mk md : α}
    (h1 : attrs ['i', 'n', 's', 't', '_', 'm', 'a', 'k', 'e'] = some mk)
    (h2 : attrs ['i', 'n', 's', 't', '_', 'm', 'o', 'd', 'e', 'l'] = some md) (t : ℚ) (ht : 1 ≤ t) :
    ∃ r, reprDs attrs (some [t]) (['r', 'a', 'n', 'g', 'e'] :: ['t', 'i', 'm', 'e'] ::
        (List.range 12).map fun k => ['v', 'e', 'l', Char.ofNat (97 + k)]) = .ok r ∧ r.shown.length = 13 := by
  have htm : reprTime (some [t]) = .ok (.span (reprDelta (([t].getLast (by simp) - t) / (3600 * 24))).1
      (reprDelta (([t].getLast (by simp) - t) / (3600 * 24))).2 t) := by
    rw [reprTime_cons, if_neg (not_lt.mpr ht)]
  unfold reprDs
  rw [htm]
  simp only
  rw [h1, h2]
  refine ⟨_, rfl, ?_⟩
  dsimp only
  decide +kernel

example : ∃ r, reprDs (α := ℕ) (fun _ => some 1) (some [1000000, 1000060]) [['r', 'o', 'l', 'l'], ['t', 'i', 'm', 'e'],
    ['x']] = .ok r ∧ ['r', 'o', 'l', 'l'] ∈ r.shown ∧ r.pings = 2 := by
  obtain ⟨r, h1, -, -, h2, -, -, -, -, -, h3, -⟩ := repr_summary (α := ℕ) (fun _ => some 1) 1000000 [1000060]
    [['r', 'o', 'l', 'l'], ['t', 'i', 'm', 'e'], ['x']] (by decide) rfl rfl
  exact ⟨r, h1, h3 (by decide +kernel) _ (by simp) ⟨(['r', 'o', 'l', 'l'], false), by decide, rfl⟩, h2⟩

example : reprTime (some [1000000, 1000000 + 5400]) = .ok (.span (3 / 2) .hours 1000000) := by decide +kernel

end Dolfyn
