import Verif.Props.Ends

/-!
The only way in which reading a TRDI file can fail to end (C161).
-/

namespace Dolfyn

/-- The reader has seen an ensemble without variable leader of the first profile and has not moved forward. -/
def Spec.RdStuck (env : RdEnv) (bs : List ℕ) (t t' : RdState) : Prop :=
  rdEnsemble env bs t = .ok (some t') ∧ (∃ n k, t'.ens = some (n, k) ∧ k < 0) ∧ t'.pos ≤ t.pos

theorem rdSeek_nonneg {p z q : ℤ} (h : rdSeek p z = .ok q) : 0 ≤ q := by
  unfold rdSeek at h
  split at h
  · cases h
  · cases h; omega

theorem rdEnsemble_nonneg {env : RdEnv} {bs : List ℕ} {s s' : RdState} (h : rdEnsemble env bs s = .ok (some s')) :
    0 ≤ s'.pos ∧ s.pos < bs.length := by
  unfold rdEnsemble at h
  split at h
  · cases h
  · cases h
  · next p hp =>
    obtain ⟨-, h2, -⟩ := rdSearch_found hp
    refine ⟨?_, h2⟩
    rcases hb : rdBody env bs p s with e | t
    · rw [hb] at h; cases h
    · rw [hb] at h
      obtain rfl := Option.some.inj (Except.ok.inj h)
      unfold rdBody at hb
      split at hb
      · cases hb
      · split at hb
        · cases hb
        · split at hb
          · cases hb
          · next s2 _ =>
            have hb' := rdCheckOffset_ok hb
            unfold rdCheckOffset at hb
            simp only [Except.map] at hb
            split at hb
            · cases hb
            · next q hq =>
              obtain rfl := Except.ok.inj hb
              exact rdSeek_nonneg hq

theorem rdBufferLoop_ends_or {env : RdEnv} {bs : List ℕ} {s0 : RdState}
    (hw : ∀ t t', Spec.RdVisits env bs s0 t → ¬ Spec.RdStuck env bs t t') : ∀ (fuel : ℕ) (s : RdState),
    Spec.RdVisits env bs s0 s → 0 < fuel → (bs.length : ℤ) < fuel + s.pos → 0 ≤ s.pos →
    ∃ out, rdBufferLoop env bs (fuel + 1) s = some out ∧ ∀ s', out = .ok (some s') → Spec.RdVisits env bs s0 s' ∧
      0 ≤ s'.pos := by
  intro fuel
  induction fuel with
  | zero => intro s _ h; omega
  | succ fuel ih =>
    intro s hr _ hl h0
    rw [rdBufferLoop]
    split
    · exact ⟨_, rfl, by simp⟩
    · split
      · rcases he : rdEnsemble env bs s with e | _ | s'
        · exact ⟨_, rfl, by simp⟩
        · exact ⟨_, rfl, by simp⟩
        · have hr' : Spec.RdVisits env bs s0 s' := .read s s' hr he
          obtain ⟨n1, n2⟩ := rdEnsemble_nonneg he
          push_cast at hl
          have hns := hw s s' hr
          simp only
          rcases hs : s'.ens with _ | ⟨n, k⟩
          · rw [rdBufferLoop, hs]
            exact ⟨_, rfl, by simp⟩
          · by_cases hk : k < 0
            · have hp : s.pos < s'.pos := by
                by_contra hc
                exact hns ⟨he, ⟨n, k, hs, hk⟩, by omega⟩
              rcases Nat.eq_zero_or_pos fuel with h00 | h00
              · omega
              · exact ih s' hr' h00 (by omega) n1
            · rw [rdBufferLoop, hs]
              simp only
              rw [if_neg hk]
              refine ⟨_, rfl, ?_⟩
              intro t ht
              obtain rfl := Option.some.inj (Except.ok.inj ht)
              exact ⟨hr', n1⟩
      · refine ⟨_, rfl, ?_⟩
        intro t ht
        obtain rfl := Option.some.inj (Except.ok.inj ht)
        exact ⟨hr, h0⟩

theorem rdLoad_ends_or {env : RdEnv} {bs : List ℕ} {s0 : RdState} {fuel : ℕ} (hl : bs.length < fuel)
    (hw : ∀ t t', Spec.RdVisits env bs s0 t → ¬ Spec.RdStuck env bs t t') : ∀ n (s : RdState),
    Spec.RdVisits env bs s0 s → 0 ≤ s.pos → ∃ out, rdLoad env bs (fuel + 1) n s = some out := by
  intro n
  induction n with
  | zero => intro s _ _; exact ⟨_, rfl⟩
  | succ n ih =>
    intro s hr hp
    rw [rdLoad]
    unfold rdBuffer
    obtain ⟨out, h1, h2⟩ := rdBufferLoop_ends_or hw fuel { s with ens := rdResetK s.ens, ensBB := rdResetK s.ensBB }
      (.reset s hr) (by omega) (by simp only; omega) hp
    rw [h1]
    rcases out with e | _ | s'
    · exact ⟨_, rfl⟩
    · exact ⟨_, rfl⟩
    · obtain ⟨a, b⟩ := h2 s' rfl
      obtain ⟨out, h3⟩ := ih s' a b
      simp only
      rw [h3]
      rcases out with e | ⟨m, t⟩ <;> exact ⟨_, rfl⟩

/-- **C161.** The only way in which reading a TRDI file can fail to end, for every file of any program (VMDAS and
WinRiver included): the reader comes to an ensemble without a variable leader of the first profile and goes on from
the same place or a place before it. -/
theorem rdi_ends_unless_stuck (env : RdEnv) (bs : List ℕ) (fuel : ℕ) (hf : bs.length + 1 < fuel) :
    (∃ out, rdReadAll env bs fuel = some out) ∨
      ∃ s np t t', rdInit bs fuel = some (.ok (s, np)) ∧ Spec.RdVisits env bs s t ∧ Spec.RdStuck env bs t t' := by
  by_cases hw : ∃ s np t t', rdInit bs fuel = some (.ok (s, np)) ∧ Spec.RdVisits env bs s t ∧ Spec.RdStuck env bs t t'
  · exact Or.inr hw
  left
  obtain ⟨out, h⟩ := rdi_open_ends bs fuel (by omega)
  unfold rdReadAll
  rw [h]
  rcases out with e | ⟨s, np⟩
  · exact ⟨_, rfl⟩
  · obtain ⟨k1, k2, k3⟩ := rdInit_state h
    obtain ⟨f, rfl⟩ : ∃ f, fuel = f + 1 := ⟨fuel - 1, by omega⟩
    obtain ⟨out, h3⟩ := rdLoad_ends_or (env := env) (fuel := f) (bs := bs) (s0 := s) (by omega)
      (fun t t' h1 h2 => hw ⟨s, np, t, t', h, h1, h2⟩) np.toNat s .start (by omega)
    simp only
    rw [h3]
    rcases out with e | ⟨m, t⟩ <;> exact ⟨_, rfl⟩

/-- **C161.** Reading a TRDI file of any program, VMDAS and WinRiver included, comes to an end, whatever its sizes and
offsets, if every ensemble the reader comes to has a variable leader of the first profile. -/
theorem rdi_ends_counted (env : RdEnv) (bs : List ℕ) (fuel : ℕ) (hf : bs.length + 1 < fuel)
    (hw : ∀ s np t t', rdInit bs fuel = some (.ok (s, np)) → Spec.RdVisits env bs s t →
      rdEnsemble env bs t = .ok (some t') → ∀ n k, t'.ens = some (n, k) → 0 ≤ k) :
    ∃ out, rdReadAll env bs fuel = some out := by
  rcases rdi_ends_unless_stuck env bs fuel hf with h | ⟨s, np, t, t', h1, h2, h3, ⟨n, k, h4, h5⟩, -⟩
  · exact h
  · exact absurd (hw s np t t' h1 h2 h3 n k h4) (by omega)

/-- A list of states that the reader does not leave, each ensemble in it having a variable leader. -/
def rdClosed (env : RdEnv) (bs : List ℕ) (l : List RdState) : Bool :=
  l.all fun s => decide (({ s with ens := rdResetK s.ens, ensBB := rdResetK s.ensBB } : RdState) ∈ l) &&
    match rdEnsemble env bs s with
    | .ok (some t) => decide (t ∈ l) && (match t.ens with | some (_, k) => decide (0 ≤ k) | none => true)
    | _ => true

theorem rdClosed_visits {env : RdEnv} {bs : List ℕ} {l : List RdState} {s0 : RdState} (h : rdClosed env bs l = true)
    (h0 : s0 ∈ l) {t : RdState} (ht : Spec.RdVisits env bs s0 t) : t ∈ l := by
  unfold rdClosed at h
  rw [List.all_eq_true] at h
  induction ht with
  | start => exact h0
  | reset s _ ih =>
    have := h s ih
    rw [Bool.and_eq_true] at this
    exact of_decide_eq_true this.1
  | read s s' _ he ih =>
    have := h s ih
    rw [Bool.and_eq_true, he] at this
    have h2 := this.2
    simp only [Bool.and_eq_true, decide_eq_true_eq] at h2
    exact h2.1

theorem rdClosed_counted {env : RdEnv} {bs : List ℕ} {l : List RdState} (h : rdClosed env bs l = true)
    {t t' : RdState} (ht : t ∈ l) (he : rdEnsemble env bs t = .ok (some t')) {n : ℕ} {k : ℤ}
    (hk : t'.ens = some (n, k)) : 0 ≤ k := by
  unfold rdClosed at h
  rw [List.all_eq_true] at h
  have := h t ht
  rw [Bool.and_eq_true, he] at this
  have h2 := this.2
  simp only [Bool.and_eq_true, decide_eq_true_eq, hk] at h2
  exact h2.2

/-- A regular ensemble whose last data type is a WinRiver II record, with the given offset of that record. -/
def wrLeader (o : ℕ) : List ℕ :=
  [127, 127, 158, 0] ++ (rdExampleEns.bytes.take 12).drop 4 ++ [o, 0] ++ (rdExampleEns.bytes.take 152).drop 14 ++
    [34, 32, 1, 0, 0, 0] ++ [0, 0]

/-- A WinRiver II file with one wrong offset in its second ensemble. -/
def wrLeaders : List ℕ := rdExampleEns.bytes ++ wrLeader 162 ++ wrLeader 152 ++ wrLeader 152 ++ wrLeader 152

/-- The states along the way. -/
def rdChain (env : RdEnv) (bs : List ℕ) : ℕ → RdState → List RdState
  | 0, s => [s]
  | n + 1, s =>
    let r : RdState := { s with ens := rdResetK s.ens, ensBB := rdResetK s.ensBB }
    s :: r :: (match rdEnsemble env bs r with
      | .ok (some t) => rdChain env bs n t
      | _ => [])

/-- The same error as in `rdi_hangs_false`, but every ensemble has its variable leader: reading ends. -/
example : ∃ out, rdReadAll rdYes wrLeaders 2000 = some out := by
  refine rdi_ends_counted rdYes wrLeaders 2000 (by decide +kernel) ?_
  intro s np t t' h1 h2 h3 n k h4
  have h0 : rdInit wrLeaders 2000 = some (.ok (rdHang0, 8)) := by decide +kernel
  rw [h0] at h1
  obtain ⟨rfl, -⟩ := Prod.mk.inj (Except.ok.inj (Option.some.inj h1))
  have hc : rdClosed rdYes wrLeaders (rdChain rdYes wrLeaders 12 rdHang0) = true := by decide +kernel
  exact rdClosed_counted hc (rdClosed_visits hc (by rw [rdChain]; simp) h2) h3 h4

/-- The file of `rdi_hangs_false` comes to such a place. -/
example : Spec.RdVisits rdYes rdHang rdHang0 rdHang2 ∧ Spec.RdStuck rdYes rdHang rdHang2 rdHang2 := by
  have e1 : rdEnsemble rdYes rdHang rdHang0 = .ok (some rdHang1) := by decide +kernel
  have e2 : rdEnsemble rdYes rdHang { rdHang1 with ens := some (1, -1) } = .ok (some rdHang2) := by decide +kernel
  have e3 : rdEnsemble rdYes rdHang rdHang2 = .ok (some rdHang2) := by decide +kernel
  exact ⟨.read _ _ (.reset _ (.read _ _ .start e1)) e2, e3, ⟨1, -1, rfl, by decide⟩, le_rfl⟩

end Dolfyn
