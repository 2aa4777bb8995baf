import Verif.Props.RdiCfg

/-!
C122: what the dataset of a TRDI file shows in the columns of ensembles that do not carry a variable yet, and
C50: the second profile of an ensemble (`_idata` of dolfyn/io/rdi_defs.py, `read_var` and `switch_profile` of
dolfyn/io/rdi.py).
-/

namespace Dolfyn

/-- The variables that are counts: ensemble numbers, test results, analogue channels, amplitudes, correlations,
percentages and the marks of the altimeter. -/
def Spec.rdCounts : List RdName :=
  [.number, .builtin, .adc, .corr, .amp, .prcntGd, .corrSl, .ampSl, .prcntGdSl, .corrBt, .ampBt, .prcntGdBt, .altRssi,
    .altEval, .altStatus]

/-- C122 (refuted in general): in the columns before the first ensemble that carries a variable, measured
quantities are NaN, but counts show whatever was in the memory that the array was given. -/
theorem rdi_not_yet {env : RdEnv} {f : RdFixed} (hf : 0 < f.nCells) {cells nens : ℕ} {es : List Spec.RdEns}
    (hok : ∀ e ∈ es, e.Ok f) {o : RdOutV} (h : RdReadOf env f cells es nens o) {i : ℕ}
    (hi : i < min nens (es.length - 1)) {nm : RdName}
    (hno : ∀ e ∈ es.take (i + 1), ∀ b ∈ e.blks, ¬ Spec.provides f b.id nm) (c k : ℕ)
    (junk : RdName → ℕ → ℕ → ℕ → ℚ) :
    rdElem junk o nm c k i = if nm ∈ Spec.rdCounts then some (junk nm c k i) else none := by
  obtain ⟨e, he⟩ : ∃ e, es[i]? = some e := ⟨es[i]'(by omega), List.getElem?_eq_getElem (by omega)⟩
  have hcol := rdReadOf_col hf hok h hi he
  have hname : nm ∉ (ensCol f cells e (memAt f (es.take i) rdMem0)).names := by
    intro hc
    have hc' : nm ∈ (ensStore f e.blks (memAt f (es.take i) rdMem0)).seen := hc
    have heok := hok e (List.mem_of_getElem? he)
    rw [ensStore_names nm e.blks _ (seenOk_start _) (ok_kinds heok),
      memAt_names nm (es.take i) rdMem0 (seenOk_start (f := f) []) (fun x hx => hok x (List.mem_of_mem_take hx))] at hc'
    have htake : es.take (i + 1) = es.take i ++ [e] := by rw [List.take_add_one, he]; rfl
    rcases hc' with (h0 | ⟨x, hx, b, hb, hp⟩) | ⟨b, hb, hp⟩
    · exact absurd h0 (by simp [rdMem0])
    · exact hno x (by rw [htake]; simp [hx]) b hb hp
    · exact hno e (by rw [htake]; simp) b hb hp
  unfold rdElem
  rw [hcol]
  simp only
  rw [if_neg hname]
  cases nm <;> rfl

/-- Three ensembles, of which two are read; bottom track begins with the second. -/
def exLate : List Spec.RdEns := [exEns false, exEns true, exEns true]

theorem exLate_ok : ∀ e ∈ exLate, e.Ok ⟨16, 1628, 2⟩ := by
  intro e he
  fin_cases he <;> exact exEns_ok _

theorem exLate_read : ∃ o, RdReadOf rdYes ⟨16, 1628, 2⟩ 2 exLate 10 o ∧ o.cols.length = 2 := by
  obtain ⟨t, m, o, h1, h2⟩ := rdi_reads_columns (env := rdYes) (nens := 10) (f := ⟨16, 1628, 2⟩) (by decide) exLate_ok
    (s := exStart) rfl exStart_between
  exact ⟨o, ⟨2, exStart, t, m, le_refl _, rfl, exStart_between, h1⟩, h2⟩

/-- C122 (refuted): the first ensemble has no bottom track. Its bottom-track range is NaN, its bottom-track
amplitude any number. -/
theorem rdi_not_yet_false (x : ℚ) :
    ∃ env f cells es o e junk, (∀ e ∈ es, e.Ok f) ∧ RdReadOf env f cells es 10 o ∧ es[0]? = some e ∧
      (∀ b ∈ e.blks, b.id ≠ 1536) ∧ rdElem junk o .distBt 0 0 0 = none ∧ rdElem junk o .ampBt 0 0 0 = some x := by
  obtain ⟨o, ho, -⟩ := exLate_read
  have hb : ∀ b ∈ (exEns false).blks, b.id ≠ 1536 := by intro b hb; fin_cases hb <;> decide
  have key := fun nm (hn : Spec.rdId nm = 1536) => rdi_not_yet (f := ⟨16, 1628, 2⟩) (by decide) exLate_ok ho (i := 0)
    (by decide) (nm := nm) (by
      intro e he b hbe hp
      obtain rfl : e = exEns false := by simpa [exLate] using he
      exact hb b hbe (hp.1.trans hn)) 0 0 (fun _ _ _ _ => x)
  exact ⟨rdYes, ⟨16, 1628, 2⟩, 2, exLate, o, exEns false, fun _ _ _ _ => x, exLate_ok, ho, rfl, hb,
    by rw [key .distBt rfl]; rfl, by rw [key .ampBt rfl]; rfl⟩

theorem rdVar_second {bs : List ℕ} {s s' : RdState} {n : ℕ} {k : ℤ} (h : rdVar bs true s = .ok s')
    (hb : s.ensBB = some (n, k)) : s'.ensBB = some (n, k + 1) ∧ s'.cfgbb = s.cfgbb := by
  unfold rdVar at h
  rw [show rdCount true s = .ok { s with ensBB := some (n, k + 1) } by unfold rdCount; rw [if_pos rfl, hb]] at h
  simp only at h
  split at h
  · exact absurd h (by simp)
  · exact absurd h (by simp)
  · split at h
    · unfold rdFinish at h
      split at h
      · exact absurd h (by simp)
      · obtain rfl := Except.ok.inj h
        exact ⟨rfl, rfl⟩
    · exact absurd h (by simp)

/-- C50 (second profile): a leader of the second profile opens it, and its cell data are then read; a second
such leader in the same ensemble makes the next cell data of the profile an error, so that the file cannot be
read. -/
theorem rdi_second_leader {bs : List ℕ} {s s' : RdState} {n : ℕ} {f : RdFixed} (hb : s.ensBB = some (n, -1))
    (hf : s.cfgbb = some f) (hn : f.nCells ≤ n) (h : rdVar bs true s = .ok s') (w : ℕ) :
    rdCells bs w 1 s' = rdFinish bs [.rd (4 * f.nCells * w)] (2 + 4 * f.nCells * w) s' ∧
      ∀ s'', rdVar bs true s' = .ok s'' → rdCells bs w 1 s'' = .error .indexError := by
  obtain ⟨h1, h2⟩ := rdVar_second h hb
  constructor
  · unfold rdCells rdProfile
    rw [if_pos rfl, h1, h2, hf]
    simp only
    rw [if_pos (Or.inl (by norm_num))]
    simp only
    rw [if_neg (by omega)]
  · intro s'' h'
    obtain ⟨h3, h4⟩ := rdVar_second h' h1
    unfold rdCells rdProfile
    rw [if_pos rfl, h3, h4, h2, hf]
    simp

/-- Two leaders of the second profile, read one after the other. -/
example : ∃ s', rdVar (List.replicate 200 0) true { rdStart with ens := some (2, 0), ensBB := some (2, -1), cfg := some ⟨16, 1628, 2⟩, cfgbb := some ⟨16, 1628, 2⟩ } = .ok s' ∧
    ∃ s'', rdVar (List.replicate 200 0) true s' = .ok s'' := ⟨_, rfl, _, rfl⟩

end Dolfyn
