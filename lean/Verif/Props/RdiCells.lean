import Verif.Props.RdiCfg

/-!
C137: files of TRDI instruments whose number of depth cells changes from ensemble to ensemble
(`read_fixed` and `load_data` of dolfyn/io/rdi.py, as for WinRiver transects).
-/

namespace Dolfyn

/-- An ensemble with the configuration in its fixed leader. -/
abbrev RdVar := RdFixed × Spec.RdEns

/-- The memory behind an ensemble read into an ensemble object of `n` cells. -/
def stepMem (n : ℕ) (p : RdVar) (m : RdMem) : RdMem :=
  { ensAfter p.1 p.2 (growMem (p.1.nCells - n) m) with flag := 0 }

/-- The cells of the dataset behind the ensembles: the largest number so far. -/
def Spec.cellsAt (n : ℕ) (ps : List RdVar) : ℕ := ps.foldl (fun n p => max n p.1.nCells) n

/-- The memory behind the ensembles. -/
def varMem : ℕ → List RdVar → RdMem → RdMem
  | _, [], m => m
  | n, p :: ps, m => varMem (max n p.1.nCells) ps (stepMem n p m)

/-- The column of an ensemble read into an ensemble object of `n` cells. -/
def varCol (n : ℕ) (p : RdVar) (m : RdMem) : RdColV :=
  ensCol p.1 (max n p.1.nCells) p.2 (growMem (p.1.nCells - n) m)

/-- The columns of consecutive ensembles. -/
def varCols : ℕ → List RdVar → RdMem → List RdColV
  | _, [], _ => []
  | n, p :: ps, m => varCol n p m :: varCols (max n p.1.nCells) ps (stepMem n p m)

/-- The reader between ensembles, with an ensemble object of `n` cells. -/
def RdIdle (n : ℕ) (s : RdState) : Prop :=
  RdFront n { s with ens := rdResetK s.ens, ensBB := rdResetK s.ensBB }

/-- The variables with cells that an ensemble carries. -/
def Spec.carries (p : RdVar) (nm : RdName) : Prop := nm.profile = true ∧ ∃ b ∈ p.2.blks, b.id = Spec.rdId nm

theorem growMem_seen {d : ℕ} {m : RdMem} : (growMem d m).seen = m.seen := by
  unfold growMem; split_ifs <;> rfl

theorem growMem_flag {d : ℕ} {m : RdMem} (h : m.flag = 0) : (growMem d m).flag = d := by
  unfold growMem; split_ifs with hd
  · rw [h, hd]
  · rfl

theorem ens_names {p : RdVar} (hok : p.2.Ok p.1) {d : ℕ} {m : RdMem} (hm : SeenOk m.seen) {nm : RdName}
    (hp : nm.profile = true) :
    nm ∈ (ensStore p.1 p.2.blks (growMem d m)).seen ↔ nm ∈ m.seen ∨ Spec.carries p nm := by
  rw [ensStore_names nm p.2.blks (growMem d m) (by rw [growMem_seen]; exact hm) (ok_kinds hok), growMem_seen]
  refine or_congr Iff.rfl ⟨?_, ?_⟩
  · rintro ⟨b, hb, h1, -⟩
    exact ⟨hp, b, hb, h1⟩
  · rintro ⟨-, b, hb, h1⟩
    exact ⟨b, hb, h1, fun hc => by rcases hc with rfl | rfl <;> cases hp⟩

/-- Copying a column when all variables with cells are as wide as the ensemble was. -/
theorem rdEmit_grow {n n' : ℕ} {m : RdMem} {o : RdOutV} (hn : n + m.flag = n')
    (ho : ∀ nm ∈ m.seen, nm.profile = true → o.rows nm = n) :
    ∃ o', rdEmit n' m o = .ok o' ∧ (∀ nm ∈ m.seen, nm.profile = true → o'.rows nm = n') ∧
      (∀ nm, ¬(nm ∈ m.seen ∧ nm.profile = true) → o'.rows nm = o.rows nm) ∧
      o'.cols = o.cols ++ [RdColV.mk m.seen m.nb n' (rdColTime m.rtc)] := by
  have hr : ∀ nm ∈ m.seen, nm.profile = true → rdRows m.flag n' (o.rows nm) = n' := by
    intro nm h1 h2
    unfold rdRows
    rw [ho nm h1 h2]
    split_ifs <;> omega
  unfold rdEmit
  rw [if_pos hr]
  refine ⟨_, rfl, ?_, ?_, rfl⟩
  · intro nm h1 h2
    simp only [h1, h2, and_self, if_true]
    exact hr nm h1 h2
  · intro nm h
    simp only
    rw [if_neg h]

theorem rdIdle_cells {n : ℕ} {s : RdState} (h : RdIdle n s) : ensCells s.ens = n := by
  have := h.ens
  simp only at this
  unfold rdResetK at this
  unfold ensCells
  cases he : s.ens with
  | none => rw [he] at this; cases this
  | some x =>
    rw [he] at this
    simp only [Option.map_some, Option.some.injEq, Prod.mk.injEq] at this
    simpa using this.1

/-- Reading one ensemble that is followed by another. -/
theorem rdBuffer_step {env : RdEnv} {bs r : List ℕ} {n fuel : ℕ} (hfuel : 2 ≤ fuel) {p : RdVar}
    (hf : 0 < p.1.nCells) (hok : p.2.Ok p.1) {start : ℕ} {s : RdState} {m : RdMem} (hp : s.pos = start)
    (hb : RdIdle n s) (hd : bs.drop start = p.2.bytes ++ (127 :: 127 :: r)) :
    ∃ s1, rdBufferV env bs fuel s m
        = some (.ok (some (s1, ensStore p.1 p.2.blks (growMem (p.1.nCells - n) m)))) ∧
      RdIdle (max n p.1.nCells) s1 ∧ s1.pos = ((start + p.2.bytes.length : ℕ) : ℤ) ∧
      ensCells s1.ens = max n p.1.nCells := by
  obtain ⟨fu, rfl⟩ : ∃ fu, fuel = fu + 2 := ⟨fuel - 2, by omega⟩
  have hse := rdSearch_ok hok hd
  obtain ⟨nb, hbody⟩ := rdBodyV_ok (env := env) m hf hok hb hd
  have hens := hb.ens
  simp only at hens
  set s1 : RdState := { s with
    ens := some (max n p.1.nCells, 0), ensBB := rdResetK s.ensBB
    pos := ((start + p.2.bytes.length : ℕ) : ℤ), nbyte := nb, cfg := some p.1
    hdrNbyte := p.2.nbyte, readVmdas := false } with hs1
  refine ⟨s1, ?_, ⟨rfl, hb.fix, hb.source, hb.prog, hb.win, hb.vmdas⟩, rfl, rfl⟩
  unfold rdBufferV
  rw [rdBufferLoopV]
  simp only [hens]
  rw [if_pos (by decide)]
  have hre : rdEnsembleV env bs { s with ens := some (n, -1), ensBB := rdResetK s.ensBB } m
      = .ok (some (s1, ensStore p.1 p.2.blks (growMem (p.1.nCells - n) m))) := by
    unfold rdEnsembleV
    simp only [hp, hse]
    rw [hens, hp] at hbody
    rw [hbody]
    rfl
  rw [hre]
  simp only
  rw [rdBufferLoopV]
  simp only [hs1]
  rw [if_neg (by decide)]

/-- At the end of the file, and in front of the last ensemble, nothing is read. -/
theorem rdBuffer_end {env : RdEnv} {bs : List ℕ} {n fuel : ℕ} (hfuel : 2 ≤ fuel) {ps : List RdVar}
    (hok : ∀ p ∈ ps, p.2.Ok p.1) (hl : ps.length ≤ 1) {start : ℕ} {s : RdState} {m : RdMem} (hp : s.pos = start)
    (hb : RdIdle n s) (hd : bs.drop start = Spec.rdFile (ps.map (·.2))) :
    rdBufferV env bs fuel s m = some (.ok none) := by
  obtain ⟨fu, rfl⟩ : ∃ fu, fuel = fu + 1 := ⟨fuel - 1, by omega⟩
  have hse : ∃ q, rdSearch bs s.pos = .ok (false, q) := by
    rcases ps with _ | ⟨p, _ | ⟨q, ps⟩⟩
    · refine ⟨s.pos, ?_⟩
      unfold rdSearch rdBytes rdChunk
      rw [hp, Int.toNat_natCast, hd]
      simp [Spec.rdFile]
    · rw [hp]
      exact rdSearch_last (hok p (by simp)) (by rw [hd]; simp [Spec.rdFile])
    · simp at hl
  obtain ⟨q, hse⟩ := hse
  have hens := hb.ens
  simp only at hens
  unfold rdBufferV
  rw [rdBufferLoopV]
  simp only [hens]
  rw [if_pos (by decide)]
  unfold rdEnsembleV
  simp only [hse]

theorem rdFile_two (p q : RdVar) (ps : List RdVar) :
    ∃ r, Spec.rdFile ((p :: q :: ps).map (·.2)) = p.2.bytes ++ (127 :: 127 :: r) ∧
      127 :: 127 :: r = Spec.rdFile ((q :: ps).map (·.2)) := by
  obtain ⟨r, hr⟩ := bytes_cons2 q.2
  refine ⟨r ++ Spec.rdFile (ps.map (·.2)), ?_, ?_⟩ <;>
    simp [Spec.rdFile, List.flatMap_cons, hr]

theorem seenOk_step {n : ℕ} {p : RdVar} {m : RdMem} (h : SeenOk m.seen) : SeenOk (stepMem n p m).seen :=
  seenOk_ens (f := p.1) p.2.blks (growMem (p.1.nCells - n) m) (by rw [growMem_seen]; exact h)

theorem take_step (nens : ℕ) (p q : RdVar) (ps : List RdVar) :
    (p :: q :: ps).take (min (nens + 1) ((p :: q :: ps).length - 1))
      = p :: (q :: ps).take (min nens ((q :: ps).length - 1)) := by
  rw [show min (nens + 1) ((p :: q :: ps).length - 1) = min nens ((q :: ps).length - 1) + 1 by
    simp only [List.length_cons]; omega]
  rfl

/-- The columns read from a file in which the number of cells changes, when all the variables with cells are
already known. -/
theorem rdi_var_columns {env : RdEnv} {fuel : ℕ} (hfuel : 2 ≤ fuel) {bs : List ℕ} :
    ∀ (nens : ℕ) (ps : List RdVar) (n start : ℕ) (s : RdState) (m : RdMem) (o : RdOutV),
    (∀ p ∈ ps, p.2.Ok p.1 ∧ 0 < p.1.nCells) → bs.drop start = Spec.rdFile (ps.map (·.2)) → s.pos = start →
    RdIdle n s → m.flag = 0 → SeenOk m.seen → (∀ nm ∈ m.seen, nm.profile = true → o.rows nm = n) →
    (∀ p ∈ ps, ∀ nm, Spec.carries p nm → nm ∈ m.seen) →
    ∃ t m' o', rdLoadV env bs fuel nens s m o = some (.ok (t, m', o')) ∧
      o'.cols = o.cols ++ varCols n (ps.take (min nens (ps.length - 1))) m ∧
      m' = varMem n (ps.take (min nens (ps.length - 1))) m ∧
      ensCells t.ens = Spec.cellsAt n (ps.take (min nens (ps.length - 1))) ∧
      (∀ nm ∈ m.seen, nm.profile = true → o'.rows nm = Spec.cellsAt n (ps.take (min nens (ps.length - 1))))
  | 0, ps, n, start, s, m, o, _, _, _, hb, _, _, ho, _ =>
    ⟨s, m, o, by simp [rdLoadV], by simp [varCols], by simp [varMem], by simp [Spec.cellsAt, rdIdle_cells hb],
      by simpa [Spec.cellsAt] using ho⟩
  | nens + 1, [], n, start, s, m, o, hok, hd, hp, hb, _, _, ho, _ =>
    ⟨s, m, o, by rw [rdLoadV, rdBuffer_end hfuel (fun p hp => (hok p hp).1) (by simp) hp hb hd], by simp [varCols],
      by simp [varMem], by simp [Spec.cellsAt, rdIdle_cells hb], by simpa [Spec.cellsAt] using ho⟩
  | nens + 1, [p], n, start, s, m, o, hok, hd, hp, hb, _, _, ho, _ =>
    ⟨s, m, o, by rw [rdLoadV, rdBuffer_end hfuel (fun p hp => (hok p hp).1) (by simp) hp hb hd], by simp [varCols],
      by simp [varMem], by simp [Spec.cellsAt, rdIdle_cells hb], by simpa [Spec.cellsAt] using ho⟩
  | nens + 1, p :: q :: ps, n, start, s, m, o, hok, hd, hp, hb, hfl, hm, ho, hk => by
    obtain ⟨r, hr1, hr2⟩ := rdFile_two p q ps
    have hd' := hd.trans hr1
    obtain ⟨s1, hbuf, hidle, hpos, hcel⟩ := rdBuffer_step (env := env) (m := m) hfuel (hok p (by simp)).2
      (hok p (by simp)).1 hp hb hd'
    have hd2 : bs.drop (start + p.2.bytes.length) = Spec.rdFile ((q :: ps).map (·.2)) := by
      rw [← List.drop_drop, hd', List.drop_left' rfl, hr2]
    set m1 := ensStore p.1 p.2.blks (growMem (p.1.nCells - n) m) with hm1
    have hflag : (rdCleaned m1).flag = p.1.nCells - n :=
      (ensStore_flag (f := p.1) p.2.blks _).trans (growMem_flag hfl)
    have hseen : ∀ nm, nm.profile = true → (nm ∈ (rdCleaned m1).seen ↔ nm ∈ m.seen) := by
      intro nm hpr
      show nm ∈ m1.seen ↔ _
      rw [hm1, ens_names (hok p (by simp)).1 hm hpr]
      exact ⟨fun h => h.elim id (hk p (by simp) nm), Or.inl⟩
    obtain ⟨o1, he1, hrows, -, hc1⟩ := rdEmit_grow (n := n) (n' := max n p.1.nCells) (m := rdCleaned m1) (o := o)
      (by rw [hflag]; omega) (fun nm h1 h2 => ho nm ((hseen nm h2).mp h1) h2)
    obtain ⟨t, m', o', ht, hcols, hmem, hcell, hrow⟩ := rdi_var_columns (env := env) hfuel nens (q :: ps)
      (max n p.1.nCells) (start + p.2.bytes.length) s1 (stepMem n p m) o1
      (fun x hx => hok x (by simp at hx ⊢; tauto)) hd2 hpos hidle rfl (seenOk_step hm)
      (fun nm h1 h2 => hrows nm h1 h2)
      (fun x hx nm hc => (hseen nm hc.1).mpr (hk x (by simp at hx ⊢; tauto) nm hc))
    refine ⟨t, m', o', ?_, ?_, ?_, ?_, ?_⟩
    · rw [rdLoadV, hbuf]
      simp only
      rw [hcel, he1]
      simp only
      rw [← ht]
      rfl
    · rw [hcols, hc1, List.append_assoc, take_step]
      rfl
    · rw [hmem, take_step]
      rfl
    · rw [hcell, take_step]
      rfl
    · intro nm h1 h2
      rw [take_step]
      exact hrow nm ((hseen nm h2).mpr h1) h2

/-! ### The dataset -/

/-- `o` is the dataset read from a file of regular ensembles with changing numbers of cells: `read_rdi` with
`nens` ensembles, up to the assembly of the xarray object. The ensemble object and the arrays were made for the
number of cells of the first ensemble. -/
def RdReadVar (env : RdEnv) (ps : List RdVar) (nens : ℕ) (o : RdOutV) : Prop :=
  ∃ p0 rest fuel s t m, ps = p0 :: rest ∧ 2 ≤ fuel ∧ s.pos = 0 ∧ RdIdle p0.1.nCells s ∧
    rdLoadV env (Spec.rdFile (ps.map (·.2))) fuel nens s rdMem0 (rdOut0 p0.1.nCells) = some (.ok (t, m, o))

/-- A file of regular ensembles. -/
def Spec.RdFileOk (ps : List RdVar) : Prop := ∀ p ∈ ps, p.2.Ok p.1 ∧ 0 < p.1.nCells

/-- Every kind of cell data occurs in the first ensemble. -/
def Spec.RdUniform (ps : List RdVar) : Prop :=
  ∀ p ∈ ps, ∀ nm, Spec.carries p nm → ∃ p0, ps.head? = some p0 ∧ Spec.carries p0 nm

theorem seenOk_empty : SeenOk rdMem0.seen := seenOk_start (f := ⟨0, 0, 0⟩) []

theorem rdi_var_load {env : RdEnv} {fuel : ℕ} (hfuel : 2 ≤ fuel) {p0 : RdVar} {rest : List RdVar}
    (hok : Spec.RdFileOk (p0 :: rest)) (hu : Spec.RdUniform (p0 :: rest)) {s : RdState} (hp : s.pos = 0)
    (hb : RdIdle p0.1.nCells s) (nens : ℕ) :
    ∃ t m o, rdLoadV env (Spec.rdFile ((p0 :: rest).map (·.2))) fuel nens s rdMem0 (rdOut0 p0.1.nCells)
        = some (.ok (t, m, o)) ∧
      o.cols = varCols p0.1.nCells ((p0 :: rest).take (min nens ((p0 :: rest).length - 1))) rdMem0 ∧
      m = varMem p0.1.nCells ((p0 :: rest).take (min nens ((p0 :: rest).length - 1))) rdMem0 ∧
      ensCells t.ens = Spec.cellsAt p0.1.nCells ((p0 :: rest).take (min nens ((p0 :: rest).length - 1))) := by
  cases nens with
  | zero => exact ⟨s, rdMem0, rdOut0 p0.1.nCells, rfl, by simp [varCols, rdOut0], by simp [varMem], by simp [Spec.cellsAt, rdIdle_cells hb]⟩
  | succ nens =>
    cases rest with
    | nil =>
      refine ⟨s, rdMem0, rdOut0 p0.1.nCells, ?_, by simp [varCols, rdOut0], by simp [varMem], by simp [Spec.cellsAt, rdIdle_cells hb]⟩
      rw [rdLoadV, rdBuffer_end (bs := Spec.rdFile ([p0].map (·.2))) hfuel (fun p hp => (hok p hp).1) (by simp) (start := 0) (by simpa using hp) hb rfl]
    | cons q ps =>
      obtain ⟨r, hr1, hr2⟩ := rdFile_two p0 q ps
      have hd' : (Spec.rdFile ((p0 :: q :: ps).map (·.2))).drop 0 = p0.2.bytes ++ (127 :: 127 :: r) := hr1
      obtain ⟨s1, hbuf, hidle, hpos, hcel⟩ := rdBuffer_step (env := env) (m := rdMem0) hfuel (hok p0 (by simp)).2
        (hok p0 (by simp)).1 (start := 0) (by simpa using hp) hb hd'
      have hd2 : (Spec.rdFile ((p0 :: q :: ps).map (·.2))).drop (0 + p0.2.bytes.length)
          = Spec.rdFile ((q :: ps).map (·.2)) := by
        rw [← List.drop_drop, hd', List.drop_left' rfl, hr2]
      set m1 := ensStore p0.1 p0.2.blks (growMem (p0.1.nCells - p0.1.nCells) rdMem0) with hm1
      have hflag : (rdCleaned m1).flag = p0.1.nCells - p0.1.nCells :=
        (ensStore_flag (f := p0.1) p0.2.blks _).trans (growMem_flag rfl)
      obtain ⟨o1, he1, hrows, -, hc1⟩ := rdEmit_grow (n := p0.1.nCells) (n' := max p0.1.nCells p0.1.nCells)
        (m := rdCleaned m1) (o := rdOut0 p0.1.nCells) (by rw [hflag]; omega) (fun _ _ _ => rfl)
      obtain ⟨t, m', o', ht, hcols, hmem, hcell, -⟩ := rdi_var_columns (env := env) hfuel nens (q :: ps)
        (max p0.1.nCells p0.1.nCells) (0 + p0.2.bytes.length) s1 (stepMem p0.1.nCells p0 rdMem0) o1
        (fun x hx => hok x (by simp at hx ⊢; tauto)) hd2 hpos hidle rfl (seenOk_step seenOk_empty)
        (fun nm h1 h2 => hrows nm h1 h2)
        (fun x hx nm hc => by
          obtain ⟨p', h1, h2⟩ := hu x (by simp at hx ⊢; tauto) nm hc
          cases h1
          exact (ens_names (hok p0 (by simp)).1 seenOk_empty hc.1).mpr (Or.inr h2))
      refine ⟨t, m', o', ?_, ?_, ?_, ?_⟩
      · rw [rdLoadV, hbuf]
        simp only
        rw [hcel, he1]
        simp only
        rw [← ht]
        rfl
      · rw [hcols, hc1, take_step]
        rfl
      · rw [hmem, take_step]
        rfl
      · rw [hcell, take_step]
        rfl

theorem varCols_get : ∀ (n : ℕ) (ps : List RdVar) (m : RdMem) (i : ℕ) (p : RdVar), ps[i]? = some p →
    (varCols n ps m)[i]? = some (varCol (Spec.cellsAt n (ps.take i)) p (varMem n (ps.take i) m))
  | n, q :: ps, m, 0, p, h => by
    simp only [List.getElem?_cons_zero] at h
    cases h
    rfl
  | n, q :: ps, m, i + 1, p, h => by
    simp only [List.getElem?_cons_succ] at h
    exact varCols_get (max n q.1.nCells) ps (stepMem n q m) i p h

theorem varCols_length : ∀ (n : ℕ) (ps : List RdVar) (m : RdMem), (varCols n ps m).length = ps.length
  | _, [], _ => rfl
  | n, p :: ps, m => by rw [varCols, List.length_cons, varCols_length, List.length_cons]

theorem seenOk_varMem : ∀ (n : ℕ) (ps : List RdVar) (m : RdMem), SeenOk m.seen → SeenOk (varMem n ps m).seen
  | _, [], _, h => h
  | n, p :: ps, m, h => seenOk_varMem (max n p.1.nCells) ps (stepMem n p m) (seenOk_step h)

/-- The cells in front of the ensemble `i`. -/
def Spec.cellsBefore (ps : List RdVar) (i : ℕ) : ℕ := Spec.cellsAt ((ps.head?.map (·.1.nCells)).getD 0) (ps.take i)

/-- The memory in front of the ensemble `i`. -/
def varBefore (ps : List RdVar) (i : ℕ) : RdMem := varMem ((ps.head?.map (·.1.nCells)).getD 0) (ps.take i) rdMem0

theorem rdReadVar_col {env : RdEnv} {ps : List RdVar} {nens : ℕ} {o : RdOutV} (hok : Spec.RdFileOk ps)
    (hu : Spec.RdUniform ps) (h : RdReadVar env ps nens o) {i : ℕ} {p : RdVar}
    (hi : i < min nens (ps.length - 1)) (hp : ps[i]? = some p) :
    o.cols[i]? = some (varCol (Spec.cellsBefore ps i) p (varBefore ps i)) := by
  obtain ⟨p0, rest, fuel, s, t, m, rfl, hfu, hs, hb, hl⟩ := h
  obtain ⟨t', m', o', h1, h2, -⟩ := rdi_var_load (env := env) hfu hok hu hs hb nens
  rw [hl] at h1
  simp only [Option.some.injEq, Except.ok.injEq, Prod.mk.injEq] at h1
  obtain ⟨-, -, rfl⟩ := h1
  have hp' : ((p0 :: rest).take (min nens ((p0 :: rest).length - 1)))[i]? = some p := by
    rw [List.getElem?_take_of_lt hi, hp]
  rw [h2, varCols_get _ _ _ _ _ hp', List.take_take, Nat.min_eq_left hi.le]
  rfl

/-- C137: reading a file in which the number of cells changes succeeds, and gives a column for every ensemble
read. -/
theorem rdi_varying_reads {env : RdEnv} {p0 : RdVar} {rest : List RdVar} (hok : Spec.RdFileOk (p0 :: rest))
    (hu : Spec.RdUniform (p0 :: rest)) {s : RdState} (hp : s.pos = 0) (hb : RdIdle p0.1.nCells s) (nens : ℕ) :
    ∃ o, RdReadVar env (p0 :: rest) nens o ∧ o.cols.length = min nens rest.length := by
  obtain ⟨t, m, o, h1, h2, -⟩ := rdi_var_load (env := env) (le_refl 2) hok hu hp hb nens
  refine ⟨o, ⟨p0, rest, 2, s, t, m, rfl, le_refl 2, hp, hb, h1⟩, ?_⟩
  rw [h2, varCols_length, List.length_take]
  simp only [List.length_cons]
  omega

/-- C137 (cell data): the cells that an ensemble has hold the recorded numbers, whatever the numbers of cells of
the other ensembles. -/
theorem rdi_varying_cells {env : RdEnv} {ps : List RdVar} {nens : ℕ} {o : RdOutV} (hok : Spec.RdFileOk ps)
    (hu : Spec.RdUniform ps) (h : RdReadVar env ps nens o) {i : ℕ} {f : RdFixed} {e : Spec.RdEns}
    (hi : i < min nens (ps.length - 1)) (hp : ps[i]? = some (f, e)) {nm : RdName} {fmt : AdFmt} {q : ℚ}
    (hnm : Spec.rdCell nm = some (fmt, q)) {b : Spec.RdBlk} (hb : Spec.LastBlk e b) (hid : b.id = Spec.rdId nm)
    {w : ℕ → ℕ → ℤ} {extra : List ℕ} (hpl : b.pl = Spec.cellRecord fmt f.nCells w ++ extra)
    (hw : ∀ c < f.nCells, ∀ k < 4, Spec.inRange fmt (w c k)) (junk : RdName → ℕ → ℕ → ℕ → ℚ)
    {c k : ℕ} (hc : c < f.nCells) (hk : k < 4) :
    rdElem junk o nm c k i = if nm = .vel ∧ w c k = -32768 then none else some (w c k * q) :=
  col_cell_values (hok _ (List.mem_of_getElem? hp)).1 (rdReadVar_col hok hu h hi hp) (Nat.le_max_right _ _) hnm hb hid
    hpl hw junk hc hk

theorem seenOk_before {ps : List RdVar} {i d : ℕ} : SeenOk (growMem d (varBefore ps i)).seen := by
  rw [growMem_seen]
  exact seenOk_varMem _ _ _ seenOk_empty

/-- C137 (leader). -/
theorem rdi_varying_leader {env : RdEnv} {ps : List RdVar} {nens : ℕ} {o : RdOutV} (hok : Spec.RdFileOk ps)
    (hu : Spec.RdUniform ps) (h : RdReadVar env ps nens o) {i : ℕ} {f : RdFixed} {e : Spec.RdEns}
    (hi : i < min nens (ps.length - 1)) (hp : ps[i]? = some (f, e)) {b : Spec.RdBlk} (hb : b ∈ e.blks) (hid : b.id = 128)
    {L : Spec.RdLeader} {extra : List ℕ} (hpl : b.pl = Spec.record L.fields ++ extra)
    (hr : ∀ x ∈ L.fields, Spec.inRange x.1 x.2) {nm : RdName} {k : ℕ} {q : ℚ} (hv : L.value nm k = some q)
    (hpr : nm = .pressure ∨ nm = .pressureStd → rdHasPressure f = true) (junk : RdName → ℕ → ℕ → ℕ → ℚ) :
    rdElem junk o nm 0 k i = some q :=
  col_leader_values (hok _ (List.mem_of_getElem? hp)).1 (rdReadVar_col hok hu h hi hp) seenOk_before hb hid hpl hr hv
    hpr junk

/-- C137 (time). -/
theorem rdi_varying_time {env : RdEnv} {ps : List RdVar} {nens : ℕ} {o : RdOutV} (hok : Spec.RdFileOk ps)
    (hu : Spec.RdUniform ps) (h : RdReadVar env ps nens o) {i : ℕ} {f : RdFixed} {e : Spec.RdEns}
    (hi : i < min nens (ps.length - 1)) (hp : ps[i]? = some (f, e)) {b : Spec.RdBlk} (hb : b ∈ e.blks) (hid : b.id = 128)
    {L : Spec.RdLeader} {extra : List ℕ} (hpl : b.pl = Spec.record L.fields ++ extra)
    (hr : ∀ x ∈ L.fields, Spec.inRange x.1 x.2) (t : CivilTime) (us : ℕ) (hy : t.year = L.year f)
    (hmo : (t.month : ℤ) = L.item f 1) (hd : (t.day : ℤ) = L.item f 2) (hh : (t.hour : ℤ) = L.item f 3)
    (hmi : (t.minute : ℤ) = L.item f 4) (hs : (t.second : ℤ) = L.item f 5) (hus : (us : ℤ) = L.item f 6) :
    o.cols[i]?.map (·.time) = some (if t.valid ∧ us < 100 then some (date2epoch t (us * 10000)) else none) :=
  col_time_values (hok _ (List.mem_of_getElem? hp)).1 (rdReadVar_col hok hu h hi hp) hb hid hpl hr t us hy hmo hd hh hmi hs
    hus

/-- C137 (bottom track). -/
theorem rdi_varying_bottom {env : RdEnv} {ps : List RdVar} {nens : ℕ} {o : RdOutV} (hok : Spec.RdFileOk ps)
    (hu : Spec.RdUniform ps) (h : RdReadVar env ps nens o) {i : ℕ} {f : RdFixed} {e : Spec.RdEns}
    (hi : i < min nens (ps.length - 1)) (hp : ps[i]? = some (f, e)) {b : Spec.RdBlk} (hb : Spec.LastBlk e b)
    (hid : b.id = 1536) {R : Spec.RdBottom} {lead gap extra : List ℕ}
    (hpl : b.pl = lead ++ (Spec.record R.fields ++ (gap ++ (Spec.record R.high ++ extra))))
    (hl : lead.length = 14) (hg : gap.length = 33) (hr : ∀ x ∈ R.fields ++ R.high, Spec.inRange x.1 x.2)
    {nm : RdName} {k : Fin 4} {q : ℚ} (hv : R.value f k nm = some q) (junk : RdName → ℕ → ℕ → ℕ → ℚ) :
    rdElem junk o nm 0 k i = some q :=
  col_bottom_values (hok _ (List.mem_of_getElem? hp)).1 (rdReadVar_col hok hu h hi hp) seenOk_before hb hid hpl hl hg hr hv
    junk

theorem elem_of_col {junk : RdName → ℕ → ℕ → ℕ → ℚ} {o : RdOutV} {i c k : ℕ} {nm : RdName} {col : RdColV}
    (h : o.cols[i]? = some col) (hn : nm ∈ col.names) (hp : nm.profile = true) :
    rdElem junk o nm c k i = if col.cells ≤ c then none else col.vals nm c k := by
  unfold rdElem
  rw [h]
  simp only
  rw [if_pos hn]
  simp only [hp, true_and]

/-- C137: behind the largest number of cells so far the dataset shows NaN. -/
theorem rdi_cells_not_yet {env : RdEnv} {ps : List RdVar} {nens : ℕ} {o : RdOutV} (hok : Spec.RdFileOk ps)
    (hu : Spec.RdUniform ps) (h : RdReadVar env ps nens o) {i : ℕ} {p : RdVar}
    (hi : i < min nens (ps.length - 1)) (hp : ps[i]? = some p) {nm : RdName} (hc : Spec.carries p nm)
    {c k : ℕ} (hle : Spec.cellsBefore ps i ≤ c) (hown : p.1.nCells ≤ c) (junk : RdName → ℕ → ℕ → ℕ → ℚ) :
    rdElem junk o nm c k i = none := by
  rw [elem_of_col (rdReadVar_col hok hu h hi hp) ?_ hc.1]
  · exact if_pos (Nat.max_le.mpr ⟨hle, hown⟩)
  · have hm : SeenOk (varBefore ps i).seen := seenOk_varMem _ _ _ seenOk_empty
    exact (ens_names (hok _ (List.mem_of_getElem? hp)).1 hm hc.1).mpr (Or.inr hc)

theorem varMem_append (x : RdVar) : ∀ (n : ℕ) (l : List RdVar) (m : RdMem),
    varMem n (l ++ [x]) m = stepMem (Spec.cellsAt n l) x (varMem n l m)
  | _, [], _ => rfl
  | n, p :: l, m => varMem_append x (max n p.1.nCells) l (stepMem n p m)

theorem cellsAt_append (n : ℕ) (l : List RdVar) (x : RdVar) :
    Spec.cellsAt n (l ++ [x]) = max (Spec.cellsAt n l) x.1.nCells := by
  unfold Spec.cellsAt
  rw [List.foldl_append]
  rfl

/-- C137 (refuted in general): when an ensemble has fewer cells than the ones before, the dataset does not show
gaps in the cells it lacks but the values of the ensemble before. -/
theorem rdi_cells_stale {env : RdEnv} {ps : List RdVar} {nens : ℕ} {o : RdOutV} (hok : Spec.RdFileOk ps)
    (hu : Spec.RdUniform ps) (h : RdReadVar env ps nens o) {i : ℕ} {p q : RdVar}
    (hi : i + 1 < min nens (ps.length - 1)) (hp : ps[i]? = some p) (hq : ps[i + 1]? = some q) {nm : RdName}
    {fmt : AdFmt} {sc : ℚ} (hnm : Spec.rdCell nm = some (fmt, sc)) (hc : Spec.carries p nm) {c k : ℕ}
    (hlt : c < Spec.cellsBefore ps (i + 1)) (hless : q.1.nCells ≤ c) (junk : RdName → ℕ → ℕ → ℕ → ℚ) :
    rdElem junk o nm c k (i + 1) = rdElem junk o nm c k i := by
  have hpr := hc.1
  have hmem : varBefore ps (i + 1) = stepMem (Spec.cellsBefore ps i) p (varBefore ps i) := by
    unfold varBefore
    rw [List.take_add_one, hp]
    exact varMem_append p _ _ _
  have hcell : Spec.cellsBefore ps (i + 1) = max (Spec.cellsBefore ps i) p.1.nCells := by
    unfold Spec.cellsBefore
    rw [List.take_add_one, hp]
    exact cellsAt_append _ _ p
  have hm : SeenOk (varBefore ps i).seen := seenOk_varMem _ _ _ seenOk_empty
  have hm' : SeenOk (varBefore ps (i + 1)).seen := seenOk_varMem _ _ _ seenOk_empty
  have hin : nm ∈ (varCol (Spec.cellsBefore ps i) p (varBefore ps i)).names :=
    (ens_names (hok _ (List.mem_of_getElem? hp)).1 hm hpr).mpr (Or.inr hc)
  have hin' : nm ∈ (varCol (Spec.cellsBefore ps (i + 1)) q (varBefore ps (i + 1))).names := by
    refine (ens_names (hok _ (List.mem_of_getElem? hq)).1 hm' hpr).mpr (Or.inl ?_)
    rw [hmem]
    exact hin
  rw [elem_of_col (rdReadVar_col hok hu h hi hq) hin' hpr,
    elem_of_col (rdReadVar_col hok hu h (by omega) hp) hin hpr]
  have hcount : (varCol (Spec.cellsBefore ps (i + 1)) q (varBefore ps (i + 1))).cells
      = Spec.cellsBefore ps (i + 1) := Nat.max_eq_left (by omega)
  have hcount' : (varCol (Spec.cellsBefore ps i) p (varBefore ps i)).cells = Spec.cellsBefore ps (i + 1) := hcell.symm
  rw [hcount, hcount', if_neg (by omega), if_neg (by omega)]
  have hgrow : growMem (q.1.nCells - Spec.cellsBefore ps (i + 1)) (varBefore ps (i + 1)) = varBefore ps (i + 1) := by
    rw [Nat.sub_eq_zero_of_le (by omega), growMem_zero]
  show rdClean (ensStore q.1 q.2.blks (growMem (q.1.nCells - Spec.cellsBefore ps (i + 1)) (varBefore ps (i + 1)))).nb nm c k
    = rdClean (ensStore p.1 p.2.blks (growMem (p.1.nCells - Spec.cellsBefore ps i) (varBefore ps i))).nb nm c k
  rw [hgrow]
  have hkeep : ∀ (bs : List Spec.RdBlk) (m : RdMem), (∀ b ∈ bs, b.id ≠ 129) →
      (ensStore q.1 bs m).nb nm c k = m.nb nm c k := by
    intro bs
    induction bs with
    | nil => intro m _; rfl
    | cons b bs ih =>
      intro m hb
      rw [show ensStore q.1 (b :: bs) m = ensStore q.1 bs (blkStore q.1 b m) from rfl, ih _ (fun x hx => hb x (by simp [hx]))]
      by_cases hid : b.id = Spec.rdId nm
      · rw [blkStore_cell hnm hid]
        simp only [vput_eq]
        unfold rdCellVals
        rw [if_neg (by omega)]
      · rw [blkStore_other hid (hb b (by simp))]
  have hst := hkeep q.2.blks (varBefore ps (i + 1)) (ok_ids (hok _ (List.mem_of_getElem? hq)).1)
  have hprev : (varBefore ps (i + 1)).nb nm c k
      = rdClean (ensStore p.1 p.2.blks (growMem (p.1.nCells - Spec.cellsBefore ps i) (varBefore ps i))).nb nm c k := by
    rw [hmem]; rfl
  rw [← hprev]
  unfold rdClean
  by_cases hv : nm = .vel
  · subst hv
    simp only [vput_eq, hst]
    rw [hprev]
    unfold rdClean
    simp only [vput_eq]
    split_ifs <;> simp_all
  · rw [vput_ne hv, hst]

theorem varMem_seen : ∀ (n : ℕ) (ps : List RdVar) (m : RdMem) (nm : RdName), SeenOk m.seen → (∀ p ∈ ps, p.2.Ok p.1) →
    nm.profile = true → (nm ∈ m.seen ∨ ∃ p ∈ ps, Spec.carries p nm) → nm ∈ (varMem n ps m).seen
  | _, [], _, _, _, _, _, h => by
    rcases h with h | ⟨p, hp, -⟩
    · exact h
    · simp at hp
  | n, p :: ps, m, nm, hm, hok, hpr, h => by
    refine varMem_seen (max n p.1.nCells) ps (stepMem n p m) nm (seenOk_step hm) (fun q hq => hok q (by simp [hq])) hpr ?_
    have key : nm ∈ (stepMem n p m).seen ↔ nm ∈ m.seen ∨ Spec.carries p nm := ens_names (hok p (by simp)) hm hpr
    rw [key]
    rcases h with h | ⟨q, hq, hc⟩
    · exact Or.inl (Or.inl h)
    · rcases List.mem_cons.mp hq with rfl | hq
      · exact Or.inl (Or.inr hc)
      · exact Or.inr ⟨q, hq, hc⟩

/-- C137 (refuted in general): when an ensemble has more cells than the ones before but lacks a kind of cell data, the
dataset shows zeros there, not gaps. -/
theorem rdi_growth_zero {env : RdEnv} {ps : List RdVar} {nens : ℕ} {o : RdOutV} (hok : Spec.RdFileOk ps)
    (hu : Spec.RdUniform ps) (h : RdReadVar env ps nens o) {i j : ℕ} {p q : RdVar}
    (hi : i < min nens (ps.length - 1)) (hp : ps[i]? = some p) (hj : j < i) (hq : ps[j]? = some q) {nm : RdName}
    (hc : Spec.carries q nm) (hno : ¬ Spec.carries p nm) (hgrow : Spec.cellsBefore ps i < p.1.nCells) {c k : ℕ}
    (hlt : c < p.1.nCells) (junk : RdName → ℕ → ℕ → ℕ → ℚ) : rdElem junk o nm c k i = some 0 := by
  have hpr := hc.1
  have hpo := (hok _ (List.mem_of_getElem? hp)).1
  have hm : SeenOk (varBefore ps i).seen := seenOk_varMem _ _ _ seenOk_empty
  have hin : nm ∈ (varCol (Spec.cellsBefore ps i) p (varBefore ps i)).names := by
    refine (ens_names hpo hm hpr).mpr (Or.inl ?_)
    refine varMem_seen _ _ _ nm seenOk_empty (fun x hx => (hok x (List.mem_of_mem_take hx)).1) hpr (Or.inr ⟨q, ?_, hc⟩)
    exact List.mem_of_getElem? (by rw [List.getElem?_take_of_lt hj, hq])
  rw [elem_of_col (rdReadVar_col hok hu h hi hp) hin hpr]
  rw [if_neg (by show ¬ max (Spec.cellsBefore ps i) p.1.nCells ≤ c; omega)]
  show rdClean (ensStore p.1 p.2.blks (growMem (p.1.nCells - Spec.cellsBefore ps i) (varBefore ps i))).nb nm c k = some 0
  have hst : (ensStore p.1 p.2.blks (growMem (p.1.nCells - Spec.cellsBefore ps i) (varBefore ps i))).nb nm c k = some 0 := by
    rw [ensStore_other p.2.blks _ fun b hb => ⟨fun he => hno ⟨hpr, b, hb, he⟩, ok_ids hpo b hb⟩]
    unfold growMem
    rw [if_neg (by omega)]
    rfl
  unfold rdClean
  by_cases hv : nm = .vel
  · subst hv
    simp only [vput_eq, hst]
    norm_num
  · rw [vput_ne hv, hst]

/-- C137 (refuted in general): when a kind of cell data first occurs in an ensemble behind one that enlarged the
arrays, reading fails. -/
theorem rdi_late_variable {env : RdEnv} {p0 p1 p2 q : RdVar} {rest : List RdVar}
    (hok : Spec.RdFileOk (p0 :: p1 :: p2 :: q :: rest)) (hgrow : p0.1.nCells < p1.1.nCells)
    (hsmall : p2.1.nCells ≤ p1.1.nCells) (h1 : ∀ nm, Spec.carries p1 nm → Spec.carries p0 nm) {nm : RdName}
    (h2 : Spec.carries p2 nm) (h0 : ¬ Spec.carries p0 nm) {s : RdState} (hp : s.pos = 0)
    (hb : RdIdle p0.1.nCells s) {nens : ℕ} (hn : 3 ≤ nens) :
    rdLoadV env (Spec.rdFile ((p0 :: p1 :: p2 :: q :: rest).map (·.2))) 2 nens s rdMem0 (rdOut0 p0.1.nCells)
      = some (.error .valueError) := by
  obtain ⟨k, rfl⟩ : ∃ k, nens = k + 3 := ⟨nens - 3, by omega⟩
  set bs := Spec.rdFile ((p0 :: p1 :: p2 :: q :: rest).map (·.2)) with hbs
  -- first ensemble
  obtain ⟨r0, e0, e0'⟩ := rdFile_two p0 p1 (p2 :: q :: rest)
  have d0 : bs.drop 0 = p0.2.bytes ++ (127 :: 127 :: r0) := e0
  obtain ⟨s1, b1, i1, q1, c1⟩ := rdBuffer_step (env := env) (m := rdMem0) (le_refl 2) (hok p0 (by simp)).2
    (hok p0 (by simp)).1 (start := 0) (by simpa using hp) hb d0
  have d0' : bs.drop (0 + p0.2.bytes.length) = Spec.rdFile ((p1 :: p2 :: q :: rest).map (·.2)) := by
    rw [← List.drop_drop, d0, List.drop_left' rfl, e0']
  obtain ⟨o1, em1, rows1, keep1, -⟩ := rdEmit_grow (n := p0.1.nCells) (n' := max p0.1.nCells p0.1.nCells)
    (m := rdCleaned (ensStore p0.1 p0.2.blks (growMem (p0.1.nCells - p0.1.nCells) rdMem0)))
    (o := rdOut0 p0.1.nCells)
    (by rw [show (rdCleaned (ensStore p0.1 p0.2.blks (growMem (p0.1.nCells - p0.1.nCells) rdMem0))).flag = _ from
      (ensStore_flag (f := p0.1) p0.2.blks _).trans (growMem_flag rfl)]; omega) (fun _ _ _ => rfl)
  have seen1 : ∀ x, x.profile = true → (x ∈ (stepMem p0.1.nCells p0 rdMem0).seen ↔ Spec.carries p0 x) := by
    intro x hx
    refine (ens_names (hok p0 (by simp)).1 seenOk_empty hx).trans ⟨?_, Or.inr⟩
    rintro (h | h)
    · cases h
    · exact h
  have ok1 : SeenOk (stepMem p0.1.nCells p0 rdMem0).seen := seenOk_step seenOk_empty
  have row1 : o1.rows nm = p0.1.nCells := keep1 nm (fun hc => h0 ((seen1 nm hc.2).mp hc.1))
  rw [Nat.max_self] at i1 c1 em1 rows1
  -- second ensemble
  obtain ⟨r1, e1, e1'⟩ := rdFile_two p1 p2 (q :: rest)
  have d1 := d0'.trans e1
  obtain ⟨s2, b2, i2, q2, c2⟩ := rdBuffer_step (env := env) (m := stepMem p0.1.nCells p0 rdMem0) (le_refl 2)
    (hok p1 (by simp)).2 (hok p1 (by simp)).1 q1 i1 d1
  have d1' : bs.drop (0 + p0.2.bytes.length + p1.2.bytes.length) = Spec.rdFile ((p2 :: q :: rest).map (·.2)) := by
    rw [← List.drop_drop, d1, List.drop_left' rfl, e1']
  have seen2 : ∀ x, x.profile = true →
      (x ∈ (stepMem p0.1.nCells p1 (stepMem p0.1.nCells p0 rdMem0)).seen ↔ Spec.carries p0 x) := by
    intro x hx
    refine (ens_names (hok p1 (by simp)).1 ok1 hx).trans ⟨?_, fun h => Or.inl ((seen1 x hx).mpr h)⟩
    rintro (h | h)
    · exact (seen1 x hx).mp h
    · exact h1 x h
  obtain ⟨o2, em2, rows2, keep2, -⟩ := rdEmit_grow (n := p0.1.nCells) (n' := max p0.1.nCells p1.1.nCells)
    (m := rdCleaned (ensStore p1.1 p1.2.blks (growMem (p1.1.nCells - p0.1.nCells) (stepMem p0.1.nCells p0 rdMem0))))
    (o := o1)
    (by rw [show (rdCleaned (ensStore p1.1 p1.2.blks (growMem (p1.1.nCells - p0.1.nCells)
      (stepMem p0.1.nCells p0 rdMem0)))).flag = _ from
      (ensStore_flag (f := p1.1) p1.2.blks _).trans (growMem_flag rfl)]; omega)
    (fun x hx hpx => rows1 x ((seen1 x hpx).mpr ((seen2 x hpx).mp hx)) hpx)
  have row2 : o2.rows nm = p0.1.nCells := (keep2 nm (fun hc => h0 ((seen2 nm hc.2).mp hc.1))).trans row1
  have ok2 : SeenOk (stepMem p0.1.nCells p1 (stepMem p0.1.nCells p0 rdMem0)).seen := seenOk_step ok1
  rw [Nat.max_eq_right hgrow.le] at i2 c2 em2 rows2
  -- third ensemble
  obtain ⟨r2, e2, e2'⟩ := rdFile_two p2 q rest
  have d2 := d1'.trans e2
  obtain ⟨s3, b3, i3, q3, c3⟩ := rdBuffer_step (env := env)
    (m := stepMem p0.1.nCells p1 (stepMem p0.1.nCells p0 rdMem0)) (le_refl 2)
    (hok p2 (by simp)).2 (hok p2 (by simp)).1 q2 i2 d2
  have hbad : rdEmit (max p1.1.nCells p2.1.nCells) (rdCleaned (ensStore p2.1 p2.2.blks (growMem
      (p2.1.nCells - p1.1.nCells) (stepMem p0.1.nCells p1 (stepMem p0.1.nCells p0 rdMem0))))) o2 = .error .valueError := by
    unfold rdEmit
    rw [if_neg]
    intro hall
    have hin : nm ∈ (rdCleaned (ensStore p2.1 p2.2.blks (growMem
        (p2.1.nCells - p1.1.nCells) (stepMem p0.1.nCells p1 (stepMem p0.1.nCells p0 rdMem0))))).seen :=
      (ens_names (hok p2 (by simp)).1 ok2 h2.1).mpr (Or.inr h2)
    have := hall nm hin h2.1
    rw [row2] at this
    unfold rdRows at this
    rw [show (rdCleaned (ensStore p2.1 p2.2.blks (growMem (p2.1.nCells - p1.1.nCells)
      (stepMem p0.1.nCells p1 (stepMem p0.1.nCells p0 rdMem0))))).flag = _ from
      (ensStore_flag (f := p2.1) p2.2.blks _).trans (growMem_flag rfl), Nat.sub_eq_zero_of_le hsmall] at this
    simp only [lt_irrefl, false_and, if_false] at this
    omega
  rw [rdLoadV, b1]
  simp only
  rw [c1, em1]
  simp only
  rw [rdLoadV, show ({ rdCleaned (ensStore p0.1 p0.2.blks (growMem (p0.1.nCells - p0.1.nCells) rdMem0)) with flag := 0 }
    : RdMem) = stepMem p0.1.nCells p0 rdMem0 from rfl, b2]
  simp only
  rw [c2, em2]
  simp only
  rw [rdLoadV, show ({ rdCleaned (ensStore p1.1 p1.2.blks (growMem (p1.1.nCells - p0.1.nCells)
    (stepMem p0.1.nCells p0 rdMem0))) with flag := 0 } : RdMem)
      = stepMem p0.1.nCells p1 (stepMem p0.1.nCells p0 rdMem0) from rfl, b3]
  simp only
  rw [c3, hbad]

/-! ### The range coordinate -/

/-- `r` is what `read_rdi` gives for a file of regular ensembles with changing numbers of cells. -/
def RdDsVar (env : RdEnv) (junk : RdName → ℕ → ℕ → ℕ → ℚ) (ps : List RdVar) (nens : ℕ) (r : Except Err RdDs) : Prop :=
  ∃ p0 rest fuel s, ps = p0 :: rest ∧ 2 ≤ fuel ∧ s.pos = 0 ∧ RdIdle p0.1.nCells s ∧
    rdReadDs env junk (Spec.rdFile (ps.map (·.2))) fuel nens s rdMem0 (rdOut0 p0.1.nCells) = some r

theorem rdDsVar_spec {env : RdEnv} {junk : RdName → ℕ → ℕ → ℕ → ℚ} {ps : List RdVar} {nens : ℕ}
    (hok : Spec.RdFileOk ps) (hu : Spec.RdUniform ps) {r : Except Err RdDs} (h : RdDsVar env junk ps nens r) :
    ∃ o, RdReadVar env ps nens o ∧ o.cols.length = min nens (ps.length - 1) ∧
      r = rdAssemble junk (Spec.cellsBefore ps (min nens (ps.length - 1))) (varBefore ps (min nens (ps.length - 1))) o := by
  obtain ⟨p0, rest, fuel, s, rfl, hfu, hp, hb, hl⟩ := h
  obtain ⟨t, m, o, h1, h2, h3, h4⟩ := rdi_var_load (env := env) hfu hok hu hp hb nens
  refine ⟨o, ⟨p0, rest, fuel, s, t, m, rfl, hfu, hp, hb, h1⟩, ?_, ?_⟩
  · rw [h2, varCols_length, List.length_take]
    omega
  · unfold rdReadDs at hl
    rw [h1] at hl
    simp only [Option.some.injEq] at hl
    rw [← hl, h3, h4]
    rfl

/-- C137: the dataset has one column per ensemble read and as many cells as the largest ensemble read. -/
theorem rdi_varying_shape {env : RdEnv} {junk : RdName → ℕ → ℕ → ℕ → ℚ} {ps : List RdVar} {nens : ℕ}
    (hok : Spec.RdFileOk ps) (hu : Spec.RdUniform ps) {ds : RdDs} (h : RdDsVar env junk ps nens (.ok ds)) :
    ds.width = min nens (ps.length - 1) ∧ ds.range.length = ds.cells ∧
      (∀ p ∈ ps.take ds.width, p.1.nCells ≤ ds.cells) ∧ ∃ p ∈ ps.take ds.width, p.1.nCells = ds.cells := by
  obtain ⟨o, ho, hlen, has⟩ := rdDsVar_spec hok hu h
  obtain ⟨-, -, h3, h4, h5, -, -, -, -, h10⟩ := rdAssemble_ok has.symm
  have hw : ds.width = min nens (ps.length - 1) := h3.trans hlen
  refine ⟨hw, by rw [h5, h4]; simp, ?_⟩
  rw [hw, h4]
  obtain ⟨p0, rest, -, -, -, -, rfl, -⟩ := ho
  have hle : ∀ (l : List RdVar) (n : ℕ), n ≤ Spec.cellsAt n l ∧ ∀ p ∈ l, p.1.nCells ≤ Spec.cellsAt n l := by
    intro l
    induction l with
    | nil => intro n; exact ⟨le_refl _, by simp⟩
    | cons a l ih =>
      intro n
      obtain ⟨h1, h2⟩ := ih (max n a.1.nCells)
      refine ⟨le_trans (Nat.le_max_left _ _) h1, ?_⟩
      intro p hp
      rcases List.mem_cons.mp hp with rfl | hp
      · exact le_trans (Nat.le_max_right _ _) h1
      · exact h2 p hp
  have hex : ∀ (l : List RdVar) (n : ℕ), Spec.cellsAt n l = n ∨ ∃ p ∈ l, p.1.nCells = Spec.cellsAt n l := by
    intro l
    induction l with
    | nil => intro n; exact Or.inl rfl
    | cons a l ih =>
      intro n
      rcases ih (max n a.1.nCells) with h | ⟨p, hp, h⟩
      · rcases Nat.le_total n a.1.nCells with hn | hn
        · right
          refine ⟨a, by simp, ?_⟩
          show a.1.nCells = Spec.cellsAt (max n a.1.nCells) l
          rw [h, Nat.max_eq_right hn]
        · left
          show Spec.cellsAt (max n a.1.nCells) l = n
          rw [h, Nat.max_eq_left hn]
      · exact Or.inr ⟨p, by simp [hp], h⟩
  rw [hlen] at h10
  obtain ⟨k, hk⟩ : ∃ k, min nens ((p0 :: rest).length - 1) = k + 1 := ⟨_, (Nat.succ_pred_eq_of_pos h10).symm⟩
  rw [hk]
  show (∀ p ∈ p0 :: rest.take k, p.1.nCells ≤ Spec.cellsAt p0.1.nCells (p0 :: rest.take k)) ∧
    ∃ p ∈ p0 :: rest.take k, p.1.nCells = Spec.cellsAt p0.1.nCells (p0 :: rest.take k)
  refine ⟨(hle _ _).2, ?_⟩
  rcases hex (p0 :: rest.take k) p0.1.nCells with h | h
  · exact ⟨p0, by simp, h.symm⟩
  · exact h

/-- C137: the range coordinate follows the setup of the last ensemble read. -/
theorem rdi_varying_range {env : RdEnv} {junk : RdName → ℕ → ℕ → ℕ → ℚ} {ps : List RdVar} {nens n : ℕ}
    (hok : Spec.RdFileOk ps) (hu : Spec.RdUniform ps) {ds : RdDs} (h : RdDsVar env junk ps nens (.ok ds))
    (hn : min nens (ps.length - 1) = n + 1) {f : RdFixed} {e : Spec.RdEns} (hp : ps[n]? = some (f, e)) {b : Spec.RdBlk}
    (hb : b ∈ e.blks) (hid : b.id = 0) {S : Spec.RdSetup} {extra : List ℕ} (hpl : b.pl = Spec.record S.fields ++ extra)
    (hr : ∀ x ∈ S.fields, Spec.inRange x.1 x.2) {k : ℕ} (hk : k < ds.cells) :
    ds.range[k]? = some (((S.bin1 + k * S.cellSize : ℕ) : ℚ) / 100) := by
  obtain ⟨o, -, -, has⟩ := rdDsVar_spec hok hu h
  obtain ⟨h1, -, -, h4, h5, -⟩ := rdAssemble_ok has.symm
  have hmem : (varBefore ps (n + 1)).cfgB = b.pl.take 57 := by
    unfold varBefore
    rw [List.take_add_one, hp]
    rw [show (some (f, e)).toList = [(f, e)] from rfl, varMem_append]
    obtain ⟨rest, hbl, hrest, hl⟩ := ok_fixed (hok _ (List.mem_of_getElem? hp)).1 hb hid
    simp only at hbl
    show (ensStore f e.blks _).cfgB = _
    rw [hbl]
    show (ensStore f rest (blkStore f b _)).cfgB = _
    rw [ensStore_cfgB rest _ hrest, blkStore_cfgB, if_pos hid]
  rw [hn, hmem, hpl, List.take_append_of_le_length (by rw [record_length, setup_sizes]; decide),
    List.take_of_length_le (by rw [record_length, setup_sizes]; decide)] at h1
  have h2 := rdi_config_decoded hr []
  rw [List.append_nil] at h2
  rw [h2] at h1
  have hcfg : ds.cfg = S.cfg := (Except.ok.inj h1).symm
  rw [h4] at hk
  rw [h5, List.getElem?_map, List.getElem?_range hk, hcfg]
  simp only [Option.map_some, Option.some.injEq, Spec.RdSetup.cfg]
  push_cast
  ring

/-! ### A file -/

/-- An ensemble of `n` cells with velocities, and correlations or not. -/
def exVarEns (n : ℕ) (corr : Bool) : Spec.RdEns :=
  ⟨0, [⟨0, [16, 28, 0, 0, 0, 0, 4, n] ++ List.replicate 51 0⟩, ⟨128, Spec.record exLeader.fields ++ [0, 0]⟩,
    ⟨256, Spec.cellRecord .h n exVel ++ []⟩] ++ (if corr then [⟨512, Spec.cellRecord .B n (fun _ _ => 99) ++ []⟩] else []),
    [0, 0, 9, 9]⟩

set_option maxRecDepth 10000 in
theorem exVarEns_ok (n : Fin 5) (hn : 0 < n.val) (corr : Bool) : (exVarEns n corr).Ok ⟨16, 1628, n⟩ where
  tail := rfl
  small := by cases corr <;> revert n <;> decide +kernel
  count := by cases corr <;> revert n <;> decide +kernel
  shape := by
    refine ⟨_, _, _, rfl, ?_, rfl, by decide +kernel, ?_⟩
    · unfold Spec.rdFixedBlk; revert n; decide +kernel
    · intro b hb
      cases corr
      · have : b = ⟨256, Spec.cellRecord .h n exVel ++ []⟩ := by simpa [exVarEns] using hb
        subst this
        exact ⟨by simp, 8 * n, by simp [Spec.rdMin], by clear hb; revert n; decide +kernel⟩
      · have : b = ⟨256, Spec.cellRecord .h n exVel ++ []⟩ ∨ b = ⟨512, Spec.cellRecord .B n (fun _ _ => 99) ++ []⟩ := by
          simpa [exVarEns] using hb
        rcases this with rfl | rfl
        · exact ⟨by simp, 8 * n, by simp [Spec.rdMin], by clear hb; revert n; decide +kernel⟩
        · exact ⟨by simp, 4 * n, by simp [Spec.rdMin], by clear hb; revert n; decide +kernel⟩

/-- An ensemble of `n` cells with its configuration. -/
def exVar (n : ℕ) (corr : Bool) : RdVar := (⟨16, 1628, n⟩, exVarEns n corr)

theorem exVar_carries (n : ℕ) (corr : Bool) (nm : RdName) :
    Spec.carries (exVar n corr) nm ↔ nm = .vel ∨ (corr = true ∧ nm = .corr) := by
  unfold Spec.carries exVar exVarEns
  cases corr <;> cases nm <;> simp [RdName.profile, Spec.rdId]

/-- Four ensembles, of which three are read: 2 cells, then 1, then 3. -/
def exVarFile : List RdVar := [exVar 2 true, exVar 1 true, exVar 3 true, exVar 2 true]

theorem exVarFile_ok : Spec.RdFileOk exVarFile := by
  intro p hp
  fin_cases hp
  · exact ⟨exVarEns_ok 2 (by decide) true, by decide⟩
  · exact ⟨exVarEns_ok 1 (by decide) true, by decide⟩
  · exact ⟨exVarEns_ok 3 (by decide) true, by decide⟩
  · exact ⟨exVarEns_ok 2 (by decide) true, by decide⟩

theorem exVarFile_uniform : Spec.RdUniform exVarFile := by
  intro p hp nm hc
  refine ⟨exVar 2 true, rfl, ?_⟩
  rw [exVar_carries]
  fin_cases hp <;> exact (exVar_carries _ _ _).mp hc

theorem exVarFile_read : ∃ o, RdReadVar rdYes exVarFile 10 o ∧ o.cols.length = 3 :=
  rdi_varying_reads (env := rdYes) exVarFile_ok exVarFile_uniform (s := exStart) rfl
    ⟨rfl, rfl, by decide, rfl, rfl, rfl⟩ 10

theorem exVar_last (n : ℕ) : Spec.LastBlk (exVarEns n true) ⟨256, Spec.cellRecord .h n exVel ++ []⟩ :=
  ⟨[⟨0, [16, 28, 0, 0, 0, 0, 4, n] ++ List.replicate 51 0⟩, ⟨128, Spec.record exLeader.fields ++ [0, 0]⟩],
    [⟨512, Spec.cellRecord .B n (fun _ _ => 99) ++ []⟩], rfl, by simp⟩

/-- The third ensemble has its third cell, which the first two show as NaN. -/
example (junk : RdName → ℕ → ℕ → ℕ → ℚ) : ∃ o, RdReadVar rdYes exVarFile 10 o ∧
    rdElem junk o .vel 2 1 2 = some (1990 * (1 / 1000)) ∧ rdElem junk o .vel 2 1 0 = none ∧
    rdElem junk o .vel 2 1 1 = none ∧ rdElem junk o .heading 0 0 2 = some (12345 / 100) := by
  obtain ⟨o, ho, -⟩ := exVarFile_read
  refine ⟨o, ho, ?_, ?_, ?_, ?_⟩
  · rw [rdi_varying_cells exVarFile_ok exVarFile_uniform ho (i := 2) (by decide) rfl (nm := .vel) rfl (exVar_last 3) rfl
      (w := exVel) rfl (by decide +kernel) junk (c := 2) (k := 1) (by decide) (by decide)]
    norm_num [exVel]
  · exact rdi_cells_not_yet exVarFile_ok exVarFile_uniform ho (i := 0) (by decide) rfl
      ((exVar_carries 2 true .vel).mpr (Or.inl rfl)) (by decide) (by decide) junk
  · exact rdi_cells_not_yet exVarFile_ok exVarFile_uniform ho (i := 1) (by decide) rfl
      ((exVar_carries 1 true .vel).mpr (Or.inl rfl)) (by decide) (by decide) junk
  · exact rdi_varying_leader exVarFile_ok exVarFile_uniform ho (i := 2) (by decide) rfl
      (b := ⟨128, Spec.record exLeader.fields ++ [0, 0]⟩) (by simp [exVarEns]) rfl (L := exLeader) (extra := [0, 0]) rfl
      (by decide +kernel) (nm := .heading) (k := 0) rfl (by decide) junk

/-- C137 (refuted): the second ensemble has one cell, yet the dataset shows a velocity of 1 m/s in its second
cell, which is that of the first ensemble. -/
theorem rdi_cells_false (junk : RdName → ℕ → ℕ → ℕ → ℚ) :
    ∃ env ps o p, Spec.RdFileOk ps ∧ Spec.RdUniform ps ∧ RdReadVar env ps 10 o ∧ ps[1]? = some p ∧
      p.1.nCells = 1 ∧ rdElem junk o .vel 1 0 1 = some 1 := by
  obtain ⟨o, ho, -⟩ := exVarFile_read
  refine ⟨rdYes, exVarFile, o, exVar 1 true, exVarFile_ok, exVarFile_uniform, ho, rfl, rfl, ?_⟩
  rw [rdi_cells_stale exVarFile_ok exVarFile_uniform ho (i := 0) (by decide) rfl rfl (nm := .vel) rfl
    ((exVar_carries 2 true .vel).mpr (Or.inl rfl)) (by decide) (by decide) junk,
    rdi_varying_cells exVarFile_ok exVarFile_uniform ho (i := 0) (by decide) rfl (nm := .vel) rfl (exVar_last 2) rfl
      (w := exVel) rfl (by decide +kernel) junk (c := 1) (k := 0) (by decide) (by decide)]
  norm_num [exVel]

/-- C137 (refuted): the second ensemble has no correlations, yet the dataset shows a correlation of zero in its first cell,
because it has more cells than the first one. -/
theorem rdi_growth_zero_false (junk : RdName → ℕ → ℕ → ℕ → ℚ) :
    ∃ env ps o p, Spec.RdFileOk ps ∧ Spec.RdUniform ps ∧ RdReadVar env ps 10 o ∧ ps[1]? = some p ∧
      ¬ Spec.carries p .corr ∧ rdElem junk o .corr 0 0 1 = some 0 := by
  have hok : Spec.RdFileOk [exVar 2 true, exVar 3 false, exVar 3 true] := by
    intro p hp
    fin_cases hp
    · exact ⟨exVarEns_ok 2 (by decide) true, by decide⟩
    · exact ⟨exVarEns_ok 3 (by decide) false, by decide⟩
    · exact ⟨exVarEns_ok 3 (by decide) true, by decide⟩
  have hu : Spec.RdUniform [exVar 2 true, exVar 3 false, exVar 3 true] := by
    intro p hp nm hc
    refine ⟨exVar 2 true, rfl, ?_⟩
    rw [exVar_carries]
    fin_cases hp
    · exact (exVar_carries _ _ _).mp hc
    · rcases (exVar_carries _ _ _).mp hc with h | ⟨h, -⟩
      · exact Or.inl h
      · cases h
    · exact (exVar_carries _ _ _).mp hc
  have hno : ¬ Spec.carries (exVar 3 false) .corr := by
    intro h
    rcases (exVar_carries _ _ _).mp h with h | ⟨h, -⟩ <;> cases h
  obtain ⟨o, ho, -⟩ := rdi_varying_reads (env := rdYes) hok hu (s := exStart) rfl ⟨rfl, rfl, by decide, rfl, rfl, rfl⟩ 10
  exact ⟨rdYes, _, o, exVar 3 false, hok, hu, ho, rfl, hno, rdi_growth_zero hok hu ho (i := 1) (j := 0) (by decide) rfl
    (by decide) rfl ((exVar_carries 2 true .corr).mpr (Or.inr ⟨rfl, rfl⟩)) hno (by decide) (by decide) junk⟩

/-- C137 (refuted): a file whose third ensemble is the first with correlations, behind one with more cells, cannot
be read. -/
theorem rdi_late_variable_false :
    ∃ env ps, Spec.RdFileOk ps ∧ ∀ s : RdState, s.pos = 0 → RdIdle 2 s →
      rdLoadV env (Spec.rdFile (ps.map (·.2))) 2 10 s rdMem0 (rdOut0 2) = some (.error .valueError) := by
  have hok : Spec.RdFileOk [exVar 2 false, exVar 3 false, exVar 3 true, exVar 3 true] := by
    intro p hp
    fin_cases hp
    · exact ⟨exVarEns_ok 2 (by decide) false, by decide⟩
    · exact ⟨exVarEns_ok 3 (by decide) false, by decide⟩
    · exact ⟨exVarEns_ok 3 (by decide) true, by decide⟩
    · exact ⟨exVarEns_ok 3 (by decide) true, by decide⟩
  refine ⟨rdYes, _, hok, fun s hp hb => ?_⟩
  exact rdi_late_variable (p0 := exVar 2 false) (p1 := exVar 3 false) (p2 := exVar 3 true) hok (by decide) (by decide)
    (fun nm h => (exVar_carries 2 false nm).mpr ((exVar_carries 3 false nm).mp h)) (nm := .corr)
    ((exVar_carries 3 true .corr).mpr (Or.inr ⟨rfl, rfl⟩)) (fun h => by
      rcases (exVar_carries 2 false .corr).mp h with h | ⟨h, -⟩ <;> cases h) hp hb (by decide)

/-- The setup of the example with other numbers and sizes of cells. -/
def exSetupN (n : Fin 2) : Spec.RdSetup := { exSetup with cells := 2 + n, cellSize := 100 - 50 * n }

/-- An ensemble of 2 cells of 1 m, or of 3 cells of 0.5 m. -/
def exSized (n : Fin 2) : Spec.RdEns :=
  ⟨0, [⟨0, Spec.record (exSetupN n).fields ++ [0, 0]⟩, ⟨128, Spec.record exLeader.fields ++ [0, 0]⟩,
    ⟨256, Spec.cellRecord .h (2 + n) exVel ++ []⟩], [0, 0, 9, 9]⟩

set_option maxRecDepth 10000 in
theorem exSized_ok (n : Fin 2) : (exSized n).Ok ⟨16, 1628, 2 + n⟩ where
  tail := rfl
  small := by revert n; decide +kernel
  count := by revert n; decide +kernel
  shape := by
    refine ⟨_, _, _, rfl, ?_, rfl, by revert n; decide +kernel, ?_⟩
    · unfold Spec.rdFixedBlk; revert n; decide +kernel
    · intro b hb
      fin_cases hb
      exact ⟨by simp, 8 * (2 + n), by simp [Spec.rdMin], by revert n; decide +kernel⟩

/-- Three ensembles, of which two are read. -/
def exSizes : List RdVar := [(⟨16, 1628, 2⟩, exSized 0), (⟨16, 1628, 3⟩, exSized 1), (⟨16, 1628, 3⟩, exSized 1)]

theorem exSizes_ok : Spec.RdFileOk exSizes := by
  intro p hp
  fin_cases hp
  · exact ⟨exSized_ok 0, by decide⟩
  · exact ⟨exSized_ok 1, by decide⟩
  · exact ⟨exSized_ok 1, by decide⟩

theorem exSizes_uniform : Spec.RdUniform exSizes := by
  have hv : ∀ (n : Fin 2) (f : RdFixed) nm, Spec.carries (f, exSized n) nm → nm = .vel := by
    rintro n f nm ⟨h1, b, hb, h2⟩
    simp only [exSized] at hb
    fin_cases hb <;> cases nm <;> simp_all [Spec.rdId, RdName.profile]
  intro p hp nm hc
  refine ⟨_, rfl, ?_⟩
  have : nm = .vel := by
    fin_cases hp
    · exact hv _ _ _ hc
    · exact hv _ _ _ hc
    · exact hv _ _ _ hc
  subst this
  exact ⟨rfl, ⟨256, Spec.cellRecord .h 2 exVel ++ []⟩, by simp [exSized], rfl⟩

theorem exSizes_read (junk : RdName → ℕ → ℕ → ℕ → ℚ) : ∃ ds, RdDsVar rdYes junk exSizes 10 (.ok ds) := by
  have hid : RdIdle 2 exStart := ⟨rfl, rfl, by decide, rfl, rfl, rfl⟩
  obtain ⟨t, m, o, h1, h2, -⟩ := rdi_var_load (env := rdYes) (le_refl 2) exSizes_ok exSizes_uniform (s := exStart) rfl
    hid 10
  have hds : RdDsVar rdYes junk exSizes 10 (rdAssemble junk (ensCells t.ens) m o) := by
    refine ⟨((⟨16, 1628, 2⟩, exSized 0) : RdVar), [(⟨16, 1628, 3⟩, exSized 1), (⟨16, 1628, 3⟩, exSized 1)], 2, exStart, rfl,
      le_refl 2, rfl, hid, ?_⟩
    have h1' : rdLoadV rdYes (Spec.rdFile (exSizes.map (·.2))) 2 10 exStart rdMem0
      (rdOut0 ((⟨16, 1628, 2⟩, exSized 0) : RdVar).1.nCells) = some (.ok (t, m, o)) := h1
    unfold rdReadDs
    rw [h1']
  obtain ⟨o', ho', hlen, has⟩ := rdDsVar_spec exSizes_ok exSizes_uniform hds
  have ht := rdi_varying_time exSizes_ok exSizes_uniform ho' (i := 0) (by decide) rfl
    (b := ⟨128, Spec.record exLeader.fields ++ [0, 0]⟩) (by simp [exSized]) rfl
    (L := exLeader) (extra := [0, 0]) rfl (by decide +kernel) ⟨2021, 3, 4, 5, 6, 7⟩ 8 (by decide +kernel)
    (by decide +kernel) (by decide +kernel) (by decide +kernel) (by decide +kernel) (by decide +kernel) (by decide +kernel)
  rw [if_pos (by decide +kernel)] at ht
  rw [has] at hds
  have hcfg : (varBefore exSizes (min 10 (exSizes.length - 1))).cfgB = Spec.record (exSetupN 1).fields := by
    decide +kernel
  unfold rdAssemble at hds
  cases hc : o'.cols with
  | nil => rw [hc] at ht; cases ht
  | cons col rest =>
    rw [hc] at hds ht
    simp only at hds
    have hdec := rdi_config_decoded (S := exSetupN 1) (by decide +kernel) []
    rw [List.append_nil] at hdec
    rw [hcfg, hdec] at hds
    simp only [List.getElem?_cons_zero, Option.map_some, Option.some.injEq] at ht
    simp only at hds
    rw [ht, if_neg (by simp)] at hds
    exact ⟨_, hds⟩

/-- C137 (refuted): the first ensemble has cells of 1 m, the second one of 0.5 m; the second cell of the dataset,
which holds the velocity recorded at 2.90 m in the first ensemble, is labelled 2.40 m. -/
theorem rdi_range_false (junk : RdName → ℕ → ℕ → ℕ → ℚ) :
    ∃ env ps ds, Spec.RdFileOk ps ∧ Spec.RdUniform ps ∧ RdDsVar env junk ps 10 (.ok ds) ∧
      ps[0]? = some (⟨16, 1628, 2⟩, exSized 0) ∧ (exSetupN 0).bin1 + 1 * (exSetupN 0).cellSize = 290 ∧
      ds.elem .vel 0 1 0 = some 1 ∧ ds.range[1]? = some (240 / 100) := by
  obtain ⟨ds, hds⟩ := exSizes_read junk
  have hshape := rdi_varying_shape exSizes_ok exSizes_uniform hds
  refine ⟨rdYes, exSizes, ds, exSizes_ok, exSizes_uniform, hds, rfl, by decide, ?_, ?_⟩
  · obtain ⟨o, ho, -, has⟩ := rdDsVar_spec exSizes_ok exSizes_uniform hds
    obtain ⟨-, -, -, -, -, -, -, h8, -⟩ := rdAssemble_ok has.symm
    rw [h8, rdi_varying_cells exSizes_ok exSizes_uniform ho (i := 0) (by decide) rfl (nm := .vel) rfl
      (b := ⟨256, Spec.cellRecord .h 2 exVel ++ []⟩)
      ⟨[⟨0, Spec.record (exSetupN 0).fields ++ [0, 0]⟩, ⟨128, Spec.record exLeader.fields ++ [0, 0]⟩], [], rfl, by simp⟩ rfl
      (w := exVel) rfl (by decide +kernel) junk (c := 1) (k := 0) (by decide) (by decide)]
    norm_num [exVel]
  · have hw : ds.width = 2 := hshape.1
    have h3 := hshape.2.2.1 (⟨16, 1628, 3⟩, exSized 1) (by rw [hw]; simp [exSizes])
    rw [rdi_varying_range exSizes_ok exSizes_uniform hds (n := 1) rfl rfl
      (b := ⟨0, Spec.record (exSetupN 1).fields ++ [0, 0]⟩) (by simp [exSized]) rfl rfl (by decide +kernel) (k := 1)
      (by simp only at h3; omega)]
    norm_num [exSetupN, exSetup]

end Dolfyn
