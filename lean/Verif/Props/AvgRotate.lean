import Verif.Props.FrameInv

/-! C140: averaging in bins and rotating commute for an instrument that does not move. -/

namespace Dolfyn

open Finset Spec

variable {C : Type}

/-- Series of the bin means of a record. -/
def Spec.BinMeans (b : Binner) (len k : ℕ) (x : ℕ → ℝ) (y : Fin k → ℝ) : Prop :=
  ∃ out, binMean b len (fun t => some (x t)) none = .ok out ∧ out.length = k ∧
    ∀ q : Fin k, out[q.val]? = some (some (y q))

/-- Variable of an averaged dataset. Samples are indexed by time and by what else there is
(depth cells). -/
structure Spec.VarAvg (b : Binner) (len k : ℕ) (v : RVar (ℕ × C)) (a : RVar (Fin k × C)) :
    Prop where
  name : a.name = v.name
  n : a.n = v.n
  val : ∀ c i, i < v.n → Spec.BinMeans b len k (fun t => v.val (t, c) i) fun q => a.val (q, c) i

/-- `a` is the bin average of `ds`: the attributes are copied, the orientation matrix and the
vectors are averaged element by element, and the head matrix, which has no time, is left out. -/
structure Spec.AvgOf (b : Binner) (len k : ℕ) (ds : RDS (ℕ × C)) (a : RDS (Fin k × C)) : Prop where
  inst : a.inst = ds.inst
  frame : a.coordSys = ds.coordSys
  down : a.down = ds.down
  heading : a.principalHeading = ds.principalHeading
  head : a.inst2head = none
  omat : ∀ m, ds.orientmat = some m → ∃ m', a.orientmat = some m' ∧ ∀ c i j,
    Spec.BinMeans b len k (fun t => m (t, c) i j) fun q => m' (q, c) i j
  vars : List.Forall₂ (Spec.VarAvg b len k) ds.vars a.vars

theorem binMeans_iff (b : Binner) (n len : ℕ) (hb : b.nBin = n) (hn : 0 < n) (hlen : n ≤ len)
    (x : ℕ → ℝ) (y : Fin (len / n) → ℝ) : Spec.BinMeans b len (len / n) x y ↔
      ∀ q, y q = (∑ j ∈ range n, x (q.val * n + j)) / n := by
  obtain ⟨out, h1, h2, h3⟩ := bin_mean_complete b len x none n (Or.inr ⟨rfl, hb⟩) hn hlen
  constructor
  · rintro ⟨o, e1, -, e2⟩ q
    rw [h1] at e1
    cases e1
    have := e2 q
    rw [h3 q.val q.isLt] at this
    exact (Option.some.inj (Option.some.inj this)).symm
  · intro h
    exact ⟨out, h1, h2, fun q => by rw [h3 q.val q.isLt, h q]⟩

/-- Rotation with a constant matrix commutes with averaging. -/
theorem varAvg_rot (b : Binner) (n len : ℕ) (hb : b.nBin = n) (hn : 0 < n) (hlen : n ≤ len)
    {v : RVar (ℕ × C)} {a : RVar (Fin (len / n) × C)} (h : Spec.VarAvg b len (len / n) v a)
    {d : ℕ} (hd : d ≤ v.n) (M : Matrix (Fin d) (Fin d) ℝ) :
    Spec.VarAvg b len (len / n) (v.rot fun _ => M) (a.rot fun _ => M) := by
  refine ⟨h.name, h.n, fun c i hi => ?_⟩
  have hi' : i < v.n := hi
  have hv := fun i hi => (binMeans_iff b n len hb hn hlen _ _).mp (h.val c i hi)
  rw [binMeans_iff b n len hb hn hlen]
  intro q
  simp only [RVar.rot, applyM]
  by_cases hid : i < d
  · simp only [dif_pos hid]
    rw [Finset.sum_comm, Finset.sum_div]
    apply Finset.sum_congr rfl
    intro j _
    rw [hv j (by omega) q, ← Finset.mul_sum, mul_div_assoc]
  · simp only [dif_neg hid]
    exact hv i hi' q

theorem forall₂_mapM {α β α' β' : Type} {P : α → β → Prop} {P' : α' → β' → Prop}
    {f : α → Except Err α'} {g : β → Except Err β'}
    (hfg : ∀ x y x', P x y → f x = .ok x' → ∃ y', g y = .ok y' ∧ P' x' y') :
    ∀ {l : List α} {m : List β} {l' : List α'}, List.Forall₂ P l m → l.mapM f = .ok l' →
      ∃ m', m.mapM g = .ok m' ∧ List.Forall₂ P' l' m' := by
  intro l m l' h
  induction h generalizing l' with
  | nil =>
    intro e
    cases e
    exact ⟨[], rfl, .nil⟩
  | @cons x y l m h1 _ ih =>
    intro e
    rw [List.mapM_cons] at e
    cases hx : f x with
    | error _ => rw [hx] at e; cases e
    | ok x' =>
      cases hl : l.mapM f with
      | error _ => rw [hx, hl] at e; cases e
      | ok t' =>
        rw [hx, hl] at e
        cases e
        obtain ⟨y', hy, p1⟩ := hfg x y x' h1 hx
        obtain ⟨m', hm, p2⟩ := ih hl
        refine ⟨y' :: m', ?_, .cons p1 p2⟩
        rw [List.mapM_cons, hy, hm]
        rfl

theorem effOmat_of_some {T : Type} {ds : RDS T} {m : T → M3} (h : ds.orientmat = some m) :
    effOmat ds = .ok m := by
  unfold effOmat
  rw [h]

theorem avg_oneStep (b : Binner) (n len : ℕ) (hb : b.nBin = n) (hn : 0 < n) (hlen : n ≤ len)
    [Inhabited C] {ds ds' : RDS (ℕ × C)} {a : RDS (Fin (len / n) × C)} {M : M3}
    (hM : ds.orientmat = some fun _ => M) (h : Spec.AvgOf b len (len / n) ds a) {k : ℕ} {r : Bool}
    (hk : k ≠ 0) (hs : oneStep ds (k, r) = .ok ds') :
    ∃ a', oneStep a (k, r) = .ok a' ∧ Spec.AvgOf b len (len / n) ds' a' ∧
      ds'.orientmat = some fun _ => M := by
  have hn0 : (n : ℝ) ≠ 0 := by exact_mod_cast hn.ne'
  obtain ⟨m', hm', hmv⟩ := h.omat _ hM
  have hmc : m' = fun _ => M := by
    funext ⟨q, c⟩
    ext i j
    have := (binMeans_iff b n len hb hn hlen _ _).mp (hmv c i j) q
    rw [this]
    simp [Finset.sum_const]
    field_simp
  subst hmc
  match k with
  | 0 => exact absurd rfl hk
  | 1 =>
    obtain ⟨hu, hf, m, hm, hdet, vs, hvs, rfl⟩ := inst2earth_iff.mp hs
    rw [effOmat_of_some hM] at hm
    cases hm
    obtain ⟨vs', e1, e2⟩ := forall₂_mapM (P' := Spec.VarAvg b len (len / n))
      (g := i2eVar a.inst r a.down fun _ => M) (by
        intro x y x' hxy hx
        have hn' := hxy.n
        rw [h.inst, h.down]
        unfold i2eVar at hx ⊢
        cases hi : ds.inst <;> simp only [hi] at hx ⊢
        · obtain ⟨e, rfl⟩ := ite_err_ok.mp hx
          rw [hn', if_neg e]
          exact ⟨_, rfl, varAvg_rot b n len hb hn hlen hxy (by omega) _⟩
        · obtain ⟨e, rfl⟩ := ite_err_ok.mp hx
          rw [hn', if_neg e]
          exact ⟨_, rfl, varAvg_rot b n len hb hn hlen hxy (by omega) _⟩
        · rw [hn']
          by_cases e3 : x.n = 3
          · rw [if_pos e3] at hx ⊢
            cases hx
            exact ⟨_, rfl, varAvg_rot b n len hb hn hlen hxy (by omega) _⟩
          · rw [if_neg e3] at hx ⊢
            by_cases e4 : x.n = 4
            · rw [if_pos e4] at hx ⊢
              cases hx
              exact ⟨_, rfl, varAvg_rot b n len hb hn hlen hxy (by omega) _⟩
            · rw [if_neg e4] at hx
              cases hx
        · obtain ⟨e, rfl⟩ := ite_err_ok.mp hx
          rw [hn', if_neg e]
          exact ⟨_, rfl, varAvg_rot b n len hb hn hlen hxy (by omega) _⟩
        · cases hx) h.vars hvs
    refine ⟨{ a with vars := vs', coordSys := if r then .inst else .earth }, ?_, ?_, hM⟩
    · exact inst2earth_iff.mpr ⟨by rw [h.inst]; exact hu, by rw [h.inst, h.frame]; exact hf, _,
        effOmat_of_some hm', fun e1 e2 _ => hdet (by rw [← h.inst]; exact e1) e2 default, vs', e1,
        rfl⟩
    · exact ⟨h.inst, rfl, h.down, h.heading, h.head, h.omat, e2⟩
  | 2 =>
    obtain ⟨ph, hp, hf, vs, hvs, rfl⟩ := earth2principal_iff.mp hs
    obtain ⟨vs', e1, e2⟩ := forall₂_mapM (P' := Spec.VarAvg b len (len / n))
      (g := fun v : RVar (Fin (len / n) × C) => if v.n < 2 then .error .valueError
        else .ok (v.rot fun _ => rot2 (if r then deg2rad (90 - ph) else -deg2rad (90 - ph)))) (by
        intro x y x' hxy hx
        have hn' := hxy.n
        by_cases h2 : x.n < 2
        · rw [if_pos h2] at hx; cases hx
        · rw [if_neg h2] at hx
          cases hx
          rw [hn', if_neg h2]
          exact ⟨_, rfl, varAvg_rot b n len hb hn hlen hxy (by omega) _⟩) h.vars hvs
    refine ⟨{ a with vars := vs', coordSys := if r then .earth else .principal }, ?_, ?_, hM⟩
    · exact earth2principal_iff.mpr ⟨ph, by rw [h.heading]; exact hp, by rw [h.frame]; exact hf,
        vs', e1, rfl⟩
    · exact ⟨h.inst, rfl, h.down, h.heading, h.head, h.omat, e2⟩
  | k + 3 => cases hs

/-- **C140.** For an instrument that does not move, rotating between inst, earth and principal
(any direction, any instrument) and averaging in bins commute: if the raw data can be rotated, so
can the averages, and the result is the average of the rotated data. -/
theorem avg_rotate_commute (b : Binner) (n len : ℕ) (hb : b.nBin = n) (hn : 0 < n) (hlen : n ≤ len)
    [Inhabited C] {fuel : ℕ} (hfuel : 3 ≤ fuel) {out : Frame} {ds ds' : RDS (ℕ × C)}
    {a : RDS (Fin (len / n) × C)} {i j : ℕ} (hi : Pos ds.coordSys i) (ho : Pos out j) (hi1 : 1 ≤ i)
    (hj1 : 1 ≤ j) {M : M3} (hM : ds.orientmat = some fun _ => M)
    (h : Spec.AvgOf b len (len / n) ds a) (hr : rotate2 fuel out ds = some (.ok ds')) :
    ∃ a', rotate2 fuel out a = some (.ok a') ∧ Spec.AvgOf b len (len / n) ds' a' := by
  obtain ⟨hu, b0, hb0⟩ := rotate2_ok_checks hr
  rw [rotate2_eq fuel ds hi ho hfuel hu hb0] at hr
  replace hr := Option.some.inj hr
  have hca : checkInst2head a = .ok false := by
    unfold checkInst2head
    rw [h.head]
  rw [rotate2_eq (i := i) (j := j) fuel a (by rw [h.frame]; exact hi) ho hfuel
    (by rw [h.inst]; exact hu) hca]
  have hmem : ∀ s ∈ steps i j, s.1 ≠ 0 := by
    intro s hs
    unfold steps at hs
    split_ifs at hs
    · simp only [List.mem_map, List.mem_range'] at hs
      obtain ⟨a, ⟨c, _, rfl⟩, rfl⟩ := hs
      simp only; omega
    · simp only [List.mem_map, List.mem_reverse, List.mem_range'] at hs
      obtain ⟨a, ⟨c, _, rfl⟩, rfl⟩ := hs
      simp only; omega
  suffices hh : ∃ a', (steps i j).foldlM oneStep a = .ok a' ∧ Spec.AvgOf b len (len / n) ds' a' by
    obtain ⟨a', e1, e2⟩ := hh
    exact ⟨a', by rw [e1], e2⟩
  generalize steps i j = l at hr hmem
  clear hi ho hu hb0 hca
  induction l generalizing ds a with
  | nil =>
    cases hr
    exact ⟨a, rfl, h⟩
  | cons s l ih =>
    simp only [List.foldlM_cons, bind, Except.bind] at hr ⊢
    split at hr
    · cases hr
    · rename_i d hd
      obtain ⟨k, r⟩ := s
      obtain ⟨a1, e1, e2, e3⟩ := avg_oneStep b n len hb hn hlen hM h (hmem (k, r) (by simp)) hd
      rw [e1]
      exact ih e3 e2 hr fun s hs => hmem s (by simp [hs])

theorem rotate2_vector_earth {T : Type} (ds : RDS T) (m : T → M3) (hi : ds.inst = .vector)
    (hc : ds.coordSys = .inst) (hm : ds.orientmat = some m) (hh : ds.inst2head = none)
    (hn : ∀ v ∈ ds.vars, v.n = 3) :
    rotate2 3 .earth ds = some (.ok { ds with
      vars := ds.vars.map fun v => v.rot fun t => (m t).transpose, coordSys := .earth }) := by
  have hca : checkInst2head ds = .ok false := by
    unfold checkInst2head
    rw [hh]
  rw [rotate2_eq (i := 1) (j := 2) 3 ds (by rw [hc]; exact .inst) .earth le_rfl
    (by rw [hi]; decide) hca, show steps 1 2 = [(1, false)] by decide]
  have : inst2earth false ds = .ok { ds with
      vars := ds.vars.map fun v => v.rot fun t => (m t).transpose, coordSys := .earth } := by
    refine inst2earth_iff.mpr ⟨by rw [hi]; decide, .inl (by rw [hc]; rfl), m, effOmat_of_some hm,
      (by rw [hi]; intro h; cases h), _, ?_, rfl⟩
    apply mapM_ok_eq
    intro v hv
    unfold i2eVar
    simp only [hi, hn v hv]
    simp
  simp only [List.foldlM_cons, oneStep, this, bind, Except.bind, List.foldlM_nil]
  rfl

/-- Every dataset has an average, so the hypothesis of the theorem can be met. -/
theorem avg_exists (b : Binner) (n len : ℕ) (hb : b.nBin = n) (hn : 0 < n) (hlen : n ≤ len)
    (ds : RDS (ℕ × C)) : ∃ a, Spec.AvgOf b len (len / n) ds a := by
  let av (x : ℕ × C → ℝ) (q : Fin (len / n) × C) : ℝ :=
    (∑ j ∈ range n, x (q.1.val * n + j, q.2)) / n
  refine ⟨{ inst := ds.inst, coordSys := ds.coordSys, down := ds.down
            principalHeading := ds.principalHeading, declination := ds.declination
            beam2inst := none, heading := none, inst2head := none, inst2headSet := ds.inst2headSet
            calcOmat := fun _ => .error .unboundLocal
            orientmat := ds.orientmat.map fun m q => Matrix.of fun i j => av (fun t => m t i j) q
            vars := ds.vars.map fun v => ⟨v.name, v.n, fun q i => av (fun t => v.val t i) q⟩ },
    rfl, rfl, rfl, rfl, rfl, ?_, ?_⟩
  · intro m hm
    refine ⟨fun q => Matrix.of fun i j => av (fun t => m t i j) q, by simp only [hm, Option.map_some],
      fun c i j => ?_⟩
    rw [binMeans_iff b n len hb hn hlen]
    intro q
    rfl
  · rw [List.forall₂_map_right_iff]
    rw [List.forall₂_same]
    intro v _
    refine ⟨rfl, rfl, fun c i _ => ?_⟩
    rw [binMeans_iff b n len hb hn hlen]
    intro q
    rfl

/-- The hypotheses are met: averages of bins of 4 samples of a Vector dataset. -/
example (val : ℕ × Unit → ℕ → ℝ) : ∃ (ds ds' : RDS (ℕ × Unit)) (a a' : RDS (Fin (20 / 4) × Unit)),
    ds.vars = [⟨"vel", 3, val⟩] ∧ rotate2 3 .earth ds = some (.ok ds') ∧
    rotate2 3 .earth a = some (.ok a') ∧ Spec.AvgOf ⟨4, 1, 4, 4⟩ 20 (20 / 4) ds a ∧
    Spec.AvgOf ⟨4, 1, 4, 4⟩ 20 (20 / 4) ds' a' := by
  have hb : (⟨4, 1, 4, 4⟩ : Binner).nBin = (4 : ℕ) := by norm_num
  let ds : RDS (ℕ × Unit) :=
    { inst := .vector
      coordSys := .inst
      vars := [⟨"vel", 3, val⟩]
      beam2inst := none
      orientmat := some fun _ => !![0, 1, 0; -1, 0, 0; 0, 0, 1]
      calcOmat := fun _ => .error .unboundLocal
      down := false
      principalHeading := none
      declination := none
      heading := none
      inst2head := none
      inst2headSet := false }
  obtain ⟨a, ha⟩ := avg_exists ⟨4, 1, 4, 4⟩ 4 20 hb (by norm_num) (by norm_num) ds
  have h1 := rotate2_vector_earth ds _ rfl rfl rfl rfl (by simp [ds])
  obtain ⟨a', h2, h3⟩ := avg_rotate_commute ⟨4, 1, 4, 4⟩ 4 20 hb (by norm_num) (by norm_num) le_rfl
    (i := 1) (j := 2) (ds := ds) .inst .earth (by norm_num) (by norm_num) rfl ha h1
  exact ⟨ds, _, a, a', rfl, h1, h2, ha, h3⟩

/-! ### What is lost -/

/-- **C140, fails for beam coordinates.** `do_avg` leaves out the matrix of the beams (it has no time,
see C98), and then the averages cannot be rotated to beam coordinates; for any instrument. -/
theorem avg_to_beam_false (b : Binner) (len k : ℕ) {fuel : ℕ} (hfuel : 3 ≤ fuel)
    {ds : RDS (ℕ × C)} {a : RDS (Fin k × C)} (h : Spec.AvgOf b len k ds a)
    (hbm : a.beam2inst = none) (hu : ds.inst ≠ .unknown) (hf : ds.coordSys = .inst) :
    rotate2 fuel .beam a = some (.error .keyError) := by
  have hca : checkInst2head a = .ok false := by
    unfold checkInst2head
    rw [h.head]
  rw [rotate2_eq (i := 1) (j := 0) fuel a (by rw [h.frame, hf]; exact .inst) .beam hfuel
    (by rw [h.inst]; exact hu) hca, show steps 1 0 = [(0, true)] by decide]
  have hbb : beam2instBase true a = .error .keyError := by
    unfold beam2instBase
    rw [h.frame, hf, hbm]
    simp
    rfl
  have : beam2inst true a = .error .keyError := by
    unfold beam2inst
    cases a.inst with
    | vector =>
      have hh : rotateInst2head true a = .ok a := by
        unfold rotateInst2head
        rw [hca, h.head]
      simp only [hh, if_true, bind, Except.bind]
      exact hbb
    | _ => exact hbb
  simp only [List.foldlM_cons, oneStep, this, bind, Except.bind]

/-- Vector turning by 180° between the two samples of a bin, in a steady flow to the east. -/
noncomputable def exTurn : RDS (ℕ × Unit) where
  inst := .vector
  coordSys := .inst
  vars := [⟨"vel", 3, fun t i => if i = 0 then (if t.1 = 0 then 1 else -1) else 0⟩]
  beam2inst := none
  orientmat := some fun t => if t.1 = 0 then 1 else !![-1, 0, 0; 0, -1, 0; 0, 0, 1]
  calcOmat := fun _ => .error .unboundLocal
  down := false
  principalHeading := none
  declination := none
  heading := none
  inst2head := none
  inst2headSet := false

/-- Its average. -/
noncomputable def exTurnAvg : RDS (Fin (2 / 2) × Unit) :=
  { inst := .vector
    coordSys := .inst
    vars := [⟨"vel", 3, fun _ _ => 0⟩]
    beam2inst := none
    orientmat := some fun _ => !![0, 0, 0; 0, 0, 0; 0, 0, 1]
    calcOmat := fun _ => .error .unboundLocal
    down := false
    principalHeading := none
    declination := none
    heading := none
    inst2head := none
    inst2headSet := false }

/-- **C140, needs the instrument to be still.** For an instrument that turns within a bin the
rotated average is not the average of the rotated data: here a steady flow of 1 m/s becomes 0. -/
theorem avg_rotate_moving_false : ∃ (b : Binner) (ds ds' : RDS (ℕ × Unit))
    (a a' : RDS (Fin (2 / 2) × Unit)), Spec.AvgOf b 2 (2 / 2) ds a ∧
      rotate2 3 .earth ds = some (.ok ds') ∧ rotate2 3 .earth a = some (.ok a') ∧
      ¬ Spec.AvgOf b 2 (2 / 2) ds' a' ∧
      (∀ v ∈ ds'.vars, ∀ t, v.val t 0 = 1) ∧ ∀ v ∈ a'.vars, ∀ t, v.val t 0 = 0 := by
  have hb : (⟨2, 1, 2, 2⟩ : Binner).nBin = (2 : ℕ) := by norm_num
  have h1 := rotate2_vector_earth exTurn _ rfl rfl rfl rfl (by simp [exTurn])
  have h2 := rotate2_vector_earth exTurnAvg _ rfl rfl rfl rfl (by simp [exTurnAvg])
  have e1 : ∀ v ∈ exTurn.vars.map (fun v => v.rot fun t =>
      (if t.1 = 0 then 1 else !![-1, 0, 0; 0, -1, 0; 0, 0, 1] : M3).transpose),
      ∀ t, v.val t 0 = 1 := by
    intro v hv t
    simp only [exTurn, List.map_cons, List.map_nil, List.mem_singleton] at hv
    subst hv
    simp only [RVar.rot, applyM]
    by_cases ht : t.1 = 0 <;> simp [ht]
  have e2 : ∀ v ∈ exTurnAvg.vars.map (fun v => v.rot fun _ =>
      (!![0, 0, 0; 0, 0, 0; 0, 0, 1] : M3).transpose), ∀ t, v.val t 0 = 0 := by
    intro v hv t
    simp only [exTurnAvg, List.map_cons, List.map_nil, List.mem_singleton] at hv
    subst hv
    simp [RVar.rot, applyM]
  refine ⟨⟨2, 1, 2, 2⟩, exTurn, _, exTurnAvg, _, ?_, h1, h2, ?_, e1, e2⟩
  · refine ⟨rfl, rfl, rfl, rfl, rfl, ?_, ?_⟩
    · intro m hm
      cases hm
      refine ⟨_, rfl, fun c i j => ?_⟩
      rw [binMeans_iff _ 2 2 hb (by norm_num) le_rfl]
      intro q
      have hq : q.val = 0 := by have := q.isLt; omega
      rw [hq]
      fin_cases i <;> fin_cases j <;> simp [Finset.sum_range_succ]
    · refine .cons ⟨rfl, rfl, fun c i _ => ?_⟩ .nil
      rw [binMeans_iff _ 2 2 hb (by norm_num) le_rfl]
      intro q
      have hq : q.val = 0 := by have := q.isLt; omega
      rw [hq]
      by_cases hi : i = 0 <;> simp [Finset.sum_range_succ, hi]
  · intro h
    have hv := h.vars
    have hx := (List.forall₂_cons.mp hv).1
    have := (binMeans_iff _ 2 2 hb (by norm_num) le_rfl _ _).mp (hx.val () 0 (by simp)) ⟨0, by norm_num⟩
    have f1 := e1 _ (List.mem_map.mpr ⟨_, List.mem_singleton.mpr rfl, rfl⟩)
    have f2 := e2 _ (List.mem_map.mpr ⟨_, List.mem_singleton.mpr rfl, rfl⟩)
    rw [f2] at this
    simp only [f1] at this
    norm_num at this

end Dolfyn
