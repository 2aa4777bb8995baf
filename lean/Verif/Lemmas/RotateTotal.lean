import Verif.Lemmas.RotatePath

/-! A complete, well-formed dataset can be rotated to every frame; single steps preserve lengths. -/

namespace Dolfyn

open Spec

variable {T : Type}

theorem mapM_total {α β : Type} (f : α → Except Err β) (l : List α)
    (h : ∀ a ∈ l, ∃ b, f a = .ok b) : ∃ l', l.mapM f = .ok l' := by
  induction l with
  | nil => exact ⟨[], rfl⟩
  | cons a l ih =>
    obtain ⟨b, hb⟩ := h a (by simp)
    obtain ⟨l', hl⟩ := ih (fun x hx => h x (by simp [hx]))
    refine ⟨b :: l', ?_⟩
    rw [List.mapM_cons, hb, hl]; rfl

theorem mapM_forall₂ {α β : Type} {f : α → Except Err β} {l : List α} {l' : List β}
    (h : l.mapM f = .ok l') : List.Forall₂ (fun a b => f a = .ok b) l l' := by
  induction l generalizing l' with
  | nil => simp only [List.mapM_nil] at h; cases h; exact .nil
  | cons a l ih =>
    simp only [List.mapM_cons, bind, Except.bind] at h
    split at h
    · cases h
    · rename_i b hb
      split at h
      · cases h
      · rename_i bs hbs
        cases h
        exact .cons hb (ih hbs)

/-- Which variable sizes survive: rotation keeps names and sizes, in order. -/
theorem foldlM_shapes_beam {r : Bool} {ds ds' : RDS T} (h : beam2inst r ds = .ok ds') :
    List.Forall₂ (fun v v' => v'.n = v.n ∧ v'.name = v.name) ds.vars ds'.vars := by
  have hB : ∀ {r : Bool} {a b : RDS T}, beam2instBase r a = .ok b →
      List.Forall₂ (fun v v' => v'.n = v.n ∧ v'.name = v.name) a.vars b.vars := by
    intro r a b hab
    obtain ⟨hc, B, _, _, rfl⟩ := beam2instBase_cases hab
    simp only [List.forall₂_map_right_iff, List.forall₂_same]
    intro v _
    split_ifs <;> exact ⟨rfl, rfl⟩
  have hI : ∀ {r : Bool} {a b : RDS T}, rotateInst2head r a = .ok b →
      List.Forall₂ (fun v v' => v'.n = v.n ∧ v'.name = v.name) a.vars b.vars := by
    intro r a b hab
    rcases rotateInst2head_cases hab with ⟨_, rfl⟩ | ⟨R, _, _, _, vs, hvs, rfl⟩
    · rw [List.forall₂_same]; intros; exact ⟨rfl, rfl⟩
    · refine (mapM_forall₂ hvs).imp ?_
      intro v v' h
      split_ifs at h with h1 h2 <;> simp only [Except.ok.injEq, reduceCtorEq] at h <;> subst h <;>
        constructor <;> rfl
  have tr : ∀ {a b c : List (RVar T)},
      List.Forall₂ (fun v v' => v'.n = v.n ∧ v'.name = v.name) a b →
      List.Forall₂ (fun v v' => v'.n = v.n ∧ v'.name = v.name) b c →
      List.Forall₂ (fun v v' => v'.n = v.n ∧ v'.name = v.name) a c := by
    intro a b c h1 h2
    induction h1 generalizing c with
    | nil => cases h2; exact .nil
    | cons h _ ih =>
      cases h2 with
      | cons h' t' => exact .cons ⟨by rw [h'.1, h.1], by rw [h'.2, h.2]⟩ (ih t')
  unfold beam2inst at h
  split at h
  · cases r
    · simp only [Bool.false_eq_true, if_false, bind, Except.bind] at h
      split at h
      · cases h
      · rename_i d hd; exact tr (hB hd) (hI h)
    · simp only [if_true, bind, Except.bind] at h
      split at h
      · cases h
      · rename_i d hd; exact tr (hI hd) (hB h)
  · exact hB h

/-- The per-variable action of `_inst2earth`. -/
noncomputable def i2eVar (inst : Inst) (r down : Bool) (m : T → M3) (v : RVar T) :
    Except Err (RVar T) :=
  match inst with
  | .vector | .awac => if v.n ≠ 3 then .error .exception
      else .ok (v.rot fun t => if r then m t else (m t).transpose)
  | .signature => if v.n = 3 then .ok (v.rot fun t => sigMat3 r down (m t))
      else if v.n = 4 then .ok (v.rot fun t => sigMat4 r down (m t))
      else .error .exception
  | .rdi => if v.n < 3 then .error .valueError
      else .ok (v.rot fun t => if r then m t else (m t).transpose)
  | .unknown => .error .valueError

/-- `_inst2earth` of any instrument: frame check, matrix, then each variable. -/
theorem inst2earth_iff {r : Bool} {ds ds' : RDS T} :
    inst2earth r ds = .ok ds' ↔
      ds.inst ≠ .unknown ∧
      (ds.coordSys = (if r then .earth else .inst) ∨
        (ds.inst = .rdi ∧ r = false ∧ ds.coordSys = .ship)) ∧
      ∃ m, effOmat ds = .ok m ∧
      (ds.inst = .signature → r = true → ∀ t, (ext4 (m t).transpose).det ≠ 0) ∧
      ∃ vs, ds.vars.mapM (i2eVar ds.inst r ds.down m) = .ok vs ∧
        ds' = { ds with vars := vs, coordSys := if r then .inst else .earth } := by
  obtain ⟨i, c, vars, bm, om, co, dn, ph, dc, hd, ih, ihs⟩ := ds
  unfold inst2earth
  cases i
  · simp only [inst2earthNortek_iff, ne_eq, reduceCtorEq, not_false_eq_true, false_and, or_false,
      false_implies, true_and]
    rfl
  · simp only [inst2earthNortek_iff, ne_eq, reduceCtorEq, not_false_eq_true, false_and, or_false,
      false_implies, true_and]
    rfl
  · simp only [inst2earthSig_iff, ne_eq, reduceCtorEq, not_false_eq_true, false_and, or_false,
      true_implies, true_and]
    rfl
  · simp only [inst2earthRdi_iff, ne_eq, reduceCtorEq, not_false_eq_true, false_implies, true_and]
    have : (if r = true then c = Frame.earth
        else c = Frame.inst ∨ c = Frame.ship) ↔
        (c = (if r = true then Frame.earth else Frame.inst) ∨
          r = false ∧ c = Frame.ship) := by
      cases r <;> simp
    rw [this]; rfl
  · simp

theorem i2eVar_shape {inst : Inst} {r down : Bool} {m : T → M3} {v v' : RVar T}
    (h : i2eVar inst r down m v = .ok v') : v'.n = v.n ∧ v'.name = v.name := by
  unfold i2eVar at h
  split at h <;> (try split_ifs at h) <;> cases h <;> exact ⟨rfl, rfl⟩

theorem oneStep_shapes {k : ℕ} {r : Bool} {ds ds' : RDS T} (h : oneStep ds (k, r) = .ok ds') :
    List.Forall₂ (fun v v' => v'.n = v.n ∧ v'.name = v.name) ds.vars ds'.vars := by
  match k with
  | 0 => exact foldlM_shapes_beam h
  | 1 =>
    obtain ⟨_, _, m, _, _, vs, hvs, rfl⟩ := inst2earth_iff.mp h
    exact (mapM_forall₂ hvs).imp fun v v' hv => i2eVar_shape hv
  | 2 =>
    obtain ⟨ph, _, _, vs, hvs, rfl⟩ := earth2principal_iff.mp h
    refine (mapM_forall₂ hvs).imp ?_
    intro v v' hv
    by_cases h2 : v.n < 2
    · rw [if_pos h2] at hv; cases hv
    · rw [if_neg h2] at hv; cases hv; exact ⟨rfl, rfl⟩
  | k + 3 => cases h

theorem forall₂_mem {α : Type} {R : α → α → Prop} {l l' : List α} (h : List.Forall₂ R l l') :
    ∀ b ∈ l', ∃ a ∈ l, R a b := by
  induction h with
  | nil => simp
  | cons h1 _ ih =>
    intro v' hv'
    rcases List.mem_cons.mp hv' with rfl | hv'
    · exact ⟨_, by simp, h1⟩
    · obtain ⟨v, hv, h2⟩ := ih v' hv'
      exact ⟨v, by simp [hv], h2⟩

theorem Spec.Complete.of_same {ds ds' : RDS T} (hc : Complete ds) (hs : SameFrameInfo ds ds')
    (hsh : List.Forall₂ (fun v v' => v'.n = v.n ∧ v'.name = v.name) ds.vars ds'.vars) :
    Complete ds' := by
  have e2 := congrArg RDS.beam2inst hs
  have e3 := congrArg RDS.orientmat hs
  have e4 := congrArg RDS.calcOmat hs
  have e5 := congrArg RDS.principalHeading hs
  have e6 := congrArg RDS.inst2head hs
  simp only at e2 e3 e4 e5 e6
  have hmem := forall₂_mem hsh
  refine ⟨by rw [hs.inst_eq]; exact hc.known, by rw [hs.head_eq]; exact hc.headCheck,
    by rw [← e2]; exact hc.beam, by rw [← e3, ← e4]; exact hc.omat, by rw [← e5]; exact hc.heading,
    ?_, ?_⟩
  · intro v' hv'
    obtain ⟨v, hv, h1, h2⟩ := hmem v' hv'
    rw [h1, hs.inst_eq]; exact hc.size v hv
  · intro hh v' hv' hn
    obtain ⟨v, hv, h1, h2⟩ := hmem v' hv'
    rw [h1]; exact hc.headVel (by rw [e6]; exact hh) v hv (by rw [← h2]; exact hn)

theorem Spec.Complete.of_step {k : ℕ} {r : Bool} {ds ds' : RDS T} (hc : Complete ds)
    (h : oneStep ds (k, r) = .ok ds') : Complete ds' :=
  hc.of_same (oneStep_frame h).2 (oneStep_shapes h)

theorem rotateInst2head_total {r : Bool} {ds : RDS T} (hc : Complete ds) :
    ∃ ds', rotateInst2head r ds = .ok ds' := by
  obtain ⟨b, hb⟩ := hc.headCheck
  unfold rotateInst2head
  rw [hb]
  cases b with
  | false => exact ⟨ds, by cases ds.inst2head <;> rfl⟩
  | true =>
    cases hh : ds.inst2head with
    | none => exact ⟨ds, rfl⟩
    | some R =>
      simp only
      obtain ⟨vs, hvs⟩ := mapM_total (fun v : RVar T => if v.name = "vel" then
          if v.n = 3 then Except.ok (v.rot fun _ => if r then R.transpose else R)
          else Except.error Err.valueError
        else Except.ok v) ds.vars (by
          intro v hv
          by_cases hn : v.name = "vel"
          · simp only [hn, if_true, hc.headVel (by rw [hh]; simp) v hv hn]; exact ⟨_, rfl⟩
          · simp only [hn, if_false]; exact ⟨_, rfl⟩)
      rw [hvs]
      exact ⟨_, rfl⟩

theorem oneStep_total {k : ℕ} {r : Bool} {ds : RDS T} (hk : k < 3) (hr : Rotatable ds)
    (hc : Complete ds) (hp : Pos ds.coordSys (if r then k + 1 else k)) :
    ∃ ds', oneStep ds (k, r) = .ok ds' := by
  match k with
  | 0 =>
    obtain ⟨B, hB⟩ := hc.beam
    have hf : ds.coordSys = (if r then .inst else .beam) := by
      cases r
      · exact Pos.inj hp .beam
      · exact Pos.inj hp .inst
    have hok := beam2instBase_ok hf hB (hr.beam B hB)
    show ∃ ds', beam2inst r ds = .ok ds'
    unfold beam2inst
    split
    · cases r
      · simp only [Bool.false_eq_true, if_false, bind, Except.bind]
        rw [hok]
        apply rotateInst2head_total
        refine hc.of_same rfl ?_
        simp only [List.forall₂_map_right_iff, List.forall₂_same]
        intro v _
        split_ifs <;> exact ⟨rfl, rfl⟩
      · simp only [if_true, bind, Except.bind]
        obtain ⟨d, hd⟩ := rotateInst2head_total (r := true) hc
        rw [hd]
        obtain ⟨a1, a2, a3⟩ := rotateInst2head_undo true hr hd
        have e2 := congrArg RDS.beam2inst a2
        simp only at e2
        exact ⟨_, beam2instBase_ok (by rw [a3]; exact hf) (by rw [← e2]; exact hB) (hr.beam B hB)⟩
    · exact ⟨_, hok⟩
  | 1 =>
    have hf : ds.coordSys = (if r then .earth else .inst) := by
      cases r
      · exact Pos.inj hp .inst
      · exact Pos.inj hp .earth
    have hm : ∃ m, effOmat ds = .ok m := by
      unfold effOmat
      cases ho : ds.orientmat with
      | some m => exact ⟨m, rfl⟩
      | none =>
        rcases hc.omat with h | ⟨m, h⟩
        · exact absurd ho h
        · exact ⟨m, h _⟩
    obtain ⟨m, hm⟩ := hm
    obtain ⟨vs, hvs⟩ := mapM_total (i2eVar ds.inst r ds.down m) ds.vars (by
      intro v hv
      have := hc.size v hv
      have hk := hc.known
      unfold i2eVar
      cases hi : ds.inst <;> simp [hi] at this hk ⊢
      · simp [this]
      · simp [this]
      · rcases this with h | h <;> simp [h]
      · rcases this with h | h <;> simp [h])
    refine ⟨_, inst2earth_iff.mpr ⟨hc.known, Or.inl hf, m, hm, ?_, vs, hvs, rfl⟩⟩
    intro hs _ t
    have ho := hr.omat m (effOmat_uses hm)
    rw [ext4_det, Matrix.det_transpose, Matrix.transpose_apply]
    exact mul_ne_zero (hr.tilt hs m (effOmat_uses hm) t) (orth_det_ne (ho t))
  | 2 =>
    have hf : ds.coordSys = (if r then .principal else .earth) := by
      cases r
      · exact Pos.inj hp .earth
      · exact Pos.inj hp .principal
    obtain ⟨ph, hph⟩ := Option.ne_none_iff_exists'.mp hc.heading
    obtain ⟨vs, hvs⟩ := mapM_total (fun v : RVar T => if v.n < 2 then Except.error Err.valueError else
          Except.ok (v.rot fun _ => rot2 (if r then deg2rad (90 - ph) else -deg2rad (90 - ph)))) ds.vars (by
      intro v hv
      have : ¬ v.n < 2 := by rcases hc.size v hv with h | h <;> omega
      exact ⟨_, if_neg this⟩)
    exact ⟨_, earth2principal_iff.mpr ⟨ph, hph, hf, vs, hvs, rfl⟩⟩

theorem foldlM_total_fwd (n i : ℕ) {ds : RDS T} (hr : Rotatable ds) (hc : Complete ds)
    (hp : Pos ds.coordSys i) (hn : i + n ≤ 3) :
    ∃ ds', ((List.range' i n).map (·, false)).foldlM oneStep ds = .ok ds' := by
  induction n generalizing i ds with
  | zero => exact ⟨ds, rfl⟩
  | succ n ih =>
    obtain ⟨d, hd⟩ := oneStep_total (r := false) (by omega : i < 3) hr hc hp
    obtain ⟨_, hs⟩ := oneStep_undo hr hp.ne_ship hd
    have hp' := (oneStep_frame hd).1
    obtain ⟨d', hd'⟩ := ih (i + 1) (Rotatable.of_same hs hr) (hc.of_step hd) hp' (by omega)
    refine ⟨d', ?_⟩
    simp only [List.range'_succ, List.map_cons, List.foldlM_cons, hd, bind, Except.bind]
    exact hd'

theorem foldlM_total_bwd (n j : ℕ) {ds : RDS T} (hr : Rotatable ds) (hc : Complete ds)
    (hp : Pos ds.coordSys (j + n)) :
    ∃ ds', ((List.range' j n).reverse.map (·, true)).foldlM oneStep ds = .ok ds' := by
  induction n generalizing ds with
  | zero => exact ⟨ds, rfl⟩
  | succ n ih =>
    have hlt := hp.lt
    obtain ⟨d, hd⟩ := oneStep_total (k := j + n) (r := true) (by omega) hr hc hp
    obtain ⟨_, hs⟩ := oneStep_undo hr hp.ne_ship hd
    have hp' := (oneStep_frame hd).1
    obtain ⟨d', hd'⟩ := ih (Rotatable.of_same hs hr) (hc.of_step hd) hp'
    refine ⟨d', ?_⟩
    rw [List.range'_concat]
    simp only [List.reverse_append, List.reverse_cons, List.reverse_nil, List.nil_append,
      List.cons_append, List.map_cons, List.foldlM_cons, one_mul, hd, bind, Except.bind]
    exact hd'

theorem foldlM_total (i j : ℕ) {ds : RDS T} (hr : Rotatable ds) (hc : Complete ds)
    (hp : Pos ds.coordSys i) (hj : j ≤ 3) :
    ∃ ds', (steps i j).foldlM oneStep ds = .ok ds' := by
  unfold steps
  split_ifs with h
  · exact foldlM_total_fwd (j - i) i hr hc hp (by omega)
  · exact foldlM_total_bwd (i - j) j hr hc (by rw [show j + (i - j) = i by omega]; exact hp)

theorem applyM3_normSq (M : M3) (h : Orthonormal M) (v : ℕ → ℝ) :
    normSq3 (applyM M v) = normSq3 v := by
  have h' : M.transpose * M = 1 := orth_comm h
  have e : ∀ i j, (M.transpose * M) i j = (1 : M3) i j := fun i j => by rw [h']
  have e00 := e 0 0; have e01 := e 0 1; have e02 := e 0 2
  have e11 := e 1 1; have e12 := e 1 2; have e22 := e 2 2
  simp [Matrix.mul_apply, Fin.sum_univ_three] at e00 e01 e02 e11 e12 e22
  simp [normSq3, applyM, Fin.sum_univ_three]
  linear_combination (v 0)^2 * e00 + (v 1)^2 * e11 + (v 2)^2 * e22 + 2 * v 0 * v 1 * e01
    + 2 * v 0 * v 2 * e02 + 2 * v 1 * v 2 * e12

theorem applyM2_normSq (a : ℝ) (v : ℕ → ℝ) :
    normSq2 (applyM (rot2 a) v) = normSq2 v ∧ ∀ i, 2 ≤ i → applyM (rot2 a) v i = v i := by
  constructor
  · have := Real.cos_sq_add_sin_sq a
    simp [normSq2, applyM, rot2, Fin.sum_univ_two]
    linear_combination ((v 0)^2 + (v 1)^2) * this
  · intro i hi
    simp [applyM, Nat.not_lt.mpr hi]

end Dolfyn
