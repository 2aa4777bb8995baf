import Verif.Lemmas.IoBase

/-!
Saving and loading complex variables (C55).
-/

namespace Dolfyn

variable {T : Type}

/-- What a variable becomes by saving and loading: float64 is stored as float32, everything else is
unchanged. -/
noncomputable def Spec.stored (r32 : ℝ → ℝ) : Arr T → Arr T
  | .f64 x => .f32 fun t => r32 (x t)
  | a => a

/-- Names of the complex variables, in order. -/
def Spec.complexNames (ds : Vars T) : List String :=
  (ds.filter fun p => match p.2 with | .cplx _ => true | _ => false).map Prod.fst

def isC (g : String → Option (Arr T)) (k : String) : Bool :=
  match g k with
  | some (.cplx _) => true
  | _ => false

theorem isC_iff (g : String → Option (Arr T)) (k : String) :
    isC g k = true ↔ ∃ z, g k = some (.cplx z) := by
  unfold isC
  split
  · rename_i z h; simp [h]
  · rename_i h
    simp only [Bool.false_eq_true, false_iff, not_exists]
    exact fun z hz => h z hz

/-- What `save` leaves under a name it has visited. -/
noncomputable def savedAt (r32 : ℝ → ℝ) : Option (Arr T) → Option (Arr T)
  | some (.cplx _) => none
  | some (.f64 x) => some (.f32 fun t => r32 (x t))
  | o => o

theorem save_fold (r32 : ℝ → ℝ) (ds : Vars T) (P : List String) (hP : P.Nodup)
    (hfresh : ∀ c ∈ P, isC ds.get c = true →
      ∀ p ∈ P, p ≠ c ++ "_real" ∧ p ≠ c ++ "_imag") :
    let s := P.foldl (saveStep r32) (ds, [])
    (∀ k ∈ P, s.1.get k = savedAt r32 (ds.get k)) ∧
    (∀ k ∉ P, (∀ c ∈ P, isC ds.get c = true → k ≠ c ++ "_real" ∧ k ≠ c ++ "_imag") →
      s.1.get k = ds.get k) ∧
    (∀ c ∈ P, ∀ z, ds.get c = some (.cplx z) →
      s.1.get (c ++ "_real") = some (.f64 fun t => (z t).re) ∧
      s.1.get (c ++ "_imag") = some (.f64 fun t => (z t).im)) ∧
    s.2 = P.filter (isC ds.get) := by
  induction P using List.reverseRecOn with
  | nil => simp
  | append_singleton P v ih =>
    have hnd := List.nodup_append.mp hP
    have hvP : v ∉ P := fun h => hnd.2.2 v h v (by simp) rfl
    obtain ⟨i1, i2, i3, i4⟩ := ih hnd.1 (fun c hc hz p hp =>
      hfresh c (by simp [hc]) hz p (by simp [hp]))
    intro s
    have hs : s = saveStep r32 (P.foldl (saveStep r32) (ds, [])) v := by
      show (P ++ [v]).foldl _ _ = _
      rw [List.foldl_append]
      rfl
    set s0 := P.foldl (saveStep r32) (ds, []) with hs0
    have hv0 : s0.1.get v = ds.get v := by
      apply i2 v hvP
      intro c hc hz
      exact hfresh c (by simp [hc]) hz v (by simp)
    unfold saveStep at hs
    rw [hv0] at hs
    -- `v` complex, float64 or other
    rcases hv : ds.get v with _ | (x | x | z)
    · -- missing name
      rw [hv] at hs
      simp only at hs
      have hc : isC ds.get v = false := by unfold isC; rw [hv]
      refine ⟨?_, ?_, ?_, ?_⟩
      · intro k hk
        rcases List.mem_append.mp hk with hk | hk
        · rw [hs]; exact i1 k hk
        · obtain rfl : k = v := by simpa using hk
          rw [hs, hv0, hv]; rfl
      · intro k hk hd
        rw [hs]
        exact i2 k (fun h => hk (by simp [h])) (fun c hc => hd c (by simp [hc]))
      · intro c hcm z hz
        rcases List.mem_append.mp hcm with h | h
        · rw [hs]; exact i3 c h z hz
        · obtain rfl : c = v := by simpa using h
          rw [hv] at hz; cases hz
      · rw [hs, i4, List.filter_append]; simp [hc]
    · -- float64
      rw [hv] at hs
      simp only at hs
      have hc : isC ds.get v = false := by unfold isC; rw [hv]
      have hg : ∀ k, s.1.get k =
          if k = v then some (.f32 fun t => r32 (x t)) else s0.1.get k := by
        intro k; rw [hs]; exact vars_get_set _ _ _ _
      refine ⟨?_, ?_, ?_, ?_⟩
      · intro k hk
        rw [hg]
        rcases List.mem_append.mp hk with hk | hk
        · rw [if_neg (fun e : k = v => hvP (e ▸ hk))]; exact i1 k hk
        · obtain rfl : k = v := by simpa using hk
          rw [if_pos rfl, hv]; rfl
      · intro k hk hd
        rw [hg, if_neg (fun e => hk (by simp [e]))]
        exact i2 k (fun h => hk (by simp [h])) (fun c hc => hd c (by simp [hc]))
      · intro c hcm z hz
        rcases List.mem_append.mp hcm with h | h
        · have := hfresh c hcm ((isC_iff _ _).mpr ⟨z, hz⟩) v (by simp)
          rw [hg, hg, if_neg (fun e => this.1 e.symm), if_neg (fun e => this.2 e.symm)]
          exact i3 c h z hz
        · obtain rfl : c = v := by simpa using h
          rw [hv] at hz; cases hz
      · rw [hs, List.filter_append]; simp [hc, i4]
    · -- other kinds
      rw [hv] at hs
      simp only at hs
      have hc : isC ds.get v = false := by unfold isC; rw [hv]
      refine ⟨?_, ?_, ?_, ?_⟩
      · intro k hk
        rcases List.mem_append.mp hk with hk | hk
        · rw [hs]; exact i1 k hk
        · obtain rfl : k = v := by simpa using hk
          rw [hs, hv0, hv]; rfl
      · intro k hk hd
        rw [hs]
        exact i2 k (fun h => hk (by simp [h])) (fun c hc => hd c (by simp [hc]))
      · intro c hcm z hz
        rcases List.mem_append.mp hcm with h | h
        · rw [hs]; exact i3 c h z hz
        · obtain rfl : c = v := by simpa using h
          rw [hv] at hz; cases hz
      · rw [hs, i4, List.filter_append]; simp [hc]
    · -- complex
      rw [hv] at hs
      simp only at hs
      have hc : isC ds.get v = true := (isC_iff _ _).mpr ⟨z, hv⟩
      have hg : ∀ k, s.1.get k =
          if k = v then none
          else if k = v ++ "_imag" then some (.f64 fun t => (z t).im)
          else if k = v ++ "_real" then some (.f64 fun t => (z t).re) else s0.1.get k := by
        intro k
        rw [hs]
        simp only [vars_get_drop, vars_get_set]
      refine ⟨?_, ?_, ?_, ?_⟩
      · intro k hk
        have hf := hfresh v (by simp) hc k hk
        rw [hg]
        rcases List.mem_append.mp hk with hk | hk
        · rw [if_neg (fun e : k = v => hvP (e ▸ hk)), if_neg hf.2, if_neg hf.1]; exact i1 k hk
        · obtain rfl : k = v := by simpa using hk
          rw [if_pos rfl, hv]; rfl
      · intro k hk hd
        have hf := hd v (by simp) hc
        rw [hg, if_neg (fun e => hk (by simp [e])), if_neg hf.2, if_neg hf.1]
        exact i2 k (fun h => hk (by simp [h])) (fun c hc => hd c (by simp [hc]))
      · intro c hcm z' hz
        have hf := hfresh c hcm ((isC_iff _ _).mpr ⟨z', hz⟩) v (by simp)
        rcases List.mem_append.mp hcm with h | h
        · have hcv : c ≠ v := fun e => hvP (e ▸ h)
          rw [hg, hg, if_neg (fun e => hf.1 e.symm), if_neg (real_ne_imag _ _),
            if_neg (fun e => hcv (suffix_inj _ _ _ e)), if_neg (fun e => hf.2 e.symm),
            if_neg (fun e => hcv (suffix_inj _ _ _ e)),
            if_neg (fun e => real_ne_imag _ _ e.symm)]
          exact i3 c h z' hz
        · obtain rfl : c = v := by simpa using h
          rw [hv] at hz
          cases hz
          rw [hg, hg, if_neg (fun e => hf.1 e.symm), if_neg (real_ne_imag _ _), if_pos rfl,
            if_neg (fun e => hf.2 e.symm), if_pos rfl]
          exact ⟨rfl, rfl⟩
      · rw [hs, List.filter_append]; simp [hc, i4]

theorem load_fold (f : Vars T) (Z : String → T → ℂ) (C : List String) (hC : C.Nodup)
    (hd : ∀ c ∈ C, ∀ p ∈ C, p ≠ c ++ "_real" ∧ p ≠ c ++ "_imag")
    (hr : ∀ c ∈ C, f.get (c ++ "_real") = some (.f64 fun t => (Z c t).re))
    (hi : ∀ c ∈ C, f.get (c ++ "_imag") = some (.f64 fun t => (Z c t).im)) :
    ∃ g, C.foldlM loadStep f = .ok g ∧
      (∀ c ∈ C, g.get c = some (.cplx (Z c)) ∧ g.get (c ++ "_real") = none ∧
        g.get (c ++ "_imag") = none) ∧
      (∀ k ∉ C, (∀ c ∈ C, k ≠ c ++ "_real" ∧ k ≠ c ++ "_imag") → g.get k = f.get k) := by
  induction C using List.reverseRecOn with
  | nil => exact ⟨f, rfl, by simp, by simp⟩
  | append_singleton C v ih =>
    have hnd := List.nodup_append.mp hC
    have hvC : v ∉ C := fun h => hnd.2.2 v h v (by simp) rfl
    obtain ⟨g, hg, h1, h2⟩ := ih hnd.1 (fun c hc p hp => hd c (by simp [hc]) p (by simp [hp]))
      (fun c hc => hr c (by simp [hc])) (fun c hc => hi c (by simp [hc]))
    have hself := hd v (by simp) v (by simp)
    have gr : g.get (v ++ "_real") = some (.f64 fun t => (Z v t).re) := by
      rw [h2, hr v (by simp)]
      · intro h; exact (hd v (by simp) _ (by simp [h])).1 rfl
      · intro c hc
        exact ⟨fun e => hvC (suffix_inj _ _ _ e ▸ hc), real_ne_imag _ _⟩
    have gi : g.get (v ++ "_imag") = some (.f64 fun t => (Z v t).im) := by
      rw [h2, hi v (by simp)]
      · intro h; exact (hd v (by simp) _ (by simp [h])).2 rfl
      · intro c hc
        exact ⟨fun e => real_ne_imag _ _ e.symm, fun e => hvC (suffix_inj _ _ _ e ▸ hc)⟩
    have hz : (fun t => ((Arr.f64 fun t => (Z v t).re) : Arr T).toC t +
        ((Arr.f64 fun t => (Z v t).im) : Arr T).toC t * Complex.I) = Z v := by
      funext t
      exact Complex.re_add_im (Z v t)
    have hstep : loadStep g v = .ok (((g.set v (.cplx (Z v))).drop (v ++ "_real")).drop
        (v ++ "_imag")) := by
      unfold loadStep
      rw [gr, gi]
      simp only [hz]
    refine ⟨((g.set v (.cplx (Z v))).drop (v ++ "_real")).drop (v ++ "_imag"), ?_, ?_, ?_⟩
    · rw [List.foldlM_append, hg]
      show List.foldlM loadStep g [v] = _
      rw [List.foldlM_cons, hstep]
      rfl
    · intro c hc
      simp only [vars_get_drop, vars_get_set]
      rcases List.mem_append.mp hc with h | h
      · have hcv : c ≠ v := fun e => hvC (e ▸ h)
        have a := hd v (by simp) c hc
        have b := hd c hc v (by simp)
        rw [if_neg a.2, if_neg a.1, if_neg hcv]
        refine ⟨(h1 c h).1, ?_, ?_⟩
        · rw [if_neg (real_ne_imag _ _), if_neg (fun e => hcv (suffix_inj _ _ _ e)),
            if_neg (fun e => b.1 e.symm)]
          exact (h1 c h).2.1
        · rw [if_neg (fun e => hcv (suffix_inj _ _ _ e)),
            if_neg (fun e => real_ne_imag _ _ e.symm), if_neg (fun e => b.2 e.symm)]
          exact (h1 c h).2.2
      · obtain rfl : c = v := by simpa using h
        rw [if_neg hself.2, if_neg hself.1, if_pos rfl]
        refine ⟨rfl, ?_, ?_⟩
        · rw [if_neg (real_ne_imag _ _), if_pos rfl]
        · rw [if_pos rfl]
    · intro k hk hn
      simp only [vars_get_drop, vars_get_set]
      have a := hn v (by simp)
      rw [if_neg a.2, if_neg a.1, if_neg (fun e => hk (by simp [e]))]
      exact h2 k (fun h => hk (by simp [h])) (fun c hc => hn c (by simp [hc]))

theorem get_mem (ds : Vars T) (hnd : (ds.map Prod.fst).Nodup) (k : String) (a : Arr T) :
    ds.get k = some a ↔ (k, a) ∈ ds := by
  unfold Vars.get
  induction ds with
  | nil => simp
  | cons p l ih =>
    simp only [List.map_cons, List.nodup_cons] at hnd
    by_cases hp : p.1 = k
    · subst hp
      have : ∀ b, (p.1, b) ∉ l := fun b hb => hnd.1 (List.mem_map.mpr ⟨_, hb, rfl⟩)
      simp only [List.find?_cons, decide_true, Option.map_some, Option.some.injEq, List.mem_cons]
      constructor
      · rintro rfl; exact .inl rfl
      · rintro (h | h)
        · rw [← h]
        · exact absurd h (this _)
    · have hp' : ¬ (k, a) = p := fun e => hp (by rw [← e])
      simp [hp, hp', ih hnd.2]

theorem names_filter (ds : Vars T) (hnd : (ds.map Prod.fst).Nodup) :
    (ds.map Prod.fst).filter (isC ds.get) = Spec.complexNames ds := by
  unfold Spec.complexNames
  rw [List.filter_map]
  congr 1
  apply List.filter_congr
  intro p hp
  have : ds.get p.1 = some p.2 := (get_mem ds hnd _ _).mpr hp
  simp only [Function.comp, isC, this]
  rcases p with ⟨k, _ | _ | _⟩ <;> rfl

/-- No complex variable `c` has a neighbour named `c_real` or `c_imag`. -/
def Spec.NoClash (ds : Vars T) : Prop :=
  ∀ c ∈ Spec.complexNames ds, ∀ p ∈ ds.map Prod.fst, p ≠ c ++ "_real" ∧ p ≠ c ++ "_imag"

/-- **C55 (partial).** Saving and loading gives back every variable under its name — complex variables
with the same real and imaginary parts, float64 variables rounded to float32 — and no other name,
unless the first of two or more complex variables has a one-letter name, or a variable has the name of
one of the parts. -/
theorem complex_roundtrip_partial (r32 : ℝ → ℝ) (ds : Vars T) (hnd : (ds.map Prod.fst).Nodup)
    (hne : ∀ k ∈ ds.map Prod.fst, k ≠ "") (hclash : Spec.NoClash ds)
    (hone : ∀ a b l, Spec.complexNames ds = a :: b :: l → a.length ≠ 1) :
    ∃ ds', loadNc (saveNc r32 ds) = .ok ds' ∧
      ∀ k, ds'.get k = (ds.get k).map (Spec.stored r32) := by
  have hcn := names_filter ds hnd
  have hmem : ∀ c, c ∈ Spec.complexNames ds ↔ c ∈ ds.map Prod.fst ∧ isC ds.get c = true := by
    intro c; rw [← hcn, List.mem_filter]
  obtain ⟨s1, s2, s3, s4⟩ := save_fold r32 ds (ds.map Prod.fst) hnd (fun c hc hz p hp =>
    hclash c ((hmem c).mpr ⟨hc, hz⟩) p hp)
  set s := (ds.map Prod.fst).foldl (saveStep r32) (ds, []) with hs
  rw [hcn] at s4
  have hCnd : (Spec.complexNames ds).Nodup := by rw [← hcn]; exact hnd.filter _
  let Z : String → T → ℂ := fun c => match ds.get c with | some (.cplx z) => z | _ => fun _ => 0
  have hZ : ∀ c ∈ Spec.complexNames ds, ds.get c = some (.cplx (Z c)) := by
    intro c hc
    obtain ⟨z, hz⟩ := (isC_iff _ _).mp ((hmem c).mp hc).2
    have : Z c = z := by simp only [Z, hz]
    rw [this, hz]
  obtain ⟨g, hg, g1, g2⟩ := load_fold s.1 Z (Spec.complexNames ds) hCnd
    (fun c hc p hp => hclash c hc p ((hmem p).mp hp).1)
    (fun c hc => (s3 c ((hmem c).mp hc).1 _ (hZ c hc)).1)
    (fun c hc => (s3 c ((hmem c).mp hc).1 _ (hZ c hc)).2)
  have hfin : ∀ k, g.get k = (ds.get k).map (Spec.stored r32) := by
    intro k
    by_cases hk : k ∈ Spec.complexNames ds
    · rw [(g1 k hk).1, hZ k hk]; rfl
    · by_cases hd : ∃ c ∈ Spec.complexNames ds, k = c ++ "_real" ∨ k = c ++ "_imag"
      · obtain ⟨c, hc, he⟩ := hd
        have hnone : ds.get k = none := by
          rcases h : ds.get k with _ | a
          · rfl
          · have : k ∈ ds.map Prod.fst := (vars_get_isSome ds k).mp (by rw [h]; rfl)
            rcases he with e | e
            · exact absurd e (hclash c hc k this).1
            · exact absurd e (hclash c hc k this).2
        rw [hnone]
        rcases he with rfl | rfl
        · exact (g1 c hc).2.1
        · exact (g1 c hc).2.2
      · push Not at hd
        rw [g2 k hk hd]
        by_cases hkm : k ∈ ds.map Prod.fst
        · rw [s1 k hkm]
          have hnc : isC ds.get k = false := by
            by_contra h
            exact hk ((hmem k).mpr ⟨hkm, by simpa using h⟩)
          rcases h : ds.get k with _ | (x | x | z)
          · rfl
          · rfl
          · rfl
          · have := (isC_iff ds.get k).mpr ⟨z, h⟩
            rw [this] at hnc
            cases hnc
        · rw [s2 k hkm (fun c hc hz => hd c ((hmem c).mpr ⟨hc, hz⟩))]
          have : ds.get k = none := by
            rcases h : ds.get k with _ | a
            · rfl
            · exact absurd ((vars_get_isSome ds k).mp (by rw [h]; rfl)) hkm
          rw [this]; rfl
  refine ⟨g, ?_, hfin⟩
  unfold saveNc loadNc
  simp only [← hs, s4]
  rcases hC : Spec.complexNames ds with _ | ⟨a, _ | ⟨b, l⟩⟩
  · rw [hC] at hg
    exact hg
  · rw [hC] at hg
    have ha : a ≠ "" := hne a ((hmem a).mp (by rw [hC]; simp)).1
    have hal : a.length ≠ 0 := fun h => ha (by
      have := String.length_toList (s := a)
      rw [h] at this
      exact String.toList_inj.mp (by simpa using this))
    show (if a.length = 0 then _ else _) = _
    rw [if_neg hal]
    rw [List.foldlM_cons] at hg
    rcases h : loadStep s.1 a with e | x
    · rw [h] at hg; cases hg
    · rw [h] at hg; exact hg
  · rw [hC] at hg
    show (if a.length = 1 then _ else _) = _
    rw [if_neg (hone a b l hC)]
    exact hg

/-- **C55 is false of the code**: with two or more complex variables the first of which has a one-letter
name, loading the saved file raises TypeError. -/
theorem complex_roundtrip_fails (r32 : ℝ → ℝ) (ds : Vars T) (hnd : (ds.map Prod.fst).Nodup)
    (hclash : Spec.NoClash ds) (a b : String) (l : List String)
    (hC : Spec.complexNames ds = a :: b :: l) (ha : a.length = 1) :
    loadNc (saveNc r32 ds) = .error .typeError := by
  have hcn := names_filter ds hnd
  have hmem : ∀ c, c ∈ Spec.complexNames ds ↔ c ∈ ds.map Prod.fst ∧ isC ds.get c = true := by
    intro c; rw [← hcn, List.mem_filter]
  obtain ⟨-, -, -, s4⟩ := save_fold r32 ds (ds.map Prod.fst) hnd (fun c hc hz p hp =>
    hclash c ((hmem c).mpr ⟨hc, hz⟩) p hp)
  rw [hcn, hC] at s4
  unfold saveNc loadNc
  simp only [s4]
  show (if a.length = 1 then _ else _) = _
  rw [if_pos ha]

/-- The hypotheses of both theorems are met. -/
example (z : T → ℂ) (x : T → ℝ) :
    Spec.complexNames [("u", .cplx z), ("w", .f64 x), ("v", .cplx z)] = ["u", "v"] ∧
    Spec.complexNames [("acc", .cplx z), ("w", .f64 x), ("v", .cplx z)] = ["acc", "v"] ∧
    Spec.NoClash [("u", .cplx z), ("w", .f64 x), ("v", .cplx z)] ∧
    Spec.NoClash [("acc", .cplx z), ("w", .f64 x), ("v", .cplx z)] := by
  refine ⟨rfl, rfl, ?_, ?_⟩
  · have h : Spec.complexNames [("u", Arr.cplx z), ("w", .f64 x), ("v", .cplx z)] = ["u", "v"] := rfl
    unfold Spec.NoClash
    rw [h]
    show ∀ c ∈ ["u", "v"], ∀ p ∈ ["u", "w", "v"], p ≠ c ++ "_real" ∧ p ≠ c ++ "_imag"
    decide
  · have h : Spec.complexNames [("acc", Arr.cplx z), ("w", .f64 x), ("v", .cplx z)] = ["acc", "v"] :=
      rfl
    unfold Spec.NoClash
    rw [h]
    show ∀ c ∈ ["acc", "v"], ∀ p ∈ ["acc", "w", "v"], p ≠ c ++ "_real" ∧ p ≠ c ++ "_imag"
    decide

/-- A variable named like a part is lost: after saving and loading `u` (complex) and `u_real`, the latter
is gone. -/
theorem clash_loses (r32 : ℝ → ℝ) (z : T → ℂ) (x : T → ℝ) :
    ∃ ds', loadNc (saveNc r32 [("u", .cplx z), ("u_real", .f32 x)]) = .ok ds' ∧
      ds'.get "u_real" = none := by
  let ds : Vars T := [("u", .cplx z), ("u_real", .f32 x)]
  have hs : (ds.map Prod.fst).foldl (saveStep r32) (ds, []) =
      ([("u_real", .f32 fun t => r32 (z t).re), ("u_imag", .f64 fun t => (z t).im)], ["u"]) := rfl
  have hl : loadNc (saveNc r32 ds) =
      loadStep [("u_real", .f32 fun t => r32 (z t).re), ("u_imag", .f64 fun t => (z t).im)] "u" := by
    unfold saveNc
    rw [hs]
    rfl
  refine ⟨[("u", _)], hl.trans rfl, rfl⟩

end Dolfyn
