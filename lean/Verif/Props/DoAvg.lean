import Verif.Model.DoAvg
import Verif.Props.BinStats
import Verif.Props.Csd
import Verif.Props.CreateDs

/-!
Properties of ensemble averages and variances of datasets: C98.
-/

namespace Dolfyn

/-- The means of the valid samples of the bins of `n` samples. -/
noncomputable def Spec.binMeans (n len : ℕ) (x : ℕ → Option ℝ) : List (Option ℝ) :=
  (List.range (len / n)).map fun r =>
    let v := (Spec.binSamples x n r).reduceOption
    if v = [] then none else some (v.sum / v.length)

/-- The variances of the valid samples of the bins of `n` samples. -/
noncomputable def Spec.binVars (n len : ℕ) (x : ℕ → Option ℝ) : List (Option ℝ) :=
  (List.range (len / n)).map fun r =>
    let v := (Spec.binSamples x n r).reduceOption
    if v = [] then none else some (Spec.popVar v)

theorem binMean_eq (b : Binner) (n len : ℕ) (x : ℕ → Option ℝ) (hb : b.nBin = n) (hn : 0 < n)
    (hlen : n ≤ len) : binMean b len x none = .ok (Spec.binMeans n len x) := by
  obtain ⟨out, h1, h2, h3⟩ := bin_mean_spec b len x none n (Or.inr ⟨rfl, hb⟩) hn hlen
  rw [h1]
  congr 1
  apply List.ext_getElem?
  intro r
  unfold Spec.binMeans
  by_cases hr : r < len / n
  · rw [h3 r hr, List.getElem?_map, List.getElem?_range hr]; rfl
  · rw [List.getElem?_eq_none (by omega), List.getElem?_eq_none (by simp; omega)]

theorem binVar_eq (b : Binner) (n len : ℕ) (x : ℕ → Option ℝ) (hb : b.nBin = n) (hn : 0 < n)
    (hlen : n ≤ len) : binVar b len x none = .ok (Spec.binVars n len x) := by
  obtain ⟨out, _, h1, _, h2, _, h3⟩ := bin_var_spec b len x none n (Or.inr ⟨rfl, hb⟩) hn hlen
  rw [h1]
  congr 1
  apply List.ext_getElem?
  intro r
  unfold Spec.binVars
  by_cases hr : r < len / n
  · rw [(h3 r hr).1, List.getElem?_map, List.getElem?_range hr]; rfl
  · rw [List.getElem?_eq_none (by omega), List.getElem?_eq_none (by simp; omega)]

theorem binMean_short (b : Binner) (n len : ℕ) (x : ℕ → Option ℝ) (hb : b.nBin = n) (hlen : len < n) :
    binMean b len x none = .error .exception := by
  unfold binMean
  have : parseNbin b none = n := hb
  rw [this, reshape_short _ _ _ _ _ (by exact_mod_cast hlen)]
  rfl

/-- A measured variable: its last dimension is a time axis (not of raw altimeter pings), the others are not,
none is empty, and it is not an ensemble number. -/
def Spec.measured (v : BVar) : Prop :=
  "time".toList <:+: v.last ∧ ¬ "altraw".toList <:+: v.last ∧ ¬ "ensemble".toList <:+: v.name ∧
    ∀ d ∈ v.lead, ¬ "time".toList <:+: d.1 ∧ ¬ "altraw".toList <:+: d.1 ∧ 0 < d.2

/-- The binned variable: same dimensions, the last one with the bin means of the times; for every leading
index the statistic `st` of the bins. -/
noncomputable def Spec.binnedVar (st : ℕ → ℕ → (ℕ → Option ℝ) → List (Option ℝ)) (n : ℕ)
    (times : Key → ℕ → Option ℝ) (suffix : Key) (v : BVar) : OVar :=
  { name := v.name ++ suffix
    dims := v.lead.map Prod.fst ++ [v.last]
    shape := v.lead.map Prod.snd ++ [v.len / n]
    coord := some (Spec.binMeans n v.len (times v.last))
    rows := (List.range (v.lead.map Prod.snd).prod).map fun i => st n v.len (v.val i) }

theorem avgCoord_lead (mean : BinOp) (times : Key → ℕ → Option ℝ) (d : Key × ℕ)
    (h : ¬ "time".toList <:+: d.1) : avgCoord mean times d = .ok (d.2, none) := by
  unfold avgCoord
  rw [keyIn_false h]
  rfl

theorem prod_pos_of_lead (l : List (Key × ℕ)) (h : ∀ d ∈ l, 0 < d.2) : 0 < (l.map Prod.snd).prod := by
  induction l with
  | nil => simp
  | cons a l ih =>
    rw [List.map_cons, List.prod_cons]
    exact Nat.mul_pos (h a (by simp)) (ih fun d hd => h d (by simp [hd]))

theorem not_altraw (v : BVar) (hv : Spec.measured v) :
    ((v.lead ++ [(v.last, v.len)]).any fun d => keyIn "altraw" d.1) = false := by
  rw [List.any_eq_false]
  intro d hd
  rw [Bool.not_eq_true]
  rcases List.mem_append.mp hd with h | h
  · exact keyIn_false (hv.2.2.2 d h).2.1
  · obtain rfl := List.mem_singleton.mp h
    exact keyIn_false hv.2.1

theorem avgVar_measured (st : ℕ → ℕ → (ℕ → Option ℝ) → List (Option ℝ)) (op : BinOp) (b : Binner) (n : ℕ)
    (times : Key → ℕ → Option ℝ) (suffix : Key) (v : BVar) (hv : Spec.measured v) (hb : b.nBin = n)
    (hn : 0 < n) (hlen : n ≤ v.len) (hop : ∀ x, op v.len x = .ok (st n v.len x))
    (hst : ∀ x, (st n v.len x).length = v.len / n) :
    avgVar (fun len x => binMean b len x none) op times suffix v =
      .ok (some (Spec.binnedVar st n times suffix v)) := by
  obtain ⟨h1, h2, h3, h4⟩ := hv
  unfold avgVar
  simp only
  rw [not_altraw v ⟨h1, h2, h3, h4⟩]
  simp only [Bool.false_eq_true, if_false]
  have hcs : (v.lead ++ [(v.last, v.len)]).mapM (avgCoord (fun len x => binMean b len x none) times) =
      .ok (v.lead.map (fun d => (d.2, (none : Option (List (Option ℝ))))) ++
        [(v.len / n, some (Spec.binMeans n v.len (times v.last)))]) := by
    have hl : avgCoord (fun len x => binMean b len x none) times (v.last, v.len) =
        .ok (v.len / n, some (Spec.binMeans n v.len (times v.last))) := by
      unfold avgCoord
      rw [keyIn_true h1]
      simp only [if_true]
      rw [binMean_eq b n v.len _ hb hn hlen]
      simp [Spec.binMeans]
    have := mapM_ok_eq (avgCoord (fun len x => binMean b len x none) times)
      (fun d => if d ∈ v.lead then (d.2, (none : Option (List (Option ℝ))))
        else (v.len / n, some (Spec.binMeans n v.len (times v.last)))) (v.lead ++ [(v.last, v.len)]) (by
        intro d hd
        by_cases hm : d ∈ v.lead
        · rw [if_pos hm, avgCoord_lead _ _ _ (h4 d hm).1]
        · rw [if_neg hm]
          rcases List.mem_append.mp hd with h | h
          · exact absurd h hm
          · obtain rfl := List.mem_singleton.mp h
            exact hl)
    rw [this, List.map_append, List.map_singleton, if_neg]
    · congr 2
      apply List.map_congr_left
      intro d hd
      rw [if_pos hd]
    · intro hm
      exact (h4 _ hm).1 h1
  rw [hcs]
  simp only [keyIn_false h3, Bool.false_eq_true, if_false]
  rw [mapM_ok_eq _ (fun i => st n v.len (v.val i)) _ fun i _ => hop _]
  simp only
  have hp := prod_pos_of_lead v.lead fun d hd => (h4 d hd).2.2
  have hhead : (((List.range (v.lead.map Prod.snd).prod).map fun i => st n v.len (v.val i)).headD []).length =
      v.len / n := by
    obtain ⟨k, hk⟩ : ∃ k, (v.lead.map Prod.snd).prod = k + 1 := ⟨_, (Nat.succ_pred_eq_of_pos hp).symm⟩
    rw [hk, List.range_succ_eq_map]
    simp only [List.map_cons, List.headD_cons]
    exact hst _
  rw [hhead, if_pos (by simp [List.map_map, Function.comp_def])]
  unfold Spec.binnedVar
  simp

/-- The value of a name in a dataset. -/
def Spec.varOf (k : Key) (l : List OVar) : Option OVar := l.find? fun o => o.name = k

theorem varOf_put (o : OVar) (k : Key) : ∀ l : List OVar,
    Spec.varOf k (putVar o l) = if k = o.name then some o else Spec.varOf k l
  | [] => by
    unfold putVar Spec.varOf
    by_cases h : k = o.name
    · simp [h]
    · simp [h, Ne.symm h]
  | p :: r => by
    unfold putVar
    have ih := varOf_put o k r
    unfold Spec.varOf at ih ⊢
    by_cases hp : p.name = o.name
    · rw [if_pos hp]
      by_cases h : k = o.name
      · simp [h]
      · simp [h, Ne.symm h, hp]
    · rw [if_neg hp, List.find?_cons, List.find?_cons]
      by_cases hk : p.name = k
      · have : k ≠ o.name := fun e => hp (hk.trans e)
        simp [hk, this]
      · simp only [hk, decide_false]
        exact ih

/-- The effect of a loop over measured variables on a name. -/
theorem avgLoop_measured (st : ℕ → ℕ → (ℕ → Option ℝ) → List (Option ℝ)) (op : BinOp) (b : Binner) (n : ℕ)
    (times : Key → ℕ → Option ℝ) (suffix : Key) (u : Option OVar) (hb : b.nBin = n) (hn : 0 < n) :
    ∀ (vs : List BVar) (out : List OVar), (∀ v ∈ vs, Spec.measured v ∧ n ≤ v.len ∧
        (∀ x, op v.len x = .ok (st n v.len x)) ∧ (∀ x, (st n v.len x).length = v.len / n)) →
      (∀ v ∈ vs, ∀ o, u = some o → v.name ++ suffix ≠ o.name) → (vs.map BVar.name).Nodup →
      ∃ r, avgLoop (fun len x => binMean b len x none) op times suffix (u.map .ok) vs out = .ok r ∧
        (∀ v ∈ vs, Spec.varOf (v.name ++ suffix) r = some (Spec.binnedVar st n times suffix v)) ∧
        (∀ o, u = some o → vs ≠ [] → Spec.varOf o.name r = some o) ∧
        (∀ k, (∀ v ∈ vs, k ≠ v.name ++ suffix) → (∀ o, u = some o → k ≠ o.name) →
          Spec.varOf k r = Spec.varOf k out)
  | [], out, _, _, _ => ⟨out, rfl, by simp, by simp, fun _ _ _ => rfl⟩
  | v :: vs, out, h, hu, hnd => by
    obtain ⟨hm, hlen, hop, hst⟩ := h v (by simp)
    rw [avgLoop, not_altraw v hm]
    simp only [Bool.false_eq_true, if_false]
    rw [avgVar_measured st op b n times suffix v hm hb hn hlen hop hst]
    simp only
    rw [List.map_cons, List.nodup_cons] at hnd
    cases u with
    | none =>
      simp only [Option.map_none]
      obtain ⟨r, h1, h2, h3, h4⟩ := avgLoop_measured st op b n times suffix none hb hn vs
        (putVar (Spec.binnedVar st n times suffix v) out) (fun w hw => h w (by simp [hw])) (by simp) hnd.2
      refine ⟨r, h1, fun w hw => ?_, by simp, fun k hk _ => ?_⟩
      · rcases List.mem_cons.mp hw with rfl | hw
        · rw [h4 _ (fun x hx e => hnd.1 ?_) (by simp), varOf_put, if_pos (by rfl)]
          rw [List.append_cancel_right e]
          exact List.mem_map_of_mem hx
        · exact h2 w hw
      · rw [h4 k (fun x hx => hk x (by simp [hx])) (by simp), varOf_put, if_neg]
        exact hk v (by simp)
    | some o =>
      simp only [Option.map_some]
      obtain ⟨r, h1, h2, h3, h4⟩ := avgLoop_measured st op b n times suffix (some o) hb hn vs
        (putVar o (putVar (Spec.binnedVar st n times suffix v) out)) (fun w hw => h w (by simp [hw]))
        (fun w hw => hu w (by simp [hw])) hnd.2
      refine ⟨r, h1, fun w hw => ?_, ?_, fun k hk hk2 => ?_⟩
      · rcases List.mem_cons.mp hw with rfl | hw
        · rw [h4 _ (fun x hx e => hnd.1 ?_) (fun o' ho' => hu w (by simp) o' ho'), varOf_put, if_neg,
            varOf_put, if_pos (by rfl)]
          · exact hu w (by simp) o rfl
          · rw [List.append_cancel_right e]
            exact List.mem_map_of_mem hx
        · exact h2 w hw
      · intro o' ho' _
        obtain rfl := Option.some.inj ho'
        by_cases hvs : vs = []
        · subst hvs
          rw [avgLoop] at h1
          obtain rfl := Except.ok.inj h1
          rw [varOf_put, if_pos rfl]
        · exact h3 o rfl hvs
      · rw [h4 k (fun x hx => hk x (by simp [hx])) hk2, varOf_put, if_neg (hk2 o rfl), varOf_put, if_neg]
        exact hk v (by simp)

/-- **C98** (averages). In the averaged dataset every measured variable has its dimensions, the bin means of
its own time axis, and for every leading index the means of the bins; the standard deviation of the speed is
added; variables of other names that were in the output before are unchanged. -/
theorem avg_measured (b : Binner) (n : ℕ) (times : Key → ℕ → Option ℝ) (u : OVar) (vs : List BVar)
    (out : List OVar) (hb : b.nBin = n) (hn : 0 < n) (hvs : ∀ v ∈ vs, Spec.measured v ∧ n ≤ v.len)
    (hnd : (vs.map BVar.name).Nodup) (hu : ∀ v ∈ vs, v.name ≠ u.name) :
    ∃ r, doAvg b times (.ok u) vs out = .ok r ∧
      (∀ v ∈ vs, Spec.varOf v.name r = some (Spec.binnedVar Spec.binMeans n times [] v)) ∧
      (vs ≠ [] → Spec.varOf u.name r = some u) ∧
      ∀ k, (∀ v ∈ vs, k ≠ v.name) → k ≠ u.name → Spec.varOf k r = Spec.varOf k out := by
  obtain ⟨r, h1, h2, h3, h4⟩ := avgLoop_measured Spec.binMeans (fun len x => binMean b len x none) b n times []
    (some u) hb hn vs out
    (fun v hv => ⟨(hvs v hv).1, (hvs v hv).2, fun x => binMean_eq b n v.len x hb hn (hvs v hv).2,
      fun x => by simp [Spec.binMeans]⟩)
    (fun v hv o ho => by obtain rfl := Option.some.inj ho; simpa using hu v hv) hnd
  refine ⟨r, h1, fun v hv => by simpa using h2 v hv, h3 u rfl, fun k hk hk2 => h4 k (by simpa using hk) ?_⟩
  intro o ho
  obtain rfl := Option.some.inj ho
  exact hk2

/-- **C98** (variances). `do_var` adds, for every measured variable, the variances of its bins under the name
with the suffix, and leaves the averages alone. -/
theorem var_measured (b : Binner) (n : ℕ) (times : Key → ℕ → Option ℝ) (suffix : Key) (vs : List BVar)
    (out : List OVar) (hb : b.nBin = n) (hn : 0 < n) (hvs : ∀ v ∈ vs, Spec.measured v ∧ n ≤ v.len)
    (hnd : (vs.map BVar.name).Nodup) :
    ∃ r, doVar b times suffix vs out = .ok r ∧
      (∀ v ∈ vs, Spec.varOf (v.name ++ suffix) r = some (Spec.binnedVar Spec.binVars n times suffix v)) ∧
      ∀ k, (∀ v ∈ vs, k ≠ v.name ++ suffix) → Spec.varOf k r = Spec.varOf k out := by
  obtain ⟨r, h1, h2, h3, h4⟩ := avgLoop_measured Spec.binVars (fun len x => binVar b len x none) b n times suffix
    none hb hn vs out
    (fun v hv => ⟨(hvs v hv).1, (hvs v hv).2, fun x => binVar_eq b n v.len x hb hn (hvs v hv).2,
      fun x => by simp [Spec.binVars]⟩) (by simp) hnd
  exact ⟨r, h1, h2, fun k hk => h4 k hk (by simp)⟩

/-- **C98 is false of the code** for variables without a time axis: with bins of two or more samples a
matrix is left out without a message (after that the dataset cannot be rotated to or from beams). -/
theorem avg_static_false (b : Binner) (n : ℕ) (times : Key → ℕ → Option ℝ) (v : BVar) (hb : b.nBin = n)
    (hn : 2 ≤ n) (ht : ¬ "time".toList <:+: v.last) (ha : ¬ "altraw".toList <:+: v.last)
    (hl : ∀ d ∈ v.lead, ¬ "time".toList <:+: d.1 ∧ ¬ "altraw".toList <:+: d.1 ∧ 0 < d.2) (hlen : 0 < v.len) :
    avgVar (fun len x => binMean b len x none) (fun len x => binMean b len x none) times [] v = .ok none := by
  unfold avgVar
  simp only
  have hna : ((v.lead ++ [(v.last, v.len)]).any fun d => keyIn "altraw" d.1) = false := by
    rw [List.any_eq_false]
    intro d hd
    rw [Bool.not_eq_true]
    rcases List.mem_append.mp hd with h | h
    · exact keyIn_false (hl d h).2.1
    · obtain rfl := List.mem_singleton.mp h
      exact keyIn_false ha
  rw [hna]
  simp only [Bool.false_eq_true, if_false]
  rw [mapM_ok_eq _ (fun d => (d.2, (none : Option (List (Option ℝ))))) _ (by
    intro d hd
    apply avgCoord_lead
    rcases List.mem_append.mp hd with h | h
    · exact (hl d h).1
    · obtain rfl := List.mem_singleton.mp h
      exact ht)]
  simp only
  by_cases he : keyIn "ensemble" v.name = true
  · rw [if_pos he]
  rw [if_neg he]
  have hp := prod_pos_of_lead v.lead fun d hd => (hl d hd).2.2
  obtain ⟨k, hk⟩ : ∃ k, (v.lead.map Prod.snd).prod = k + 1 := ⟨_, (Nat.succ_pred_eq_of_pos hp).symm⟩
  by_cases hs : n ≤ v.len
  · rw [mapM_ok_eq _ (fun i => Spec.binMeans n v.len (v.val i)) _
      fun i _ => binMean_eq b n v.len _ hb (by omega) hs]
    simp only
    rw [if_neg]
    rw [hk, List.range_succ_eq_map]
    simp only [List.map_cons, List.headD_cons, List.map_append, List.map_map, Function.comp_def, List.map_nil]
    intro e
    have e := List.append_cancel_left e
    have e := (List.cons.inj e).1
    rw [Spec.binMeans, List.length_map, List.length_range] at e
    have := Nat.div_lt_self hlen hn
    omega
  · rw [hk, List.range_succ_eq_map, List.mapM_cons, binMean_short b n v.len _ hb (by omega)]
    rfl

/-- **C98 is false of the code** when one record type has fewer samples than a bin: the whole call raises,
whatever the other variables are. -/
theorem avg_short_false (b : Binner) (n : ℕ) (times : Key → ℕ → Option ℝ) (u : OVar) (vs ws : List BVar)
    (v : BVar) (out : List OVar) (hb : b.nBin = n) (hn : 0 < n)
    (hvs : ∀ w ∈ vs, Spec.measured w ∧ n ≤ w.len) (hnd : (vs.map BVar.name).Nodup)
    (hu : ∀ w ∈ vs, w.name ≠ u.name)
    (hv : "time".toList <:+: v.last ∧ ¬ "altraw".toList <:+: v.last ∧ v.lead = [] ∧ v.len < n) :
    doAvg b times (.ok u) (vs ++ v :: ws) out = .error .exception := by
  have happ : ∀ (vs : List BVar) (out r : List OVar),
      avgLoop (fun len x => binMean b len x none) (fun len x => binMean b len x none) times [] (some (.ok u)) vs
        out = .ok r →
      avgLoop (fun len x => binMean b len x none) (fun len x => binMean b len x none) times [] (some (.ok u))
        (vs ++ v :: ws) out =
      avgLoop (fun len x => binMean b len x none) (fun len x => binMean b len x none) times [] (some (.ok u))
        (v :: ws) r := by
    intro vs
    induction vs with
    | nil =>
      intro out r h
      rw [avgLoop] at h
      obtain rfl := Except.ok.inj h
      rfl
    | cons w vs ih =>
      intro out r h
      rw [List.cons_append, avgLoop]
      rw [avgLoop] at h
      by_cases ha : ((w.lead ++ [(w.last, w.len)]).any fun d => keyIn "altraw" d.1) = true
      · rw [if_pos ha] at h ⊢
        exact ih _ _ h
      · rw [if_neg ha] at h ⊢
        cases hc : avgVar (fun len x => binMean b len x none) (fun len x => binMean b len x none) times [] w with
        | error e => rw [hc] at h; simp at h
        | ok o =>
          rw [hc] at h
          simp only at h ⊢
          exact ih _ _ h
  obtain ⟨r, h1, -⟩ := avg_measured b n times u vs out hb hn hvs hnd hu
  unfold doAvg at h1 ⊢
  rw [happ vs out r h1, avgLoop]
  obtain ⟨h2, h3, h4, h5⟩ := hv
  rw [h4]
  have : ([] ++ [(v.last, v.len)] : List (Key × ℕ)).any (fun d => keyIn "altraw" d.1) = false := by
    simp [keyIn_false h3]
  rw [this]
  simp only [Bool.false_eq_true, if_false]
  have : avgVar (fun len x => binMean b len x none) (fun len x => binMean b len x none) times [] v =
      .error .exception := by
    unfold avgVar
    simp only [h4]
    rw [this]
    simp only [Bool.false_eq_true, if_false, List.nil_append, List.mapM_cons]
    have h6 : avgCoord (fun len x => binMean b len x none) times (v.last, v.len) = .error .exception := by
      unfold avgCoord
      rw [keyIn_true h2]
      simp only [if_true]
      rw [binMean_short b n v.len _ hb h5]
    rw [h6]
    rfl
  rw [this]

/-- A dataset as in the theorems: 100 pings of temperature and velocity, bins of 10. -/
example : ∃ (b : Binner) (v w : BVar), b.nBin = (10 : ℕ) ∧ Spec.measured v ∧ Spec.measured w ∧
    10 ≤ v.len ∧ (w.lead.map Prod.snd).prod = 60 ∧ ([v, w].map BVar.name).Nodup := by
  refine ⟨⟨10, 1, 10, 10⟩, ⟨"temp".toList, [], "time".toList, 100, fun _ _ => none⟩,
    ⟨"vel".toList, [("dir".toList, 4), ("range".toList, 15)], "time".toList, 100, fun _ _ => none⟩,
    rfl, ⟨by decide, by decide, by decide, by simp⟩, ⟨by decide, by decide, by decide, ?_⟩, by decide,
    by decide, by decide⟩
  intro d hd
  simp only [List.mem_cons, List.not_mem_nil, or_false] at hd
  rcases hd with rfl | rfl <;> exact ⟨by decide, by decide, by decide⟩

end Dolfyn
