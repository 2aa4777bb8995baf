import Verif.Model.SaveEnc
import Verif.Props.Ad2cpHead
import Verif.Props.CreateDs

/-!
Encodings after `save`, and attributes after the averaging tool.
-/

namespace Dolfyn

variable {V : Type*}

theorem pget_pdel (d : List (Key × V)) (k k' : Key) : pget (pdel d k) k' = if k' = k then none else pget d k' := by
  unfold pget pdel
  induction d with
  | nil => simp
  | cons p d ih =>
    by_cases h : p.1 = k
    · rw [List.filter_cons_of_neg (by simp [h]), ih]
      split_ifs with h'
      · rfl
      · rw [List.find?_cons_of_neg (by simp only [decide_eq_true_eq]; rw [h]; exact fun e => h' e.symm)]
    · rw [List.filter_cons_of_pos (by simp [h])]
      by_cases h2 : p.1 = k'
      · rw [List.find?_cons_of_pos (by simp [h2]), List.find?_cons_of_pos (by simp [h2]), if_neg]
        rw [← h2]; exact h
      · rw [List.find?_cons_of_neg (by simp [h2]), List.find?_cons_of_neg (by simp [h2]), ih]

theorem pget_pdels (l : List Key) (d : List (Key × V)) (k' : Key) :
    pget (l.foldl pdel d) k' = if k' ∈ l then none else pget d k' := by
  induction l generalizing d with
  | nil => simp
  | cons k l ih =>
    rw [List.foldl_cons, ih, pget_pdel]
    by_cases h1 : k' ∈ l
    · simp [h1]
    · by_cases h2 : k' = k
      · simp [h2]
      · simp [h1, h2]

/-- What `save` makes of an encoding entry: parameters netCDF4 cannot take and the fill value go, compression and
the units of times come in, and everything else stays. -/
def Spec.savedEnc (tt one : V) (compress : Bool) (v : EncVar V) (k : Key) : Option V :=
  if k = "_FillValue".toList then none
  else if k = "units".toList ∧ v.isTime = true ∧ (pget v.attrs "units".toList).isSome then pget v.attrs "units".toList
  else if compress = true ∧ v.small = false ∧ k = "zlib".toList then some tt
  else if compress = true ∧ v.small = false ∧ k = "complevel".toList then some one
  else if k ∈ dropParams then none
  else pget v.enc k

theorem units_isTime (ku : Key) (v : EncVar V) : (unitsVar ku v).isTime = v.isTime := by
  unfold unitsVar
  cases hti : v.isTime
  · rw [if_neg (by simp)]; exact hti
  · rw [if_pos rfl]
    cases pget v.attrs ku <;> first | exact hti | rfl

theorem units_name (ku : Key) (v : EncVar V) : (unitsVar ku v).name = v.name := by
  unfold unitsVar
  cases hti : v.isTime
  · rw [if_neg (by simp)]
  · rw [if_pos rfl]
    cases pget v.attrs ku <;> rfl

theorem units_enc (ku : Key) (v : EncVar V) (k : Key) :
    pget (unitsVar ku v).enc k =
      if k = ku ∧ v.isTime = true ∧ (pget v.attrs ku).isSome then pget v.attrs ku else pget v.enc k := by
  unfold unitsVar
  cases hti : v.isTime
  · rw [if_neg (by simp), if_neg (by simp)]
  · rw [if_pos rfl]
    cases hu : pget v.attrs ku with
    | none => rw [if_neg (by simp)]
    | some u =>
      simp only
      rw [pget_pset]
      by_cases h : k = ku
      · rw [if_pos h, if_pos ⟨h, trivial, rfl⟩]
      · rw [if_neg h, if_neg fun h' => h h'.1]

theorem units_attrs (ku : Key) (v : EncVar V) (k : Key) :
    pget (unitsVar ku v).attrs k = if v.isTime = true ∧ k = ku then none else pget v.attrs k := by
  unfold unitsVar
  cases hti : v.isTime
  · rw [if_neg (by simp), if_neg (by simp)]
  · rw [if_pos rfl]
    cases hu : pget v.attrs ku with
    | none =>
      simp only
      by_cases h : k = ku
      · rw [if_pos ⟨trivial, h⟩, h, hu]
      · rw [if_neg fun h' => h h'.2]
    | some u =>
      simp only
      rw [pget_pdel]
      by_cases h : k = ku
      · rw [if_pos h, if_pos ⟨trivial, h⟩]
      · rw [if_neg h, if_neg fun h' => h h'.2]

theorem saveVar_isTime (tt one : V) (compress : Bool) (v : EncVar V) : (saveVar tt one compress v).isTime = v.isTime := by
  unfold saveVar; split_ifs <;> rfl

theorem saveVar_attrs (tt one : V) (compress : Bool) (v : EncVar V) : (saveVar tt one compress v).attrs = v.attrs := by
  unfold saveVar; split_ifs <;> rfl

theorem saveVar_enc (tt one : V) (compress : Bool) (v : EncVar V) (k : Key) :
    pget (saveVar tt one compress v).enc k =
      if compress = true ∧ v.small = false ∧ k = "zlib".toList then some tt
      else if compress = true ∧ v.small = false ∧ k = "complevel".toList then some one
      else if k ∈ dropParams then none else pget v.enc k := by
  have hne : "zlib".toList ≠ "complevel".toList := by decide
  unfold saveVar
  generalize "zlib".toList = kz at *
  generalize "complevel".toList = kc at *
  generalize dropParams = dp
  by_cases h : compress = true ∧ v.small = false
  · rw [if_pos h]
    simp only
    rw [pget_pset, pget_pset, pget_pdels]
    by_cases h1 : k = kc
    · rw [if_pos h1, if_neg fun h' => hne (h'.2.2.symm.trans h1), if_pos ⟨h.1, h.2, h1⟩]
    · rw [if_neg h1]
      by_cases h2 : k = kz
      · rw [if_pos h2, if_pos ⟨h.1, h.2, h2⟩]
      · rw [if_neg h2, if_neg (c := compress = true ∧ v.small = false ∧ k = kz) fun h' => h2 h'.2.2,
          if_neg (c := compress = true ∧ v.small = false ∧ k = kc) fun h' => h1 h'.2.2]
  · rw [if_neg h]
    simp only
    rw [pget_pdels, if_neg (c := compress = true ∧ v.small = false ∧ k = kz) fun h' => h ⟨h'.1, h'.2.1⟩,
      if_neg (c := compress = true ∧ v.small = false ∧ k = kc) fun h' => h ⟨h'.1, h'.2.1⟩]

/-- **C131.** The encoding a variable is saved with, entry by entry. -/
theorem save_encoding (tt one : V) (compress : Bool) (v : EncVar V) (k : Key) :
    pget (decodeVar (saveVar tt one compress v)).enc k = Spec.savedEnc tt one compress v k := by
  unfold decodeVar Spec.savedEnc
  simp only
  rw [pget_pdel, units_enc, saveVar_isTime, saveVar_attrs, saveVar_enc]

/-- **C131.** After saving, times carry their units in the encoding and not among the attributes (xarray refuses to
write them otherwise); other attributes are as before. -/
theorem save_time_units (tt one : V) (compress : Bool) (v : EncVar V) (k : Key) :
    pget (decodeVar (saveVar tt one compress v)).attrs k =
      if v.isTime = true ∧ k = "units".toList then none else pget v.attrs k := by
  unfold decodeVar
  simp only
  rw [units_attrs, saveVar_isTime, saveVar_attrs]

/-- **C131.** The repair of encodings done for saving is final: done again it changes nothing more. -/
theorem decode_idempotent (v : EncVar V) (k : Key) :
    pget (decodeVar (decodeVar v)).enc k = pget (decodeVar v).enc k ∧
    pget (decodeVar2 (decodeVar2 v)).enc k = pget (decodeVar2 v).enc k := by
  constructor
  · have h1 : (decodeVar v).isTime = v.isTime := units_isTime _ v
    have h2 : pget (decodeVar v).attrs "units".toList =
        if v.isTime = true ∧ "units".toList = "units".toList then none else pget v.attrs "units".toList :=
      units_attrs _ v _
    have h3 : pget (decodeVar v).enc "_FillValue".toList = none := by
      show pget (pdel _ _) _ = none
      rw [pget_pdel, if_pos rfl]
    show pget (pdel (unitsVar "units".toList (decodeVar v)).enc "_FillValue".toList) k = _
    rw [pget_pdel, units_enc, h1]
    by_cases h : k = "_FillValue".toList
    · rw [if_pos h, h, h3]
    · rw [if_neg h, if_neg]
      rintro ⟨-, hti, hs⟩
      rw [h2, if_pos ⟨hti, rfl⟩] at hs
      cases hs
  · unfold decodeVar2
    cases hti : v.isTime
    · simp [hti]
    · simp only [if_true, hti]
      rw [pget_pdel, pget_pdel]
      split_ifs <;> rfl

theorem saveEnc_get (l : List (EncVar V)) (d : List (Key × List (Key × V))) (n : Key) :
    pget (l.foldl (fun d v => pset d v.name v.enc) d) n =
      match l.reverse.find? fun v => v.name = n with
      | some v => some v.enc
      | none => pget d n := by
  induction l using List.reverseRecOn with
  | nil => simp
  | append_singleton l v ih =>
    rw [List.foldl_append, List.foldl_cons, List.foldl_nil, pget_pset, List.reverse_append]
    by_cases h : n = v.name
    · simp [h]
    · rw [if_neg h, ih]
      have : ¬ v.name = n := fun e => h e.symm
      simp [this]

theorem saveVar_name (tt one : V) (compress : Bool) (v : EncVar V) :
    (decodeVar (saveVar tt one compress v)).name = v.name := by
  have h : (saveVar tt one compress v).name = v.name := by unfold saveVar; split_ifs <;> rfl
  exact (units_name _ _).trans h

/-- **C131.** Each variable is handed to netCDF with its own encoding. -/
theorem save_each (tt one : V) (compress : Bool) (user : List (Key × List (Key × V))) (vs : List (EncVar V))
    (hd : (vs.map EncVar.name).Nodup) (v : EncVar V) (hv : v ∈ vs) :
    pget (saveEnc tt one compress user vs) v.name = some (decodeVar (saveVar tt one compress v)).enc := by
  unfold saveEnc saveVars
  rw [saveEnc_get]
  have hd' : (vs.reverse.map EncVar.name).Nodup := by
    rw [List.map_reverse]
    exact List.nodup_reverse.mpr hd
  have hv' : v ∈ vs.reverse := List.mem_reverse.mpr hv
  rw [← List.map_reverse]
  generalize vs.reverse = l at hd' hv'
  have : (l.map fun v => decodeVar (saveVar tt one compress v)).find? (fun w => decide (w.name = v.name)) =
      some (decodeVar (saveVar tt one compress v)) := by
    induction l with
    | nil => cases hv'
    | cons w l ih =>
      rw [List.map_cons, List.nodup_cons] at hd'
      rw [List.map_cons]
      rcases List.mem_cons.mp hv' with rfl | hm
      · rw [List.find?_cons_of_pos (by simp [saveVar_name])]
      · rw [List.find?_cons_of_neg]
        · exact ih hd'.2 hm
        · simp only [saveVar_name, decide_eq_true_eq]
          intro e
          exact hd'.1 (e ▸ List.mem_map_of_mem hm)
  rw [this]

/-- **C131** (refutation). The values of `encoding=` are documented to take precedence; for every variable of the
dataset they are discarded. -/
theorem save_user_encoding_false (tt one : V) (compress : Bool) (user user' : List (Key × List (Key × V)))
    (vs : List (EncVar V)) (hd : (vs.map EncVar.name).Nodup) (v : EncVar V) (hv : v ∈ vs) :
    pget (saveEnc tt one compress user vs) v.name = pget (saveEnc tt one compress user' vs) v.name := by
  rw [save_each tt one compress user vs hd v hv, save_each tt one compress user' vs hd v hv]

/-- A variable stored in chunks. -/
def exEncVar : EncVar ℕ := ⟨"vel".toList, false, false, [("units".toList, 7)], [("chunksizes".toList, 5), ("dtype".toList, 3)]⟩

/-- A time with units among its attributes. -/
def exEncTime : EncVar ℕ :=
  ⟨"time".toList, true, false, [("units".toList, 7), ("long_name".toList, 8)], [("_FillValue".toList, 5), ("dtype".toList, 3)]⟩

/-- **C131** (refutation). Saving changes the dataset of the caller: compression and chunking of the variable in
memory are those of the file afterwards. -/
theorem save_changes_caller_false :
    ∃ v ∈ saveVars (1 : ℕ) 1 true [exEncVar, exEncTime], v.name = "vel".toList ∧
      pget v.enc "zlib".toList = some 1 ∧ pget v.enc "chunksizes".toList = none ∧
      pget exEncVar.enc "zlib".toList = none ∧ pget exEncVar.enc "chunksizes".toList = some 5 := by
  refine ⟨decodeVar (saveVar 1 1 true exEncVar), ?_, ?_⟩
  · unfold saveVars
    simp
  · decide

example : pget (saveEnc (1 : ℕ) 1 false [("vel".toList, [("complevel".toList, 9)])] [exEncVar, exEncTime]) "vel".toList =
    pget (saveEnc (1 : ℕ) 1 false [] [exEncVar, exEncTime]) "vel".toList :=
  save_user_encoding_false 1 1 false _ _ [exEncVar, exEncTime] (by decide) exEncVar (by simp)

example : pget (decodeVar (saveVar 1 1 true exEncTime)).enc "units".toList = some 7 := by
  rw [save_encoding]
  decide

/-! ### C132: the averaging tool -/

theorem pget_filter_key (d : List (Key × V)) (p : Key → Bool) (k : Key) :
    pget (d.filter fun x => p x.1) k = if p k then pget d k else none := by
  unfold pget
  induction d with
  | nil => simp
  | cons x d ih =>
    by_cases hp : p x.1 = true
    · rw [List.filter_cons_of_pos (by simpa using hp)]
      by_cases hk : x.1 = k
      · rw [List.find?_cons_of_pos (by simp [hk]), List.find?_cons_of_pos (by simp [hk]), if_pos (by rw [← hk]; exact hp)]
      · rw [List.find?_cons_of_neg (by simp [hk]), List.find?_cons_of_neg (by simp [hk]), ih]
    · rw [List.filter_cons_of_neg (by simpa using hp), ih]
      by_cases hk : x.1 = k
      · rw [hk] at hp
        simp [hp]
      · rw [List.find?_cons_of_neg (by simp [hk])]

/-- **C132.** The result of the averaging tool carries the attributes of the data, without the instrument
configuration, and the binning it was made with. -/
theorem binner_call_attrs (attrs : List (Key × V)) (nBin nFft nFftCoh : V) :
    pget (advCallAttrs attrs nBin nFft nFftCoh).2 "n_bin".toList = some nBin ∧
    pget (advCallAttrs attrs nBin nFft nFftCoh).2 "n_fft".toList = some nFft ∧
    pget (advCallAttrs attrs nBin nFft nFftCoh).2 "n_fft_coh".toList = some nFftCoh ∧
    ∀ k, k ≠ "n_bin".toList → k ≠ "n_fft".toList → k ≠ "n_fft_coh".toList →
      pget (advCallAttrs attrs nBin nFft nFftCoh).2 k =
        if "config".toList <:+: k then none else pget attrs k := by
  unfold advCallAttrs
  simp only
  refine ⟨?_, ?_, ?_, fun k h1 h2 h3 => ?_⟩
  · rw [pget_pset, pget_pset, pget_pset, if_neg (by decide), if_neg (by decide), if_pos rfl]
  · rw [pget_pset, pget_pset, if_neg (by decide), if_pos rfl]
  · rw [pget_pset, if_pos rfl]
  · rw [pget_pset, pget_pset, pget_pset, if_neg h3, if_neg h2, if_neg h1, pget_filter_key attrs (fun k => !keyIn "config" k)]
    by_cases h : "config".toList <:+: k
    · rw [if_pos h, keyIn_true h]; rfl
    · rw [if_neg h, keyIn_false h]; rfl

/-- **C132** (refutation). The tool edits its input: the configuration attributes of the data averaged are gone
afterwards. -/
theorem binner_call_input_false (attrs : List (Key × V)) (nBin nFft nFftCoh : V) (k : Key) (hk : "config".toList <:+: k) :
    pget (advCallAttrs attrs nBin nFft nFftCoh).1 k = none := by
  unfold advCallAttrs
  simp only
  rw [pget_filter_key attrs (fun k => !keyIn "config" k), keyIn_true hk]
  rfl

/-- **C132.** All other attributes of the input stay. -/
theorem binner_call_input_partial (attrs : List (Key × V)) (nBin nFft nFftCoh : V) (k : Key)
    (hk : ¬ "config".toList <:+: k) : pget (advCallAttrs attrs nBin nFft nFftCoh).1 k = pget attrs k := by
  unfold advCallAttrs
  simp only
  rw [pget_filter_key attrs (fun k => !keyIn "config" k), keyIn_false hk]
  rfl

example : pget [("filehead_config".toList, 1), ("fs".toList, 32)] "filehead_config".toList = some 1 ∧
    pget (advCallAttrs [("filehead_config".toList, 1), ("fs".toList, 32)] 9600 9600 2400).1
      "filehead_config".toList = none :=
  ⟨by decide, binner_call_input_false _ _ _ _ _ (by decide)⟩

end Dolfyn
