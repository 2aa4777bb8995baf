import Verif.Model.Gaps
import Mathlib.Analysis.SpecialFunctions.Pow.Real

/-!
Model of `dolfyn/binned.py` (`TimeBinner`) on one time series (the last axis; all other axes are
looped over independently).  A series of length `len` is a function on `ℕ` read below `len` only.
-/

namespace Dolfyn

/-- The numeric fields of a `TimeBinner` (dolfyn/binned.py:10-47). -/
structure Binner where
  nBin : ℚ
  fs : ℚ
  nFft : ℚ
  nFftCoh : ℚ

/-- `TimeBinner.__init__` (dolfyn/binned.py:31-47). -/
def mkBinner (nBin fs : ℚ) (nFft nFftCoh : Option ℚ) : Binner :=
  let nf : ℚ := match nFft with
    | none => nBin
    | some q => if q > nBin then nBin else q
  let nc : ℚ := match nFftCoh with
    | none => (pyInt nf : ℚ)
    | some q => if q > nBin then (pyInt nBin : ℚ) else q
  { nBin := nBin, fs := fs, nFft := nf, nFftCoh := nc }

/-- `_parse_nbin` (dolfyn/binned.py:67-70). -/
def parseNbin (b : Binner) (o : Option ℚ) : ℚ := o.getD b.nBin

/-- `_parse_nfft` (dolfyn/binned.py:72-79). -/
def parseNfft (b : Binner) (o : Option ℚ) : ℚ :=
  match o with
  | none => b.nFft
  | some q => if q > b.nBin then b.nBin else q

/-- `_parse_nfft_coh` (dolfyn/binned.py:81-88). -/
def parseNfftCoh (b : Binner) (o : Option ℚ) : ℚ :=
  match o with
  | none => b.nFftCoh
  | some q => if q > b.nBin then (pyInt b.nBin : ℚ) else q

/-- A reshaped series: `rows × cols` with entries. -/
structure Mat2 (α : Type*) where
  rows : ℕ
  cols : ℕ
  at_ : ℕ → ℕ → α

/-- `out[..., 1:, :npd0] = out[..., :-1, n_bin:n_bin + npd0]` (dolfyn/binned.py:225). -/
def padLeft {α : Type*} (n npd0 : ℕ) (out : ℕ → ℕ → α) : ℕ → ℕ → α :=
  fun b j => if 1 ≤ b ∧ j < npd0 then out (b - 1) (n + j) else out b j

/-- `out[..., :-1, -npd1:] = out[..., 1:, npd0:npd0 + npd1]` (dolfyn/binned.py:226); column
`-npd1 + k` is column `n_bin + npd0 + k`. -/
def padRight {α : Type*} (rows n npd0 npd1 : ℕ) (out : ℕ → ℕ → α) : ℕ → ℕ → α :=
  fun b j => if b + 1 < rows ∧ n + npd0 ≤ j ∧ j < n + npd0 + npd1
    then out (b + 1) (npd0 + (j - (n + npd0))) else out b j

/-- The zero array with the samples `x (idx (b*n + j))` written to columns `npd0 ..`, then the
padding (dolfyn/binned.py:204-228). -/
def fillBins {α : Type*} (z : α) (x : ℕ → α) (idx : ℕ → ℕ) (rows n nPad : ℕ) : ℕ → ℕ → α :=
  let npd0 := nPad / 2
  let npd1 := (nPad + 1) / 2
  let out := fun b j => if npd0 ≤ j ∧ j < n + npd0 then x (idx (b * n + (j - npd0))) else z
  if nPad ≠ 0 then padRight rows n npd0 npd1 (padLeft n npd0 out) else out

/-- `TimeBinner.reshape` (dolfyn/binned.py:163-228) on a series of length `len`; `z` is the zero
of the dtype. A non-integer `n_bin` spreads the samples with `arange * n_bin // int(n_bin)` and
drops at most one bin when the last index is too large. A negative pad makes the target slice
narrower than `int(n_bin)`, so numpy raises ValueError (`n_bin >= 2`). -/
def reshape {α : Type*} (z : α) (len : ℕ) (x : ℕ → α) (nBin : ℚ) (nPad : ℤ) :
    Except Err (Mat2 α) :=
  if (len : ℚ) < nBin then .error .exception
  else if pyInt nBin = 0 then .error .zeroDivision
  else if nBin < 0 then .error .valueError
  else
    let n := (pyInt nBin).toNat
    if nPad < 0 then .error .valueError
    else
      let pad := nPad.toNat
      let rows := len / n
      if (n : ℚ) = nBin then
        .ok ⟨rows, n + pad, fillBins z x (fun k => k) rows n pad⟩
      else
        let idx : ℕ → ℕ := fun k => (⌊(k : ℚ) * nBin / n⌋).toNat
        let rows' := if idx (rows * n - 1) ≥ len then rows - 1 else rows
        if (List.range (rows' * n)).all fun k => decide (idx k < len) then
          .ok ⟨rows', n + pad, fillBins z x idx rows' n pad⟩
        else .error .indexError

/-- Row `b` of a reshaped series as a list. -/
def Mat2.row {α : Type*} (m : Mat2 α) (b : ℕ) : List α := (List.range m.cols).map (m.at_ b)

/-- `np.nanvar` of a 1-D array (population variance of the entries that are not NaN). -/
noncomputable def nanvar (l : List (Option ℝ)) : Option ℝ :=
  let v := l.reduceOption
  if v = [] then none
  else
    let avg := v.sum / v.length
    some ((v.map fun x => (x - avg) * (x - avg)).sum / v.length)

/-- `np.nanstd`. -/
noncomputable def nanstd (l : List (Option ℝ)) : Option ℝ := (nanvar l).map Real.sqrt

/-- `TimeBinner.mean` (dolfyn/binned.py:286-312) along the last axis. -/
noncomputable def binMean (b : Binner) (len : ℕ) (x : ℕ → Option ℝ) (nBin : Option ℚ) :
    Except Err (List (Option ℝ)) :=
  (reshape (some 0) len x (parseNbin b nBin) 0).map fun m =>
    (List.range m.rows).map fun r => nanmean (m.row r)

/-- `TimeBinner.var` (dolfyn/binned.py:314-331); the float32 accumulation is not modelled. -/
noncomputable def binVar (b : Binner) (len : ℕ) (x : ℕ → Option ℝ) (nBin : Option ℚ) :
    Except Err (List (Option ℝ)) :=
  (reshape (some 0) len x (parseNbin b nBin) 0).map fun m =>
    (List.range m.rows).map fun r => nanvar (m.row r)

/-- `TimeBinner.std` (dolfyn/binned.py:333-352). -/
noncomputable def binStd (b : Binner) (len : ℕ) (x : ℕ → Option ℝ) (nBin : Option ℚ) :
    Except Err (List (Option ℝ)) :=
  (reshape (some 0) len x (parseNbin b nBin) 0).map fun m =>
    (List.range m.rows).map fun r => nanstd (m.row r)

/-- The number of rows `_outshape_fft` reserves (dolfyn/binned.py:55-60):
`int(inshape[-1] // n_bin)`. -/
def fftRows (len : ℕ) (nBin : ℚ) : ℕ := (⌊(len : ℚ) / nBin⌋).toNat

/-- `calc_psd_base` up to the noise correction (dolfyn/binned.py:391-403), with the spectral
estimator as a parameter. `out` starts uninitialised (`np.empty`): a row is `none` until it is
assigned. Writing to a row that does not exist raises IndexError. The data are reshaped with the
binner's own `n_bin`, not the override. A non-integer default pad is truncated (simplification:
numpy would floor half of it). -/
def calcPsdBase {α β : Type*} (z : α) (psd : List α → ℚ → β) (b : Binner) (len : ℕ) (x : ℕ → α)
    (nBin nFft : Option ℚ) (nPad : Option ℤ) : Except Err (List (Option β)) :=
  let n := parseNbin b nBin
  let nf := parseNfft b nFft
  let pad : ℤ := nPad.getD (pyInt (min (n - nf) nf))
  let outRows := fftRows len n
  match reshape z len x b.nBin pad with
  | .error e => .error e
  | .ok m =>
    if outRows < m.rows then .error .indexError
    else .ok ((List.range outRows).map fun r =>
      if r < m.rows then some (psd (m.row r) nf) else none)

/-- The noise correction of `calc_psd_base` (dolfyn/binned.py:404-407) on the flattened output.
`np.min` of an empty array raises ValueError. -/
noncomputable def noiseCorrect (out : List ℝ) (noise fs : ℝ) : Except Err (List ℝ) :=
  if noise = 0 then .ok out
  else
    let out := out.map fun s => s - noise ^ 2 / (fs / 2)
    match (out.map fun s => |s|).min? with
    | none => .error .valueError
    | some m => .ok (out.map fun s => if s < 0 then m / 100 else s)

/-- `_check_ds` (dolfyn/binned.py:90-142). A dataset is reduced to its attributes (an association
list, first match wins) and the shapes of its variables; `V` is the type of attribute values.
`own` are the four entries `fs`, `n_bin`, `n_fft`, `description` of this binner, `rawFs` the
sampling rate attribute of the raw data and `selfFs` the binner's. The duty-cycle branch only
warns. -/
def updAttr {V : Type*} (k : String) (v : V) (l : List (String × V)) : List (String × V) :=
  if l.any (fun p => p.1 == k) then l.map fun p => if p.1 == k then (k, v) else p
  else l ++ [(k, v)]

/-- `dict.update` (dolfyn/binned.py:131). -/
def updAll {V : Type*} (props raw : List (String × V)) : List (String × V) :=
  raw.foldl (fun acc p => updAttr p.1 p.2 acc) props

/-- The comparison loop of `_check_ds` (dolfyn/binned.py:133-141). -/
def mergeAttrs {V : Type*} [DecidableEq V] :
    List (String × V) → List (String × V) → Except Err (List (String × V))
  | [], o => .ok o
  | (k, v) :: ps, o =>
    match o.lookup k with
    | some w => if w ≠ v then .error .attributeError else mergeAttrs ps (updAttr k v o)
    | none => mergeAttrs ps (updAttr k v o)

@[inherit_doc updAttr]
def checkDs {V : Type*} [DecidableEq V] (own : List (String × V)) (selfFs rawFs : V)
    (rawShapes : List (List ℕ)) (rawAttrs : List (String × V)) (out : Option (List (String × V))) :
    Except Err (List (String × V)) :=
  if rawShapes.any fun sh => sh.any (· == 0) then .error .runtimeError
  else if rawFs ≠ selfFs then .error .exception
  else mergeAttrs (updAll own rawAttrs) (out.getD [])

end Dolfyn
