import Verif.Model.Clean
import Verif.Model.Gaps

/-!
Model of `_phaseSpaceThresh` and `GN2002` (dolfyn/adv/clean.py:240-344) as a whole, with missing
samples: a NaN is `none`. The signs of zeros are ignored.
-/

namespace Dolfyn

/-- `du` (dolfyn/adv/clean.py:246,249): the centred difference, zero at the two ends. -/
noncomputable def psDu (m : ℕ) (u : ℕ → ℝ) (i : ℕ) : ℝ :=
  if 1 ≤ i ∧ i + 1 < m then (u (i + 1) - u (i - 1)) / 2 else 0

/-- `d2u` (dolfyn/adv/clean.py:247,251): the centred difference of the inner part of `du`, zero at
the two outer samples of either end. -/
noncomputable def psD2u (m : ℕ) (u : ℕ → ℝ) (i : ℕ) : ℝ :=
  if 2 ≤ i ∧ i + 2 < m then (psDu m u (i + 1) - psDu m u (i - 1)) / 2 else 0

/-- `np.mean` of `m` samples. -/
noncomputable def psMean (m : ℕ) (f : ℕ → ℝ) : ℝ := (∑ i ∈ Finset.range m, f i) / m

/-- `np.std` of `m` samples. -/
noncomputable def psStd (m : ℕ) (f : ℕ → ℝ) : ℝ :=
  Real.sqrt ((∑ i ∈ Finset.range m, (f i - psMean m f) ^ 2) / m)

/-- The three quotients (numerator, denominator) whose sum is inverted to give `pe`
(dolfyn/adv/clean.py:264-270). -/
noncomputable def peTerms (u du d2u alpha a b sd : ℝ) : List (ℝ × ℝ) :=
  let theta := arctan2 du u
  let phi := arctan2 (Real.sqrt (du ^ 2 + u ^ 2)) d2u
  [((Real.sin phi * Real.cos theta * Real.cos alpha + Real.cos phi * Real.sin alpha) ^ 2, a),
    ((Real.sin phi * Real.cos theta * Real.sin alpha - Real.cos phi * Real.cos alpha) ^ 2, b),
    ((Real.sin phi * Real.sin theta) ^ 2, sd ^ 2)]

/-- `pe` is NaN: one of the quotients is `0 / 0`. -/
def peNan (ts : List (ℝ × ℝ)) : Prop := ∃ t ∈ ts, t.2 = 0 ∧ t.1 = 0

/-- The sum is infinite: one of the quotients is `x / 0`. -/
def peInf (ts : List (ℝ × ℝ)) : Prop := ∃ t ∈ ts, t.2 = 0 ∧ t.1 ≠ 0

open Classical in
/-- The test `p > pe` (dolfyn/adv/clean.py:264-272). `nan0`: `pe` of the first sample of the column
is NaN, the whole column of `pe` is set to zero. Otherwise a comparison with NaN is false, an
infinite sum makes `pe` zero, and a zero sum makes it infinite. -/
noncomputable def peFlag (nan0 : Prop) (p : ℝ) (ts : List (ℝ × ℝ)) : Bool :=
  if nan0 then decide (0 < p)
  else if peNan ts then false
  else if peInf ts then decide (0 < p)
  else
    let x := (ts.map fun t => t.1 / t.2).sum
    if x = 0 then false else decide (x⁻¹ < p)

/-- `_phaseSpaceThresh` after the mean has been removed (dolfyn/adv/clean.py:244,246-272), one column
of `m` samples; the verdicts are continued by `false` beyond the column. -/
noncomputable def phaseCentred (m : ℕ) (u : ℕ → ℝ) : Except Err (ℕ → Bool) :=
  let Lu := Real.sqrt (2 * Real.log m)
  let du := psDu m u
  let d2u := psD2u m u
  let alpha := arctan2 (∑ i ∈ Finset.range m, u i * d2u i) (∑ i ∈ Finset.range m, u i ^ 2)
  match calcab alpha (Lu * psStd m u) (Lu * psStd m d2u) with
  | .error e => .error e
  | .ok (a, b) =>
    let ts := fun i => peTerms (u i) (du i) (d2u i) alpha a b (Lu * psStd m du)
    .ok fun i => decide (i < m) && peFlag (peNan (ts 0)) (u i ^ 2 + du i ^ 2 + d2u i ^ 2) (ts i)

/-- `_phaseSpaceThresh` (dolfyn/adv/clean.py:240-272) of one column of `m` samples. -/
noncomputable def phaseReal (m : ℕ) (w : ℕ → ℝ) : Except Err (ℕ → Bool) :=
  phaseCentred m fun i => w i - psMean m w

open Classical in
/-- `_phaseSpaceThresh` of a column that may contain NaN: the mean is then NaN (`u.mean(0)`,
line 245), every demeaned sample and every `p` is NaN, and `p > pe` is false throughout; the
linear solver does not raise for a matrix of NaN. -/
noncomputable def phaseSpace (m : ℕ) (v : ℕ → Option ℝ) : Except Err (ℕ → Bool) :=
  if ∃ i < m, v i = none then .ok fun _ => false
  else phaseReal m fun i => (v i).getD 0

/-- The blocks (start, length) that one pass judges (dolfyn/adv/clean.py:335-337): the columns of
the reshaped record, then the last `npt` samples. -/
def gnBlocks (n npt : ℕ) : List (ℕ × ℕ) :=
  (List.range (n / npt)).map (fun b => (b * npt, npt)) ++ [(n - npt, min npt n)]

/-- The verdict of a test that did not raise. -/
def okFlag (r : Except Err (ℕ → Bool)) (i : ℕ) : Bool :=
  match r with
  | .ok f => f i
  | .error _ => false

/-- `GN2002` of one record that is not split (dolfyn/adv/clean.py:329-344), with a test `T` that may
raise. Each pass of the loop tests the same blocks, so that an exception appears in the first
pass. The loop ends after at most 100 passes (line 339). -/
def gnPlain {α : Type*} (T : ℕ → (ℕ → α) → Except Err (ℕ → Bool)) (n npt : ℕ) (u : ℕ → α) :
    Option (Except Err (ℕ → Bool)) :=
  if npt = 0 then some (.error .zeroDivision)
  else if n = 0 then some (.error .indexError)
  else
    match (gnBlocks n npt).mapM fun b => T b.2 fun j => u (b.1 + j) with
    | .error e => some (.error e)
    | .ok _ => (gnBase (fun m v => okFlag (T m v)) 101 n npt u).map fun r => r.map Prod.fst

/-- The regions between the bad segments (dolfyn/adv/clean.py:320-326). -/
def gnWalk (ep : ℕ) : ℕ → List (ℕ × ℕ) → List (ℕ × ℕ)
  | sp, [] => [(sp, ep)]
  | sp, (s, t) :: r => (sp, s) :: gnWalk ep t r

/-- The regions that are cleaned on their own (dolfyn/adv/clean.py:309-326): bad segments at the
very beginning and the very end are skipped. -/
def gnRegions (n : ℕ) (segs : List (ℕ × ℕ)) : List (ℕ × ℕ) :=
  let hd : ℕ × List (ℕ × ℕ) :=
    match segs with
    | (s, t) :: r => if s = 0 then (t, r) else (0, segs)
    | [] => (0, segs)
  match hd.2.getLast? with
  | some (s, t) => if t = n then gnWalk s hd.1 hd.2.dropLast else gnWalk n hd.1 hd.2
  | none => gnWalk n hd.1 hd.2

/-- The assignments `mask[lo:hi] = ...` (dolfyn/adv/clean.py:323,326). -/
def gnJoin (g : ℕ → ℕ → Option (Except Err (ℕ → Bool))) :
    List (ℕ × ℕ) → (ℕ → Bool) → Option (Except Err (ℕ → Bool))
  | [], mask => some (.ok mask)
  | (lo, hi) :: r, mask =>
    match g lo hi with
    | none => none
    | some (.error e) => some (.error e)
    | some (.ok f) => gnJoin g r fun i => if lo ≤ i ∧ i < hi then f (i - lo) else mask i

/-- `GN2002` of one record (dolfyn/adv/clean.py:302-344). The fuel bounds the depth of the
recursion. -/
def gnFull {α : Type*} (T : ℕ → (ℕ → Option α) → Except Err (ℕ → Bool)) (npt : ℕ) :
    ℕ → ℕ → (ℕ → Option α) → Option (Except Err (ℕ → Bool))
  | 0, _, _ => none
  | f + 1, n, u =>
    let segs := group n (fun i => (u i).isNone) ((npt / 10 : ℕ) : ℤ)
    if 2 < segs.length then
      gnJoin (fun lo hi => gnFull T npt f (hi - lo) fun j => u (lo + j)) (gnRegions n segs)
        fun _ => false
    else gnPlain T n npt u

end Dolfyn
