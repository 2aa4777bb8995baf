import Verif.Model.Ad2cp

/-!
Model of the warning of `_collapse` (dolfyn/io/nortek2_lib.py) and of the processor states of Signature files.
-/

namespace Dolfyn

/-- The condition of the warning in the last branch of `_collapse` (dolfyn/io/nortek2_lib.py:472-473):
`not set(uniq) == set([0, val]) and set(counts) == set([1, np.max(counts)])`. Sets are compared by inclusion both
ways. -/
def voteWarns (vec : List ℤ) (val : ℤ) : Bool :=
  let uniq := npUnique vec
  let counts := uniq.map (fun v => vec.count v)
  let top := counts.foldl max 0
  !(uniq.all (fun x => x = 0 || x = val) && decide (0 ∈ uniq) && decide (val ∈ uniq)) &&
    (counts.all (fun c => c = 1 || c = top) && decide (1 ∈ counts) && decide (top ∈ counts))

/-- Whether `_collapse` warns that the values are not uniform (dolfyn/io/nortek2_lib.py:454-479). -/
def collapseWarn (vec exclude : List ℤ) : Except Err Bool := do
  let u ← isuniform vec []
  if u then pure false
  else do
    let u' ← isuniform vec exclude
    if u' then pure false
    else do
      let val ← collapseVote vec
      pure (voteWarns vec val)

/-- `_status02data` (dolfyn/io/nortek2_lib.py:387-397): empty unless some word has bit 15; then the bits 0, 1 and 2
of every word. -/
def status02data (ws : List ℕ) : List (String × List ℕ) :=
  if ws.any (fun w => bitSlice w 15 16 = 1) then
    [("proc_idle_less_3pct", ws.map fun w => bitSlice w 0 1),
     ("proc_idle_less_6pct", ws.map fun w => bitSlice w 1 2),
     ("proc_idle_less_12pct", ws.map fun w => bitSlice w 2 3)]
  else []

/-- The attributes made of them, and whether a warning is given (dolfyn/io/nortek2.py:548-550). -/
def procIdle (ws : List ℕ) : Except Err (List (String × ℤ × Bool)) :=
  (status02data ws).mapM fun x => do
    let v ← collapse (x.2.map (Int.ofNat ·)) []
    let w ← collapseWarn (x.2.map (Int.ofNat ·)) []
    pure (x.1, v, w)

end Dolfyn
