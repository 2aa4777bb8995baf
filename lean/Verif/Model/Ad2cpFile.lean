import Verif.Model.Ad2cpMore
import Verif.Model.Ad2cpRead
import Verif.Model.Ad2cpSci

/-!
A whole AD2CP file: from its bytes to the numbers of a column (dolfyn/io/nortek2.py:125-145, 212-223, 272-362, 392-401).
The configuration string of the file head is left out here (it is modelled on its own), and so are the parameters of the
raw altimeter.
-/

namespace Dolfyn

/-- One pass of `_init_burst_readers` (dolfyn/io/nortek2.py:212-223): the field list of a type from its configuration
word and its beam word. -/
def adReaderOf (id config beams : ℕ) : Except Err (List AdField) :=
  let bc := beamsCyDict beams id
  if id = 28 then adEchoStruct config bc.nCells
  else match bc.nBeams with
    | none => .error .keyError
    | some nb => if id = 23 then .ok (adBtStruct config nb) else adBurstStruct config nb bc.nCells

/-- `_init_burst_readers` (dolfyn/io/nortek2.py:212-223). -/
def adReaders (cfg : List (ℕ × ℕ × ℕ)) : Except Err (List (ℕ × List AdField)) :=
  cfg.mapM fun x => do
    let fs ← adReaderOf x.1 x.2.1 x.2.2
    pure (x.1, fs)

/-- The definitions of the same reader. -/
noncomputable def adDefsOf (id config : ℕ) : List AdDef :=
  if id = 28 then adEchoDefs config else if id = 23 then adBtDefs config else adBurstDefs config

/-- An opened file (`_Ad2cpReader.__init__`, dolfyn/io/nortek2.py:125-145). -/
structure AdOpen where
  idx : List AdEntry
  whole : Bool
  cfg : List (ℕ × ℕ × ℕ)
  readers : List (ℕ × List AdField)

/-- The index with corrected ensemble numbers (`get_index`, dolfyn/io/nortek2_lib.py:225-257). -/
def adRenumber (idx : List AdEntry) (dp : Bool) : List AdEntry :=
  let ens := (adCheckIndex (idx.map AdEntry.id) dp fun i => (idx.map AdEntry.ens).getD i 0).2
  idx.mapIdx fun i e => { e with ens := ens i }

/-- `_Ad2cpReader.__init__` after the index is there (dolfyn/io/nortek2.py:139-145). -/
def adInit (eof : ℕ) (idx : List AdEntry) : Except Err AdOpen := do
  let whole ← adLastWhole (adEnsPos idx) eof
  let cfg ← adCalcConfig idx
  let readers ← adReaders cfg
  pure ⟨idx, whole, cfg, readers⟩

/-- `_Ad2cpReader.__init__` on the bytes of a file. -/
def adOpen (fuel : ℕ) (file : List ℕ) (dp : Bool) : Option (Except Err AdOpen) :=
  match adIndex fuel file with
  | none => none
  | some (.error e) => some (.error e)
  | some (.ok idx) => some (adInit file.length (adRenumber idx dp))

/-- The number of ensembles of the file (dolfyn/io/nortek2.py:275-277). -/
def adNens (o : AdOpen) : ℕ := (adEnsPos o.idx).length - if o.whole then 0 else 1

/-- `readfile` of an opened file. -/
def adReadOpen (fuel : ℕ) (file : List ℕ) (o : AdOpen) (start : ℕ) (stop : Option ℕ) :
    Option (Except Err (List AdWrite)) :=
  adReadfile (adRecAt (fun id => o.readers.lookup id) file) o.idx file.length o.whole fuel start stop

/-- The items of a ping of type `id` in column `col`. -/
def adPingAt (id col : ℕ) : AdWrite → Option (List AdItem)
  | .ping i c l => if i = id ∧ c = col then some l else none
  | _ => none

/-- What is in column `col` of the arrays of type `id` after the loop: the last ping written there. -/
def adColumn (ws : List AdWrite) (id col : ℕ) : Option (List AdItem) :=
  (ws.filterMap (adPingAt id col)).getLast?

/-- The numbers of a column after `sci_data` (dolfyn/io/nortek2.py:392-401), where the column has been written. -/
noncomputable def adValues (fl : ℤ → ℝ) (o : AdOpen) (ws : List AdWrite) (id col : ℕ) : Option (Except Err AdData) :=
  match adColumn ws id col, o.readers.lookup id, o.cfg.lookup id with
  | some items, some fs, some (config, _) => some (adSci (adDefsOf id config) (adInto fl (adDefsOf id config) fs items fun _ => none))
  | _, _, _ => none

end Dolfyn
