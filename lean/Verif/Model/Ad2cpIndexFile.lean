import Verif.Model.Ad2cpFile

/-!
The index file next to an AD2CP file (`_create_index`, `get_index`, dolfyn/io/nortek2_lib.py:38-72, 97-155, 225-257). The
disk is the bytes of the index file, if there is one. Entries that do not fit their `struct` formats are only checked where
the index itself checks them (ensemble counter and month).
-/

namespace Dolfyn

/-- Little-endian bytes (`struct.pack`). -/
def lePack : ℕ → ℕ → List ℕ
  | 0, _ => []
  | k + 1, v => v % 256 :: lePack k (v / 256)

/-- `struct.pack('<QIQ4H6BHB', ...)` (dolfyn/io/nortek2_lib.py:138-140): 37 bytes. -/
def adPackEntry (e : AdEntry) : List ℕ :=
  lePack 8 e.ens ++ lePack 4 e.hwEns ++ lePack 8 e.pos ++ lePack 2 e.id ++ lePack 2 e.config ++ lePack 2 e.beamsCy ++
    lePack 2 0 ++ lePack 1 (e.date.getD 0 0) ++ lePack 1 (e.date.getD 1 0) ++ lePack 1 (e.date.getD 2 0) ++
    lePack 1 (e.date.getD 3 0) ++ lePack 1 (e.date.getD 4 0) ++ lePack 1 (e.date.getD 5 0) ++ lePack 2 (e.date.getD 6 0) ++
    lePack 1 e.dVer

/-- `b'Index Ver:'`. -/
def adIndexMagic : List ℕ := [73, 110, 100, 101, 120, 32, 86, 101, 114, 58]

/-- What `_create_index` writes (dolfyn/io/nortek2_lib.py:101-102, 138-140). -/
def adIndexBytes (es : List AdEntry) : List ℕ := adIndexMagic ++ lePack 2 1 ++ es.flatMap adPackEntry

/-- The little-endian number in `k` bytes at offset `o`. -/
def leAt (b : List ℕ) (o k : ℕ) : ℕ := leNat ((b.drop o).take k)

/-- One element of the `dtype` of version 1 (dolfyn/io/nortek2_lib.py:55-71). -/
def adParseEntry (b : List ℕ) : AdEntry :=
  { ens := leAt b 0 8, hwEns := leAt b 8 4, pos := leAt b 12 8, id := leAt b 20 2, config := leAt b 22 2,
    beamsCy := leAt b 24 2,
    date := [leAt b 28 1, leAt b 29 1, leAt b 30 1, leAt b 31 1, leAt b 32 1, leAt b 33 1, leAt b 34 2],
    dVer := leAt b 36 1 }

/-- `np.fromfile`: whole elements only. -/
def adParseEntries (b : List ℕ) : List AdEntry :=
  (List.range (b.length / 37)).map fun i => adParseEntry ((b.drop (i * 37)).take 37)

/-- The entries of an index file (dolfyn/io/nortek2_lib.py:246-255). A file without version is read with a type that has no
`hw_ens`, which `_check_index` asks for (line 163): `ValueError`. An unknown version is a `KeyError`, less than 12 bytes
after the magic word a `struct.error`; an empty index fails at `hwe.max()`. -/
def adParseIndex (b : List ℕ) : Except Err (List AdEntry) :=
  if b.take 10 = adIndexMagic then
    if (b.take 12).length < 12 then .error .structError
    else if leAt b 10 2 = 1 then
      let es := adParseEntries (b.drop 12)
      if es = [] then .error .valueError else .ok es
    else .error .keyError
  else .error .valueError

/-- The loop of `_create_index` with the entries written before it ends or fails. -/
def adIndexTrace (file : List ℕ) (nEns : ℕ) : ℕ → ℕ → AdIdxState → Option (List AdEntry × Option Err)
  | 0, _, _ => none
  | fuel + 1, pos, st =>
    if st.N 21 < nEns then
      match adIndexStep file pos st with
      | .stop => some ([], none)
      | .fail e => some ([], some e)
      | .next p st' entry =>
        match adIndexTrace file nEns fuel p st' with
        | none => none
        | some (es, r) => some (entry.toList ++ es, r)
    else some ([], none)

/-- `get_index` (dolfyn/io/nortek2_lib.py:225-257): the result and the index file left on the disk. When `_create_index` fails,
the index file has the entries written until then (as soon as the file object, which is not closed, is released). -/
def adGetIndex (fuel : ℕ) (data : List ℕ) (index : Option (List ℕ)) (rebuild debug dp : Bool) :
    Option (Except Err (List AdEntry × Bool) × Option (List ℕ)) :=
  let use : List ℕ → Except Err (List AdEntry × Bool) := fun b => do
    let es ← adParseIndex b
    pure (adRenumber es dp, (adCheckIndex (es.map AdEntry.id) dp fun _ => 0).1)
  match index, rebuild || debug with
  | some b, false => some (use b, some b)
  | _, _ =>
    match adIndexTrace data (2 ^ 32) fuel 0 { N := fun _ => 0, last := fun _ => -1 } with
    | none => none
    | some (es, some e) => some (.error e, some (adIndexBytes es))
    | some (es, none) => some (use (adIndexBytes es), some (adIndexBytes es))

end Dolfyn
