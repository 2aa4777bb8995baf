import Verif.Model.AdEarth
import Verif.Model.NortekInit

/-!
Model of `read_signature` (dolfyn/io/nortek2.py:17-123) from the bytes of a file to the dataset: the check of the first
bytes, the index, the text in the first record, then the pings (Model/Ad2cpFile, Model/AdEarth).

The index is made anew (`get_index` of a file without index file). `utf8` is `bytes.decode('utf-8')` (`none` when it raises),
`pInt` and `pFloat` are `int` and `float` of a text. Files with two profiles are outside this model (`none`), as is what
Model/AdEarth leaves out. `nens` is not given, so the whole file is read.
-/

namespace Dolfyn

/-- `_check_nortek` (dolfyn/io/nortek2.py:153-166), for the two bytes of either byte order. `struct.unpack` needs both. -/
def adCheckNortek (file : List ℕ) : Except Err Unit :=
  match file.take 2 with
  | [a, b] => if a = 165 ∧ b = 10 then .ok () else .error .exception
  | _ => .error .structError

/-- The characters at which `str.splitlines` ends a line. -/
def lineBreak (c : Char) : Bool :=
  decide (c.toNat ∈ [0x0a, 0x0b, 0x0c, 0x0d, 0x1c, 0x1d, 0x1e, 0x85, 0x2028, 0x2029])

/-- A character in front of the first line. -/
def consLine (c : Char) : List Key → List Key
  | [] => [[c]]
  | h :: t => (c :: h) :: t

/-- `str.splitlines()`; a carriage return with a line feed behind it is one end of a line. -/
def splitLines : Key → List Key
  | [] => []
  | [c] => if lineBreak c then [[]] else [[c]]
  | c :: d :: r =>
    if lineBreak c then [] :: (if c = '\r' ∧ d = '\n' then splitLines r else splitLines (d :: r))
    else consLine c (splitLines (d :: r))

/-- The lines of the text in the first record: `_read_hdr` and `_read_str` (dolfyn/io/nortek2.py:256-266), `decode`
and `splitlines` (:178-182). The first and the last byte do not belong to the text. `read2dict` is called with `cs=False`, for
which the check sum is not looked at. -/
def adHeadLines (utf8 : List ℕ → Option (List Char)) (file : List ℕ) : Except Err (List Key) :=
  if file.length < 10 then .error .ioError
  else if file.getD 0 0 ≠ 165 then .error .exception
  else
    match (file.drop 10).take (u16 file 4) with
    | [] => .error .indexError
    | _ :: s =>
      match nkText utf8 s.dropLast with
      | .error e => .error e
      | .ok t => .ok (splitLines t)

/-- The file has two profiles (dolfyn/io/nortek2_lib.py:170-173). -/
def adDual (o : AdOpen) (dp : Bool) : Bool := dp || (adHas o 21 && adHas o 22)

/-- `read_signature`. `dec` is the declination in the userdata. -/
noncomputable def adReadSignature (utf8 : List ℕ → Option (List Char)) (pInt : Key → Option ℤ) (pFloat : Key → Option ℚ)
    (fl : ℤ → ℝ) (fuel : ℕ) (dp : Bool) (dec : Option ℝ) (file : List ℕ) :
    Option (Except Err (Σ o : AdOpen, RDS (AdT o))) :=
  match adCheckNortek file with
  | .error e => some (.error e)
  | .ok () =>
    match adIndex fuel file with
    | none => none
    | some (.error e) => some (.error e)
    | some (.ok idx) =>
      match adHeadLines utf8 file >>= readHead pInt pFloat with
      | .error e => some (.error e)
      | .ok cfg =>
        match adInit file.length (adRenumber idx dp) with
        | .error e => some (.error e)
        | .ok o =>
          match adReadOpen fuel file o 0 none with
          | none => none
          | some (.error e) => some (.error e)
          | some (.ok ws) =>
            if adDual o dp then none
            else
              match adReadEnd pInt cfg dec fl o ws with
              | none => none
              | some (.error e) => some (.error e)
              | some (.ok ds) => some (.ok ⟨o, ds⟩)

end Dolfyn
