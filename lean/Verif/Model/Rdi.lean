import Verif.Model.Ad2cp
import Mathlib.Data.Nat.Digits.Defs
import Mathlib.Algebra.Order.Group.Int

/-!
Model of the TRDI reader `dolfyn/io/rdi.py` (`_RDIReader`): searching for ensembles, the data-type
readers as movements in the file with their byte accounting, the realignment after every ensemble,
the estimate of the number of ensembles and the reading loop.

A file is the list of its bytes. A data-type reader is modelled by what it does to the position in
the file, to the byte count it reports, to the configuration and to the flags of the reader; the
decoded values are not kept here. Simplification: a read inside a data block that finds no byte left
is an error, where some of the code's assignments would store NaN.
-/

namespace Dolfyn

/-! ### Bytes -/

/-- Up to `n` bytes at position `p` (`file.read(n)`). -/
def rdChunk (bs : List ℕ) (p : ℤ) (n : ℕ) : List ℕ := (bs.drop p.toNat).take n

/-- `bin_reader.read` (dolfyn/io/rdi_lib.py:71-79): `None` at the end of the file, `struct.error` if
there are too few bytes. -/
def rdBytes (bs : List ℕ) (p : ℤ) (n : ℕ) : Except Err (Option (List ℕ)) :=
  let c := rdChunk bs p n
  if c = [] then .ok none
  else if c.length < n then .error .structError
  else .ok (some c)

/-- The same where `None` is not handled by the caller. -/
def rdNeed (bs : List ℕ) (p : ℤ) (n : ℕ) : Except Err (List ℕ) :=
  match rdBytes bs p n with
  | .error e => .error e
  | .ok none => .error .typeError
  | .ok (some c) => .ok c

/-- `read_i16(1)` of two bytes. -/
def rdI16 (c : List ℕ) : ℤ := adVal .h c

/-- `f.seek(z, 1)`: a negative result raises. -/
def rdSeek (p z : ℤ) : Except Err ℤ := if p + z < 0 then .error .ioError else .ok (p + z)

/-! ### Finding an ensemble -/

/-- `checkheader` (dolfyn/io/rdi.py:521-548), called with the position behind `7F 7F`: whether the
two bytes behind the announced length are `7F 7F` or `7F 79`, and the position afterwards, which is
not restored when the end of the file is met. -/
def rdCheckheader (bs : List ℕ) (p : ℤ) : Except Err (Bool × ℤ) :=
  match rdNeed bs p 2 with
  | .error e => .error e
  | .ok c =>
    let n := rdI16 c
    if 0 < n then
      match rdBytes bs (p + n) 2 with
      | .error e => .error e
      | .ok none => .ok (false, p + n)
      | .ok (some d) => .ok (decide (d.getD 0 0 = 127 ∧ (d.getD 1 0 = 127 ∨ d.getD 1 0 = 121)), p)
    else .ok (false, p)

/-- The test of the loop in `search_buffer`: `id1` is `7F 7F` and the header is valid. -/
def rdTest (bs : List ℕ) (a b : ℕ) (p : ℤ) : Except Err (Bool × ℤ) :=
  if a = 127 ∧ b = 127 then rdCheckheader bs p else .ok (false, p)

/-- The loop of `search_buffer` (dolfyn/io/rdi.py:502-508); the first argument counts what is left of
`_search_num`. The result tells whether an ensemble was found and the position of the file. -/
def rdSearchLoop (bs : List ℕ) : ℕ → ℕ → ℕ → ℤ → Except Err (Bool × ℤ)
  | 0, _, _, _ => .error .exception
  | n + 1, a, b, p =>
    match rdTest bs a b p with
    | .error e => .error e
    | .ok (true, p') => .ok (true, p')
    | .ok (false, p') =>
      match rdBytes bs p' 1 with
      | .error e => .error e
      | .ok none => .ok (false, p')
      | .ok (some c) => rdSearchLoop bs n (c.getD 0 0) a (p' + 1)

/-- `search_buffer` (dolfyn/io/rdi.py:488-519): its result and the position, which is
behind the `7F 7F` if one was found. -/
def rdSearch (bs : List ℕ) (p : ℤ) : Except Err (Bool × ℤ) :=
  match rdBytes bs p 2 with
  | .error e => .error e
  | .ok none => .ok (false, p)
  | .ok (some c) => rdSearchLoop bs 30000 (c.getD 0 0) (c.getD 1 0) (p + 2)

/-- The loop of `read_hdr` (dolfyn/io/rdi.py:263-274), without a limit; the first argument is fuel. -/
def rdHdrLoop (bs : List ℕ) : ℕ → ℕ → ℕ → ℤ → Option (Except Err (Bool × ℤ))
  | 0, _, _, _ => none
  | n + 1, a, b, p =>
    match rdTest bs a b p with
    | .error e => some (.error e)
    | .ok (true, p') => some (.ok (true, p'))
    | .ok (false, p') =>
      match rdBytes bs p' 1 with
      | .error e => some (.error e)
      | .ok none => some (.ok (false, p'))
      | .ok (some c) => rdHdrLoop bs n (c.getD 0 0) a (p' + 1)

/-! ### State of the reader -/

/-- What `read_cfgseg` stores and later readers use: the firmware number `tmp[0]`, the version
`prog_ver` in hundredths (`100·tmp[0] + tmp[1]`, exact where the code adds floats) and `n_cells`. -/
structure RdFixed where
  fw : ℕ
  ver : ℕ
  nCells : ℕ
  deriving DecidableEq, Repr

/-- `cfg['sourceprog']`. -/
inductive RdProg
  | vmdas | winriver | winriver2
  deriving DecidableEq, Repr

/-- The reader. `ens` holds `n_cells` and the counter `k` of `self.ensemble` (absent before it is
made), `ensBB` the same for the second profile, `sl` the last surface-layer leader: number of cells, cell size and
distance of the first cell in centimetres. -/
structure RdState where
  pos : ℤ
  nbyte : ℤ
  fixoffset : ℤ
  winrivprob : Bool
  source : ℕ
  vmdasSearch : Bool
  readVmdas : Bool
  cfg : Option RdFixed
  cfgbb : Option RdFixed
  sl : Option (ℕ × ℕ × ℕ)
  prog : Option RdProg
  ens : Option (ℕ × ℤ)
  ensBB : Option (ℕ × ℤ)
  hdrNbyte : ℤ
  idPos : List (ℕ × ℤ)
  deriving DecidableEq, Repr

/-- External decisions: whether six bytes decode as UTF-8, whether the time string of a GGA sentence
parses, and whether year, month and day make a date. -/
structure RdEnv where
  utf8 : List ℕ → Bool
  gga : List ℕ → Bool
  date : ℕ → ℕ → ℕ → Bool

/-! ### Movements -/

/-- A step of a data-type reader: a numeric read of `n` bytes, a relative seek, a string read. -/
inductive RdMv
  | rd (n : ℕ)
  | sk (z : ℤ)
  | rs (n : ℕ)
  deriving DecidableEq, Repr

/-- One step. -/
def rdMove1 (bs : List ℕ) (p : ℤ) : RdMv → Except Err ℤ
  | .rd n => match rdNeed bs p n with
    | .error e => .error e
    | .ok _ => .ok (p + n)
  | .sk z => rdSeek p z
  | .rs n => .ok (p + (rdChunk bs p n).length)

/-- Several steps. -/
def rdMove (bs : List ℕ) : ℤ → List RdMv → Except Err ℤ
  | p, [] => .ok p
  | p, m :: ms => match rdMove1 bs p m with
    | .error e => .error e
    | .ok p' => rdMove bs p' ms

/-- Finish a reader: move and report `nbyte`. -/
def rdFinish (bs : List ℕ) (ms : List RdMv) (nbyte : ℤ) (s : RdState) : Except Err RdState :=
  match rdMove bs s.pos ms with
  | .error e => .error e
  | .ok p => .ok { s with pos := p, nbyte := nbyte }

/-! ### Data-type readers -/

/-- `read_cfgseg` (dolfyn/io/rdi.py:735-813). -/
def rdFixedMoves (ver : ℕ) : List RdMv :=
  [.rd 5, .sk 1, .rd 1, .rd 1, .rd 2, .rd 2, .rd 2, .rd 1, .rd 1, .rd 1, .rd 1, .rd 2, .rd 3, .rd 1,
    .rd 2, .rd 2, .rd 1, .rd 1, .rd 2, .rd 2, .rd 2, .rd 1, .sk 1, .rd 2]
  ++ (if 814 ≤ ver then [.rd 8] else []) ++ (if 824 ≤ ver then [.rd 2] else [])
  ++ (if 1605 ≤ ver then [.rd 1] else []) ++ (if 1627 ≤ ver then [.sk 1, .rd 4, .rd 1] else [])

/-- `_nbyte` after `read_cfgseg`. -/
def rdFixedNbyte (ver : ℕ) : ℤ :=
  40 + (if 814 ≤ ver then 8 else 0) + (if 824 ≤ ver then 2 else 0) + (if 1605 ≤ ver then 1 else 0)
    + (if 1627 ≤ ver then 6 else 0)

/-- The table look-ups of `read_cfgseg` that can fail: beam angle, frequency, simulation flag. -/
def rdFixedOk (c : List ℕ) : Bool :=
  decide (c.getD 3 0 % 4 ≠ 3 ∧ c.getD 2 0 % 8 ≠ 7 ∧ c.getD 4 0 < 2)

/-- The configuration in a fixed leader at `p`. -/
def rdFixedCfg (bs : List ℕ) (p : ℤ) : RdFixed :=
  let c := rdChunk bs p 8
  ⟨c.getD 0 0, 100 * c.getD 0 0 + c.getD 1 0, c.getD 7 0⟩

/-- `read_cfgseg`. -/
def rdCfgseg (bs : List ℕ) (bb : Bool) (s : RdState) : Except Err RdState :=
  match rdNeed bs s.pos 5 with
  | .error e => .error e
  | .ok c =>
    if rdFixedOk c then
      let f := rdFixedCfg bs s.pos
      match rdFinish bs (rdFixedMoves f.ver) (rdFixedNbyte f.ver) s with
      | .error e => .error e
      | .ok s' => .ok (if bb then { s' with cfgbb := some f } else { s' with cfg := some f })
    else .error .indexError

/-- The enlargement of `self.ensemble` when `n_cells` grows (dolfyn/io/rdi.py:713-721); the new
ensemble starts with `k = -1`. -/
def rdGrow (s : RdState) : Except Err RdState :=
  match s.ens with
  | none => .ok s
  | some (n, _) =>
    match s.cfg with
    | none => .error .keyError
    | some f => .ok (if n < f.nCells then { s with ens := some (f.nCells, -1) } else s)

/-- `read_fixed` (dolfyn/io/rdi.py:706-721). -/
def rdFixed (bs : List ℕ) (bb : Bool) (s : RdState) : Except Err RdState :=
  match rdCfgseg bs bb s with
  | .error e => .error e
  | .ok s' => rdGrow { s' with nbyte := s'.nbyte + 2 }

/-- `read_fixed_sl` (dolfyn/io/rdi.py:723-733). -/
def rdFixedSl (bs : List ℕ) (s : RdState) : Except Err RdState :=
  match rdNeed bs s.pos 1 with
  | .error e => .error e
  | .ok c =>
    rdFinish bs [.rd 1, .rd 2, .rd 2] (2 + 5) { s with
      sl := some (c.getD 0 0, leNat (rdChunk bs (s.pos + 1) 2), leNat (rdChunk bs (s.pos + 3) 2)) }

/-- `cfg['inst_model'].lower() == 'broadband'` (dolfyn/io/rdi_defs.py:4-5). -/
def rdBroadband (fw : ℕ) : Bool := decide (fw = 4 ∨ fw = 5)

/-- `cfg['inst_model'].lower() == 'ocean surveyor'` (dolfyn/io/rdi_defs.py:9, 12). -/
def rdOcean (fw : ℕ) : Bool := decide (fw = 14 ∨ fw = 23)

/-- The part of `read_var` behind the first 40 bytes (dolfyn/io/rdi.py:860-896): steps and bytes. -/
def rdVarExtra (f : RdFixed) : List RdMv × ℤ :=
  if rdBroadband f.fw then
    if 555 ≤ f.ver then ([.sk 15, .rd 1, .rd 7], 23) else ([], 0)
  else if rdOcean f.fw then
    if 2300 < f.ver then ([.sk 16, .sk 2], 18) else ([.sk 16], 16)
  else
    ([.rd 4] ++ (if 813 ≤ f.ver then [.sk 2, .rd 4, .rd 4] else []) ++ (if 824 ≤ f.ver then [.sk 1] else [])
      ++ (if 1605 ≤ f.ver then [.rd 1, .rd 7] else []) ++ (if 5600 ≤ f.ver then [.sk 1] else []),
     4 + (if 813 ≤ f.ver then 10 else 0) + (if 824 ≤ f.ver then 1 else 0) + (if 1605 ≤ f.ver then 8 else 0)
      + (if 5600 ≤ f.ver then 1 else 0))

/-- The first 40 bytes of the variable leader. -/
def rdVarMoves : List RdMv :=
  [.rd 2, .rd 7, .rd 1, .rd 2, .rd 2, .rd 2, .rd 2, .rd 2, .rd 2, .rd 2, .rd 2, .rd 3, .rd 1, .rd 1, .rd 1,
    .rd 8]

/-- `ens.k += 1` of `read_var` (dolfyn/io/rdi.py:818-823). -/
def rdCount (bb : Bool) (s : RdState) : Except Err RdState :=
  if bb then
    match s.ensBB with
    | none => .error .attributeError
    | some (n, k) => .ok { s with ensBB := some (n, k + 1) }
  else
    match s.ens with
    | none => .error .attributeError
    | some (n, k) => .ok { s with ens := some (n, k + 1) }

/-- `read_var` (dolfyn/io/rdi.py:815-899) with `n_avg = 1`: whatever the profile, the values go to
index `k` of the first ensemble, which has one column. -/
def rdVar (bs : List ℕ) (bb : Bool) (s : RdState) : Except Err RdState :=
  match rdCount bb s with
  | .error e => .error e
  | .ok s' =>
    match s'.ens, s'.cfg with
    | none, _ => .error .attributeError
    | _, none => .error .keyError
    | some (_, k), some f =>
      if k = 0 ∨ k = -1 then
        rdFinish bs (rdVarMoves ++ (rdVarExtra f).1) (2 + 40 + (rdVarExtra f).2) s'
      else .error .indexError

/-- `switch_profile` (dolfyn/io/rdi.py:901-918): cells of the data block and of the array it goes
to. The arrays of the second profile have one column, so its counter must be 0 or -1; that of the first
is checked by `rdVar`. -/
def rdProfile (bb : ℕ) (s : RdState) : Except Err (ℕ × ℕ) :=
  if bb = 1 then
    match s.ensBB, s.cfgbb with
    | none, _ => .error .attributeError
    | _, none => .error .keyError
    | some (n, k), some f => if k = 0 ∨ k = -1 then .ok (f.nCells, n) else .error .indexError
  else if bb = 2 then
    match s.ens, s.sl with
    | none, _ => .error .attributeError
    | _, none => .error .keyError
    | some (n, _), some c => .ok (c.1, n)
  else
    match s.ens, s.cfg with
    | none, _ => .error .attributeError
    | _, none => .error .keyError
    | some (n, _), some f => .ok (f.nCells, n)

/-- `read_vel` (`w = 2`), `read_corr`, `read_amp`, `read_prcnt_gd`, `read_status` (`w = 1`)
(dolfyn/io/rdi.py:920-981): `4·n_cells` values of `w` bytes. -/
def rdCells (bs : List ℕ) (w bb : ℕ) (s : RdState) : Except Err RdState :=
  match rdProfile bb s with
  | .error e => .error e
  | .ok (c, n) =>
    if n < c then .error .valueError
    else rdFinish bs [.rd (4 * c * w)] (2 + 4 * c * w) s

/-- The steps of `read_bottom` (dolfyn/io/rdi.py:983-1040). -/
def rdBottomMoves (source ver : ℕ) (winriver : Bool) : List RdMv :=
  (if source = 2 then [.sk 2, .rd 2, .sk 6, .rd 4] else [.sk 14])
  ++ [.rd 8, .rd 8, .rd 4, .rd 4, .rd 4]
  ++ (if source = 2 then [.sk 2, .rd 2, .sk 16, .rd 1, .sk (71 - 45 - 16 - 17)] else [.sk 26])
  ++ (if 530 ≤ ver then [.sk 7, .rd 4] else [])
  ++ (if 1620 ≤ ver ∧ ¬ winriver then [.sk 4] else [])
  ++ (if 5610 ≤ ver then [.sk 4] else [])

/-- `_nbyte` after `read_bottom`. -/
def rdBottomNbyte (ver : ℕ) (winriver : Bool) : ℤ :=
  2 + 68 + (if 530 ≤ ver then 11 else 0) + (if 1620 ≤ ver ∧ ¬ winriver then 4 else 0)
    + (if 5610 ≤ ver then 4 else 0)

/-- `read_bottom`. -/
def rdBottom (bs : List ℕ) (s : RdState) : Except Err RdState :=
  match s.cfg with
  | none => .error .keyError
  | some f =>
    let w := decide (s.prog = some .winriver)
    rdFinish bs (rdBottomMoves s.source f.ver w) (rdBottomNbyte f.ver w) s

/-- `read_alt` (dolfyn/io/rdi.py:1042-1055). -/
def rdAlt (bs : List ℕ) (s : RdState) : Except Err RdState :=
  rdFinish bs [.rd 1, .rd 1, .rd 4, .rd 1] (7 + 2) s

/-- The steps of `read_vmdas` (dolfyn/io/rdi.py:1057-1122). -/
def rdVmdasMoves : List RdMv :=
  [.rd 4, .rd 4, .rd 4, .rd 4, .rd 4, .rd 4, .rd 4, .rd 4, .rd 2, .rd 2, .sk 2, .rd 2, .rd 2, .sk 2, .rd 2,
    .sk 6, .rd 4, .rd 4, .rd 2, .rd 2, .rd 2, .sk 10]

/-- `read_vmdas`: two dates are made from the bytes and may be invalid. -/
def rdVmdas (env : RdEnv) (bs : List ℕ) (s : RdState) : Except Err RdState :=
  let c := rdChunk bs s.pos 58
  let b := fun i => c.getD i 0
  match rdFinish bs rdVmdasMoves (2 + 76) { s with prog := some .vmdas, source := 1 } with
  | .error e => .error e
  | .ok s' =>
    if env.date (b 2 + b 3 * 256) (b 1) (b 0) ∧ env.date (b 52 + b 53 * 256) (b 55) (b 54) then
      .ok { s' with readVmdas := true }
    else .error .valueError

/-- A WinRiver II sentence: largest size of an empty one, steps before and after the string that is
parsed, its length (`none`: nothing is parsed) (dolfyn/io/rdi.py:1136-1253). -/
structure RdNmea where
  empty : ℕ
  before : List RdMv
  parsed : Option ℕ
  after : List RdMv

/-- The sentences by their identifier. -/
def rdNmea (spid : ℕ) : Option RdNmea :=
  if spid = 4 ∨ spid = 104 then
    some ⟨43, [.sk 1], some 9, [.sk 1, .rd 8, .rs 1, .rd 8, .rs 1, .rd 1, .rd 1, .rd 4, .rd 4, .rs 1, .rd 4,
      .rs 1, .rd 4, .rd 2]⟩
  else if spid = 5 ∨ spid = 105 then
    some ⟨22, [.sk 1], none, [.rd 4, .rs 1, .rd 4, .rs 1, .rd 4, .rs 1, .rd 4, .rs 1, .rs 1]⟩
  else if spid = 6 ∨ spid = 106 then
    some ⟨20, [.sk 1], none, [.rd 4, .rs 1, .rd 4, .rs 1, .rd 4, .rs 1]⟩
  else if spid = 7 ∨ spid = 107 then
    some ⟨14, [.sk 1], none, [.rd 8, .rs 1]⟩
  else none

/-- `f.reads(sz-2)`: a length of `-1` reads the rest of the file, `-2` is refused. -/
def rdReads (bs : List ℕ) (p : ℤ) (sz : ℕ) : Except Err ℤ :=
  if sz = 0 then .error .valueError
  else if sz = 1 then .ok (max p bs.length)
  else .ok (p + (rdChunk bs p (sz - 2)).length)

/-- The body of a sentence with data: `none` is `'FAIL'`. -/
def rdNmeaBody (env : RdEnv) (bs : List ℕ) (q : RdNmea) (p : ℤ) : Except Err (Option ℤ) :=
  let str := rdChunk bs p 6
  let p1 := p + str.length
  if env.utf8 str then
    match rdMove bs p1 q.before with
    | .error e => .error e
    | .ok p2 =>
      match q.parsed with
      | none => (rdMove bs p2 q.after).map some
      | some n =>
        let t := rdChunk bs p2 n
        if env.gga t then (rdMove bs (p2 + t.length) q.after).map some else .error .valueError
  else .ok none

/-- `read_winriver2` (dolfyn/io/rdi.py:1124-1253): the state and whether it returned `'FAIL'`. With an
unknown identifier nothing more is read and `_nbyte` keeps its old value. -/
def rdWinriver2 (env : RdEnv) (bs : List ℕ) (s : RdState) : Except Err (RdState × Bool) :=
  let start := s.pos
  let s := { s with winrivprob := true, prog := some .winriver2, source := 3 }
  match rdNeed bs start 2 with
  | .error e => .error e
  | .ok c =>
    match rdNmea (leNat c) with
    | none => .ok ({ s with pos := start + 2 }, false)
    | some q =>
      match rdNeed bs (start + 2) 2, rdMove bs (start + 2) [.rd 2, .rd 8] with
      | .error e, _ => .error e
      | _, .error e => .error e
      | .ok z, .ok p =>
        if leNat z ≤ q.empty then
          match rdReads bs p (leNat z) with
          | .error e => .error e
          | .ok p' => .ok ({ s with pos := p' + 2, nbyte := p' + 2 - start + 2 }, false)
        else
          match rdNmeaBody env bs q p with
          | .error e => .error e
          | .ok none => .ok ({ s with pos := p + (rdChunk bs p 6).length }, true)
          | .ok (some p') => .ok ({ s with pos := p', nbyte := p' - start + 2 }, false)

/-- `read_winriver` (dolfyn/io/rdi.py:1255-1266). -/
def rdWinriver (bs : List ℕ) (s : RdState) : Except Err RdState :=
  let start := s.pos
  let s := { s with
    winrivprob := true, prog := some .winriver
    source := if s.source = 2 ∨ s.source = 3 then s.source else 2 }
  match rdNeed bs start 2 with
  | .error e => .error e
  | .ok c =>
    match rdReads bs (start + 2) (leNat c) with
    | .error e => .error e
    | .ok p => .ok { s with pos := p, nbyte := p - start + 2 }

/-- `skip_Nbyte` (dolfyn/io/rdi.py:1272-1274). -/
def rdSkip (bs : List ℕ) (n : ℤ) (s : RdState) : Except Err RdState := rdFinish bs [.sk n] (2 + n) s

/-- `skip_Ncol` (dolfyn/io/rdi.py:1268-1270). -/
def rdSkipCol (bs : List ℕ) (n : ℕ) (s : RdState) : Except Err RdState :=
  match s.cfg with
  | none => .error .keyError
  | some f => rdFinish bs [.sk ((n * f.nCells : ℕ) : ℤ)] (2 + (n * f.nCells : ℕ)) s

/-- `hex(id)[2:]`, most significant digit first. -/
def hexDigits (id : ℕ) : List ℕ := (Nat.digits 16 id).reverse

/-- `skip_nocode` (dolfyn/io/rdi.py:1294-1304): the distance to the next offset in the first header
of the file; unknown identifiers raise `KeyError`, the last one `IndexError`. -/
def rdSkipNocode (bs : List ℕ) (id : ℕ) (s : RdState) : Except Err RdState :=
  match s.idPos.find? (·.1 = id) with
  | none => .error .keyError
  | some (_, o) =>
    let offs := s.idPos.map (·.2)
    match offs.dropWhile (· ≠ o) with
    | _ :: o' :: _ => rdSkip bs (o' - o - 2) s
    | _ => .error .indexError

/-- `read_nocode` (dolfyn/io/rdi.py:1276-1292). For identifiers written `30…` in hexadecimal the
count of fields is multiplied by the number of ones in the digit `0`, that is by zero; `int` of a
hexadecimal letter raises, and so does a missing digit. -/
def rdNocode (bs : List ℕ) (id : ℕ) (s : RdState) : Except Err RdState :=
  match hexDigits id with
  | 3 :: 0 :: d :: _ => if d < 10 then rdSkip bs 0 s else .error .valueError
  | [3, 0] => .error .indexError
  | _ => rdSkipNocode bs id s

/-- The identifiers of plain skips (`skip_Nbyte` entries of `function_map`). -/
def rdSkipTable : List (ℕ × ℕ) :=
  [(259, 74), (515, 186), (524, 4), (1027, 6), (3000, 32), (3841, 38), (8211, 83), (12800, 32), (12288, 32),
    (12496, 24), (12504, 48), (17408, 28), (17409, 82), (22531, 68), (22532, 21), (22785, 65), (22786, 105),
    (28673, 14)]

/-- The identifiers of skips in cells (`skip_Ncol` entries). -/
def rdColTable : List (ℕ × ℕ) :=
  [(770, 1), (771, 18), (1793, 4), (1794, 4), (1795, 4), (2560, 1), (2816, 1), (3072, 1), (3328, 1)]

/-- The identifiers of cell data: bytes per value and profile. -/
def rdCellTable : List (ℕ × ℕ × ℕ) :=
  [(256, 2, 0), (257, 2, 1), (272, 2, 2), (512, 1, 0), (513, 1, 1), (528, 1, 2), (768, 1, 0), (769, 1, 1),
    (784, 1, 2), (1024, 1, 0), (1025, 1, 1), (1040, 1, 2), (1280, 1, 0), (1281, 1, 1), (1296, 1, 2)]

/-- WinRiver identifiers of `read_winriver`. -/
def rdWinriverIds : List ℕ := [8448, 8449, 8450, 8451, 8452]

/-- The readers that never return `'FAIL'`. -/
def rdPlain (env : RdEnv) (bs : List ℕ) (id : ℕ) (s : RdState) : Except Err RdState :=
  if id = 0 then rdFixed bs false s
  else if id = 1 then rdFixed bs true s
  else if id = 16 then rdFixedSl bs s
  else if id = 128 then rdVar bs false s
  else if id = 129 then rdVar bs true s
  else if id = 1536 then rdBottom bs s
  else if id = 8192 then rdVmdas env bs s
  else if id = 16640 then rdAlt bs s
  else if id ∈ rdWinriverIds then rdWinriver bs s
  else
    match rdCellTable.lookup id, rdSkipTable.lookup id, rdColTable.lookup id with
    | some (w, bb), _, _ => rdCells bs w bb s
    | _, some n, _ => rdSkip bs n s
    | _, _, some n => rdSkipCol bs n s
    | _, _, _ => rdNocode bs id s

/-- `read_dat` (dolfyn/io/rdi.py:598-704). -/
def rdDat (env : RdEnv) (bs : List ℕ) (id : ℕ) (s : RdState) : Except Err (RdState × Bool) :=
  if id = 8226 then rdWinriver2 env bs s else (rdPlain env bs id s).map (·, false)

/-! ### An ensemble -/

/-- `id = fd.read_ui16(1)` and `read_dat` (dolfyn/io/rdi.py:440-446). -/
def rdBlock (env : RdEnv) (bs : List ℕ) (s : RdState) : Except Err (RdState × Bool) :=
  match rdNeed bs s.pos 2 with
  | .error e => .error e
  | .ok c => rdDat env bs (leNat c) { s with pos := s.pos + 2 }

/-- Move by `z` unless it is zero. -/
def rdAdjust (s : RdState) (z : ℤ) : Except Err RdState :=
  if z = 0 then .ok s else (rdSeek s.pos z).map fun p => { s with pos := p }

/-- The loop over the data types (dolfyn/io/rdi.py:438-465); the list holds the offsets of the types
still to come after the present one. -/
def rdBlocks (env : RdEnv) (bs : List ℕ) : List ℤ → ℤ → RdState → Except Err RdState
  | [], bo, s =>
    match rdBlock env bs s with
    | .error e => .error e
    | .ok (s', true) => .ok s'
    | .ok (s', false) =>
      if s'.winrivprob then .ok s' else rdAdjust s' (s'.hdrNbyte - 2 - (bo + s'.nbyte))
  | o :: os, bo, s =>
    match rdBlock env bs s with
    | .error e => .error e
    | .ok (s', true) => .ok s'
    | .ok (s', false) =>
      match rdAdjust s' (o - (bo + s'.nbyte)) with
      | .error e => .error e
      | .ok s'' => rdBlocks env bs os o s''

/-- `read_hdrseg` (dolfyn/io/rdi.py:550-557) at position `p`: length, number of types, offsets and the
position behind. At the end of the file, or without types, the offsets are `None` (here `[]`). -/
def rdHdrRaw (bs : List ℕ) (p : ℤ) : Except Err (ℤ × ℕ × List ℤ × ℤ) :=
  match rdNeed bs p 2, rdNeed bs (p + 2) 1, rdNeed bs (p + 3) 1 with
  | .error e, _, _ => .error e
  | _, .error e, _ => .error e
  | _, _, .error e => .error e
  | .ok c, .ok _, .ok d =>
    match rdBytes bs (p + 4) (2 * d.getD 0 0) with
    | .error e => .error e
    | .ok none => .ok (rdI16 c, d.getD 0 0, [], p + 4)
    | .ok (some offs) => .ok (rdI16 c, d.getD 0 0, adElems .H (d.getD 0 0) offs, p + 4 + 2 * d.getD 0 0)

/-- `read_hdrseg` followed by a use of `dat_offsets` as a sequence: with fewer than two data types (a
scalar or `None`) or without offsets this raises. -/
def rdHdrseg (bs : List ℕ) (p : ℤ) : Except Err (ℤ × List ℤ × ℤ) :=
  match rdHdrRaw bs p with
  | .error e => .error e
  | .ok (nb, ndat, offs, q) => if ndat < 2 ∨ offs = [] then .error .typeError else .ok (nb, offs, q)

/-- The search for the VMDAS block in front of the next ensemble (dolfyn/io/rdi.py:468-482). -/
def rdVmdasAgain (env : RdEnv) (bs : List ℕ) (s : RdState) : Except Err RdState :=
  if s.vmdasSearch ∧ ¬ s.readVmdas then
    match rdSearch bs s.pos with
    | .error e => .error e
    | .ok (_, r) =>
      match rdSeek r (-98) with
      | .error e => .error e
      | .ok p =>
        match rdBytes bs p 2 with
        | .error e => .error e
        | .ok none => .ok { s with pos := p }
        | .ok (some c) =>
          if leNat c = 8192 then rdVmdas env bs { s with pos := p + 2 } else .ok { s with pos := p + 2 }
  else .ok s

/-- `check_offset` (dolfyn/io/rdi.py:578-590). -/
def rdCheckOffset (offset : ℤ) (s : RdState) : Except Err RdState :=
  let fix := if offset ≠ 4 ∧ s.fixoffset = 0 then offset - 4 else s.fixoffset
  (rdSeek s.pos (4 + fix)).map fun p => { s with pos := p, fixoffset := fix }

/-- The body of the loop of `read_buffer` once an ensemble has been found whose `7F 7F` ends at `p`
(dolfyn/io/rdi.py:433-485). -/
def rdBody (env : RdEnv) (bs : List ℕ) (p : ℤ) (s : RdState) : Except Err RdState :=
  match rdHdrseg bs p with
  | .error e => .error e
  | .ok (nb, offs, q) =>
    match rdBlocks env bs offs.tail (6 + 2 * offs.length)
      { s with pos := q, nbyte := 4 + 2 * offs.length, hdrNbyte := nb, readVmdas := false } with
    | .error e => .error e
    | .ok s1 =>
      match rdVmdasAgain env bs s1 with
      | .error e => .error e
      | .ok s2 => rdCheckOffset (s2.hdrNbyte + 2 - (s2.pos - (p - 2))) s2

/-- One turn of the loop of `read_buffer`; `none` is `return False`. -/
def rdEnsemble (env : RdEnv) (bs : List ℕ) (s : RdState) : Except Err (Option RdState) :=
  match rdSearch bs s.pos with
  | .error e => .error e
  | .ok (false, _) => .ok none
  | .ok (true, p) => (rdBody env bs p s).map some

/-- `while self.ensemble.k < self.ensemble.n_avg - 1` with `n_avg = 1`; the first argument is fuel. -/
def rdBufferLoop (env : RdEnv) (bs : List ℕ) : ℕ → RdState → Option (Except Err (Option RdState))
  | 0, _ => none
  | n + 1, s =>
    match s.ens with
    | none => some (.error .attributeError)
    | some (_, k) =>
      if k < 0 then
        match rdEnsemble env bs s with
        | .error e => some (.error e)
        | .ok none => some (.ok none)
        | .ok (some s') => rdBufferLoop env bs n s'
      else some (.ok (some s))

/-- `ensemble.k = -1`. -/
def rdResetK (e : Option (ℕ × ℤ)) : Option (ℕ × ℤ) := e.map fun x => (x.1, -1)

/-- `read_buffer` (dolfyn/io/rdi.py:424-486). -/
def rdBuffer (env : RdEnv) (bs : List ℕ) (fuel : ℕ) (s : RdState) : Option (Except Err (Option RdState)) :=
  rdBufferLoop env bs fuel { s with ens := rdResetK s.ens, ensBB := rdResetK s.ensBB }

/-- The loop of `load_data` over `nens` ensembles (dolfyn/io/rdi.py:326-330): the number of columns
that were filled, and the reader. -/
def rdLoad (env : RdEnv) (bs : List ℕ) (fuel : ℕ) : ℕ → RdState → Option (Except Err (ℕ × RdState))
  | 0, s => some (.ok (0, s))
  | n + 1, s =>
    match rdBuffer env bs fuel s with
    | none => none
    | some (.error e) => some (.error e)
    | some (.ok none) => some (.ok (0, s))
    | some (.ok (some s')) =>
      match rdLoad env bs fuel n s' with
      | none => none
      | some (.error e) => some (.error e)
      | some (.ok (m, t)) => some (.ok (m + 1, t))

end Dolfyn
