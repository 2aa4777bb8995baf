import Verif.Model.RdiInit
import Verif.Model.Ad2cpMore
import Verif.Model.RdiMisc

/-!
Model of the values that `dolfyn/io/rdi.py` decodes: what each data-type reader stores in the ensemble,
the cleaning of the ensemble, the columns that `load_data` copies into the dataset, the dropping of
variables that were never read, and the range coordinates.

The movements in the file are those of `Model/Rdi.lean`; here the same loops carry the memory of the
reader along. Navigation data (VMDAS and WinRiver blocks) are not kept. Numbers are exact where the code
rounds to float32. `n_avg = 1` as in `read_rdi`.
-/

namespace Dolfyn

/-- The variables of `data_defs` (dolfyn/io/rdi_defs.py:38-101) without clock, error word and
navigation data. -/
inductive RdName
  | number | builtin | cSound | depth | heading | pitch | roll | salinity | temp | preping | headingStd
  | pitchStd | rollStd | adc | pressure | pressureStd
  | vel | amp | corr | prcntGd | status
  | velSl | ampSl | corrSl | prcntGdSl | statusSl
  | distBt | velBt | corrBt | ampBt | prcntGdBt
  | altDist | altRssi | altEval | altStatus
  deriving DecidableEq, Repr

/-- The variables whose first dimension is `'nc'`. -/
def RdName.profile : RdName → Bool
  | .vel | .amp | .corr | .prcntGd | .status | .velSl | .ampSl | .corrSl | .prcntGdSl | .statusSl => true
  | _ => false

/-- The contents of an `_ensemble`: variable, cell, beam. Variables without cells use cell 0, those
without beams beam 0. -/
abbrev RdVals := RdName → ℕ → ℕ → Option ℚ

/-- `ens.nm[...] = x`. -/
def vput (nm : RdName) (x : ℕ → ℕ → Option ℚ) (v : RdVals) : RdVals := fun m => if m = nm then x else v m

/-- The value of format `fmt` at byte `i` (`bin_reader.read`, dolfyn/io/rdi_lib.py:71-79). -/
def rdAt (fmt : AdFmt) (c : List ℕ) (i : ℕ) : ℤ := adVal fmt ((c.drop i).take fmt.size)

/-- A scalar. -/
def sc (q : ℚ) : ℕ → ℕ → Option ℚ := fun _ _ => some q

/-- `k` values, one per beam (or channel). -/
def perBeam (k : ℕ) (g : ℕ → ℚ) : ℕ → ℕ → Option ℚ := fun _ b => if b < k then some (g b) else none

/-- The memory of the reader: the first ensemble, its clock, the second ensemble, `vars_read`,
`flag`, and the bytes from which `self.cfg` was decoded. -/
structure RdMem where
  nb : RdVals
  rtc : ℕ → ℕ
  bb : RdVals
  seen : List RdName
  flag : ℕ
  cfgB : List ℕ

/-- `_variable_setlist.__iadd__` (dolfyn/io/rdi_defs.py:163-167): nothing is added if the first name is
there. -/
def seenAdd (seen vals : List RdName) : List RdName :=
  match vals with
  | [] => seen
  | v :: _ => if v ∈ seen then seen else seen ++ vals

/-- `cfg['prog_ver'] >= ...` of the branches of `read_var` that store a pressure
(dolfyn/io/rdi.py:876-885). -/
def rdHasPressure (f : RdFixed) : Bool := !rdBroadband f.fw && !rdOcean f.fw && decide (813 ≤ f.ver)

/-- The branches of `read_var` with a second clock, at byte 55 (dolfyn/io/rdi.py:861-868, 886-892). -/
def rdHasCentury (f : RdFixed) : Bool :=
  if rdBroadband f.fw then decide (555 ≤ f.ver)
  else if rdOcean f.fw then false else decide (1605 ≤ f.ver)

/-- The values stored by `read_var` (dolfyn/io/rdi.py:841-893). -/
def rdVarVals (f : RdFixed) (c : List ℕ) (v : RdVals) : RdVals :=
  let v := vput .number (sc (rdNumber (rdAt .H c 0).toNat (rdAt .B c 9).toNat)) v
  let v := vput .builtin (sc (if rdAt .H c 10 = 0 then 0 else 1)) v
  let v := vput .cSound (sc (rdAt .H c 12)) v
  let v := vput .depth (sc (rdAt .H c 14 * (1 / 10))) v
  let v := vput .heading (sc (rdAt .H c 16 * (1 / 100))) v
  let v := vput .pitch (sc (rdAt .h c 18 * (1 / 100))) v
  let v := vput .roll (sc (rdAt .h c 20 * (1 / 100))) v
  let v := vput .salinity (sc (rdAt .h c 22)) v
  let v := vput .temp (sc (rdAt .h c 24 * (1 / 100))) v
  let v := vput .preping (sc (rdAt .B c 26 * 60 + rdAt .B c 27 * 1 + rdAt .B c 28 * (1 / 100))) v
  let v := vput .headingStd (sc (rdAt .B c 29)) v
  let v := vput .pitchStd (sc (rdAt .B c 30 * (1 / 10))) v
  let v := vput .rollStd (sc (rdAt .B c 31 * (1 / 10))) v
  let v := vput .adc (perBeam 8 fun j => ((rdAt .b c (32 + j) % 256 : ℤ) : ℚ)) v
  if rdHasPressure f then
    vput .pressureStd (sc (rdAt .I c 50 / 1000)) (vput .pressure (sc (rdAt .I c 46 / 1000)) v)
  else v

/-- The clock stored by `read_var`: seven bytes, replaced by those with a century if there are any. -/
def rdVarClock (f : RdFixed) (c : List ℕ) : ℕ → ℕ := fun i =>
  if 7 ≤ i then 0
  else if rdHasCentury f then
    if i = 0 then c.getD 56 0 + c.getD 55 0 * 100 else c.getD (56 + i) 0
  else c.getD (2 + i) 0

/-- The names `read_var` adds to `vars_read` (dolfyn/io/rdi.py:826-840, 876). -/
def rdVarSeen (f : RdFixed) (seen : List RdName) : List RdName :=
  let seen := seenAdd seen [.number, .builtin, .cSound, .depth, .heading, .pitch, .roll, .salinity, .temp,
    .preping, .headingStd, .pitchStd, .rollStd, .adc]
  if rdBroadband f.fw || rdOcean f.fw then seen else seenAdd seen [.pressure, .pressureStd]

/-- The cell data (`function_map`, dolfyn/io/rdi.py:605-650, and `switch_profile`, :901-918): variable,
format, factor and profile. -/
def rdCellInfo (id : ℕ) : Option (RdName × AdFmt × ℚ × ℕ) :=
  if id = 256 then some (.vel, .h, 1 / 1000, 0)
  else if id = 257 then some (.vel, .h, 1 / 1000, 1)
  else if id = 272 then some (.velSl, .h, 1 / 1000, 2)
  else if id = 512 then some (.corr, .B, 1, 0)
  else if id = 513 then some (.corr, .B, 1, 1)
  else if id = 528 then some (.corrSl, .B, 1, 2)
  else if id = 768 then some (.amp, .B, 1, 0)
  else if id = 769 then some (.amp, .B, 1, 1)
  else if id = 784 then some (.ampSl, .B, 1, 2)
  else if id = 1024 then some (.prcntGd, .B, 1, 0)
  else if id = 1025 then some (.prcntGd, .B, 1, 1)
  else if id = 1040 then some (.prcntGdSl, .B, 1, 2)
  else if id = 1280 then some (.status, .B, 1, 0)
  else if id = 1281 then some (.status, .B, 1, 1)
  else if id = 1296 then some (.statusSl, .B, 1, 2)
  else none

/-- `ens[nm][:n_cells, :, k] = np.array(read(4 * n_cells)).reshape((n_cells, 4)) * scale`
(dolfyn/io/rdi.py:920-981). -/
def rdCellVals (fmt : AdFmt) (scale : ℚ) (n : ℕ) (c : List ℕ) (old : ℕ → ℕ → Option ℚ) :
    ℕ → ℕ → Option ℚ := fun cell beam =>
  if cell < n ∧ beam < 4 then some (rdAt fmt c ((4 * cell + beam) * fmt.size) * scale) else old cell beam

/-- The values stored by `read_bottom` (dolfyn/io/rdi.py:983-1040); `p` is where the high bytes of the ranges are read. -/
def rdBottomValsAt (p : ℕ) (f : RdFixed) (c : List ℕ) (v : RdVals) : RdVals :=
  let msb : ℕ → ℚ := fun b => if 530 ≤ f.ver then rdAt .B c (p + b) * (65536 / 100) else 0
  let v := vput .distBt (perBeam 4 fun b => rdAt .H c (14 + 2 * b) * (1 / 100) + msb b) v
  let v := vput .velBt (perBeam 4 fun b => rdAt .h c (22 + 2 * b) * (1 / 1000)) v
  let v := vput .corrBt (perBeam 4 fun b => rdAt .B c (30 + b)) v
  let v := vput .ampBt (perBeam 4 fun b => rdAt .B c (34 + b)) v
  vput .prcntGdBt (perBeam 4 fun b => rdAt .B c (38 + b)) v

/-- When the source is not WinRiver: 26 and 7 bytes are skipped behind the percentages (dolfyn/io/rdi.py:1025-1031). -/
def rdBottomVals (f : RdFixed) (c : List ℕ) (v : RdVals) : RdVals := rdBottomValsAt 75 f c v

/-- When the source is WinRiver: the position is read from bytes in between, and the skips are 2 + 2 + 16 + 1 - 7 and 7
bytes (dolfyn/io/rdi.py:1006-1031). -/
def rdBottomValsWin (f : RdFixed) (c : List ℕ) (v : RdVals) : RdVals := rdBottomValsAt 63 f c v

/-- The values stored by `read_alt` (dolfyn/io/rdi.py:1042-1055). -/
def rdAltVals (c : List ℕ) (v : RdVals) : RdVals :=
  let v := vput .altEval (sc (rdAt .B c 0)) v
  let v := vput .altRssi (sc (rdAt .B c 1)) v
  let v := vput .altDist (sc (rdAt .I c 2 / 1000)) v
  vput .altStatus (sc (rdAt .B c 6)) v

/-- A new `_ensemble` (dolfyn/io/rdi_defs.py:179-187): zeros. -/
def rdZeros : RdVals := fun _ => sc 0

/-- What the cells of a data block do to the memory; `n` is the number of cells of its profile. -/
def rdStoreCells (n : ℕ) (c : List ℕ) (m : RdMem) : RdName × AdFmt × ℚ × ℕ → RdMem
  | (nm, fmt, scale, p) =>
    if p = 1 then
      { m with seen := seenAdd m.seen [nm], bb := vput nm (rdCellVals fmt scale n c (m.bb nm)) m.bb }
    else
      { m with seen := seenAdd m.seen [nm], nb := vput nm (rdCellVals fmt scale n c (m.nb nm)) m.nb }

/-- The bytes of the first fixed leader. -/
def rdKeep (id : ℕ) (c : List ℕ) (m : RdMem) : RdMem := { m with cfgB := if id = 0 then c.take 57 else m.cfgB }

/-- What reading the type `id` does to the memory: `f` is the configuration, `n` the number of cells of
the profile, `grow` the cells by which the fixed leader enlarged the ensemble, `src` the source program, and
`c` are the bytes behind the identifier. -/
def rdStore (f : RdFixed) (src n grow : ℕ) (id : ℕ) (c : List ℕ) (m : RdMem) : RdMem :=
  if id = 0 ∨ id = 1 then
    if grow = 0 then rdKeep id c m else { rdKeep id c m with nb := rdZeros, rtc := fun _ => 0, flag := grow }
  else if id = 128 ∨ id = 129 then
    { m with nb := rdVarVals f c m.nb, rtc := rdVarClock f c, seen := rdVarSeen f m.seen }
  else if id = 1536 then
    if src = 2 then { m with nb := rdBottomValsWin f c m.nb, seen := seenAdd m.seen [.distBt, .velBt, .corrBt, .ampBt, .prcntGdBt] }
    else { m with nb := rdBottomVals f c m.nb, seen := seenAdd m.seen [.distBt, .velBt, .corrBt, .ampBt, .prcntGdBt] }
  else if id = 16640 then
    { m with nb := rdAltVals c m.nb, seen := seenAdd m.seen [.altDist, .altRssi, .altEval, .altStatus] }
  else match rdCellInfo id with
    | some i => rdStoreCells n c m i
    | none => m

/-- Cells of an ensemble. -/
def ensCells (e : Option (ℕ × ℤ)) : ℕ := (e.map (·.1)).getD 0

/-- The profile of an identifier. -/
def rdProfileOf (id : ℕ) : ℕ := ((rdCellInfo id).map (·.2.2.2)).getD 0

/-- Cells that the reader of `id` expects in state `s`. -/
def rdCellsOf (id : ℕ) (s : RdState) : ℕ :=
  match rdProfile (rdProfileOf id) s with
  | .ok (c, _) => c
  | .error _ => 0

/-- `read_dat` on reader and memory: `s` is the state behind the identifier, `s'` the one `read_dat`
leaves. -/
def rdStoreAt (bs : List ℕ) (id : ℕ) (s s' : RdState) (m : RdMem) : RdMem :=
  rdStore (s.cfg.getD ⟨0, 0, 0⟩) s.source (rdCellsOf id s) (ensCells s'.ens - ensCells s.ens) id
    (bs.drop s.pos.toNat) m

/-- `rdBlock` with memory. -/
def rdBlockV (env : RdEnv) (bs : List ℕ) (s : RdState) (m : RdMem) : Except Err (RdState × RdMem × Bool) :=
  match rdNeed bs s.pos 2 with
  | .error e => .error e
  | .ok c =>
    match rdDat env bs (leNat c) { s with pos := s.pos + 2 } with
    | .error e => .error e
    | .ok (s', fail) => .ok (s', rdStoreAt bs (leNat c) { s with pos := s.pos + 2 } s' m, fail)

/-- `rdBlocks` with memory. -/
def rdBlocksV (env : RdEnv) (bs : List ℕ) : List ℤ → ℤ → RdState → RdMem → Except Err (RdState × RdMem)
  | [], bo, s, m =>
    match rdBlockV env bs s m with
    | .error e => .error e
    | .ok (s', m', true) => .ok (s', m')
    | .ok (s', m', false) =>
      if s'.winrivprob then .ok (s', m')
      else (rdAdjust s' (s'.hdrNbyte - 2 - (bo + s'.nbyte))).map (·, m')
  | o :: os, bo, s, m =>
    match rdBlockV env bs s m with
    | .error e => .error e
    | .ok (s', m', true) => .ok (s', m')
    | .ok (s', m', false) =>
      match rdAdjust s' (o - (bo + s'.nbyte)) with
      | .error e => .error e
      | .ok s'' => rdBlocksV env bs os o s'' m'

/-- `rdBody` with memory. -/
def rdBodyV (env : RdEnv) (bs : List ℕ) (p : ℤ) (s : RdState) (m : RdMem) : Except Err (RdState × RdMem) :=
  match rdHdrseg bs p with
  | .error e => .error e
  | .ok (nb, offs, q) =>
    match rdBlocksV env bs offs.tail (6 + 2 * offs.length)
      { s with pos := q, nbyte := 4 + 2 * offs.length, hdrNbyte := nb, readVmdas := false } m with
    | .error e => .error e
    | .ok (s1, m1) =>
      match rdVmdasAgain env bs s1 with
      | .error e => .error e
      | .ok s2 => (rdCheckOffset (s2.hdrNbyte + 2 - (s2.pos - (p - 2))) s2).map (·, m1)

/-- `rdEnsemble` with memory. -/
def rdEnsembleV (env : RdEnv) (bs : List ℕ) (s : RdState) (m : RdMem) :
    Except Err (Option (RdState × RdMem)) :=
  match rdSearch bs s.pos with
  | .error e => .error e
  | .ok (false, _) => .ok none
  | .ok (true, p) => (rdBodyV env bs p s m).map some

/-- `rdBufferLoop` with memory. -/
def rdBufferLoopV (env : RdEnv) (bs : List ℕ) : ℕ → RdState → RdMem →
    Option (Except Err (Option (RdState × RdMem)))
  | 0, _, _ => none
  | n + 1, s, m =>
    match s.ens with
    | none => some (.error .attributeError)
    | some (_, k) =>
      if k < 0 then
        match rdEnsembleV env bs s m with
        | .error e => some (.error e)
        | .ok none => some (.ok none)
        | .ok (some (s', m')) => rdBufferLoopV env bs n s' m'
      else some (.ok (some (s, m)))

/-- `read_buffer` (dolfyn/io/rdi.py:424-486) with memory. -/
def rdBufferV (env : RdEnv) (bs : List ℕ) (fuel : ℕ) (s : RdState) (m : RdMem) :
    Option (Except Err (Option (RdState × RdMem))) :=
  rdBufferLoopV env bs fuel { s with ens := rdResetK s.ens, ensBB := rdResetK s.ensBB } m

/-- `clean_data` (dolfyn/io/rdi_defs.py:189-190). -/
def rdClean (v : RdVals) : RdVals :=
  vput .vel (fun c b => if v .vel c b = some (-32768 / 1000) then none else v .vel c b) v

/-- `if clock[0, 0] < 100: clock[0, :] += century` (dolfyn/io/rdi.py:342-344), in place. -/
def rdCentury (rtc : ℕ → ℕ) : ℕ → ℕ := fun i => if i = 0 ∧ rtc 0 < 100 then rtc 0 + 2000 else rtc i

/-- The time of a column (dolfyn/io/rdi.py:364-374): NaN when the clock is no date. -/
def rdColTime (rtc : ℕ → ℕ) : Option ℚ :=
  let t : CivilTime := ⟨rtc 0, rtc 1, rtc 2, rtc 3, rtc 4, rtc 5⟩
  if t.valid ∧ rtc 6 * 10000 < 1000000 then some (date2epoch t (rtc 6 * 10000)) else none

/-- The names of the copied variables, the ensemble, its cells, and the time. -/
structure RdColV where
  names : List RdName
  vals : RdVals
  cells : ℕ
  time : Option ℚ

/-- The arrays of the dataset: rows of the profile variables and the columns filled so far. -/
structure RdOutV where
  rows : RdName → ℕ
  cols : List RdColV

/-- Rows of an array after the enlargement (dolfyn/io/rdi.py:352-358). -/
def rdRows (flag n : ℕ) (r : ℕ) : ℕ := if 0 < flag ∧ r ≠ n then r + flag else r

/-- Copying an ensemble of `n` cells into the dataset (dolfyn/io/rdi.py:341-374): assigning an array with
another number of rows raises. -/
def rdEmit (n : ℕ) (m : RdMem) (o : RdOutV) : Except Err RdOutV :=
  if ∀ nm ∈ m.seen, nm.profile = true → rdRows m.flag n (o.rows nm) = n then
    .ok { rows := fun nm => if nm ∈ m.seen ∧ nm.profile = true then rdRows m.flag n (o.rows nm) else o.rows nm
          cols := o.cols ++ [RdColV.mk m.seen m.nb n (rdColTime m.rtc)] }
  else .error .valueError

/-- The memory after cleaning and before copying (dolfyn/io/rdi.py:331-344). -/
def rdCleaned (m : RdMem) : RdMem := { m with nb := rdClean m.nb, rtc := rdCentury m.rtc, bb := rdClean m.bb }

/-- The loop of `load_data` (dolfyn/io/rdi.py:326-374). -/
def rdLoadV (env : RdEnv) (bs : List ℕ) (fuel : ℕ) : ℕ → RdState → RdMem → RdOutV →
    Option (Except Err (RdState × RdMem × RdOutV))
  | 0, s, m, o => some (.ok (s, m, o))
  | n + 1, s, m, o =>
    match rdBufferV env bs fuel s m with
    | none => none
    | some (.error e) => some (.error e)
    | some (.ok none) => some (.ok (s, m, o))
    | some (.ok (some (s', m'))) =>
      match rdEmit (ensCells s'.ens) (rdCleaned m') o with
      | .error e => some (.error e)
      | .ok o' => rdLoadV env bs fuel n s' { rdCleaned m' with flag := 0 } o'

/-- The memory of a new reader. -/
def rdMem0 : RdMem := ⟨rdZeros, fun _ => 0, rdZeros, [], 0, []⟩

/-- The arrays made by `init_data` (dolfyn/io/rdi.py:388-422). -/
def rdOut0 (n : ℕ) : RdOutV := ⟨fun _ => n, []⟩

/-- Whether `data_defs` gives the variable a float type, whose array starts as NaN
(dolfyn/io/rdi_defs.py:137-145). -/
def RdName.isFloat : RdName → Bool
  | .number | .builtin | .adc | .amp | .corr | .prcntGd | .ampSl | .corrSl | .prcntGdSl | .corrBt | .ampBt
  | .prcntGdBt | .altRssi | .altEval | .altStatus => false
  | _ => true

/-- The element of the variable `nm` at cell, beam and column of the dataset. `junk` is what `np.empty`
leaves in arrays that are not initialised. -/
def rdElem (junk : RdName → ℕ → ℕ → ℕ → ℚ) (o : RdOutV) (nm : RdName) (c b i : ℕ) : Option ℚ :=
  match o.cols[i]? with
  | none => none
  | some col =>
    if nm ∈ col.names then
      if nm.profile = true ∧ col.cells ≤ c then none else col.vals nm c b
    else if nm.isFloat then none else some (junk nm c b i)

end Dolfyn
