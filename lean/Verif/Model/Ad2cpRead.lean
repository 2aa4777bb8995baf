import Verif.Model.Ad2cp

/-!
Model of the reading loop of `dolfyn/io/nortek2.py` (`_Ad2cpReader`).
-/

namespace Dolfyn

/-! ### Ensemble positions -/

/-- `_ens_pos = index['pos'][_boolarray_firstensemble_ping(index)]` (dolfyn/io/nortek2_lib.py:216-222,
dolfyn/io/nortek2.py:140-141): the positions where the ensemble number of the index changes. -/
def adEnsPosAux : Option ℕ → List AdEntry → List ℕ
  | _, [] => []
  | prev, e :: es => (if prev = some e.ens then [] else [e.pos]) ++ adEnsPosAux (some e.ens) es

def adEnsPos (idx : List AdEntry) : List ℕ := adEnsPosAux none idx

/-- `np.diff`. -/
def npDiff : List ℕ → List ℤ
  | a :: b :: r => ((b : ℤ) - a) :: npDiff (b :: r)
  | _ => []

/-- `_calc_lastblock_iswhole` (dolfyn/io/nortek2.py:147-151): the most frequent distance between
ensembles (the smallest one if several are equally frequent) is the size of a block. With a single
ensemble `argmax` of an empty array raises. -/
def adLastWhole (E : List ℕ) (eof : ℕ) : Except Err Bool :=
  match E.getLast?, firstArgmax (fun v => (npDiff E).count v) (npUnique (npDiff E)) with
  | some l, some bs => .ok (decide ((eof : ℤ) - l = bs))
  | _, _ => .error .valueError

/-! ### The loop -/

/-- What a record contains, for the loop. -/
inductive AdPayload
  | items (l : List AdItem)
  | str (sid : ℕ) (s : List ℕ)
  | skip
  deriving DecidableEq, Repr

/-- A record as the loop sees it: type, position of the file after it, contents. -/
structure AdRecInfo where
  id : ℕ
  next : ℕ
  payload : AdPayload
  deriving DecidableEq, Repr

/-- End of the loop: `IOError` while a header is read (caught), or another exception. -/
inductive AdStop
  | eof
  | err (e : Err)
  deriving DecidableEq, Repr

/-- The header of a record: type and size (`_read_hdr`, dolfyn/io/nortek2.py:256-260). -/
def adReadHdr (file : List ℕ) (p : ℕ) : Except AdStop (ℕ × ℕ) :=
  match adRead adHeader .off (file.drop p) with
  | .error .ioError => .error .eof
  | .error e => .error (.err e)
  | .ok ([.num sync, _, .num id, _, .num sz, _, _], _) =>
    if sync ≠ 165 then .error (.err .exception) else .ok (id.toNat, sz.toNat)
  | .ok _ => .error (.err .keyError)

/-- The body of a record at position `p` (dolfyn/io/nortek2.py:288-357); `readers` are the field lists
by type (`_burst_readers`). The number of raw altimeter samples of the types 26 and 31, which the code
finds out at the first such record, is already part of their field list. -/
def adReadBody (readers : ℕ → Option (List AdField)) (file : List ℕ) (p id sz : ℕ) :
    Except AdStop AdRecInfo :=
  if id ∈ [21, 22, 23, 24, 28, 26, 31] then
    match readers id with
    | none => .error (.err .keyError)
    | some fs =>
      match adRead fs .none (file.drop (p + 10)) with
      | .error e => .error (.err e)
      | .ok (items, _) => .ok ⟨id, p + 10 + adNbyte fs, .items items⟩
  else if id = 160 then
    match (file.drop (p + 10)).take sz with
    | [] => .error (.err .indexError)
    | sid :: s => .ok ⟨id, p + 10 + (s.length + 1), .str sid s.dropLast⟩
  else .ok ⟨id, p + 10 + sz, .skip⟩

/-- The record at position `p`. -/
def adRecAt (readers : ℕ → Option (List AdField)) (file : List ℕ) (p : ℕ) :
    Except AdStop AdRecInfo := do
  let (id, sz) ← adReadHdr file p
  adReadBody readers file p id sz

/-- What is stored: a ping at a column, a raw altimeter ping at its own index with the column as its
`ensemble`, a string. -/
inductive AdWrite
  | ping (id col : ℕ) (l : List AdItem)
  | alt (id k col : ℕ) (l : List AdItem)
  | str (col sid : ℕ) (s : List ℕ)
  deriving DecidableEq, Repr

/-- `_posnow`: the position of the next ensemble, or one behind the end of the file. -/
def adPosnow (E : List ℕ) (eof e : ℕ) : ℕ := (E[e + 1]?).getD (eof + 1)

/-- `_advance_ens_count` (dolfyn/io/nortek2.py:364-390) in terms of the absolute ensemble number
`e = c + ens_start`; `nt` is `nens_total`, `p` the position of the file. -/
def adAdvance (E : List ℕ) (eof nt p e : ℕ) : ℕ :=
  if adPosnow E eof e ≤ p then
    if nt ≤ e + 2 then e + 1 else adAdvance E eof nt p (e + 1)
  else e
termination_by nt - e

/-- Fixed parameters of a read: ensemble positions, file size, `nens_total`, first ensemble, number of
ensembles, number of raw altimeter pings expected for a type (`n_altraw`). -/
structure AdCtx where
  E : List ℕ
  eof : ℕ
  nt : ℕ
  start : ℕ
  nens : ℕ
  nAlt : ℕ → ℕ

/-- Storing of a record (dolfyn/io/nortek2.py:294-357); `k` are the counters of the types 26 and 31.
A type without expected raw altimeter pings has lost its reader (dolfyn/io/nortek2.py:235-238). -/
def adStore (ctx : AdCtx) (r : AdRecInfo) (c : ℕ) (k : ℕ → ℕ) :
    Except Err (List AdWrite × (ℕ → ℕ)) :=
  match r.payload with
  | .items l =>
    if r.id = 26 ∨ r.id = 31 then
      if ctx.nAlt r.id = 0 then .error .keyError
      else if ctx.nAlt r.id ≤ k r.id then .error .indexError
      else .ok ([.alt r.id (k r.id) c l], Function.update k r.id (k r.id + 1))
    else if ctx.nens ≤ c then .error .indexError
    else .ok ([.ping r.id c l], k)
  | .str sid s => .ok ([.str c sid s], k)
  | .skip => .ok ([], k)

/-- The loop of `readfile` (dolfyn/io/nortek2.py:288-362); `none` when the fuel does not suffice. -/
def adReadLoop (recAt : ℕ → Except AdStop AdRecInfo) (ctx : AdCtx) :
    ℕ → ℕ → ℕ → (ℕ → ℕ) → Option (Except Err (List AdWrite))
  | 0, _, _, _ => none
  | fuel + 1, p, c, k =>
    match recAt p with
    | .error .eof => some (.ok [])
    | .error (.err e) => some (.error e)
    | .ok r =>
      match adStore ctx r c k with
      | .error e => some (.error e)
      | .ok (w, k') =>
        let c' := adAdvance ctx.E ctx.eof ctx.nt r.next (c + ctx.start) - ctx.start
        if ctx.nens ≤ c' then some (.ok w)
        else match adReadLoop recAt ctx fuel r.next c' k' with
          | none => none
          | some (.error e) => some (.error e)
          | some (.ok l) => some (.ok (w ++ l))

/-- `n_id` of `init_data` (dolfyn/io/nortek2.py:230-233): entries of a type whose own ensemble number is
in the range. -/
def adNId (idx : List AdEntry) (start stop id : ℕ) : ℕ :=
  (idx.filter (fun e => e.id = id ∧ start ≤ e.ens ∧ e.ens < stop)).length

/-- `ens_stop` limited by the number of ensembles (dolfyn/io/nortek2.py:276-277). -/
def adStopOf (nt : ℕ) (stop : Option ℕ) : ℕ :=
  match stop with
  | none => nt
  | some b => if nt < b then nt else b

/-- `readfile` (dolfyn/io/nortek2.py:272-362) for non-negative arguments. A negative number of ensembles
fails in `init_data`. -/
def adReadfile (recAt : ℕ → Except AdStop AdRecInfo) (idx : List AdEntry) (eof : ℕ) (whole : Bool)
    (fuel start : ℕ) (stop : Option ℕ) : Option (Except Err (List AdWrite)) :=
  let E := adEnsPos idx
  let nt := E.length - (if whole then 0 else 1)
  let stop' := adStopOf nt stop
  if stop' < start then some (.error .valueError)
  else match E[start]? with
    | none => some (.error .indexError)
    | some p0 =>
      adReadLoop recAt ⟨E, eof, nt, start, stop' - start, adNId idx start stop'⟩ fuel p0 0 (fun _ => 0)

end Dolfyn
