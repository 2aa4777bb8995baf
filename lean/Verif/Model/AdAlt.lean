import Verif.Model.Ad2cpSci

/-!
Raw altimeter records of AD2CP files (dolfyn/io/nortek2.py:294-334, 404-412).
-/

namespace Dolfyn

/-- The names of `_calc_burst_struct` in order (dolfyn/io/nortek2_defs.py:178-224, 310-369). -/
def adBurstNames (config : ℕ) : List AdVar :=
  [.ver, .datOffset, .config, .serialNum, .year, .month, .day, .hour, .minute, .second, .usec100, .cSound, .temp, .pressure,
   .heading, .pitch, .roll, .beamConfig, .cellSize, .blankDist, .nominalCorr, .tempPress, .batt, .mag, .accel, .ambigVel,
   .dataDesc, .xmitEnergy, .velScale, .powerLevel, .tempMag, .tempClock, .error, .status0, .status, .ensemble]
    ++ (if getbit config 5 then [.vel] else [])
    ++ (if getbit config 6 then [.amp] else [])
    ++ (if getbit config 7 then [.corr] else [])
    ++ (if getbit config 8 then [.leDist, .leQuality, .statusAlt] else [])
    ++ (if getbit config 10 then [.astDist, .astQuality, .astOffsetTime, .pressureAlt, .spare] else [])
    ++ (if getbit config 9 then [.nsampAlt, .dsampAlt, .sampAlt] else [])
    ++ (if getbit config 12 then [.orientmat, .quaternions, .angrt] else [])
    ++ (if getbit config 13 then [.percentGood] else [])
    ++ (if getbit config 14 then [.pitchStd, .rollStd, .headingStd, .pressStd, .stdSpare] else [])

/-- `calcsize` of a format without a byte order character: every number starts at a multiple of its size; none behind the
last one. `off` is the offset of the first. -/
def adNatSizeFrom (off : ℕ) : List AdField → ℕ
  | [] => off
  | fd :: fs => adNatSizeFrom ((off + fd.fmt.size - 1) / fd.fmt.size * fd.fmt.size + fd.bytes) fs

def adNatSize (fs : List AdField) : ℕ := adNatSizeFrom 0 fs

/-- The reader of a raw altimeter type: `_struct` is made from `fs`, `nbyte`; `fixed`: there is a `_nsamp_index`. -/
structure AdAltRdr where
  fs : List AdField
  nbyte : ℕ
  fixed : Bool
  deriving DecidableEq, Repr

/-- The reader as made by `_init_burst_readers`: `_DataDef.__init__` (dolfyn/io/nortek2_defs.py:61-63). -/
def adAltInit (fs : List AdField) : AdAltRdr := ⟨fs, adNbyte fs, false⟩

/-- `_DataDef.read` with the `nbyte` of the reader, which need not be the size of its `_struct`
(dolfyn/io/nortek2_defs.py:86-111). -/
def adReadN (fs : List AdField) (nbyte : ℕ) (rest : List ℕ) : Except Err (List AdItem × List ℕ) :=
  let byts := rest.take nbyte
  if byts.length ≠ nbyte then .error .ioError
  else if nbyte ≠ adNbyte fs then .error .structError
  else do
    let items ← adGroup (fs.map AdField.n) (adUnpack fs byts)
    pure (items, rest.drop nbyte)

/-- A raw altimeter record (dolfyn/io/nortek2.py:297-332); `rest` are the bytes behind its header. The number of samples is
read first; the first record decides on the size. The offset of the number of samples and the new `nbyte` come from
`calcsize` without `'<'`. -/
def adAltRead (names : List AdVar) (r : AdAltRdr) (rest : List ℕ) : Except Err (List AdItem × AdAltRdr × List ℕ) :=
  match names.idxOf? .nsampAlt with
  | none => .error .valueError
  | some i =>
    let b4 := (rest.drop (adNatSize (r.fs.take i))).take 4
    if b4.length ≠ 4 then .error .structError
    else
      let sz := leNat b4
      if r.fixed then
        if sz ≠ (r.fs.getD (i + 2) ⟨.h, 0, 1⟩).n then .error .exception
        else do
          let (items, rest') ← adReadN r.fs r.nbyte rest
          pure (items, r, rest')
      else do
        let fs' := r.fs.set (i + 2) { r.fs.getD (i + 2) ⟨.h, 0, 1⟩ with n := sz }
        let (items, rest') ← adReadN fs' (adNatSize fs') rest
        pure (items, ⟨fs', adNatSize fs', true⟩, rest')

/-- The raw altimeter records of a file, one after the other; each is given with the bytes of the file from it on. -/
def adAltSeq (names : List AdVar) : AdAltRdr → List (List ℕ) → Except Err (List (List AdItem))
  | _, [] => .ok []
  | r, b :: bs => do
    let (items, r', _) ← adAltRead names r b
    let l ← adAltSeq names r' bs
    pure (items :: l)

/-- A sample in the dataset: stored in an array of `uint16` and divided by `2**8` (dolfyn/io/nortek2.py:324-327, 412). -/
def adAltSample (v : ℤ) : ℚ := ((v % 65536 : ℤ) : ℚ) / 256

end Dolfyn
