import Verif.Model.Ad2cpHead

/-!
Model of what `save` does to the encodings (dolfyn/io/api.py:183-204) and of `_decode_cf`
(dolfyn/io/api.py:26-63), and of the attributes after `ADVBinner.__call__` (dolfyn/adv/turbulence.py:30-50).
Values `V` of attributes and encodings are not interpreted. `ds[ky].encoding` is the dictionary of the variable
itself, so changes to `enc[ky]` and to the variable are the same change.
-/

namespace Dolfyn

variable {V : Type*}

/-- `del d[k]` / `d.pop(k)` if there. -/
def pdel (d : List (Key × V)) (k : Key) : List (Key × V) := d.filter fun p => p.1 ≠ k

/-- A variable of a dataset as far as `save` handles its encoding. `small`: `size <= 1` or strings. -/
structure EncVar (V : Type*) where
  name : Key
  isTime : Bool
  small : Bool
  attrs : List (Key × V)
  enc : List (Key × V)

/-- The netCDF4 parameters dropped (dolfyn/io/api.py:191). -/
def dropParams : List Key :=
  ["szip".toList, "zstd".toList, "bzip2".toList, "blosc".toList, "contiguous".toList, "chunksizes".toList]

/-- The loop body (dolfyn/io/api.py:187-198); `tt` is `True`, `one` is 1. -/
def saveVar (tt one : V) (compress : Bool) (v : EncVar V) : EncVar V :=
  if compress = true ∧ v.small = false then
    { v with enc := pset (pset (dropParams.foldl pdel v.enc) "zlib".toList tt) "complevel".toList one }
  else { v with enc := dropParams.foldl pdel v.enc }

/-- The units of a time go from the attributes to the encoding (dolfyn/io/api.py:43-49). -/
def unitsVar (ku : Key) (v : EncVar V) : EncVar V :=
  if v.isTime then
    match pget v.attrs ku with
    | some u => { v with attrs := pdel v.attrs ku, enc := pset v.enc ku u }
    | none => v
  else v

/-- The first loop of `_decode_cf` (dolfyn/io/api.py:42-54). -/
def decodeVar (v : EncVar V) : EncVar V :=
  { unitsVar "units".toList v with enc := pdel (unitsVar "units".toList v).enc "_FillValue".toList }

/-- The second loop of `_decode_cf` (dolfyn/io/api.py:59-62). -/
def decodeVar2 (v : EncVar V) : EncVar V :=
  if v.isTime then { v with enc := pdel v.enc "dtype".toList } else v

/-- The variables of the caller's dataset after `save` (before `xr.decode_cf` makes copies). -/
def saveVars (tt one : V) (compress : Bool) (vs : List (EncVar V)) : List (EncVar V) :=
  vs.map fun v => decodeVar (saveVar tt one compress v)

/-- `kwargs['encoding']` handed to `to_netcdf` (dolfyn/io/api.py:183-200): the argument, overwritten by the
dictionary of each variable. -/
def saveEnc (tt one : V) (compress : Bool) (user : List (Key × List (Key × V))) (vs : List (EncVar V)) :
    List (Key × List (Key × V)) :=
  (saveVars tt one compress vs).foldl (fun d v => pset d v.name v.enc) user

/-- Attributes of the input and of the output of `ADVBinner.__call__` (dolfyn/adv/turbulence.py:42-48): keys with
`config` are popped from the input; assigning `attrs` copies the dictionary. -/
def advCallAttrs (attrs : List (Key × V)) (nBin nFft nFftCoh : V) : List (Key × V) × List (Key × V) :=
  let a := attrs.filter fun p => !keyIn "config" p.1
  (a, pset (pset (pset a "n_bin".toList nBin) "n_fft".toList nFft) "n_fft_coh".toList nFftCoh)

end Dolfyn
