import Verif.Model.Float64
import Verif.Model.RdiVals

/-!
How the readers turn recorded integers into numbers in single precision. The models of the readers give the exact product
of the recorded integer and its factor; here are the roundings of the code. A product of an integer array with a Python
float is a double (numpy), an assignment to a float32 array or `astype` rounds once more; float32 arrays multiplied in place
stay float32, the factor being rounded to float32 first.
-/

namespace Dolfyn

/-- `(n + offset) * scale` in double precision, stored as float32: `_LinFunc.__call__` with a dtype
(dolfyn/io/nortek2_defs.py:160-165), velocities of AD2CP files (dolfyn/io/nortek2.py:400-401, scale `10.0 ** vel_scale`)
and, with offset 0, the TRDI variables `read_ui16(1) * 0.01` and so on (dolfyn/io/rdi.py:846-856, 924-927, 1000-1001). -/
def storeLin (scale : ℚ) (offset n : ℤ) : ℚ := fl32 (fl64 (((n + offset : ℤ) : ℚ) * fl64 scale))

/-- `n / d` in double precision, stored as float32 (pressure, altimeter: dolfyn/io/rdi.py:881-882, 1050). -/
def storeQuot (d : ℕ) (n : ℤ) : ℚ := fl32 (fl64 ((n : ℚ) / d))

/-- A float32 array multiplied in place, `data *= factor` (`VarAtts.sci_func`, dolfyn/io/nortek_defs.py:94-98). -/
def scaleSingle (factor x : ℚ) : ℚ := fl32 (x * fl32 factor)

/-- The velocity of a Vector or Vectrino in metres per second: factor 0.001 (dolfyn/io/nortek_defs.py:131), then
`*= vel_scale_mm`, which is 1 or 0.1 (dolfyn/io/nortek.py:565, 781, 788). -/
def nkVelSingle (fine : Bool) (n : ℤ) : ℚ :=
  scaleSingle (if fine then 1 / 10 else 1) (scaleSingle (1 / 1000) (fl32 n))

/-- The pressure of a Vector from its two parts (dolfyn/io/nortek.py:770-772). -/
def nkPressureSingle (msb lsw : ℕ) : ℚ := fl32 (fl32 (fl32 (fl32 msb * 65536) + fl32 lsw) / 1000)

/-- One velocity of a TRDI ensemble: `read_vel` (dolfyn/io/rdi.py:919-928) followed by `clean_data`
(dolfyn/io/rdi_defs.py:188-189), where the float32 array is compared with the float32 nearest to -32.768. -/
def rdVelSingle (n : ℤ) : Option ℚ :=
  let v := storeLin (1 / 1000) 0 n
  if v = fl32 (fl64 (-32768 / 1000)) then none else some v

/-- The bottom range of a TRDI ensemble with its most significant byte (dolfyn/io/rdi.py:1000, 1028-1030). -/
def rdBottomSingle (n msb : ℕ) : ℚ := fl32 (fl64 (storeLin (1 / 100) 0 n + fl64 (msb * fl64 (65536 / 100))))

end Dolfyn
