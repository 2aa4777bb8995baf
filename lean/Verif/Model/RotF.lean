import Verif.Model.Single
import Verif.Model.Orient

/-!
Rotations in the arithmetic numpy uses: `np.einsum` of float32 or float64 arrays (dolfyn/rotate/vector.py:118,
dolfyn/rotate/rdi.py:65) and the orientation matrix of `vector._euler2orient`.

The order in which `einsum` adds the products and whether it uses fused multiply-add depend on the build of numpy and are
parameters. The results of `np.cos` and `np.sin` are parameters. Numbers that are too large or too small for the exponent are
not modelled.
-/

namespace Dolfyn

/-- One output of `np.einsum('ij,j->i', ...)`: products accumulated one after the other, with (`fused`) or without fused
multiply-add; `rd` rounds to the precision of the arrays. -/
def dotF {n : ℕ} (rd : ℚ → ℚ) (fused : Bool) (order : List (Fin n)) (a b : Fin n → ℚ) : ℚ :=
  order.foldl (fun acc j => if fused then rd (acc + a j * b j) else rd (acc + rd (a j * b j))) 0

/-- A rotation as `vector._inst2earth` does it (dolfyn/rotate/vector.py:118): matrix, data and result are float32. -/
def rotSingle {n : ℕ} (fused : Bool) (order : List (Fin n)) (A : Fin n → Fin n → ℚ) (v : Fin n → ℚ) (i : Fin n) : ℚ :=
  dotF fl32 fused order (A i) v

/-- A rotation as `rdi._inst2earth` does it (dolfyn/rotate/rdi.py:65): the matrix is float64, and so is the product; the
result is stored in the float32 array of the data. -/
def rotStore {n : ℕ} (fused : Bool) (order : List (Fin n)) (A : Fin n → Fin n → ℚ) (v : Fin n → ℚ) (i : Fin n) : ℚ :=
  fl32 (dotF fl64 fused order (A i) v)

/-- The matrix of `vector._euler2orient` (dolfyn/rotate/vector.py:229-247) from the float32 cosines and sines; every
product and difference is a float32. -/
def nortekOrientF (ch sh cp sp cr sr : ℚ) : Fin 3 → Fin 3 → ℚ :=
  ![![fl32 (ch * cp), fl32 (sh * cp), sp],
    ![fl32 (fl32 (fl32 (-ch * sp) * sr) - fl32 (sh * cr)), fl32 (fl32 (fl32 (-sh * sp) * sr) + fl32 (ch * cr)), fl32 (sr * cp)],
    ![fl32 (fl32 (fl32 (-ch * cr) * sp) + fl32 (sh * sr)), fl32 (fl32 (fl32 (-sh * cr) * sp) - fl32 (ch * sr)), fl32 (cp * cr)]]

/-- `vector._inst2earth` for one sample (dolfyn/rotate/vector.py:72-118): `O` is `orientmat`; its transpose rotates to the
earth frame, and it rotates back. -/
def nkInst2earthF (fused : Bool) (order : List (Fin 3)) (O : Fin 3 → Fin 3 → ℚ) (reverse : Bool) : (Fin 3 → ℚ) → Fin 3 → ℚ :=
  rotSingle fused order (if reverse then O else fun i j => O j i)

/-- The rotation matrix of `rdi._calc_orientmat` (dolfyn/rotate/rdi.py:144-159) from the float32 cosines and sines; every
product and sum is a float32, kept in an array of float64. -/
def rdiRotF (ch sh cp sp cr sr : ℚ) : Fin 3 → Fin 3 → ℚ :=
  ![![fl32 (fl32 (ch * cr) + fl32 (fl32 (sh * sp) * sr)), fl32 (sh * cp), fl32 (fl32 (ch * sr) - fl32 (fl32 (sh * sp) * cr))],
    ![fl32 (fl32 (-sh * cr) + fl32 (fl32 (ch * sp) * sr)), fl32 (ch * cp), fl32 (fl32 (-sh * sr) - fl32 (fl32 (ch * sp) * cr))],
    ![fl32 (-cp * sr), sp, fl32 (cp * cr)]]

/-- `rdi._inst2earth` for the first three components of one sample (dolfyn/rotate/rdi.py:53-66): `R` is the rotation matrix,
its transpose rotates back. -/
def rdInst2earthF (fused : Bool) (order : List (Fin 3)) (R : Fin 3 → Fin 3 → ℚ) (reverse : Bool) : (Fin 3 → ℚ) → Fin 3 → ℚ :=
  rotStore fused order (if reverse then fun i j => R j i else R)

end Dolfyn
