import Verif.Spec.Rotate

/-! Specification vocabulary for orientation: degrees, compass directions, axes. Nothing here refers to the code. -/

namespace Dolfyn.Spec

noncomputable section

/-- Cosine of an angle in degrees. -/
def cosd (x : ℝ) : ℝ := Real.cos (x * Real.pi / 180)
/-- Sine of an angle in degrees. -/
def sind (x : ℝ) : ℝ := Real.sin (x * Real.pi / 180)

/-- Two angles in degrees point the same way: they differ by whole turns. -/
def SameDir (a b : ℝ) : Prop := ∃ k : ℤ, a - b = 360 * k

/-- Two angles in degrees lie on the same axis: they differ by whole half turns. -/
def SameAxis (a b : ℝ) : Prop := ∃ k : ℤ, a - b = 180 * k

/-- Unit vector (east, north, up) of a direction given by compass heading and elevation in degrees. -/
def compassVec (heading elev : ℝ) : Fin 3 → ℝ :=
  ![sind heading * cosd elev, cosd heading * cosd elev, sind elev]

end

end Dolfyn.Spec
