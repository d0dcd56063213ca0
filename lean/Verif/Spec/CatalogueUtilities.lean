import Mathlib.Analysis.InnerProductSpace.PiL2
import Mathlib.Geometry.Euclidean.Angle.Unoriented.Basic
import Mathlib.Analysis.SpecialFunctions.Trigonometric.Basic

/-!
# Specification side of calendar dates and positions on the sphere (independent of the model)
-/

namespace Verif.CatUtil.Spec

/-- Gregorian leap years. -/
def leap (y : ℤ) : Prop := y % 4 = 0 ∧ (y % 100 ≠ 0 ∨ y % 400 = 0)

instance (y : ℤ) : Decidable (leap y) := by unfold leap; infer_instance

/-- Length of a month. -/
def monthLen (y m : ℤ) : ℤ :=
  if m = 2 then (if leap y then 29 else 28)
  else if m = 4 ∨ m = 6 ∨ m = 9 ∨ m = 11 then 30 else 31

/-- A calendar date. -/
def IsDate (y m d : ℤ) : Prop := 1 ≤ m ∧ m ≤ 12 ∧ 1 ≤ d ∧ d ≤ monthLen y m

/-- Date `a` is before date `b`. -/
def Before (a b : ℤ × ℤ × ℤ) : Prop :=
  a.1 < b.1 ∨ a.1 = b.1 ∧ (a.2.1 < b.2.1 ∨ a.2.1 = b.2.1 ∧ a.2.2 < b.2.2)

/-- The next day. -/
def nextDay (y m d : ℤ) : ℤ × ℤ × ℤ :=
  if d < monthLen y m then (y, m, d + 1) else if m < 12 then (y, m + 1, 1) else (y + 1, 1, 1)

/-- The point of the unit sphere with a longitude and a latitude in degrees. -/
noncomputable def spherePoint (lon lat : ℝ) : EuclideanSpace ℝ (Fin 3) :=
  !₂[Real.cos (Real.pi / 180 * lat) * Real.cos (Real.pi / 180 * lon),
     Real.cos (Real.pi / 180 * lat) * Real.sin (Real.pi / 180 * lon), Real.sin (Real.pi / 180 * lat)]

end Verif.CatUtil.Spec
