import Mathlib.Data.Real.Basic
import Mathlib.Analysis.SpecialFunctions.Log.Base
import Mathlib.Analysis.SpecialFunctions.Pow.Real
import Mathlib.Analysis.SpecialFunctions.Complex.Arg
import Mathlib.Analysis.SpecialFunctions.Trigonometric.Basic
import Mathlib.Algebra.Order.Round
import Mathlib.Data.Rat.Floor

/-!
# Python / numpy numbers

`PyNum F` collects the operations of Python (numpy) floating point numbers that the code
uses, **without any law**.  A definition or theorem over `[PyNum F]` therefore makes sense (and holds) for
IEEE doubles, NaN included, as well as for the real numbers.

Instances: `ℝ` (exact reading of the code, used for the theorems needing algebra), every
linearly ordered floor field (`ℚ` for executable exact examples) and Lean's `Float`
(IEEE double, used in `Verif/Sanity` to run the models).
-/

namespace Verif

/-- Operations of Python floats; no laws. -/
class PyNum (F : Type) extends Zero F, One F, Add F, Sub F, Mul F, Div F, Neg F, LE F, LT F,
    NatCast F, IntCast F, OfScientific F where
  decLE : DecidableLE F
  decLT : DecidableLT F
  decEq : F → F → Bool
  /-- `np.floor` followed by conversion to an index. -/
  floorZ : F → Int
  /-- `np.ceil`. -/
  ceilZ : F → Int
  /-- rounding to the nearest integer, ties to even: `np.round(x)`, `np.rint`. -/
  rintZ : F → Int

instance {F : Type} [PyNum F] : DecidableLE F := PyNum.decLE
instance {F : Type} [PyNum F] : DecidableLT F := PyNum.decLT

/-- Transcendental functions used by the code; no laws. -/
class PyMath (F : Type) extends PyNum F where
  exp : F → F
  log : F → F
  log10 : F → F
  sqrt : F → F
  sin : F → F
  cos : F → F
  /-- `np.arctan2(y, x)` -/
  atan2 : F → F → F
  /-- `x ** y` -/
  rpow : F → F → F
  pi : F

section Lawful
variable {K : Type} [Field K] [LinearOrder K] [FloorRing K]

/-- Round half to even in an ordered floor field. -/
def rintK (x : K) : Int :=
  let f := ⌊x⌋
  let r := x - f
  if r < 1/2 then f else if 1/2 < r then f + 1 else if f % 2 = 0 then f else f + 1

end Lawful

noncomputable instance instPyNumReal : PyNum ℝ where
  decLE := inferInstance
  decLT := inferInstance
  decEq := fun x y => decide (x = y)
  floorZ := fun x => ⌊x⌋
  ceilZ := fun x => ⌈x⌉
  rintZ := rintK

instance instPyNumRat : PyNum ℚ where
  decLE := inferInstance
  decLT := inferInstance
  decEq := fun x y => decide (x = y)
  floorZ := fun x => ⌊x⌋
  ceilZ := fun x => ⌈x⌉
  rintZ := rintK

noncomputable instance instPyMathReal : PyMath ℝ where
  exp := Real.exp
  log := Real.log
  log10 := Real.logb 10
  sqrt := Real.sqrt
  sin := Real.sin
  cos := Real.cos
  atan2 := fun y x => Complex.arg ⟨x, y⟩
  rpow := fun x y => x ^ y
  pi := Real.pi

section RealLemmas
/-! The real instance is the expected one. -/
@[simp] theorem exp_real (x : ℝ) : PyMath.exp x = Real.exp x := rfl
@[simp] theorem log_real (x : ℝ) : PyMath.log x = Real.log x := rfl
@[simp] theorem log10_real (x : ℝ) : PyMath.log10 x = Real.logb 10 x := rfl
@[simp] theorem sqrt_real (x : ℝ) : PyMath.sqrt x = Real.sqrt x := rfl
@[simp] theorem sin_real (x : ℝ) : PyMath.sin x = Real.sin x := rfl
@[simp] theorem cos_real (x : ℝ) : PyMath.cos x = Real.cos x := rfl
@[simp] theorem atan2_real (y x : ℝ) : PyMath.atan2 y x = Complex.arg ⟨x, y⟩ := rfl
@[simp] theorem rpow_real (x y : ℝ) : PyMath.rpow x y = x ^ y := rfl
@[simp] theorem pi_real : (PyMath.pi : ℝ) = Real.pi := rfl
@[simp] theorem floorZ_real (x : ℝ) : PyNum.floorZ x = ⌊x⌋ := rfl
@[simp] theorem ceilZ_real (x : ℝ) : PyNum.ceilZ x = ⌈x⌉ := rfl
@[simp] theorem rintZ_real (x : ℝ) : PyNum.rintZ x = rintK x := rfl
@[simp] theorem decEq_real (x y : ℝ) : PyNum.decEq x y = decide (x = y) := rfl
end RealLemmas

section FloatInst
instance : NatCast Float := ⟨Float.ofNat⟩
instance : IntCast Float := ⟨Float.ofInt⟩
instance : Zero Float := ⟨0.0⟩
instance : One Float := ⟨1.0⟩

/-- Conversion of an integral double (small) to an integer. -/
def floatToInt (x : Float) : Int := x.toInt64.toInt

/-- IEEE double instance, for running the models. -/
instance instPyNumFloat : PyNum Float where
  decLE := inferInstance
  decLT := inferInstance
  decEq := fun x y => x == y
  floorZ := fun x => floatToInt x.floor
  ceilZ := fun x => floatToInt x.ceil
  rintZ := fun x =>
    let f := x.floor
    let r := x - f
    let fi := floatToInt f
    if r < 0.5 then fi else if 0.5 < r then fi + 1 else if fi % 2 = 0 then fi else fi + 1

instance instPyMathFloat : PyMath Float where
  exp := Float.exp
  log := Float.log
  log10 := Float.log10
  sqrt := Float.sqrt
  sin := Float.sin
  cos := Float.cos
  atan2 := Float.atan2
  rpow := Float.pow
  pi := 3.141592653589793
end FloatInst

end Verif
