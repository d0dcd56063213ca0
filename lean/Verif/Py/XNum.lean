import Verif.Py.Num

/-!
# Numbers with infinities and NaN

`XNum K` adds to the exact numbers of an ordered field the three kinds of special values of IEEE doubles: two infinities and NaN.  The
operations and comparisons follow IEEE 754, without rounding and without a negative zero.
-/

namespace Verif

/-- A finite number, an infinity (`true`: negative) or NaN. -/
inductive XNum (K : Type) where
  | fin (x : K)
  | inf (neg : Bool)
  | nan
deriving DecidableEq, Repr

namespace XNum

variable {K : Type} [Field K] [LinearOrder K]

/-- `-x`. -/
def neg : XNum K → XNum K
  | fin x => fin (-x)
  | inf s => inf (!s)
  | nan => nan

/-- `x + y`. -/
def add : XNum K → XNum K → XNum K
  | fin x, fin y => fin (x + y)
  | inf s, inf t => if s = t then inf s else nan
  | inf s, fin _ => inf s
  | fin _, inf t => inf t
  | _, _ => nan

/-- An infinity times a finite number. -/
def scaled (s : Bool) (y : K) : XNum K := if y = 0 then nan else inf (xor s (decide (y < 0)))

/-- `x * y`. -/
def mul : XNum K → XNum K → XNum K
  | fin x, fin y => fin (x * y)
  | inf s, inf t => inf (xor s t)
  | inf s, fin y => scaled s y
  | fin x, inf t => scaled t x
  | _, _ => nan

/-- `x / y` of numpy. -/
def div : XNum K → XNum K → XNum K
  | fin x, fin y => if y = 0 then scaled false x else fin (x / y)
  | inf s, fin y => if y < 0 then inf (!s) else inf s
  | fin _, inf _ => fin 0
  | _, _ => nan

/-- `x <= y`. -/
def le : XNum K → XNum K → Prop
  | fin x, fin y => x ≤ y
  | inf s, inf t => s = true ∨ t = false
  | inf s, fin _ => s = true
  | fin _, inf t => t = false
  | _, _ => False

/-- `x < y`. -/
def lt : XNum K → XNum K → Prop
  | fin x, fin y => x < y
  | inf s, inf t => s = true ∧ t = false
  | inf s, fin _ => s = true
  | fin _, inf t => t = false
  | _, _ => False

/-- `x == y`. -/
def beq : XNum K → XNum K → Bool
  | fin x, fin y => decide (x = y)
  | inf s, inf t => s == t
  | _, _ => false

instance : LE (XNum K) := ⟨le⟩
instance : LT (XNum K) := ⟨lt⟩

instance decLE : DecidableLE (XNum K) := fun x y => by
  show Decidable (le x y)
  rcases x with x | s | _ <;> rcases y with y | t | _ <;> unfold le <;> infer_instance

instance decLT : DecidableLT (XNum K) := fun x y => by
  show Decidable (lt x y)
  rcases x with x | s | _ <;> rcases y with y | t | _ <;> unfold lt <;> infer_instance

/-- The integer of a finite number (numpy gives an unspecified integer for the others). -/
def toZ (f : K → Int) : XNum K → Int
  | fin x => f x
  | _ => 0

/-- Python numbers with special values. -/
instance instPyNum [FloorRing K] : PyNum (XNum K) where
  zero := fin 0
  one := fin 1
  add := add
  sub x y := add x (neg y)
  mul := mul
  div := div
  neg := neg
  natCast n := fin n
  intCast n := fin n
  ofScientific m s e := fin ((OfScientific.ofScientific m s e : ℚ) : K)
  decLE := decLE
  decLT := decLT
  decEq := beq
  floorZ := toZ fun x => ⌊x⌋
  ceilZ := toZ fun x => ⌈x⌉
  rintZ := toZ rintK

/-- A function of the finite numbers, with its limits at the infinities. -/
def lift (f : K → XNum K) (pos neg : XNum K) : XNum K → XNum K
  | fin x => f x
  | inf s => if s then neg else pos
  | nan => nan

/-- A logarithm. -/
noncomputable def logarithm (f : ℝ → ℝ) : XNum ℝ → XNum ℝ :=
  lift (fun x => if x < 0 then nan else if x = 0 then inf true else fin (f x)) (inf false) nan

/-- `np.arctan2(y, x)`. -/
noncomputable def arctan2 : XNum ℝ → XNum ℝ → XNum ℝ
  | fin y, fin x => fin (Complex.arg ⟨x, y⟩)
  | fin y, inf s => if s then fin (if y < 0 then -Real.pi else Real.pi) else fin 0
  | inf s, fin _ => fin (if s then -(Real.pi / 2) else Real.pi / 2)
  | inf s, inf t => fin ((if s then -1 else 1) * (if t then 3 * Real.pi / 4 else Real.pi / 4))
  | _, _ => nan

open Classical in
/-- `x ** y`. -/
noncomputable def pow : XNum ℝ → XNum ℝ → XNum ℝ
  | fin x, fin y =>
    if y = 0 then fin 1
    else if x = 0 then (if y < 0 then inf false else fin 0)
    else if x < 0 ∧ ¬ (∃ n : ℤ, y = n) then nan
    else fin (x ^ y)
  | fin x, inf t => if |x| = 1 then fin 1 else if (|x| < 1) = (t = true) then inf false else fin 0
  | inf s, fin y => if y = 0 then fin 1 else if y < 0 then fin 0 else if s ∧ ∃ n : ℤ, y = 2 * n + 1 then inf true else inf false
  | inf _, inf t => if t then fin 0 else inf false
  | fin x, nan => if x = 1 then fin 1 else nan
  | nan, fin y => if y = 0 then fin 1 else nan
  | _, _ => nan

/-- The functions of numpy with their special values. -/
noncomputable instance instPyMath : PyMath (XNum ℝ) where
  exp := lift (fun x => fin (Real.exp x)) (inf false) (fin 0)
  log := logarithm Real.log
  log10 := logarithm (Real.logb 10)
  sqrt := lift (fun x => if x < 0 then nan else fin (Real.sqrt x)) (inf false) nan
  sin := lift (fun x => fin (Real.sin x)) nan nan
  cos := lift (fun x => fin (Real.cos x)) nan nan
  atan2 := arctan2
  rpow := pow
  pi := fin Real.pi

end XNum

end Verif
