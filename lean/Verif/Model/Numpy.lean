import Verif.Py.Num
import Verif.Py.Err

/-!
# The numpy functions used by completeness, recurrence and maximum magnitude

Arrays are lists; an array generated by a formula is given by its length and its element function.
-/

namespace Verif.Np

open Verif

section
variable {F : Type} [PyNum F]

/-- `np.minimum`: `(a <= y || isnan(a)) ? a : y`, so that NaN goes through. -/
def minimum (a y : F) : F := if a ≤ y ∨ PyNum.decEq a a = false then a else y

/-- `np.maximum`. -/
def maximum (a y : F) : F := if y ≤ a ∨ PyNum.decEq a a = false then a else y

/-- `np.min`; fails on an empty array. -/
def npMin : List F → Except PyErr F
  | [] => .error .valueError
  | x :: l => .ok (l.foldl minimum x)

/-- `np.max`; fails on an empty array. -/
def npMax : List F → Except PyErr F
  | [] => .error .valueError
  | x :: l => .ok (l.foldl maximum x)

/-- `np.sum` (and built-in `sum`). -/
def npSum (l : List F) : F := l.foldl (· + ·) 0

/-- `np.abs`. -/
def npAbs (x : F) : F := if x < ((0 : ℕ) : F) then -x else x

/-- Number of elements of `np.arange(start, stop, step)`. -/
def arangeLen (start stop step : F) : Nat := (PyNum.ceilZ ((stop - start) / step)).toNat

/-- Element `i` of `np.arange(start, stop, step)`: numpy computes the first two elements and extrapolates. -/
def arangeAt (start step : F) (i : Nat) : F := start + (i : F) * ((start + step) - start)

/-- `np.arange(start, stop, step)`; a zero step is refused. -/
def arange (start stop step : F) : Except PyErr (List F) :=
  if PyNum.decEq step 0 then .error .valueError
  else .ok ((List.range (arangeLen start stop step)).map (arangeAt start step))

/-- One bin of `np.histogram(x, edges)`: half open, the last one closed. -/
def inBin (edge : Nat → F) (nb : Nat) (j : Nat) (x : F) : Bool :=
  decide (edge j ≤ x) && (if j + 1 = nb then decide (x ≤ edge (j + 1)) else decide (x < edge (j + 1)))

/-- `np.histogram(x, edges)[0]` for `nb + 1` increasing edges. -/
def histogram (edge : Nat → F) (nb : Nat) (x : List F) : List Nat :=
  (List.range nb).map (fun j => x.countP (inBin edge nb j))

end

end Verif.Np
