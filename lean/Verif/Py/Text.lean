import Mathlib.Data.Rat.Defs
import Mathlib.Algebra.Order.Field.Rat

/-!
# Concrete number texts

Executable decimal parsing and printing on lists of characters, used in examples and counterexamples.
`pyInt` is Python's `int(text)` for decimal texts; `pyDec` is `float(text)` for plain decimal texts
(optional sign, digits, optional fraction), read exactly as a rational number.
-/

namespace Verif.Text

def isSpace (c : Char) : Bool :=
  c == ' ' || c == '\t' || c == '\n' || c == '\r' || c == '\x0b' || c == '\x0c'

def trim (t : List Char) : List Char := ((t.dropWhile isSpace).reverse.dropWhile isSpace).reverse

def digit (c : Char) : Option Nat :=
  if '0'.toNat ≤ c.toNat ∧ c.toNat ≤ '9'.toNat then some (c.toNat - '0'.toNat) else none

/-- Value of a digit string, most significant first, on top of `acc`. -/
def digits (acc : Nat) : List Char → Option Nat
  | [] => some acc
  | c :: cs => match digit c with
    | some d => digits (10 * acc + d) cs
    | none => none

def nat? (t : List Char) : Option Nat := if t = [] then none else digits 0 t

/-- `int(text)`. -/
def pyInt (t : List Char) : Option Int :=
  match trim t with
  | '-' :: ds => (nat? ds).map (fun n => -(n : Int))
  | '+' :: ds => (nat? ds).map (fun n => (n : Int))
  | ds => (nat? ds).map (fun n => (n : Int))

/-- unsigned decimal -/
def dec? (t : List Char) : Option ℚ :=
  let a := t.takeWhile (· ≠ '.')
  match t.dropWhile (· ≠ '.') with
  | [] => (nat? a).map (fun n => (n : ℚ))
  | _ :: b =>
    if a = [] ∧ b = [] then none
    else match digits 0 a, digits 0 b with
      | some n, some m => some ((n : ℚ) + (m : ℚ) / ((10 : ℚ) ^ b.length))
      | _, _ => none

/-- `float(text)` on plain decimals. -/
def pyDec (t : List Char) : Option ℚ :=
  match trim t with
  | '-' :: ds => (dec? ds).map (fun n => -n)
  | '+' :: ds => dec? ds
  | ds => dec? ds

end Verif.Text
