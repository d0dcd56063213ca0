import Mathlib.Data.Nat.Digits.Defs
import Mathlib.Algebra.Field.Defs
import Mathlib.Algebra.GroupWithZero.Basic

/-!
# Specification of decimal literals
-/

namespace Verif.Format.Spec

/-- A text of decimal digits only. -/
def Digits (t : List Char) : Prop := ∀ c ∈ t, '0' ≤ c ∧ c ≤ '9'

/-- The number that a text of digits stands for. -/
def number (t : List Char) : ℕ := Nat.ofDigits 10 (t.reverse.map (fun c => c.toNat - '0'.toNat))

/-- Blanks, tabulators, line ends and page feeds. -/
def Space (t : List Char) : Prop := ∀ c ∈ t, c ∈ [' ', '\t', '\n', '\r', '\x0b', '\x0c']

/-- An optional sign. -/
def Sign (t : List Char) (s : ℤ) : Prop := (t = [] ∧ s = 1) ∨ (t = ['+'] ∧ s = 1) ∨ (t = ['-'] ∧ s = -1)

/-- An optional exponent: the letter, an optional sign and at least one digit. -/
def Exponent (t : List Char) (e : ℤ) : Prop :=
  (t = [] ∧ e = 0) ∨ ∃ c sgn s ds, (c = 'e' ∨ c = 'E') ∧ Sign sgn s ∧ Digits ds ∧ ds ≠ [] ∧ t = c :: sgn ++ ds ∧ e = s * number ds

/-- A decimal literal and its value: white space, sign, digits with at most one decimal point and at least one digit, exponent, white space. -/
def Literal {K : Type} [DivisionRing K] (t : List Char) (v : K) : Prop :=
  ∃ pre sgn whole point frac ex post s e, t = pre ++ sgn ++ whole ++ point ++ frac ++ ex ++ post ∧ Space pre ∧ Space post ∧ Sign sgn s ∧
    Digits whole ∧ Digits frac ∧ (point = ['.'] ∨ point = [] ∧ frac = []) ∧ whole ++ frac ≠ [] ∧ Exponent ex e ∧
    v = (s : K) * (number (whole ++ frac) : K) * (10 : K) ^ (e - (frac.length : ℤ))

end Verif.Format.Spec
