import Mathlib.Data.Int.Log
import Mathlib.Data.Nat.Log
import Verif.Model.EqCatalog
import Verif.Py.Num

/-!
# Number texts of Python 2.7

`str` of a float is the C format `%.12g` with `.0` added to integers (`float_str` in Objects/floatobject.c with `PyOS_double_to_string(x,
'g', 12, Py_DTSF_ADD_DOT_0)`), used by nrml/writer.py for every number; `%10.5f` is the format of the completeness table
(mtoolkit/jobs.py:278-279).  Both round the exact value to nearest, ties to even.  `pyFloat` is `float(text)` for decimal
literals, read exactly.  The definitions work over any ordered field with a floor function (`ℚ` for computation, `ℝ` for the theorems);
infinities, NaN and the sign of zero do not exist there, and the value of a literal is not rounded to a double.
-/

namespace Verif.Format

open Verif Verif.EqCatalog

/-- Decimal digit. -/
def digitChar (d : ℕ) : Char := Char.ofNat (48 + d % 10)

/-- Exactly `k` decimal digits, most significant first, of `n mod 10^k`. -/
def padDigits : ℕ → ℕ → Text
  | 0, _ => []
  | k + 1, n => padDigits k (n / 10) ++ [digitChar n]

/-- Decimal digits of `n` without leading zeros; `0` is one digit. -/
def natDigits (n : ℕ) : Text := padDigits (Nat.log 10 n + 1) n

/-- `n / 10^k` in positional notation; no point when `k = 0`. -/
def fixedText (n k : ℕ) : Text :=
  if k = 0 then natDigits n else natDigits (n / 10 ^ k) ++ '.' :: padDigits k (n % 10 ^ k)

/-- Removes trailing zeros of the fraction, but leaves at least `m` decimals. -/
def dropZeros (m : ℕ) : ℕ → ℕ → ℕ × ℕ
  | n, 0 => (n, 0)
  | n, k + 1 => if k + 1 ≤ m then (n, k + 1) else if n % 10 = 0 then dropZeros m (n / 10) k else (n, k + 1)

section
variable {K : Type} [Field K] [LinearOrder K] [IsStrictOrderedRing K] [FloorRing K]

/-- Twelve significant digits of `x > 0`: the pair `(n, e)` with `10^11 ≤ n < 10^12` and `x ≈ n * 10^(e-11)`. -/
def sig12 (x : K) : ℕ × ℤ :=
  let e := Int.log 10 x
  let n := (rintK (x * (10 : K) ^ (11 - e))).toNat
  if n = 10 ^ 12 then (10 ^ 11, e + 1) else (n, e)

/-- Exponent part: sign and at least two digits. -/
def expText (e : ℤ) : Text :=
  'e' :: (if e < 0 then '-' else '+') :: (if e.natAbs < 10 then padDigits 2 e.natAbs else natDigits e.natAbs)

/-- `%.12g` of a positive number with `.0` added: positional for exponents `-4..10`, otherwise scientific. -/
def posText (x : K) : Text :=
  let p := sig12 x
  if -4 ≤ p.2 ∧ p.2 ≤ 10 then
    let q := dropZeros 1 p.1 (11 - p.2).toNat
    fixedText q.1 q.2
  else
    let q := dropZeros 0 p.1 11
    fixedText q.1 q.2 ++ expText p.2

/-- `str(x)`. -/
def str (x : K) : Text :=
  if x = 0 then ['0', '.', '0'] else if x < 0 then '-' :: posText (-x) else posText x

/-- The value printed by `str`: `x` rounded to twelve significant digits. -/
def rnd12 (x : K) : K :=
  if x = 0 then 0
  else
    let p := sig12 |x|
    (if x < 0 then -1 else 1) * ((p.1 : K) * (10 : K) ^ (p.2 - 11))

/-- `'%10.5f' % x`: five decimals, padded on the left to ten characters. -/
def fmt5 (x : K) : Text :=
  let t := fixedText (rintK (|x| * 10 ^ 5)).toNat 5
  let t := if x < 0 then '-' :: t else t
  List.replicate (10 - t.length) ' ' ++ t

/-- The value printed by `fmt5`. -/
def rnd5 (x : K) : K := (if x < 0 then -1 else 1) * ((rintK (|x| * 10 ^ 5) : ℤ) : K) / 10 ^ 5

end

/-! ### Reading -/

def digitVal (c : Char) : Option ℕ := if 48 ≤ c.toNat ∧ c.toNat ≤ 57 then some (c.toNat - 48) else none

/-- Value of a digit string on top of `acc`; `none` when some character is not a digit. -/
def digitsVal (acc : ℕ) : Text → Option ℕ
  | [] => some acc
  | c :: cs => match digitVal c with
    | some d => digitsVal (10 * acc + d) cs
    | none => none

/-- Mantissa: digits with an optional point, at least one digit; returns the digits as a number and the number of decimals. -/
def mantissa (t : Text) : Option (ℕ × ℕ) :=
  let a := t.takeWhile (· ≠ '.')
  match t.dropWhile (· ≠ '.') with
  | [] => if a = [] then none else (digitsVal 0 a).map (fun n => (n, 0))
  | _ :: b => if a = [] ∧ b = [] then none else (digitsVal 0 (a ++ b)).map (fun n => (n, b.length))

/-- Exponent: optional sign and at least one digit. -/
def exponent : Text → Option ℤ
  | [] => none
  | '-' :: ds => if ds = [] then none else (digitsVal 0 ds).map (fun n => -(n : ℤ))
  | '+' :: ds => if ds = [] then none else (digitsVal 0 ds).map (fun n => (n : ℤ))
  | ds => (digitsVal 0 ds).map (fun n => (n : ℤ))

/-- Unsigned decimal literal. -/
def unsigned {K : Type} [DivisionRing K] (t : Text) : Option K :=
  let m := t.takeWhile (fun c => c ≠ 'e' ∧ c ≠ 'E')
  match t.dropWhile (fun c => c ≠ 'e' ∧ c ≠ 'E') with
  | [] => (mantissa m).map (fun p => (p.1 : K) * (10 : K) ^ (-(p.2 : ℤ)))
  | _ :: ex => match mantissa m, exponent ex with
    | some p, some e => some ((p.1 : K) * (10 : K) ^ (e - (p.2 : ℤ)))
    | _, _ => none

/-- `float(text)` for decimal literals, surrounding white space allowed. -/
def pyFloat {K : Type} [DivisionRing K] (t : Text) : Option K :=
  match strip t with
  | '-' :: ds => (unsigned ds).map (fun x => -x)
  | '+' :: ds => unsigned ds
  | ds => unsigned ds

/-! Checks against values printed by Python 2.7. -/
#guard str (K := ℚ) 5 = "5.0".toList
#guard str (K := ℚ) (-122.5) = "-122.5".toList
#guard str (K := ℚ) 0.1 = "0.1".toList
#guard str (K := ℚ) (1 / 3) = "0.333333333333".toList
#guard str (K := ℚ) (2 / 3) = "0.666666666667".toList
#guard str (K := ℚ) 100000000000 = "1e+11".toList
#guard str (K := ℚ) 12345678901 = "12345678901.0".toList
#guard str (K := ℚ) 123456789012 = "1.23456789012e+11".toList
#guard str (K := ℚ) 99999999999.9999 = "1e+11".toList
#guard str (K := ℚ) 0.0001 = "0.0001".toList
#guard str (K := ℚ) 0.00001 = "1e-05".toList
#guard str (K := ℚ) 0.99999999999999 = "1.0".toList
#guard str (K := ℚ) (1.5 * 10 ^ 120) = "1.5e+120".toList
#guard str (K := ℚ) 5000 = "5000.0".toList
#guard str (K := ℚ) 1.23456789012345 = "1.23456789012".toList
#guard fmt5 (K := ℚ) 1990 = "1990.00000".toList
#guard fmt5 (K := ℚ) 4.25 = "   4.25000".toList
#guard fmt5 (K := ℚ) (-4.123456) = "  -4.12346".toList
#guard pyFloat (K := ℚ) "  -4.12346\n".toList = some (-4.12346)
#guard pyFloat (K := ℚ) "1.5e-05".toList = some 0.000015
#guard pyFloat (K := ℚ) ".5".toList = some 0.5
#guard pyFloat (K := ℚ) "5.".toList = some 5
#guard pyFloat (K := ℚ) ".".toList = none
#guard pyFloat (K := ℚ) "1e".toList = none
#guard pyFloat (K := ℚ) "".toList = none

end Verif.Format
