import Verif.Model.Format
import Verif.Model.Csv
import Verif.Lemmas.Double

/-!
# `repr` and `float` of Python 2.7 in double precision

The csv writer of Python 2.7 writes floats with `repr` (`csv_writerow` in Modules/_csv.c; mtoolkit/eqcatalog.py:342-350), the reader converts the cells with
`float` (mtoolkit/eqcatalog.py:138-166).  `repr` of a float is the shortest decimal number that `float` reads as the same double, the one nearest to the double
if there are several (`float_repr` in Objects/floatobject.c with `PyOS_double_to_string(x, 'r', 0, Py_DTSF_ADD_DOT_0)`, Python/dtoa.c mode 0): positional for
exponents `-4..15`, otherwise scientific.  `Dbl` has no infinities, NaN, subnormals or sign of zero.
-/

namespace Verif.Format

open Verif Verif.EqCatalog

/-- The decimal numbers with `i + 1` digits next to `x > 0`, nearest first, in units of `10^(log10 x - i)`. -/
def neighbours (x : ℚ) (i : ℕ) : List ℤ :=
  let s := x * (10 : ℚ) ^ ((i : ℤ) - Int.log 10 x)
  [rintK s, ⌊s⌋ + ⌈s⌉ - rintK s]

/-- The shortest decimal number that is read as `x`: its digits as a number `m` and their number less one, the value is `m * 10^(log10 x - i)`. -/
def shortest (x : ℚ) : Option (ℤ × ℕ) :=
  ((List.range 17).flatMap fun i => (neighbours x i).map fun m => (m, i)).find? fun p => decide (rnd53 ((p.1 : ℚ) * (10 : ℚ) ^ (Int.log 10 x - p.2)) = x)

/-- The digits padded to 17, and the exponent: the value is `d * 10^(e-16)`. -/
def digits17 (x : ℚ) : ℕ × ℤ :=
  match shortest x with
  | some (m, i) =>
    let d := (m * 10 ^ (16 - i)).toNat
    if d = 10 ^ 17 then (10 ^ 16, Int.log 10 x + 1) else (d, Int.log 10 x)
  | none => (0, 0)

/-- `repr` of a positive double. -/
def reprPos (x : ℚ) : Text :=
  let p := digits17 x
  if -4 ≤ p.2 ∧ p.2 ≤ 15 then
    let q := dropZeros 1 p.1 (16 - p.2).toNat
    fixedText q.1 q.2
  else
    let q := dropZeros 0 p.1 16
    fixedText q.1 q.2 ++ expText p.2

/-- `repr(x)`. -/
def reprDbl (x : Dbl) : Text :=
  if x.val = 0 then ['0', '.', '0'] else if x.val < 0 then '-' :: reprPos (-x.val) else reprPos x.val

/-- `float(text)`: the double nearest to the decimal number. -/
def floatDbl (t : Text) : Option Dbl := (pyFloat (K := ℚ) t).map Dbl.of

/-- `'%10.5f' % x` of a double (mtoolkit/jobs.py:278-279): the exact value of the double, rounded to five decimals. -/
def fmtDbl (x : Dbl) : Text := fmt5 x.val

/-- `str(x)` of a double (nrml/writer.py): the exact value of the double, rounded to twelve digits. -/
def strDbl (x : Dbl) : Text := str x.val

/-! Checks against values printed by Python 2.7. -/
#guard reprDbl (.of (1 / 10)) = "0.1".toList
#guard reprDbl (.of 5) = "5.0".toList
#guard reprDbl (.of (-122.5)) = "-122.5".toList
#guard reprDbl (.of (1 / 3)) = "0.3333333333333333".toList
#guard reprDbl (.of (2 / 3)) = "0.6666666666666666".toList
#guard reprDbl (Dbl.of (1 / 10) + Dbl.of (2 / 10)) = "0.30000000000000004".toList
#guard reprDbl (.of 1e15) = "1000000000000000.0".toList
#guard reprDbl (.of 1e16) = "1e+16".toList
#guard reprDbl (.of 123456789012345680) = "1.2345678901234568e+17".toList
#guard reprDbl (.of (1 / 10000)) = "0.0001".toList
#guard reprDbl (.of (1 / 100000)) = "1e-05".toList
#guard reprDbl (.of (1 / 2 ^ 44)) = "5.684341886080802e-14".toList
#guard reprDbl (.of 9007199254740993) = "9007199254740992.0".toList
#guard reprDbl (.of 0) = "0.0".toList
#guard strDbl (Dbl.of (1 / 10) + Dbl.of (2 / 10)) = "0.3".toList
#guard floatDbl "0.30000000000000004".toList = some (Dbl.of (1 / 10) + Dbl.of (2 / 10))

end Verif.Format
