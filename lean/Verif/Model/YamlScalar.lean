import Verif.Model.Repr
import Verif.Model.MaximumMagnitude

/-!
# Plain scalars of the configuration file

The configuration is read by `yaml.load` (mtoolkit/workflow.py:224-226).  What a plain scalar (a value without quotation marks) becomes is decided by the regular expressions of PyYAML
(`Resolver.add_implicit_resolver` in yaml/resolver.py, tried in this order: bool, float, int, merge, null, timestamp, value) and by `construct_yaml_bool`, `construct_yaml_int`
and `construct_yaml_float` (yaml/constructor.py).  The code of the repository uses the values as they come (mtoolkit/jobs.py:349-354).

Simplified: sexagesimal numbers, infinities, NaN, timestamps, `<<` and `=` are recognised, but their values are not represented.
-/

namespace Verif.Yaml

open Verif Verif.EqCatalog Verif.Format

/-- The Python value of a scalar. -/
inductive Scalar where
  | null
  | bool (b : Bool)
  | int (z : ℤ)
  | float (x : Dbl)
  | str (t : Text)
  | other
  | invalid

def isDig (c : Char) : Bool := decide ('0' ≤ c ∧ c ≤ '9')

/-- `[0-9_]`. -/
def du (c : Char) : Bool := isDig c || c == '_'

/-- `[-+]?`. -/
def unsign : Text → Text
  | '-' :: t => t
  | '+' :: t => t
  | t => t

/-- `(?:[eE][-+][0-9]+)?$`. -/
def expOk : Text → Bool
  | [] => true
  | c :: s :: d :: ds => (c == 'e' || c == 'E') && (s == '-' || s == '+') && (d :: ds).all isDig
  | _ => false

/-- `[0-9_]*(?:[eE][-+][0-9]+)?$`. -/
def fracOk (t : Text) : Bool := expOk (t.dropWhile du)

/-- `[-+]?(?:[0-9][0-9_]*)\.[0-9_]*(?:[eE][-+][0-9]+)?$`. -/
def floatPoint (t : Text) : Bool :=
  match unsign t with
  | c :: r => isDig c && (match r.dropWhile du with
    | '.' :: b => fracOk b
    | _ => false)
  | [] => false

/-- `\.[0-9_]+(?:[eE][-+][0-9]+)?$`. -/
def floatDot : Text → Bool
  | '.' :: c :: b => du c && fracOk b
  | _ => false

/-- `[0-5]?[0-9]$`. -/
def sixty : Text → Bool
  | [d] => isDig d
  | [c, d] => decide ('0' ≤ c ∧ c ≤ '5') && isDig d
  | _ => false

/-- `[0-5]?[0-9]\.[0-9_]*$`. -/
def sixtyPoint (t : Text) : Bool :=
  sixty (t.takeWhile (· ≠ '.')) && (match t.dropWhile (· ≠ '.') with
    | _ :: b => b.all du
    | [] => false)

/-- `[-+]?[0-9][0-9_]*(?::[0-5]?[0-9])+\.[0-9_]*$`. -/
def floatSixty (t : Text) : Bool :=
  match (unsign t).splitOn ':' with
  | (c :: r) :: g :: gs => isDig c && r.all du && ((g :: gs).dropLast.all sixty) && sixtyPoint ((g :: gs).getLast (by simp))
  | _ => false

/-- `[-+]?\.(?:inf|Inf|INF)|\.(?:nan|NaN|NAN)$`. -/
def floatSpecial (t : Text) : Bool :=
  [".inf".toList, ".Inf".toList, ".INF".toList].contains (unsign t) || [".nan".toList, ".NaN".toList, ".NAN".toList].contains t

/-- The value of digits to a base. -/
def valueIn (base : ℕ) : ℕ → Text → Option ℕ
  | n, [] => some n
  | n, c :: cs =>
    let d := if isDig c then c.toNat - '0'.toNat else if 'a' ≤ c ∧ c ≤ 'f' then c.toNat - 'a'.toNat + 10 else if 'A' ≤ c ∧ c ≤ 'F' then c.toNat - 'A'.toNat + 10 else base
    if d < base then valueIn base (base * n + d) cs else none

/-- `value.replace('_', '')`. -/
def noUnderscores (t : Text) : Text := t.filter (· ≠ '_')

def signed (t : Text) (n : ℕ) : ℤ := if t.head? = some '-' then -(n : ℤ) else n

/-- The digits of an integer to a base, after the sign and the prefix: `construct_yaml_int`. -/
def intIn (base : ℕ) (t digits : Text) : Scalar :=
  match noUnderscores digits with
  | [] => .invalid
  | ds => match valueIn base 0 ds with
    | some n => .int (signed t n)
    | none => .invalid

/-- The alternatives of the regular expression of integers, in its order, with their values. -/
def intOf (t : Text) : Option Scalar :=
  match unsign t with
  | '0' :: 'b' :: c :: ds => if (c :: ds).all (fun c => c == '0' || c == '1' || c == '_') then some (intIn 2 t (c :: ds)) else none
  | ['0'] => some (.int 0)
  | '0' :: 'x' :: c :: ds => if (c :: ds).all (fun c => du c || decide ('a' ≤ c ∧ c ≤ 'f') || decide ('A' ≤ c ∧ c ≤ 'F')) then some (intIn 16 t (c :: ds)) else none
  | '0' :: c :: ds => if (c :: ds).all (fun c => decide ('0' ≤ c ∧ c ≤ '7') || c == '_') then some (intIn 8 t ('0' :: c :: ds)) else none
  | c :: ds =>
    if isDig c && ds.all du then some (intIn 10 t (c :: ds))
    else match (c :: ds).splitOn ':' with
      | (c :: r) :: g :: gs => if isDig c && r.all du && (g :: gs).all sixty then some .other else none
      | _ => none
  | [] => none

def truths : List Text := ["yes", "Yes", "YES", "true", "True", "TRUE", "on", "On", "ON"].map String.toList
def falsehoods : List Text := ["no", "No", "NO", "false", "False", "FALSE", "off", "Off", "OFF"].map String.toList
def nulls : List Text := ["~", "null", "Null", "NULL", ""].map String.toList

/-- A date: `[0-9]{4}-[0-9]{2}-[0-9]{2}$`; dates with a time of day begin with `[0-9]{4}-[0-9]{1,2}-[0-9]{1,2}` and are recognised by their beginning only. -/
def isDate (t : Text) : Bool :=
  match t with
  | [a, b, c, d, m1, e, f, m2, g, h] => [a, b, c, d, e, f, g, h].all isDig && m1 == '-' && m2 == '-'
  | a :: b :: c :: d :: m1 :: e :: _ => [a, b, c, d, e].all isDig && m1 == '-' && t.contains ':'
  | _ => false

/-- `construct_yaml_float` of a decimal number. -/
def floatOf (t : Text) : Scalar :=
  match floatDbl ((noUnderscores (unsign t)).map Char.toLower) with
  | some x => .float (if t.head? = some '-' then -x else x)
  | none => .invalid

/-- What a plain scalar becomes. -/
def scalar (t : Text) : Scalar :=
  if truths.contains t then .bool true else if falsehoods.contains t then .bool false else
  if floatPoint t || floatDot t then floatOf t else if floatSixty t || floatSpecial t then .other else
  match intOf t with
  | some s => s
  | none => if t = "<<".toList ∨ t = ['='] then .other else if nulls.contains t then .null else if isDate t then .other else .str t

/-! ### A tolerance as it comes from the file -/

/-- The loop condition `d_t > iteration_tolerance` before the first iteration, with `d_t = 1.E8` (maximum_magnitude.py:218-220).  In Python 2 numbers sort before texts, and `None` before
numbers; `True` is 1.  The differences are not negative, so a tolerance of -1 stands for one below every number; dates and the like cannot be compared. -/
def kijkoTolerance [PyMath Dbl] (mag sig : List Dbl) (neq : Nat) (nsamp : Dbl) (tol : Scalar) (maxIter fuel : Nat) : Option (Except PyErr (Dbl × Dbl)) :=
  let run (tol : Dbl) := MaxMag.kijko mag sig neq nsamp tol maxIter fuel
  match tol with
  | .float x => run x
  | .int z => run (z : Dbl)
  | .bool b => run (if b then ((1 : ℕ) : Dbl) else ((0 : ℕ) : Dbl))
  | .str _ => run (1e8 : Dbl)
  | .null => run (-((1 : ℕ) : Dbl))
  | _ => some (.error .typeError)

#guard match scalar "1.0E-5".toList with | .float x => x = .of (1 / 100000) | _ => false
#guard match scalar "1e-5".toList with | .str t => t = "1e-5".toList | _ => false
#guard match scalar "1.e5".toList with | .str _ => true | _ => false
#guard match scalar "0.2".toList with | .float x => x = .of (2 / 10) | _ => false
#guard match scalar "-.5".toList with | .str _ => true | _ => false
#guard match scalar "5".toList with | .int 5 => true | _ => false
#guard match scalar "010".toList with | .int 8 => true | _ => false
#guard match scalar "08".toList with | .str _ => true | _ => false
#guard match scalar "-0x1F".toList with | .int (-31) => true | _ => false
#guard match scalar "1_000".toList with | .int 1000 => true | _ => false
#guard match scalar "12:30".toList with | .other => true | _ => false
#guard match scalar "2012-01-31".toList with | .other => true | _ => false
#guard match scalar "yes".toList with | .bool true => true | _ => false
#guard match scalar "GardnerKnopoff".toList with | .str _ => true | _ => false
#guard match scalar "".toList with | .null => true | _ => false

end Verif.Yaml
