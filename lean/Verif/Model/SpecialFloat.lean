import Verif.Py.XNum
import Verif.Model.Format

/-!
# `float(text)` with the texts of special values

`float` of Python 2.7 (`PyOS_string_to_double`, as called in mtoolkit/eqcatalog.py:187) also reads `nan`, `inf` and `infinity`, in upper or lower case, with an optional sign.
-/

namespace Verif.Format

open Verif Verif.EqCatalog

/-- The special values without sign. -/
def special {K : Type} (t : Text) : Option (XNum K) :=
  if t.map Char.toLower = ['n', 'a', 'n'] then some .nan
  else if t.map Char.toLower = ['i', 'n', 'f'] ∨ t.map Char.toLower = ['i', 'n', 'f', 'i', 'n', 'i', 't', 'y'] then some (.inf false)
  else none

/-- The special values with sign. -/
def signedSpecial {K : Type} [Field K] [LinearOrder K] (t : Text) : Option (XNum K) :=
  match t with
  | '-' :: ds => (special ds).map XNum.neg
  | '+' :: ds => special ds
  | ds => special ds

/-- `float(text)`, special values included. -/
def pyFloatX {K : Type} [Field K] [LinearOrder K] (t : Text) : Option (XNum K) :=
  match signedSpecial (strip t) with
  | some x => some x
  | none => (pyFloat t).map .fin

#guard pyFloatX (K := ℚ) " -Inf\n".toList = some (.inf true)
#guard pyFloatX (K := ℚ) "NaN".toList = some .nan
#guard pyFloatX (K := ℚ) "-5.5".toList = some (.fin (-5.5))
#guard pyFloatX (K := ℚ) "in".toList = none

end Verif.Format
