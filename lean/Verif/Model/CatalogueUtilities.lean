import Verif.Py.Num
import Verif.Py.Err

/-!
# Model of `mtoolkit/scientific/catalogue_utilities.py`

The numpy functions work elementwise on columns; the models below are the functions of one element.
-/

namespace Verif.CatUtil

open Verif

section
variable {F : Type} [PyNum F]

/-- Conversion of a float to an integer by truncation (`astype(int)`). -/
def truncZ (x : F) : Int := if x < ((0 : ℕ) : F) then PyNum.ceilZ x else PyNum.floorZ x

/-- `marker`, mtoolkit/scientific/catalogue_utilities.py:43-44: days before the first of each month. -/
def marker : List Nat := [0, 31, 59, 90, 120, 151, 181, 212, 243, 273, 304, 334]

/-- Python indexing of a list of length 12 (negative indices count from the end). -/
def pyIndex (l : List Nat) (k : Int) : Except PyErr Nat :=
  if 0 ≤ k then
    match l[k.toNat]? with
    | some x => .ok x
    | none => .error .indexError
  else if 0 ≤ k + l.length then
    match l[(k + l.length).toNat]? with
    | some x => .ok x
    | none => .error .indexError
  else .error .indexError

/-- `decimal_year` of one date, mtoolkit/scientific/catalogue_utilities.py:43-48. -/
def decimalYear (year month day : F) : Except PyErr F := do
  let mk ← pyIndex marker (truncZ (month - ((1 : ℕ) : F)))
  let dayCount := (mk : F) + day - ((1 : ℕ) : F)
  .ok (year + dayCount / ((365 : ℕ) : F))

/-- `decimal_year` of whole columns: one date out of range makes the indexing of the whole column fail. -/
def decimalYears {n : Nat} (year month day : Fin n → F) : Except PyErr (Fin n → F) :=
  if ∀ j, (decimalYear (year j) (month j) (day j)).toBool = true then
    .ok fun j => match decimalYear (year j) (month j) (day j) with
      | .ok x => x
      | .error _ => year j
  else .error .indexError

/-- `greg2julian`, mtoolkit/scientific/catalogue_utilities.py:109-117. -/
def greg2julian (year month day hour minute second : F) : F :=
  let timeut := hour + minute / ((60 : ℕ) : F) + second / ((3600 : ℕ) : F)
  let fl (x : F) : F := ((PyNum.floorZ x : Int) : F)
  ((367 : ℕ) : F) * year
    - fl (((7 : ℕ) : F) * (year + fl ((month + ((9 : ℕ) : F)) / ((12 : ℕ) : F))) / ((4 : ℕ) : F))
    - fl (((3 : ℕ) : F) * (fl ((year + (month - ((9 : ℕ) : F)) / ((7 : ℕ) : F)) / ((100 : ℕ) : F)) + ((1 : ℕ) : F)) / ((4 : ℕ) : F))
    + fl (((275 : ℕ) : F) * month / ((9 : ℕ) : F)) + day + (1721028.5 : F) + timeut / ((24 : ℕ) : F)

end

section
variable {F : Type} [PyMath F]

/-- `haversine` of one pair of locations in degrees, mtoolkit/scientific/catalogue_utilities.py:73-106
(`radians=False`; `x ** 2.` is written as a product). -/
def haversine (lon1 lat1 lon2 lat2 : F) (earthRad : F := 6371.227) : F :=
  let cfact : F := PyMath.pi / ((180 : ℕ) : F)
  let lon1 := cfact * lon1
  let lat1 := cfact * lat1
  let lon2 := cfact * lon2
  let lat2 := cfact * lat2
  let dlat := lat1 - lat2
  let dlon := lon1 - lon2
  let s1 := PyMath.sin (dlat / ((2 : ℕ) : F))
  let s2 := PyMath.sin (dlon / ((2 : ℕ) : F))
  let aval := s1 * s1 + PyMath.cos lat1 * PyMath.cos lat2 * (s2 * s2)
  ((2 : ℕ) : F) * earthRad * PyMath.atan2 (PyMath.sqrt aval) (PyMath.sqrt (((1 : ℕ) : F) - aval))

end

end Verif.CatUtil
