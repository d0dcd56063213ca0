import Verif.Model.CatalogueUtilities

/-!
# Model of `haversine` on sets of locations, mtoolkit/scientific/catalogue_utilities.py:53-106

`Verif.CatUtil.haversine` is the function of one pair of locations in degrees; here the arguments are the numpy objects the callers
pass: a scalar or a vector of longitudes together with a scalar or a vector of latitudes (both scalars or both vectors; a scalar
longitude with a vector of latitudes is not modelled).  The result is the matrix as a list of rows.
-/

namespace Verif.CatUtil

open Verif

/-- A set of locations: two scalars or two vectors. -/
inductive Locs (F : Type) where
  | one (lon lat : F)
  | many (lon lat : List F)

section
variable {F : Type} [PyMath F]

/-- The conversion to radians of one argument, mtoolkit/scientific/catalogue_utilities.py:73-78. -/
def Locs.toRadians : Locs F → Locs F
  | .one lon lat => let cfact : F := PyMath.pi / ((180 : ℕ) : F); .one (cfact * lon) (cfact * lat)
  | .many lon lat => let cfact : F := PyMath.pi / ((180 : ℕ) : F); .many (lon.map (cfact * ·)) (lat.map (cfact * ·))

/-- Scalars become vectors of length one, mtoolkit/scientific/catalogue_utilities.py:81-92. -/
def Locs.vectors : Locs F → List F × List F
  | .one lon lat => ([lon], [lat])
  | .many lon lat => (lon, lat)

/-- An elementwise operation of two numpy vectors with broadcasting of vectors of length one. -/
def broadcast (f : F → F → F) (xs ys : List F) : Except PyErr (List F) :=
  if xs.length = ys.length then .ok (List.zipWith f xs ys)
  else match xs, ys with
    | [x], ys => .ok (ys.map (f x))
    | xs, [y] => .ok (xs.map fun x => f x y)
    | _, _ => .error .valueError

/-- Assignment of a vector to column `i` of a matrix with `rows` rows; a vector of length one is broadcast. -/
def setColumn (rows : Nat) (m : List (List F)) (i : Nat) (v : List F) : Except PyErr (List (List F)) :=
  if v.length = rows then .ok (List.zipWith (fun r x => r.set i x) m v)
  else match v with
    | [x] => .ok (m.map fun r => r.set i x)
    | _ => .error .valueError

/-- Column `i`, mtoolkit/scientific/catalogue_utilities.py:97-104. -/
def distanceColumn (lon1 lat1 lon2 lat2 : List F) (earthRad : F) (i : Nat) : Except PyErr (List F) := do
  let la ← match lat2[i]? with
    | some x => .ok x
    | none => .error .indexError
  let lo ← match lon2[i]? with
    | some x => .ok x
    | none => .error .indexError
  let dlat := lat1.map (· - la)
  let dlon := lon1.map (· - lo)
  let a := dlat.map fun d => PyMath.sin (d / ((2 : ℕ) : F)) * PyMath.sin (d / ((2 : ℕ) : F))
  let b := lat1.map fun l => PyMath.cos l * PyMath.cos la
  let c := dlon.map fun d => PyMath.sin (d / ((2 : ℕ) : F)) * PyMath.sin (d / ((2 : ℕ) : F))
  let bc ← broadcast (· * ·) b c
  let aval ← broadcast (· + ·) a bc
  .ok (aval.map fun v => ((2 : ℕ) : F) * earthRad * PyMath.atan2 (PyMath.sqrt v) (PyMath.sqrt (((1 : ℕ) : F) - v)))

/-- `haversine`, mtoolkit/scientific/catalogue_utilities.py:53-106. -/
def haversineMatrix (a b : Locs F) (radians : Bool := false) (earthRad : F := 6371.227) : Except PyErr (List (List F)) := do
  let a := if radians then a else a.toRadians
  let b := if radians then b else b.toRadians
  let (lon1, lat1) := a.vectors
  let (lon2, lat2) := b.vectors
  let nlocs1 := lon1.length
  let nlocs2 := lon2.length
  let distance := List.replicate nlocs1 (List.replicate nlocs2 ((0 : ℕ) : F))
  (List.range nlocs2).foldlM (fun m i => do
    let v ← distanceColumn lon1 lat1 lon2 lat2 earthRad i
    setColumn nlocs1 m i v) distance

end

end Verif.CatUtil
