import Verif.Model.MaximumMagnitude

/-!
# Model of the argument `max_observed` of `kijko_nonparametric_gauss`

`maximum_magnitude_analysis` always passes `False`; the documentation also allows a tuple with a magnitude "if not in magnitude array" and its uncertainty.
-/

namespace Verif.MaxMag

open Verif Verif.Np

variable {F : Type} [PyMath F]

/-- `kijko_nonparametric_gauss`, mtoolkit/scientific/maximum_magnitude.py:193-236.  `none` stands for `max_observed = False`, `some (m, s)` for the tuple
`(m, s)`, which is true in Python whatever its numbers are.  The vector of uncertainties is used only if no tuple is given. -/
def kijkoObserved (mag sig : List F) (neq : Nat) (nsamp tol : F) (maxIter : Nat) (observed : Option (F × F)) (fuel : Nat) : Option (Except PyErr (F × F)) :=
  let found : Except PyErr (F × F) :=
    match observed with
    | none => do
      let obsmax ← npMax mag
      match sig[argmax mag]? with
      | none => .error .indexError
      | some obssig => .ok (obsmax, obssig)
    | some o => .ok o
  match found with
  | .error e => some (.error e)
  | .ok (obsmax, obssig) =>
    let (mg, n) := largest mag neq
    match npMin mg, hSmooth mg with
    | .error e, _ => some (.error e)
    | _, .error e => some (.error e)
    | .ok mmin, .ok h =>
      if tol < (1e8 : F) then
        match kijkoLoop (fun mmax => intFunc (expSpaced mmin mmax nsamp) mg h n) obsmax tol maxIter fuel obsmax 0 with
        | none => none
        | some (.error e) => some (.error e)
        | some (.ok (mmax, d)) => some (.ok (mmax, PyMath.sqrt (obssig * obssig + d * d)))
      else some (.error (.runtimeError "UnboundLocalError"))

end Verif.MaxMag
