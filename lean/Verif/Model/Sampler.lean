import Verif.Model.MaximumMagnitude

/-!
# The random numbers of `cum_mo_uncertainty`: mtoolkit/scientific/maximum_magnitude.py:274-307

`Verif.Model.MaximumMagnitude` has the bootstrap for given random numbers.  Here the random numbers come from the generator chosen by the argument `seed`: a generator made from the
seed, or the generator `np.random` that all callers share.  What `RandomState` makes of a seed is an arbitrary function.
-/

namespace Verif.MaxMag

open Verif

variable {F : Type} [PyMath F]

/-- Values of the argument `seed`.  Truth values are integers of Python; long integers are no instances of `int`. -/
inductive Seed where
  | none
  | int (i : ℤ)
  | long (i : ℤ)
  | other

/-- The generators of numpy: `np.random.RandomState(seed)` and the shared `np.random`. -/
structure Generators (F : Type) where
  randomState : ℤ → Except PyErr (ℕ → F)
  shared : ℕ → F

/-- `cum_mo_uncertainty`, mtoolkit/scientific/maximum_magnitude.py:294-307.  `pos` is the number of random numbers drawn from the shared generator before the call; the result is the
outcome of the call and this number after it. -/
def cumMoSeeded (g : Generators F) (ev : List (MEvent F)) (nboot : ℕ) (seed : Seed) (pos : ℕ) : Except PyErr (F × F) × ℕ :=
  match seed with
  | .int i =>
    match g.randomState i with
    | .error e => (.error e, pos)
    | .ok s => (cumMoUncertainty ev nboot fun i k => s (i * ev.length + k), pos)
  | _ => (cumMoUncertainty ev nboot fun i k => g.shared (pos + i * ev.length + k), pos + nboot * ev.length)

end Verif.MaxMag
