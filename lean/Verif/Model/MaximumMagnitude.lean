import Verif.Model.Numpy

/-!
# Model of `mtoolkit/scientific/maximum_magnitude.py`

Arrays are lists.  `x ** 2.` of numpy is a multiplication.  Random numbers are an argument.
-/

namespace Verif.MaxMag

open Verif Verif.Np

variable {F : Type} [PyMath F]

/-! ### `h_smooth` -/

/-- Insertion into a sorted list (for `np.sort`). -/
def insertSorted (x : F) : List F → List F
  | [] => [x]
  | y :: l => if x ≤ y then x :: y :: l else y :: insertSorted x l

/-- `np.sort`. -/
def npSort (l : List F) : List F := l.foldr insertSorted []

/-- `x.clip(lo, hi)`. -/
def clip (x lo hi : F) : F := if x < lo then lo else if hi < x then hi else x

/-- `scipy.stats.mstats.mquantiles` with the default parameters `alphap = betap = 0.4`, for one probability, on a non-empty vector (library function, from its source). -/
def mquantile (x : List F) (p : F) : Except PyErr F :=
  let s := npSort x
  match s with
  | [] => .error .indexError
  | [a] => .ok a
  | _ =>
    let n := s.length
    let m := (0.4 : F) + p * (((1 : ℕ) : F) - 0.4 - 0.4)
    let aleph := (n : F) * p + m
    let k := PyNum.floorZ (clip aleph ((1 : ℕ) : F) ((n - 1 : ℕ) : F))
    let gamma := clip (aleph - (k : F)) ((0 : ℕ) : F) ((1 : ℕ) : F)
    .ok (((1.0 : F) - gamma) * s.getD (k.toNat - 1) 0 + gamma * s.getD k.toNat 0)

/-- `h_smooth`, mtoolkit/scientific/maximum_magnitude.py:60-68.  `np.min([np.std, iqr / 1.34])` compares the *function* `np.std` with a number; in Python 2
numbers sort before functions, so the result is `iqr / 1.34`. -/
def hSmooth (mag : List F) : Except PyErr F := do
  let neq := (mag.length : F)
  let q0 ← mquantile mag 0.25
  let q1 ← mquantile mag 0.75
  let iqr := q1 - q0
  let hfact := (0.9 : F) * (iqr / 1.34) * PyMath.rpow neq (-(1.0 : F) / 5.0)
  return ((PyNum.rintZ ((100.0 : F) * hfact) : Int) : F) / 100.0

/-! ### `gauss_cdf_hastings` -/

/-- The polynomial of `gauss_cdf_hastings`, maximum_magnitude.py:88-94. -/
def hastingsPoly (xa : F) : F :=
  (1.0 : F) + (0.196854 : F) * xa + (-(0.115194 : F)) * (xa * xa) + (0.000344 : F) * PyMath.rpow xa 3.0 + (0.019527 : F) * PyMath.rpow xa 4.0

/-- `gauss_cdf_hastings` on one element, mtoolkit/scientific/maximum_magnitude.py:85-101. -/
def gaussCdf (x barx sigx : F) : F :=
  let xn := (x - barx) / sigx
  let y := (1.0 : F) - (0.5 : F) * PyMath.rpow (hastingsPoly (npAbs xn)) (-(4.0 : F))
  let y := if xn < -(5.0 : F) then (0.0 : F) else y
  let y := if (5.0 : F) < xn then (1.0 : F) else y
  if xn < (0.0 : F) then (1.0 : F) - y else y

/-! ### `kijko_npg_intfunc_simps` -/

/-- The value `cdf_func[ival]`, maximum_magnitude.py:125-131. -/
def cdfFunc (mag : List F) (hfact neq mmin mmax m : F) : F :=
  let g (t mg : F) : F := gaussCdf ((t - mg) / hfact) 0.0 1.0
  PyMath.rpow (npSum (mag.map fun mg => g m mg - g mmin mg) / npSum (mag.map fun mg => g mmax mg - g mmin mg)) neq

/-- The sum over the inner points, maximum_magnitude.py:134-137, and the last term, 138: `prev` is `mval[i - 1]`. -/
def trapTail (f : F → F) (acc prev : F) : List F → F
  | [] => acc
  | [x] => acc + ((0.5 : F) * f x * (x - prev))
  | x :: y :: l => trapTail f (acc + ((0.5 : F) * f x * (y - prev))) x (y :: l)

/-- `kijko_npg_intfunc_simps`, mtoolkit/scientific/maximum_magnitude.py:120-141. -/
def intFunc (mval mag : List F) (hfact neq : F) : Except PyErr F := do
  let mmin ← npMin mval
  let mmax ← npMax mval
  let f := cdfFunc mag hfact neq mmin mmax
  match mval with
  | x :: y :: l => return trapTail f ((0.5 : F) * f x * (y - x)) x (y :: l)
  | _ => throw .indexError

/-! ### `exp_spaced_points` -/

/-- `exp_spaced_points`, mtoolkit/scientific/maximum_magnitude.py:158-162. -/
def expSpaced (lower upper nsamp : F) : List F :=
  let step := (PyMath.exp upper - PyMath.exp lower) / (nsamp - 1.0)
  (((List.range (arangeLen (0.0 : F) (nsamp - 1.0) 1.0)).map fun i => PyMath.exp lower + arangeAt (0.0 : F) 1.0 i * step) ++ [PyMath.exp upper]).map PyMath.log

/-! ### `kijko_nonparametric_gauss` -/

/-- `np.argmax`: the first index of the maximum. -/
def argmaxGo (best : F) (bi i : Nat) : List F → Nat
  | [] => bi
  | x :: l => if best < x then argmaxGo x i (i + 1) l else argmaxGo best bi (i + 1) l

/-- `np.argmax` of a non-empty vector. -/
def argmax : List F → Nat
  | [] => 0
  | x :: l => argmaxGo x 0 1 l

/-- The loop of `kijko_nonparametric_gauss`, mtoolkit/scientific/maximum_magnitude.py:216-231, started with the values `mmax` and `j`, entered with `d_t > tolerance`.
`delta` is the computation of the integral for a given `mmax`.  Result: final `mmax` and `delta`; `none` if it has not ended after
`fuel` iterations. -/
def kijkoLoop (delta : F → Except PyErr F) (obsmax tol : F) (maxIter : Nat) : Nat → F → Nat → Option (Except PyErr (F × F))
  | 0, _, _ => none
  | fuel + 1, mmax, j =>
    match delta mmax with
    | .error e => some (.error e)
    | .ok d =>
      let tmmax := obsmax + d
      let dt := npAbs (tmmax - mmax)
      let dt := if j + 1 > maxIter then (0.5 : F) * tol else dt
      if tol < dt then kijkoLoop delta obsmax tol maxIter fuel tmmax (j + 1) else some (.ok (tmmax, d))

/-- The largest `neq` events (all if there are not more), maximum_magnitude.py:203-210; `mag[-0:]` is the whole vector. -/
def largest (mag : List F) (neq : Nat) : List F × F :=
  if mag.length ≤ neq then (mag, (mag.length : F))
  else ((if neq = 0 then npSort mag else (npSort mag).drop (mag.length - neq)), (neq : F))

/-- `kijko_nonparametric_gauss` with `max_observed = False` (the only use), mtoolkit/scientific/maximum_magnitude.py:191-236.  A tolerance of 1E8 or more leaves
`delta` unbound. -/
def kijko (mag sig : List F) (neq : Nat) (nsamp tol : F) (maxIter fuel : Nat) : Option (Except PyErr (F × F)) :=
  match npMax mag with
  | .error e => some (.error e)
  | .ok obsmax =>
    match sig[argmax mag]? with
    | none => some (.error .indexError)
    | some obssig =>
      let (mg, n) := largest mag neq
      match npMin mg, hSmooth mg with
      | .error e, _ => some (.error e)
      | _, .error e => some (.error e)
      | .ok mmin, .ok h =>
        if tol < (1e8 : F) then
          match kijkoLoop (fun mmax => intFunc (expSpaced mmin mmax nsamp) mg h n) obsmax tol maxIter fuel obsmax 0 with
          | none => none
          | some (.error e) => some (.error e)
          | some (.ok (mmax, d)) => some (.ok (mmax, PyMath.sqrt (obssig * obssig + d * d)))
        else some (.error (.runtimeError "UnboundLocalError"))

/-! ### `cumulative_moment` and `cum_mo_uncertainty` -/

/-- `np.cumsum`. -/
def cumsumGo (acc : F) : List F → List F
  | [] => []
  | x :: l => (acc + x) :: cumsumGo (acc + x) l

/-- `np.cumsum`. -/
def cumsum (l : List F) : List F := cumsumGo 0 l

/-- Moment release of each year from the first to the last, maximum_magnitude.py:253-262; events are pairs (year, magnitude). -/
def moRate (ev : List (F × F)) : Except PyErr (List F) := do
  let year := ev.map Prod.fst
  let y0 ← npMin year
  let y1 ← npMax year
  let yr ← arange y0 (y1 + ((1 : ℕ) : F)) ((1 : ℕ) : F)
  return yr.map fun t => npSum ((ev.filter fun e => decide (npAbs (e.1 - t) < 1e-5)).map fun e => PyMath.rpow (10.0 : F) ((9.05 : F) + (1.5 : F) * e.2))

/-- The difference between the extreme deviations, maximum_magnitude.py:263-268. -/
def moDiff (ev : List (F × F)) : Except PyErr F := do
  let mr ← moRate ev
  let nyr := (mr.length : F)
  let ave := npSum mr / nyr
  let dev := List.zipWith (· - ·) (cumsum mr) (cumsum (List.replicate mr.length ave))
  return npAbs (← npMax dev) + npAbs (← npMin dev)

/-- `cumulative_moment`, mtoolkit/scientific/maximum_magnitude.py:252-271. -/
def cumulativeMoment (ev : List (F × F)) : Except PyErr F := do
  return ((2.0 : F) / 3.0) * (PyMath.log10 (← moDiff ev) - 9.05)

/-- `np.mean`. -/
def npMean (l : List F) : F := npSum l / (l.length : F)

/-- `np.std(x, ddof)`. -/
def npStd (l : List F) (ddof : Nat) : F :=
  PyMath.sqrt (npSum (l.map fun x => (x - npMean l) * (x - npMean l)) / ((l.length : F) - (ddof : F)))

/-- An event with its magnitude uncertainty. -/
structure MEvent (F : Type) where
  year : F
  mag : F
  sigma : F

/-- The events of a bootstrap sample; `rnd` are the normal variates of the sample, maximum_magnitude.py:303. -/
def perturbed (ev : List (MEvent F)) (rnd : Nat → F) : List (F × F) :=
  ev.mapIdx fun k e => (e.year, e.mag + e.sigma * rnd k)

/-- `cum_mo_uncertainty`, mtoolkit/scientific/maximum_magnitude.py:300-307; `rnd i k` is normal variate `k` of bootstrap sample `i`. -/
def cumMoUncertainty (ev : List (MEvent F)) (nboot : Nat) (rnd : Nat → Nat → F) : Except PyErr (F × F) := do
  let s ← (List.range nboot).mapM fun i => cumulativeMoment (perturbed ev (rnd i))
  return (npMean s, npStd s 1)

/-! ### `maximum_magnitude_analysis` -/

/-- Parameters of the configuration section `MaximumMagnitude`. -/
structure MaxMagConfig (F : Type) where
  algorithm : String
  tolerance : F
  maxIterations : Nat
  neq : Nat
  nsamp : F
  nboot : Nat

/-- `maximum_magnitude_analysis`, mtoolkit/scientific/maximum_magnitude.py:28-46. -/
def analysis (ev : List (MEvent F)) (cfg : MaxMagConfig F) (rnd : Nat → Nat → F) (fuel : Nat) : Option (Except PyErr (F × F)) :=
  if cfg.algorithm = "Kijko_Npg" then
    kijko (ev.map MEvent.mag) (ev.map MEvent.sigma) cfg.neq cfg.nsamp cfg.tolerance cfg.maxIterations fuel
  else if cfg.algorithm = "Cumulative_Moment" then
    some (cumMoUncertainty ev cfg.nboot rnd)
  else some (.ok (((0 : ℕ) : F), ((0 : ℕ) : F)))

end Verif.MaxMag
