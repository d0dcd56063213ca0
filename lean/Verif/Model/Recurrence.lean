import Verif.Model.Numpy

/-!
# Model of `mtoolkit/scientific/recurrence.py`

An event is the pair (year, Mw); a completeness table is a list of pairs (year, magnitude).  `x ** 2.0` of numpy is a multiplication.
-/

namespace Verif.Recurrence

open Verif Verif.Np

variable {F : Type} [PyMath F]

/-! ### `recurrence_table` -/

/-- A row of the recurrence table, recurrence.py:132-133. -/
structure RecRow (F : Type) where
  mval : F
  nObs : Nat
  nCum : Nat
  nObsAnnual : F
  nCumAnnual : F

/-- `recurrence_table`, mtoolkit/scientific/recurrence.py:112-135.  `np.histogram` fails on an empty array of
edges, and on edges that decrease. -/
def recurrenceTable (ev : List (F × F)) (dmag : F) : Except PyErr (List (RecRow F)) := do
  let year := ev.map Prod.fst
  let mag := ev.map Prod.snd
  let numYear := (← npMax year) - (← npMin year) + (1.0 : F)
  let upperM ← npMax (mag.map fun m => ((PyNum.ceilZ ((10.0 : F) * m) : Int) : F) / 10.0)
  let lowerM ← npMin (mag.map fun m => ((PyNum.floorZ ((10.0 : F) * m) : Int) : F) / 10.0)
  if PyNum.decEq dmag 0 then throw .valueError
  let len := arangeLen lowerM (upperM + (((2 : ℕ) : F) * dmag)) dmag
  let magRange := arangeAt lowerM dmag
  if len = 0 then throw .indexError
  if 1 < len ∧ dmag < 0 then throw .attributeError
  let nb := len - 1
  let numberObs := histogram magRange nb mag
  return (List.range nb).map fun i =>
    let n := numberObs.getD i 0
    let c := (numberObs.drop i).sum
    { mval := magRange i + dmag / 2.0, nObs := n, nCum := c, nObsAnnual := (n : F) / numYear, nCumAnnual := (c : F) / numYear }

/-! ### `b_max_likelihood` -/

/-- `b_max_likelihood`, mtoolkit/scientific/recurrence.py:158-171, on pairs (magnitude, number). -/
def bMaxLikelihood (h : List (F × Nat)) (dmag mc : F) : Except PyErr (F × F) := do
  let h := h.filter fun r => decide (r.1 ≥ mc)
  let neq := npSum (h.map fun r => (r.2 : F))
  let mMin ← npMin (h.map Prod.fst)
  let mAve := npSum (h.map fun r => r.1 * (r.2 : F)) / neq
  let bval := PyMath.log10 (PyMath.exp (1.0 : F)) / (mAve - mMin + (dmag / 2.0))
  let s := npSum (h.map fun r => (r.2 : F) * ((r.1 - mAve) * (r.1 - mAve))) / (neq * (neq - ((1 : ℕ) : F)))
  return (bval, (2.3 : F) * (bval * bval) * PyMath.sqrt s)

/-! ### `b_maxlike_time` -/

/-- The four values of one completeness period (recurrence.py:225) and its number of events. -/
structure Period (F : Type) where
  b : F
  sigb : F
  rate : F
  sigrate : F
  n : Nat

/-- The selected events of a period, recurrence.py:206-207. -/
def periodEvents (ev : List (F × F)) (ctime mc : F) : List (F × F) :=
  ev.filter fun e => decide (e.1 ≥ ctime) && decide (e.2 ≥ mc - 1e-5)

/-- One pass of the loop, mtoolkit/scientific/recurrence.py:201-230; `group` are the magnitudes `cmag[id0]`. -/
def period (ev : List (F × F)) (dmag refMag ctime : F) (group : List F) : Except PyErr (Period F) := do
  let mc ← npMin group
  let sel := periodEvents ev ctime mc
  let year := sel.map Prod.fst
  let nyr := (← npMax year) - (← npMin year) + ((1 : ℕ) : F)
  let table ← recurrenceTable sel dmag
  let (bval, sigmaB) ← bMaxLikelihood (table.map fun r => (r.mval, r.nObs)) dmag mc
  let lr := PyMath.log10 ((sel.length : F) / nyr)
  let aval := lr + bval * mc
  let sigmaA := npAbs (lr + (bval + sigmaB) * refMag - aval)
  let rate := PyMath.rpow (10.0 : F) (aval - bval * refMag)
  let sigrate := PyMath.rpow (10.0 : F) ((aval + sigmaA) - (bval * refMag) - PyMath.log10 rate)
  return { b := bval, sigb := sigmaB, rate := rate, sigrate := sigrate, n := sel.length }

/-- `id0`, recurrence.py:200: the magnitudes of the rows with (almost) the same completeness year. -/
def groupOf (table : List (F × F)) (c : F) : List F :=
  (table.filter fun r => decide (npAbs (r.1 - c) < 1e-5)).map Prod.snd

/-- The loop over the table, mtoolkit/scientific/recurrence.py:197-231: `ival` advances by the number of rows with the same year.  (`np.min` fails if there is none, which
can only happen if the year is NaN.) -/
def periods (ev : List (F × F)) (table : List (F × F)) (dmag refMag : F) (ival : Nat) : Except PyErr (List (Period F)) :=
  if h : ival < table.length then
    let g := groupOf table table[ival].1
    if hg : g.length = 0 then .error .valueError
    else do
      let p ← period ev dmag refMag table[ival].1 g
      let ps ← periods ev table dmag refMag (ival + g.length)
      return p :: ps
  else .ok []
termination_by table.length - ival
decreasing_by
  have : g = groupOf table table[ival].1 := rfl
  rw [← this]
  omega

/-- `np.sum(neq * column)` with `neq = neq / sum(neq)`, recurrence.py:235-240. -/
def weighted (ps : List (Period F)) (f : Period F → F) : F :=
  let total := npSum (ps.map fun p => (p.n : F))
  npSum (ps.map fun p => ((p.n : F) / total) * f p)

/-- Result of the recurrence algorithms: b-value, its error, a-value (rate), its error. -/
structure GR (F : Type) where
  b : F
  sigb : F
  a : F
  siga : F

/-- `b_maxlike_time`, mtoolkit/scientific/recurrence.py:197-246.  An empty table leaves `neq` unbound (`UnboundLocalError`). -/
def bMaxlikeTime (ev : List (F × F)) (table : List (F × F)) (dmag refMag : F) : Except PyErr (GR F) := do
  let ps ← periods ev table dmag refMag 0
  if ps.isEmpty then throw (.runtimeError "UnboundLocalError")
  return { b := weighted ps Period.b, sigb := weighted ps Period.sigb, a := weighted ps Period.rate, siga := weighted ps Period.sigrate }

/-! ### `weichert_prep` -/

/-- `np.around(x, decimals=1)`. -/
def around1 (x : F) : F := ((PyNum.rintZ (x * (10.0 : F)) : Int) : F) / 10.0

/-- Last index below `n` satisfying `p`: `np.nonzero(...)[0][-1]`. -/
def lastIdx (n : Nat) (p : Nat → Bool) : Option Nat := ((List.range n).filter p).getLast?

/-- The edges of the cells, recurrence.py:275-277. -/
structure Cells (F : Type) where
  nt : Nat
  timeInt : Nat → F
  nm : Nat
  magInt : Nat → F
  events : List (F × F)
  maxYear : F

/-- `time_int`, `mag_int` and the rounded events, mtoolkit/scientific/recurrence.py:274-277; `nt`, `nm` are the numbers of cells (edges minus one).
`np.histogram2d` needs two edges in each direction, and increasing ones. -/
def cells (ev : List (F × F)) (dm dt : F) : Except PyErr (Cells F) := do
  let year := ev.map Prod.fst
  let y0 ← npMin year
  let y1 ← npMax year
  if PyNum.decEq dt 0 then throw .valueError
  let ev1 := ev.map fun e => (e.1, around1 e.2)
  let m0 ← npMin (ev1.map Prod.snd)
  let m1 ← npMax (ev1.map Prod.snd)
  if PyNum.decEq dm 0 then throw .valueError
  let lt := arangeLen y0 (y1 + (1.5 : F) * dt) dt
  let lm := arangeLen m0 (m1 + (1.5 : F) * dm) dm
  if lt < 2 ∨ lm < 2 ∨ dt < 0 ∨ dm < 0 then throw .valueError
  return { nt := lt - 1, timeInt := arangeAt y0 dt, nm := lm - 1, magInt := arangeAt m0 dm, events := ev1, maxYear := y1 }

/-- `np.histogram2d(year, fmag, bins=[time_int, mag_int])[0][a, i]`, recurrence.py:278-279. -/
def Cells.count (c : Cells F) (a i : Nat) : Nat :=
  c.events.countP fun e => inBin c.timeInt c.nt a e.1 && inBin c.magInt c.nm i e.2

/-- Cells set to zero for the row `r` of the completeness table, recurrence.py:287-293. -/
def Cells.removed (c : Cells F) (r : F × F) (a i : Nat) : Bool :=
  match lastIdx (c.nt + 1) (fun k => decide (c.timeInt k < r.1)), lastIdx (c.nm + 1) (fun k => decide (c.magInt k < r.2)) with
  | some x, some y => decide (a < x + 1) && decide (i < y + 1)
  | _, _ => false

/-- `n_obs[i]`, recurrence.py:286-293, 299. -/
def Cells.nObs (c : Cells F) (table : List (F × F)) (i : Nat) : Nat :=
  ((List.range c.nt).map fun a => if table.any (fun r => c.removed r a i) then 0 else c.count a i).sum

/-- `t_per[i]`, recurrence.py:301-306. -/
def Cells.tPer (c : Cells F) (table : List (F × F)) (i : Nat) : Except PyErr F :=
  match ((table.filter fun r => decide (r.2 - c.magInt i < 1e-3)).getLast?).or table.getLast? with
  | some r => .ok (c.maxYear - r.1 + ((1 : ℕ) : F))
  | none => .error .indexError

/-- A magnitude bin handed to `weichert`: period, central magnitude, number of events. -/
structure WBin (F : Type) where
  t : F
  m : F
  n : Nat

/-- `weichert_prep`, mtoolkit/scientific/recurrence.py:269-312.  The check of the lengths (270-272) cannot fail on columns of one table. -/
def weichertPrep (ev : List (F × F)) (table : List (F × F)) (dm dt : F) : Except PyErr (List (WBin F)) := do
  let c ← cells ev dm dt
  (List.range c.nm).mapM fun i => do
    let t ← c.tPer table i
    return { t := t, m := (c.magInt i + c.magInt (i + 1)) / 2.0, n := c.nObs table i }

/-! ### `weichert` -/

/-- The sums of one iteration, recurrence.py:338-345. -/
structure WSums (F : Type) where
  snm : F
  nkount : F
  sumexp : F
  sumtex : F
  stmex : F
  stm2x : F

/-- recurrence.py:338-345. -/
def wSums (w : List (WBin F)) (beta : F) : WSums F where
  snm := npSum (w.map fun x => (x.n : F) * x.m)
  nkount := npSum (w.map fun x => (x.n : F))
  sumexp := npSum (w.map fun x => PyMath.exp (-beta * x.m))
  sumtex := npSum (w.map fun x => x.t * PyMath.exp (-beta * x.m))
  stmex := npSum (w.map fun x => x.t * PyMath.exp (-beta * x.m) * x.m)
  stm2x := npSum (w.map fun x => x.m * (x.t * PyMath.exp (-beta * x.m) * x.m))

/-- `d2ldb2`, recurrence.py:346-347. -/
def d2ldb2 (w : List (WBin F)) (beta : F) : F :=
  let s := wSums w beta
  s.nkount * ((s.stmex / s.sumtex) * (s.stmex / s.sumtex) - s.stm2x / s.sumtex)

/-- `dldb`, recurrence.py:346, 348. -/
def dldb (w : List (WBin F)) (beta : F) : F :=
  let s := wSums w beta
  (s.stmex / s.sumtex) * s.nkount - s.snm

/-- The new `beta`, recurrence.py:350. -/
def newton (w : List (WBin F)) (beta : F) : F := beta - dldb w beta / d2ldb2 w beta

/-- The values computed in the iteration that starts from `beta`, recurrence.py:351-365. -/
def wResult (w : List (WBin F)) (m0 dM mrate beta : F) : GR F :=
  let s := wSums w beta
  let beta' := newton w beta
  let fngtm0 := s.nkount * (s.sumexp / s.sumtex)
  let fn0 := fngtm0 * PyMath.exp (-beta' * (m0 - dM / 2.0))
  let am := fngtm0 * PyMath.exp (-beta' * (mrate - (m0 - dM / 2.0)))
  { b := beta' / PyMath.log (10.0 : F)
    sigb := PyMath.sqrt (-(1.0 : F) / d2ldb2 w beta) / PyMath.log (10.0 : F)
    a := if PyNum.decEq mrate 0 then fngtm0 else am
    siga := if PyNum.decEq mrate 0 then fn0 / PyMath.sqrt s.nkount else am / PyMath.sqrt s.nkount }

/-- The loop of `weichert`, mtoolkit/scientific/recurrence.py:336-369: `none` if it has not ended after `fuel` iterations. -/
def weichertLoop (w : List (WBin F)) (m0 dM mrate itstab : F) : Nat → F → Option (GR F)
  | 0, _ => none
  | fuel + 1, beta =>
    if npAbs (newton w beta - beta) ≤ itstab then some (wResult w m0 dM mrate beta)
    else weichertLoop w m0 dM mrate itstab fuel (newton w beta)

/-- `weichert` with the default `beta = 1.5` and `itstab = 1E-5`, mtoolkit/scientific/recurrence.py:315-369, limited to `fuel` iterations. -/
def weichert (w : List (WBin F)) (mrate : F) (fuel : Nat) : Except PyErr (Option (GR F)) :=
  match w with
  | x0 :: x1 :: _ => .ok (weichertLoop w x0.m (x1.m - x0.m) mrate 1e-5 fuel 1.5)
  | _ => .error .indexError

/-! ### `recurrence_analysis` -/

/-- `recurrence_analysis`, mtoolkit/scientific/recurrence.py:66-89; every name other than 'Weichert' selects the maximum likelihood method. -/
def recurrenceAnalysis (ev : List (F × F)) (table : List (F × F)) (dmag : F) (algorithm : String) (refMag dt : F) (fuel : Nat) :
    Except PyErr (Option (GR F)) :=
  if algorithm = "Weichert" then do
    let w ← weichertPrep ev table dmag dt
    weichert w refMag fuel
  else do
    let r ← bMaxlikeTime ev table dmag refMag
    return some r

end Verif.Recurrence
