import Verif.Model.Numpy

/-!
# Model of `mtoolkit/scientific/completeness.py`

An event is the pair (year, Mw) of its row in the catalogue matrix; a completeness table is a list of pairs (year, magnitude).
-/

namespace Verif.Completeness

open Verif Verif.Np

/-! ### `selected_eq_flag_vector` -/

section
variable {F : Type} [PyNum F]

/-- Body of the loop, mtoolkit/scientific/completeness.py:172-175: `temp_flag[logical_and(year < cyear[i], mw < cmw[i])] = 1`. -/
def markRow (ev : List (F × F)) (tempFlag : List Int) (c : F × F) : List Int :=
  List.zipWith (fun (e : F × F) t => if decide (e.1 < c.1) && decide (e.2 < c.2) then 1 else t) ev tempFlag

/-- `logical_or(temp_flag != 0, flag_vector != 0)`, completeness.py:181, followed by the assignment of 1, 182. -/
def mergeFlag (t f : Int) : Int := if decide (t ≠ 0) || decide (f ≠ 0) then 1 else 0

/-- `selected_eq_flag_vector`, mtoolkit/scientific/completeness.py:168-184.  `year` and `mw` are columns of one matrix and so have the same
length.  A flag vector of another length is broadcast if it has one element or if there is one event (then every
flag but the first makes an index beyond the catalogue if set); otherwise the shapes do not match. -/
def selectedEqFlagVector (ev : List (F × F)) (table : List (F × F)) (flag : List Int) : Except PyErr (List Int) :=
  let tempFlag := table.foldl (markRow ev) (List.replicate ev.length 0)
  if flag.length = ev.length then .ok (List.zipWith mergeFlag tempFlag flag)
  else match flag, tempFlag with
    | [f], _ => .ok (tempFlag.map (fun t => mergeFlag t f))
    | [], [_] => .ok [0]
    | f :: fs, [t] => if fs.all (fun g => decide (mergeFlag t g = 0)) then .ok [mergeFlag t f] else .error .indexError
    | _, _ => .error .valueError

end

/-! ### `stepp_analysis` -/

section
variable {F : Type} [PyMath F]

/-- Events of magnitude bin `jj` since `lower`, mtoolkit/scientific/completeness.py:81-92: the last bin is open above. -/
def steppCount (ev : List (F × F)) (mbin : Nat → F) (nb : Nat) (lower : F) (jj : Nat) : Nat :=
  ev.countP fun e => decide (e.1 ≥ lower) &&
    (if jj + 1 = nb then decide (e.2 ≥ mbin jj) else decide (e.2 ≥ mbin jj) && decide (e.2 < mbin (jj + 1)))

/-- `siglam[ii, jj]`, mtoolkit/scientific/completeness.py:102-105. -/
def siglam (count : Nat → Nat) (timeRange : Nat → F) (k : Nat) : F :=
  let s := PyMath.sqrt (((count k : F) / timeRange k) / timeRange k)
  if s < 1e-14 then 1e-14 else s

/-- `log10(time_range[k+1]) - log10(time_range[k])`. -/
def dlogT (timeRange : Nat → F) (k : Nat) : F := PyMath.log10 (timeRange (k + 1)) - PyMath.log10 (timeRange k)

/-- `time_diff[k]`, mtoolkit/scientific/completeness.py:73, 95-97. -/
def timeDiff (timeRange : Nat → F) (k : Nat) : F :=
  (PyMath.log10 ((1.0 : F) / PyMath.sqrt (timeRange (k + 1))) - PyMath.log10 ((1.0 : F) / PyMath.sqrt (timeRange k))) / dlogT timeRange k

/-- `resid1[k]`, mtoolkit/scientific/completeness.py:106-108. -/
def resid (count : Nat → Nat) (timeRange : Nat → F) (k : Nat) : F :=
  (PyMath.log10 (siglam count timeRange (k + 1)) - PyMath.log10 (siglam count timeRange k)) / dlogT timeRange k - timeDiff timeRange k

/-- `np.nonzero(test1 > ttol)[0]`, mtoolkit/scientific/completeness.py:109-110. -/
def exceeding (count : Nat → Nat) (timeRange : Nat → F) (nt : Nat) (ttol : F) : List Nat :=
  (List.range (nt - 2)).filter fun k => decide (npAbs (resid count timeRange (k + 1) - resid count timeRange k) > ttol)

/-- `tloct`, mtoolkit/scientific/completeness.py:111-114: the last index, but `np.any` of the indices is false if the only one is 0;
`none` for -1. -/
def steppLoc (ex : List Nat) : Option Nat := if ex.any (fun k => decide (k ≠ 0)) then ex.getLast? else none

/-- `tloc[ii]`, mtoolkit/scientific/completeness.py:115-135; `prev` is `tloc[ii - 1]`. -/
def steppTloc (iloc : Bool) (nt : Nat) (prev : Option Nat) (loc : Option Nat) : Nat :=
  let t := match loc with
    | none => prev.getD 0
    | some t => if t > nt then nt else t
  match prev with
  | some p => if iloc && decide (t < p) then p else t
  | none => t

/-- The loop over the magnitude bins, mtoolkit/scientific/completeness.py:100-138. -/
def steppTlocs (iloc : Bool) (nt : Nat) : Option Nat → List (Option Nat) → List Nat
  | _, [] => []
  | prev, l :: ls =>
    let t := steppTloc iloc nt prev l
    t :: steppTlocs iloc nt (some t) ls

/-- `time_range[tloc[ii]]`, completeness.py:136. -/
def compLength (timeRange : Nat → F) (nt : Nat) (t : Nat) : Except PyErr F :=
  if t < nt then .ok (timeRange t) else .error .indexError

/-- The local variables of `stepp_analysis` after line 93 of completeness.py: the numbers of bins (`ntb - 1`) and of time steps, their edges, the last year and
the counts `number_obs[ii, jj]`. -/
structure SteppBins (F : Type) where
  nb : Nat
  mbin : Nat → F
  nt : Nat
  timeRange : Nat → F
  endTime : F
  obs : Nat → Nat → Nat

/-- `np.around(100.0 * mw) / 100.0`, completeness.py:60. -/
def around2 (x : F) : F := ((PyNum.rintZ ((100.0 : F) * x) : Int) : F) / 100.0

/-- First part of `stepp_analysis`, mtoolkit/scientific/completeness.py:59-93.  `np.zeros((nt, ntb - 1))` fails for `ntb = 0`. -/
def steppBins (ev : List (F × F)) (dm dt : F) : Except PyErr (SteppBins F) := do
  let ev := ev.map (fun e => (e.1, around2 e.2))
  let mw := ev.map Prod.snd
  let year := ev.map Prod.fst
  let lowm := ((PyNum.floorZ ((10.0 : F) * (← npMin mw)) : Int) : F) / 10.0
  let highm := ((PyNum.ceilZ ((10.0 : F) * (← npMax mw)) : Int) : F) / 10.0
  if PyNum.decEq dm 0 then throw .valueError
  let ntb := arangeLen lowm (highm + dm) dm
  let mbin := arangeAt lowm dm
  let endTime ← npMax year
  let startTime ← npMin year
  if PyNum.decEq dt 0 then throw .valueError
  let nt := arangeLen dt (endTime - startTime + ((2 : ℕ) : F)) dt
  let timeRange := arangeAt dt dt
  if ntb = 0 then throw .valueError
  return { nb := ntb - 1, mbin := mbin, nt := nt, timeRange := timeRange, endTime := endTime
           obs := fun ii jj => steppCount ev mbin (ntb - 1) (endTime - timeRange ii) jj }

/-- `stepp_analysis`, mtoolkit/scientific/completeness.py:34-143 (table as list of (year, magnitude) rows). -/
def stepp (ev : List (F × F)) (dm dt ttol : F) (iloc : Bool) : Except PyErr (List (F × F)) := do
  let b ← steppBins ev dm dt
  let locs := (List.range b.nb).map (fun jj => steppLoc (exceeding (fun ii => b.obs ii jj) b.timeRange b.nt ttol))
  let lengths ← (steppTlocs iloc b.nt none locs).mapM (compLength b.timeRange b.nt)
  return List.zipWith (fun c jj => (b.endTime - c, b.mbin jj)) lengths (List.range b.nb)

end

end Verif.Completeness
