import Verif.Model.Numpy

/-!
# Model of `mtoolkit/geo/simple_fault.py`, `mtoolkit/geo/tectonic_region.py` and `mtoolkit/scientific/fault_calculator.py`
-/

namespace Verif.Fault

open Verif Verif.Np

variable {F : Type} [PyMath F]

/-! ### `SimpleFaultGeo` -/

/-- The attributes of `SimpleFaultGeo`, mtoolkit/geo/simple_fault.py:70-73. -/
structure SimpleFault (F : Type) where
  trace : List (F × F)
  upp : F
  low : F
  dip : F

/-- `ensure`, mtoolkit/geo/simple_fault.py:24-31. -/
def ensure (b : Bool) : Except PyErr Unit := if b then .ok () else .error .valueError

/-- The check of one point of the trace, mtoolkit/geo/simple_fault.py:54-58. -/
def checkPoint (p : F × F) : Except PyErr Unit := do
  ensure (decide (-((180 : ℕ) : F) ≤ p.1) && decide (p.1 ≤ ((180 : ℕ) : F)))
  ensure (decide (-((90 : ℕ) : F) ≤ p.2) && decide (p.2 ≤ ((90 : ℕ) : F)))

/-- The loop over the trace, mtoolkit/geo/simple_fault.py:54-58. -/
def checkTrace : List (F × F) → Except PyErr Unit
  | [] => .ok ()
  | p :: l => do
    checkPoint p
    checkTrace l

/-- `SimpleFaultGeo.__init__`, mtoolkit/geo/simple_fault.py:50-73. -/
def mkFault (trace : List (F × F)) (upp low dip : F) : Except PyErr (SimpleFault F) := do
  ensure (decide (2 ≤ trace.length))
  checkTrace trace
  ensure (decide (((0 : ℕ) : F) ≤ upp))
  ensure (decide (((0 : ℕ) : F) < low))
  ensure (decide (upp < low))
  ensure (decide (((0 : ℕ) : F) < dip) && decide (dip ≤ ((90 : ℕ) : F)))
  return ⟨trace, upp, low, dip⟩

/-- `np.radians`. -/
def radians (x : F) : F := x * (PyMath.pi / ((180 : ℕ) : F))

/-- Length of one segment, mtoolkit/geo/simple_fault.py:89-103. -/
def segment (p q : F × F) : F :=
  let lon1 := radians p.1
  let lat1 := radians p.2
  let lon2 := radians q.1
  let lat2 := radians q.2
  let dlon := lon2 - lon1
  let dlat := lat2 - lat1
  let s1 := PyMath.sin (dlat / 2.0)
  let s2 := PyMath.sin (dlon / 2.0)
  let a := s1 * s1 + (PyMath.cos lat1 * PyMath.cos lat2) * (s2 * s2)
  let c := (2.0 : F) * PyMath.atan2 (PyMath.sqrt a) (PyMath.sqrt ((1.0 : F) - a))
  (6371.0 : F) * c

/-- The loop of `get_length`, mtoolkit/geo/simple_fault.py:87-105: `acc` is `distance`. -/
def lengthGo (acc : F) : List (F × F) → F
  | p :: q :: l => lengthGo (acc + segment p q) (q :: l)
  | _ => acc

/-- `get_length`, mtoolkit/geo/simple_fault.py:75-107. -/
def getLength (f : SimpleFault F) : F := lengthGo ((0 : ℕ) : F) f.trace

/-- `get_width`, mtoolkit/geo/simple_fault.py:109-114. -/
def getWidth (f : SimpleFault F) : F := (f.low - f.upp) / PyMath.sin (radians f.dip)

/-- `get_area`, mtoolkit/geo/simple_fault.py:116-121. -/
def getArea (f : SimpleFault F) : F := getLength f * getWidth f

/-! ### `TectonicRegion` -/

/-- A dictionary argument of a tectonic region: the entry `'model'` or `'value'`, the entry `'weight'`, and whether there are other keys. -/
structure WDict (α F : Type) where
  vals : Option (List α)
  weight : Option (List F)
  other : Bool := false

/-- `d['model']`, `d['value']`. -/
def WDict.getVals {α F : Type} (d : WDict α F) : Except PyErr (List α) :=
  match d.vals with
  | some v => .ok v
  | none => .error .keyError

/-- `d['weight']`. -/
def WDict.getWeight {α F : Type} (d : WDict α F) : Except PyErr (List F) :=
  match d.weight with
  | some v => .ok v
  | none => .error .keyError

/-- `bool(d)` of a dictionary. -/
def WDict.truthy {α F : Type} (d : WDict α F) : Bool := d.vals.isSome || d.weight.isSome || d.other

/-- The attributes of `TectonicRegion`, mtoolkit/geo/tectonic_region.py:64-67. -/
structure Region (F : Type) where
  id : String
  msr : WDict String F
  smod : WDict F F
  dlr : WDict F F

/-- One comparison of `check_msr_weight`, mtoolkit/geo/tectonic_region.py:97-102. -/
def checkLen {α F : Type} (d : WDict α F) : Except PyErr Unit := do
  let v ← d.getVals
  let w ← d.getWeight
  ensure (decide (v.length = w.length))

/-- `SUPPORTED_MSR`, mtoolkit/geo/tectonic_region.py:27. -/
def supportedMsr : List String := ["Peer", "WC1994"]

/-- `reduce(lambda x, y: x + y, l)`; fails on an empty list. -/
def reduceSum (l : List F) : Except PyErr F :=
  match l with
  | [] => .error .typeError
  | x :: l => .ok (l.foldl (· + ·) x)

/-- `check_weights`, mtoolkit/geo/tectonic_region.py:136-158. -/
def checkWeights (msr smod dlr : List F) : Except PyErr Unit := do
  let a ← reduceSum msr
  let b ← reduceSum smod
  let c ← reduceSum dlr
  ensure (PyNum.decEq a (1.0 : F))
  ensure (PyNum.decEq b (1.0 : F))
  ensure (PyNum.decEq c (1.0 : F))

/-- `TectonicRegion.__init__`, mtoolkit/geo/tectonic_region.py:58-67, with the checks 88-158. -/
def mkRegion (id : String) (msr : WDict String F) (smod dlr : WDict F F) : Except PyErr (Region F) := do
  checkLen msr
  checkLen smod
  checkLen dlr
  ensure ((← msr.getVals).all fun m => decide (m ∈ supportedMsr))
  let s ← smod.getVals
  let d ← dlr.getVals
  ensure (s.all fun v => decide (((0 : ℕ) : F) < v))
  ensure (d.all fun v => decide (((0 : ℕ) : F) < v))
  checkWeights (← msr.getWeight) (← smod.getWeight) (← dlr.getWeight)
  return ⟨id, msr, smod, dlr⟩

/-- `self._smod['value'][0]` and `self._dlr['value'][0]`, mtoolkit/geo/tectonic_region.py:80-86. -/
def firstValue (d : WDict F F) : Except PyErr F := do
  match ← d.getVals with
  | x :: _ => return x
  | [] => throw .indexError

/-- A dictionary with one value of weight 1. -/
def single {α : Type} (x : α) : WDict α F := { vals := some [x], weight := some [(1.0 : F)] }

/-- Default values of a predefined region, mtoolkit/geo/tectonic_region.py:23-26, 162-229: identifier, shear modulus, displacement length ratio. -/
def regionDefaults : List (String × String × F × F) :=
  [("Active Shallow Crust", "001", (30.0 : F), (1.25e-5 : F)), ("Subduction Interface", "002", (49.0 : F), (1.25e-5 : F)), ("Subction Intraslab", "003", (49.0 : F), (1.25e-5 : F)),
   ("Stable Continental", "004", (29.0 : F), (1.0e-4 : F)), ("Volcanic", "005", (29.0 : F), (1.25e-5 : F))]

/-- `x if x else default`: an argument not given, or an empty dictionary, means the default. -/
def orDefault {α : Type} (d : Option (WDict α F)) (dflt : WDict α F) : WDict α F :=
  match d with
  | some d => if d.truthy then d else dflt
  | none => dflt

/-- `create_tect_region_by_name`, mtoolkit/geo/tectonic_region.py:264-279: a `KeyError` (unknown name, or missing key of a dictionary) becomes a `ValueError`. -/
def createByName (name : String) (msr : Option (WDict String F)) (smod dlr : Option (WDict F F)) : Except PyErr (Region F) :=
  let r : Except PyErr (Region F) := match regionDefaults.find? (fun e => e.1 == name) with
    | none => .error .keyError
    | some (_, id, sm, dl) => mkRegion id (orDefault msr (single "WC1994")) (orDefault smod (single sm)) (orDefault dlr (single dl))
  match r with
  | .error .keyError => .error .valueError
  | r => r

/-! ### `get_mfd` -/

/-- `_cumulative_value`, mtoolkit/scientific/fault_calculator.py:92-114. -/
def cumulativeValue (slip mmax m bbar dbar beta : F) : F :=
  ((dbar - bbar) / bbar) * ((slip / 10.0) / beta) * PyMath.exp (bbar * (mmax - m)) * PyMath.exp (-(dbar / 2.0) * mmax)

/-- Slope of the moment slip scaling, mtoolkit/scientific/fault_calculator.py:74-75. -/
def betaOf (dlr smod width c0 : F) : F :=
  PyMath.sqrt (dlr * (PyMath.rpow 10.0 c0) / ((smod * 1.0e10) * (width * 1e5)))

/-- The maximum magnitude: as given, or from the area and the rake, mtoolkit/scientific/fault_calculator.py:66-68. -/
def resolveMax (msr : F → Option F → Except PyErr F) (f : SimpleFault F) (maxMag rake : Option F) : Except PyErr F :=
  match maxMag with
  | some m => .ok m
  | none => msr (getArea f) rake

/-- `get_mfd`, mtoolkit/scientific/fault_calculator.py:29-89.  `msr` is `WC1994().get_median_mag` (library nhlib, not modelled), used when no maximum magnitude is given;
`scal` is `moment_scaling`. -/
def getMfd (msr : F → Option F → Except PyErr F) (slip aseismic : F) (reg : Region F) (f : SimpleFault F) (b minMag binWidth : F) (maxMag rake : Option F)
    (scal : F × F := (16.05, 1.5)) : Except PyErr (List F) := do
  if ¬ ((0 : ℕ) : F) < slip then throw .assertionError
  if ¬ ((0.0 : F) ≤ aseismic ∧ aseismic < 1.0) then throw .assertionError
  let mmax ← resolveMax msr f maxMag rake
  let dlr ← firstValue reg.dlr
  let sm ← firstValue reg.smod
  let beta := betaOf dlr sm (getWidth f) scal.1
  let dbar := scal.2 * PyMath.log 10.0
  let bbar := b * PyMath.log 10.0
  let mag ← arange (minMag - binWidth / 2.0) (mmax + (1.5 : F) * binWidth) binWidth
  let cum := mag.map fun m => cumulativeValue (slip * ((1.0 : F) - aseismic)) mmax m bbar dbar beta
  return (List.range (cum.length - 2)).map fun i => cum.getD i 0 - cum.getD (i + 1) 0

end Verif.Fault
