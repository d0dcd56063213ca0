import Verif.Model.Fault

/-! # The fault models run on the data of the project's tests (tests/geo, tests/fault_calculator) -/

namespace Verif.Sanity.Fault

open Verif Verif.Fault

def close (x y tol : Float) : Bool := (x - y).abs < tol

def trace1 : List (Float × Float) := [(90.563202328, 24.926468434), (90.510844525, 23.892401812), (90.615560132, 22.400204407), (90.995154209, 21.287601079)]
def trace2 : List (Float × Float) := [(90.995154209, 21.287601079), (92.294781845, 19.714732881), (93.262975563, 18.352958814), (93.581460339, 17.816563619)]

def chk (t : List (Float × Float)) (u l d : Float) (p : SimpleFault Float → Bool) : Bool :=
  match mkFault t u l d with
  | .ok f => p f
  | .error _ => false

#guard chk trace1 4.0 35.0 5.0 fun f => close (getLength f) 411.14582 5e-6 && close (getWidth f) 355.68511 5e-6 && close (getArea f) 146238.4464 5e-5
#guard chk trace2 0.0 35.0 10.0 fun f => close (getLength f) 472.08545 5e-6 && close (getWidth f) 201.55697 5e-6 && close (getArea f) 95152.1118 5e-5

def isValueError {α : Type} : Except PyErr α → Bool
  | .error .valueError => true
  | _ => false

#guard isValueError (mkFault [((90 : Float), (24 : Float))] 4.0 35.0 5.0)
#guard isValueError (mkFault [((-185 : Float), (54 : Float)), (90, 23)] 4.0 35.0 5.0)
#guard isValueError (mkFault [((90 : Float), (-25 : Float)), (90, 91)] 4.0 35.0 5.0)
#guard isValueError (mkFault [((90 : Float), (24 : Float)), (90, 21)] (-1) 35.0 5.0)
#guard isValueError (mkFault [((90 : Float), (24 : Float)), (90, 21)] 1 0 5.0)
#guard isValueError (mkFault [((90 : Float), (24 : Float)), (90, 21)] 3 2 5.0)
#guard isValueError (mkFault [((90 : Float), (24 : Float)), (90, 21)] 2 3 95)

/-- tests/fault_calculator/test_fault_calculator.py, `test_calculate_occurance_rates`. -/
def rates : Except PyErr (List Float) := do
  let r ← createByName "Active Shallow Crust" none (some (single 27.70)) none
  let f ← mkFault [((90.5632 : Float), (24.9265 : Float)), (90.5108, 23.8924), (90.6156, 22.4002), (90.9952, 21.2876)] 4.00 35.0 5.0
  getMfd (fun _ _ => .error .typeError) 20.0 0.0 r f 0.8 5.0 0.1 (some 8.5) none

#guard match rates with
  | .ok l => l.length == 35 && close (l.getD 0 0) 0.719905173075 5e-6 && close (l.getD 1 0) 0.598791041594 5e-6 && close (l.getD 34 0) 0.00137175102795 5e-6
  | .error _ => false

#guard isValueError (createByName "Subduction Intraslab" (none : Option (WDict String Float)) none none)
#guard match createByName "Subction Intraslab" (none : Option (WDict String Float)) none none with | .ok r => r.id == "003" | _ => false

end Verif.Sanity.Fault
