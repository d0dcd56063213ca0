/-!
# Python exceptions as values

Every modelled function that can raise returns `Except PyErr α`.
-/

namespace Verif

/-- The exceptions the modelled code can raise.  `eqValidation f l` is
`EqEntryValidationError` (mtoolkit/eqcatalog.py:315-329) for field name `f` at reported line `l`;
the displayed value is not kept. -/
inductive PyErr where
  | typeError
  | keyError
  | valueError
  | indexError
  | ioError
  | assertionError
  | attributeError
  | zeroDivision
  | csvError
  | xmlSyntax
  | runtimeError (what : String)
  | malformedCatalog
  | eqValidation (field : String) (line : Nat)
deriving DecidableEq, Repr

instance {ε α : Type} [DecidableEq ε] [DecidableEq α] : DecidableEq (Except ε α)
  | .ok a, .ok b => if h : a = b then isTrue (by rw [h]) else isFalse (by simp [h])
  | .error a, .error b => if h : a = b then isTrue (by rw [h]) else isFalse (by simp [h])
  | .ok _, .error _ => isFalse (by simp)
  | .error _, .ok _ => isFalse (by simp)

end Verif
