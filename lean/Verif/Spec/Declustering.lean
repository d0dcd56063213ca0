import Verif.Model.Declustering

/-!
# Specification side of declustering

Only the geometry of the windows; nothing about the algorithms.
-/

namespace Verif.Declustering.Spec

open Verif Verif.CatUtil

section
variable {F : Type} [PyMath F] {n : Nat}

/-- The decimal years of a catalogue. -/
def Times (cat : Fin n → Row F) (t : Fin n → F) : Prop :=
  ∀ j, decimalYear (cat j 0) (cat j 1) (cat j 2) = .ok (t j)

/-- Distance between two events. -/
def eventDist (cat : Fin n → Row F) (i j : Fin n) : F := haversine (cat j 3) (cat j 4) (cat i 3) (cat i 4)

/-- Event `j` lies in the time window (backwards the proportion `fs` of it) and in the distance window of event `i`;
`win` gives the space and time windows of a magnitude. -/
def InWindows (cat : Fin n → Row F) (t : Fin n → F) (win : F → F × F) (fs : F) (i j : Fin n) : Prop :=
  t j - t i ≥ -(win (cat i 5)).2 * fs ∧ t j - t i ≤ (win (cat i 5)).2 ∧ eventDist cat i j ≤ (win (cat i 5)).1

end

/-- One step forward in time of at most `tw` years between members of a set of events. -/
def StepLater {n : Nat} (t : Fin n → ℝ) (tw : ℝ) (C : Fin n → Prop) (a b : Fin n) : Prop :=
  C a ∧ C b ∧ t a ≤ t b ∧ t b - t a ≤ tw

/-- One step back in time of at most `tw` years between members of a set of events. -/
def StepEarlier {n : Nat} (t : Fin n → ℝ) (tw : ℝ) (C : Fin n → Prop) (a b : Fin n) : Prop :=
  C a ∧ C b ∧ t b ≤ t a ∧ t a - t b ≤ tw

end Verif.Declustering.Spec
