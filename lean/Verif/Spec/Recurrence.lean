import Verif.Py.Num
import Mathlib.Order.Bounds.Basic
import Mathlib.Analysis.SpecialFunctions.Log.Basic

/-! # Specification of the recurrence computations (exact arithmetic) -/

namespace Verif.Spec

/-- Number of events with magnitude in `[lo, hi)`. -/
noncomputable def magCount (ev : List (ℝ × ℝ)) (lo hi : ℝ) : ℕ := ev.countP fun e => decide (lo ≤ e.2 ∧ e.2 < hi)

/-- Length in years of a set of events: last year minus first year plus one. -/
def IsNumYears (ev : List (ℝ × ℝ)) (n : ℝ) : Prop :=
  ∃ y0 y1, IsLeast {y | ∃ e ∈ ev, e.1 = y} y0 ∧ IsGreatest {y | ∃ e ∈ ev, e.1 = y} y1 ∧ n = y1 - y0 + 1

/-- Events since `year` with magnitude at least `mc` up to the tolerance 1e-5. -/
noncomputable def completeEvents (ev : List (ℝ × ℝ)) (year mc : ℝ) : List (ℝ × ℝ) :=
  ev.filter fun e => decide (year ≤ e.1 ∧ mc - 1e-5 ≤ e.2)

/-- Magnitude rounded to one decimal. -/
noncomputable def mag1 (x : ℝ) : ℝ := (rintK (x * 10) : ℝ) / 10

/-- Log-likelihood of Weichert (1980) for bins with period `t`, central magnitude `m` and `n` events:
`-β Σ n m - N log Σ t exp(-β m)`. -/
noncomputable def logLik (w : List (ℝ × ℝ × ℕ)) (β : ℝ) : ℝ :=
  -β * (w.map fun x => (x.2.2 : ℝ) * x.2.1).sum - (w.map fun x => (x.2.2 : ℝ)).sum * Real.log (w.map fun x => x.1 * Real.exp (-β * x.2.1)).sum

end Verif.Spec
