import Verif.Py.Num
import Mathlib.Order.Bounds.Basic

/-!
# Specification of the completeness step

Written without reference to the model: events and rows of the completeness table are pairs (year, magnitude).
-/

namespace Verif.Spec

/-- A row (year, magnitude) of the table says: complete for magnitudes from `row.2` on, since `row.1`.
`RowExcludes row e`: the event is earlier and smaller. -/
def RowExcludes {F : Type} [LT F] (row e : F × F) : Prop := e.1 < row.1 ∧ e.2 < row.2

/-- The table declares the catalogue complete at the year and the magnitude of the event. -/
def CompleteAt (table : List (ℝ × ℝ)) (e : ℝ × ℝ) : Prop := ∃ row ∈ table, row.2 ≤ e.2 ∧ row.1 ≤ e.1

/-- The completeness year does not increase with magnitude. -/
def MonotoneTable (table : List (ℝ × ℝ)) : Prop := ∀ c ∈ table, ∀ d ∈ table, c.2 ≤ d.2 → d.1 ≤ c.1

/-- Magnitude rounded to two decimals. -/
noncomputable def mag2 (x : ℝ) : ℝ := (rintK (100 * x) : ℝ) / 100

/-- `low` is the smallest rounded magnitude of the catalogue rounded down to one decimal, `high` the largest one rounded up;
`y0` and `y1` are the first and last years. -/
structure Binning (ev : List (ℝ × ℝ)) (low high y0 y1 : ℝ) : Prop where
  low : ∃ m, IsLeast {x | ∃ e ∈ ev, mag2 e.2 = x} m ∧ low = (⌊10 * m⌋ : ℝ) / 10
  high : ∃ M, IsGreatest {x | ∃ e ∈ ev, mag2 e.2 = x} M ∧ high = (⌈10 * M⌉ : ℝ) / 10
  first : IsLeast {y | ∃ e ∈ ev, e.1 = y} y0
  last : IsGreatest {y | ∃ e ∈ ev, e.1 = y} y1

/-- Number of events with rounded magnitude in `[lo, hi)` since `year`. -/
noncomputable def eventsIn (ev : List (ℝ × ℝ)) (lo hi year : ℝ) : ℕ :=
  ev.countP fun e => decide (year ≤ e.1 ∧ lo ≤ mag2 e.2 ∧ mag2 e.2 < hi)

/-- Number of events with rounded magnitude from `lo` on since `year`. -/
noncomputable def eventsAbove (ev : List (ℝ × ℝ)) (lo year : ℝ) : ℕ :=
  ev.countP fun e => decide (year ≤ e.1 ∧ lo ≤ mag2 e.2)

/-- Number of events since `year`. -/
noncomputable def eventsSince (ev : List (ℝ × ℝ)) (year : ℝ) : ℕ := ev.countP fun e => decide (year ≤ e.1)

/-- Standard deviation of the rate `n / T` of a Poisson process, floored at 1e-14. -/
noncomputable def sigma (n : ℕ) (T : ℝ) : ℝ := max 1e-14 (Real.sqrt (n / T) / Real.sqrt T)

/-- Slope of `log σ` against `log T` between the durations `(k+1) dt` and `(k+2) dt`; `n k` events within `(k+1) dt`. -/
noncomputable def slope (n : ℕ → ℕ) (dt : ℝ) (k : ℕ) : ℝ :=
  (Real.logb 10 (sigma (n (k + 1)) ((k + 2) * dt)) - Real.logb 10 (sigma (n k) ((k + 1) * dt))) /
    (Real.logb 10 ((k + 2) * dt) - Real.logb 10 ((k + 1) * dt))

/-- Change of slope at location `k`. -/
noncomputable def slopeChange (n : ℕ → ℕ) (dt : ℝ) (k : ℕ) : ℝ := |slope n dt (k + 1) - slope n dt k|

/-- `k` is the last of the `m` locations whose change of slope exceeds the sensitivity. -/
def IsLastLocation (n : ℕ → ℕ) (dt ttol : ℝ) (m k : ℕ) : Prop :=
  k < m ∧ ttol < slopeChange n dt k ∧ ∀ k', k < k' → k' < m → slopeChange n dt k' ≤ ttol

end Verif.Spec
