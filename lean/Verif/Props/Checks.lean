import Verif.Props.EqCatalog

/-!
# C150: the check methods of the reader

Each column of the catalogue has a check method, which is given the entry, may change it, and returns whether the check is passed.
-/

namespace Verif.EqCatalog

open Verif

namespace Spec

/-- The columns that the check of a column may change: the column itself; for the strike of the error ellipse its axes as well. -/
def mayChange : Fld → List Fld
  | .errorStrike => [.errorStrike, .semiMajor90, .semiMinor90]
  | f => [f]

/-- The columns that must be filled: the integers, the place and the moment magnitude (C151 compares them with the documentation). -/
def required : List Fld := [.eventID, .identifier, .year, .month, .day, .hour, .minute, .longitude, .latitude, .depth, .mw]

end Spec

/-- **C150**: the check of a required column changes nothing; the check of any other column is always passed, and changes this column (for the strike: the error ellipse) at most.
Checking again gives the same answer and changes nothing any more. -/
theorem C150_checks (env : Env ℝ) (f : Fld) (e : Entry ℝ) :
    (f ∈ Spec.required → (checkMap env f f e).2 = e) ∧ (f ∉ Spec.required → (checkMap env f f e).1 = true) ∧
      (∀ g, g ∉ Spec.mayChange f → (checkMap env f f e).2 g = e g) ∧ checkMap env f f (checkMap env f f e).2 = checkMap env f f e := by
  have hset : ∀ (h : Fld) (v w : Val ℝ), (Entry.set (Entry.set e h v) h w) = Entry.set e h w := by
    intro h v w; funext g; simp only [Entry.set]; split_ifs <;> rfl
  have hget : ∀ (d : Entry ℝ) (h : Fld) (v : Val ℝ), Entry.set d h v h = v := by
    intro d h v; simp [Entry.set]
  have hz : Val.lt (.flt 0 : Val ℝ) (.int 0) = false := by simp [Val.lt]
  have hb : Val.lt (blank : Val ℝ) (.int 0) = false := by simp [Val.lt, blank, Val.rank]
  have hb' : Val.le (blank : Val ℝ) (.int 59) = false := by simp [Val.le, blank, Val.rank]
  cases f <;> simp only [checkMap, noCheck, checkPositiveValue, checkYear, checkMonth, checkDay, checkHour, checkMinute, checkSecond, checkLongitude, checkLatitude,
    checkEpicentreErrorLocation, checkSigmaMw, compulsory, Spec.required, Spec.mayChange, if_true, Bool.false_eq_true, if_false] <;>
    (refine ⟨by simp, ?_, ?_, ?_⟩) <;> (try (intros; trivial)) <;> (try simp) <;> (try (split_ifs <;> simp_all [Entry.set]))
  all_goals
    funext g
    simp only [Entry.set]
    split_ifs <;> rfl

/-- A negative uncertainty of the magnitude is replaced, a month of 13 is refused. -/
example (env : Env ℝ) (e : Entry ℝ) (h : e .sigmaMw = .flt (-1)) (h' : e .month = .int 13) :
    (checkMap env .sigmaMw .sigmaMw e).2 .sigmaMw = .flt 0 ∧ (checkMap env .month .month e).1 = false := by
  constructor
  · simp [checkMap, checkSigmaMw, h, Val.lt, Entry.set]
  · simp [checkMap, checkMonth, h', Val.le]

end Verif.EqCatalog
