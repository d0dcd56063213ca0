import Verif.Model.Csv
import Verif.Props.EqCatalog

/-!
# Reading a catalogue over the reals and over the rationals

With decimal texts read as rationals and embedded into the reals, the catalogue reader gives the same entries over both, so that concrete catalogues can be
evaluated over the rationals.
-/

namespace Verif.EqCatalog

open Verif

/-- A rational value as a real one. -/
noncomputable def Val.cast : Val ℚ → Val ℝ
  | .none => .none
  | .int i => .int i
  | .flt x => .flt (x : ℝ)
  | .str t => .str t

/-- A rational entry as a real one. -/
noncomputable def Entry.cast (e : Entry ℚ) : Entry ℝ := fun f => (e f).cast

/-- The environment over the reals. -/
noncomputable def Env.cast (env : Env ℚ) : Env ℝ := ⟨env.parseInt, fun t => (env.parseFloat t).map (fun q : ℚ => (q : ℝ)), env.thisYear⟩

theorem Val.le_cast (a b : Val ℚ) : Val.le a.cast b.cast = Val.le a b := by
  cases a <;> cases b <;> try rfl
  · exact decide_eq_decide.2 (by rw [← Rat.cast_intCast, Rat.cast_le])
  · exact decide_eq_decide.2 (by rw [← Rat.cast_intCast, Rat.cast_le])
  · exact decide_eq_decide.2 Rat.cast_le

theorem Val.lt_cast (a b : Val ℚ) : Val.lt a.cast b.cast = Val.lt a b := by
  cases a <;> cases b <;> try rfl
  · exact decide_eq_decide.2 (by rw [← Rat.cast_intCast, Rat.cast_lt])
  · exact decide_eq_decide.2 (by rw [← Rat.cast_intCast, Rat.cast_lt])
  · exact decide_eq_decide.2 Rat.cast_lt

theorem Val.isBlank_cast (a : Val ℚ) : a.cast.isBlank = a.isBlank := by
  cases a with
  | str t => cases t <;> rfl
  | _ => rfl

theorem Val.eqInt_cast (a : Val ℚ) (n : Int) : Val.eqInt a.cast n = Val.eqInt a n := by
  cases a <;> try rfl
  next x =>
  show decide ((x : ℝ) = (n : ℝ)) = decide (x = (n : ℚ))
  rw [decide_eq_decide, ← Rat.cast_intCast, Rat.cast_inj]

theorem Entry.set_cast (e : Entry ℚ) (f : Fld) (v : Val ℚ) : (e.set f v).cast = e.cast.set f v.cast := by
  funext g
  simp only [Entry.cast, Entry.set]
  split_ifs <;> rfl

theorem convertField_cast (env : Env ℚ) (line : Nat) (k : Key) (e : Entry ℚ) :
    convertField env.cast line k e.cast = (convertField env line k e).map Entry.cast := by
  cases k with
  | none => rfl
  | some f =>
    simp only [convertField]
    cases conv f with
    | keep => rfl
    | toInt =>
      simp only [Entry.cast]
      cases he : e f with
      | str s =>
        simp only [Val.cast, Env.cast]
        cases env.parseInt s with
        | none => rfl
        | some i => exact congrArg Except.ok (Entry.set_cast e f (.int i)).symm
      | none => rfl
      | int i => rfl
      | flt x => rfl
    | toFloat =>
      simp only [Entry.cast]
      cases he : e f with
      | str s =>
        simp only [Val.cast, Env.cast]
        cases env.parseFloat s with
        | none =>
          simp only [Option.map_none]
          split_ifs
          · rfl
          · exact congrArg Except.ok (Entry.set_cast e f blank).symm
        | some i => exact congrArg Except.ok (Entry.set_cast e f (.flt i)).symm
      | none => rfl
      | int i => rfl
      | flt x => rfl

theorem checkMap_cast (env : Env ℚ) (f : Fld) (e : Entry ℚ) :
    checkMap env.cast f f e.cast = ((checkMap env f f e).1, (checkMap env f f e).2.cast) := by
  have hi : ∀ i : Int, (.int i : Val ℝ) = Val.cast (.int i) := fun _ => rfl
  have hb : (blank : Val ℝ) = Val.cast blank := rfl
  have hz : (.flt 0 : Val ℝ) = Val.cast (.flt 0) := by simp [Val.cast]
  have he : ∀ g, e.cast g = (e g).cast := fun _ => rfl
  cases f <;> simp only [checkMap, noCheck, checkPositiveValue, checkYear, checkMonth, checkDay, checkHour, checkMinute, checkSecond, checkLongitude,
    checkLatitude, checkEpicentreErrorLocation, checkSigmaMw, compulsory, if_true, Bool.false_eq_true, if_false, he, hi, hb, hz, Val.le_cast, Val.lt_cast,
    Val.isBlank_cast, Val.eqInt_cast, ← Entry.set_cast, Env.cast]
  all_goals split_ifs <;> rfl

theorem checkField_cast (env : Env ℚ) (line : Nat) (k : Key) (e : Entry ℚ) :
    checkField env.cast line k e.cast = (checkField env line k e).map Entry.cast := by
  cases k with
  | none => rfl
  | some f =>
    simp only [checkField, checkMap_cast]
    split_ifs <;> rfl

theorem foldlM_cast {g : Entry ℝ → Key → Except PyErr (Entry ℝ)} {h : Entry ℚ → Key → Except PyErr (Entry ℚ)}
    (hg : ∀ e k, g e.cast k = (h e k).map Entry.cast) (ks : List Key) (e : Entry ℚ) :
    ks.foldlM g e.cast = (ks.foldlM h e).map Entry.cast := by
  induction ks generalizing e with
  | nil => rfl
  | cons k ks ih =>
    simp only [List.foldlM_cons, hg]
    cases h e k with
    | error err => rfl
    | ok e' => exact ih e'

/-- Reading a row over the reals. -/
theorem readRow_cast (env : Env ℚ) (ord : DictOrder) (line : Nat) (cells : List Text) :
    readRow env.cast ord line cells = (readRow env ord line cells).map Entry.cast := by
  have hr : (rowDict (F := ℝ) cells) = ((rowDict (F := ℚ) cells).1.cast, (rowDict (F := ℚ) cells).2) := by
    refine Prod.ext ?_ rfl
    funext f
    simp only [rowDict, Entry.cast]
    cases cells[fieldNames.idxOf f]? <;> rfl
  simp only [readRow, hr, readEntry, convertValues, checkValues]
  rw [foldlM_cast (fun e k => convertField_cast env line k e)]
  cases List.foldlM (fun e k => convertField env line k e) (rowDict (F := ℚ) cells).1 (ord.keys (rowDict (F := ℚ) cells).2) with
  | error err => rfl
  | ok e => exact foldlM_cast (fun e k => checkField_cast env line k e) _ e

/-- Reading rows over the reals. -/
theorem readRows_cast (env : Env ℚ) (ord : DictOrder) (n : Nat) (rows : List (List Text)) :
    readRows env.cast ord n rows = (readRows env ord n rows).map (List.map Entry.cast) := by
  induction rows generalizing n with
  | nil => rfl
  | cons r rs ih =>
    simp only [readRows, readRow_cast, ih]
    cases readRow env ord n r with
    | error err => rfl
    | ok e =>
      cases readRows env ord (n + 1) rs with
      | error err => rfl
      | ok es => rfl

end Verif.EqCatalog

namespace Verif.Csv

open Verif Verif.EqCatalog

/-- Reading a catalogue file over the reals. -/
theorem readCatalogFile_cast (env : Env ℚ) (ord : DictOrder) (file : Text) :
    readCatalogFile env.cast ord file = (readCatalogFile env ord file).map (List.map Entry.cast) := by
  unfold readCatalogFile
  cases validateCsvCatalog file with
  | error err => rfl
  | ok rest =>
    simp only [bind, Except.bind, readEqCatalog, readRows_cast]
    cases readRows env ord 2 ((csvRows rest).1.filter (fun r => r ≠ [])) with
    | error err => rfl
    | ok es =>
      simp only [Except.map]
      cases (csvRows rest).2 <;> rfl

end Verif.Csv
