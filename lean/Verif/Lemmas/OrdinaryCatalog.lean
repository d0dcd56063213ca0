import Verif.Model.Csv
import Verif.Py.XNum
import Verif.Props.EqCatalog

/-!
# Reading a catalogue of ordinary numbers

If every number of a catalogue is an ordinary one, the catalogue reader gives the same entries over the reals and over the numbers with infinities and NaN.
-/

namespace Verif.EqCatalog

open Verif

/-- A value with an ordinary number. -/
noncomputable def Val.ordinary : Val ℝ → Val (XNum ℝ)
  | .none => .none
  | .int i => .int i
  | .flt x => .flt (.fin x)
  | .str t => .str t

/-- An entry with ordinary numbers. -/
noncomputable def Entry.ordinary (e : Entry ℝ) : Entry (XNum ℝ) := fun f => (e f).ordinary

/-- An environment that reads ordinary numbers. -/
noncomputable def Env.ordinary (env : Env ℝ) : Env (XNum ℝ) := ⟨env.parseInt, fun t => (env.parseFloat t).map XNum.fin, env.thisYear⟩

theorem Val.le_ordinary (a b : Val ℝ) : Val.le a.ordinary b.ordinary = Val.le a b := by
  cases a <;> cases b <;> rfl

theorem Val.lt_ordinary (a b : Val ℝ) : Val.lt a.ordinary b.ordinary = Val.lt a b := by
  cases a <;> cases b <;> rfl

theorem Val.isBlank_ordinary (a : Val ℝ) : a.ordinary.isBlank = a.isBlank := by
  cases a with
  | str t => cases t <;> rfl
  | _ => rfl

theorem Val.eqInt_ordinary (a : Val ℝ) (n : Int) : Val.eqInt a.ordinary n = Val.eqInt a n := by
  cases a with
  | flt x => exact decide_eq_decide.2 (XNum.fin.injEq _ _ ▸ Iff.rfl)
  | _ => rfl

theorem Entry.set_ordinary (e : Entry ℝ) (f : Fld) (v : Val ℝ) : (e.set f v).ordinary = e.ordinary.set f v.ordinary := by
  funext g
  simp only [Entry.ordinary, Entry.set]
  split_ifs <;> rfl

theorem convertField_ordinary (env : Env ℝ) (line : Nat) (k : Key) (e : Entry ℝ) :
    convertField env.ordinary line k e.ordinary = (convertField env line k e).map Entry.ordinary := by
  cases k with
  | none => rfl
  | some f =>
    simp only [convertField]
    cases conv f with
    | keep => rfl
    | toInt =>
      simp only [Entry.ordinary]
      cases he : e f with
      | str s =>
        simp only [Val.ordinary, Env.ordinary]
        cases env.parseInt s with
        | none => rfl
        | some i => exact congrArg Except.ok (Entry.set_ordinary e f (.int i)).symm
      | none => rfl
      | int i => rfl
      | flt x => rfl
    | toFloat =>
      simp only [Entry.ordinary]
      cases he : e f with
      | str s =>
        simp only [Val.ordinary, Env.ordinary]
        cases env.parseFloat s with
        | none =>
          simp only [Option.map_none]
          split_ifs
          · rfl
          · exact congrArg Except.ok (Entry.set_ordinary e f blank).symm
        | some i => exact congrArg Except.ok (Entry.set_ordinary e f (.flt i)).symm
      | none => rfl
      | int i => rfl
      | flt x => rfl

theorem checkMap_ordinary (env : Env ℝ) (f : Fld) (e : Entry ℝ) :
    checkMap env.ordinary f f e.ordinary = ((checkMap env f f e).1, (checkMap env f f e).2.ordinary) := by
  have hi : ∀ i : Int, (.int i : Val (XNum ℝ)) = Val.ordinary (.int i) := fun _ => rfl
  have hb : (blank : Val (XNum ℝ)) = Val.ordinary blank := rfl
  have hz : (.flt 0 : Val (XNum ℝ)) = Val.ordinary (.flt 0) := rfl
  have he : ∀ g, e.ordinary g = (e g).ordinary := fun _ => rfl
  cases f <;> simp only [checkMap, noCheck, checkPositiveValue, checkYear, checkMonth, checkDay, checkHour, checkMinute, checkSecond, checkLongitude,
    checkLatitude, checkEpicentreErrorLocation, checkSigmaMw, compulsory, if_true, Bool.false_eq_true, if_false, he, hi, hb, hz, Val.le_ordinary, Val.lt_ordinary,
    Val.isBlank_ordinary, Val.eqInt_ordinary, ← Entry.set_ordinary, Env.ordinary]
  all_goals split_ifs <;> rfl

theorem checkField_ordinary (env : Env ℝ) (line : Nat) (k : Key) (e : Entry ℝ) :
    checkField env.ordinary line k e.ordinary = (checkField env line k e).map Entry.ordinary := by
  cases k with
  | none => rfl
  | some f =>
    simp only [checkField, checkMap_ordinary]
    split_ifs <;> rfl

theorem foldlM_ordinary {g : Entry (XNum ℝ) → Key → Except PyErr (Entry (XNum ℝ))} {h : Entry ℝ → Key → Except PyErr (Entry ℝ)}
    (hg : ∀ e k, g e.ordinary k = (h e k).map Entry.ordinary) (ks : List Key) (e : Entry ℝ) :
    ks.foldlM g e.ordinary = (ks.foldlM h e).map Entry.ordinary := by
  induction ks generalizing e with
  | nil => rfl
  | cons k ks ih =>
    simp only [List.foldlM_cons, hg]
    cases h e k with
    | error err => rfl
    | ok e' => exact ih e'

/-- Reading a row with ordinary numbers. -/
theorem readRow_ordinary (env : Env ℝ) (ord : DictOrder) (line : Nat) (cells : List Text) :
    readRow env.ordinary ord line cells = (readRow env ord line cells).map Entry.ordinary := by
  have hr : (rowDict (F := (XNum ℝ)) cells) = ((rowDict (F := ℝ) cells).1.ordinary, (rowDict (F := ℝ) cells).2) := by
    refine Prod.ext ?_ rfl
    funext f
    simp only [rowDict, Entry.ordinary]
    cases cells[fieldNames.idxOf f]? <;> rfl
  simp only [readRow, hr, readEntry, convertValues, checkValues]
  rw [foldlM_ordinary (fun e k => convertField_ordinary env line k e)]
  cases List.foldlM (fun e k => convertField env line k e) (rowDict (F := ℝ) cells).1 (ord.keys (rowDict (F := ℝ) cells).2) with
  | error err => rfl
  | ok e => exact foldlM_ordinary (fun e k => checkField_ordinary env line k e) _ e

/-- Reading rows with ordinary numbers. -/
theorem readRows_ordinary (env : Env ℝ) (ord : DictOrder) (n : Nat) (rows : List (List Text)) :
    readRows env.ordinary ord n rows = (readRows env ord n rows).map (List.map Entry.ordinary) := by
  induction rows generalizing n with
  | nil => rfl
  | cons r rs ih =>
    simp only [readRows, readRow_ordinary, ih]
    cases readRow env ord n r with
    | error err => rfl
    | ok e =>
      cases readRows env ord (n + 1) rs with
      | error err => rfl
      | ok es => rfl

end Verif.EqCatalog

namespace Verif.Csv

open Verif Verif.EqCatalog

/-- Reading a catalogue file with ordinary numbers. -/
theorem readCatalogFile_ordinary (env : Env ℝ) (ord : DictOrder) (file : Text) :
    readCatalogFile env.ordinary ord file = (readCatalogFile env ord file).map (List.map Entry.ordinary) := by
  unfold readCatalogFile
  cases validateCsvCatalog file with
  | error err => rfl
  | ok rest =>
    simp only [bind, Except.bind, readEqCatalog, readRows_ordinary]
    cases readRows env ord 2 ((csvRows rest).1.filter (fun r => r ≠ [])) with
    | error err => rfl
    | ok es =>
      simp only [Except.map]
      cases (csvRows rest).2 <;> rfl

end Verif.Csv
