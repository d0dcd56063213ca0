import Verif.Props.EqCatalog

/-!
# C151, C152: the catalogue as documented

docs/source/user/catalogue.rst marks the compulsory columns and says that the first one holds a unique identifier for each earthquake.
-/

namespace Verif.EqCatalog

open Verif Spec

namespace Spec

/-- The columns that the documentation marks as compulsory (docs/source/user/catalogue.rst:20-60), by position: eventID, year, month, day, hour, minute, second, longitude, latitude,
depth, Mw. -/
def documentedCompulsory : List ℕ := [0, 3, 4, 5, 6, 7, 8, 10, 11, 15, 17]

/-- An acceptable row stays acceptable when the cell of column `k` is left blank exactly if the documentation does not mark the column. -/
def AsDocumented {F : Type} [PyNum F] (env : Env F) (ord : DictOrder) (k : ℕ) : Prop :=
  ∀ line cells, (∃ e, readRow env ord line cells = .ok e) → ((∃ e, readRow env ord line (cells.set k []) = .ok e) ↔ k ∉ documentedCompulsory)

end Spec

section
variable {F : Type} [PyNum F]

/-- **C151, what holds**: every column but `Identifier` (position 2) and `second` (position 8) is compulsory exactly if the documentation says so.  Missing: these two (`C151_fails`). -/
theorem C151_documented_partial (env : Env F) (h0 : env.parseInt [] = none) (h1 : env.parseFloat [] = none) (ord : DictOrder) (k : ℕ) (hk : k < 25) (h2 : k ≠ 2) (h8 : k ≠ 8) :
    Spec.AsDocumented env ord k := by
  intro line cells hc
  have hv := (readRow_accept_iff ..).1 hc
  have hl : (cells.set k []).length = 25 := by rw [List.length_set]; exact hv.cells25
  have hget : (cells.set k [])[k]? = some [] := by
    rw [List.getElem?_set_self (by rw [hv.cells25]; exact hk)]
  by_cases ho : k ∈ optionalColumns
  · have : k ∉ documentedCompulsory := by
      simp only [optionalColumns, documentedCompulsory, List.mem_cons, List.not_mem_nil, or_false] at ho ⊢
      omega
    refine ⟨fun _ => this, fun _ => ?_⟩
    refine (C05_optional_never_rejects env ord line cells _ hv.cells25 hl fun j hj => ?_).1 hc
    rw [List.getElem?_set_ne]
    rintro rfl
    exact hj ho
  · have hd : k ∈ documentedCompulsory := by
      simp only [optionalColumns, documentedCompulsory, List.mem_cons, List.not_mem_nil, or_false] at ho ⊢
      omega
    refine ⟨fun h => absurd ((readRow_accept_iff ..).1 h) ?_, fun h => absurd hd h⟩
    intro v
    have hI : ∀ P, ¬ IntCell env (cells.set k []) k P := by
      rintro P ⟨s, i, hs, hi, -⟩
      rw [hget] at hs
      cases hs
      rw [h0] at hi
      cases hi
    have hF : ∀ P, ¬ FloatCell env (cells.set k []) k P := by
      rintro P ⟨s, i, hs, hi, -⟩
      rw [hget] at hs
      cases hs
      rw [h1] at hi
      cases hi
    simp only [documentedCompulsory, List.mem_cons, List.not_mem_nil, or_false] at hd
    rcases hd with rfl | rfl | rfl | rfl | rfl | rfl | rfl | rfl | rfl | rfl | rfl
    · exact hI _ v.eventID
    · exact hI _ v.year
    · exact hI _ v.month
    · exact hI _ v.day
    · exact hI _ v.hour
    · exact hI _ v.minute
    · exact h8 rfl
    · exact hF _ v.longitude
    · exact hF _ v.latitude
    · exact hF _ v.depth
    · exact hF _ v.mw

/-- What the code does with the two columns instead: a row with a blank `Identifier` is refused, one with blank seconds is accepted. -/
theorem C151_identifier_and_second (env : Env F) (h0 : env.parseInt [] = none) (ord : DictOrder) (line : ℕ) (cells : List Text) (hc : ∃ e, readRow env ord line cells = .ok e) :
    (¬ ∃ e, readRow env ord line (cells.set 2 []) = .ok e) ∧ ∃ e, readRow env ord line (cells.set 8 []) = .ok e := by
  have hv := (readRow_accept_iff ..).1 hc
  constructor
  · intro h
    obtain ⟨s, i, hs, hi, -⟩ := ((readRow_accept_iff ..).1 h).identifier
    rw [List.getElem?_set_self (by rw [hv.cells25]; norm_num)] at hs
    cases hs
    rw [h0] at hi
    cases hi
  · refine (C05_optional_never_rejects env ord line cells _ hv.cells25 (by rw [List.length_set]; exact hv.cells25) fun j hj => ?_).1 hc
    rw [List.getElem?_set_ne]
    rintro rfl
    exact hj (by decide)

end

theorem exRow_accepted : ∃ e, readRow exEnv cpythonOrder 2 exRow = .ok e := by
  have h : (readRow exEnv cpythonOrder 2 exRow).map (fun e => e .year) = .ok (.int 2000) := by decide +kernel
  cases hr : readRow exEnv cpythonOrder 2 exRow with
  | error err => rw [hr] at h; simp [Except.map] at h
  | ok e => exact ⟨e, rfl⟩

/-- **C151 is false of the code**, in both directions: of `Identifier`, which is required though "not used at present", and of `second`, which is not required. -/
theorem C151_fails : ¬ Spec.AsDocumented exEnv cpythonOrder 2 ∧ ¬ Spec.AsDocumented exEnv cpythonOrder 8 := by
  obtain ⟨h2, h8⟩ := C151_identifier_and_second exEnv (by decide) cpythonOrder 2 exRow exRow_accepted
  refine ⟨fun h => h2 ((h 2 exRow exRow_accepted).2 (by decide)), fun h => ?_⟩
  exact (h 2 exRow exRow_accepted).1 h8 (by decide)

/-- A row without the depth is refused, one without its error is not. -/
example : Spec.AsDocumented exEnv cpythonOrder 15 ∧ Spec.AsDocumented exEnv cpythonOrder 16 :=
  ⟨C151_documented_partial exEnv (by decide) (by decide) _ _ (by norm_num) (by norm_num) (by norm_num),
    C151_documented_partial exEnv (by decide) (by decide) _ _ (by norm_num) (by norm_num) (by norm_num)⟩

section
variable {F : Type} [PyNum F]

namespace Spec

/-- The number in the first cell of a row. -/
def rowId (env : Env F) (cells : List Text) : Option ℤ := cells.head?.bind env.parseInt

/-- The earthquakes have different identifiers. -/
def Unique (es : List (Entry F)) : Prop := es.Pairwise fun a b => a .eventID ≠ b .eventID

end Spec

theorem eventId_read (env : Env F) (ord : DictOrder) (line : Nat) (cells : List Text) (e : Entry F) (h : readRow env ord line cells = .ok e) :
    ∃ i, Spec.rowId env cells = some i ∧ e .eventID = .int i := by
  obtain ⟨e1, ⟨hlen, hc, hk⟩, rfl⟩ := (readRow_ok' ..).mp h
  obtain ⟨s, i, hs, hi, h1⟩ := (conv1_int env line .eventID rfl cells _ rfl (e1 .eventID)).mp (hc .eventID)
  refine ⟨i, ?_, ?_⟩
  · have : cells.head? = some s := by rw [List.head?_eq_getElem?]; exact hs
    simp [Spec.rowId, this, hi]
  · rw [foldl_chkStep_mem env _ e1 .eventID rfl (ord.nodup _) (ord.mem _ _), h1]
    rfl

/-- **C152, what holds**: the identifiers of the loaded earthquakes are the numbers in the first column, in the order of the file; so they are unique exactly if the file has no
number twice.  Missing: files in which numbers are repeated are not refused (`C152_fails`). -/
theorem C152_identifiers_partial (env : Env F) (ord : DictOrder) (rows : List (List Text)) (es : List (Entry F)) (h : readEqCatalog env ord rows = .ok es) :
    List.Forall₂ (fun r e => ∃ i, Spec.rowId env r = some i ∧ e .eventID = .int i) (rows.filter fun r => r ≠ []) es ∧
      (Spec.Unique es ↔ (rows.filter fun r => r ≠ []).Pairwise fun r r' => Spec.rowId env r ≠ Spec.rowId env r') := by
  have hf := (C10_order_preserving env ord rows es h).imp fun r e hr => eventId_read env ord 0 r e (hr 0)
  refine ⟨hf, ?_⟩
  revert hf
  generalize (rows.filter fun r => r ≠ []) = rs
  intro hf
  clear h
  induction hf with
  | nil => simp [Spec.Unique]
  | @cons r e rs es hre hf ih =>
    obtain ⟨i, hi, he⟩ := hre
    simp only [Spec.Unique, List.pairwise_cons] at ih ⊢
    rw [ih]
    refine and_congr_left' ?_
    rw [hi, he]
    clear ih
    induction hf with
    | nil => simp
    | @cons r' e' rs es hre hf ih =>
      obtain ⟨j, hj, he'⟩ := hre
      simp only [List.forall_mem_cons, hj, he', ne_eq, Val.int.injEq, Option.some.injEq]
      exact and_congr_right' ih

end

/-- **C152 is false of the code**: the same row twice is loaded as two earthquakes with one identifier. -/
theorem C152_fails : ¬ ∀ (env : Env ℚ) (ord : DictOrder) (rows : List (List Text)) (es : List (Entry ℚ)), readEqCatalog env ord rows = .ok es → Spec.Unique es := by
  intro hall
  obtain ⟨e, he⟩ := exRow_accepted
  have hn : exRow ≠ [] := by decide
  have h : readEqCatalog exEnv cpythonOrder [exRow, exRow] = .ok [e, e] := by
    have he3 := (readRow_line_irrelevant exEnv cpythonOrder 3 2 exRow e).2 he
    simp only [readEqCatalog, ne_eq, List.filter_cons, List.filter_nil, hn, not_false_eq_true, decide_true, if_true, readRows, he, he3]
    rfl
  have := hall _ _ _ _ h
  simp [Spec.Unique] at this

/-- Two rows with different numbers. -/
example : ∃ es, readEqCatalog exEnv cpythonOrder [exRow, exRow.set 0 ['2']] = .ok es ∧ Spec.Unique es ∧ es.length = 2 := by
  have hx : (readEqCatalog exEnv cpythonOrder [exRow, exRow.set 0 ['2']]).map (fun es => es.length) = .ok 2 := by decide +kernel
  cases h : readEqCatalog exEnv cpythonOrder [exRow, exRow.set 0 ['2']] with
  | error err => rw [h] at hx; simp [Except.map] at hx
  | ok es =>
    rw [h] at hx
    refine ⟨es, rfl, (C152_identifiers_partial _ _ _ _ h).2.2 (by decide +kernel), ?_⟩
    simpa [Except.map] using hx

end Verif.EqCatalog
