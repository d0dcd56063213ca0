import Verif.Props.EqCatalog

/-!
# C165: values that are possible are delivered as they stand in the file
-/

namespace Verif.EqCatalog

open Verif

namespace Spec

variable {F : Type} [PyNum F]

/-- The columns of whole numbers, by position. -/
def wholeColumns : List (ℕ × Fld) := [(0, .eventID), (2, .identifier), (3, .year), (4, .month), (5, .day), (6, .hour), (7, .minute)]

/-- The columns of numbers of which any is possible once the row is accepted: time error, place, the four magnitudes. -/
def numberColumns : List (ℕ × Fld) := [(9, .timeError), (10, .longitude), (11, .latitude), (15, .depth), (17, .mw), (19, .ms), (21, .mb), (23, .ml)]

/-- The columns of uncertainties, which may not be negative. -/
def uncertaintyColumns : List (ℕ × Fld) := [(16, .depthError), (18, .sigmaMw), (20, .sigmaMs), (22, .sigmamb), (24, .sigmaML)]

/-- The cell at position `k` reads as the number `x`. -/
def Reads (env : Env F) (cells : List Text) (k : ℕ) (x : F) : Prop := ∃ s, cells[k]? = some s ∧ env.parseFloat s = some x

/-- The entry has the possible values of the row; `P` says which seconds are possible. -/
structure Kept (P : F → Prop) (env : Env F) (cells : List Text) (e : Entry F) : Prop where
  agency : ∀ s, cells[1]? = some s → e .agency = .str s
  whole : ∀ c ∈ wholeColumns, ∃ s i, cells[c.1]? = some s ∧ env.parseInt s = some i ∧ e c.2 = .int i
  number : ∀ c ∈ numberColumns, ∀ x, Reads env cells c.1 x → e c.2 = .flt x
  uncertainty : ∀ c ∈ uncertaintyColumns, ∀ x, Reads env cells c.1 x → ¬ x < ((0 : ℤ) : F) → e c.2 = .flt x
  second : ∀ x, Reads env cells 8 x → P x → e .second = .flt x
  ellipse : ∀ a b s, Reads env cells 12 a → Reads env cells 13 b → Reads env cells 14 s → ¬ a < ((0 : ℤ) : F) → ¬ b < ((0 : ℤ) : F) → b ≤ a →
    ((0 : ℤ) : F) ≤ s → s ≤ ((360 : ℤ) : F) → e .semiMajor90 = .flt a ∧ e .semiMinor90 = .flt b ∧ e .errorStrike = .flt s

end Spec

open Spec

section
variable {F : Type} [PyNum F]

/-- A possible error ellipse passes the checks in any order. -/
theorem ellipse_kept (env : Env F) {a b s : F} (ha : ¬ a < ((0 : ℤ) : F)) (hb : ¬ b < ((0 : ℤ) : F)) (hab : b ≤ a) (h0 : ((0 : ℤ) : F) ≤ s) (h1 : s ≤ ((360 : ℤ) : F)) (ks : List Key) :
    ∀ e : Entry F, e .semiMajor90 = .flt a → e .semiMinor90 = .flt b → e .errorStrike = .flt s →
      ks.foldl (chkStep env) e .semiMajor90 = .flt a ∧ ks.foldl (chkStep env) e .semiMinor90 = .flt b ∧ ks.foldl (chkStep env) e .errorStrike = .flt s := by
  induction ks with
  | nil => intro e hM hm hs; exact ⟨hM, hm, hs⟩
  | cons k ks ih =>
    intro e hM hm hs
    rw [List.foldl_cons]
    have l1 : Val.lt (.flt a : Val F) (.int 0) = false := by simp [Val.lt, ha]
    have l2 : Val.lt (.flt b : Val F) (.int 0) = false := by simp [Val.lt, hb]
    have l3 : Val.le (.flt b : Val F) (.flt a) = true := by simp [Val.le, hab]
    have l4 : Val.le (.int 0) (.flt s : Val F) = true := by simp [Val.le, h0]
    have l5 : Val.le (.flt s : Val F) (.int 360) = true := by simp [Val.le, h1]
    have l6 : (.flt a : Val F).isBlank = false := rfl
    have l7 : (.flt b : Val F).isBlank = false := rfl
    have key : ∀ f, f = .semiMajor90 ∨ f = .semiMinor90 ∨ f = .errorStrike → chkStep env e k f = e f := by
      intro f hf
      cases k with
      | none => rfl
      | some g =>
        cases g <;>
          simp only [chkStep, checkMap, checkPositiveValue, noCheck, checkYear, checkMonth, checkDay, checkHour, checkMinute, checkSecond, checkLongitude, checkLatitude, checkSigmaMw,
            checkEpicentreErrorLocation, compulsory, if_true, hM, hm, hs, l1, l2, l3, l4, l5, l6, l7, Bool.and_self, Bool.not_true, Bool.or_self, Bool.false_eq_true, if_false] <;>
          (try split_ifs) <;> first | rfl | (rcases hf with rfl | rfl | rfl <;> rfl)
    exact ih _ (by rw [key _ (by simp), hM]) (by rw [key _ (by simp), hm]) (by rw [key _ (by simp), hs])

/-- **C165, what holds**: in an accepted row the whole numbers, the place, the time error and the magnitudes are those of the cells; so are uncertainties that are not negative, the seconds
if they are between 0 and 59, and an error ellipse whose strike is between 0 and 360 and whose axes are not negative and in order.  Missing: seconds above 59 (`C165_fails`). -/
theorem C165_kept_partial (env : Env F) (ord : DictOrder) (line : ℕ) (cells : List Text) (e : Entry F) (h : readRow env ord line cells = .ok e) :
    Kept (fun x => ((0 : ℤ) : F) ≤ x ∧ x ≤ ((59 : ℤ) : F)) env cells e := by
  obtain ⟨e1, ⟨hlen, hc, hk⟩, rfl⟩ := (readRow_ok' ..).mp h
  have hfin : ∀ f, isEllipse f = false → (ord.keys false).foldl (chkStep env) e1 f = sanit f (e1 f) :=
    fun f hE => foldl_chkStep_mem env _ e1 f hE (ord.nodup _) (ord.mem _ f)
  have hI : ∀ f k, conv f = .toInt → fieldNames.idxOf f = k → ∃ s i, cells[k]? = some s ∧ env.parseInt s = some i ∧ e1 f = .int i :=
    fun f k hf hi => (conv1_int env line f hf cells k hi (e1 f)).mp (hc f)
  have hF : ∀ f k, conv f = .toFloat → fieldNames.idxOf f = k → ∀ x, Reads env cells k x → e1 f = .flt x := by
    rintro f k hf hi x ⟨s, hs, hx⟩
    cases hcf : compulsory f with
    | true =>
      obtain ⟨s', x', hs', hx', he⟩ := (conv1_float_comp env line f hf hcf cells k hi (e1 f)).mp (hc f)
      rw [hs] at hs'; cases hs'
      rw [hx] at hx'; cases hx'
      exact he
    | false =>
      obtain ⟨s', hs', he⟩ := (conv1_float_opt env line f hf hcf cells k hi (e1 f)).mp (hc f)
      rw [hs] at hs'; cases hs'
      rw [hx] at he
      exact he
  refine ⟨?_, ?_, ?_, ?_, ?_, ?_⟩
  · intro s hs
    rw [hfin _ rfl]
    have := hc .agency
    simp only [conv1, conv, rowDict, show fieldNames.idxOf Fld.agency = 1 from rfl, hs, Except.ok.injEq] at this
    rw [← this]; rfl
  · intro c hm
    simp only [wholeColumns, List.mem_cons, List.not_mem_nil, or_false] at hm
    rcases hm with rfl | rfl | rfl | rfl | rfl | rfl | rfl <;> rw [hfin _ rfl] <;> exact hI _ _ rfl rfl
  · intro c hm x hx
    simp only [numberColumns, List.mem_cons, List.not_mem_nil, or_false] at hm
    rcases hm with rfl | rfl | rfl | rfl | rfl | rfl | rfl | rfl <;> rw [hfin _ rfl] <;> exact hF _ _ rfl rfl _ hx
  · intro c hm x hx hx0
    simp only [uncertaintyColumns, List.mem_cons, List.not_mem_nil, or_false] at hm
    rcases hm with rfl | rfl | rfl | rfl | rfl
    · rw [hfin _ rfl, hF .depthError 16 rfl rfl _ hx]; simp [sanit, Val.lt, hx0]
    · rw [hfin _ rfl, hF .sigmaMw 18 rfl rfl _ hx]; simp [sanit, Val.lt, hx0, Val.isBlank]
    · rw [hfin _ rfl, hF .sigmaMs 20 rfl rfl _ hx]; simp [sanit, Val.lt, hx0]
    · rw [hfin _ rfl, hF .sigmamb 22 rfl rfl _ hx]; simp [sanit, Val.lt, hx0]
    · rw [hfin _ rfl, hF .sigmaML 24 rfl rfl _ hx]; simp [sanit, Val.lt, hx0]
  · rintro x hx ⟨h0, h1⟩
    rw [hfin _ rfl, hF .second 8 rfl rfl _ hx]
    simp [sanit, Val.le, h0, h1]
  · intro a b s ha hb hs a0 b0 hab h0 h1
    exact ellipse_kept env a0 b0 hab h0 h1 _ e1 (hF _ _ rfl rfl _ ha) (hF _ _ rfl rfl _ hb) (hF _ _ rfl rfl _ hs)

/-- What becomes of seconds above 59: they are dropped. -/
theorem C165_seconds_dropped (env : Env F) (ord : DictOrder) (line : ℕ) (cells : List Text) (e : Entry F) (h : readRow env ord line cells = .ok e) (x : F) (hx : Reads env cells 8 x)
    (h59 : ¬ x ≤ ((59 : ℤ) : F)) : e .second = .str [] := by
  obtain ⟨e1, ⟨hlen, hc, hk⟩, rfl⟩ := (readRow_ok' ..).mp h
  obtain ⟨s, hs, hp⟩ := hx
  obtain ⟨s', hs', he⟩ := (conv1_float_opt env line .second rfl rfl cells 8 rfl (e1 .second)).mp (hc .second)
  rw [hs] at hs'; cases hs'
  rw [hp] at he
  rw [foldl_chkStep_mem env _ e1 .second rfl (ord.nodup _) (ord.mem _ _), he]
  simp [sanit, Val.le, h59, blank]

end

/-- The row of the example, half a second before the full minute. -/
def lateRow : List Text := exRow.set 8 "59.5".toList

/-- **C165 is false of the code**: seconds of 59.5 are possible, and dropped. -/
theorem C165_fails : ¬ ∀ (env : Env ℚ) (ord : DictOrder) (line : ℕ) (cells : List Text) (e : Entry ℚ), readRow env ord line cells = .ok e →
    Kept (fun x => 0 ≤ x ∧ x < 60) env cells e := by
  intro H
  have hacc : (readRow exEnv cpythonOrder 2 lateRow).map (fun e => e .second) = .ok (.str []) := by decide +kernel
  cases hr : readRow exEnv cpythonOrder 2 lateRow with
  | error err => rw [hr] at hacc; simp [Except.map] at hacc
  | ok e =>
    rw [hr] at hacc
    simp only [Except.map, Except.ok.injEq] at hacc
    have := (H _ _ _ _ e hr).second (119 / 2) ⟨"59.5".toList, by decide, by decide +kernel⟩ ⟨by norm_num, by norm_num⟩
    rw [hacc] at this
    cases this

/-- Non-vacuity: the row of the example is accepted with an error ellipse, and these are its values. -/
example : ∃ e, readRow exEnv cpythonOrder 2 exRow = .ok e ∧ e .second = .flt 13 ∧ e .errorStrike = .flt 298 := by
  obtain ⟨e, he⟩ : ∃ e, readRow exEnv cpythonOrder 2 exRow = .ok e := by
    have hacc : (readRow exEnv cpythonOrder 2 exRow).map (fun _ => ()) = .ok () := by decide +kernel
    cases hr : readRow exEnv cpythonOrder 2 exRow with
    | error err => rw [hr] at hacc; simp [Except.map] at hacc
    | ok e => exact ⟨e, rfl⟩
  have hk := C165_kept_partial exEnv cpythonOrder 2 exRow e he
  refine ⟨e, he, hk.second 13 ⟨_, rfl, by decide +kernel⟩ ⟨by decide, by decide⟩, ?_⟩
  exact (hk.ellipse (243 / 100) (101 / 100) 298 ⟨_, rfl, by decide +kernel⟩ ⟨_, rfl, by decide +kernel⟩ ⟨_, rfl, by decide +kernel⟩ (by decide +kernel) (by decide +kernel) (by decide +kernel)
    (by decide +kernel) (by decide +kernel)).2.2

end Verif.EqCatalog
