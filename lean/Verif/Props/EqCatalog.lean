import Verif.Lemmas.EqCatalogRow
import Verif.Lemmas.Header
import Verif.Py.Text

/-!
# Properties C01–C11: reading an earthquake catalogue

All theorems hold for every dictionary order `ord`, every behaviour of `int()`/`float()` (in `env`), every current year and
any number type `F` without assuming any law of arithmetic, so in particular for IEEE doubles.
-/

namespace Verif.EqCatalog

open Verif Spec

/-! ### Concrete data for the examples -/

/-- Decimal texts read as rationals, current year 2012. -/
def exEnv : Env ℚ := ⟨Text.pyInt, Text.pyDec, 2012⟩

/-- The order in which CPython 2.7 (32 and 64 bit) iterates over a row dictionary with the 25 field names: computed from the
string hash and dictionary algorithms; for the shape with surplus cells any order will do. -/
def cpythonOrder : DictOrder where
  keys b := [.eventID, .agency, .month, .depthError, .second, .semiMajor90, .year, .errorStrike, .timeError, .sigmamb,
    .latitude, .sigmaMw, .sigmaMs, .mw, .ms, .identifier, .day, .minute, .hour, .mb, .semiMinor90, .longitude, .depth, .ml,
    .sigmaML].map some ++ (if b then [Option.none] else [])
  perm b := by cases b <;> decide

/-- Dictionary order equal to the column order. -/
def columnOrder : DictOrder where
  keys b := rowKeys b
  perm _ := List.Perm.refl _

/-- The first data row of tests/data/ISC_small_data.csv style catalogues. -/
def exRow : List Text :=
  ["1", "AAA", "20000102034913", "2000", "01", "02", "03", "49", "13", "0.02", "7.282", "44.368", "2.43", "1.01", "298",
   "9.3", "0.5", "1.71", "0.355", "", "", "", "", "1.7", "0.1"].map String.toList

/-! ### C01 -/

/-- **C01.** A catalogue is opened exactly when its first line is the documented header up to blanks around the names; the rest of
the file is what the reader goes on with. -/
theorem C01_header_gate (file rest : Text) :
    validateCsvCatalog file = .ok rest ↔ ∃ line, FirstLine file line rest ∧ PaddedHeader line := by
  have hnames : ∀ w ∈ documentedHeader.map String.toList, w ≠ [] ∧ ∀ c ∈ w, isWs c = false :=
    fun w hw => ⟨(names_ok w hw).1, (names_ok w hw).2.1⟩
  have hhead : ∀ line : Text, ((line.splitOn ',').map strip = documentedHeader.map String.toList) ↔ PaddedHeader line := by
    intro line
    rw [map_strip_eq _ _ hnames]
    unfold PaddedHeader
    have hz : ∀ pads : List (Text × Text),
        List.zipWith (fun (p : Text × Text) (n : String) => p.1 ++ n.toList ++ p.2) pads documentedHeader =
        List.zipWith (fun p w => p.1 ++ w ++ p.2) pads (documentedHeader.map String.toList) := by
      intro pads; rw [List.zipWith_map_right]
    simp only [hz]
    constructor
    · rintro ⟨pads, h1, h2, h3⟩
      refine ⟨pads, h1, h2, ?_⟩
      rw [← h3, List.intercalate_splitOn]
    · rintro ⟨pads, h1, h2, h3⟩
      refine ⟨pads, h1, h2, ?_⟩
      rw [h3]
      apply List.splitOn_intercalate
      · intro l hl hcomma
        rw [List.mem_iff_getElem] at hl
        obtain ⟨i, hi, rfl⟩ := hl
        rw [List.length_zipWith] at hi
        rw [List.getElem_zipWith] at hcomma
        have hp := h2 _ (List.getElem_mem (l := pads) (n := i) (by omega))
        have hw := names_ok _ (List.getElem_mem (l := documentedHeader.map String.toList) (n := i) (by omega))
        simp only [List.mem_append] at hcomma
        rcases hcomma with (hc | hc) | hc
        · have := hp.1 _ hc; revert this; decide
        · exact hw.2.2 hc
        · have := hp.2 _ hc; revert this; decide
      · intro h0
        have := congrArg List.length h0
        rw [List.length_zipWith, h1] at this
        revert this; decide
  have hfl := readline_spec file
  unfold validateCsvCatalog
  rw [names_eq]
  constructor
  · intro h
    by_cases hh : ((readline file).1.splitOn ',').map strip = documentedHeader.map String.toList
    · simp only [hh, if_true, Except.ok.injEq] at h
      exact ⟨_, h ▸ hfl, (hhead _).mp hh⟩
    · simp [hh] at h
  · rintro ⟨line, h1, h2⟩
    obtain ⟨hl, hr⟩ := firstLine_unique hfl h1
    subst hl hr
    simp only [(hhead _).mpr h2, if_true]

/-- **C01**, other half: every other file is refused with `MalformedCatalogError`. -/
theorem C01_otherwise_refused (file : Text) (h : ¬ ∃ line rest, FirstLine file line rest ∧ PaddedHeader line) :
    validateCsvCatalog file = .error .malformedCatalog := by
  cases hv : validateCsvCatalog file with
  | ok rest =>
    obtain ⟨line, h1, h2⟩ := (C01_header_gate file rest).mp hv
    exact absurd ⟨line, rest, h1, h2⟩ h
  | error err =>
    unfold validateCsvCatalog at hv
    simp only at hv
    split_ifs at hv
    exact hv.symm

/-- Non-vacuity of C01: a header with blanks is accepted, one with a name missing is refused. -/
example : validateCsvCatalog (" eventID ,Agency,Identifier,year,month,day,hour,minute,second,timeError,longitude,latitude,SemiMajor90,SemiMinor90,ErrorStrike,depth,depthError,Mw,sigmaMw,Ms,sigmaMs,mb,sigmamb,ML,sigmaML\r\nrow").toList
    = .ok "row".toList := by decide +kernel
example : validateCsvCatalog "eventID,Agency\nrow".toList = .error .malformedCatalog := by decide +kernel

section
variable {F : Type} [PyNum F]

/-! ### C02 -/

/-- **C02.** Every delivered entry has its compulsory fields in the documented ranges. -/
theorem C02_accepted_ranges (env : Env F) (ord : DictOrder) (line : Nat) (cells : List Text) (e : Entry F)
    (h : readRow env ord line cells = .ok e) : Ranges env.thisYear e := by
  obtain ⟨e1, ⟨hlen, hc, hk⟩, rfl⟩ := (readRow_ok' ..).mp h
  have hsame : ∀ f, compulsory f = true → isEllipse f = false →
      (ord.keys false).foldl (chkStep env) e1 f = e1 f := by
    intro f hcf hE
    rw [foldl_chkStep_mem env _ e1 f hE (ord.nodup _) (ord.mem _ f)]
    cases f <;> simp only [compulsory, Bool.false_eq_true] at hcf <;> rfl
  have hI : ∀ f, conv f = .toInt → ∃ i, e1 f = .int i := by
    intro f hf
    obtain ⟨_, i, _, _, h⟩ := (conv1_int env line f hf cells _ rfl (e1 f)).mp (hc f)
    exact ⟨i, h⟩
  have hX : ∀ f, conv f = .toFloat → compulsory f = true → ∃ x, e1 f = .flt x := by
    intro f hf hcf
    obtain ⟨_, i, _, _, h⟩ := (conv1_float_comp env line f hf hcf cells _ rfl (e1 f)).mp (hc f)
    exact ⟨i, h⟩
  obtain ⟨i0, v0⟩ := hI .eventID rfl
  obtain ⟨i2, v2⟩ := hI .identifier rfl
  obtain ⟨i3, v3⟩ := hI .year rfl
  obtain ⟨i4, v4⟩ := hI .month rfl
  obtain ⟨i5, v5⟩ := hI .day rfl
  obtain ⟨i6, v6⟩ := hI .hour rfl
  obtain ⟨i7, v7⟩ := hI .minute rfl
  obtain ⟨i10, v10⟩ := hX .longitude rfl rfl
  obtain ⟨i11, v11⟩ := hX .latitude rfl rfl
  obtain ⟨i15, v15⟩ := hX .depth rfl rfl
  obtain ⟨i17, v17⟩ := hX .mw rfl rfl
  have k0 := hk .eventID rfl
  have k2 := hk .identifier rfl
  have k3 := hk .year rfl
  have k4 := hk .month rfl
  have k6 := hk .hour rfl
  have k7 := hk .minute rfl
  have k10 := hk .longitude rfl
  have k11 := hk .latitude rfl
  have k15 := hk .depth rfl
  simp only [chkOK, checkMap, checkPositiveValue, compulsory, if_true, checkYear, checkMonth,
    checkHour, checkMinute, checkLongitude, checkLatitude, v0, v2, v3, v4, v6, v7, v10, v11, v15,
    Val.le, Val.lt, Bool.and_eq_true, decide_eq_true_eq] at k0 k2 k3 k4 k6 k7 k10 k11 k15
  exact {
    eventID := ⟨i0, by rw [hsame _ rfl rfl, v0], k0⟩
    identifier := ⟨i2, by rw [hsame _ rfl rfl, v2], k2⟩
    year := ⟨i3, by rw [hsame _ rfl rfl, v3], k3⟩
    month := ⟨i4, by rw [hsame _ rfl rfl, v4], k4⟩
    dayInt := ⟨i5, by rw [hsame _ rfl rfl, v5], trivial⟩
    hour := ⟨i6, by rw [hsame _ rfl rfl, v6], k6⟩
    minute := ⟨i7, by rw [hsame _ rfl rfl, v7], k7⟩
    longitude := ⟨i10, by rw [hsame _ rfl rfl, v10], k10⟩
    latitude := ⟨i11, by rw [hsame _ rfl rfl, v11], k11⟩
    depth := ⟨i15, by rw [hsame _ rfl rfl, v15], k15⟩
    mw := ⟨i17, by rw [hsame _ rfl rfl, v17], trivial⟩ }

/-- Non-vacuity of C02, C05, C06: the example row is delivered. -/
example : (readRow exEnv cpythonOrder 2 exRow).map (fun e => (e .year, e .depth, e .sigmaMw, e .ms))
    = .ok (.int 2000, .flt (93/10), .flt (355/1000), .str []) := by decide +kernel

/-! ### C03 -/

/-- What the day check guarantees: an integer, at most 29 in February, in 1..31 in the other months.
(C03 asks for more: see `C03_possible_day_fails`.) -/
theorem C03_possible_day_partial (env : Env F) (ord : DictOrder) (line : Nat) (cells : List Text) (e : Entry F)
    (h : readRow env ord line cells = .ok e) :
    ∃ m d, e .month = .int m ∧ e .day = .int d ∧
      ((m = 2 ∧ d ≤ 29) ∨ (m ≠ 2 ∧ 1 ≤ d ∧ d ≤ 31)) := by
  obtain ⟨e1, ⟨hlen, hc, hk⟩, rfl⟩ := (readRow_ok' ..).mp h
  have hI : ∀ f, conv f = .toInt → ∃ i, e1 f = .int i := by
    intro f hf
    obtain ⟨_, i, _, _, h⟩ := (conv1_int env line f hf cells _ rfl (e1 f)).mp (hc f)
    exact ⟨i, h⟩
  obtain ⟨m, v4⟩ := hI .month rfl
  obtain ⟨d, v5⟩ := hI .day rfl
  have k5 := hk .day rfl
  simp only [chkOK, checkMap, checkDay, v4, v5, Val.le, Val.eqInt, Bool.and_eq_true, Bool.or_eq_true,
    decide_eq_true_eq, Bool.not_eq_true', decide_eq_false_iff_not] at k5
  refine ⟨m, d, ?_, ?_, k5⟩
  · rw [foldl_chkStep_mem env _ e1 .month rfl (ord.nodup _) (ord.mem _ _)]; exact v4
  · rw [foldl_chkStep_mem env _ e1 .day rfl (ord.nodup _) (ord.mem _ _)]; exact v5

end

/-- A row dated 0 February 2000. -/
def feb0Row : List Text := (exRow.set 4 "02".toList).set 5 "0".toList

/-- **C03 is false of the code**: 0 February (and any negative day of February) is accepted. -/
theorem C03_possible_day_fails :
    ¬ ∀ (env : Env ℚ) (ord : DictOrder) (line : Nat) (cells : List Text) (e : Entry ℚ),
      readRow env ord line cells = .ok e → PossibleDay e := by
  intro hall
  have hacc : (readRow exEnv cpythonOrder 2 feb0Row).map (fun e => (e .month, e .day)) = .ok (.int 2, .int 0) := by
    decide +kernel
  cases hr : readRow exEnv cpythonOrder 2 feb0Row with
  | error err => rw [hr] at hacc; simp [Except.map] at hacc
  | ok e =>
    rw [hr] at hacc
    simp only [Except.map, Except.ok.injEq, Prod.mk.injEq] at hacc
    obtain ⟨m, d, hm, hd, h1, -⟩ := hall _ _ _ _ e hr
    rw [hacc.2] at hd
    cases hd
    exact absurd h1 (by decide)

section
variable {F : Type} [PyNum F]

/-! ### C04 -/

/-- **C04.** Acceptance of a row does not depend on the dictionary order, and neither do the delivered values outside the three
error ellipse fields. -/
theorem C04_order_independent (env : Env F) (ord₁ ord₂ : DictOrder) (line : Nat) (cells : List Text) :
    ((∃ e, readRow env ord₁ line cells = .ok e) ↔ (∃ e, readRow env ord₂ line cells = .ok e)) ∧
    ∀ e₁ e₂, readRow env ord₁ line cells = .ok e₁ → readRow env ord₂ line cells = .ok e₂ →
      ∀ f, f ≠ .errorStrike → f ≠ .semiMajor90 → f ≠ .semiMinor90 → e₁ f = e₂ f := by
  refine ⟨by rw [readRow_accept_iff, readRow_accept_iff], ?_⟩
  intro e₁ e₂ h₁ h₂ f n1 n2 n3
  obtain ⟨x, ⟨-, hx, -⟩, rfl⟩ := (readRow_ok' ..).mp h₁
  obtain ⟨y, ⟨-, hy, -⟩, rfl⟩ := (readRow_ok' ..).mp h₂
  have hE : isEllipse f = false := by cases f <;> simp_all [isEllipse]
  rw [foldl_chkStep_mem env _ x f hE (ord₁.nodup _) (ord₁.mem _ f),
    foldl_chkStep_mem env _ y f hE (ord₂.nodup _) (ord₂.mem _ f)]
  have := (hx f).symm.trans (hy f)
  rw [Except.ok.inj this]

/-- **C04/C10 acceptance criterion**: a row is accepted exactly when it is valid in the sense of the specification. -/
theorem C04_accepted_iff_valid (env : Env F) (ord : DictOrder) (line : Nat) (cells : List Text) :
    (∃ e, readRow env ord line cells = .ok e) ↔ ValidRow env cells :=
  readRow_accept_iff env ord line cells

/-! ### C05 -/

/-- **C05.** The optional numeric fields of every delivered entry are blank or numbers in the documented range. -/
theorem C05_optional_clean (env : Env F) (ord : DictOrder) (line : Nat) (cells : List Text) (e : Entry F)
    (h : readRow env ord line cells = .ok e) : OptionalClean e := by
  obtain ⟨e1, ⟨hlen, hc, hk⟩, rfl⟩ := (readRow_ok' ..).mp h
  have hX : ∀ f, conv f = .toFloat → compulsory f = false → e1 f = blank ∨ ∃ x, e1 f = .flt x := by
    intro f hf hcf
    obtain ⟨s, _, hv⟩ := (conv1_float_opt env line f hf hcf cells _ rfl (e1 f)).mp (hc f)
    cases hp : env.parseFloat s with
    | none => rw [hp] at hv; exact Or.inl hv
    | some x => rw [hp] at hv; exact Or.inr ⟨x, hv⟩
  have hfin : ∀ f, isEllipse f = false → (ord.keys false).foldl (chkStep env) e1 f = sanit f (e1 f) :=
    fun f hE => foldl_chkStep_mem env _ e1 f hE (ord.nodup _) (ord.mem _ f)
  have hfree : ∀ f, isEllipse f = false → conv f = .toFloat → compulsory f = false → sanit f (e1 f) = e1 f →
      BlankOr ((ord.keys false).foldl (chkStep env) e1 f) (fun _ => True) := by
    intro f hE hf hcf hs
    rw [hfin f hE, hs]
    rcases hX f hf hcf with h | ⟨x, h⟩
    · exact Or.inl h
    · exact Or.inr ⟨x, h, trivial⟩
  have hpos : ∀ f, isEllipse f = false → conv f = .toFloat → compulsory f = false →
      (∀ v : Val F, sanit f v = if Val.lt v (.int 0) then blank else v) →
      BlankOr ((ord.keys false).foldl (chkStep env) e1 f) (fun x => ¬ x < ((0 : Int) : F)) := by
    intro f hE hf hcf hs
    rw [hfin f hE, hs]
    rcases hX f hf hcf with h | ⟨x, h⟩
    · rw [h]; left; split_ifs <;> rfl
    · rw [h]
      by_cases hlt : x < ((0 : Int) : F)
      · left; simp [Val.lt, hlt, blank]
      · right; refine ⟨x, by simp [Val.lt, hlt], hlt⟩
  have hsemi : ∀ f, (f = .semiMajor90 ∨ f = .semiMinor90) →
      BlankOr ((ord.keys false).foldl (chkStep env) e1 f) (fun x => ¬ x < ((0 : Int) : F)) := by
    intro f hf
    rcases foldl_semi_mem env (ord.keys false) e1 f hf (ord.mem _ f) with h | ⟨h, hl⟩
    · exact Or.inl h
    · rw [h]
      have hf' : e1 f = blank ∨ ∃ x, e1 f = .flt x := by rcases hf with rfl | rfl <;> exact hX _ rfl rfl
      rcases hf' with h | ⟨x, h⟩
      · exact Or.inl h
      · right
        rw [h] at hl ⊢
        simp only [Val.lt, decide_eq_false_iff_not] at hl
        exact ⟨x, rfl, hl⟩
  refine ⟨?_, hfree _ rfl rfl rfl rfl, hsemi _ (Or.inl rfl), hsemi _ (Or.inr rfl), ?_, hpos _ rfl rfl rfl (fun _ => rfl),
    hfree _ rfl rfl rfl rfl, hpos _ rfl rfl rfl (fun _ => rfl), hfree _ rfl rfl rfl rfl,
    hpos _ rfl rfl rfl (fun _ => rfl), hfree _ rfl rfl rfl rfl, hpos _ rfl rfl rfl (fun _ => rfl)⟩
  · rw [hfin .second rfl]
    rcases hX .second rfl rfl with h | ⟨x, h⟩
    · rw [h]; left; simp only [sanit]; split_ifs <;> rfl
    · rw [h]
      by_cases hr : ((0 : Int) : F) ≤ x ∧ x ≤ ((59 : Int) : F)
      · right; exact ⟨x, by simp [sanit, Val.le, hr], hr⟩
      · left
        simp only [sanit, Val.le, Bool.and_eq_true, decide_eq_true_eq]
        rw [if_neg hr]; rfl
  · rcases foldl_strike_mem env (ord.keys false) e1 (ord.mem _ _) with h | ⟨h, h1, h2⟩
    · exact Or.inl h
    · rw [h]
      rcases hX .errorStrike rfl rfl with h | ⟨x, h⟩
      · exact Or.inl h
      · right
        rw [h] at h1 h2 ⊢
        simp only [Val.le, decide_eq_true_eq] at h1 h2
        exact ⟨x, rfl, h1, h2⟩

/-- **C05**, other half: changing the optional cells (Agency included) never changes whether a 25-cell row is accepted. -/
theorem C05_optional_never_rejects (env : Env F) (ord : DictOrder) (line : Nat) (cells cells' : List Text)
    (hl : cells.length = 25) (hl' : cells'.length = 25)
    (h : ∀ k, k ∉ optionalColumns → cells[k]? = cells'[k]?) :
    (∃ e, readRow env ord line cells = .ok e) ↔ (∃ e, readRow env ord line cells' = .ok e) := by
  have key : ∀ c c' : List Text, c.length = 25 → c'.length = 25 → (∀ k, k ∉ optionalColumns → c[k]? = c'[k]?) →
      ValidRow env c → ValidRow env c' := by
    intro c c' _ hl' h v
    have h0 := h 0 (by decide)
    have h2 := h 2 (by decide)
    have h3 := h 3 (by decide)
    have h4 := h 4 (by decide)
    have h5 := h 5 (by decide)
    have h6 := h 6 (by decide)
    have h7 := h 7 (by decide)
    have h10 := h 10 (by decide)
    have h11 := h 11 (by decide)
    have h15 := h 15 (by decide)
    have h17 := h 17 (by decide)
    exact {
      cells25 := hl'
      eventID := by have := v.eventID; unfold IntCell at *; rwa [h0] at this
      identifier := by have := v.identifier; unfold IntCell at *; rwa [h2] at this
      year := by have := v.year; unfold IntCell at *; rwa [h3] at this
      month := by have := v.month; unfold IntCell at *; rwa [h4] at this
      day := by have := v.day; unfold IntCell at *; rwa [h5, h4] at this
      hour := by have := v.hour; unfold IntCell at *; rwa [h6] at this
      minute := by have := v.minute; unfold IntCell at *; rwa [h7] at this
      longitude := by have := v.longitude; unfold FloatCell at *; rwa [h10] at this
      latitude := by have := v.latitude; unfold FloatCell at *; rwa [h11] at this
      depth := by have := v.depth; unfold FloatCell at *; rwa [h15] at this
      mw := by have := v.mw; unfold FloatCell at *; rwa [h17] at this }
  rw [readRow_accept_iff, readRow_accept_iff]
  exact ⟨key _ _ hl hl' h, key _ _ hl' hl (fun k hk => (h k hk).symm)⟩

/-! ### C06 -/

/-- **C06.** `sigmaMw` of a delivered entry is a number: the number written in its cell if that parses and is not negative,
0.0 otherwise. -/
theorem C06_sigmaMw_number (env : Env F) (ord : DictOrder) (line : Nat) (cells : List Text) (e : Entry F)
    (h : readRow env ord line cells = .ok e) :
    ∃ s, cells[18]? = some s ∧
      ((∃ x, env.parseFloat s = some x ∧ ¬ x < ((0 : Int) : F) ∧ e .sigmaMw = .flt x) ∨
       ((∀ x, env.parseFloat s = some x → x < ((0 : Int) : F)) ∧ e .sigmaMw = .flt 0)) := by
  obtain ⟨e1, ⟨hlen, hc, hk⟩, rfl⟩ := (readRow_ok' ..).mp h
  obtain ⟨s, hs, hv⟩ := (conv1_float_opt env line .sigmaMw rfl rfl cells 18 rfl (e1 .sigmaMw)).mp (hc .sigmaMw)
  refine ⟨s, hs, ?_⟩
  rw [foldl_chkStep_mem env _ e1 .sigmaMw rfl (ord.nodup _) (ord.mem _ _), hv]
  cases hp : env.parseFloat s with
  | none => right; exact ⟨by simp, by simp [sanit, blank, Val.isBlank]⟩
  | some x =>
    by_cases hx : x < ((0 : Int) : F)
    · right; exact ⟨by simpa using hx, by simp [sanit, Val.lt, hx]⟩
    · left; exact ⟨x, rfl, hx, by simp [sanit, Val.lt, hx, Val.isBlank]⟩

/-- **C06** in exact arithmetic: the delivered `sigmaMw` is a non-negative number. -/
theorem C06_sigmaMw_nonneg (env : Env ℝ) (ord : DictOrder) (line : Nat) (cells : List Text) (e : Entry ℝ)
    (h : readRow env ord line cells = .ok e) : ∃ x : ℝ, e .sigmaMw = .flt x ∧ 0 ≤ x := by
  obtain ⟨s, -, ⟨x, -, hx, he⟩ | ⟨-, he⟩⟩ := C06_sigmaMw_number env ord line cells e h
  · exact ⟨x, he, by simpa using hx⟩
  · exact ⟨0, he, le_refl _⟩

/-! ### C07 -/

/-- **C07, the part that holds**: if the dictionary order visits both semi-axes before the strike, the error ellipse is all or
nothing and ordered. Missing: the other orders, for which it is false (`C07_ellipse_fails`). -/
theorem C07_ellipse_partial (env : Env F) (ord : DictOrder) (line : Nat) (cells : List Text) (e : Entry F)
    (l1 l2 : List Key) (hord : ord.keys false = l1 ++ some .errorStrike :: l2)
    (hmaj : some Fld.semiMajor90 ∈ l1) (hmin : some Fld.semiMinor90 ∈ l1)
    (h : readRow env ord line cells = .ok e) : EllipseOK e := by
  obtain ⟨e1, ⟨hlen, hc, hk⟩, rfl⟩ := (readRow_ok' ..).mp h
  have hnd := ord.nodup false
  rw [hord] at hnd ⊢
  rw [List.foldl_append, List.foldl_cons]
  have hX : ∀ f, conv f = .toFloat → compulsory f = false → e1 f = blank ∨ ∃ x, e1 f = .flt x := by
    intro f hf hcf
    obtain ⟨s, _, hv⟩ := (conv1_float_opt env line f hf hcf cells _ rfl (e1 f)).mp (hc f)
    cases hp : env.parseFloat s with
    | none => rw [hp] at hv; exact Or.inl hv
    | some x => rw [hp] at hv; exact Or.inr ⟨x, hv⟩
  have h1 : ∀ f, (f = .semiMajor90 ∨ f = .semiMinor90 ∨ f = .errorStrike) →
      l1.foldl (chkStep env) e1 f = blank ∨ ∃ x, l1.foldl (chkStep env) e1 f = .flt x := by
    intro f hf
    rcases foldl_chkStep_semi env l1 e1 f hf with h | h
    · exact Or.inl h
    · rw [h]; rcases hf with rfl | rfl | rfl <;> exact hX _ rfl rfl
  -- keys after the strike are not semi-axes, so the three fields stay
  have hrest : ∀ (ks : List Key) (e : Entry F), some Fld.semiMajor90 ∉ ks → some Fld.semiMinor90 ∉ ks →
      some Fld.errorStrike ∉ ks → ∀ f, (f = .semiMajor90 ∨ f = .semiMinor90 ∨ f = .errorStrike) →
      ks.foldl (chkStep env) e f = e f := by
    intro ks
    induction ks with
    | nil => intros; rfl
    | cons k ks ih =>
      intro e a b c f hf
      simp only [List.mem_cons, not_or] at a b c
      rw [List.foldl_cons, ih _ a.2 b.2 c.2 f hf]
      cases k with
      | none => rfl
      | some g =>
        have g1 : g ≠ .semiMajor90 := fun h => a.1 (by rw [h])
        have g2 : g ≠ .semiMinor90 := fun h => b.1 (by rw [h])
        have g3 : g ≠ .errorStrike := fun h => c.1 (by rw [h])
        have hne : f ≠ g := by rcases hf with rfl | rfl | rfl <;> exact Ne.symm (by assumption)
        cases g <;>
          simp only [chkStep, checkMap, checkPositiveValue, noCheck, checkYear, checkMonth, checkDay, checkHour, checkMinute,
            checkSecond, checkLongitude, checkLatitude, checkSigmaMw, compulsory, if_true] <;>
          first
            | contradiction
            | rfl
            | (split_ifs <;> first | rfl | exact Entry.set_ne _ _ hne)
  rw [List.nodup_append] at hnd
  obtain ⟨-, hnd2, hdis⟩ := hnd
  have hs2 := (List.nodup_cons.mp hnd2).1
  have hmaj2 : some Fld.semiMajor90 ∉ l2 := fun hm => hdis _ hmaj _ (List.mem_cons_of_mem _ hm) rfl
  have hmin2 : some Fld.semiMinor90 ∉ l2 := fun hm => hdis _ hmin _ (List.mem_cons_of_mem _ hm) rfl
  unfold EllipseOK
  rw [hrest l2 _ hmaj2 hmin2 hs2 .errorStrike (by simp), hrest l2 _ hmaj2 hmin2 hs2 .semiMajor90 (by simp),
    hrest l2 _ hmaj2 hmin2 hs2 .semiMinor90 (by simp)]
  generalize l1.foldl (chkStep env) e1 = e2 at h1
  have hM := h1 .semiMajor90 (by simp)
  have hm := h1 .semiMinor90 (by simp)
  have hS := h1 .errorStrike (by simp)
  simp only [chkStep, checkMap, checkEpicentreErrorLocation]
  split_ifs with hcond
  · left
    refine ⟨?_, ?_, ?_⟩ <;> simp [Entry.set, blank]
  · right
    simp only [Bool.or_eq_true, not_or, Bool.not_eq_true', Bool.not_eq_false, Bool.and_eq_true] at hcond
    obtain ⟨⟨⟨⟨q1, q2⟩, q3⟩, q4⟩, q5⟩ := hcond
    rcases hM with hM | ⟨a, hM⟩
    · rw [hM] at q4; exact absurd rfl q4
    rcases hm with hm | ⟨b, hm⟩
    · rw [hm] at q3; exact absurd rfl q3
    rcases hS with hS | ⟨s, hS⟩
    · rw [hS] at q2; simp [blank, Val.le, Val.rank] at q2
    refine ⟨s, a, b, hS, hM, hm, ?_⟩
    rw [hM, hm] at q5
    simpa [Val.le] using q5

end

/-- Non-vacuity of `C07_ellipse_partial`: the column order satisfies its hypotheses. -/
example : ∃ l1 l2, columnOrder.keys false = l1 ++ some .errorStrike :: l2 ∧
    some Fld.semiMajor90 ∈ l1 ∧ some Fld.semiMinor90 ∈ l1 :=
  ⟨(fieldNames.map some).take 14, (fieldNames.map some).drop 15, by decide, by decide, by decide⟩

/-- A row with a negative `SemiMinor90`, as found with agencies that use negative placeholders. -/
def negMinorRow : List Text := exRow.set 13 "-1".toList

/-- **C07 is false of the code** with the dictionary order of CPython 2.7: a negative `SemiMinor90` passes the joint check
(it is not larger than `SemiMajor90`) and is blanked only afterwards, leaving strike and major axis behind. -/
theorem C07_ellipse_fails :
    ¬ ∀ (env : Env ℚ) (line : Nat) (cells : List Text) (e : Entry ℚ),
      readRow env cpythonOrder line cells = .ok e → EllipseOK e := by
  intro hall
  have hacc : (readRow exEnv cpythonOrder 2 negMinorRow).map (fun e => (e .errorStrike, e .semiMajor90, e .semiMinor90))
      = .ok (.flt 298, .flt (243/100), .str []) := by decide +kernel
  cases hr : readRow exEnv cpythonOrder 2 negMinorRow with
  | error err => rw [hr] at hacc; simp [Except.map] at hacc
  | ok e =>
    rw [hr] at hacc
    simp only [Except.map, Except.ok.injEq, Prod.mk.injEq] at hacc
    rcases hall _ _ _ e hr with ⟨h1, -, -⟩ | ⟨s, a, b, -, -, h3, -⟩
    · rw [hacc.1] at h1; cases h1
    · rw [hacc.2.2] at h3; cases h3

section
variable {F : Type} [PyNum F]

/-! ### C08 -/

/-- **C08, the part that holds**: if the row has 25 cells and the four compulsory float cells can be read as numbers, a rejected
row raises `EqEntryValidationError` naming a compulsory field whose own column makes the row invalid (an unreadable integer, or
a value out of range; for the day together with the month). Missing: unreadable longitude, latitude, depth or Mw
(`C08_validation_error_fails`). -/
theorem C08_validation_error_partial (env : Env F) (ord : DictOrder) (line : Nat) (cells : List Text) (err : PyErr)
    (hl : cells.length = 25)
    (hfl : ∀ k ∈ [10, 11, 15, 17], FloatCell env cells k (fun _ => True))
    (h : readRow env ord line cells = .error err) :
    ∃ f, compulsory f = true ∧ err = .eqValidation f.name line ∧
      (match f with
       | .eventID => ¬ IntCell env cells 0 (fun i => 0 < i)
       | .identifier => ¬ IntCell env cells 2 (fun i => 0 < i)
       | .year => ¬ IntCell env cells 3 (fun y => -10000 ≤ y ∧ y ≤ env.thisYear)
       | .month => ¬ IntCell env cells 4 (fun m => 1 ≤ m ∧ m ≤ 12)
       | .day => ¬ IntCell env cells 5 (fun d => IntCell env cells 4 (fun m => DayRule m d))
       | .hour => ¬ IntCell env cells 6 (fun h => 0 ≤ h ∧ h ≤ 23)
       | .minute => ¬ IntCell env cells 7 (fun m => 0 ≤ m ∧ m ≤ 59)
       | .longitude => ¬ FloatCell env cells 10 (fun x => ((-180 : Int) : F) ≤ x ∧ x ≤ ((180 : Int) : F))
       | .latitude => ¬ FloatCell env cells 11 (fun x => ((-90 : Int) : F) ≤ x ∧ x ≤ ((90 : Int) : F))
       | .depth => ¬ FloatCell env cells 15 (fun x => ((0 : Int) : F) < x)
       | _ => False) := by
  have hex : (rowDict (F := F) cells).2 = false := by
    have hlen : fieldNames.length = 25 := rfl
    simp only [rowDict, decide_eq_false_iff_not, not_lt]; omega
  have hget : ∀ f : Fld, ∃ s, cells[fieldNames.idxOf f]? = some s := by
    intro f
    have hlt : fieldNames.idxOf f < cells.length := by rw [hl]; cases f <;> decide
    exact ⟨_, List.getElem?_eq_getElem hlt⟩
  unfold readRow readEntry at h
  simp only [hex] at h
  cases hcv : convertValues env line (ord.keys false) (rowDict cells).1 with
  | error err' =>
    rw [hcv] at h
    simp only [bind, Except.bind, Except.error.injEq] at h
    subst h
    obtain ⟨f, -, hf⟩ := convertValues_error env line _ _ _ (ord.nodup _) hcv
    obtain ⟨s, hs⟩ := hget f
    cases hc : conv f with
    | keep => simp [conv1, hc] at hf
    | toInt =>
      simp only [conv1, hc, rowDict, hs] at hf
      cases hp : env.parseInt s with
      | some i => simp [hp] at hf
      | none =>
        simp only [hp, Except.error.injEq] at hf
        have hno : ∀ P, ¬ IntCell env cells (fieldNames.idxOf f) P := by
          rintro P ⟨s', i, h1, h2, -⟩
          rw [hs] at h1; cases h1
          rw [hp] at h2; cases h2
        have hcomp : compulsory f = true := by cases f <;> simp [conv] at hc <;> rfl
        refine ⟨f, hcomp, hf.symm, ?_⟩
        cases f <;> simp only [conv, reduceCtorEq] at hc <;> exact hno _
    | toFloat =>
      simp only [conv1, hc, rowDict, hs] at hf
      cases hp : env.parseFloat s with
      | some i => simp [hp] at hf
      | none =>
        rw [hp] at hf
        by_cases hcf : compulsory f = true
        · exfalso
          have hk : fieldNames.idxOf f ∈ [10, 11, 15, 17] := by
            revert hc hcf; cases f <;> decide
          obtain ⟨s', x, h1, h2, -⟩ := hfl _ hk
          rw [hs] at h1; cases h1
          rw [hp] at h2; cases h2
        · simp [hcf] at hf
  | ok e1 =>
    rw [hcv] at h
    simp only [bind, Except.bind] at h
    rw [convertValues_ok _ _ _ _ _ (ord.nodup _)] at hcv
    rcases checkValues_error env line _ _ _ h with ⟨-, hn⟩ | ⟨f, -, hcf, hk, he⟩
    · rw [ord.none_mem] at hn; simp at hn
    · have hc := fun f => (hcv f).1 (ord.mem _ f)
      have hI : ∀ f k, conv f = .toInt → fieldNames.idxOf f = k →
          ∃ s i, cells[k]? = some s ∧ env.parseInt s = some i ∧ e1 f = .int i :=
        fun f k hf hi => (conv1_int env line f hf cells k hi (e1 f)).mp (hc f)
      have hX : ∀ f k, conv f = .toFloat → compulsory f = true → fieldNames.idxOf f = k →
          ∃ s x, cells[k]? = some s ∧ env.parseFloat s = some x ∧ e1 f = .flt x :=
        fun f k hf hcf hi => (conv1_float_comp env line f hf hcf cells k hi (e1 f)).mp (hc f)
      have useI : ∀ (k : Nat) (P : Int → Prop) (s : Text) (i : Int), cells[k]? = some s → env.parseInt s = some i →
          IntCell env cells k P → P i := by
        rintro k P s i h1 h2 ⟨s', i', h3, h4, h5⟩
        rw [h1] at h3; cases h3
        rw [h2] at h4; cases h4
        exact h5
      have useX : ∀ (k : Nat) (P : F → Prop) (s : Text) (i : F), cells[k]? = some s → env.parseFloat s = some i →
          FloatCell env cells k P → P i := by
        rintro k P s i h1 h2 ⟨s', i', h3, h4, h5⟩
        rw [h1] at h3; cases h3
        rw [h2] at h4; cases h4
        exact h5
      refine ⟨f, hcf, he, ?_⟩
      cases f <;> simp only [compulsory, Bool.false_eq_true] at hcf
      case day =>
        obtain ⟨s, i, h1, h2, h3⟩ := hI .day 5 rfl rfl
        obtain ⟨s', i', h1', h2', h3'⟩ := hI .month 4 rfl rfl
        intro hP
        have := useI _ _ _ _ h1' h2' (useI _ _ _ _ h1 h2 hP)
        simp only [chkOK, checkMap, checkDay, h3, h3', Val.le, Val.eqInt] at hk
        unfold DayRule at this
        by_cases h2 : i' = 2
        · simp [h2] at hk this; omega
        · simp [h2] at hk this; omega
      case mw => simp [chkOK, checkMap, noCheck] at hk
      case longitude =>
        obtain ⟨s, i, h1, h2, h3⟩ := hX .longitude 10 rfl rfl rfl
        intro hP
        have := useX _ _ _ _ h1 h2 hP
        simp [chkOK, checkMap, checkLongitude, h3, Val.le, -Int.cast_neg, -Int.cast_ofNat] at hk
        exact hk (by simpa [-Int.cast_neg, -Int.cast_ofNat] using this.1) (by simpa [-Int.cast_neg, -Int.cast_ofNat] using this.2)
      case latitude =>
        obtain ⟨s, i, h1, h2, h3⟩ := hX .latitude 11 rfl rfl rfl
        intro hP
        have := useX _ _ _ _ h1 h2 hP
        simp [chkOK, checkMap, checkLatitude, h3, Val.le, -Int.cast_neg, -Int.cast_ofNat] at hk
        exact hk (by simpa [-Int.cast_neg, -Int.cast_ofNat] using this.1) (by simpa [-Int.cast_neg, -Int.cast_ofNat] using this.2)
      case depth =>
        obtain ⟨s, i, h1, h2, h3⟩ := hX .depth 15 rfl rfl rfl
        intro hP
        have := useX _ _ _ _ h1 h2 hP
        simp only [chkOK, checkMap, checkPositiveValue, compulsory, if_true, h3, Val.lt, decide_eq_false_iff_not] at hk
        exact hk this
      case eventID =>
        obtain ⟨s, i, h1, h2, h3⟩ := hI .eventID 0 rfl rfl
        intro hP
        have := useI _ _ _ _ h1 h2 hP
        simp [chkOK, checkMap, checkPositiveValue, compulsory, h3, Val.lt] at hk
        omega
      case identifier =>
        obtain ⟨s, i, h1, h2, h3⟩ := hI .identifier 2 rfl rfl
        intro hP
        have := useI _ _ _ _ h1 h2 hP
        simp [chkOK, checkMap, checkPositiveValue, compulsory, h3, Val.lt] at hk
        omega
      case year =>
        obtain ⟨s, i, h1, h2, h3⟩ := hI .year 3 rfl rfl
        intro hP
        have := useI _ _ _ _ h1 h2 hP
        simp [chkOK, checkMap, checkYear, h3, Val.le] at hk
        omega
      case month =>
        obtain ⟨s, i, h1, h2, h3⟩ := hI .month 4 rfl rfl
        intro hP
        have := useI _ _ _ _ h1 h2 hP
        simp [chkOK, checkMap, checkMonth, h3, Val.le] at hk
        omega
      case hour =>
        obtain ⟨s, i, h1, h2, h3⟩ := hI .hour 6 rfl rfl
        intro hP
        have := useI _ _ _ _ h1 h2 hP
        simp [chkOK, checkMap, checkHour, h3, Val.le] at hk
        omega
      case minute =>
        obtain ⟨s, i, h1, h2, h3⟩ := hI .minute 7 rfl rfl
        intro hP
        have := useI _ _ _ _ h1 h2 hP
        simp [chkOK, checkMap, checkMinute, h3, Val.le] at hk
        omega

end

/-- Non-vacuity of `C08_validation_error_partial`: month 13 is reported as such. -/
example : (readRow exEnv cpythonOrder 7 (exRow.set 4 "13".toList)).map (fun e => e .month)
    = .error (.eqValidation "month" 7) := by decide +kernel

/-- **C08 is false of the code**: an unreadable longitude (latitude, depth, Mw) is reported by a bare `TypeError` without field or
line, because the exception is constructed with an argument missing. -/
theorem C08_validation_error_fails :
    ¬ ∀ (env : Env ℚ) (ord : DictOrder) (line : Nat) (cells : List Text) (err : PyErr), cells.length = 25 →
      readRow env ord line cells = .error err → ∃ f, err = .eqValidation f line := by
  intro hall
  have h : (readRow exEnv cpythonOrder 2 (exRow.set 10 "x".toList)).map (fun e => e .longitude)
      = .error .typeError := by decide +kernel
  cases hr : readRow exEnv cpythonOrder 2 (exRow.set 10 "x".toList) with
  | ok e => rw [hr] at h; simp [Except.map] at h
  | error err =>
    rw [hr] at h
    simp only [Except.map, Except.error.injEq] at h
    obtain ⟨f, hf⟩ := hall _ _ _ _ err (by decide) hr
    rw [h] at hf; cases hf

section
variable {F : Type} [PyNum F]

/-! ### C10, C09, C11 -/

/-- **C10.** Loading succeeds exactly when every non-blank row is valid. -/
theorem C10_all_or_nothing (env : Env F) (ord : DictOrder) (rows : List (List Text)) :
    (∃ es, readEqCatalog env ord rows = .ok es) ↔ ∀ r ∈ rows, r ≠ [] → ValidRow env r := by
  have key : ∀ (rs : List (List Text)) (n : Nat),
      (∃ es, readRows env ord n rs = .ok es) ↔ ∀ r ∈ rs, ValidRow env r := by
    intro rs
    induction rs with
    | nil => intro n; simp [readRows]
    | cons r rs ih =>
      intro n
      simp only [readRows, List.mem_cons, forall_eq_or_imp]
      constructor
      · rintro ⟨es, h⟩
        cases hr : readRow env ord n r with
        | error err => rw [hr] at h; simp [bind, Except.bind] at h
        | ok e =>
          rw [hr] at h
          simp only [bind, Except.bind] at h
          cases hrs : readRows env ord (n + 1) rs with
          | error err => rw [hrs] at h; simp at h
          | ok es' => exact ⟨(readRow_accept_iff env ord n r).mp ⟨e, hr⟩, (ih (n + 1)).mp ⟨es', hrs⟩⟩
      · rintro ⟨h1, h2⟩
        obtain ⟨e, he⟩ := (readRow_accept_iff env ord n r).mpr h1
        obtain ⟨es, hes⟩ := (ih (n + 1)).mpr h2
        exact ⟨e :: es, by rw [he, hes]; rfl⟩
  unfold readEqCatalog
  rw [key]
  simp only [List.mem_filter, decide_eq_true_eq]
  exact ⟨fun h r hr hn => h r ⟨hr, by simpa using hn⟩, fun h r hr => h r hr.1 (by simpa using hr.2)⟩

/-- The entry delivered for a row does not depend on the line number. -/
theorem readRow_line_irrelevant (env : Env F) (ord : DictOrder) (m n : Nat) (cells : List Text) (e : Entry F) :
    readRow env ord m cells = .ok e ↔ readRow env ord n cells = .ok e := by
  have key : ∀ m n, readRow env ord m cells = .ok e → readRow env ord n cells = .ok e := by
    intro m n h
    rw [readRow_ok] at h ⊢
    obtain ⟨hl, e1, h1, h2, h3⟩ := h
    refine ⟨hl, e1, ?_, h2, h3⟩
    intro f
    have := h1 f
    unfold conv1 at this ⊢
    cases hc : conv f <;> simp only [hc] at this ⊢
    · cases hv : (rowDict cells).1 f with
      | str s => rw [hv] at this; cases hp : env.parseInt s <;> simp_all
      | none => simp_all
      | int i => simp_all
      | flt i => simp_all
    · exact this
    · exact this
  exact ⟨key m n, key n m⟩

/-- **C10.** The catalogue has one entry per non-blank row, in file order, and each entry is the one its own row gives. -/
theorem C10_order_preserving (env : Env F) (ord : DictOrder) (rows : List (List Text)) (es : List (Entry F))
    (h : readEqCatalog env ord rows = .ok es) :
    List.Forall₂ (fun r e => ∀ n, readRow env ord n r = .ok e) (rows.filter (fun r => r ≠ [])) es := by
  unfold readEqCatalog at h
  revert h
  generalize rows.filter (fun r => r ≠ []) = rs
  have key : ∀ (rs : List (List Text)) (n : Nat) (es : List (Entry F)), readRows env ord n rs = .ok es →
      List.Forall₂ (fun r e => ∀ n, readRow env ord n r = .ok e) rs es := by
    intro rs
    induction rs with
    | nil => intro n es h; simp only [readRows, Except.ok.injEq] at h; subst h; exact .nil
    | cons r rs ih =>
      intro n es h
      simp only [readRows] at h
      cases hr : readRow env ord n r with
      | error err => rw [hr] at h; simp [bind, Except.bind] at h
      | ok e =>
        rw [hr] at h
        simp only [bind, Except.bind] at h
        cases hrs : readRows env ord (n + 1) rs with
        | error err => rw [hrs] at h; simp at h
        | ok es' =>
          rw [hrs] at h
          simp only [pure, Except.pure, Except.ok.injEq] at h
          subst h
          exact .cons (fun m => (readRow_line_irrelevant env ord m n r e).mpr hr) (ih _ _ hrs)
  exact key rs 2 es

/-- **C10/C09.** If loading fails, the exception is the one of the first invalid row, read with line number 2 + its position
among the non-blank rows. -/
theorem C10_first_bad_row (env : Env F) (ord : DictOrder) (rows : List (List Text)) (err : PyErr)
    (h : readEqCatalog env ord rows = .error err) :
    ∃ pre r post, rows.filter (fun r => r ≠ []) = pre ++ r :: post ∧ (∀ p ∈ pre, ValidRow env p) ∧
      ¬ ValidRow env r ∧ readRow env ord (2 + pre.length) r = .error err := by
  unfold readEqCatalog at h
  revert h
  generalize rows.filter (fun r => r ≠ []) = rs
  have key : ∀ (rs : List (List Text)) (n : Nat), readRows env ord n rs = .error err →
      ∃ pre r post, rs = pre ++ r :: post ∧ (∀ p ∈ pre, ValidRow env p) ∧
      ¬ ValidRow env r ∧ readRow env ord (n + pre.length) r = .error err := by
    intro rs
    induction rs with
    | nil => intro n h; simp [readRows] at h
    | cons r rs ih =>
      intro n h
      simp only [readRows] at h
      cases hr : readRow env ord n r with
      | error err' =>
        rw [hr] at h
        simp only [bind, Except.bind, Except.error.injEq] at h
        subst h
        refine ⟨[], r, rs, rfl, by simp, ?_, hr⟩
        intro hv
        obtain ⟨e, he⟩ := (readRow_accept_iff env ord n r).mpr hv
        rw [hr] at he; cases he
      | ok e =>
        rw [hr] at h
        simp only [bind, Except.bind] at h
        cases hrs : readRows env ord (n + 1) rs with
        | ok es' => rw [hrs] at h; simp [pure, Except.pure] at h
        | error err' =>
          rw [hrs] at h
          simp only [Except.error.injEq] at h
          subst h
          obtain ⟨pre, r', post, h1, h2, h3, h4⟩ := ih (n + 1) hrs
          refine ⟨r :: pre, r', post, by rw [h1]; rfl, ?_, h3, ?_⟩
          · simp only [List.mem_cons, forall_eq_or_imp]
            exact ⟨(readRow_accept_iff env ord n r).mp ⟨e, hr⟩, h2⟩
          · rw [← h4]; congr 1; simp; omega
  exact key rs 2

/-- **C09, the part that holds**: in a file without blank lines (row `i` of `rows` standing on line `i + 2`), the line number of a
validation error is the line of the offending row. Missing: files with blank lines (`C09_line_number_fails`). -/
theorem C09_line_number_partial (env : Env F) (ord : DictOrder) (rows : List (List Text)) (f : String) (line : Nat)
    (hb : ∀ r ∈ rows, r ≠ [])
    (h : readEqCatalog env ord rows = .error (.eqValidation f line)) :
    ∃ i r, rows[i]? = some r ∧ ¬ ValidRow env r ∧ (∀ j, j < i → ∀ p, rows[j]? = some p → ValidRow env p) ∧ line = i + 2 := by
  obtain ⟨pre, r, post, h1, h2, h3, h4⟩ := C10_first_bad_row env ord rows _ h
  have hf : rows.filter (fun r => r ≠ []) = rows := by
    rw [List.filter_eq_self]; intro r hr; simpa using hb r hr
  rw [hf] at h1
  refine ⟨pre.length, r, by rw [h1]; simp, h3, ?_, ?_⟩
  · intro j hj p hp
    rw [h1, List.getElem?_append_left hj] at hp
    exact h2 p (List.mem_of_getElem? hp)
  · -- the line in the exception is the line passed to the row
    have hline : ∀ (n : Nat) (cells : List Text), readRow env ord n cells = .error (.eqValidation f line) → line = n := by
      intro n cells h
      unfold readRow readEntry at h
      simp only at h
      cases hcv : convertValues env n (ord.keys (rowDict (F := F) cells).2) (rowDict cells).1 with
      | error err' =>
        rw [hcv] at h
        simp only [bind, Except.bind, Except.error.injEq] at h
        subst h
        obtain ⟨g, -, hg⟩ := convertValues_error env n _ _ _ (ord.nodup _) hcv
        unfold conv1 at hg
        split at hg <;> try (simp at hg; done)
        · split at hg <;> try (simp at hg; done)
          split at hg <;> simp at hg
          exact hg.2.symm
        · split at hg <;> try (simp at hg; done)
          split at hg
          · simp at hg
          · split at hg <;> simp at hg
      | ok e1 =>
        rw [hcv] at h
        simp only [bind, Except.bind] at h
        rcases checkValues_error env n _ _ _ h with ⟨h1, -⟩ | ⟨g, -, -, -, he⟩
        · cases h1
        · cases he; rfl
    have := hline _ _ h4
    omega

/-- **C11.** A row with a number of cells other than 25 (blank lines are skipped, so a non-blank one) is never delivered. -/
theorem C11_wrong_width_rejected (env : Env F) (ord : DictOrder) (line : Nat) (cells : List Text) (hl : cells.length ≠ 25) :
    ∃ err, readRow env ord line cells = .error err := by
  cases hr : readRow env ord line cells with
  | error err => exact ⟨err, rfl⟩
  | ok e => exact absurd ((readRow_accept_iff env ord line cells).mp ⟨e, hr⟩).cells25 hl

end

/-- Non-vacuity of C10: a two-row catalogue with a blank line in between loads as two entries. -/
example : (readEqCatalog exEnv cpythonOrder [exRow, [], exRow.set 3 "1999".toList]).map (fun es => es.map (fun e => e .year))
    = .ok [.int 2000, .int 1999] := by decide +kernel

/-- Non-vacuity of `C09_line_number_partial`. -/
example : (readEqCatalog exEnv cpythonOrder [exRow, exRow.set 3 "2999".toList]).map (fun es => es.map (fun e => e .year))
    = .error (.eqValidation "year" 3) := by decide +kernel

/-- Example for C11: `TypeError` for a short row, `KeyError` for a long one. -/
example : (readRow exEnv cpythonOrder 2 (exRow.take 24)).map (fun e => e .year) = .error .typeError := by decide +kernel
example : (readRow exEnv cpythonOrder 2 (exRow ++ ["x".toList])).map (fun e => e .year) = .error .keyError := by decide +kernel

/-- **C09 is false of the code**: blank lines are not counted.  Here the bad row is the third line of the file (header, blank line,
row) and is reported at line 2. -/
theorem C09_line_number_fails :
    ¬ ∀ (env : Env ℚ) (ord : DictOrder) (rows : List (List Text)) (f : String) (line : Nat),
      readEqCatalog env ord rows = .error (.eqValidation f line) →
      ∃ i r, rows[i]? = some r ∧ r ≠ [] ∧ ¬ ValidRow env r ∧ line = i + 2 := by
  intro hall
  have h : (readEqCatalog exEnv cpythonOrder [[], exRow.set 3 "2999".toList]).map (fun es => es.map (fun e => e .year))
    = .error (.eqValidation "year" 2) := by decide +kernel
  cases hr : readEqCatalog exEnv cpythonOrder [[], exRow.set 3 "2999".toList] with
  | ok e => rw [hr] at h; simp [Except.map] at h
  | error err =>
    rw [hr] at h
    simp only [Except.map, Except.error.injEq] at h
    subst h
    obtain ⟨i, r, h1, h2, -, h4⟩ := hall _ _ _ _ _ hr
    have : i = 0 := by omega
    subst this
    simp at h1
    exact h2 h1

end Verif.EqCatalog
