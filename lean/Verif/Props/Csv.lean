import Verif.Lemmas.Csv
import Verif.Props.EqCatalog

/-!
# Properties C12, C13: writing a catalogue and reading it again
-/

namespace Verif.Csv

open Verif Verif.EqCatalog Verif.EqCatalog.Spec

/-! ### C12 -/

/-- **C12.** Whatever the cells contain (commas, quotes, carriage returns, line feeds, blanks, nothing), the rows written are the
rows read back, with no parse error.  (Rows must have at least one cell, cells no NUL and no more than 131072 characters, the limit of the
csv module; catalogue rows have 25 cells.) -/
theorem C12_csv_round_trip (rows : List (List Text)) (h : ∀ r ∈ rows, r ≠ [] ∧ ∀ t ∈ r, '\x00' ∉ t ∧ t.length ≤ 131072) :
    csvRows (writeRows rows) = (rows, none) :=
  parse_writeRows rows h

/-- Non-vacuity of C12: delimiters, quotes and line breaks inside cells, and a row with one empty cell. -/
example : csvRows (writeRows [["a,b".toList, "say \"hi\"\r\n".toList, []], [[]]])
    = ([["a,b".toList, "say \"hi\"\r\n".toList, []], [[]]], none) := by decide +kernel

theorem validate_written (rest : Text) :
    validateCsvCatalog (writeRow (fieldNames.map (fun f => f.name.toList)) ++ rest) = .ok rest := by
  have hl : ∀ (a : Text), '\n' ∉ a → readline (a ++ '\n' :: rest) = (a ++ ['\n'], rest) := by
    intro a ha
    induction a with
    | nil => simp [readline]
    | cons c a ih =>
      simp only [List.mem_cons, not_or] at ha
      rw [List.cons_append, readline, if_neg (fun h => ha.1 h.symm)]
      simp [ih ha.2]
  obtain ⟨a, ha, hw, hs⟩ : ∃ a : Text, '\n' ∉ a ∧ writeRow (fieldNames.map (fun f => f.name.toList)) = a ++ ['\n'] ∧
      ((a ++ ['\n']).splitOn ',').map strip = fieldNames.map (fun f => f.name.toList) :=
    ⟨(writeRow (fieldNames.map (fun f => f.name.toList))).dropLast, by decide +kernel, by decide +kernel, by decide +kernel⟩
  unfold validateCsvCatalog
  rw [hw, List.append_assoc, List.singleton_append, hl a ha]
  simp only [hs, if_true]

section
variable {F : Type} [PyNum F]

/-- **C12** at the level of the catalogue writer: the file has the documented header, and its rows are the texts of the entries'
values in the documented column order. -/
theorem C12_catalog_round_trip (s : ShowNum F) (entries : List (Entry F))
    (h0 : ∀ e ∈ entries, ∀ f, '\x00' ∉ cellText s (e f) ∧ (cellText s (e f)).length ≤ 131072) :
    ∃ rest, validateCsvCatalog (writeCatalog s entries) = .ok rest ∧
      csvRows rest = (entries.map (fun e => fieldNames.map (fun f => cellText s (e f))), none) := by
  refine ⟨_, validate_written _, ?_⟩
  apply C12_csv_round_trip
  intro r hr
  obtain ⟨e, he, rfl⟩ := List.mem_map.mp hr
  refine ⟨by simp [fieldNames], ?_⟩
  intro t ht
  obtain ⟨f, _, rfl⟩ := List.mem_map.mp ht
  exact h0 e he f

/-! ### C13 -/

/-- Number texts written by the writer are read back as the same numbers (`repr` of floats and `str` of integers in Python 2.7),
the empty text is not a number, and number texts contain no NUL and are not longer than the csv module allows; the numbers are those of a set `S`
(texts of that length cannot tell all numbers apart). -/
structure RoundTrip (env : Env F) (s : ShowNum F) (S : Val F → Prop) : Prop where
  int : ∀ i, S (.int i) → env.parseInt (s.showInt i) = some i
  flt : ∀ x, S (.flt x) → env.parseFloat (s.showFloat x) = some x
  empty : env.parseFloat [] = none
  intOk : ∀ i, S (.int i) → '\x00' ∉ s.showInt i ∧ (s.showInt i).length ≤ 131072
  fltOk : ∀ x, S (.flt x) → '\x00' ∉ s.showFloat x ∧ (s.showFloat x).length ≤ 131072

/-- The values of a catalogue. -/
def Occurs (es : List (Entry F)) (v : Val F) : Prop := ∃ e ∈ es, ∃ f, e f = v

omit [PyNum F] in
theorem RoundTrip.mono {env : Env F} {s : ShowNum F} {S T : Val F → Prop} (h : RoundTrip env s S) (hT : ∀ x, T x → S x) : RoundTrip env s T :=
  ⟨fun x hx => h.int x (hT _ hx), fun x hx => h.flt x (hT _ hx), h.empty, fun x hx => h.intOk x (hT _ hx), fun x hx => h.fltOk x (hT _ hx)⟩

/-- Shape of the values of a delivered entry. -/
theorem delivered_shape (env : Env F) (ord : DictOrder) (line : Nat) (cells : List Text) (e : Entry F)
    (h : readRow env ord line cells = .ok e) :
    (∀ f, conv f = .toInt → ∃ i, e f = .int i) ∧
    (∀ f, conv f = .toFloat → compulsory f = true → ∃ x, e f = .flt x) ∧
    (∀ f, conv f = .toFloat → compulsory f = false → e f = blank ∨ ∃ x, e f = .flt x) ∧
    (∃ t ∈ cells, e .agency = .str t) := by
  have R := C02_accepted_ranges env ord line cells e h
  have O := C05_optional_clean env ord line cells e h
  have hb : ∀ (v : Val F) (P : F → Prop), BlankOr v P → v = blank ∨ ∃ x, v = .flt x := by
    rintro v P (h | ⟨x, h, -⟩)
    · exact Or.inl h
    · exact Or.inr ⟨x, h⟩
  refine ⟨?_, ?_, ?_, ?_⟩
  · intro f hf
    cases f <;> simp only [conv, reduceCtorEq] at hf
    · exact R.eventID.imp fun _ h => h.1
    · exact R.identifier.imp fun _ h => h.1
    · exact R.year.imp fun _ h => h.1
    · exact R.month.imp fun _ h => h.1
    · exact R.dayInt.imp fun _ h => h.1
    · exact R.hour.imp fun _ h => h.1
    · exact R.minute.imp fun _ h => h.1
  · intro f hf hc
    cases f <;> simp only [compulsory, Bool.false_eq_true] at hc <;> simp only [conv, reduceCtorEq] at hf
    · exact R.longitude.imp fun _ h => h.1
    · exact R.latitude.imp fun _ h => h.1
    · exact R.depth.imp fun _ h => h.1
    · exact R.mw.imp fun _ h => h.1
  · intro f hf hc
    cases f <;> simp only [compulsory, reduceCtorEq] at hc <;> simp only [conv, reduceCtorEq] at hf
    · exact hb _ _ O.second
    · exact hb _ _ O.timeError
    · exact hb _ _ O.semiMajor90
    · exact hb _ _ O.semiMinor90
    · exact hb _ _ O.errorStrike
    · exact hb _ _ O.depthError
    · obtain ⟨_, _, ⟨x, -, -, hx⟩ | ⟨-, hx⟩⟩ := C06_sigmaMw_number env ord line cells e h
      · exact Or.inr ⟨x, hx⟩
      · exact Or.inr ⟨0, hx⟩
    · exact hb _ _ O.ms
    · exact hb _ _ O.sigmaMs
    · exact hb _ _ O.mb
    · exact hb _ _ O.sigmamb
    · exact hb _ _ O.ml
    · exact hb _ _ O.sigmaML
  · have hv := (readRow_accept_iff env ord line cells).mp ⟨e, h⟩
    obtain ⟨e1, ⟨-, hc, -⟩, rfl⟩ := (readRow_ok' ..).mp h
    have hlt : 1 < cells.length := by rw [hv.cells25]; decide
    refine ⟨cells[1], List.getElem_mem _, ?_⟩
    rw [foldl_chkStep_mem env _ e1 .agency rfl (ord.nodup _) (ord.mem _ _)]
    have := hc .agency
    have hi : fieldNames.idxOf Fld.agency = 1 := rfl
    simp only [conv1, conv, rowDict, hi, List.getElem?_eq_getElem hlt, Except.ok.injEq] at this
    rw [← this]; rfl

/-- The sanitising step is idempotent. -/
theorem sanit_idem (f : Fld) (v : Val F) : sanit f (sanit f v) = sanit f v := by
  cases f <;> simp only [sanit] <;> split_ifs <;> simp_all [Val.le, Val.lt, blank, Val.rank, Val.isBlank]

/-- A consistent error ellipse is left alone by every check. -/
theorem ellipse_fixed (env : Env F) (ks : List Key) (e : Entry F) (a b s : F)
    (hs : e .errorStrike = .flt s) (ha : e .semiMajor90 = .flt a) (hb : e .semiMinor90 = .flt b)
    (hab : b ≤ a) (h0a : ¬ a < ((0 : Int) : F)) (h0b : ¬ b < ((0 : Int) : F))
    (h0s : ((0 : Int) : F) ≤ s) (h360 : s ≤ ((360 : Int) : F)) :
    ks.foldl (chkStep env) e .errorStrike = .flt s ∧ ks.foldl (chkStep env) e .semiMajor90 = .flt a ∧
      ks.foldl (chkStep env) e .semiMinor90 = .flt b := by
  induction ks generalizing e with
  | nil => exact ⟨hs, ha, hb⟩
  | cons k ks ih =>
    rw [List.foldl_cons]
    have hstep : ∀ f, (f = .semiMajor90 ∨ f = .semiMinor90 ∨ f = .errorStrike) → chkStep env e k f = e f := by
      intro f hf
      cases k with
      | none => rfl
      | some g =>
        by_cases hg : isEllipse g = true
        · cases g <;> simp only [isEllipse, Bool.false_eq_true] at hg
          · simp [chkStep, checkMap, checkPositiveValue, compulsory, ha, Val.lt, h0a]
          · simp [chkStep, checkMap, checkPositiveValue, compulsory, hb, Val.lt, h0b]
          · simp [chkStep, checkMap, checkEpicentreErrorLocation, ha, hb, hs, Val.le, h0s, h360, hab, Val.isBlank]
        · have hne : f ≠ g := by rintro rfl; rcases hf with rfl | rfl | rfl <;> simp [isEllipse] at hg
          cases g <;> simp only [isEllipse, not_true_eq_false] at hg <;>
          simp only [chkStep, checkMap, checkPositiveValue, noCheck, checkYear, checkMonth, checkDay, checkHour, checkMinute,
            checkSecond, checkLongitude, checkLatitude, checkSigmaMw, compulsory, if_true] <;>
          first
            | rfl
            | (split_ifs <;> first | rfl | exact Entry.set_ne _ _ hne)
    exact ih _ (by rw [hstep _ (by simp), hs]) (by rw [hstep _ (by simp), ha]) (by rw [hstep _ (by simp), hb])

/-- Re-reading one written entry. -/
theorem reread_entry (env env' : Env F) (s : ShowNum F) (e : Entry F) (rt : RoundTrip env' s (Occurs [e])) (hy : env.thisYear ≤ env'.thisYear)
    (ord ord' : DictOrder) (line line' : Nat) (cells : List Text)
    (h : readRow env ord line cells = .ok e) :
    ∃ e', readRow env' ord' line' (fieldNames.map (fun f => cellText s (e f))) = .ok e' ∧
      (∀ f, f ≠ .errorStrike → f ≠ .semiMajor90 → f ≠ .semiMinor90 → e' f = e f) ∧ (EllipseOK e → e' = e) := by
  obtain ⟨sI, sC, sO, t, ht, sA⟩ := delivered_shape env ord line cells e h
  have R := C02_accepted_ranges env ord line cells e h
  have O := C05_optional_clean env ord line cells e h
  obtain ⟨m, d, hm, hd, hday⟩ := C03_possible_day_partial env ord line cells e h
  have hcell : ∀ f : Fld, (rowDict (F := F) (fieldNames.map (fun f => cellText s (e f)))).1 f = .str (cellText s (e f)) := by
    intro f; cases f <;> rfl
  have hconv : ∀ f, conv1 env' line' f ((rowDict (F := F) (fieldNames.map (fun f => cellText s (e f)))).1 f) = .ok (e f) := by
    intro f
    rw [hcell f]
    cases hc : conv f with
    | toInt =>
      obtain ⟨i, hi⟩ := sI f hc
      simp [conv1, hc, hi, cellText, rt.int i ⟨e, by simp, f, hi⟩]
    | toFloat =>
      by_cases hcf : compulsory f = true
      · obtain ⟨x, hx⟩ := sC f hc hcf
        simp [conv1, hc, hx, cellText, rt.flt x ⟨e, by simp, f, hx⟩]
      · rcases sO f hc (by simpa using hcf) with hb | ⟨x, hx⟩
        · simp [conv1, hc, hb, cellText, rt.empty, blank, hcf]
        · simp [conv1, hc, hx, cellText, rt.flt x ⟨e, by simp, f, hx⟩]
    | keep =>
      have : f = .agency := by cases f <;> simp [conv] at hc; rfl
      subst this
      simp [conv1, conv, sA, cellText]
  have hchk : ∀ f, compulsory f = true → chkOK env' f e = true := by
    intro f hf
    obtain ⟨i0, v0, k0⟩ := R.eventID
    obtain ⟨i2, v2, k2⟩ := R.identifier
    obtain ⟨i3, v3, k3⟩ := R.year
    obtain ⟨i4, v4, k4⟩ := R.month
    obtain ⟨i6, v6, k6⟩ := R.hour
    obtain ⟨i7, v7, k7⟩ := R.minute
    obtain ⟨i10, v10, k10⟩ := R.longitude
    obtain ⟨i11, v11, k11⟩ := R.latitude
    obtain ⟨i15, v15, k15⟩ := R.depth
    cases f <;> simp only [compulsory, Bool.false_eq_true] at hf
    case day =>
      simp only [chkOK, checkMap, checkDay, hm, hd, Val.le, Val.eqInt, Bool.and_eq_true, Bool.or_eq_true,
        decide_eq_true_eq, Bool.not_eq_true', decide_eq_false_iff_not]
      exact hday
    all_goals
      simp only [chkOK, checkMap, checkPositiveValue, compulsory, if_true, checkYear, checkMonth, noCheck,
        checkHour, checkMinute, checkLongitude, checkLatitude, v0, v2, v3, v4, v6, v7, v10, v11, v15,
        Val.le, Val.lt, Bool.and_eq_true, decide_eq_true_eq]
    all_goals first | assumption | (exact ⟨k3.1, le_trans k3.2 hy⟩)
  obtain ⟨e1, ⟨-, hc1, -⟩, hfin⟩ := (readRow_ok' ..).mp h
  have hsan : ∀ f, isEllipse f = false → sanit f (e f) = e f := by
    intro f hf
    rw [hfin, foldl_chkStep_mem env _ e1 f hf (ord.nodup _) (ord.mem _ f), sanit_idem]
  refine ⟨(ord'.keys false).foldl (chkStep env') e, ?_, ?_, ?_⟩
  · rw [readRow_ok']
    exact ⟨e, ⟨by simp [fieldNames], hconv, hchk⟩, rfl⟩
  · intro f n1 n2 n3
    have hE : isEllipse f = false := by cases f <;> simp_all [isEllipse]
    rw [foldl_chkStep_mem env' _ e f hE (ord'.nodup _) (ord'.mem _ f), hsan f hE]
  · intro hell
    funext f
    by_cases hE : isEllipse f = false
    · rw [foldl_chkStep_mem env' _ e f hE (ord'.nodup _) (ord'.mem _ f), hsan f hE]
    · have hf : f = .semiMajor90 ∨ f = .semiMinor90 ∨ f = .errorStrike := by
        cases f <;> simp_all [isEllipse]
      rcases hell with ⟨b1, b2, b3⟩ | ⟨x, a, b, b1, b2, b3, hab⟩
      · have hb : e f = blank := by rcases hf with rfl | rfl | rfl <;> assumption
        rcases foldl_chkStep_semi env' (ord'.keys false) e f hf with h' | h'
        · rw [h', hb]
        · exact h'
      · have q1 : ¬ a < ((0 : Int) : F) := by
          rcases O.semiMajor90 with h | ⟨y, h, hy⟩
          · rw [b2] at h; cases h
          · rw [b2] at h; cases h; exact hy
        have q2 : ¬ b < ((0 : Int) : F) := by
          rcases O.semiMinor90 with h | ⟨y, h, hy⟩
          · rw [b3] at h; cases h
          · rw [b3] at h; cases h; exact hy
        have q3 : ((0 : Int) : F) ≤ x ∧ x ≤ ((360 : Int) : F) := by
          rcases O.errorStrike with h | ⟨y, h, hy⟩
          · rw [b1] at h; cases h
          · rw [b1] at h; cases h; exact hy
        have := ellipse_fixed env' (ord'.keys false) e a b x b1 b2 b3 hab q1 q2 q3.1 q3.2
        rcases hf with rfl | rfl | rfl
        · rw [this.2.1, b2]
        · rw [this.2.2, b3]
        · rw [this.1, b1]

end

/-! Cells delivered by the parser contain no NUL and respect the limit. -/

def Clean (p : Parser) : Prop := (∀ t ∈ p.fields, CellOk t) ∧ CellOk p.cur

theorem Clean.save {p : Parser} (h : Clean p) (st : St) : Clean (p.save st) := by
  refine ⟨?_, CellOk.nil⟩
  intro t ht
  simp only [Parser.save, List.mem_append, List.mem_singleton] at ht
  rcases ht with ht | rfl
  · exact h.1 t ht
  · exact h.2

theorem Clean.add {p : Parser} (h : Clean p) (st : St) (c : Char) (hc : c ≠ '\x00') (hl : (p.cur ++ [c]).length ≤ fieldLimit) : Clean (p.add st c) := by
  refine ⟨h.1, ?_, hl⟩
  simp only [Parser.add, List.mem_append, List.mem_singleton, not_or]
  exact ⟨h.2.1, fun h => hc h.symm⟩

theorem proc_clean {p p' : Parser} (h : Clean p) (c : Option Char) (hc : c ≠ some '\x00') (hp : proc p c = .ok p')
    (hl : c ≠ none → p'.cur.length ≤ fieldLimit) : Clean p' := by
  have hsf : (c ≠ none → (procStartField p c).cur.length ≤ fieldLimit) → Clean (procStartField p c) := by
    intro hl
    cases c with
    | none => exact h.save _
    | some ch =>
      have hch : ch ≠ '\x00' := fun h => hc (by rw [h])
      have hl := hl (by simp)
      simp only [procStartField] at hl ⊢
      split_ifs at hl ⊢
      · exact h.save _
      · exact h
      · exact h.save _
      · exact h.add _ _ hch hl
  unfold proc at hp
  cases hst : p.st <;> simp only [hst] at hp
  · cases c with
    | none => simp only [Except.ok.injEq] at hp; subst hp; exact h
    | some ch =>
      simp only at hp
      split_ifs at hp <;> simp only [Except.ok.injEq] at hp <;> subst hp
      · exact h
      · exact hsf hl
  · simp only [Except.ok.injEq] at hp; subst hp; exact hsf hl
  all_goals
    cases c with
    | none => simp only [Except.ok.injEq] at hp; subst hp; first | exact h | exact h.save _
    | some ch =>
      have hch : ch ≠ '\x00' := fun h => hc (by rw [h])
      simp only at hp
      split_ifs at hp <;> simp only [Except.ok.injEq, reduceCtorEq] at hp <;> subst hp <;>
        first | exact h | exact h.save _ | exact h.add _ _ hch (hl (by simp))

theorem parse_clean (t : Text) (p : Parser) (h : Clean p) (m : Bool) :
    ∀ r ∈ (parse p m t).1, ∀ c ∈ r, CellOk c := by
  have hinit : Clean Parser.init := ⟨by simp [Parser.init], CellOk.nil⟩
  have heof : ∀ p, Clean p → ∀ r ∈ atEof p, ∀ c ∈ r, CellOk c := by
    intro p h r hr
    unfold atEof at hr
    split_ifs at hr
    · rw [List.mem_singleton] at hr; subst hr
      exact (h.save _).1
    · simp at hr
  induction t generalizing p m with
  | nil =>
    simp only [parse]
    split_ifs
    · cases hp : proc p none with
      | error e => simp
      | ok p' =>
        have := proc_clean h none (by simp) hp (by simp)
        simp only
        split_ifs
        · intro r hr
          rw [List.mem_singleton] at hr; subst hr
          exact this.1
        · exact heof _ this
    · exact heof _ h
  | cons c cs ih =>
    simp only [parse]
    cases hp : procChar p c with
    | error e => simp
    | ok p' =>
      obtain ⟨hc, hp, hl⟩ := procChar_ok hp
      have h' := proc_clean h (some c) (by simpa using hc) hp (fun _ => hl)
      simp only
      split_ifs with hn
      · cases hp' : proc p' none with
        | error e => simp
        | ok p'' =>
          have h'' := proc_clean h' none (by simp) hp' (by simp)
          simp only
          split_ifs
          · intro r hr
            rw [List.mem_cons] at hr
            rcases hr with rfl | hr
            · exact h''.1
            · exact ih _ hinit _ r hr
          · exact ih _ h'' _
      · exact ih _ h' _

section
variable {F : Type} [PyNum F]

/-- The entries of a loaded catalogue come from rows without NUL and without too long cells. -/
theorem delivered_clean (env : Env F) (ord : DictOrder) (file : Text) (es : List (Entry F)) (h : readCatalogFile env ord file = .ok es) :
    ∀ e ∈ es, ∃ r : List Text, (∀ n, readRow env ord n r = .ok e) ∧ ∀ c ∈ r, CellOk c := by
  unfold readCatalogFile at h
  cases hv : validateCsvCatalog file with
  | error err => rw [hv] at h; simp [bind, Except.bind] at h
  | ok rest =>
    rw [hv] at h
    simp only [bind, Except.bind] at h
    cases hr : readEqCatalog env ord (csvRows rest).1 with
    | error err => rw [hr] at h; simp at h
    | ok es0 =>
      rw [hr] at h
      simp only at h
      have hes : es0 = es := by
        cases he : (csvRows rest).2 with
        | some e => rw [he] at h; simp at h
        | none => rw [he] at h; simpa using h
      subst hes
      have hrows := C10_order_preserving env ord _ _ hr
      have hclean : ∀ r ∈ (csvRows rest).1.filter (fun r => r ≠ []), ∀ c ∈ r, CellOk c := by
        intro r hr
        exact parse_clean rest .init ⟨by simp [Parser.init], CellOk.nil⟩ false r (List.mem_of_mem_filter hr)
      generalize (csvRows rest).1.filter (fun r => r ≠ []) = rows at hrows hclean
      intro e he
      obtain ⟨i, hi, hei⟩ := List.mem_iff_getElem.mp he
      have hlen := hrows.length_eq
      have hrow := (List.forall₂_iff_get.mp hrows).2 i (by omega) hi
      simp only [List.get_eq_getElem] at hrow
      rw [hei] at hrow
      exact ⟨_, hrow, hclean _ (List.getElem_mem (l := rows) (n := i) (by omega))⟩

/-- Entries that come from rows without NUL are accepted again when written. -/
theorem written_accepted (env env' : Env F) (s : ShowNum F) (es : List (Entry F)) (rt : RoundTrip env' s (Occurs es))
    (hy : env.thisYear ≤ env'.thisYear) (ord ord' : DictOrder)
    (h : ∀ e ∈ es, ∃ r : List Text, (∀ n, readRow env ord n r = .ok e) ∧ ∀ c ∈ r, CellOk c) :
    ∃ es', readCatalogFile env' ord' (writeCatalog s es) = .ok es' ∧
      List.Forall₂ (fun e e' =>
        (∀ f, f ≠ .errorStrike → f ≠ .semiMajor90 → f ≠ .semiMinor90 → e' f = e f) ∧ (EllipseOK e → e' = e)) es es' := by
  -- readable cells
  have hnul : ∀ e ∈ es, ∀ f, CellOk (cellText s (e f)) := by
    intro e he f
    obtain ⟨r, hrow, hcl⟩ := h e he
    obtain ⟨sI, sC, sO, t, ht, sA⟩ := delivered_shape env ord 0 _ e (hrow 0)
    cases hc : conv f with
    | toInt => obtain ⟨j, hj⟩ := sI f hc; rw [hj]; exact rt.intOk j ⟨e, he, f, hj⟩
    | toFloat =>
      by_cases hcf : compulsory f = true
      · obtain ⟨x, hx⟩ := sC f hc hcf; rw [hx]; exact rt.fltOk x ⟨e, he, f, hx⟩
      · rcases sO f hc (by simpa using hcf) with hb | ⟨x, hx⟩
        · rw [hb]; exact CellOk.nil
        · rw [hx]; exact rt.fltOk x ⟨e, he, f, hx⟩
    | keep =>
      have : f = .agency := by cases f <;> simp [conv] at hc; rfl
      subst this
      rw [sA]
      exact hcl t ht
  obtain ⟨rest', hval', hcsv'⟩ := C12_catalog_round_trip s es hnul
  -- reading row by row
  have hread : ∀ n, ∃ es', readRows env' ord' n (es.map (fun e => fieldNames.map (fun f => cellText s (e f)))) = .ok es' ∧
      List.Forall₂ (fun e e' =>
        (∀ f, f ≠ .errorStrike → f ≠ .semiMajor90 → f ≠ .semiMinor90 → e' f = e f) ∧ (EllipseOK e → e' = e)) es es' := by
    clear hval' hcsv' hnul
    induction es with
    | nil => intro n; exact ⟨[], rfl, .nil⟩
    | cons e es ih =>
      intro n
      obtain ⟨r, h1, -⟩ := h e (by simp)
      obtain ⟨e', he', hp⟩ := reread_entry env env' s e (rt.mono fun x ⟨e1, h1, f, hf⟩ => ⟨e, by simp, f, by rw [← List.mem_singleton.1 h1]; exact hf⟩)
        hy ord ord' 0 n r (h1 0)
      obtain ⟨es', hes', hall⟩ := ih (rt.mono fun x ⟨e1, h1, f, hf⟩ => ⟨e1, by simp [h1], f, hf⟩) (fun e he => h e (by simp [he])) (n + 1)
      refine ⟨e' :: es', ?_, .cons hp hall⟩
      simp only [List.map_cons, readRows, he', hes', bind, Except.bind, pure, Except.pure]
  obtain ⟨es', hes', hall⟩ := hread 2
  refine ⟨es', ?_, hall⟩
  unfold readCatalogFile
  rw [hval']
  simp only [bind, Except.bind, hcsv']
  have hfil : (es.map (fun e => fieldNames.map (fun f => cellText s (e f)))).filter (fun r => r ≠ []) =
      es.map (fun e => fieldNames.map (fun f => cellText s (e f))) := by
    rw [List.filter_eq_self]
    intro r hr
    obtain ⟨e, -, rfl⟩ := List.mem_map.mp hr
    simp [fieldNames]
  unfold readEqCatalog
  rw [hfil, hes']

/-- **C13** (acceptance, and equality up to inconsistent error ellipses).  Every catalogue loaded from a file, written with the
catalogue writer, is accepted again at the same or a later year under any dictionary order; the entries are the same in all
fields but possibly the error ellipse, and the same altogether if their error ellipse is consistent.
Missing from the full claim: equality for entries that C07 wrongly delivers with an inconsistent ellipse (`C13_same_entries_fails`). -/
theorem C13_stored_catalog_accepted_partial (env env' : Env F) (s : ShowNum F) (es : List (Entry F)) (rt : RoundTrip env' s (Occurs es))
    (hy : env.thisYear ≤ env'.thisYear) (ord ord' : DictOrder) (file : Text)
    (h : readCatalogFile env ord file = .ok es) :
    ∃ es', readCatalogFile env' ord' (writeCatalog s es) = .ok es' ∧
      List.Forall₂ (fun e e' =>
        (∀ f, f ≠ .errorStrike → f ≠ .semiMajor90 → f ≠ .semiMinor90 → e' f = e f) ∧ (EllipseOK e → e' = e)) es es' :=
  written_accepted env env' s es rt hy ord ord' (delivered_clean env ord file es h)

end

/-! ### Non-vacuity of C13, and its refutation

A concrete exact number syntax: integers in decimal, rationals as `numerator/denominator`; plain decimals are read as well. -/

def showInt (i : Int) : Text := if i < 0 then '-' :: Nat.toDigits 10 i.natAbs else Nat.toDigits 10 i.natAbs

def showRat (q : ℚ) : Text := showInt q.num ++ '/' :: Nat.toDigits 10 q.den

def readRat (t : Text) : Option ℚ :=
  match t.dropWhile (· ≠ '/') with
  | [] => Text.pyDec t
  | _ :: d =>
    match Text.pyInt (t.takeWhile (· ≠ '/')), Text.nat? d with
    | some n, some m => some ((n : ℚ) / (m : ℚ))
    | _, _ => none

def ratEnv (year : Int) : Env ℚ := ⟨Text.pyInt, readRat, year⟩

def ratShow : ShowNum ℚ := ⟨showInt, showRat⟩

theorem digit_of_isDigit {c : Char} (h : c.isDigit = true) : Text.digit c = some (c.toNat - '0'.toNat) := by
  simp only [Char.isDigit, Bool.and_eq_true, decide_eq_true_eq] at h
  have h1 : '0'.toNat ≤ c.toNat := h.1
  have h2 : c.toNat ≤ '9'.toNat := h.2
  rw [Text.digit, if_pos ⟨h1, h2⟩]

theorem digits_eq (l : List Char) (h : ∀ c ∈ l, c.isDigit = true) (n : Nat) :
    Text.digits n l = some (Nat.ofDigitChars 10 l n) := by
  induction l generalizing n with
  | nil => simp [Text.digits]
  | cons c l ih =>
    rw [Text.digits, digit_of_isDigit (h c (by simp)), Nat.ofDigitChars_cons]
    exact ih (fun c hc => h c (by simp [hc])) _

theorem toDigits_isDigit (n : Nat) : ∀ c ∈ Nat.toDigits 10 n, c.isDigit = true :=
  fun _ hc => Nat.isDigit_of_mem_toDigits (by decide) (by decide) hc

theorem nat_show (n : Nat) : Text.nat? (Nat.toDigits 10 n) = some n := by
  rw [Text.nat?, if_neg Nat.toDigits_ne_nil, digits_eq _ (toDigits_isDigit n), Nat.ofDigitChars_ten_toDigits]

theorem isDigit_facts {c : Char} (h : c.isDigit = true) :
    Text.isSpace c = false ∧ c ≠ '-' ∧ c ≠ '+' ∧ c ≠ '/' ∧ c ≠ '\x00' := by
  refine ⟨?_, ?_, ?_, ?_, ?_⟩
  · rw [Text.isSpace]
    simp only [Bool.or_eq_false_iff, beq_eq_false_iff_ne]
    refine ⟨⟨⟨⟨⟨?_, ?_⟩, ?_⟩, ?_⟩, ?_⟩, ?_⟩ <;> (rintro rfl; revert h; decide)
  all_goals (rintro rfl; revert h; decide)

theorem trim_eq (l : List Char) (h : ∀ c ∈ l, Text.isSpace c = false) : Text.trim l = l := by
  have hd : ∀ l : List Char, (∀ c ∈ l, Text.isSpace c = false) → l.dropWhile Text.isSpace = l := by
    intro l h
    cases l with
    | nil => rfl
    | cons c l => simp [h c (by simp)]
  rw [Text.trim, hd l h, hd l.reverse (fun c hc => h c (by simpa using hc)), List.reverse_reverse]

theorem showInt_chars (i : Int) : ∀ c ∈ showInt i, c = '-' ∨ c.isDigit = true := by
  intro c hc
  unfold showInt at hc
  split_ifs at hc
  · rcases List.mem_cons.mp hc with h | h
    · exact Or.inl h
    · exact Or.inr (toDigits_isDigit _ _ h)
  · exact Or.inr (toDigits_isDigit _ _ hc)

theorem int_show (i : Int) : Text.pyInt (showInt i) = some i := by
  have hs : ∀ c ∈ showInt i, Text.isSpace c = false := by
    intro c hc
    rcases showInt_chars i c hc with rfl | h
    · decide
    · exact (isDigit_facts h).1
  rw [Text.pyInt, trim_eq _ hs]
  unfold showInt
  split_ifs with h
  · simp only [nat_show]; show some _ = some _; congr 1; dsimp only; omega
  · cases ht : Nat.toDigits 10 i.natAbs with
    | nil => exact absurd ht Nat.toDigits_ne_nil
    | cons c cs =>
      have hc := isDigit_facts (toDigits_isDigit i.natAbs c (by rw [ht]; simp))
      have := nat_show i.natAbs
      rw [ht] at this
      split
      · rename_i heq; cases heq; exact absurd rfl hc.2.1
      · rename_i heq; cases heq; exact absurd rfl hc.2.2.1
      · rw [this]; show some _ = some _; congr 1; dsimp only; omega

theorem takeWhile_slash (a b : Text) (h : ∀ c ∈ a, c ≠ '/') :
    (a ++ '/' :: b).takeWhile (· ≠ '/') = a ∧ (a ++ '/' :: b).dropWhile (· ≠ '/') = '/' :: b := by
  induction a with
  | nil => simp
  | cons c a ih =>
    have := ih (fun c hc => h c (by simp [hc]))
    have hc := h c (by simp)
    simp_all

theorem rat_show (q : ℚ) : readRat (showRat q) = some q := by
  have hne : ∀ c ∈ showInt q.num, c ≠ '/' := by
    intro c hc
    rcases showInt_chars _ c hc with rfl | h
    · decide
    · exact (isDigit_facts h).2.2.2.1
  obtain ⟨h1, h2⟩ := takeWhile_slash (showInt q.num) (Nat.toDigits 10 q.den) hne
  rw [readRat, showRat, h2]
  simp only [h1, int_show, nat_show, Rat.num_div_den]

/-- The round-trip law is satisfiable. -/
theorem ratRoundTrip (y : Int) : RoundTrip (ratEnv y) ratShow fun v => (cellText ratShow v).length ≤ 131072 where
  int i _ := int_show i
  flt x _ := rat_show x
  empty := by show readRat [] = none; decide +kernel
  intOk i hl := by
    refine ⟨fun h => ?_, hl⟩
    rcases showInt_chars i _ h with h | h
    · revert h; decide
    · exact (isDigit_facts h).2.2.2.2 rfl
  fltOk q hl := by
    refine ⟨fun h => ?_, hl⟩
    simp only [ratShow, showRat, List.mem_append, List.mem_cons] at h
    rcases h with h | h | h
    · rcases showInt_chars _ _ h with h | h
      · revert h; decide
      · exact (isDigit_facts h).2.2.2.2 rfl
    · revert h; decide
    · exact (isDigit_facts (toDigits_isDigit _ _ h)).2.2.2.2 rfl

/-- A catalogue file with one row. -/
def exFile (row : List Text) : Text := writeRow (fieldNames.map (fun f => f.name.toList)) ++ writeRow row

/-- Non-vacuity of C13: a file that is loaded, with a consistent ellipse. -/
example : (readCatalogFile (ratEnv 2012) cpythonOrder (exFile exRow)).map
    (fun es => es.map (fun e => (e .errorStrike, e .semiMajor90, e .semiMinor90, e .mw)))
    = .ok [(.flt 298, .flt (243/100), .flt (101/100), .flt (171/100))] := by decide +kernel

/-- **C13's last clause (same entries) is false of the code**: an entry delivered with a strike and a major axis but a blank minor
axis (see `C07_ellipse_fails`) loses both when the stored catalogue is read again. -/
theorem C13_same_entries_fails :
    ¬ ∀ (env : Env ℚ) (s : ShowNum ℚ) (file : Text) (es : List (Entry ℚ)), RoundTrip env s (Occurs es) →
      readCatalogFile env cpythonOrder file = .ok es →
        readCatalogFile env cpythonOrder (writeCatalog s es) = .ok es := by
  intro hall
  have h := hall (ratEnv 2012) ratShow (exFile negMinorRow)
  have h0 : (readCatalogFile (ratEnv 2012) cpythonOrder (exFile negMinorRow)).map
      (fun es => decide (∀ e ∈ es, ∀ f ∈ fieldNames, (cellText ratShow (e f)).length ≤ 131072)) = .ok true := by decide +kernel
  have h1 : (readCatalogFile (ratEnv 2012) cpythonOrder (exFile negMinorRow)).map
      (fun es => es.map (fun e => e .errorStrike)) = .ok [.flt 298] := by decide +kernel
  have h2 : ((readCatalogFile (ratEnv 2012) cpythonOrder (exFile negMinorRow)).bind
      (fun es => readCatalogFile (ratEnv 2012) cpythonOrder (writeCatalog ratShow es))).map
      (fun es => es.map (fun e => e .errorStrike)) = .ok [.str []] := by decide +kernel
  cases hr : readCatalogFile (ratEnv 2012) cpythonOrder (exFile negMinorRow) with
  | error err => rw [hr] at h1; simp [Except.map] at h1
  | ok es =>
    rw [hr] at h0 h1 h2
    simp only [Except.map, Except.ok.injEq, decide_eq_true_eq] at h0
    have hrt : RoundTrip (ratEnv 2012) ratShow (Occurs es) :=
      (ratRoundTrip 2012).mono fun v ⟨e, he, f, hf⟩ => hf ▸ h0 e he f (by cases f <;> decide)
    simp only [Except.bind, h es hrt hr] at h2
    rw [h1] at h2
    simp at h2

end Verif.Csv
