import Verif.Props.DoubleText
import Verif.Props.DoubleRates
import Verif.Props.EqCatalog
import Verif.Lemmas.Nrml

/-!
# C192: the reader decides about the numbers in the file, in double precision
-/

namespace Verif.EqCatalog

open Verif Verif.Dbl Verif.Format

namespace Spec

/-- A value with its number rounded to a double. -/
def roundedVal : Val ℚ → Val Dbl
  | .none => .none
  | .int i => .int i
  | .flt x => .flt (Dbl.of x)
  | .str s => .str s

/-- An entry with its numbers rounded to doubles. -/
def rounded (e : Entry ℚ) : Entry Dbl := fun f => roundedVal (e f)

/-- At most nine decimals and not above 100000. -/
def NineDecimals (x : ℚ) : Prop := ∃ m : ℤ, x = m / 10 ^ 9 ∧ |m| ≤ 10 ^ 14

/-- The text of a cell that, if it is a number, has at most nine decimals and is not above 100000. -/
def ShortText (t : Text) : Prop := ∀ x, pyFloat (K := ℚ) t = some x → NineDecimals x

/-- Reading with exact numbers. -/
def exactEnv (year : Int) : Env ℚ := ⟨Text.pyInt, pyFloat, year⟩

end Spec

open Spec
open Verif.Csv (dblEnv)

/-! ### Comparisons -/

theorem of_le_of {x y : ℚ} (hx : NineDecimals x) (hy : NineDecimals y) : Dbl.of x ≤ Dbl.of y ↔ x ≤ y := by
  obtain ⟨m, rfl, hm⟩ := hx
  obtain ⟨n, rfl, hn⟩ := hy
  constructor
  · intro h
    by_contra hlt
    push Not at hlt
    have hb : ∀ {k : ℤ}, |k| ≤ 10 ^ 14 → |(k : ℚ) / 10 ^ 9| ≤ 10 ^ 5 := by
      intro k hk
      rw [abs_div, abs_of_pos (by norm_num : (0 : ℚ) < 10 ^ 9), div_le_iff₀ (by norm_num), ← Int.cast_abs]
      have : ((|k| : ℤ) : ℚ) ≤ 10 ^ 14 := by exact_mod_cast hk
      linarith
    have e1 := (abs_le.1 (of_near (hb hm))).1
    have e2 := (abs_le.1 (of_near (hb hn))).2
    have hz : n + 1 ≤ m := by
      have : (n : ℚ) < m := by
        have := (div_lt_div_iff_of_pos_right (show (0 : ℚ) < 10 ^ 9 by norm_num)).1 hlt
        exact this
      exact_mod_cast this
    have hq : (n : ℚ) + 1 ≤ m := by exact_mod_cast hz
    have hd : (n : ℚ) / 10 ^ 9 + 1 / 10 ^ 9 ≤ m / 10 ^ 9 := by
      rw [← add_div]
      exact div_le_div_of_nonneg_right hq (by norm_num)
    have h' := le_def.1 h
    norm_num at e1 e2 hd h'
    linarith
  · intro h
    exact rnd53_mono h

theorem of_lt_of {x y : ℚ} (hx : NineDecimals x) (hy : NineDecimals y) : Dbl.of x < Dbl.of y ↔ x < y := by
  have h := of_le_of hy hx
  rw [lt_def, ← not_le, ← not_le, ← h, le_def]

theorem nine_int {n : ℤ} (hn : |n| ≤ 10 ^ 5) : NineDecimals (n : ℚ) := by
  refine ⟨n * 10 ^ 9, by push_cast; norm_num, ?_⟩
  rw [abs_mul]
  have : |(10 ^ 9 : ℤ)| = 10 ^ 9 := by norm_num
  rw [this]
  linarith

theorem int_of (n : ℤ) : ((n : ℤ) : Dbl) = Dbl.of (n : ℚ) := rfl

/-- The numbers of a value are short. -/
def Short : Val ℚ → Prop
  | .flt x => NineDecimals x
  | _ => True

/-- Integers only in the fields of integers, numbers with decimals only in the other ones. -/
def Typed (f : Fld) : Val ℚ → Prop
  | .flt _ => conv f = .toFloat
  | .int _ => conv f = .toInt
  | _ => True

theorem int_le {v : Val ℚ} (hv : Short v) {n : ℤ} (hn : |n| ≤ 10 ^ 5) : Val.le (.int n) (roundedVal v) = Val.le (.int n) v := by
  cases v with
  | flt x => exact decide_eq_decide.2 (by rw [int_of]; exact of_le_of (nine_int hn) hv)
  | _ => rfl

theorem le_int {v : Val ℚ} (hv : Short v) {n : ℤ} (hn : |n| ≤ 10 ^ 5) : Val.le (roundedVal v) (.int n) = Val.le v (.int n) := by
  cases v with
  | flt x => exact decide_eq_decide.2 (by rw [int_of]; exact of_le_of hv (nine_int hn))
  | _ => rfl

theorem int_lt {v : Val ℚ} (hv : Short v) {n : ℤ} (hn : |n| ≤ 10 ^ 5) : Val.lt (.int n) (roundedVal v) = Val.lt (.int n) v := by
  cases v with
  | flt x => exact decide_eq_decide.2 (by rw [int_of]; exact of_lt_of (nine_int hn) hv)
  | _ => rfl

theorem lt_int {v : Val ℚ} (hv : Short v) {n : ℤ} (hn : |n| ≤ 10 ^ 5) : Val.lt (roundedVal v) (.int n) = Val.lt v (.int n) := by
  cases v with
  | flt x => exact decide_eq_decide.2 (by rw [int_of]; exact of_lt_of hv (nine_int hn))
  | _ => rfl

/-- Fields of integers: no rounding, whatever the size. -/
theorem int_field {f : Fld} (hf : conv f = .toInt) {v : Val ℚ} (hv : Typed f v) (n : ℤ) :
    Val.le (.int n) (roundedVal v) = Val.le (.int n) v ∧ Val.le (roundedVal v) (.int n) = Val.le v (.int n) ∧
    Val.lt (.int n) (roundedVal v) = Val.lt (.int n) v ∧ Val.eqInt (roundedVal v) n = Val.eqInt v n := by
  cases v with
  | flt x => rw [Typed, hf] at hv; cases hv
  | _ => exact ⟨rfl, rfl, rfl, rfl⟩

/-- Fields with decimals. -/
theorem flt_field {f g : Fld} (hf : conv f = .toFloat) (hg : conv g = .toFloat) {v w : Val ℚ} (hv : Typed f v) (hw : Typed g w) (sv : Short v) (sw : Short w) :
    Val.le (roundedVal v) (roundedVal w) = Val.le v w := by
  cases v with
  | int i => rw [Typed, hf] at hv; cases hv
  | flt x =>
    cases w with
    | int i => rw [Typed, hg] at hw; cases hw
    | flt y => exact decide_eq_decide.2 (of_le_of sv sw)
    | _ => rfl
  | none => cases w <;> rfl
  | str s => cases w <;> rfl

theorem blank_val (v : Val ℚ) : (roundedVal v).isBlank = v.isBlank := by
  cases v with
  | str s => cases s <;> rfl
  | _ => rfl

/-! ### Entries -/

theorem rounded_set (e : Entry ℚ) (f : Fld) (v : Val ℚ) : rounded (e.set f v) = (rounded e).set f (roundedVal v) := by
  funext g
  simp only [rounded, Entry.set]
  split_ifs <;> rfl

theorem set_all {P : Fld → Val ℚ → Prop} {e : Entry ℚ} (he : ∀ f, P f (e f)) (f : Fld) {v : Val ℚ} (hv : P f v) : ∀ g, P g (e.set f v g) := by
  intro g
  simp only [Entry.set]
  split_ifs with h
  · rw [h]; exact hv
  · exact he g

/-- Typed and short. -/
def Good (f : Fld) (v : Val ℚ) : Prop := Typed f v ∧ Short v

theorem good_blank (f : Fld) : Good f blank := ⟨trivial, trivial⟩

/-- The same decision on the rounded entry, and the same changes. -/
def Same (p : Bool × Entry ℚ) (q : Bool × Entry Dbl) : Prop := q = (p.1, rounded p.2) ∧ ∀ f, Good f (p.2 f)

theorem check_same (y : ℤ) (f : Fld) {e : Entry ℚ} (he : ∀ f, Good f (e f)) : Same (checkMap (exactEnv y) f f e) (checkMap (dblEnv y) f f (rounded e)) := by
  have hr : ∀ f, rounded e f = roundedVal (e f) := fun _ => rfl
  have hpos : Same (checkPositiveValue f e) (checkPositiveValue f (rounded e)) := by
    unfold checkPositiveValue
    rw [hr, int_lt (he f).2 (by norm_num), lt_int (he f).2 (by norm_num)]
    split_ifs
    · exact ⟨rfl, he⟩
    · exact ⟨by rw [rounded_set]; rfl, set_all he f (good_blank f)⟩
    · exact ⟨rfl, he⟩
  have hno : Same (noCheck f e) (noCheck f (rounded e)) := ⟨rfl, he⟩
  cases f with
  | eventID | identifier | semiMajor90 | semiMinor90 | depth | depthError | sigmaMs | sigmamb | sigmaML => exact hpos
  | agency | timeError | mw | ms | mb | ml => exact hno
  | year =>
    have h := int_field rfl (he .year).1
    refine ⟨?_, he⟩
    simp only [checkMap, checkYear, hr]
    rw [(h _).1, (h _).2.1]
    rfl
  | month =>
    have h := int_field rfl (he .month).1
    refine ⟨?_, he⟩
    simp only [checkMap, checkMonth, hr]
    rw [(h _).1, (h _).2.1]
  | day =>
    have h := int_field rfl (he .day).1
    have h' := int_field rfl (he .month).1
    refine ⟨?_, he⟩
    simp only [checkMap, checkDay, hr]
    rw [(h _).1, (h _).2.1, (h _).2.1, (h' _).2.2.2]
  | hour =>
    have h := int_field rfl (he .hour).1
    refine ⟨?_, he⟩
    simp only [checkMap, checkHour, hr]
    rw [(h _).1, (h _).2.1]
  | minute =>
    have h := int_field rfl (he .minute).1
    refine ⟨?_, he⟩
    simp only [checkMap, checkMinute, hr]
    rw [(h _).1, (h _).2.1]
  | second =>
    simp only [checkMap, checkSecond, hr]
    rw [int_le (he _).2 (by norm_num), le_int (he _).2 (by norm_num)]
    split_ifs
    · exact ⟨rfl, he⟩
    · exact ⟨by rw [rounded_set]; rfl, set_all he _ (good_blank _)⟩
  | longitude =>
    refine ⟨?_, he⟩
    simp only [checkMap, checkLongitude, hr]
    rw [int_le (he _).2 (by norm_num), le_int (he _).2 (by norm_num)]
  | latitude =>
    refine ⟨?_, he⟩
    simp only [checkMap, checkLatitude, hr]
    rw [int_le (he _).2 (by norm_num), le_int (he _).2 (by norm_num)]
  | errorStrike =>
    simp only [checkMap, checkEpicentreErrorLocation, hr]
    rw [int_le (he _).2 (by norm_num), le_int (he _).2 (by norm_num), blank_val, blank_val, flt_field (f := .semiMinor90) (g := .semiMajor90) rfl rfl (he _).1 (he _).1 (he _).2 (he _).2]
    split_ifs
    · exact ⟨by rw [rounded_set, rounded_set, rounded_set]; rfl, set_all (set_all (set_all he _ (good_blank _)) _ (good_blank _)) _ (good_blank _)⟩
    · exact ⟨rfl, he⟩
  | sigmaMw =>
    simp only [checkMap, checkSigmaMw, hr]
    rw [lt_int (he _).2 (by norm_num), blank_val]
    split_ifs
    · refine ⟨by rw [rounded_set]; rfl, set_all he _ ⟨rfl, 0, by norm_num, by norm_num⟩⟩
    · exact ⟨rfl, he⟩

/-! ### Conversion -/

theorem convert_same (y : ℤ) (line : ℕ) (k : Key) (e : Entry ℚ) : convertField (dblEnv y) line k (rounded e) = (convertField (exactEnv y) line k e).map rounded := by
  cases k with
  | none => rfl
  | some f =>
    have hr : rounded e f = roundedVal (e f) := rfl
    unfold convertField
    cases hc : conv f with
    | keep => simp only [hc]; rfl
    | toInt =>
      simp only [hc, hr]
      cases hv : e f with
      | str s =>
        simp only [roundedVal]
        rw [show (dblEnv y).parseInt s = (exactEnv y).parseInt s from rfl]
        cases (exactEnv y).parseInt s with
        | none => rfl
        | some i => exact congrArg Except.ok (rounded_set e f (.int i)).symm
      | _ => rfl
    | toFloat =>
      simp only [hc, hr]
      cases hv : e f with
      | str s =>
        simp only [roundedVal]
        rw [show (dblEnv y).parseFloat s = ((exactEnv y).parseFloat s).map Dbl.of from rfl]
        cases (exactEnv y).parseFloat s with
        | none =>
          simp only [Option.map_none]
          split_ifs
          · rfl
          · exact congrArg Except.ok (rounded_set e f blank).symm
        | some x => exact congrArg Except.ok (rounded_set e f (.flt x)).symm
      | _ => rfl

/-- Before the conversion: texts with short numbers; after it, short numbers. -/
def Ready (S : Text → Prop) (f : Fld) : Val ℚ → Prop
  | .str s => conv f = .toFloat → S s
  | .flt x => conv f = .toFloat ∧ ∃ s, S s ∧ pyFloat (K := ℚ) s = some x
  | .int _ => conv f = .toInt
  | .none => True

theorem convert_ready {S : Text → Prop} (h0 : S []) {y : ℤ} {line : ℕ} {k : Key} {e e' : Entry ℚ} (he : ∀ f, Ready S f (e f)) (h : convertField (exactEnv y) line k e = .ok e') : ∀ f, Ready S f (e' f) := by
  cases k with
  | none => cases h; exact he
  | some f =>
    have hf := he f
    unfold convertField at h
    cases hc : conv f with
    | keep => simp only [hc] at h; cases h; exact he
    | toInt =>
      simp only [hc] at h
      cases hv : e f with
      | str s =>
        simp only [hv] at h
        cases hp : (exactEnv y).parseInt s with
        | none => rw [hp] at h; cases h
        | some i =>
          rw [hp] at h; cases h
          exact set_all he f hc
      | none => rw [hv] at h; cases h
      | int i => rw [hv] at h; cases h; exact he
      | flt x => rw [hv] at h; cases h; exact he
    | toFloat =>
      simp only [hc] at h
      cases hv : e f with
      | str s =>
        simp only [hv] at h
        rw [hv] at hf
        cases hp : (exactEnv y).parseFloat s with
        | none =>
          rw [hp] at h
          by_cases g : compulsory f = true
          · rw [if_pos g] at h; cases h
          · simp only [if_neg g] at h; cases h
            exact set_all he f fun _ => h0
        | some x =>
          rw [hp] at h; cases h
          exact set_all he f ⟨hc, s, hf hc, hp⟩
      | none => rw [hv] at h; cases h
      | int i => rw [hv] at h; cases h; exact he
      | flt x => rw [hv] at h; cases h; exact he

theorem foldlM_map {α β γ ε : Type} {f : β → α → Except ε β} {g : γ → α → Except ε γ} {r : β → γ} {P : β → Prop}
    (h : ∀ b a, P b → g (r b) a = (f b a).map r ∧ ∀ b', f b a = .ok b' → P b') (l : List α) :
    ∀ b, P b → l.foldlM g (r b) = (l.foldlM f b).map r ∧ ∀ b', l.foldlM f b = .ok b' → P b' := by
  induction l with
  | nil =>
    intro b hb
    refine ⟨rfl, fun b' hb' => ?_⟩
    cases hb'
    exact hb
  | cons a l ih =>
    intro b hb
    obtain ⟨h1, h2⟩ := h b a hb
    rw [List.foldlM_cons, List.foldlM_cons, h1]
    cases hf : f b a with
    | error e => exact ⟨rfl, fun b' hb' => by cases hb'⟩
    | ok c => exact ih c (h2 c hf)

theorem ready_good {f : Fld} {v : Val ℚ} (h : Ready ShortText f v) : Good f v := by
  cases v with
  | none => exact ⟨trivial, trivial⟩
  | str s => exact ⟨trivial, trivial⟩
  | int i => exact ⟨h, trivial⟩
  | flt x =>
    obtain ⟨h1, s, h2, h3⟩ := h
    exact ⟨h1, h2 x h3⟩

theorem short_nil : ShortText [] := by
  intro x h
  have : pyFloat (K := ℚ) [] = none := by decide +kernel
  rw [this] at h
  cases h

theorem rounded_row (cells : List Text) : (rowDict cells : Entry Dbl × Bool) = (rounded (rowDict cells : Entry ℚ × Bool).1, (rowDict cells : Entry ℚ × Bool).2) := by
  unfold rowDict
  refine Prod.ext (funext fun f => ?_) rfl
  simp only [rounded]
  cases cells[fieldNames.idxOf f]? <;> rfl

theorem ready_row {S : Text → Prop} {cells : List Text} (hs : ∀ i, 8 ≤ i → ∀ s, cells[i]? = some s → S s) (f : Fld) : Ready S f ((rowDict cells : Entry ℚ × Bool).1 f) := by
  simp only [rowDict]
  cases h : cells[fieldNames.idxOf f]? with
  | none => trivial
  | some s =>
    intro hf
    refine hs _ ?_ s h
    revert hf
    clear h
    revert f
    intro f
    cases f <;> decide

/-! ### C192 -/

/-- **C192** (one row). A row whose numbers have at most nine decimals and are not above 100000 is read in double precision as it
stands in the file: the same row is rejected with the same error, and an accepted row has the same values, each rounded once. -/
theorem C192_row_partial (y : ℤ) (ord : DictOrder) (line : ℕ) {cells : List Text} (hs : ∀ i, 8 ≤ i → ∀ s, cells[i]? = some s → ShortText s) :
    readRow (dblEnv y) ord line cells = (readRow (exactEnv y) ord line cells).map rounded := by
  unfold readRow
  rw [rounded_row]
  simp only [readEntry, convertValues, checkValues]
  obtain ⟨h1, h2⟩ := foldlM_map (f := fun e k => convertField (exactEnv y) line k e) (g := fun e k => convertField (dblEnv y) line k e) (r := rounded) (P := fun e => ∀ f, Ready ShortText f (e f))
    (fun b a hb => ⟨convert_same y line a b, fun b' hb' => convert_ready short_nil hb hb'⟩) (ord.keys (rowDict cells : Entry ℚ × Bool).2) (rowDict cells : Entry ℚ × Bool).1 (ready_row hs)
  rw [h1]
  cases hc : List.foldlM (fun e k => convertField (exactEnv y) line k e) (rowDict cells : Entry ℚ × Bool).1 (ord.keys (rowDict cells : Entry ℚ × Bool).2) with
  | error e => rfl
  | ok e =>
    refine (foldlM_map (f := fun e k => checkField (exactEnv y) line k e) (g := fun e k => checkField (dblEnv y) line k e) (r := rounded) (P := fun e => ∀ f, Good f (e f)) ?_
      (ord.keys (rowDict cells : Entry ℚ × Bool).2) e fun f => ready_good (h2 e hc f)).1
    intro b a hb
    cases a with
    | none => exact ⟨rfl, fun b' hb' => by cases hb'⟩
    | some f =>
      obtain ⟨g1, g2⟩ := check_same y f hb
      simp only [checkField]
      rw [g1]
      dsimp only
      split_ifs
      · exact ⟨rfl, fun b' hb' => by cases hb'⟩
      · exact ⟨rfl, fun b' hb' => by cases hb'; exact g2⟩

theorem rows_rounded (y : ℤ) (ord : DictOrder) : ∀ (rows : List (List Text)) (n : ℕ), (∀ cells ∈ rows, ∀ i, 8 ≤ i → ∀ s, cells[i]? = some s → ShortText s) →
    readRows (dblEnv y) ord n rows = (readRows (exactEnv y) ord n rows).map (List.map rounded)
  | [], _, _ => rfl
  | r :: rs, n, h => by
    rw [readRows, readRows, C192_row_partial y ord n (h r List.mem_cons_self), rows_rounded y ord rs (n + 1) fun c hc => h c (List.mem_cons_of_mem _ hc)]
    cases readRow (exactEnv y) ord n r with
    | error e => rfl
    | ok e =>
      cases readRows (exactEnv y) ord (n + 1) rs <;> rfl

/-- **C192** (a whole file). The same for a catalogue file: the file is rejected with the same error, or the catalogue is that of
the decimals in the file, each rounded once. -/
theorem C192_file_partial (y : ℤ) (ord : DictOrder) {file : Text}
    (hs : ∀ rest, validateCsvCatalog file = .ok rest → ∀ cells ∈ (Csv.csvRows rest).1, ∀ i, 8 ≤ i → ∀ s, cells[i]? = some s → ShortText s) :
    Csv.readCatalogFile (dblEnv y) ord file = (Csv.readCatalogFile (exactEnv y) ord file).map (List.map rounded) := by
  unfold Csv.readCatalogFile
  cases hv : validateCsvCatalog file with
  | error e => rfl
  | ok rest =>
    have h := rows_rounded y ord ((Csv.csvRows rest).1.filter fun r => r ≠ []) 2 fun c hc => hs rest hv c (List.mem_filter.1 hc).1
    simp only [bind, Except.bind, readEqCatalog]
    rw [h]
    cases readRows (exactEnv y) ord 2 ((Csv.csvRows rest).1.filter fun r => r ≠ []) with
    | error e => rfl
    | ok es => cases (Csv.csvRows rest).2 <;> rfl

/-- The row of the examples with a longitude a little east of 180 degrees. -/
def farRow : List Text := exRow.set 10 "180.00000000000000001".toList

/-- **C192 fails** without the limit: a longitude of 180.00000000000000001 degrees is outside the allowed range, and accepted. -/
theorem C192_fails : ¬ ∀ (y : ℤ) (ord : DictOrder) (line : ℕ) (cells : List Text), readRow (dblEnv y) ord line cells = (readRow (exactEnv y) ord line cells).map rounded := by
  intro h
  have h1 : (readRow (exactEnv 2012) columnOrder 2 farRow).isOk = false := by decide +kernel
  have h2 : (readRow (dblEnv 2012) columnOrder 2 farRow).isOk = true := by decide +kernel
  have h3 := h 2012 columnOrder 2 farRow
  rw [h3] at h2
  cases hr : readRow (exactEnv 2012) columnOrder 2 farRow with
  | error e => rw [hr] at h2; cases h2
  | ok e => rw [hr] at h1; cases h1

/-! ### No row is lost to rounding -/

section
variable {F : Type} [PyNum F]

/-- The checks change optional fields only. -/
theorem check_keeps (env : Env F) (f : Fld) (e : Entry F) {g : Fld} (hg : compulsory g = true) : (checkMap env f f e).2 g = e g := by
  have hset : ∀ (e : Entry F) (h : Fld) (v : Val F), compulsory h = false → (e.set h v) g = e g := by
    intro e h v hh
    have : g ≠ h := fun eq => by rw [eq, hh] at hg; cases hg
    simp only [Entry.set, if_neg this]
  cases f <;> simp only [checkMap, noCheck, checkPositiveValue, checkYear, checkMonth, checkDay, checkHour, checkMinute, checkSecond, checkLongitude, checkLatitude, checkEpicentreErrorLocation, checkSigmaMw]
  all_goals try split_ifs
  all_goals first
    | rfl
    | exact absurd rfl ‹_›
    | exact hset _ _ _ rfl
    | exact (hset _ _ _ rfl).trans ((hset _ _ _ rfl).trans (hset _ _ _ rfl))

end

theorem le_mono_left {v : Val ℚ} {n : ℤ} (h : Val.le (.int n) v = true) : Val.le (.int n) (roundedVal v) = true := by
  cases v with
  | flt x =>
    have hx : (n : ℚ) ≤ x := of_decide_eq_true h
    exact decide_eq_true (show ((n : ℤ) : Dbl) ≤ Dbl.of x from by rw [int_of]; exact rnd53_mono hx)
  | _ => exact h

theorem le_mono_right {v : Val ℚ} {n : ℤ} (h : Val.le v (.int n) = true) : Val.le (roundedVal v) (.int n) = true := by
  cases v with
  | flt x =>
    have hx : x ≤ (n : ℚ) := of_decide_eq_true h
    exact decide_eq_true (show Dbl.of x ≤ ((n : ℤ) : Dbl) from by rw [int_of]; exact rnd53_mono hx)
  | _ => exact h

theorem pos_mono {v : Val ℚ} (h : Val.lt (.int 0) v = true) : Val.lt (.int 0) (roundedVal v) = true := by
  cases v with
  | flt x =>
    have hx : (0 : ℚ) < x := by simpa using of_decide_eq_true h
    refine decide_eq_true (lt_def.2 ?_)
    have h0 : (((0 : ℤ) : Dbl)).val = 0 := by rw [val_int, Int.cast_zero, rnd53_zero]
    rw [h0]
    exact Fault.rnd_pos hx
  | _ => exact h

/-- What is accepted exactly is accepted in doubles. -/
theorem check_mono (y : ℤ) {f : Fld} (hf : compulsory f = true) {e : Entry ℚ} {d : Entry Dbl} (ht : ∀ f, compulsory f = true → Typed f (e f))
    (hd : ∀ f, compulsory f = true → d f = roundedVal (e f)) (h : (checkMap (exactEnv y) f f e).1 = true) : (checkMap (dblEnv y) f f d).1 = true := by
  have hpos : (checkPositiveValue f e).1 = true → (checkPositiveValue f d).1 = true := by
    unfold checkPositiveValue
    rw [if_pos hf, if_pos hf]
    dsimp only
    rw [hd f hf]
    exact pos_mono
  cases f with
  | eventID | identifier | depth => exact hpos h
  | mw => rfl
  | year =>
    have g := int_field rfl (ht .year rfl)
    simp only [checkMap, checkYear, hd .year rfl] at h ⊢
    rw [(g _).1, (g _).2.1]
    exact h
  | month =>
    have g := int_field rfl (ht .month rfl)
    simp only [checkMap, checkMonth, hd .month rfl] at h ⊢
    rw [(g _).1, (g _).2.1]
    exact h
  | day =>
    have g := int_field rfl (ht .day rfl)
    have g' := int_field rfl (ht .month rfl)
    simp only [checkMap, checkDay, hd .day rfl, hd .month rfl] at h ⊢
    rw [(g _).1, (g _).2.1, (g _).2.1, (g' _).2.2.2]
    exact h
  | hour =>
    have g := int_field rfl (ht .hour rfl)
    simp only [checkMap, checkHour, hd .hour rfl] at h ⊢
    rw [(g _).1, (g _).2.1]
    exact h
  | minute =>
    have g := int_field rfl (ht .minute rfl)
    simp only [checkMap, checkMinute, hd .minute rfl] at h ⊢
    rw [(g _).1, (g _).2.1]
    exact h
  | longitude =>
    simp only [checkMap, checkLongitude, hd .longitude rfl, Bool.and_eq_true] at h ⊢
    exact ⟨le_mono_left h.1, le_mono_right h.2⟩
  | latitude =>
    simp only [checkMap, checkLatitude, hd .latitude rfl, Bool.and_eq_true] at h ⊢
    exact ⟨le_mono_left h.1, le_mono_right h.2⟩
  | _ => cases hf

theorem checks_mono (y : ℤ) (line : ℕ) : ∀ (ks : List Key) {e e' : Entry ℚ} {d : Entry Dbl}, (∀ f, compulsory f = true → Typed f (e f)) → (∀ f, compulsory f = true → d f = roundedVal (e f)) →
    checkValues (exactEnv y) line ks e = .ok e' → ∃ d', checkValues (dblEnv y) line ks d = .ok d' ∧ ∀ f, compulsory f = true → d' f = roundedVal (e' f)
  | [], e, e', d, _, hd, h => by
    cases h
    exact ⟨d, rfl, hd⟩
  | none :: ks, e, e', d, _, _, h => by cases h
  | some f :: ks, e, e', d, ht, hd, h => by
    unfold checkValues at h
    rw [List.foldlM_cons] at h
    obtain ⟨e1, h1, h2⟩ := Nrml.bind_ok h
    have h3 : e1 = (checkMap (exactEnv y) f f e).2 ∧ (compulsory f = true → (checkMap (exactEnv y) f f e).1 = true) := by
      simp only [checkField] at h1
      split_ifs at h1 with g
      · cases h1
        refine ⟨rfl, fun hf => ?_⟩
        simpa [hf] using g
    obtain ⟨rfl, hok⟩ := h3
    obtain ⟨d', g1, g2⟩ := checks_mono y line ks (e := (checkMap (exactEnv y) f f e).2) (e' := e') (d := (checkMap (dblEnv y) f f d).2)
      (fun g hg => by rw [check_keeps _ _ _ hg]; exact ht g hg) (fun g hg => by rw [check_keeps _ _ _ hg, check_keeps _ _ _ hg]; exact hd g hg) h2
    refine ⟨d', ?_, g2⟩
    unfold checkValues
    rw [List.foldlM_cons]
    have h4 : checkField (dblEnv y) line (some f) d = .ok (checkMap (dblEnv y) f f d).2 := by
      simp only [checkField]
      split_ifs with g
      · simp only [Bool.and_eq_true, Bool.not_eq_true'] at g
        rw [check_mono y g.2 ht hd (hok g.2)] at g
        cases g.1
      · rfl
    rw [h4]
    exact g1

/-- The fields a catalogue cannot do without. -/
def Spec.needed : List Fld := [.eventID, .identifier, .year, .month, .day, .hour, .minute, .longitude, .latitude, .depth, .mw]

/-- **C192** (no row is lost). A row that is valid as it stands in the file, with numbers of any length, is accepted in double
precision, with its date, place, depth and magnitude rounded once. -/
theorem C192_accepts (y : ℤ) (ord : DictOrder) (line : ℕ) (cells : List Text) {e : Entry ℚ} (h : readRow (exactEnv y) ord line cells = .ok e) :
    ∃ d, readRow (dblEnv y) ord line cells = .ok d ∧ ∀ f ∈ needed, d f = roundedVal (e f) := by
  have hn : ∀ f ∈ needed, compulsory f = true := by decide
  unfold readRow at h ⊢
  rw [rounded_row]
  simp only [readEntry] at h ⊢
  obtain ⟨h1, h2⟩ := foldlM_map (f := fun e k => convertField (exactEnv y) line k e) (g := fun e k => convertField (dblEnv y) line k e) (r := rounded) (P := fun e => ∀ f, Ready (fun _ => True) f (e f))
    (fun b a hb => ⟨convert_same y line a b, fun b' hb' => convert_ready trivial hb hb'⟩) (ord.keys (rowDict cells : Entry ℚ × Bool).2) (rowDict cells : Entry ℚ × Bool).1
    (ready_row fun _ _ _ _ => trivial)
  obtain ⟨e1, g1, g2⟩ := Nrml.bind_ok h
  unfold convertValues at g1 ⊢
  rw [h1, g1]
  have ht : ∀ f, Typed f (e1 f) := by
    intro f
    have := h2 e1 g1 f
    cases hv : e1 f with
    | none => trivial
    | str s => trivial
    | int i => rw [hv] at this; exact this
    | flt x => rw [hv] at this; exact this.1
  obtain ⟨d, k1, k2⟩ := checks_mono y line _ (fun f _ => ht f) (d := rounded e1) (fun f _ => rfl) g2
  exact ⟨d, k1, fun f hf => k2 f (hn f hf)⟩

/-- The row of the examples meets the hypothesis of the partial theorems, and is accepted. -/
example : (∀ i, 8 ≤ i → ∀ s, exRow[i]? = some s → ShortText s) ∧ (readRow (exactEnv 2012) columnOrder 2 exRow).isOk = true := by
  refine ⟨?_, by decide +kernel⟩
  have key : ∀ s ∈ exRow.drop 8, ((pyFloat (K := ℚ) s).all fun x => decide ((x * 10 ^ 9).den = 1) && decide (|(x * 10 ^ 9).num| ≤ 10 ^ 14)) = true := by decide +kernel
  intro i hi s hs x hx
  have hm : s ∈ exRow.drop 8 := by
    rw [List.mem_iff_getElem?]
    exact ⟨i - 8, by rw [List.getElem?_drop, ← hs]; congr 1; omega⟩
  have := key s hm
  rw [hx] at this
  simp only [Option.all_some, Bool.and_eq_true, decide_eq_true_eq] at this
  refine ⟨(x * 10 ^ 9).num, ?_, this.2⟩
  rw [eq_div_iff (by norm_num)]
  exact ((Rat.den_eq_one_iff _).1 this.1).symm

/-- The row with the long longitude is not within the hypothesis, but the row with a latitude of twenty digits is accepted by both. -/
example : (readRow (exactEnv 2012) columnOrder 2 (exRow.set 11 "44.36800000000000000001".toList)).isOk = true := by decide +kernel

end Verif.EqCatalog
