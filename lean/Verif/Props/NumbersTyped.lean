import Verif.Props.Reading
import Verif.Props.NumberText

/-!
# C219: how numbers are typed in the catalogue and in the completeness table
-/

namespace Verif.Format

open Verif Verif.EqCatalog Spec

namespace Spec

/-- A whole number and its value: white space, sign, at least one digit, white space. -/
def Whole (t : List Char) (i : ℤ) : Prop :=
  ∃ pre sgn ds post s, t = pre ++ sgn ++ ds ++ post ∧ Space pre ∧ Space post ∧ Sign sgn s ∧ Digits ds ∧ ds ≠ [] ∧ i = s * number ds

/-- Two texts for the same whole number, or two texts that are none. -/
def SameWhole (t t' : List Char) : Prop := (∃ i, Whole t i ∧ Whole t' i) ∨ (∀ i, ¬ Whole t i) ∧ ∀ i, ¬ Whole t' i

/-- Two decimal literals for the same number, or two texts that are none. -/
def SameNumber (t t' : List Char) : Prop := (∃ v : ℚ, Literal t v ∧ Literal t' v) ∨ (∀ v : ℚ, ¬ Literal t v) ∧ ∀ v : ℚ, ¬ Literal t' v

end Spec

theorem nat_digits (t : Text) (acc n : ℕ) : Text.digits acc t = some n ↔ Digits t ∧ n = acc * 10 ^ t.length + number t := by
  have h : ∀ (t : Text) (acc : ℕ), Text.digits acc t = digitsVal acc t := by
    intro t
    induction t with
    | nil => exact fun _ => rfl
    | cons c t ih =>
      intro acc
      rw [Text.digits, digitsVal, Text.digit, digitVal]
      by_cases h : 48 ≤ c.toNat ∧ c.toNat ≤ 57
      · rw [if_pos h]
        have h' : '0'.toNat ≤ c.toNat ∧ c.toNat ≤ '9'.toNat := h
        rw [if_pos h']
        exact ih _
      · rw [if_neg h]
        have h' : ¬ ('0'.toNat ≤ c.toNat ∧ c.toNat ≤ '9'.toNat) := h
        rw [if_neg h']
  rw [h, digitsVal_iff]

theorem nat_iff (t : Text) (n : ℕ) : Text.nat? t = some n ↔ Digits t ∧ t ≠ [] ∧ n = number t := by
  unfold Text.nat?
  split
  · next h => simp [h]
  · next h => rw [nat_digits]; simp [h]

/-- **C219**, whole numbers: a text is read by `int` exactly when it is a whole number, and it is read as that number. -/
theorem C219_whole (t : Text) (i : ℤ) : Text.pyInt t = some i ↔ Whole t i := by
  have htrim : Text.trim t = strip t := rfl
  unfold Text.pyInt
  rw [htrim]
  constructor
  · intro h
    obtain ⟨a, b, ha, hb, ht⟩ := strip_decomp t
    rw [blanks_iff, ← space_iff] at ha hb
    split at h
    · next ds hs =>
      cases hn : Text.nat? ds with
      | none => rw [hn] at h; cases h
      | some n =>
      rw [hn] at h
      obtain rfl := Option.some.inj h
      obtain ⟨h1, h2, rfl⟩ := (nat_iff _ _).1 hn
      exact ⟨a, ['-'], ds, b, -1, by rw [ht, hs]; simp, ha, hb, .inr (.inr ⟨rfl, rfl⟩), h1, h2, by simp⟩
    · next ds hs =>
      cases hn : Text.nat? ds with
      | none => rw [hn] at h; cases h
      | some n =>
      rw [hn] at h
      obtain rfl := Option.some.inj h
      obtain ⟨h1, h2, rfl⟩ := (nat_iff _ _).1 hn
      exact ⟨a, ['+'], ds, b, 1, by rw [ht, hs]; simp, ha, hb, .inr (.inl ⟨rfl, rfl⟩), h1, h2, by simp⟩
    · cases hn : Text.nat? (strip t) with
      | none => rw [hn] at h; cases h
      | some n =>
      rw [hn] at h
      obtain rfl := Option.some.inj h
      obtain ⟨h1, h2, rfl⟩ := (nat_iff _ _).1 hn
      exact ⟨a, [], strip t, b, 1, by simpa using ht, ha, hb, .inl ⟨rfl, rfl⟩, h1, h2, by simp⟩
  · rintro ⟨a, sgn, ds, b, s, rfl, ha, hb, hs, hd, hne, rfl⟩
    have hst : strip (a ++ sgn ++ ds ++ b) = sgn ++ ds := by
      have := strip_around a (sgn ++ ds) b ((space_iff _).1 ha) ((space_iff _).1 hb) (by
        intro c hc
        rcases List.mem_append.1 hc with hc | hc
        · rcases hs with ⟨rfl, -⟩ | ⟨rfl, -⟩ | ⟨rfl, -⟩
          · cases hc
          · rw [List.mem_singleton.1 hc]; decide
          · rw [List.mem_singleton.1 hc]; decide
        · exact numChar_not_ws (.inl (hd c hc))) (by simp [hne])
      simpa [List.append_assoc] using this
    rw [hst]
    have hn := (nat_iff ds (number ds)).2 ⟨hd, hne, rfl⟩
    rcases hs with ⟨rfl, rfl⟩ | ⟨rfl, rfl⟩ | ⟨rfl, rfl⟩
    · obtain ⟨c, cs, rfl⟩ := List.exists_cons_of_ne_nil hne
      have h1 := ne_of_isDigit (hd c List.mem_cons_self) minus_not_digit
      have h2 := ne_of_isDigit (hd c List.mem_cons_self) plus_not_digit
      rw [List.nil_append]
      split
      · next h => exact absurd (List.cons.inj h).1 h1
      · next h => exact absurd (List.cons.inj h).1 h2
      · rw [hn]; simp
    · simp [hn]
    · simp [hn]

theorem sameWhole_iff {t t' : Text} (h : SameWhole t t') : Text.pyInt t = Text.pyInt t' := by
  rcases h with ⟨i, h, h'⟩ | ⟨h, h'⟩
  · rw [(C219_whole t i).2 h, (C219_whole t' i).2 h']
  · have key : ∀ t : Text, (∀ i, ¬ Whole t i) → Text.pyInt t = none := fun t h => Option.eq_none_iff_forall_ne_some.2 fun i hi => h i ((C219_whole t i).1 hi)
    rw [key t h, key t' h']

theorem sameNumber_iff {t t' : Text} (h : SameNumber t t') : floatDbl t = floatDbl t' := by
  unfold floatDbl
  rcases h with ⟨i, h, h'⟩ | ⟨h, h'⟩
  · rw [(C140_read t i).2 h, (C140_read t' i).2 h']
  · have key : ∀ t : Text, (∀ i, ¬ Literal t i) → pyFloat (K := ℚ) t = none := fun t h => Option.eq_none_iff_forall_ne_some.2 fun i hi => h i ((C140_read t i).1 hi)
    rw [key t h, key t' h']

end Verif.Format

namespace Verif.EqCatalog

open Verif Verif.Format Verif.Format.Spec

namespace Spec

/-- Cells of a column that say the same: the agency is a text, the identifiers, the date, the hour and the minute are whole numbers, all others are numbers. -/
def SameCell (column : ℕ) (t t' : Text) : Prop :=
  t = t' ∨ column ∈ [0, 2, 3, 4, 5, 6, 7] ∧ SameWhole t t' ∨ column ∈ [8, 9, 10, 11, 12, 13, 14, 15, 16, 17, 18, 19, 20, 21, 22, 23, 24] ∧ SameNumber t t'

/-- Rows of as many cells, which say the same. -/
def SameRow (r r' : List Text) : Prop := r.length = r'.length ∧ ∀ i t t', r[i]? = some t → r'[i]? = some t' → SameCell i t t'

end Spec

open Spec

section
variable {F : Type} [PyNum F]

/-- Values of a column that are converted to the same. -/
def Alike (env : Env F) (f : Fld) (v v' : Val F) : Prop :=
  v = v' ∨ ∃ s s', v = .str s ∧ v' = .str s' ∧ (conv f = .toInt ∧ env.parseInt s = env.parseInt s' ∨ conv f = .toFloat ∧ env.parseFloat s = env.parseFloat s')

omit [PyNum F] in
theorem convert_alike (env : Env F) (line : Nat) (ks : List Key) (e e' : Entry F) (h : ∀ f, Alike env f (e f) (e' f)) (hd : ∀ f, some f ∉ ks → e f = e' f) :
    convertValues env line ks e = convertValues env line ks e' := by
  unfold convertValues
  induction ks generalizing e e' with
  | nil =>
    have : e = e' := funext fun f => hd f (by simp)
    rw [this]
  | cons k ks ih =>
    rw [List.foldlM_cons, List.foldlM_cons]
    cases k with
    | none =>
      simp only [convertField, bind, Except.bind]
      exact ih e e' h fun f hf => hd f (by simp [hf])
    | some f =>
      have same : ∀ v, convertField env line (some f) e = .ok (e.set f v) → convertField env line (some f) e' = .ok (e'.set f v) →
          (convertField env line (some f) e >>= fun e => ks.foldlM (fun e k => convertField env line k e) e) =
            (convertField env line (some f) e' >>= fun e => ks.foldlM (fun e k => convertField env line k e) e) := by
        intro v h1 h2
        rw [h1, h2]
        refine ih _ _ (fun g => ?_) fun g hg => ?_
        · unfold Entry.set
          split
          · exact .inl rfl
          · exact h g
        · unfold Entry.set
          split
          · rfl
          · next hne => exact hd g (by simp [hne, hg])
      have kept : e f = e' f → convertField env line (some f) e = .ok e → convertField env line (some f) e' = .ok e' →
          (convertField env line (some f) e >>= fun e => ks.foldlM (fun e k => convertField env line k e) e) =
            (convertField env line (some f) e' >>= fun e => ks.foldlM (fun e k => convertField env line k e) e) := by
        intro h0 h1 h2
        have hs : ∀ e : Entry F, e.set f (e f) = e := fun e => funext fun g => by
          unfold Entry.set
          split
          · next h => rw [h]
          · rfl
        exact same (e f) (by rw [hs, h1]) (by rw [h0, hs, h2])
      have failed : ∀ err, convertField env line (some f) e = .error err → convertField env line (some f) e' = .error err →
          (convertField env line (some f) e >>= fun e => ks.foldlM (fun e k => convertField env line k e) e) =
            (convertField env line (some f) e' >>= fun e => ks.foldlM (fun e k => convertField env line k e) e) := by
        intro err h1 h2
        rw [h1, h2]
      rcases h f with h0 | ⟨s, s', hs, hs', ⟨hc, hp⟩ | ⟨hc, hp⟩⟩
      · cases hc : conv f with
        | keep => exact kept h0 (by simp only [convertField, hc]) (by simp only [convertField, hc])
        | toInt =>
          cases hv : e f with
          | str s =>
            cases hi : env.parseInt s with
            | some i => exact same (.int i) (by simp only [convertField, hc, hv, hi]) (by simp only [convertField, hc, ← h0, hv, hi])
            | none => exact failed (.eqValidation f.name line) (by simp only [convertField, hc, hv, hi]) (by simp only [convertField, hc, ← h0, hv, hi])
          | none => exact failed .typeError (by simp only [convertField, hc, hv]) (by simp only [convertField, hc, ← h0, hv])
          | int i => exact kept h0 (by simp only [convertField, hc, hv]) (by simp only [convertField, hc, ← h0, hv])
          | flt x => exact kept h0 (by simp only [convertField, hc, hv]) (by simp only [convertField, hc, ← h0, hv])
        | toFloat =>
          cases hv : e f with
          | str s =>
            cases hi : env.parseFloat s with
            | some i => exact same (.flt i) (by simp only [convertField, hc, hv, hi]) (by simp only [convertField, hc, ← h0, hv, hi])
            | none =>
              cases hk : compulsory f with
              | true => exact failed .typeError (by simp [convertField, hc, hv, hi, hk]) (by simp [convertField, hc, ← h0, hv, hi, hk])
              | false => exact same blank (by simp [convertField, hc, hv, hi, hk]) (by simp [convertField, hc, ← h0, hv, hi, hk])
          | none => exact failed .typeError (by simp only [convertField, hc, hv]) (by simp only [convertField, hc, ← h0, hv])
          | int i => exact kept h0 (by simp only [convertField, hc, hv]) (by simp only [convertField, hc, ← h0, hv])
          | flt x => exact kept h0 (by simp only [convertField, hc, hv]) (by simp only [convertField, hc, ← h0, hv])
      · cases hi : env.parseInt s with
        | some i => exact same (.int i) (by simp only [convertField, hc, hs, hi]) (by simp only [convertField, hc, hs', ← hp, hi])
        | none => exact failed (.eqValidation f.name line) (by simp only [convertField, hc, hs, hi]) (by simp only [convertField, hc, hs', ← hp, hi])
      · cases hi : env.parseFloat s with
        | some i => exact same (.flt i) (by simp only [convertField, hc, hs, hi]) (by simp only [convertField, hc, hs', ← hp, hi])
        | none =>
          cases hk : compulsory f with
          | true => exact failed .typeError (by simp [convertField, hc, hs, hi, hk]) (by simp [convertField, hc, hs', ← hp, hi, hk])
          | false => exact same blank (by simp [convertField, hc, hs, hi, hk]) (by simp [convertField, hc, hs', ← hp, hi, hk])

end

theorem column_conv (f : Fld) : (fieldNames.idxOf f ∈ [0, 2, 3, 4, 5, 6, 7] → conv f = .toInt) ∧
    (fieldNames.idxOf f ∈ [8, 9, 10, 11, 12, 13, 14, 15, 16, 17, 18, 19, 20, 21, 22, 23, 24] → conv f = .toFloat) := by
  cases f <;> decide

theorem key_mem (b : Bool) (f : Fld) : some f ∈ rowKeys b := by
  cases b <;> cases f <;> decide

/-- **C219**: a row is read in the same way however its numbers are typed. -/
theorem C219_row (y : ℤ) (ord : DictOrder) (line : ℕ) (r r' : List Text) (h : SameRow r r') : readRow (Csv.dblEnv y) ord line r = readRow (Csv.dblEnv y) ord line r' := by
  unfold readRow rowDict readEntry
  simp only
  rw [h.1]
  congr 1
  refine convert_alike _ _ _ _ _ (fun f => ?_) fun f hf => absurd ((ord.perm _).mem_iff.2 (key_mem _ f)) hf
  cases h1 : r[fieldNames.idxOf f]? with
  | none =>
    have : r'[fieldNames.idxOf f]? = none := by
      rw [List.getElem?_eq_none_iff] at h1 ⊢
      rwa [← h.1]
    rw [this]
    exact .inl rfl
  | some t =>
    cases h2 : r'[fieldNames.idxOf f]? with
    | none =>
      rw [List.getElem?_eq_none_iff, ← h.1, ← List.getElem?_eq_none_iff, h1] at h2
      cases h2
    | some t' =>
      rcases h.2 _ t t' h1 h2 with rfl | ⟨hm, hs⟩ | ⟨hm, hs⟩
      · exact .inl rfl
      · exact .inr ⟨t, t', rfl, rfl, .inl ⟨(column_conv f).1 hm, sameWhole_iff hs⟩⟩
      · exact .inr ⟨t, t', rfl, rfl, .inr ⟨(column_conv f).2 hm, sameNumber_iff hs⟩⟩

/-- **C219**: a catalogue is read in the same way however its numbers are typed. -/
theorem C219_rows (y : ℤ) (ord : DictOrder) (rows rows' : List (List Text)) (h : List.Forall₂ SameRow rows rows') :
    readEqCatalog (Csv.dblEnv y) ord rows = readEqCatalog (Csv.dblEnv y) ord rows' := by
  unfold readEqCatalog
  have hf : List.Forall₂ SameRow (rows.filter fun r => r ≠ []) (rows'.filter fun r => r ≠ []) := by
    induction h with
    | nil => exact .nil
    | @cons r r' rows rows' h _ ih =>
      have : r ≠ [] ↔ r' ≠ [] := by rw [← List.length_pos_iff, ← List.length_pos_iff, h.1]
      by_cases hr : r = []
      · simpa [hr, show r' = [] from by simpa [hr] using this.symm] using ih
      · have hr' := this.1 hr
        rw [List.filter_cons_of_pos (by simpa using hr), List.filter_cons_of_pos (by simpa using hr')]
        exact .cons h ih
  generalize rows.filter (fun r => r ≠ []) = a at hf
  generalize rows'.filter (fun r => r ≠ []) = b at hf
  generalize 2 = n
  induction hf generalizing n with
  | nil => rfl
  | cons h _ ih => rw [readRows, readRows, C219_row y ord n _ _ h, ih]

end Verif.EqCatalog

namespace Verif.Table

open Verif Verif.EqCatalog Verif.Format Verif.Format.Spec Spec

/-- **C219**: a completeness table is read in the same way however its numbers are typed. -/
theorem C219_table (nan : Dbl) {t t' : Text} {rows rows' : List (List Text)} (h : Contains t rows) (h' : Contains t' rows') (hs : List.Forall₂ (List.Forall₂ SameNumber) rows rows') :
    loadTable floatDbl nan t = loadTable floatDbl nan t' := by
  unfold loadTable genFromTxt
  rw [contains_eq h, contains_eq h']
  clear h h'
  have hrow : ∀ {r r' : List Text}, List.Forall₂ SameNumber r r' → r.map (loose floatDbl nan) = r'.map (loose floatDbl nan) := by
    intro r r' h
    induction h with
    | nil => rfl
    | cons h _ ih => rw [List.map_cons, List.map_cons, ih, loose, loose, sameNumber_iff h]
  cases hs with
  | nil => rfl
  | @cons r r' rs rs' h0 hs =>
    have hall : (rs.all fun q => decide (q.length = r.length)) = rs'.all fun q => decide (q.length = r'.length) := by
      induction hs with
      | nil => rfl
      | cons hh _ ih => rw [List.all_cons, List.all_cons, ih, hh.length_eq, h0.length_eq]
    have hval : (r :: rs).flatten.map (loose floatDbl nan) = (r' :: rs').flatten.map (loose floatDbl nan) := by
      rw [List.flatten_cons, List.flatten_cons, List.map_append, List.map_append, hrow h0]
      congr 1
      clear hall
      induction hs with
      | nil => rfl
      | cons hh _ ih => rw [List.flatten_cons, List.flatten_cons, List.map_append, List.map_append, hrow hh, ih]
    simp only [hall, hval]

end Verif.Table

namespace Verif.Workflow

open Verif Verif.EqCatalog Verif.Csv Verif.Nrml Verif.Declustering Verif.Recurrence Verif.MaxMag Verif.Format Spec

/-- **C219** for whole runs in double precision: two runs whose catalogues and completeness tables hold the same numbers, typed in different ways. -/
theorem C219_run [Libm] (x : Ext Dbl) (y : ℤ) (hx : x.env = dblEnv y) (hf : x.nums.float = floatDbl) (cfg : Config Dbl) (fs fs' : Text → Option Content) (pos : Nat)
    (hc : ∃ rows rows' t t', fs cfg.eqCatalogFile = some (.text t) ∧ fs' cfg.eqCatalogFile = some (.text t') ∧ SaysCatalogue rows t ∧ SaysCatalogue rows' t' ∧
      List.Forall₂ EqCatalog.Spec.SameRow rows rows')
    (hm : ∀ q, Configured cfg.sourceModelFile → cfg.sourceModelFile = some q → fs q = fs' q)
    (ht : ∀ q, UsesTable cfg → cfg.completenessTableFile = some q → ∃ rows rows' t t', fs q = some (.text t) ∧ fs' q = some (.text t') ∧ Table.Spec.Contains t rows ∧
      Table.Spec.Contains t' rows' ∧ List.Forall₂ (List.Forall₂ Format.Spec.SameNumber) rows rows')
    (o : Outcome Dbl) (ho : main x cfg fs pos = some o) :
    ∃ o', main x cfg fs' pos = some o' ∧ o'.raised = o.raised ∧ o'.world.ctx = o.world.ctx ∧ o'.world.pos = o.world.pos ∧
      ∀ q, (Output cfg q ∧ o'.world.fs q = o.world.fs q) ∨ (o.world.fs q = fs q ∧ o'.world.fs q = fs' q) := by
  refine C218_reading x cfg fs fs' pos ⟨?_, fun q h1 h2 => by rw [hm q h1 h2], fun q h1 h2 => ?_⟩ o ho
  · obtain ⟨rows, rows', t, t', e, e', h, h', hs⟩ := hc
    rw [e, e', reads_catalogue x h, reads_catalogue x h', hx]
    exact C219_rows y x.ord rows rows' hs
  · obtain ⟨rows, rows', t, t', e, e', h, h', hs⟩ := ht q h1 h2
    rw [e, e']
    show Table.loadTable _ _ t = Table.loadTable _ _ t'
    rw [hf]
    exact Table.C219_table x.nan h h' hs

/-- The rows of `in205` with numbers typed in other ways. -/
def in219 : List (List Text) := [(rowDbl205 "+1980" " 40." "45e-1").set 19 "unknown".toList, rowDbl205 " 01985 " "4.0E1" "3.30", rowDbl205 "1990" "+040.00" "4.1"]

def lines219 (rows : List (List Text)) : List (Text × Text) := rows.map fun r => (Csv.Spec.commas r, "\r\n".toList)

theorem says_lines {rows : List (List Text)} (hp : ∀ r ∈ rows, (∀ c ∈ r, Csv.Spec.PlainCell c) ∧ r ≠ [] ∧ Csv.Spec.commas r ≠ [])
    (hv : validateCsvCatalog (fileDbl205 rows) = .ok ((lines219 rows).flatMap (fun l => l.1 ++ l.2) ++ [])) : SaysCatalogue rows (fileDbl205 rows) := by
  obtain ⟨line, h1, h2⟩ := (C01_header_gate _ _).1 hv
  refine ⟨line, _, [], rows, h1, h2, ?_, .inl ⟨rfl, (List.filter_eq_self.2 fun r hr => by simpa using (hp r hr).2.1).symm⟩⟩
  unfold lines219
  rw [List.forall₂_map_right_iff, List.forall₂_same]
  exact fun r hr => ⟨.inl ⟨r, (hp r hr).2.1, List.forall₂_same.2 fun c hc => .inl ⟨(hp r hr).1 c hc, rfl⟩, rfl, (hp r hr).2.2⟩, .inr rfl⟩

instance : DecidablePred Csv.Spec.PlainCell := fun t => by unfold Csv.Spec.PlainCell Csv.Spec.Cell; infer_instance

theorem says219 : SaysCatalogue in205 (fileDbl205 in205) ∧ SaysCatalogue in219 (fileDbl205 in219) :=
  ⟨says_lines (by decide +kernel) (by decide +kernel), says_lines (by decide +kernel) (by decide +kernel)⟩

theorem sameWhole_of {t t' : Text} (h : Text.pyInt t = Text.pyInt t') : Format.Spec.SameWhole t t' := by
  cases ht : Text.pyInt t with
  | some i => exact .inl ⟨i, (Format.C219_whole t i).1 ht, (Format.C219_whole t' i).1 (h ▸ ht)⟩
  | none => exact .inr ⟨fun i hi => (by rw [(Format.C219_whole t i).2 hi] at ht; cases ht), fun i hi => by rw [h, (Format.C219_whole t' i).2 hi] at ht; cases ht⟩

theorem sameNumber_of {t t' : Text} (h : pyFloat (K := ℚ) t = pyFloat t') : Format.Spec.SameNumber t t' := by
  cases ht : pyFloat (K := ℚ) t with
  | some i => exact .inl ⟨i, (Format.C140_read t i).1 ht, (Format.C140_read t' i).1 (h ▸ ht)⟩
  | none => exact .inr ⟨fun i hi => (by rw [(Format.C140_read t i).2 hi] at ht; cases ht), fun i hi => by rw [h, (Format.C140_read t' i).2 hi] at ht; cases ht⟩

theorem sameRow_of {r r' : List Text} (hl : r.length = r'.length) (h : (List.range r.length).all (fun i => r[i]? = r'[i]? ∨
    i ∈ [0, 2, 3, 4, 5, 6, 7] ∧ (r[i]?.bind Text.pyInt) = (r'[i]?.bind Text.pyInt) ∨
    i ∈ [8, 9, 10, 11, 12, 13, 14, 15, 16, 17, 18, 19, 20, 21, 22, 23, 24] ∧ (r[i]?.bind (pyFloat (K := ℚ))) = (r'[i]?.bind pyFloat)) = true) : EqCatalog.Spec.SameRow r r' := by
  refine ⟨hl, fun i t t' h1 h2 => ?_⟩
  have hi : i < r.length := by
    rw [List.getElem?_eq_some_iff] at h1
    exact h1.1
  have := List.all_eq_true.1 h i (List.mem_range.2 hi)
  rw [h1, h2] at this
  rcases of_decide_eq_true this with h | ⟨h, h'⟩ | ⟨h, h'⟩
  · exact .inl (Option.some.inj h)
  · exact .inr (.inl ⟨h, sameWhole_of h'⟩)
  · exact .inr (.inr ⟨h, sameNumber_of h'⟩)

theorem sameRows219 : List.Forall₂ EqCatalog.Spec.SameRow in205 in219 :=
  .cons (sameRow_of (by decide) (by decide +kernel)) (.cons (sameRow_of (by decide) (by decide +kernel)) (.cons (sameRow_of (by decide) (by decide +kernel)) .nil))

/-- The completeness table with numbers typed in other ways. -/
def table219 : Text := "1980,33e-1\n+1970.00, 3.9\n".toList

def fs219 : Text → Option Content := fun n =>
  if n = ['c'] then some (.text (fileDbl205 in219)) else if n = ['q'] then some (.text table219) else fsDbl205 in205 n

/-- Non-vacuity of C219: a run in double precision that ends normally, and the same with numbers typed in other ways. -/
example : ∃ w w', @main Dbl (@instPyMathDbl plainLibm) xDbl205 cfgDbl205 (fsDbl205 in205) 0 = some ⟨none, w⟩ ∧ @main Dbl (@instPyMathDbl plainLibm) xDbl205 cfgDbl205 fs219 0 = some ⟨none, w'⟩ ∧
    w'.ctx = w.ctx ∧ fsDbl205 in205 ['c'] ≠ fs219 ['c'] ∧ fsDbl205 in205 ['q'] ≠ fs219 ['q'] := by
  let _ := plainLibm
  obtain ⟨w, h⟩ := runDbl205
  have cat : fsDbl205 in205 ['c'] = some (.text (fileDbl205 in205)) := by rw [fsDbl205, if_pos rfl]
  have cat' : fs219 ['c'] = some (.text (fileDbl205 in219)) := by rw [fs219, if_pos rfl]
  have tab : fsDbl205 in205 ['q'] = some (.text "1980.0,3.3\n1970.0,3.9\n".toList) := by rw [fsDbl205, if_neg (by decide), if_neg (by decide), if_pos rfl]
  have tab' : fs219 ['q'] = some (.text table219) := by rw [fs219, if_neg (by decide), if_pos rfl]
  have model : fsDbl205 in205 ['m'] = fs219 ['m'] := by rw [fs219, if_neg (by decide), if_neg (by decide)]
  obtain ⟨⟨e', w'⟩, h1, h2, h3, -⟩ := C219_run xDbl205 2012 rfl rfl cfgDbl205 (fsDbl205 in205) fs219 0 ⟨in205, in219, fileDbl205 in205, fileDbl205 in219, cat, cat', says219.1, says219.2, sameRows219⟩
    (fun q _ hq => by cases hq; exact model)
    (fun q _ hq => by
      cases hq
      refine ⟨_, _, _, _, tab, tab', contains_self _, contains_self _, ?_⟩
      rw [show ((Table.lines (Table.universal "1980.0,3.3\n1970.0,3.9\n".toList)).map Table.splitLine).filter (fun r => r ≠ []) =
          [["1980.0".toList, "3.3".toList], ["1970.0".toList, "3.9".toList]] from by decide +kernel,
        show ((Table.lines (Table.universal table219)).map Table.splitLine).filter (fun r => r ≠ []) =
          [["1980".toList, "33e-1".toList], ["+1970.00".toList, " 3.9".toList]] from by decide +kernel]
      exact .cons (.cons (sameNumber_of (by decide +kernel)) (.cons (sameNumber_of (by decide +kernel)) .nil))
        (.cons (.cons (sameNumber_of (by decide +kernel)) (.cons (sameNumber_of (by decide +kernel)) .nil)) .nil)) _ h
  simp only at h2
  subst h2
  rw [cat, cat', tab, tab']
  exact ⟨w, w', h, h1, h3, fun hh => absurd (Content.text.inj (Option.some.inj hh)) (by decide +kernel), fun hh => absurd (Content.text.inj (Option.some.inj hh)) (by decide +kernel)⟩

end Verif.Workflow
