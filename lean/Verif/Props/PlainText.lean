import Verif.Props.Csv

/-!
# C146: catalogues written by hand; C147: no line is lost; C148: files cut off
-/

namespace Verif.Csv

open Verif Verif.EqCatalog Verif.EqCatalog.Spec

namespace Spec

/-- A cell of a csv file: no NUL and not longer than the csv module allows. -/
def Cell (t : Text) : Prop := '\x00' ∉ t ∧ t.length ≤ 131072

/-- A cell that can be written as it is: no comma, no line break, and no quote at its beginning. -/
def PlainCell (t : Text) : Prop := Cell t ∧ ',' ∉ t ∧ '\n' ∉ t ∧ '\r' ∉ t ∧ t.head? ≠ some '"'

/-- A text with its quotes doubled. -/
def doubled (t : Text) : Text := t.flatMap fun c => if c = '"' then ['"', '"'] else [c]

/-- The ways to write a cell: as it is; between quotes with its own quotes doubled; or with its beginning between quotes and the rest as it is. -/
def Writes (t s : Text) : Prop :=
  PlainCell t ∧ s = t ∨ Cell t ∧ s = ['"'] ++ doubled t ++ ['"'] ∨
    ∃ a b, t = a ++ b ∧ Cell a ∧ PlainCell b ∧ Cell t ∧ s = ['"'] ++ doubled a ++ ['"'] ++ b

/-- Texts separated by commas. -/
def commas (cells : List Text) : Text := [','].intercalate cells

/-- A line with these cells (possibly without any character, which is no row at all). -/
def WritesLine (cells : List Text) (line : Text) : Prop :=
  (∃ ss, cells ≠ [] ∧ List.Forall₂ Writes cells ss ∧ line = commas ss ∧ line ≠ []) ∨ cells = [] ∧ line = []

/-- The ways to end a line. -/
def LineEnd (e : Text) : Prop := e = ['\n'] ∨ e = ['\r', '\n']

/-- A line without any character but carriage returns. -/
def Blank (line : Text) : Prop := ∀ c ∈ line, c = '\r'

instance (line : Text) : Decidable (Blank line) := inferInstanceAs (Decidable (∀ c ∈ line, c = '\r'))

/-- The lines of a text. -/
def lines (t : Text) : List Text := t.splitOn '\n'

end Spec

open Spec

theorem doubled_eq (t : Text) : doubled t = escape t := by
  induction t with
  | nil => rfl
  | cons c t ih =>
    rw [escape, ← ih]
    unfold doubled
    rw [List.flatMap_cons]
    split_ifs <;> rfl

/-! ### C146 -/

theorem parse_inField (t rest : Text) (h0 : '\x00' ∉ t) (h1 : ',' ∉ t) (h2 : '\n' ∉ t) (h3 : '\r' ∉ t) (fs : List Text) (u : Text)
    (hl : u.length + t.length ≤ fieldLimit) (m : Bool) :
    parse ⟨.inField, fs, u⟩ m (t ++ rest) = parse ⟨.inField, fs, u ++ t⟩ (m || !t.isEmpty) rest := by
  induction t generalizing u m with
  | nil => simp
  | cons d t ih =>
    simp only [List.mem_cons, not_or] at h0 h1 h2 h3
    have e0 : d ≠ '\x00' := fun h => h0.1 h.symm
    have e1 : d ≠ ',' := fun h => h1.1 h.symm
    have e2 : d ≠ '\n' := fun h => h2.1 h.symm
    have e3 : d ≠ '\r' := fun h => h3.1 h.symm
    have hnl : isNl d = false := by simp [isNl, e2, e3]
    rw [List.cons_append, parse, procChar_of (p' := ⟨.inField, fs, u ++ [d]⟩) e0 (by simp [proc, hnl, e1, Parser.add]) (by simp at hl ⊢; omega)]
    simp only [if_neg e2]
    rw [ih h0.2 h1.2 h2.2 h3.2 _ (by simp at hl ⊢; omega)]
    simp

/-- The parser after a cell written as it is. -/
theorem parse_plainCell {t : Text} (h : PlainCell t) (rest : Text) (p : Parser) (hp : AtField p) (m : Bool) :
    parse p m (t ++ rest) = parse ⟨if t = [] then p.st else .inField, p.fields, t⟩ (m || !t.isEmpty) rest := by
  obtain ⟨hst, hcur⟩ := hp
  obtain ⟨st, fs, cur⟩ := p
  simp only at hst hcur
  subst hcur
  cases t with
  | nil => simp
  | cons d t =>
    obtain ⟨⟨h0, hl⟩, h1, h2, h3, h5⟩ := h
    simp only [List.mem_cons, not_or] at h0 h1 h2 h3
    have e0 : d ≠ '\x00' := fun h => h0.1 h.symm
    have e1 : d ≠ ',' := fun h => h1.1 h.symm
    have e2 : d ≠ '\n' := fun h => h2.1 h.symm
    have e3 : d ≠ '\r' := fun h => h3.1 h.symm
    have e5 : d ≠ '"' := fun h => h5 (by simp [h])
    have hnl : isNl d = false := by simp [isNl, e2, e3]
    have hc : procChar ⟨st, fs, []⟩ d = .ok ⟨.inField, fs, [d]⟩ := by
      refine procChar_of e0 ?_ (by simp [fieldLimit])
      rcases hst with rfl | rfl <;>
        simp [proc, procStartField, hnl, e5, e1, Parser.add]
    rw [List.cons_append, parse, hc]
    simp only [if_neg e2]
    rw [parse_inField t rest h0.2 h1.2 h2.2 h3.2 _ _ (by simp [fieldLimit] at hl ⊢; omega)]
    simp

/-- The opening quote. -/
theorem parse_quote (p : Parser) (hp : AtField p) (m : Bool) (rest : Text) : parse p m ('"' :: rest) = parse ⟨.inQuoted, p.fields, []⟩ true rest := by
  obtain ⟨hst, hcur⟩ := hp
  obtain ⟨st, fs, cur⟩ := p
  simp only at hst hcur
  subst hcur
  rw [parse, procChar_of (p' := ⟨.inQuoted, fs, []⟩) (by decide) (by rcases hst with rfl | rfl <;> rfl) (Nat.zero_le _)]
  simp only
  rw [if_neg (by decide)]

/-- The parser after a written cell. -/
theorem parse_cell {t s : Text} (h : Writes t s) (rest : Text) (p : Parser) (hp : AtField p) (m : Bool) :
    (∃ st m', parse p m (s ++ rest) = parse ⟨st, p.fields, t⟩ m' rest ∧
      ((st = .inField ∨ st = .quoteInQuoted) ∧ s ≠ [] ∧ m' = true ∨ st = p.st ∧ t = [] ∧ s = [] ∧ m' = m)) := by
  have quoted : ∀ (t rest : Text), Cell t → parse p m ((['"'] ++ doubled t ++ ['"']) ++ rest) = parse ⟨.quoteInQuoted, p.fields, t⟩ true rest := by
    intro t rest h
    rw [doubled_eq, List.append_assoc, List.append_assoc, List.singleton_append, parse_quote p hp, List.singleton_append, parse_escape t rest h.1 _ _ (by simpa [fieldLimit] using h.2),
      parse, procChar_of (p' := ⟨.quoteInQuoted, p.fields, t⟩) (by decide) (by simp [proc]) h.2]
    simp only
    rw [if_neg (by decide)]
  rcases h with ⟨h, rfl⟩ | ⟨h, rfl⟩ | ⟨a, b, rfl, ha, hb, h, rfl⟩
  · rw [parse_plainCell h rest p hp]
    refine ⟨_, _, rfl, ?_⟩
    by_cases ht : s = []
    · right; simp [ht]
    · left; simp [ht]
  · exact ⟨.quoteInQuoted, true, quoted t rest h, .inl ⟨.inr rfl, by simp, rfl⟩⟩
  · rw [List.append_assoc, quoted a (b ++ rest) ha]
    cases b with
    | nil => exact ⟨.quoteInQuoted, true, by simp, .inl ⟨.inr rfl, by simp, rfl⟩⟩
    | cons d b =>
      refine ⟨.inField, true, ?_, .inl ⟨.inl rfl, by simp, rfl⟩⟩
      obtain ⟨⟨h0, -⟩, h1, h2, h3, h5⟩ := hb
      have hl := h.2
      simp only [List.mem_cons, not_or] at h0 h1 h2 h3
      have e0 : d ≠ '\x00' := fun h => h0.1 h.symm
      have e1 : d ≠ ',' := fun h => h1.1 h.symm
      have e2 : d ≠ '\n' := fun h => h2.1 h.symm
      have e3 : d ≠ '\r' := fun h => h3.1 h.symm
      have e5 : d ≠ '"' := fun h => h5 (by simp [h])
      have hnl : isNl d = false := by simp [isNl, e2, e3]
      rw [List.cons_append, parse, procChar_of (p' := ⟨.inField, p.fields, a ++ [d]⟩) e0 (by simp [proc, hnl, e1, e5, Parser.add]) (by simp [fieldLimit] at hl ⊢; omega)]
      simp only [if_neg e2]
      rw [parse_inField b rest h0.2 h1.2 h2.2 h3.2 _ _ (by simp [fieldLimit] at hl ⊢; omega)]
      simp

/-- The parser at the end of a line. -/
theorem parse_cells {cells ss : List Text} (hne : cells ≠ []) (h : List.Forall₂ Writes cells ss) (rest : Text) (p : Parser) (hp : AtField p) (m : Bool) :
    ∃ s m', parse p m (commas ss ++ rest) = parse s m' rest ∧ s.fields ++ [s.cur] = p.fields ++ cells ∧
      ((s.st = .inField ∨ s.st = .startField ∨ s.st = .quoteInQuoted) ∧ m' = true ∧ commas ss ≠ [] ∨ s = p ∧ cells = [[]] ∧ commas ss = [] ∧ m' = m) := by
  induction h generalizing p m with
  | nil => exact absurd rfl hne
  | @cons c x cs xs hc hcs ih =>
    obtain ⟨st, m1, h1, hst⟩ := parse_cell hc (match xs with | [] => rest | y :: ys => ',' :: (commas (y :: ys) ++ rest)) p hp m
    cases hcs with
    | nil =>
      refine ⟨⟨st, p.fields, c⟩, m1, ?_, rfl, ?_⟩
      · rw [← h1]
        simp [commas, List.intercalate]
      · rcases hst with ⟨h, hx, rfl⟩ | ⟨rfl, rfl, rfl, rfl⟩
        · left
          refine ⟨?_, rfl, by simpa [commas, List.intercalate] using hx⟩
          tauto
        · right
          obtain ⟨st, fs, cur⟩ := p
          obtain ⟨-, h⟩ := hp
          simp only at h
          simp [h, commas, List.intercalate]
    | @cons d y ds ys hd hds =>
      have e : commas (x :: y :: ys) ++ rest = x ++ ',' :: (commas (y :: ys) ++ rest) := by simp [commas, List.intercalate]
      have hcomma : ∀ r : Text, parse ⟨st, p.fields, c⟩ m1 (',' :: r) = parse ⟨.startField, p.fields ++ [c], []⟩ true r := by
        intro r
        rw [parse]
        have : procChar ⟨st, p.fields, c⟩ ',' = .ok ⟨.startField, p.fields ++ [c], []⟩ := by
          refine procChar_of (by decide) ?_ (Nat.zero_le _)
          rcases hst with ⟨rfl | rfl, -⟩ | ⟨rfl, rfl, -⟩
          · rfl
          · rfl
          · rcases hp.1 with hs | hs <;> rw [hs] <;> rfl
        rw [this]
        simp only
        rw [if_neg (by decide)]
      obtain ⟨s, m', h2, h3, h4⟩ := ih (by simp) ⟨.startField, p.fields ++ [c], []⟩ ⟨.inr rfl, rfl⟩ true
      refine ⟨s, m', ?_, by rw [h3]; simp, .inl ?_⟩
      · rw [e, h1, hcomma, h2]
      · have hne' : commas (x :: y :: ys) ≠ [] := by simp [commas, List.intercalate]
        rcases h4 with h4 | ⟨rfl, -, -, rfl⟩
        · exact ⟨h4.1, h4.2.1, hne'⟩
        · exact ⟨.inr (.inl rfl), rfl, hne'⟩

/-- One line and its end. -/
theorem parse_line {cells : List Text} {line : Text} (h : WritesLine cells line) {e : Text} (he : LineEnd e) (rest : Text) :
    csvRows (line ++ (e ++ rest)) = (cells :: (csvRows rest).1, (csvRows rest).2) := by
  rcases h with ⟨ss, hne, h, rfl, hl⟩ | ⟨rfl, rfl⟩
  · obtain ⟨s, m', h1, h2, h3⟩ := parse_cells hne h (e ++ rest) .init ⟨.inl rfl, rfl⟩ false
    rw [csvRows, h1]
    have h2' : cells = s.fields ++ [s.cur] := by simpa [Parser.init] using h2.symm
    obtain ⟨st, fs, cur⟩ := s
    simp only at h2' h3
    rcases h3 with ⟨h3, rfl, hc⟩ | ⟨-, -, hc, -⟩
    · rcases he with rfl | rfl <;> rcases h3 with rfl | rfl | rfl <;>
        simp [parse, procChar, proc, procStartField, isNl, Parser.save, csvRows, h2']
    · exact absurd hc hl
  · rcases he with rfl | rfl <;> simp [parse, procChar, proc, isNl, Parser.init, csvRows]

/-- **C146**: a text whose lines consist of cells separated by commas, each written as it is, between quotes, or between quotes
and continued as it is, is read line by line and cell by cell, whatever the line ends; empty lines
give no cells. -/
theorem C146_lines {rows : List (List Text)} {ls : List (Text × Text)} (h : List.Forall₂ (fun r l => WritesLine r l.1 ∧ LineEnd l.2) rows ls) (rest : Text) :
    csvRows (ls.flatMap (fun l => l.1 ++ l.2) ++ rest) = (rows ++ (csvRows rest).1, (csvRows rest).2) := by
  induction h with
  | nil => simp
  | cons h _ ih =>
    rw [List.flatMap_cons, List.append_assoc, List.append_assoc, parse_line h.1 h.2, ih]
    simp

/-- **C146**: the last line needs no line end. -/
theorem C146_last_line {cells : List Text} {line : Text} (h : WritesLine cells line) (hl : line ≠ []) : csvRows line = ([cells], none) := by
  rcases h with ⟨ss, hne, h, rfl, -⟩ | ⟨-, rfl⟩
  · obtain ⟨s, m', h1, h2, h3⟩ := parse_cells hne h [] .init ⟨.inl rfl, rfl⟩ false
    rw [csvRows, show commas ss = commas ss ++ [] from by simp, h1]
    have h2' : cells = s.fields ++ [s.cur] := by simpa [Parser.init] using h2.symm
    obtain ⟨st, fs, cur⟩ := s
    simp only at h2' h3
    rcases h3 with ⟨h3, rfl, -⟩ | ⟨-, -, hc, -⟩
    · rcases h3 with rfl | rfl | rfl <;> simp [parse, proc, procStartField, Parser.save, h2']
    · exact absurd hc hl
  · exact absurd rfl hl

theorem parse_open (t : Text) (h0 : '\x00' ∉ t) (fs : List Text) (u : Text) (hl : u.length + t.length ≤ fieldLimit) (m : Bool) :
    ∃ m', parse ⟨.inQuoted, fs, u⟩ m (escape t) = parse ⟨.inQuoted, fs, u ++ t⟩ m' [] := by
  induction t generalizing u m with
  | nil => exact ⟨m, by simp [escape]⟩
  | cons c t ih =>
    simp only [List.mem_cons, not_or] at h0
    have hc0 : c ≠ '\x00' := fun h => h0.1 h.symm
    by_cases hq : c = '"'
    · subst hq
      rw [escape, if_pos rfl, parse, procChar_of (p' := ⟨.quoteInQuoted, fs, u⟩) hc0 (by simp [proc]) (by simp at hl ⊢; omega)]
      simp only
      rw [if_neg (by decide), parse, procChar_of (p' := ⟨.inQuoted, fs, u ++ ['"']⟩) hc0 (by simp [proc, Parser.add]) (by simp at hl ⊢; omega)]
      simp only
      rw [if_neg (by decide)]
      obtain ⟨m', h⟩ := ih h0.2 (u ++ ['"']) (by simp at hl ⊢; omega) true
      exact ⟨m', by rw [h]; simp⟩
    · rw [escape, if_neg hq, parse, procChar_of (p' := ⟨.inQuoted, fs, u ++ [c]⟩) hc0 (by simp [proc, Parser.add, hq]) (by simp at hl ⊢; omega)]
      simp only
      by_cases hn : c = '\n'
      · simp only [if_pos hn, proc]
        rw [if_neg (by simp)]
        obtain ⟨m', h⟩ := ih h0.2 (u ++ [c]) (by simp at hl ⊢; omega) false
        exact ⟨m', by rw [h]; simp⟩
      · simp only [if_neg hn]
        obtain ⟨m', h⟩ := ih h0.2 (u ++ [c]) (by simp at hl ⊢; omega) true
        exact ⟨m', by rw [h]; simp⟩

theorem commas_snoc (x : Text) (xs : List Text) (y : Text) : commas (x :: (xs ++ [y])) = commas (x :: xs) ++ ',' :: y := by
  induction xs generalizing x with
  | nil => simp [commas, List.intercalate]
  | cons z zs ih =>
    have := ih z
    simp only [commas, List.intercalate, List.cons_append, List.intersperse_cons_cons, List.flatten_cons] at this ⊢
    simp [this]

/-- **C146**: a quotation that is still open at the end of the file is taken to end there; everything after the quote belongs to its cell. -/
theorem C146_open_quotation {cells ss : List Text} (h : List.Forall₂ Writes cells ss) {t : Text} (ht : Cell t) :
    csvRows (commas (ss ++ [['"'] ++ doubled t])) = ([cells ++ [t]], none) := by
  have key : ∀ (p : Parser) (m : Bool), AtField p → parse p m ('"' :: doubled t) = ([p.fields ++ [t]], none) := by
    intro p m hp
    rw [parse_quote p hp, doubled_eq]
    obtain ⟨m', h⟩ := parse_open t ht.1 p.fields [] (by simpa [fieldLimit] using ht.2) true
    rw [h]
    cases m' <;> simp [parse, proc, atEof, Parser.save]
  cases h with
  | nil =>
    rw [show commas ([] ++ [['"'] ++ doubled t]) = '"' :: doubled t from by simp [commas, List.intercalate], csvRows, key .init false ⟨.inl rfl, rfl⟩]
    simp [Parser.init]
  | @cons c x cs xs hc hcs =>
    have e : commas ((x :: xs) ++ [['"'] ++ doubled t]) = commas (x :: xs) ++ ',' :: '"' :: doubled t := by
      rw [List.cons_append, commas_snoc]
      simp
    obtain ⟨s, m', h1, h2, h3⟩ := parse_cells (by simp) (.cons hc hcs) (',' :: '"' :: doubled t) .init ⟨.inl rfl, rfl⟩ false
    rw [e, csvRows, h1, parse]
    have h2' : s.fields ++ [s.cur] = c :: cs := by simpa [Parser.init] using h2
    have hp : procChar s ',' = .ok ⟨.startField, c :: cs, []⟩ := by
      refine procChar_of (by decide) ?_ (Nat.zero_le _)
      obtain ⟨st, fs, cur⟩ := s
      simp only at h2' h3
      rcases h3 with ⟨rfl | rfl | rfl, -⟩ | ⟨hs, hc, -⟩
      · rw [← h2']; rfl
      · rw [← h2']; rfl
      · rw [← h2']; rfl
      · cases hs
        exact congrArg (fun l => Except.ok (⟨.startField, l, []⟩ : Parser)) h2'
    rw [hp]
    simp only
    rw [if_neg (by decide), key _ _ ⟨.inr rfl, rfl⟩]

/-- **C146**: no cell with a NUL or more than 131072 characters is ever delivered. -/
theorem C146_cells (t : Text) : ∀ r ∈ (csvRows t).1, ∀ c ∈ r, Cell c :=
  parse_clean t .init ⟨by simp [Parser.init], CellOk.nil⟩ false

/-- Non-vacuity of C146: cells written as they are and quoted, an empty line, and both line ends. -/
example : csvRows ("a,\"b,\"\"c\nd\"\n\r\n,e\"f\r\nx".toList) = ([["a".toList, "b,\"c\nd".toList], [], [[], "e\"f".toList], ["x".toList]], none) := by
  decide +kernel

example : Writes "a,b\"c".toList "\"a,\"b\"c".toList :=
  .inr (.inr ⟨"a,".toList, "b\"c".toList, rfl, ⟨by decide, by decide⟩, ⟨⟨by decide, by decide⟩, by decide, by decide, by decide, by decide⟩, ⟨by decide, by decide⟩, rfl⟩)

example : List.Forall₂ (fun r (l : Text × Text) => WritesLine r l.1 ∧ LineEnd l.2) [["a".toList, "b,\"c\nd".toList], []]
    [("a,\"b,\"\"c\nd\"".toList, ['\n']), ([], ['\r', '\n'])] := by
  refine .cons ⟨.inl ⟨["a".toList, "\"b,\"\"c\nd\"".toList], by simp, .cons (.inl ⟨⟨⟨by decide, by decide⟩, by decide, by decide, by decide, by decide⟩, rfl⟩)
    (.cons (.inr (.inl ⟨⟨by decide, by decide⟩, by decide⟩)) .nil), by decide, by decide⟩, .inl rfl⟩ (.cons ⟨.inr ⟨rfl, rfl⟩, .inr rfl⟩ .nil)

/-! ### C147, C148 -/

/-- The parser inside a line without quotes of which `l` has been read. -/
def Inside (l : Text) (p : Parser) : Prop :=
  l = [] ∧ p = .init ∨
  l ≠ [] ∧ Blank l ∧ p = ⟨.eatCrnl, [], []⟩ ∨
  ¬ Blank l ∧ ((p.st = .startField ∨ p.st = .inField) ∧ p.fields.length = l.count ',' ∨ p.st = .eatCrnl ∧ p.fields.length = l.count ',' + 1)

theorem Inside.step {l : Text} {p p' : Parser} (h : Inside l p) {c : Char} (hn : c ≠ '\n') (hq : c ≠ '"') (hp : procChar p c = .ok p') : Inside (l ++ [c]) p' := by
  obtain ⟨-, hp, -⟩ := procChar_ok hp
  have hb : ¬ Blank l → ¬ Blank (l ++ [c]) := fun h h' => h fun d hd => h' d (by simp [hd])
  have hc : c ≠ '\r' → ¬ Blank (l ++ [c]) := fun h h' => h (h' c (by simp))
  rcases h with ⟨rfl, rfl⟩ | ⟨hl, hbl, rfl⟩ | ⟨hbl, h⟩
  · by_cases hr : c = '\r'
    · subst hr
      right; left
      simp only [proc, Parser.init, isNl] at hp
      refine ⟨by simp, by simp [Blank], ?_⟩
      simpa using hp.symm
    · right; right
      have hnl : isNl c = false := by simp [isNl, hn, hr]
      simp only [proc, Parser.init, hnl, procStartField, if_neg hq] at hp
      refine ⟨hc hr, .inl ?_⟩
      by_cases hcm : c = ','
      · simp only [if_pos hcm, Parser.save, Bool.false_eq_true, if_false, Except.ok.injEq] at hp
        subst hp
        simp [hcm]
      · simp only [if_neg hcm, Parser.add, Bool.false_eq_true, if_false, Except.ok.injEq] at hp
        subst hp
        simp [hcm]
  · simp only [proc] at hp
    by_cases hnl : isNl c = true
    · simp only [if_pos hnl, Except.ok.injEq] at hp
      right; left
      refine ⟨by simp, ?_, hp.symm⟩
      have hr : c = '\r' := by simpa [isNl, hn] using hnl
      intro d hd
      rcases List.mem_append.1 hd with hd | hd
      · exact hbl d hd
      · rw [List.mem_singleton.1 hd, hr]
    · simp [hnl] at hp
  · right; right
    refine ⟨hb hbl, ?_⟩
    obtain ⟨st, fs, cur⟩ := p
    simp only at h
    rcases h with ⟨h, hf⟩ | ⟨rfl, hf⟩
    · by_cases hr : c = '\r'
      · subst hr
        right
        have : p' = ⟨.eatCrnl, fs ++ [cur], []⟩ := by
          rcases h with rfl | rfl <;> simpa [proc, procStartField, isNl, Parser.save] using hp.symm
        subst this
        simp [hf, List.count_append]
      · have hnl : isNl c = false := by simp [isNl, hn, hr]
        left
        by_cases hcm : c = ','
        · have : p' = ⟨.startField, fs ++ [cur], []⟩ := by
            subst hcm
            rcases h with rfl | rfl <;> exact (Except.ok.inj hp).symm
          subst this
          simp [hf, List.count_append, hcm]
        · have : p' = ⟨.inField, fs, cur ++ [c]⟩ := by
            rcases h with rfl | rfl <;> simpa [proc, procStartField, hnl, hq, hcm, Parser.add] using hp.symm
          subst this
          simp [hf, List.count_append, hcm]
    · simp only [proc] at hp
      by_cases hnl : isNl c = true
      · simp only [if_pos hnl, Except.ok.injEq] at hp
        have hr : c = '\r' := by simpa [isNl, hn] using hnl
        subst hp
        right
        simp [hf, List.count_append, hr]
      · simp [hnl] at hp

/-- What a line without quotes gives. -/
def LineRow (l : Text) (r : List Text) : Prop := Blank l ∧ r = [] ∨ ¬ Blank l ∧ r.length = l.count ',' + 1

theorem Inside.finish {l : Text} {p : Parser} (h : Inside l p) (hl : l ≠ []) : ∃ q, proc p none = .ok q ∧ q.st = .startRecord ∧ LineRow l q.fields := by
  obtain ⟨st, fs, cur⟩ := p
  rcases h with ⟨h, -⟩ | ⟨-, hb, h⟩ | ⟨hb, ⟨rfl | rfl, h⟩ | ⟨rfl, h⟩⟩
  · exact absurd h hl
  · cases h
    exact ⟨_, rfl, rfl, .inl ⟨hb, rfl⟩⟩
  · exact ⟨_, rfl, rfl, .inr ⟨hb, by simp [procStartField, Parser.save] at h ⊢; exact h⟩⟩
  · exact ⟨_, rfl, rfl, .inr ⟨hb, by simp [Parser.save] at h ⊢; exact h⟩⟩
  · exact ⟨_, rfl, rfl, .inr ⟨hb, h⟩⟩

theorem Inside.newline {l : Text} {p p' : Parser} (h : Inside l p) (hp : procChar p '\n' = .ok p') :
    ∃ q, proc p' none = .ok q ∧ q.st = .startRecord ∧ LineRow l q.fields := by
  obtain ⟨-, hp, -⟩ := procChar_ok hp
  obtain ⟨st, fs, cur⟩ := p
  rcases h with ⟨rfl, h⟩ | ⟨-, hb, h⟩ | ⟨hb, ⟨rfl | rfl, h⟩ | ⟨rfl, h⟩⟩
  · cases h; cases hp
    exact ⟨_, rfl, rfl, .inl ⟨by simp [Blank], rfl⟩⟩
  · cases h; cases hp
    exact ⟨_, rfl, rfl, .inl ⟨hb, rfl⟩⟩
  · cases hp
    exact ⟨_, rfl, rfl, .inr ⟨hb, by simp [procStartField, isNl, Parser.save] at h ⊢; exact h⟩⟩
  · cases hp
    exact ⟨_, rfl, rfl, .inr ⟨hb, by simp [Parser.save] at h ⊢; exact h⟩⟩
  · cases hp
    exact ⟨_, rfl, rfl, .inr ⟨hb, h⟩⟩

theorem Inside.atEof {p : Parser} (h : Inside [] p) : atEof p = [] := by
  rcases h with ⟨-, rfl⟩ | ⟨h, -⟩ | ⟨h, -⟩
  · decide
  · exact absurd rfl h
  · exact absurd (by simp [Blank]) h

/-- Text without quotes: one record for each line (the last, empty line does not count). -/
theorem parse_lines (t : Text) (hq : '"' ∉ t) (l : Text) (p : Parser) (h : Inside l p) (hl : '\n' ∉ l) (m : Bool) (hm : m = !l.isEmpty)
    (hok : (parse p m t).2 = none) :
    ∃ rows, List.Forall₂ LineRow (lines (l ++ t)) rows ∧ (parse p m t).1.filter (· ≠ []) = rows.filter (· ≠ []) := by
  have hsplit : ∀ l : Text, '\n' ∉ l → ∀ t, lines (l ++ '\n' :: t) = l :: lines t := by
    intro l hl t
    unfold lines
    rw [List.splitOn_append_cons_self_of_not_mem hl]
  have hone : ∀ l : Text, '\n' ∉ l → lines l = [l] := by
    intro l hl
    unfold lines
    exact List.splitOn_eq_singleton hl
  induction t generalizing l p m with
  | nil =>
    rw [List.append_nil, hone l hl]
    cases l with
    | nil =>
      subst hm
      refine ⟨[[]], .cons (.inl ⟨by simp [Blank], rfl⟩) .nil, ?_⟩
      simp [parse, h.atEof]
    | cons c l =>
      subst hm
      obtain ⟨q, h1, h2, h3⟩ := h.finish (by simp)
      refine ⟨[q.fields], .cons h3 .nil, ?_⟩
      simp only [parse, List.isEmpty_cons, Bool.not_false, if_true, h1, h2]
  | cons c t ih =>
    simp only [List.mem_cons, not_or] at hq
    rw [parse] at hok ⊢
    cases hp : procChar p c with
    | error e => rw [hp] at hok; cases hok
    | ok p' =>
      rw [hp] at hok
      simp only at hok ⊢
      by_cases hn : c = '\n'
      · subst hn
        obtain ⟨q, h1, h2, h3⟩ := h.newline hp
        simp only [if_true, h1, h2] at hok ⊢
        obtain ⟨rows, h4, h5⟩ := ih hq.2 [] .init (.inl ⟨rfl, rfl⟩) (by simp) false rfl hok
        refine ⟨q.fields :: rows, ?_, ?_⟩
        · rw [hsplit l hl]
          exact .cons h3 h4
        · rw [List.filter_cons, List.filter_cons, h5]
      · simp only [if_neg hn] at hok ⊢
        obtain ⟨rows, h4, h5⟩ := ih hq.2 (l ++ [c]) p' (h.step hn (fun h => hq.1 h.symm) hp) (by simp [hl, Ne.symm hn]) true (by simp) hok
        exact ⟨rows, by simpa using h4, h5⟩

section
variable {F : Type} [PyNum F]

theorem readCatalogFile_ok {env : Env F} {ord : DictOrder} {file : Text} {es : List (Entry F)} (h : readCatalogFile env ord file = .ok es) :
    ∃ line rest, FirstLine file line rest ∧ (csvRows rest).2 = none ∧ readEqCatalog env ord (csvRows rest).1 = .ok es := by
  unfold readCatalogFile at h
  cases hv : validateCsvCatalog file with
  | error err => rw [hv] at h; simp [bind, Except.bind] at h
  | ok rest =>
    obtain ⟨line, hl, -⟩ := (C01_header_gate file rest).1 hv
    rw [hv] at h
    simp only [bind, Except.bind] at h
    cases hr : readEqCatalog env ord (csvRows rest).1 with
    | error err => rw [hr] at h; simp at h
    | ok es0 =>
      rw [hr] at h
      cases he : (csvRows rest).2 with
      | some e => rw [he] at h; simp at h
      | none =>
        rw [he] at h
        simp only [Except.ok.injEq] at h
        exact ⟨line, rest, hl, he, by rw [hr, h]⟩

/-- The lines that are rows. -/
def Spec.rowLines (t : Text) : List Text := (lines t).filter fun l => ¬ Blank l

theorem loaded_lines {env : Env F} {ord : DictOrder} {file line rest : Text} {es : List (Entry F)} (hf : FirstLine file line rest) (hq : '"' ∉ rest)
    (h : readCatalogFile env ord file = .ok es) : ∃ rows, List.Forall₂ LineRow (lines rest) rows ∧
      readEqCatalog env ord rows = .ok es := by
  obtain ⟨line', rest', hf', hn, hr⟩ := readCatalogFile_ok h
  obtain ⟨rfl, rfl⟩ := firstLine_unique hf hf'
  obtain ⟨rows, h1, h2⟩ := parse_lines rest hq [] .init (.inl ⟨rfl, rfl⟩) (by simp) false rfl hn
  refine ⟨rows, h1, ?_⟩
  unfold readEqCatalog at hr ⊢
  rw [← h2]
  exact hr

/-- **C147**, for files without quotes (Missing from the full claim: files with quotes, for which it fails: `C147_fails`): a catalogue that is loaded has one entry for
each line after the header that is not blank. -/
theorem C147_no_line_lost_partial (env : Env F) (ord : DictOrder) (file line rest : Text) (es : List (Entry F)) (hf : FirstLine file line rest) (hq : '"' ∉ rest)
    (h : readCatalogFile env ord file = .ok es) : es.length = (rowLines rest).length := by
  obtain ⟨rows, h1, h2⟩ := loaded_lines hf hq h
  rw [← (C10_order_preserving env ord rows es h2).length_eq]
  unfold rowLines
  clear h2
  generalize lines rest = ls at h1 ⊢
  induction h1 with
  | nil => rfl
  | @cons l r ls rs hlr _ ih =>
    rw [List.filter_cons, List.filter_cons]
    rcases hlr with ⟨hb, rfl⟩ | ⟨hb, hr⟩
    · simpa [hb] using ih
    · have : r ≠ [] := by rintro rfl; simp at hr
      simpa [hb, this] using ih

/-- **C148**, for cuts before the last comma of a line (Missing from the full claim: cuts in the last column, `C148_fails`): a file without quotes one of whose lines
after the header is not blank and does not have 24 commas is not loaded. -/
theorem C148_cut_off_refused_partial (env : Env F) (ord : DictOrder) (file line rest : Text) (hf : FirstLine file line rest) (hq : '"' ∉ rest)
    (l : Text) (hl : l ∈ rowLines rest) (hc : l.count ',' ≠ 24) : ∃ err, readCatalogFile env ord file = .error err := by
  cases h : readCatalogFile env ord file with
  | error err => exact ⟨err, rfl⟩
  | ok es =>
    exfalso
    obtain ⟨rows, h1, h2⟩ := loaded_lines hf hq h
    have h3 := (C10_all_or_nothing env ord rows).1 ⟨es, h2⟩
    simp only [rowLines, List.mem_filter, decide_eq_true_eq] at hl
    obtain ⟨i, hi, rfl⟩ := List.mem_iff_getElem.1 hl.1
    have h4 := (List.forall₂_iff_get.1 h1).2 i hi (by rw [← h1.length_eq]; exact hi)
    simp only [List.get_eq_getElem] at h4
    rcases h4 with ⟨hb, -⟩ | ⟨-, hr⟩
    · exact hl.2 hb
    · have := (h3 _ (List.getElem_mem _) (by intro h0; rw [h0] at hr; simp at hr)).cells25
      omega

end

/-- Three events; the last cell of the first one begins with a quote. -/
def strayFile : Text :=
  writeRow (fieldNames.map fun f => f.name.toList) ++ commas (exRow.set 24 "\"0.1".toList) ++ ['\r', '\n'] ++ writeRow exRow ++ writeRow exRow

/-- **C147 is false of the code**: a quote at the beginning of an optional last cell swallows all the lines that follow, and the file is loaded without them. -/
theorem C147_fails : ¬ ∀ (env : Env ℚ) (ord : DictOrder) (file line rest : Text) (es : List (Entry ℚ)), FirstLine file line rest →
    readCatalogFile env ord file = .ok es → es.length = (rowLines rest).length := by
  intro hall
  have hl : (readCatalogFile exEnv cpythonOrder strayFile).map List.length = .ok 1 := by decide +kernel
  have hr : (rowLines (readline strayFile).2).length = 3 := by decide +kernel
  cases h : readCatalogFile exEnv cpythonOrder strayFile with
  | error err => rw [h] at hl; cases hl
  | ok es =>
    rw [h] at hl
    simp only [Except.map, Except.ok.injEq] at hl
    have := hall exEnv cpythonOrder strayFile _ _ es (readline_spec strayFile) h
    omega

/-- **C148 is false of the code**: the first `k` characters of a file may end in the middle of its last line and be loaded all the same, with another value. -/
theorem C148_fails : ¬ ∀ (env : Env ℚ) (ord : DictOrder) (file : Text) (es : List (Entry ℚ)) (k : ℕ), readCatalogFile env ord file = .ok es →
    (∃ c ∈ (file.take k).getLast?, c ≠ '\n') → (∃ c ∈ (file.drop k).head?, c ≠ '\r' ∧ c ≠ '\n') → ∃ err, readCatalogFile env ord (file.take k) = .error err := by
  intro hall
  let file := exFile (exRow.set 24 "0.15".toList)
  have h1 : (readCatalogFile exEnv cpythonOrder file).map (fun es => es.map fun e => e .sigmaML) = .ok [.flt (15 / 100)] := by decide +kernel
  have h2 : (readCatalogFile exEnv cpythonOrder (file.take (file.length - 3))).map (fun es => es.map fun e => e .sigmaML) = .ok [.flt (1 / 10)] := by decide +kernel
  cases h : readCatalogFile exEnv cpythonOrder file with
  | error err => rw [h] at h1; cases h1
  | ok es =>
    obtain ⟨err, he⟩ := hall exEnv cpythonOrder file es (file.length - 3) h ⟨'1', by decide +kernel, by decide⟩ ⟨'5', by decide +kernel, by decide⟩
    rw [he] at h2
    cases h2

/-- Non-vacuity of C147 and C148: a file without quotes with one line that is not blank and loads, and a cut that has too few commas. -/
example : '"' ∉ (readline (exFile exRow)).2 ∧ (rowLines (readline (exFile exRow)).2).length = 1 ∧
    (readCatalogFile exEnv cpythonOrder (exFile exRow)).map List.length = .ok 1 ∧
    ∃ l ∈ rowLines (readline ((exFile exRow).take ((exFile exRow).length - 6))).2, l.count ',' ≠ 24 := by decide +kernel

end Verif.Csv
