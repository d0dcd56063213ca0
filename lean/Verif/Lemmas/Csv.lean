import Verif.Model.Csv
import Mathlib.Data.List.TakeWhile

/-! Round trip of the csv writer and parser. -/

namespace Verif.Csv

open Verif Verif.EqCatalog

/-- `parse` on a non-empty text does not look at `mid`. -/
theorem parse_cons_mid (p : Parser) (m m' : Bool) (c : Char) (cs : Text) :
    parse p m (c :: cs) = parse p m' (c :: cs) := by simp only [parse]

theorem procChar_of {p p' : Parser} {c : Char} (h0 : c ≠ '\x00') (h : proc p (some c) = .ok p') (hl : p'.cur.length ≤ fieldLimit) :
    procChar p c = .ok p' := by
  rw [procChar, if_neg h0, h]
  simp only [if_neg (not_lt.2 hl)]

theorem procChar_ok {p p' : Parser} {c : Char} (h : procChar p c = .ok p') :
    c ≠ '\x00' ∧ proc p (some c) = .ok p' ∧ p'.cur.length ≤ fieldLimit := by
  rw [procChar] at h
  by_cases h0 : c = '\x00'
  · rw [if_pos h0] at h; cases h
  · rw [if_neg h0] at h
    cases hp : proc p (some c) with
    | error e => rw [hp] at h; cases h
    | ok q =>
      rw [hp] at h
      simp only at h
      by_cases hl : fieldLimit < q.cur.length
      · rw [if_pos hl] at h; cases h
      · rw [if_neg hl] at h; cases h
        exact ⟨h0, rfl, not_lt.1 hl⟩

/-- A cell the reader can deliver: no NUL, and not longer than the limit. -/
def CellOk (t : Text) : Prop := '\x00' ∉ t ∧ t.length ≤ fieldLimit

theorem CellOk.nil : CellOk [] := ⟨by simp, by simp⟩

theorem parse_escape (t rest : Text) (h0 : '\x00' ∉ t) (fs : List Text) (u : Text) (hl : u.length + t.length ≤ fieldLimit) (m : Bool) :
    parse ⟨.inQuoted, fs, u⟩ m (escape t ++ '"' :: rest) = parse ⟨.inQuoted, fs, u ++ t⟩ m ('"' :: rest) := by
  induction t generalizing u m with
  | nil => simp [escape]
  | cons c t ih =>
    simp only [List.mem_cons, not_or] at h0
    have hc0 : c ≠ '\x00' := fun h => h0.1 h.symm
    by_cases hq : c = '"'
    · subst hq
      rw [escape, if_pos rfl, List.cons_append, parse,
        procChar_of (p' := ⟨.quoteInQuoted, fs, u⟩) hc0 (by simp [proc]) (by simp at hl ⊢; omega)]
      simp only
      rw [if_neg (by decide), List.cons_append, parse,
        procChar_of (p' := ⟨.inQuoted, fs, u ++ ['"']⟩) hc0 (by simp [proc, Parser.add]) (by simp at hl ⊢; omega)]
      simp only
      rw [if_neg (by decide), ih h0.2 _ (by simp at hl ⊢; omega), List.append_assoc, List.singleton_append]
      exact parse_cons_mid ..
    · rw [escape, if_neg hq, List.cons_append, parse,
        procChar_of (p' := ⟨.inQuoted, fs, u ++ [c]⟩) hc0 (by simp [proc, Parser.add, hq]) (by simp at hl ⊢; omega)]
      simp only
      by_cases hn : c = '\n'
      · simp only [if_pos hn, proc]
        rw [if_neg (by simp), ih h0.2 _ (by simp at hl ⊢; omega), List.append_assoc, List.singleton_append]
        exact parse_cons_mid ..
      · simp only [if_neg hn]
        rw [ih h0.2 _ (by simp at hl ⊢; omega), List.append_assoc, List.singleton_append]
        exact parse_cons_mid ..

theorem parse_plain (t rest : Text) (h0 : '\x00' ∉ t) (hs : t.any special = false) (fs : List Text) (u : Text) (m : Bool)
    (c : Char) (cs : Text) (hr : rest = c :: cs) (hl : u.length + t.length ≤ fieldLimit) :
    parse ⟨.inField, fs, u⟩ m (t ++ rest) = parse ⟨.inField, fs, u ++ t⟩ m rest := by
  induction t generalizing u m with
  | nil => simp
  | cons d t ih =>
    simp only [List.mem_cons, not_or] at h0
    simp only [List.any_cons, Bool.or_eq_false_iff] at hs
    have hd0 : d ≠ '\x00' := fun h => h0.1 h.symm
    simp only [special, Bool.or_eq_false_iff, beq_eq_false_iff_ne] at hs
    obtain ⟨⟨⟨⟨h1, h2⟩, h3⟩, h4⟩, h5⟩ := hs
    rw [List.cons_append, parse]
    have hnl : isNl d = false := by simp [isNl, h3, h4]
    rw [procChar_of (p' := ⟨.inField, fs, u ++ [d]⟩) hd0 (by simp [proc, hnl, h1, Parser.add]) (by simp at hl ⊢; omega)]
    simp only [if_neg h4]
    have h5' : t.any special = false := h5
    rw [ih h0.2 h5' _ _ (by simp at hl ⊢; omega), List.append_assoc, List.singleton_append, hr]
    exact parse_cons_mid ..

theorem takeWhile_of_not_mem (t : Text) (h0 : '\x00' ∉ t) : t.takeWhile (· ≠ '\x00') = t := by
  rw [List.takeWhile_eq_self_iff]
  intro x hx
  simp only [decide_eq_true_eq]
  rintro rfl
  exact h0 hx

/-- Start of a field: either the first field of a record or a later one. -/
def AtField (p : Parser) : Prop := (p.st = .startRecord ∨ p.st = .startField) ∧ p.cur = []

/-- The parser state after reading an encoded field, before the terminator. -/
theorem parse_field (only : Bool) (t : Text) (ht : CellOk t) (p : Parser) (hp : AtField p) (m : Bool) (c : Char) (cs : Text)
    (hc : c = ',' ∨ c = '\r') (hne : ¬ (t = [] ∧ only = false ∧ c = '\r' ∧ p.st = .startRecord)) :
    parse p m (quoteField only t ++ c :: cs) =
      parse ⟨.quoteInQuoted, p.fields, t⟩ m (c :: cs) := by
  obtain ⟨h0, hl⟩ := ht
  obtain ⟨hst, hcur⟩ := hp
  obtain ⟨st, fs, cur⟩ := p
  simp only at hst hcur hne
  subst hcur
  unfold quoteField
  rw [takeWhile_of_not_mem t h0]
  simp only
  by_cases hq : (t.any special || (only && t.isEmpty)) = true
  · rw [if_pos hq, List.cons_append, parse]
    have hquote : procChar ⟨st, fs, []⟩ '"' = .ok ⟨.inQuoted, fs, []⟩ := by
      refine procChar_of (by decide) ?_ (Nat.zero_le _)
      rcases hst with rfl | rfl <;> rfl
    rw [hquote]
    simp only
    rw [if_neg (by decide), List.append_assoc, List.singleton_append, parse_escape t _ h0 _ _ (by simpa using hl)]
    simp only [List.nil_append]
    rw [parse, procChar_of (p' := ⟨.quoteInQuoted, fs, t⟩) (by decide) (by simp [proc]) hl]
    simp only
    rw [if_neg (by decide)]
    exact parse_cons_mid ..
  · rw [if_neg hq]
    simp only [Bool.or_eq_true, not_or, Bool.not_eq_true] at hq
    obtain ⟨hsp, hem⟩ := hq
    -- terminator processing agrees between `inField`, `startField` and `quoteInQuoted`
    have hterm : ∀ (s : St), (s = .inField ∨ s = .startField) → ∀ u m, parse ⟨s, fs, u⟩ m (c :: cs) =
        parse ⟨.quoteInQuoted, fs, u⟩ m (c :: cs) := by
      intro s hs u m
      simp only [parse, procChar]
      rcases hc with rfl | rfl <;> rcases hs with rfl | rfl <;> rfl
    cases t with
    | nil =>
      rw [List.nil_append]
      rcases hst with rfl | rfl
      · -- first field, empty: terminator must be a comma
        have hcomma : c = ',' := by
          rcases hc with h | h
          · exact h
          · exfalso
            apply hne
            refine ⟨rfl, ?_, h, rfl⟩
            simpa using hem
        subst hcomma
        simp only [parse, procChar]
        rfl
      · exact hterm _ (Or.inr rfl) _ _
    | cons d t =>
      simp only [List.mem_cons, not_or] at h0
      simp only [List.any_cons, Bool.or_eq_false_iff] at hsp
      have hd0 : d ≠ '\x00' := fun h => h0.1 h.symm
      obtain ⟨hd, hsp'⟩ := hsp
      simp only [special, Bool.or_eq_false_iff, beq_eq_false_iff_ne] at hd
      obtain ⟨⟨⟨h1, h2⟩, h3⟩, h4⟩ := hd
      have hnl : isNl d = false := by simp [isNl, h3, h4]
      have hfirst : procChar ⟨st, fs, []⟩ d = .ok ⟨.inField, fs, [d]⟩ := by
        refine procChar_of hd0 ?_ (by simp [fieldLimit])
        rcases hst with rfl | rfl <;>
          simp [proc, procStartField, hnl, h1, h2, Parser.add]
      rw [List.cons_append, parse, hfirst]
      simp only [if_neg h4]
      rw [parse_plain t _ h0.2 hsp' fs [d] true c cs rfl (by simp at hl ⊢; omega), List.singleton_append]
      rw [hterm _ (Or.inl rfl)]
      exact parse_cons_mid ..

theorem parse_comma (fs : List Text) (u : Text) (m : Bool) (cs : Text) :
    parse ⟨.quoteInQuoted, fs, u⟩ m (',' :: cs) = parse ⟨.startField, fs ++ [u], []⟩ true cs := by
  rw [parse, procChar_of (p' := ⟨.startField, fs ++ [u], []⟩) (by decide) rfl (Nat.zero_le _)]; rfl

theorem parse_crlf (fs : List Text) (u : Text) (m : Bool) (cs : Text) :
    parse ⟨.quoteInQuoted, fs, u⟩ m ('\r' :: '\n' :: cs) =
      ((fs ++ [u]) :: (parse .init false cs).1, (parse .init false cs).2) := by
  rw [parse, procChar_of (p' := ⟨.eatCrnl, fs ++ [u], []⟩) (by decide) rfl (Nat.zero_le _)]
  show parse ⟨.eatCrnl, fs ++ [u], []⟩ true ('\n' :: cs) = _
  rw [parse, procChar_of (p' := ⟨.eatCrnl, fs ++ [u], []⟩) (by decide) rfl (Nat.zero_le _)]
  rfl

/-- The rest of a record, starting inside a record of which `fs` has been read. -/
theorem parse_record_tail (only : Bool) (cells : List Text) (hne : cells ≠ []) (h0 : ∀ t ∈ cells, CellOk t)
    (p : Parser) (hp : AtField p) (m : Bool) (cs : Text)
    (hfirst : p.st = .startRecord → (only = true ∨ 1 < cells.length)) :
    parse p m ([','].intercalate (cells.map (quoteField only)) ++ '\r' :: '\n' :: cs) =
      ((p.fields ++ cells) :: (parse .init false cs).1, (parse .init false cs).2) := by
  induction cells generalizing p m with
  | nil => exact absurd rfl hne
  | cons t cells ih =>
    simp only [List.mem_cons, forall_eq_or_imp] at h0
    cases cells with
    | nil =>
      simp only [List.map_cons, List.map_nil, List.intercalate_singleton]
      rw [parse_field only t h0.1 p hp m '\r' ('\n' :: cs) (Or.inr rfl), parse_crlf]
      rintro ⟨-, h, -, hs⟩
      rcases hfirst hs with h' | h'
      · rw [h] at h'; cases h'
      · simp at h'
    | cons t' cells =>
      simp only [List.map_cons, List.intercalate_cons_cons]
      rw [List.append_assoc, List.append_assoc, List.singleton_append,
        parse_field only t h0.1 p hp m ',' _ (Or.inl rfl) (by rintro ⟨-, -, h, -⟩; cases h), parse_comma]
      have := ih (by simp) h0.2 ⟨.startField, p.fields ++ [t], []⟩ ⟨Or.inr rfl, rfl⟩ true (by intro h; cases h)
      simp only [List.map_cons] at this
      rw [this]
      simp

theorem parse_writeRow (cells : List Text) (hne : cells ≠ []) (h0 : ∀ t ∈ cells, CellOk t) (m : Bool) (cs : Text) :
    parse .init m (writeRow cells ++ cs) = (cells :: (parse .init false cs).1, (parse .init false cs).2) := by
  unfold writeRow
  rw [List.append_assoc, List.cons_append, List.cons_append, List.nil_append]
  rw [parse_record_tail _ cells hne h0 .init ⟨Or.inl rfl, rfl⟩ m cs]
  · rfl
  · intro _
    cases cells with
    | nil => exact absurd rfl hne
    | cons a l =>
      cases l with
      | nil => left; rfl
      | cons b l => right; simp

theorem parse_writeRows (rows : List (List Text)) (h : ∀ r ∈ rows, r ≠ [] ∧ ∀ t ∈ r, CellOk t) :
    parse .init false (writeRows rows) = (rows, none) := by
  induction rows with
  | nil => rfl
  | cons r rows ih =>
    simp only [List.mem_cons, forall_eq_or_imp] at h
    show parse .init false (writeRow r ++ writeRows rows) = _
    rw [parse_writeRow r h.1.1 h.1.2, ih h.2]

end Verif.Csv
