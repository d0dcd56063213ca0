import Verif.Props.ConfigRead

/-!
# Digits in the configuration file (C212)

What `yaml.load` makes of a row of digits: the decimal number unless it begins with a zero.
-/

namespace Verif.Yaml

open Verif Verif.EqCatalog Verif.Format Verif.Workflow

namespace Spec

/-- The number a row of digits spells to a base; underscores only separate. -/
def spelled (base : ℕ) (ds : Text) : ℕ := (ds.filter (· ≠ '_')).foldl (fun n c => base * n + (c.toNat - 48)) 0

/-- The digits of a base up to sixteen, without and with capital letters. -/
def figures : Text := "0123456789abcdef".toList
def capitals : Text := "0123456789ABCDEF".toList
/-- The number a row of figures spells to a base. -/
def written (base : ℕ) (ds : Text) : ℕ := ds.foldl (fun n c => base * n + min (figures.idxOf c) (capitals.idxOf c)) 0

end Spec

open Spec

theorem valueIn_spelled {base : ℕ} (hb : base ≤ 10) {ds : Text} (h : ∀ c ∈ ds, 48 ≤ c.toNat ∧ c.toNat - 48 < base) (n : ℕ) :
    valueIn base n ds = some (ds.foldl (fun n c => base * n + (c.toNat - 48)) n) := by
  induction ds generalizing n with
  | nil => rfl
  | cons c cs ih =>
    have hc := h c List.mem_cons_self
    have hd : isDig c = true := (isDig_iff c).2 ⟨hc.1, by omega⟩
    rw [valueIn]
    simp only [hd, if_true]
    rw [if_pos (show c.toNat - '0'.toNat < base from hc.2), ih fun c hc => h c (List.mem_cons_of_mem _ hc)]
    rfl

/-- A text with a digit and without points and colons is no word, no floating point number and no infinity. -/
theorem scalar_digits {t : Text} (hdot : '.' ∉ t) (hcol : ':' ∉ t) (hne : ∃ c ∈ t, IsDigit c) :
    scalar t = match intOf t with
      | some s => s
      | none => if isDate t then .other else .str t := by
  have hsub : ∀ c ∈ unsign t, c ∈ t := by
    intro c hc
    unfold unsign at hc
    split at hc
    · exact List.mem_cons_of_mem _ hc
    · exact List.mem_cons_of_mem _ hc
    · exact hc
  have hw : ∀ t ∈ truths ++ falsehoods ++ nulls, ∀ c ∈ t, isDig c = false := by decide +kernel
  have hdig : ∀ u, (∀ c ∈ u, isDig c = false) → t ≠ u := by
    rintro u hu rfl
    obtain ⟨c, hc, hd⟩ := hne
    have := hu c hc
    rw [(isDig_iff c).2 hd] at this
    cases this
  have w : ∀ l : List Text, (∀ u ∈ l, ∀ c ∈ u, isDig c = false) → l.contains t = false := by
    intro l hl
    rw [Bool.eq_false_iff]
    intro hh
    have hh : t ∈ l := by simpa using hh
    exact hdig t (hl t hh) rfl
  have w1 := w truths fun u hu => hw u (by simp [hu])
  have w2 := w falsehoods fun u hu => hw u (by simp [hu])
  have w3 := w nulls fun u hu => hw u (by simp [hu])
  have f3 : floatSixty t = false := by
    unfold floatSixty
    rw [show (unsign t).splitOn ':' = [unsign t] from List.splitOnP_eq_singleton fun c hc => by
      rw [beq_eq_false_iff_ne]
      rintro rfl
      exact hcol (hsub _ hc)]
    cases unsign t <;> rfl
  have f4 : floatSpecial t = false := by
    unfold floatSpecial
    rw [Bool.or_eq_false_iff]
    have hud : '.' ∉ unsign t := fun hh => hdot (hsub _ hh)
    constructor
    · rw [Bool.eq_false_iff]
      intro hh
      have hh : unsign t ∈ [".inf".toList, ".Inf".toList, ".INF".toList] := by simpa using hh
      have key : ∀ t ∈ [".inf".toList, ".Inf".toList, ".INF".toList], '.' ∈ t := by decide
      exact hud (key _ hh)
    · rw [Bool.eq_false_iff]
      intro hh
      have hh : t ∈ [".nan".toList, ".NaN".toList, ".NAN".toList] := by simpa using hh
      have key : ∀ t ∈ [".nan".toList, ".NaN".toList, ".NAN".toList], '.' ∈ t := by decide
      exact hdot (key _ hh)
  obtain ⟨f1, f2⟩ := not_float hdot
  have h5 : ¬ (t = "<<".toList ∨ t = ['=']) := by
    rintro (hh | hh)
    · exact hdig _ (by decide) hh
    · exact hdig _ (by decide) hh
  unfold scalar
  rw [w1, w2, w3, f1, f2, f3, f4]
  simp only [Bool.or_self, Bool.false_eq_true, if_false, h5]
  cases intOf t <;> rfl

theorem scalar_row {t : Text} (h : ∀ c ∈ t, IsDigit c ∨ c = '_' ∨ c = '+' ∨ c = '-') (hne : ∃ c ∈ t, IsDigit c) :
    scalar t = match intOf t with
      | some s => s
      | none => if isDate t then .other else .str t := by
  refine scalar_digits (fun hh => ?_) (fun hh => ?_) hne
  · exact absurd (h _ hh) (by unfold IsDigit; decide)
  · exact absurd (h _ hh) (by unfold IsDigit; decide)

theorem octal_digit {c : Char} (h : '0' ≤ c ∧ c ≤ '7') : 48 ≤ c.toNat ∧ c.toNat - 48 < 8 := by
  have h1 : (48 : ℕ) ≤ c.toNat := UInt32.le_iff_toNat_le.1 h.1
  have h2 : c.toNat ≤ 55 := UInt32.le_iff_toNat_le.1 h.2
  omega

theorem spelled_digits (base : ℕ) {ds : Text} (h : ∀ c ∈ ds, IsDigit c) : spelled base ds = ds.foldl (fun n c => base * n + (c.toNat - 48)) 0 := by
  unfold spelled
  rw [List.filter_eq_self.2 fun c hc => by simpa using ne_of_isDigit (h c hc) (by unfold IsDigit; decide)]

/-- **C212**: a row of digits that begins with a zero and has none above seven is read as an octal number. -/
theorem C212_octal (ds : Text) (hne : ds ≠ []) (h : ∀ c ∈ ds, '0' ≤ c ∧ c ≤ '7') : scalar ('0' :: ds) = .int (spelled 8 ds) := by
  have hd : ∀ c ∈ ds, IsDigit c := fun c hc => by
    have := octal_digit (h c hc)
    exact ⟨this.1, by omega⟩
  have hd0 : ∀ c ∈ '0' :: ds, IsDigit c := by
    intro c hc
    rcases List.mem_cons.1 hc with rfl | hc
    · unfold IsDigit; decide
    · exact hd c hc
  have hi : intOf ('0' :: ds) = some (.int (spelled 8 ds)) := by
    obtain ⟨c, cs, rfl⟩ := List.exists_cons_of_ne_nil hne
    unfold intOf
    rw [unsign_digit (hd0 _ List.mem_cons_self)]
    have hc := hd c List.mem_cons_self
    split
    · next hh =>
      have := (List.cons.inj (List.cons.inj hh).2).1
      rw [this] at hc
      exact absurd hc (by unfold IsDigit; decide)
    · next hh => exact absurd (List.cons.inj hh).2 (by simp)
    · next hh =>
      have := (List.cons.inj (List.cons.inj hh).2).1
      rw [this] at hc
      exact absurd hc (by unfold IsDigit; decide)
    · next hh =>
      obtain ⟨rfl, rfl⟩ := List.cons.inj (List.cons.inj hh).2
      rw [if_pos]
      · unfold intIn
        rw [show noUnderscores ('0' :: c :: cs) = '0' :: c :: cs from List.filter_eq_self.2 fun d hh => by simpa using ne_of_isDigit (hd0 d hh) (by unfold IsDigit; decide)]
        simp only
        rw [valueIn_spelled (by norm_num) (fun d hh => by
          rcases List.mem_cons.1 hh with rfl | hh
          · decide
          · exact octal_digit (h d hh)), spelled_digits 8 hd]
        simp [signed]
      · rw [List.all_eq_true]
        intro d hd
        rw [Bool.or_eq_true]
        exact .inl (decide_eq_true (h d hd))
    · next h1 h2 h3 h4 hh =>
      obtain ⟨rfl, rfl⟩ := List.cons.inj hh
      exact absurd rfl fun hh => h4 _ _ rfl hh
    · next hh => cases hh
  rw [scalar_row (t := '0' :: ds) (fun c hc => .inl (hd0 c hc)) ⟨'0', List.mem_cons_self, hd0 _ List.mem_cons_self⟩, hi]

/-- **C212**: a row of digits that begins with a zero and has an eight or a nine is no number but a text. -/
theorem C212_text (ds : Text) (h : ∀ c ∈ ds, IsDigit c) (h8 : '8' ∈ ds ∨ '9' ∈ ds) : scalar ('0' :: ds) = .str ('0' :: ds) := by
  have hd0 : ∀ c ∈ '0' :: ds, IsDigit c := by
    intro c hc
    rcases List.mem_cons.1 hc with rfl | hc
    · unfold IsDigit; decide
    · exact h c hc
  have hi : intOf ('0' :: ds) = none := by
    obtain ⟨c, cs, rfl⟩ := List.exists_cons_of_ne_nil (l := ds) (by rintro rfl; simp at h8)
    unfold intOf
    rw [unsign_digit (hd0 _ List.mem_cons_self)]
    have hc := h c List.mem_cons_self
    split
    · next hh =>
      have := (List.cons.inj (List.cons.inj hh).2).1
      rw [this] at hc
      exact absurd hc (by unfold IsDigit; decide)
    · next hh => exact absurd (List.cons.inj hh).2 (by simp)
    · next hh =>
      have := (List.cons.inj (List.cons.inj hh).2).1
      rw [this] at hc
      exact absurd hc (by unfold IsDigit; decide)
    · next hh =>
      obtain ⟨rfl, rfl⟩ := List.cons.inj (List.cons.inj hh).2
      rw [if_neg]
      rw [List.all_eq_true]
      intro hall
      rcases h8 with h8 | h8
      · exact absurd (hall _ h8) (by decide)
      · exact absurd (hall _ h8) (by decide)
    · next h1 h2 h3 h4 hh =>
      obtain ⟨rfl, rfl⟩ := List.cons.inj hh
      exact absurd rfl fun hh => h4 _ _ rfl hh
    · next hh => cases hh
  have hdate : isDate ('0' :: ds) = false := by
    have hnd : ∀ m : Char, m ∈ '0' :: ds → (m == '-') = false := by
      intro m hm
      rw [beq_eq_false_iff_ne]
      rintro rfl
      exact absurd (hd0 _ hm) (by unfold IsDigit; decide)
    generalize '0' :: ds = t at hnd
    unfold isDate
    split
    · rw [hnd _ (by simp), Bool.and_false, Bool.false_and]
    · rw [hnd _ (by simp), Bool.and_false, Bool.false_and]
    · rfl
  rw [scalar_row (t := '0' :: ds) (fun c hc => .inl (hd0 c hc)) ⟨'0', List.mem_cons_self, hd0 _ List.mem_cons_self⟩, hi, hdate]
  rfl

theorem intOf_decimal {t : Text} {c : Char} {ds : Text} (hu : unsign t = c :: ds) (hc : IsDigit c) (h0 : c ≠ '0') (h : ∀ d ∈ ds, IsDigit d ∨ d = '_') :
    intOf t = some (.int (signed t (spelled 10 (c :: ds)))) := by
  unfold intOf
  rw [hu]
  have hall : (isDig c && ds.all du) = true := by
    rw [(isDig_iff c).2 hc, Bool.true_and, List.all_eq_true]
    intro d hd
    rcases h d hd with hh | rfl
    · exact du_digit hh
    · decide
  split
  · next hh => exact absurd (List.cons.inj hh).1 h0
  · next hh => exact absurd (List.cons.inj hh).1 h0
  · next hh => exact absurd (List.cons.inj hh).1 h0
  · next hh => exact absurd (List.cons.inj hh).1 h0
  · next hh =>
    obtain ⟨rfl, rfl⟩ := List.cons.inj hh
    rw [if_pos hall]
    unfold intIn
    have hcu : c ≠ '_' := ne_of_isDigit hc (by unfold IsDigit; decide)
    have hf : noUnderscores (c :: ds) = c :: ds.filter (· ≠ '_') := by
      unfold noUnderscores
      rw [List.filter_cons_of_pos (by simpa using hcu)]
    rw [hf]
    simp only
    rw [valueIn_spelled (base := 10) (le_refl _)]
    · unfold spelled
      rw [List.filter_cons_of_pos (by simpa using hcu)]
    · intro d hd
      have key : ∀ d, IsDigit d → 48 ≤ d.toNat ∧ d.toNat - 48 < 10 := fun d hd => ⟨hd.1, by have := hd.2; omega⟩
      rcases List.mem_cons.1 hd with rfl | hd
      · exact key _ hc
      · obtain ⟨hm, hn⟩ := List.mem_filter.1 hd
        rcases h d hm with hh | rfl
        · exact key _ hh
        · simp at hn
  · next hh => cases hh

/-- **C212**, what holds: a row of digits that does not begin with a zero is read as the decimal number it spells, with either sign and with underscores between the digits. -/
theorem C212_partial (c : Char) (ds : Text) (hc : IsDigit c) (h0 : c ≠ '0') (h : ∀ d ∈ ds, IsDigit d ∨ d = '_') :
    scalar (c :: ds) = .int (spelled 10 (c :: ds)) ∧ scalar ('+' :: c :: ds) = .int (spelled 10 (c :: ds)) ∧ scalar ('-' :: c :: ds) = .int (-(spelled 10 (c :: ds) : ℤ)) := by
  have hall : ∀ d ∈ c :: ds, IsDigit d ∨ d = '_' := by
    intro d hd
    rcases List.mem_cons.1 hd with rfl | hd
    · exact .inl hc
    · exact h d hd
  have hcm : c ≠ '-' := ne_of_isDigit hc (by unfold IsDigit; decide)
  refine ⟨?_, ?_, ?_⟩
  · have hu := unsign_digit hc ds
    rw [scalar_row (t := c :: ds) (fun d hd => by have := hall d hd; tauto) ⟨c, List.mem_cons_self, hc⟩, intOf_decimal hu hc h0 h]
    simp only
    unfold signed
    rw [if_neg]
    intro hh
    exact hcm (Option.some.inj hh)
  · have hu : unsign ('+' :: c :: ds) = c :: ds := rfl
    rw [scalar_row (t := '+' :: c :: ds) (by
      intro d hd
      rcases List.mem_cons.1 hd with rfl | hd
      · exact .inr (.inr (.inl rfl))
      · have := hall d hd; tauto) ⟨c, by simp, hc⟩, intOf_decimal hu hc h0 h]
    rfl
  · have hu : unsign ('-' :: c :: ds) = c :: ds := rfl
    rw [scalar_row (t := '-' :: c :: ds) (by
      intro d hd
      rcases List.mem_cons.1 hd with rfl | hd
      · exact .inr (.inr (.inr rfl))
      · have := hall d hd; tauto) ⟨c, by simp, hc⟩, intOf_decimal hu hc h0 h]
    rfl

theorem valueIn_written {base : ℕ} {ds : Text} (h : ∀ c ∈ ds, c ∈ figures ++ capitals ∧ min (figures.idxOf c) (capitals.idxOf c) < base) (n : ℕ) :
    valueIn base n ds = some (ds.foldl (fun n c => base * n + min (figures.idxOf c) (capitals.idxOf c)) n) := by
  induction ds generalizing n with
  | nil => rfl
  | cons c cs ih =>
    obtain ⟨hm, hb⟩ := h c List.mem_cons_self
    have key : ∀ c ∈ figures ++ capitals, ∀ b : ℕ, (if isDig c then c.toNat - '0'.toNat else if 'a' ≤ c ∧ c ≤ 'f' then c.toNat - 'a'.toNat + 10 else
        if 'A' ≤ c ∧ c ≤ 'F' then c.toNat - 'A'.toNat + 10 else b) = min (figures.idxOf c) (capitals.idxOf c) := by
      intro c hc b
      have : ∀ c ∈ figures ++ capitals, isDig c = true ∧ c.toNat - '0'.toNat = min (figures.idxOf c) (capitals.idxOf c) ∨
          isDig c = false ∧ ('a' ≤ c ∧ c ≤ 'f') ∧ c.toNat - 'a'.toNat + 10 = min (figures.idxOf c) (capitals.idxOf c) ∨
          isDig c = false ∧ ¬ ('a' ≤ c ∧ c ≤ 'f') ∧ ('A' ≤ c ∧ c ≤ 'F') ∧ c.toNat - 'A'.toNat + 10 = min (figures.idxOf c) (capitals.idxOf c) := by decide +kernel
      rcases this c hc with ⟨h1, h2⟩ | ⟨h1, h2, h3⟩ | ⟨h1, h2, h3, h4⟩
      · rw [h1, if_pos rfl, h2]
      · rw [h1, if_neg (by decide), if_pos h2, h3]
      · rw [h1, if_neg (by decide), if_neg h2, if_pos h3, h4]
    rw [valueIn]
    simp only [key c hm base]
    rw [if_pos hb, ih fun c hc => h c (List.mem_cons_of_mem _ hc)]
    rfl

theorem figure_free {ds : Text} (h : ∀ c ∈ ds, c ∈ figures ++ capitals) : '.' ∉ ds ∧ ':' ∉ ds ∧ '_' ∉ ds :=
  ⟨fun hh => absurd (h _ hh) (by decide), fun hh => absurd (h _ hh) (by decide), fun hh => absurd (h _ hh) (by decide)⟩

/-- **C212**: figures after `0x` are read as a hexadecimal number, those after `0b` as a binary one. -/
theorem C212_based (ds : Text) (hne : ds ≠ []) :
    ((∀ c ∈ ds, c ∈ figures ++ capitals) → scalar ('0' :: 'x' :: ds) = .int (written 16 ds)) ∧ ((∀ c ∈ ds, c = '0' ∨ c = '1') → scalar ('0' :: 'b' :: ds) = .int (written 2 ds)) := by
  obtain ⟨c, cs, rfl⟩ := List.exists_cons_of_ne_nil hne
  constructor
  · intro h
    obtain ⟨h1, h2, h3⟩ := figure_free h
    have hi : intOf ('0' :: 'x' :: c :: cs) = some (.int (written 16 (c :: cs))) := by
      have : intOf ('0' :: 'x' :: c :: cs) = if (c :: cs).all (fun c => du c || decide ('a' ≤ c ∧ c ≤ 'f') || decide ('A' ≤ c ∧ c ≤ 'F')) then some (intIn 16 ('0' :: 'x' :: c :: cs) (c :: cs)) else none := rfl
      rw [this, if_pos]
      · unfold intIn
        rw [show noUnderscores (c :: cs) = c :: cs from List.filter_eq_self.2 fun d hd => by simpa using fun hh : d = '_' => h3 (hh ▸ hd)]
        simp only
        rw [valueIn_written fun d hd => ⟨h d hd, ?_⟩]
        · rfl
        · have : ∀ d ∈ figures ++ capitals, min (figures.idxOf d) (capitals.idxOf d) < 16 := by decide +kernel
          exact this d (h d hd)
      · rw [List.all_eq_true]
        intro d hd
        have : ∀ d ∈ figures ++ capitals, (du d || decide ('a' ≤ d ∧ d ≤ 'f') || decide ('A' ≤ d ∧ d ≤ 'F')) = true := by decide +kernel
        exact this d (h d hd)
    rw [scalar_digits (t := '0' :: 'x' :: c :: cs) (by
      intro hh
      rcases List.mem_cons.1 hh with hh | hh
      · exact absurd hh (by decide)
      rcases List.mem_cons.1 hh with hh | hh
      · exact absurd hh (by decide)
      exact h1 hh) (by
      intro hh
      rcases List.mem_cons.1 hh with hh | hh
      · exact absurd hh (by decide)
      rcases List.mem_cons.1 hh with hh | hh
      · exact absurd hh (by decide)
      exact h2 hh) ⟨'0', List.mem_cons_self, by unfold IsDigit; decide⟩, hi]
  · intro h
    have hf : ∀ d ∈ c :: cs, d ∈ figures ++ capitals := fun d hd => by
      rcases h d hd with rfl | rfl <;> decide
    obtain ⟨h1, h2, h3⟩ := figure_free hf
    have hi : intOf ('0' :: 'b' :: c :: cs) = some (.int (written 2 (c :: cs))) := by
      have : intOf ('0' :: 'b' :: c :: cs) = if (c :: cs).all (fun c => c == '0' || c == '1' || c == '_') then some (intIn 2 ('0' :: 'b' :: c :: cs) (c :: cs)) else none := rfl
      rw [this, if_pos]
      · unfold intIn
        rw [show noUnderscores (c :: cs) = c :: cs from List.filter_eq_self.2 fun d hd => by simpa using fun hh : d = '_' => h3 (hh ▸ hd)]
        simp only
        rw [valueIn_written fun d hd => ⟨hf d hd, ?_⟩]
        · rfl
        · rcases h d hd with rfl | rfl <;> decide
      · rw [List.all_eq_true]
        intro d hd
        rcases h d hd with rfl | rfl <;> decide
    rw [scalar_digits (t := '0' :: 'b' :: c :: cs) (by
      intro hh
      rcases List.mem_cons.1 hh with hh | hh
      · exact absurd hh (by decide)
      rcases List.mem_cons.1 hh with hh | hh
      · exact absurd hh (by decide)
      exact h1 hh) (by
      intro hh
      rcases List.mem_cons.1 hh with hh | hh
      · exact absurd hh (by decide)
      rcases List.mem_cons.1 hh with hh | hh
      · exact absurd hh (by decide)
      exact h2 hh) ⟨'0', List.mem_cons_self, by unfold IsDigit; decide⟩, hi]

/-- **C212** is false: a hundred written as `0100` is sixty-four. -/
theorem C212_fails : ¬ ∀ ds : Text, ds ≠ [] → (∀ c ∈ ds, IsDigit c) → scalar ds = .int (spelled 10 ds) := by
  intro h
  have h1 := h "0100".toList (by decide) (by unfold IsDigit; decide)
  have h2 := C212_octal "100".toList (by decide) (by decide)
  rw [show "0100".toList = '0' :: "100".toList by decide, h2] at h1
  have h3 := Scalar.int.inj h1
  exact absurd h3 (by decide)

/-- The cases: a thousand with an underscore, the year 8 with a zero in front. -/
example : scalar "1_000".toList = .int 1000 := (C212_partial '1' "_000".toList (by unfold IsDigit; decide) (by decide) (by unfold IsDigit; decide)).1
example : scalar "0xFf".toList = .int 255 := (C212_based "Ff".toList (by decide)).1 (by decide)
example : scalar "08".toList = .str "08".toList := C212_text "8".toList (by unfold IsDigit; decide) (by decide)

end Verif.Yaml
