import Verif.Props.XmlLayout
import Verif.Props.ConfigDigits

/-!
# Characters written as references (C216)

A character of a text or of the value of an attribute may be typed as it is, by its name (`&lt;`) or by its number, decimal or hexadecimal.
-/

namespace Verif.Xml

open Verif Verif.EqCatalog Verif.Nrml Verif.Yaml.Spec

namespace Spec

/-- A character written as a reference: by name, or by its number to the base ten or sixteen, with any leading zeros. -/
inductive Referred (c : Char) : Text → Prop
  | named (name : String) : (c, name) ∈ [('<', "lt"), ('>', "gt"), ('&', "amp"), ('"', "quot"), ('\'', "apos")] → Referred c ('&' :: name.toList ++ [';'])
  | decimal (ds : Text) : ds ≠ [] → (∀ d ∈ ds, d ∈ figures.take 10) → written 10 ds = c.toNat → Referred c ("&#".toList ++ ds ++ [';'])
  | hexadecimal (ds : Text) : ds ≠ [] → (∀ d ∈ ds, d ∈ figures ++ capitals) → written 16 ds = c.toNat → Referred c ("&#x".toList ++ ds ++ [';'])

/-- A character of a text. -/
def InText (c : Char) (u : Text) : Prop := (u = [c] ∧ c ≠ '<' ∧ c ≠ '&' ∧ c ≠ '\r') ∨ Referred c u

/-- A character of the value of an attribute: a blank may be typed as a line break or a tabulator, and these only as references. -/
def InValue (c : Char) (u : Text) : Prop := (u = [c] ∧ c ≠ '<' ∧ c ≠ '&' ∧ c ≠ '\r' ∧ c ≠ '\n' ∧ c ≠ '\t') ∨ (c = ' ' ∧ (u = ['\n'] ∨ u = ['\t'])) ∨ Referred c u

def Writes (how : Char → Text → Prop) (t u : Text) : Prop := ∃ us, List.Forall₂ how t us ∧ u = us.flatten

/-- A value of an attribute, written in some way. -/
def AttrWrites (a a' : Text × Text) : Prop := a'.1 = a.1 ∧ (∀ c ∈ a.2, xmlChar c = true) ∧ Writes InValue a.2 a'.2

/-- The same tag with its values written in some way. -/
inductive TagWrites : Tag → Tag → Prop
  | start {n : Text} {as as' : List (Text × Text)} : List.Forall₂ AttrWrites as as' → TagWrites (.start n as) (.start n as')
  | empty {n : Text} {as as' : List (Text × Text)} : List.Forall₂ AttrWrites as as' → TagWrites (.empty n as) (.empty n as')
  | close {n : Text} : TagWrites (.close n) (.close n)

/-- A text and a tag as they stand in a file: characters written and tags typed in some way. -/
def StandsFor (x : Text × Tag) (p : Text × Text) : Prop :=
  ((∀ c ∈ x.1, xmlChar c = true) ∧ Writes InText x.1 p.1) ∧ ∃ g, TagWrites x.2 g ∧ Typed g p.2

/-- The names in a tag are names. -/
def Named : Tag → Prop
  | .start n as => GoodName n ∧ ∀ a ∈ as, GoodName a.1
  | .empty n as => GoodName n ∧ ∀ a ∈ as, GoodName a.1
  | .close n => GoodName n

end Spec

open Spec

theorem digits_written {base : ℕ} {ds : Text} (h : ∀ c ∈ ds, c ∈ figures ++ capitals ∧ min (figures.idxOf c) (capitals.idxOf c) < base) : digits base 0 ds = some (written base ds) := by
  have : ∀ n, digits base n ds = Yaml.valueIn base n ds := by
    induction ds with
    | nil => intro n; rfl
    | cons c ds ih =>
      intro n
      have ih := ih fun c hc => h c (List.mem_cons_of_mem _ hc)
      simp only [digits, Yaml.valueIn, ih, Yaml.isDig, decide_eq_true_eq]
  rw [this, Yaml.valueIn_written h]
  rfl

theorem charOf_toNat {c : Char} (h : xmlChar c = true) : charOf c.toNat = some c := by
  unfold charOf
  rw [Char.ofNat_toNat, if_pos ⟨c.valid, h⟩]

theorem decode_until {r u l : Text} (h : ';' ∉ u) : decode (some r) (u ++ ';' :: l) = (reference (r ++ u)).bind fun d => (decode none l).map (d :: ·) := by
  induction u generalizing r with
  | nil => rw [List.nil_append, List.append_nil, decode, if_pos rfl]
  | cons c u ih =>
    rw [List.mem_cons, not_or] at h
    rw [List.cons_append, decode, if_neg (Ne.symm h.1), ih h.2]
    simp

theorem decode_referred {c : Char} {u : Text} (h : Referred c u) (hx : xmlChar c = true) (l : Text) : decode none (u ++ l) = (decode none l).map (c :: ·) := by
  have go : ∀ u : Text, ';' ∉ u → reference u = some c → decode none ('&' :: u ++ [';'] ++ l) = (decode none l).map (c :: ·) := by
    intro u hu hr
    have : '&' :: u ++ [';'] ++ l = '&' :: (u ++ ';' :: l) := by simp
    rw [this, decode, if_pos rfl, decode_until hu, List.nil_append, hr]
    rfl
  cases h with
  | named name hm =>
    simp only [List.mem_cons, Prod.mk.injEq, List.not_mem_nil, or_false] at hm
    rcases hm with ⟨rfl, rfl⟩ | ⟨rfl, rfl⟩ | ⟨rfl, rfl⟩ | ⟨rfl, rfl⟩ | ⟨rfl, rfl⟩ <;> exact go _ (by decide) (by decide)
  | decimal ds hne hd hw =>
    have hfig : ∀ d ∈ ds, d ∈ figures ++ capitals ∧ min (figures.idxOf d) (capitals.idxOf d) < 10 := by
      have : ∀ d ∈ figures.take 10, d ∈ figures ++ capitals ∧ min (figures.idxOf d) (capitals.idxOf d) < 10 := by decide +kernel
      exact fun d h => this d (hd d h)
    refine go ('#' :: ds) ?_ ?_
    · intro hh
      rcases List.mem_cons.1 hh with hh | hh
      · exact absurd hh (by decide)
      · exact absurd (hfig _ hh).1 (by decide)
    · obtain ⟨d, ds, rfl⟩ := List.exists_cons_of_ne_nil hne
      have hx' : d ≠ 'x' := by
        rintro rfl
        exact absurd (hfig _ List.mem_cons_self).1 (by decide)
      have : reference ('#' :: d :: ds) = (digits 10 0 (d :: ds)).bind charOf := by
        unfold reference
        simp [hx']
      rw [this, digits_written hfig, hw, Option.bind_some, charOf_toNat hx]
  | hexadecimal ds hne hd hw =>
    have hfig : ∀ d ∈ ds, d ∈ figures ++ capitals ∧ min (figures.idxOf d) (capitals.idxOf d) < 16 := by
      have : ∀ d ∈ figures ++ capitals, d ∈ figures ++ capitals ∧ min (figures.idxOf d) (capitals.idxOf d) < 16 := by decide +kernel
      exact fun d h => this d (hd d h)
    refine go ('#' :: 'x' :: ds) ?_ ?_
    · intro hh
      rcases List.mem_cons.1 hh with hh | hh
      · exact absurd hh (by decide)
      rcases List.mem_cons.1 hh with hh | hh
      · exact absurd hh (by decide)
      · exact absurd (hfig _ hh).1 (by decide)
    · obtain ⟨d, ds, rfl⟩ := List.exists_cons_of_ne_nil hne
      have : reference ('#' :: 'x' :: d :: ds) = (digits 16 0 (d :: ds)).bind charOf := by
        unfold reference
        simp
      rw [this, digits_written hfig, hw, Option.bind_some, charOf_toNat hx]

/-- **C216**: a text is read as the characters that were meant, however they were written. -/
theorem C216_text (t u : Text) (hx : ∀ c ∈ t, xmlChar c = true) (h : Writes InText t u) : decode none u = some t := by
  obtain ⟨us, h, rfl⟩ := h
  induction h with
  | nil => rfl
  | @cons c v t us h _ ih =>
    have hc := hx c List.mem_cons_self
    have ih := ih fun c hc => hx c (List.mem_cons_of_mem _ hc)
    rw [List.flatten_cons]
    rcases h with ⟨rfl, -, h2, -⟩ | h
    · rw [decode_char h2 hc, ih]; rfl
    · rw [decode_referred h hc, ih]; rfl

/-- The characters of a reference. -/
theorem referred_chars {c : Char} {u : Text} (h : Referred c u) : '\n' ∉ u ∧ '\t' ∉ u ∧ '<' ∉ u ∧ '\r' ∉ u := by
  have key : ∀ ds : Text, (∀ d ∈ ds, d ∈ figures ++ capitals) → ∀ pre : Text, (∀ d ∈ pre, d ∈ "&#x".toList) → ∀ d ∈ ['\n', '\t', '<', '\r'], d ∉ pre ++ ds ++ [';'] := by
    intro ds hd pre hp d hdm hh
    simp only [List.mem_append, List.mem_singleton] at hh
    rcases hh with (hh | hh) | hh
    · have : ∀ d ∈ ['\n', '\t', '<', '\r'], d ∉ "&#x".toList := by decide
      exact this d hdm (hp d hh)
    · have : ∀ d ∈ ['\n', '\t', '<', '\r'], d ∉ figures ++ capitals := by decide
      exact this d hdm (hd d hh)
    · have : ∀ d ∈ ['\n', '\t', '<', '\r'], d ≠ ';' := by decide
      exact this d hdm hh
  cases h with
  | named name hm =>
    simp only [List.mem_cons, Prod.mk.injEq, List.not_mem_nil, or_false] at hm
    rcases hm with ⟨-, rfl⟩ | ⟨-, rfl⟩ | ⟨-, rfl⟩ | ⟨-, rfl⟩ | ⟨-, rfl⟩ <;> decide
  | decimal ds hne hd hw =>
    have := key ds (fun d h => List.mem_append_left _ (List.mem_of_mem_take (hd d h))) "&#".toList (by decide)
    exact ⟨this _ (by decide), this _ (by decide), this _ (by decide), this _ (by decide)⟩
  | hexadecimal ds hne hd hw =>
    have := key ds hd "&#x".toList (by decide)
    exact ⟨this _ (by decide), this _ (by decide), this _ (by decide), this _ (by decide)⟩

/-- **C216**: and so is the value of an attribute, in which line breaks and tabulators are read as blanks unless they are written as references. -/
theorem C216_value (t u : Text) (hx : ∀ c ∈ t, xmlChar c = true) (h : Writes InValue t u) : attrText u = some t := by
  obtain ⟨us, h, rfl⟩ := h
  unfold attrText
  induction h with
  | nil => rfl
  | @cons c v t us h _ ih =>
    have hc := hx c List.mem_cons_self
    have ih := ih fun c hc => hx c (List.mem_cons_of_mem _ hc)
    rw [List.flatten_cons, List.map_append]
    rcases h with ⟨rfl, -, h2, -, h3, h4⟩ | ⟨rfl, rfl | rfl⟩ | h
    · have : [c].map (fun c => if c = '\n' ∨ c = '\t' then ' ' else c) = [c] := by simp [h3, h4]
      rw [this, decode_char h2 hc, ih]; rfl
    · change decode none ([' '] ++ _) = _
      rw [decode_char (by decide) hc, ih]; rfl
    · change decode none ([' '] ++ _) = _
      rw [decode_char (by decide) hc, ih]; rfl
    · have hv : v.map (fun c => if c = '\n' ∨ c = '\t' then ' ' else c) = v := by
        obtain ⟨h1, h2, -⟩ := referred_chars h
        conv_rhs => rw [← List.map_id v]
        refine List.map_congr_left fun d hd => if_neg ?_
        rintro (rfl | rfl)
        · exact h1 hd
        · exact h2 hd
      rw [hv, decode_referred h hc, ih]; rfl

theorem written_chars {how : Char → Text → Prop} {t u : Text} (h : Writes how t u) {d : Char} (hd : ∀ c v, how c v → d ∉ v) : d ∉ u := by
  obtain ⟨us, h, rfl⟩ := h
  intro hh
  obtain ⟨v, hv, hdv⟩ := List.mem_flatten.1 hh
  obtain ⟨c, -, hc⟩ := forall₂_mem_right h hv
  exact hd c v hc hdv

theorem text_chars {t u : Text} (h : Writes InText t u) : '<' ∉ u ∧ '\r' ∉ u := by
  constructor
  · refine written_chars h ?_
    rintro c v (⟨rfl, h1, -⟩ | h)
    · simpa using Ne.symm h1
    · exact (referred_chars h).2.2.1
  · refine written_chars h ?_
    rintro c v (⟨rfl, -, -, h1⟩ | h)
    · simpa using Ne.symm h1
    · exact (referred_chars h).2.2.2

theorem value_chars {t u : Text} (h : Writes InValue t u) : '<' ∉ u ∧ '\r' ∉ u := by
  constructor
  · refine written_chars h ?_
    rintro c v (⟨rfl, h1, -⟩ | ⟨-, rfl | rfl⟩ | h)
    · simpa using Ne.symm h1
    · decide
    · decide
    · exact (referred_chars h).2.2.1
  · refine written_chars h ?_
    rintro c v (⟨rfl, -, -, h1, -⟩ | ⟨-, rfl | rfl⟩ | h)
    · simpa using Ne.symm h1
    · decide
    · decide
    · exact (referred_chars h).2.2.2

theorem values_writes {as as' : List (Text × Text)} (h : List.Forall₂ AttrWrites as as') : valuesOf as' = some as := by
  induction h with
  | nil => rfl
  | @cons a a' as as' h _ ih =>
    obtain ⟨h1, h2, h3⟩ := h
    rw [valuesOf, C216_value _ _ h2 h3, ih, h1]
    rfl

theorem attrs_ok {as as' : List (Text × Text)} (h : List.Forall₂ AttrWrites as as') (hn : ∀ a ∈ as, GoodName a.1) : ∀ a ∈ as', GoodName a.1 ∧ '<' ∉ a.2 ∧ '\r' ∉ a.2 := by
  intro a' ha'
  obtain ⟨a, ha, h1, h2, h3⟩ := forall₂_mem_right h ha'
  exact ⟨h1 ▸ hn a ha, value_chars h3⟩

theorem writes_ok {x g : Tag} (h : TagWrites x g) (hn : Named x) : g.Ok := by
  cases h with
  | start h => exact ⟨hn.1, attrs_ok h hn.2⟩
  | empty h => exact ⟨hn.1, attrs_ok h hn.2⟩
  | close => exact hn

theorem writes_alike {x g g' : Tag} (h : TagWrites x g) (h' : TagWrites x g') : TagAlike g g' := by
  cases h with
  | start h => cases h' with | start h' => exact .start ((values_writes h).trans (values_writes h').symm)
  | empty h => cases h' with | empty h' => exact .empty ((values_writes h).trans (values_writes h').symm)
  | close => cases h' with | close => exact .close

theorem stands_found {xs : List (Text × Tag)} {l : List (Text × Text)} (h : List.Forall₂ StandsFor xs l) (hn : ∀ x ∈ xs, Named x.2) : ∀ p ∈ l, Found p ∧ p.2.head? ≠ some '?' := by
  intro p hp
  obtain ⟨x, hx, ⟨-, h1⟩, g, h2, h3⟩ := forall₂_mem_right h hp
  obtain ⟨k1, k2, k3, k4⟩ := typed_closed (writes_ok h2 (hn x hx)) h3
  obtain ⟨h4, h5⟩ := text_chars h1
  exact ⟨⟨⟨h4, k1, k2⟩, h5, k4⟩, k3⟩

theorem build_stands {xs : List (Text × Tag)} {l l' : List (Text × Text)} (h : List.Forall₂ StandsFor xs l) (h' : List.Forall₂ StandsFor xs l') (hn : ∀ x ∈ xs, Named x.2) (st : List Frame) {r}
    (hb : build st l = some r) : ∃ k, r.2 = l.drop k ∧ build st l' = some (r.1, l'.drop k) := by
  induction h generalizing l' st with
  | nil => simp [build] at hb
  | @cons x p xs l h _ ih =>
    cases h' with
    | @cons _ p' _ l' h' hs' =>
      obtain ⟨t, s⟩ := p
      obtain ⟨t', s'⟩ := p'
      obtain ⟨⟨h1, h2⟩, g, h3, h4⟩ := h
      obtain ⟨⟨-, h2'⟩, g', h3', h4'⟩ := h'
      simp only at h2 h2' h4 h4'
      have hx := hn x List.mem_cons_self
      rw [← build_alike (writes_alike h3 h3') (writes_ok h3 hx) (writes_ok h3' hx) h4 h4' st ((C216_text _ _ h1 h2).trans (C216_text _ _ h1 h2').symm)]
      rcases build_step st t s with k1 | ⟨e, k1⟩ | ⟨st', k1⟩
      · rw [k1] at hb; cases hb
      · rw [k1] at hb
        obtain rfl := Option.some.inj hb
        exact ⟨1, rfl, k1 _⟩
      · rw [k1] at hb
        obtain ⟨k, hk1, hk2⟩ := ih hs' (fun x hx => hn x (List.mem_cons_of_mem _ hx)) st' hb
        exact ⟨k + 1, hk1, (k1 _).trans hk2⟩

/-- **C216**: two files with the same texts and tags have the same tree, however their characters are written and their tags are typed. -/
theorem C216_files (xs : List (Text × Tag)) (hn : ∀ x ∈ xs, Named x.2) (pro pro' l l' : List (Text × Text)) (last : Text) (hpro : Prolog pro) (hpro' : Prolog pro')
    (h : List.Forall₂ StandsFor xs l) (h' : List.Forall₂ StandsFor xs l') (hl : '<' ∉ last ∧ '\r' ∉ last) : parse (fileOf (pro ++ l) ++ last) = parse (fileOf (pro' ++ l') ++ last) := by
  have key : ∀ l l', List.Forall₂ StandsFor xs l → List.Forall₂ StandsFor xs l' → ∀ e, (match build [] l with
      | some (e, rest) => if (rest.all fun p => p.1.all isBlank && isComment p.2) ∧ last.all isBlank then some e else none
      | none => none) = some e → (match build [] l' with
      | some (e, rest) => if (rest.all fun p => p.1.all isBlank && isComment p.2) ∧ last.all isBlank then some e else none
      | none => none) = some e := by
    intro l l' h h' e he
    cases hb : build [] l with
    | none => rw [hb] at he; cases he
    | some r =>
      obtain ⟨k, hk1, hk2⟩ := build_stands h h' hn [] hb
      obtain ⟨e', rest⟩ := r
      simp only at hk1 hk2
      rw [hb] at he
      rw [hk2]
      simp only at he ⊢
      rw [hk1, no_more fun p hp => (stands_found h hn p (List.mem_of_mem_drop hp)).1] at he
      rw [no_more fun p hp => (stands_found h' hn p (List.mem_of_mem_drop hp)).1]
      have hlen : l'.drop k = [] ↔ l.drop k = [] := by rw [List.drop_eq_nil_iff, List.drop_eq_nil_iff, ← List.Forall₂.length_eq h, ← List.Forall₂.length_eq h']
      simp only [hlen]
      exact he
  rw [parse_list hpro (stands_found h hn) hl, parse_list hpro' (stands_found h' hn) hl]
  apply Option.ext
  intro e
  exact ⟨key l l' h h' e, key l' l h' h e⟩

/-! ### Cases -/

/-- The text `é<` typed in two ways. -/
example : Writes InText "é<".toList "é&lt;".toList ∧ Writes InText "é<".toList "&#x00E9;&#60;".toList := by
  refine ⟨⟨["é".toList, "&lt;".toList], .cons (.inl ⟨rfl, by decide⟩) (.cons (.inr (.named "lt" (by decide))) .nil), by decide⟩,
    ⟨["&#x00E9;".toList, "&#60;".toList], .cons (.inr (.hexadecimal "00E9".toList (by decide) (by decide) (by decide +kernel))) (.cons (.inr (.decimal "60".toList (by decide) (by decide) (by decide +kernel))) .nil), by decide⟩⟩

/-- Two files with one element, its attribute and its text written in different ways. -/
example : parse (fileOf ([] ++ [([], "a b='1\n2'".toList), ("é&lt;".toList, "/a".toList)]) ++ []) = parse (fileOf ([] ++ [([], "a b = \"1&#32;2\"".toList), ("&#x00E9;&#60;".toList, "/a ".toList)]) ++ []) := by
  have ha : GoodName "a".toList := ⟨by decide, by unfold NameChar; decide⟩
  have hb : GoodName "b".toList := ⟨by decide, by unfold NameChar; decide⟩
  have one : InValue '1' ['1'] := .inl (by decide)
  have two : InValue '2' ['2'] := .inl (by decide)
  refine C216_files [([], .start "a".toList [("b".toList, "1 2".toList)]), ("é<".toList, .close "a".toList)] ?_ [] [] _ _ [] (.inl rfl) (.inl rfl) ?_ ?_ (by decide)
  · intro x hx
    simp only [List.mem_cons, List.not_mem_nil, or_false] at hx
    rcases hx with rfl | rfl
    · exact ⟨ha, fun a h => by rw [List.mem_singleton.1 h]; exact hb⟩
    · exact ha
  · refine .cons ⟨⟨by decide, [], .nil, rfl⟩, .start "a".toList [("b".toList, "1\n2".toList)], .start (.cons ⟨rfl, by decide +kernel, [['1'], ['\n'], ['2']], ?_, by decide⟩ .nil),
      [" b='1\n2'".toList], [], .cons ?_ .nil, by decide, by decide⟩ (.cons ⟨⟨by decide +kernel, ["é".toList, "&lt;".toList], ?_, by decide⟩, .close "a".toList, .close, [], by decide, rfl⟩ .nil)
    · exact .cons one (.cons (.inr (.inl ⟨rfl, .inl rfl⟩)) (.cons two .nil))
    · exact ⟨" ".toList, [], [], '\'', by decide, by decide, by decide, by decide, .inr rfl, by decide, by decide⟩
    · exact .cons (.inl ⟨rfl, by decide⟩) (.cons (.inr (.named "lt" (by decide))) .nil)
  · refine .cons ⟨⟨by decide, [], .nil, rfl⟩, .start "a".toList [("b".toList, "1&#32;2".toList)], .start (.cons ⟨rfl, by decide +kernel, [['1'], "&#32;".toList, ['2']], ?_, by decide⟩ .nil),
      [" b = \"1&#32;2\"".toList], [], .cons ?_ .nil, by decide, by decide⟩ (.cons ⟨⟨by decide +kernel, ["&#x00E9;".toList, "&#60;".toList], ?_, by decide⟩, .close "a".toList, .close, " ".toList, by decide, rfl⟩ .nil)
    · exact .cons one (.cons (.inr (.inr (.decimal "32".toList (by decide) (by decide) (by decide +kernel)))) (.cons two .nil))
    · exact ⟨" ".toList, " ".toList, " ".toList, '"', by decide, by decide, by decide, by decide, .inl rfl, by decide, by decide⟩
    · exact .cons (.inr (.hexadecimal "00E9".toList (by decide) (by decide) (by decide +kernel))) (.cons (.inr (.decimal "60".toList (by decide) (by decide) (by decide +kernel))) .nil)

#guard ((parse "<a b='1\n2'>é&lt;</a>".toList).map fun e => (e.text, e.attrs.map Prod.snd)) = ((parse "<a b=\"1&#32;2\">&#xe9;&#60;</a>".toList).map fun e => (e.text, e.attrs.map Prod.snd))
#guard ((parse "<a b='1&#10;2'></a>".toList).map fun e => e.attrs.map Prod.snd) = some ["1\n2".toList]

end Verif.Xml
