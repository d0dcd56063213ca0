import Verif.Model.XmlText
import Verif.Lemmas.Nrml

/-!
# Lemmas about the texts of XML documents
-/

namespace Verif.Xml

open Verif Verif.EqCatalog Verif.Nrml Verif.Nrml.Spec

/-! ### Escaping -/

theorem escText_free (t : Text) : ∀ c ∈ escText t, c ≠ '<' ∧ c ≠ '\r' := by
  induction t with
  | nil => simp [escText]
  | cons a l ih =>
    intro c hc
    rw [escText, List.mem_append] at hc
    rcases hc with hc | hc
    · split_ifs at hc with h1 h2 h3 h4 <;> simp at hc
      · rcases hc with rfl | rfl | rfl | rfl <;> decide
      · rcases hc with rfl | rfl | rfl | rfl <;> decide
      · rcases hc with rfl | rfl | rfl | rfl | rfl <;> decide
      · rcases hc with rfl | rfl | rfl | rfl | rfl <;> decide
      · subst hc; exact ⟨h1, h4⟩
    · exact ih c hc

theorem escAttr_free (t : Text) : ∀ c ∈ escAttr t, c ≠ '<' ∧ c ≠ '\r' ∧ c ≠ '"' ∧ c ≠ '\n' ∧ c ≠ '\t' := by
  induction t with
  | nil => simp [escAttr]
  | cons a l ih =>
    intro c hc
    rw [escAttr, List.mem_append] at hc
    rcases hc with hc | hc
    · split_ifs at hc with h1 h2 h3 h4 h5 h6 h7 <;> simp at hc
      · rcases hc with rfl | rfl | rfl | rfl | rfl | rfl <;> decide
      · rcases hc with rfl | rfl | rfl | rfl <;> decide
      · rcases hc with rfl | rfl | rfl | rfl <;> decide
      · rcases hc with rfl | rfl | rfl | rfl | rfl <;> decide
      · rcases hc with rfl | rfl | rfl | rfl | rfl <;> decide
      · rcases hc with rfl | rfl | rfl | rfl | rfl <;> decide
      · rcases hc with rfl | rfl | rfl | rfl <;> decide
      · subst hc; exact ⟨h2, h6, h1, h5, h7⟩
    · exact ih c hc

theorem decode_lt (l : Text) : decode none ("&lt;".toList ++ l) = (decode none l).map ('<' :: ·) := by
  simp [decode, reference]
theorem decode_gt (l : Text) : decode none ("&gt;".toList ++ l) = (decode none l).map ('>' :: ·) := by
  simp [decode, reference]
theorem decode_amp (l : Text) : decode none ("&amp;".toList ++ l) = (decode none l).map ('&' :: ·) := by
  simp [decode, reference]
theorem decode_quot (l : Text) : decode none ("&quot;".toList ++ l) = (decode none l).map ('"' :: ·) := by
  simp [decode, reference]
theorem decode_cr (l : Text) : decode none ("&#13;".toList ++ l) = (decode none l).map ('\r' :: ·) := by
  simp [decode, reference, digits, charOf, xmlChar]
  rfl
theorem decode_lf (l : Text) : decode none ("&#10;".toList ++ l) = (decode none l).map ('\n' :: ·) := by
  simp [decode, reference, digits, charOf, xmlChar]
  rfl
theorem decode_tab (l : Text) : decode none ("&#9;".toList ++ l) = (decode none l).map ('\t' :: ·) := by
  simp [decode, reference, digits, charOf, xmlChar]
  rfl

theorem decode_char {c : Char} (h : c ≠ '&') (hx : xmlChar c = true) (l : Text) : decode none ([c] ++ l) = (decode none l).map (c :: ·) := by
  simp [decode, h, hx]

theorem decode_escText (t : Text) (h : xmlOk t = true) : decode none (escText t) = some t := by
  induction t with
  | nil => rfl
  | cons a l ih =>
    simp only [xmlOk, List.all_cons, Bool.and_eq_true] at h
    have ih := ih h.2
    rw [escText]
    by_cases h1 : a = '<'
    · rw [if_pos h1, decode_lt, ih, h1]; rfl
    rw [if_neg h1]
    by_cases h2 : a = '>'
    · rw [if_pos h2, decode_gt, ih, h2]; rfl
    rw [if_neg h2]
    by_cases h3 : a = '&'
    · rw [if_pos h3, decode_amp, ih, h3]; rfl
    rw [if_neg h3]
    by_cases h4 : a = '\r'
    · rw [if_pos h4, decode_cr, ih, h4]; rfl
    rw [if_neg h4, decode_char h3 h.1, ih]
    rfl

theorem decode_escAttr (t : Text) (h : xmlOk t = true) : decode none (escAttr t) = some t := by
  induction t with
  | nil => rfl
  | cons a l ih =>
    simp only [xmlOk, List.all_cons, Bool.and_eq_true] at h
    have ih := ih h.2
    rw [escAttr]
    by_cases h0 : a = '"'
    · rw [if_pos h0, decode_quot, ih, h0]; rfl
    rw [if_neg h0]
    by_cases h1 : a = '<'
    · rw [if_pos h1, decode_lt, ih, h1]; rfl
    rw [if_neg h1]
    by_cases h2 : a = '>'
    · rw [if_pos h2, decode_gt, ih, h2]; rfl
    rw [if_neg h2]
    by_cases h3 : a = '&'
    · rw [if_pos h3, decode_amp, ih, h3]; rfl
    rw [if_neg h3]
    by_cases h5 : a = '\n'
    · rw [if_pos h5, decode_lf, ih, h5]; rfl
    rw [if_neg h5]
    by_cases h4 : a = '\r'
    · rw [if_pos h4, decode_cr, ih, h4]; rfl
    rw [if_neg h4]
    by_cases h6 : a = '\t'
    · rw [if_pos h6, decode_tab, ih, h6]; rfl
    rw [if_neg h6, decode_char h3 h.1, ih]
    rfl

theorem attrText_escAttr (t : Text) (h : xmlOk t = true) : attrText (escAttr t) = some t := by
  unfold attrText
  rw [List.map_congr_left (g := id) fun c hc => by
    obtain ⟨-, -, -, h1, h2⟩ := escAttr_free t c hc
    simp [h1, h2], List.map_id]
  exact decode_escAttr t h

/-! ### Scanning -/

theorem scan_text (acc t rest : Text) (h : '<' ∉ t) : scan (.text acc) (t ++ rest) = scan (.text (acc ++ t)) rest := by
  induction t generalizing acc with
  | nil => simp
  | cons c l ih =>
    rw [List.mem_cons, not_or] at h
    rw [List.cons_append, scan, if_neg (Ne.symm h.1), ih _ h.2, List.append_assoc]
    rfl

/-- The inside of a tag is scanned up to its end. -/
def Closed (s : Text) : Prop := ∀ pre acc rest : Text, (acc ++ s).head? ≠ some '!' → scan (.tag pre acc none) (s ++ rest) = scan (.tag pre (acc ++ s) none) rest

theorem Closed.append {s t : Text} (hs : Closed s) (ht : Closed t) : Closed (s ++ t) := by
  intro pre acc rest h
  rw [List.append_assoc, hs, ht, List.append_assoc]
  · rwa [List.append_assoc]
  · intro hh
    apply h
    rw [← List.append_assoc, List.head?_append, hh]
    rfl

theorem closed_plain {s : Text} (h : ∀ c ∈ s, c ≠ '>' ∧ c ≠ '"' ∧ c ≠ '\'') : Closed s := by
  induction s with
  | nil => intro pre acc rest _; simp
  | cons c l ih =>
    have hc := h c List.mem_cons_self
    intro pre acc rest hh
    have hb : ¬ (acc = "!-".toList ∧ c = '-') := by
      rintro ⟨rfl, -⟩
      exact hh rfl
    rw [List.cons_append, scan, if_neg hc.1, if_neg hb, if_neg (by tauto), ih (fun c hc => h c (List.mem_cons_of_mem _ hc)), List.append_assoc]
    · rfl
    · rw [List.append_assoc]; exact hh

theorem scan_quoted {s : Text} (h : '"' ∉ s) (pre acc rest : Text) : scan (.tag pre acc (some '"')) (s ++ '"' :: rest) = scan (.tag pre (acc ++ s ++ ['"']) none) rest := by
  induction s generalizing acc with
  | nil => rw [List.nil_append, scan, if_pos rfl, List.append_nil]
  | cons c l ih =>
    rw [List.mem_cons, not_or] at h
    rw [List.cons_append, scan, if_neg (Ne.symm h.1), ih h.2]
    simp

theorem closed_quoted {s : Text} (h : '"' ∉ s) : Closed ('"' :: s ++ ['"']) := by
  intro pre acc rest hh
  have hb : ¬ (acc = "!-".toList ∧ '"' = '-') := by
    rintro ⟨-, h⟩
    exact absurd h (by decide)
  rw [List.cons_append, List.cons_append, scan, if_neg (by decide), if_neg hb, if_pos (.inl rfl), List.append_assoc, List.singleton_append, scan_quoted h]
  simp

/-- A list of tags is found in the text of them. -/
theorem scan_join (l : List (Text × Text)) (last : Text) (h : ∀ p ∈ l, '<' ∉ p.1 ∧ Closed p.2 ∧ p.2.head? ≠ some '!') (hl : '<' ∉ last) :
    scan (.text []) (join l ++ last) = some (l, last) := by
  induction l with
  | nil =>
    have := scan_text [] last [] hl
    rw [List.append_nil] at this
    simpa [join, scan] using this
  | cons p l ih =>
    obtain ⟨h1, h2, h3⟩ := h p List.mem_cons_self
    have : join (p :: l) ++ last = p.1 ++ ('<' :: (p.2 ++ ('>' :: (join l ++ last)))) := by simp [join]
    rw [this, scan_text _ _ _ h1, scan, if_pos rfl, List.nil_append, h2 _ _ _ (by simpa using h3), scan, if_pos rfl, ih fun q hq => h q (List.mem_cons_of_mem _ hq)]
    simp

theorem lineEnds_id (b : Bool) (t : Text) (h : '\r' ∉ t) (hb : b = false) : lineEnds b t = t := by
  induction t generalizing b with
  | nil => rfl
  | cons c l ih =>
    rw [List.mem_cons, not_or] at h
    subst hb
    rw [lineEnds, if_neg (Ne.symm h.1), if_neg (by simp), ih false h.2 rfl]

/-! ### Attributes -/

theorem attributes_name (acc m rest : Text) (h : ∀ c ∈ m, c ≠ '=' ∧ isBlank c = false) : attributes (.name acc) (m ++ '=' :: rest) = attributes (.equals (acc ++ m)) rest := by
  induction m generalizing acc with
  | nil => simp [attributes]
  | cons c l ih =>
    have hc := h c List.mem_cons_self
    rw [List.cons_append, attributes, if_neg hc.1, hc.2, if_neg (by simp), ih _ fun c hc => h c (List.mem_cons_of_mem _ hc), List.append_assoc]
    rfl

theorem attributes_value (n acc u rest : Text) (h : ∀ c ∈ u, c ≠ '"' ∧ c ≠ '<') :
    attributes (.value n '"' acc) (u ++ '"' :: rest) = (attrText (acc ++ u)).bind fun v => (attributes .after rest).map ((n, v) :: ·) := by
  induction u generalizing acc with
  | nil => simp [attributes]
  | cons c l ih =>
    have hc := h c List.mem_cons_self
    rw [List.cons_append, attributes, if_neg hc.1, if_neg hc.2, ih _ fun c hc => h c (List.mem_cons_of_mem _ hc), List.append_assoc]
    rfl

/-- The characters of names. -/
def NameChar (c : Char) : Prop := isBlank c = false ∧ c ∉ ['=', '<', '>', '"', '\'', '/', '&', '!', '?']

def GoodName (n : Text) : Prop := n ≠ [] ∧ ∀ c ∈ n, NameChar c

theorem attributes_write (as : List (Text × Text)) (h : ∀ a ∈ as, GoodName a.1 ∧ xmlOk a.2 = true) : attributes .after (as.flatMap writeAttr) = some as := by
  induction as with
  | nil => rfl
  | cons a l ih =>
    obtain ⟨⟨h1, h2⟩, h3⟩ := h a List.mem_cons_self
    obtain ⟨n, v⟩ := a
    cases n with
    | nil => exact absurd rfl h1
    | cons c m =>
      have hc := h2 c List.mem_cons_self
      have : ((c :: m, v) :: l).flatMap writeAttr = ' ' :: c :: (m ++ '=' :: '"' :: (escAttr v ++ '"' :: l.flatMap writeAttr)) := by simp [writeAttr]
      rw [this, attributes, if_pos (by decide), attributes, hc.1, if_neg (by simp), if_neg (by rintro rfl; exact hc.2 (by simp)),
        attributes_name [c] m _ (fun c' hc' => ⟨fun hh => (h2 c' (List.mem_cons_of_mem _ hc')).2 (by simp [hh]), (h2 c' (List.mem_cons_of_mem _ hc')).1⟩),
        attributes, if_pos (.inl rfl), attributes_value _ _ _ _ (fun c' hc' => ⟨(escAttr_free v c' hc').2.2.1, (escAttr_free v c' hc').1⟩), List.nil_append, attrText_escAttr v h3,
        ih fun a ha => h a (List.mem_cons_of_mem _ ha)]
      rfl

/-! ### Names -/

/-- A local name: not empty, no blanks, no markup, no colon. -/
def LocalName (s : String) : Prop := s.toList ≠ [] ∧ ∀ c ∈ s.toList, NameChar c ∧ c ≠ ':'

def TagName (q : QName) : Prop := (q.ns = .nrml ∨ q.ns = .gml) ∧ LocalName q.loc

def AttrName (q : QName) : Prop := (q.ns = .none ∧ q.loc ≠ "xmlns" ∨ q.ns = .gml) ∧ LocalName q.loc

instance (c : Char) : Decidable (NameChar c) := by unfold NameChar; infer_instance
instance (s : String) : Decidable (LocalName s) := by unfold LocalName; infer_instance
instance (q : QName) : Decidable (TagName q) := by unfold TagName; infer_instance
instance (q : QName) : Decidable (AttrName q) := by unfold AttrName; infer_instance

theorem writeName_good {q : QName} (h : LocalName q.loc) : GoodName (writeName q) := by
  unfold writeName
  split
  · refine ⟨by simp, fun c hc => ?_⟩
    rcases List.mem_append.1 hc with hc | hc
    · have : ∀ c ∈ "gml:".toList, NameChar c := by decide
      exact this c hc
    · exact (h.2 c hc).1
  · exact ⟨h.1, fun c hc => (h.2 c hc).1⟩

/-- The scope of the elements of a written document. -/
def std : Scope := [("gml".toList, gmlUri), ([], nrmlUri)]

theorem span_none {l : Text} (h : ∀ c ∈ l, c ≠ ':') : l.span (fun c => decide (c ≠ ':')) = (l, []) := by
  have h1 := List.takeWhile_append_of_pos (p := fun c : Char => decide (c ≠ ':')) (l₁ := l) (l₂ := []) (by simpa using h)
  have h2 := List.dropWhile_append_of_pos (p := fun c : Char => decide (c ≠ ':')) (l₁ := l) (l₂ := []) (by simpa using h)
  rw [List.append_nil] at h1 h2
  rw [List.span_eq_takeWhile_dropWhile, h1, h2]
  simp

theorem span_gml (l : Text) : ("gml:".toList ++ l).span (fun c => decide (c ≠ ':')) = ("gml".toList, ':' :: l) := by
  rw [List.span_eq_takeWhile_dropWhile]
  simp

theorem ns_gml : nsOf gmlUri = .gml := by decide
theorem ns_nrml : nsOf nrmlUri = .nrml := by decide

theorem qname_gml (d : Bool) (q : QName) (hn : q.ns = .gml) : qname std d (writeName q) = some q := by
  obtain ⟨n, l⟩ := q
  simp only at hn
  subst hn
  unfold qname writeName
  simp only [span_gml]
  have : std.lookup "gml".toList = some gmlUri := by decide
  rw [this]
  simp [ns_gml]

theorem qname_tag {q : QName} (h : TagName q) : qname std true (writeName q) = some q := by
  rcases h.1 with hn | hn
  · obtain ⟨n, l⟩ := q
    simp only at hn
    subst hn
    unfold qname writeName
    simp only [span_none fun c hc => (h.2.2 c hc).2]
    have : std.lookup [] = some nrmlUri := by decide
    rw [this]
    simp [ns_nrml]
  · exact qname_gml true q hn

theorem qname_attr {q : QName} (h : AttrName q) : qname std false (writeName q) = some q := by
  rcases h.1 with hn | hn
  · obtain ⟨n, l⟩ := q
    obtain ⟨hn, -⟩ := hn
    simp only at hn
    subst hn
    unfold qname writeName
    simp only [span_none fun c hc => (h.2.2 c hc).2]
    simp
  · exact qname_gml false q hn

/-- The names of attributes are no declarations. -/
theorem not_decl {q : QName} (h : AttrName q) : ¬ (writeName q = "xmlns".toList ∨ (writeName q).take 6 = "xmlns:".toList) := by
  rcases h.1 with ⟨hn, hx⟩ | hn
  · obtain ⟨n, l⟩ := q
    simp only at hn
    subst hn
    rintro (hh | hh)
    · exact hx (String.toList_injective hh)
    · have : ':' ∈ (writeName ⟨.none, l⟩).take 6 := by rw [hh]; decide
      exact (h.2.2 _ (List.mem_of_mem_take this)).2 rfl
  · obtain ⟨n, l⟩ := q
    simp only at hn
    subst hn
    simp [writeName]

/-! ### Start tags -/

theorem startOf_tag {n : Text} {as : List (Text × Text)} (hn : GoodName n) (ha : ∀ a ∈ as, GoodName a.1 ∧ xmlOk a.2 = true) :
    startOf (n ++ as.flatMap writeAttr) = some (n, as) := by
  have hp : ∀ c ∈ n, (!isBlank c) = true := fun c hc => by rw [(hn.2 c hc).1]; rfl
  have h1 : (n ++ as.flatMap writeAttr).takeWhile (fun c => !isBlank c) = n := by
    rw [List.takeWhile_append_of_pos hp]
    cases as with
    | nil => simp
    | cons a l => simp [writeAttr, isBlank]
  have h2 : (n ++ as.flatMap writeAttr).dropWhile (fun c => !isBlank c) = as.flatMap writeAttr := by
    rw [List.dropWhile_append_of_pos hp]
    cases as with
    | nil => simp
    | cons a l => simp [writeAttr, isBlank]
  unfold startOf
  simp only [h1, h2, if_neg hn.1, attributes_write as ha]
  rfl

/-- The attributes a document can hold. -/
def AttrsOk (attrs : List (QName × Text)) : Prop := (∀ a ∈ attrs, AttrName a.1 ∧ xmlOk a.2 = true) ∧ (attrs.map Prod.fst).Nodup

def named (attrs : List (QName × Text)) : List (Text × Text) := attrs.map fun a => (writeName a.1, a.2)

theorem named_good {attrs : List (QName × Text)} (h : AttrsOk attrs) : ∀ a ∈ named attrs, GoodName a.1 ∧ xmlOk a.2 = true := by
  intro a ha
  obtain ⟨b, hb, rfl⟩ := List.mem_map.1 ha
  exact ⟨writeName_good (h.1 b hb).1.2, (h.1 b hb).2⟩

theorem declared_named {attrs : List (QName × Text)} (h : AttrsOk attrs) : declared (named attrs) = [] := by
  unfold declared
  rw [List.filterMap_eq_nil_iff]
  intro a ha
  obtain ⟨b, hb, rfl⟩ := List.mem_map.1 ha
  have := not_decl (h.1 b hb).1
  rw [not_or] at this
  simp only [if_neg this.1, if_neg this.2]

theorem plain_named {attrs : List (QName × Text)} (h : AttrsOk attrs) : plainAttrs std (named attrs) = some attrs := by
  unfold plainAttrs
  rw [List.filter_eq_self.2]
  · replace h := h.1
    unfold named
    induction attrs with
    | nil => rfl
    | cons a l ih =>
      rw [List.map_cons, List.mapM_cons, ih fun b hb => h b (List.mem_cons_of_mem _ hb), qname_attr (h a List.mem_cons_self).1]
      rfl
  · intro a ha
    obtain ⟨b, hb, rfl⟩ := List.mem_map.1 ha
    simpa using not_decl (h.1 b hb).1

theorem rootDecls_good : ∀ a ∈ rootDecls, GoodName a.1 ∧ xmlOk a.2 = true := by
  have h : ∀ a ∈ rootDecls, (a.1 ≠ [] ∧ ∀ c ∈ a.1, NameChar c) ∧ xmlOk a.2 = true := by decide +kernel
  exact h

/-- The scope and the declarations of the elements of a written document. -/
def Fits (decls : List (Text × Text)) (sc : Scope) : Prop := decls = [] ∧ sc = std ∨ decls = rootDecls ∧ sc = []

theorem Fits.good {decls sc} (h : Fits decls sc) {attrs : List (QName × Text)} (ha : AttrsOk attrs) : ∀ a ∈ decls ++ named attrs, GoodName a.1 ∧ xmlOk a.2 = true := by
  intro a hm
  rcases List.mem_append.1 hm with hm | hm
  · rcases h with ⟨rfl, -⟩ | ⟨rfl, -⟩
    · simp at hm
    · exact rootDecls_good a hm
  · exact named_good ha a hm

theorem begin_tag {decls sc} (h : Fits decls sc) {q : QName} {attrs : List (QName × Text)} (hq : TagName q) (ha : AttrsOk attrs) :
    begin sc (startTag decls q attrs) = some ⟨writeName q, std, q, attrs, none, [], true⟩ := by
  have hs : startOf (startTag decls q attrs) = some (writeName q, decls ++ named attrs) := startOf_tag (writeName_good hq.2) (h.good ha)
  have hd : declared (decls ++ named attrs) ++ sc = std := by
    have : declared (decls ++ named attrs) = declared decls ++ declared (named attrs) := by unfold declared; rw [List.filterMap_append]
    rw [this, declared_named ha, List.append_nil]
    rcases h with ⟨rfl, rfl⟩ | ⟨rfl, rfl⟩
    · rfl
    · decide +kernel
  have hp : plainAttrs std (decls ++ named attrs) = some attrs := by
    rw [← plain_named ha]
    unfold plainAttrs
    rw [List.filter_append]
    rcases h with ⟨rfl, rfl⟩ | ⟨rfl, rfl⟩
    · rfl
    · have : rootDecls.filter (fun a => decide ¬ (a.1 = "xmlns".toList ∨ a.1.take 6 = "xmlns:".toList)) = [] := by decide +kernel
      rw [this, List.nil_append]
  unfold begin
  simp only [hs, Option.bind_eq_bind, Option.bind_some, hd, qname_tag hq, hp, if_pos ha.2]

theorem start_head {decls : List (Text × Text)} {q : QName} {attrs : List (QName × Text)} (hq : TagName q) : ∃ c l, NameChar c ∧ startTag decls q attrs = c :: l := by
  obtain ⟨h1, h2⟩ := writeName_good hq.2
  unfold startTag
  revert h1 h2
  generalize writeName q = n
  intro h1 h2
  cases n with
  | nil => exact absurd rfl h1
  | cons c m => exact ⟨c, _, h2 c List.mem_cons_self, rfl⟩

theorem writeName_last {q : QName} (hq : LocalName q.loc) : ∃ c l, NameChar c ∧ writeName q = l ++ [c] := by
  obtain ⟨h1, h2⟩ := writeName_good hq
  exact ⟨_, _, h2 _ (List.getLast_mem h1), (List.dropLast_append_getLast h1).symm⟩

theorem start_last {decls : List (Text × Text)} {q : QName} {attrs : List (QName × Text)} (hq : TagName q) : (startTag decls q attrs).getLast? ≠ some '/' := by
  unfold startTag
  generalize (decls ++ attrs.map fun a => (writeName a.1, a.2)) = as
  rcases List.eq_nil_or_concat as with rfl | ⟨l, a, rfl⟩
  · obtain ⟨c, l, hc, he⟩ := writeName_last hq.2
    rw [he]
    simp only [List.flatMap_nil, List.append_nil, List.getLast?_append, List.getLast?_singleton, Option.some_or, ne_eq, Option.some.injEq]
    rintro rfl
    exact hc.2 (by simp)
  · have : writeName q ++ (l.concat a).flatMap writeAttr = (writeName q ++ l.flatMap writeAttr ++ (' ' :: a.1 ++ "=\"".toList ++ escAttr a.2)) ++ ['"'] := by
      simp [writeAttr]
    rw [this, List.getLast?_append]
    simp

theorem closed_name {n : Text} (h : ∀ c ∈ n, NameChar c) : Closed n :=
  closed_plain fun c hc => ⟨fun e => (h c hc).2 (by simp [e]), fun e => (h c hc).2 (by simp [e]), fun e => (h c hc).2 (by simp [e])⟩

theorem closed_attrs (as : List (Text × Text)) (h : ∀ a ∈ as, GoodName a.1 ∧ xmlOk a.2 = true) : Closed (as.flatMap writeAttr) := by
  induction as with
  | nil => exact closed_plain (by simp)
  | cons a l ih =>
    have h1 := (h a List.mem_cons_self).1.2
    have : (a :: l).flatMap writeAttr = [' '] ++ a.1 ++ ['='] ++ ('"' :: escAttr a.2 ++ ['"']) ++ l.flatMap writeAttr := by simp [writeAttr]
    rw [this]
    refine Closed.append (.append (.append (.append (closed_plain (by decide)) (closed_name h1)) (closed_plain (by decide))) (closed_quoted ?_)) (ih fun a ha => h a (List.mem_cons_of_mem _ ha))
    exact fun hm => (escAttr_free _ _ hm).2.2.1 rfl

theorem closed_start {decls sc} (h : Fits decls sc) {q : QName} {attrs : List (QName × Text)} (hq : TagName q) (ha : AttrsOk attrs) : Closed (startTag decls q attrs) :=
  Closed.append (closed_name (writeName_good hq.2).2) (closed_attrs _ (h.good ha))

/-! ### The tree of the tags -/

/-- A tree that can be written and read back: names and values as above, no text beside children. -/
inductive Plain : Elem → Prop
  | leaf (t a x) : TagName t → AttrsOk a → (∀ u, x = some u → xmlOk u = true) → Plain (.mk t a x [])
  | node (t a c cs) : TagName t → AttrsOk a → Plain c → (∀ e ∈ cs, Plain e) → Plain (.mk t a none (c :: cs))

mutual
/-- What is read back of a tree: an empty text is no text, and elements with children get the indentation of their first child. -/
def reread (level : ℕ) : Elem → Elem
  | .mk t a x [] => .mk t a (if x = some [] then none else x) []
  | .mk t a _ (c :: cs) => .mk t a (some (newline (level + 1))) (reread (level + 1) c :: rereadList (level + 1) cs)
def rereadList (level : ℕ) : List Elem → List Elem
  | [] => []
  | c :: cs => reread level c :: rereadList level cs
end

theorem decode_newline (n : ℕ) : decode none (newline n) = some (newline n) := by
  have : ∀ k, decode none (List.replicate k ' ') = some (List.replicate k ' ') := by
    intro k
    induction k with
    | zero => rfl
    | succ k ih =>
      rw [List.replicate_succ]
      have := decode_char (c := ' ') (by decide) (by decide) (List.replicate k ' ')
      rw [ih] at this
      exact this
  have h := decode_char (c := '\n') (by decide) (by decide) (List.replicate (2 * n) ' ')
  rw [this] at h
  exact h

/-- A start tag or an empty element. -/
def Opens (s : Text) : Prop := isComment s = false ∧ ¬ (s.head? = some '!' ∨ s.head? = some '?') ∧ s.head? ≠ some '/'

theorem opens_cons {c : Char} (l : Text) (h : NameChar c) : Opens (c :: l) := by
  have : c ≠ '!' ∧ c ≠ '?' ∧ c ≠ '/' := ⟨fun e => h.2 (by simp [e]), fun e => h.2 (by simp [e]), fun e => h.2 (by simp [e])⟩
  refine ⟨?_, ?_, ?_⟩
  · simp [isComment, this.1]
  · simp [this.1, this.2.1]
  · simp [this.2.2]

theorem opens_start {decls : List (Text × Text)} {q : QName} {attrs : List (QName × Text)} (hq : TagName q) (l : Text) : Opens (startTag decls q attrs ++ l) := by
  obtain ⟨c, m, hc, he⟩ := start_head (decls := decls) (attrs := attrs) hq
  rw [he]
  exact opens_cons _ hc

theorem build_empty {f : Frame} {st : List Frame} {x t s : Text} {rest} {g : Frame} (hx : decode none t = some x) (hs : Opens (s ++ ['/'])) (hg : begin f.scope s = some g) :
    build (f :: st) ((t, s ++ ['/']) :: rest) = build ((f.addText x).addKid g.elem :: st) rest := by
  rw [build, hx]
  simp only
  rw [hs.1, if_neg (by simp), if_neg hs.2.1, if_neg hs.2.2, if_pos (by simp), List.dropLast_concat, hg]
  rfl

theorem build_start {f : Frame} {st : List Frame} {x t s : Text} {rest} {g : Frame} (hx : decode none t = some x) (hs : Opens s) (hl : s.getLast? ≠ some '/') (hg : begin f.scope s = some g) :
    build (f :: st) ((t, s) :: rest) = build (g :: f.addText x :: st) rest := by
  rw [build, hx]
  simp only
  rw [hs.1, if_neg (by simp), if_neg hs.2.1, if_neg hs.2.2, if_neg hl, hg]
  rfl

theorem end_name {q : QName} (hq : LocalName q.loc) : ((('/' :: writeName q).drop 1).reverse.dropWhile isBlank).reverse = writeName q := by
  obtain ⟨c, l, hc, he⟩ := writeName_last hq
  simp [he, hc.1]

theorem build_end {f g : Frame} {st : List Frame} {x t : Text} {rest} {q : QName} (hx : decode none t = some x) (hq : LocalName q.loc) (hn : f.name = writeName q) :
    build (f :: g :: st) ((t, '/' :: writeName q) :: rest) = build (g.addKid (f.addText x).elem :: st) rest := by
  rw [build, hx]
  simp only
  rw [if_neg (by simp [isComment]), if_neg (by simp), if_pos (by simp), end_name hq, if_pos hn.symm]

theorem build_last {f : Frame} {x t : Text} {rest} {q : QName} (hx : decode none t = some x) (hq : LocalName q.loc) (hn : f.name = writeName q) :
    build [f] ((t, '/' :: writeName q) :: rest) = some ((f.addText x).elem, rest) := by
  rw [build, hx]
  simp only
  rw [if_neg (by simp [isComment]), if_neg (by simp), if_pos (by simp), end_name hq, if_pos hn.symm]

mutual
theorem build_tags (level : ℕ) (pre x : Text) (f : Frame) (st : List Frame) (rest : List (Text × Text)) (hx : decode none pre = some x) (hf : f.scope = std) :
    ∀ e, Plain e → build (f :: st) (tags [] level pre e ++ rest) = build ((f.addText x).addKid (reread level e) :: st) rest
  | .mk t a none [], h => by
    cases h with
    | leaf _ _ _ ht ha hu =>
      rw [tags, reread, List.singleton_append, build_empty hx (opens_start ht _) (begin_tag (.inl ⟨rfl, hf⟩) ht ha)]
      rfl
  | .mk t a (some u) [], h => by
    cases h with
    | leaf _ _ _ ht ha hu =>
      have ho := opens_start (decls := []) (attrs := a) ht []
      rw [List.append_nil] at ho
      rw [tags, reread, List.cons_append, List.singleton_append, build_start hx ho (start_last ht) (begin_tag (.inl ⟨rfl, hf⟩) ht ha),
        build_end (decode_escText u (hu u rfl)) ht.2 rfl]
      simp only [Frame.addText, Frame.elem, if_true, Option.some.injEq]
  | .mk t a none (c :: cs), h => by
    cases h with
    | node _ _ _ _ ht ha hc hcs =>
      have ho := opens_start (decls := []) (attrs := a) ht []
      rw [List.append_nil] at ho
      rw [tags, reread, List.cons_append, build_start hx ho (start_last ht) (begin_tag (.inl ⟨rfl, hf⟩) ht ha), List.append_assoc, List.append_assoc,
        build_tags (level + 1) _ _ _ _ _ (decode_newline _) rfl c hc, build_list (level + 1) _ _ _ rfl rfl cs hcs, List.singleton_append, build_end (decode_newline _) ht.2 rfl]
      rfl
  | .mk t a (some u) (c :: cs), h => by cases h
theorem build_list (level : ℕ) (f : Frame) (st : List Frame) (rest : List (Text × Text)) (hs : f.fresh = false) (hf : f.scope = std) :
    ∀ cs, (∀ e ∈ cs, Plain e) → build (f :: st) (tagsList level cs ++ rest) = build ({ f with kids := f.kids ++ rereadList level cs } :: st) rest
  | [], _ => by
    rw [tagsList, rereadList, List.append_nil]
    rfl
  | c :: cs, h => by
    have ha : f.addText (newline level) = f := by simp [Frame.addText, hs]
    rw [tagsList, rereadList, List.append_assoc, build_tags level _ _ _ _ _ (decode_newline _) hf c (h c List.mem_cons_self), ha,
      build_list level _ _ _ (by exact hs) (by exact hf) cs fun e he => h e (List.mem_cons_of_mem _ he)]
    simp [Frame.addKid]
end

theorem build_root (pre x : Text) (hx : decode none pre = some x) (hb : x.all isBlank = true) (e : Elem) (h : Plain e) :
    build [] (tags rootDecls 0 pre e) = some (reread 0 e, []) := by
  have hc : ∀ s, Opens s → ∀ rest, build [] ((pre, s) :: rest) =
      if s.getLast? = some '/' then (begin [] s.dropLast).map fun f => (f.elem, rest) else (begin [] s).bind fun f => build [f] rest := by
    intro s hs rest
    rw [build, hx]
    simp only
    rw [hs.1, if_neg (by simp), if_neg]
    rw [hb]
    have := hs.2
    tauto
  cases h with
  | leaf t a u ht ha hu =>
    cases u with
    | none =>
      rw [tags, reread, hc _ (opens_start ht _), if_pos (by simp), List.dropLast_concat, begin_tag (.inr ⟨rfl, rfl⟩) ht ha]
      rfl
    | some u =>
      have ho := opens_start (decls := rootDecls) (attrs := a) ht []
      rw [List.append_nil] at ho
      rw [tags, reread, hc _ ho, if_neg (start_last ht), begin_tag (.inr ⟨rfl, rfl⟩) ht ha, Option.bind_some, build_last (decode_escText u (hu u rfl)) ht.2 rfl]
      simp only [Frame.addText, Frame.elem, if_true, Option.some.injEq]
  | node t a c cs ht ha h1 h2 =>
    have ho := opens_start (decls := rootDecls) (attrs := a) ht []
    rw [List.append_nil] at ho
    rw [tags, reread, hc _ ho, if_neg (start_last ht), begin_tag (.inr ⟨rfl, rfl⟩) ht ha, Option.bind_some, List.append_assoc,
      build_tags 1 _ _ _ _ _ (decode_newline _) rfl c h1, build_list 1 _ _ _ rfl rfl cs h2, build_last (decode_newline _) ht.2 rfl]
    rfl

/-! ### The text of a tree -/

/-- A tag and the text before it that the scanner finds again. -/
def Found (p : Text × Text) : Prop := ('<' ∉ p.1 ∧ Closed p.2 ∧ p.2.head? ≠ some '!') ∧ '\r' ∉ p.1 ∧ '\r' ∉ p.2

theorem newline_free (n : ℕ) : '<' ∉ newline n ∧ '\r' ∉ newline n := by
  simp [newline]

theorem escText_text (t : Text) : '<' ∉ escText t ∧ '\r' ∉ escText t := ⟨fun h => (escText_free t _ h).1 rfl, fun h => (escText_free t _ h).2 rfl⟩

theorem name_cr {n : Text} (h : ∀ c ∈ n, NameChar c) : '\r' ∉ n := fun hm => absurd (h _ hm).1 (by decide)

theorem attrs_cr (as : List (Text × Text)) (h : ∀ a ∈ as, GoodName a.1 ∧ xmlOk a.2 = true) : '\r' ∉ as.flatMap writeAttr := by
  intro hm
  obtain ⟨a, ha, hm⟩ := List.mem_flatMap.1 hm
  have h1 := name_cr (h a ha).1.2
  have h2 : '\r' ∉ escAttr a.2 := fun hm => (escAttr_free _ _ hm).2.1 rfl
  simp [writeAttr, h1, h2] at hm

theorem start_cr {decls sc} (h : Fits decls sc) {q : QName} {attrs : List (QName × Text)} (hq : TagName q) (ha : AttrsOk attrs) : '\r' ∉ startTag decls q attrs := by
  unfold startTag
  rw [List.mem_append, not_or]
  exact ⟨name_cr (writeName_good hq.2).2, attrs_cr _ (h.good ha)⟩

theorem found_start {decls sc} (h : Fits decls sc) {q : QName} {attrs : List (QName × Text)} (hq : TagName q) (ha : AttrsOk attrs) {pre : Text} (hp : '<' ∉ pre ∧ '\r' ∉ pre) :
    Found (pre, startTag decls q attrs) := by
  have ho := opens_start (decls := decls) (attrs := attrs) hq []
  rw [List.append_nil] at ho
  exact ⟨⟨hp.1, closed_start h hq ha, fun e => ho.2.1 (.inl e)⟩, hp.2, start_cr h hq ha⟩

theorem found_empty {decls sc} (h : Fits decls sc) {q : QName} {attrs : List (QName × Text)} (hq : TagName q) (ha : AttrsOk attrs) {pre : Text} (hp : '<' ∉ pre ∧ '\r' ∉ pre) :
    Found (pre, startTag decls q attrs ++ ['/']) := by
  have ho := opens_start (decls := decls) (attrs := attrs) hq ['/']
  refine ⟨⟨hp.1, (closed_start h hq ha).append (closed_plain (by decide)), fun e => ho.2.1 (.inl e)⟩, hp.2, ?_⟩
  simp only [List.mem_append, not_or]
  exact ⟨start_cr h hq ha, by decide⟩

theorem found_end {q : QName} (hq : TagName q) {pre : Text} (hp : '<' ∉ pre ∧ '\r' ∉ pre) : Found (pre, '/' :: writeName q) := by
  refine ⟨⟨hp.1, ?_, by simp⟩, hp.2, ?_⟩
  · exact Closed.append (s := ['/']) (closed_plain (by decide)) (closed_name (writeName_good hq.2).2)
  · simp only [List.mem_cons, not_or]
    exact ⟨by decide, name_cr (writeName_good hq.2).2⟩

mutual
theorem found_tags {decls sc} (hd : Fits decls sc) (level : ℕ) (pre : Text) (hp : '<' ∉ pre ∧ '\r' ∉ pre) : ∀ e, Plain e → ∀ p ∈ tags decls level pre e, Found p
  | .mk t a none [], h => by
    cases h with
    | leaf _ _ _ ht ha hu =>
      intro p hm
      rw [tags, List.mem_singleton] at hm
      subst hm
      exact found_empty hd ht ha hp
  | .mk t a (some u) [], h => by
    cases h with
    | leaf _ _ _ ht ha hu =>
      intro p hm
      rw [tags, List.mem_cons, List.mem_singleton] at hm
      rcases hm with rfl | rfl
      · exact found_start hd ht ha hp
      · exact found_end ht (escText_text u)
  | .mk t a none (c :: cs), h => by
    cases h with
    | node _ _ _ _ ht ha hc hcs =>
      intro p hm
      rw [tags, List.mem_cons, List.mem_append, List.mem_append, List.mem_singleton] at hm
      rcases hm with rfl | (hm | hm) | rfl
      · exact found_start hd ht ha hp
      · exact found_tags (.inl ⟨rfl, rfl⟩) _ _ (newline_free _) c hc p hm
      · exact found_list _ cs hcs p hm
      · exact found_end ht (newline_free _)
  | .mk t a (some u) (c :: cs), h => by cases h
theorem found_list (level : ℕ) : ∀ cs, (∀ e ∈ cs, Plain e) → ∀ p ∈ tagsList level cs, Found p
  | [], _ => by simp [tagsList]
  | c :: cs, h => by
    intro p hm
    rw [tagsList, List.mem_append] at hm
    rcases hm with hm | hm
    · exact found_tags (.inl ⟨rfl, rfl⟩) _ _ (newline_free _) c (h c List.mem_cons_self) p hm
    · exact found_list level cs (fun e he => h e (List.mem_cons_of_mem _ he)) p hm
end

theorem join_cr (l : List (Text × Text)) (h : ∀ p ∈ l, '\r' ∉ p.1 ∧ '\r' ∉ p.2) : '\r' ∉ join l := by
  intro hm
  obtain ⟨p, hp, hm⟩ := List.mem_flatMap.1 hm
  simp [(h p hp).1, (h p hp).2] at hm

theorem scan_decl (rest : Text) : scan (.text []) ('<' :: "?xml version='1.0' encoding='utf-8'?".toList ++ '>' :: rest) =
    (scan (.text []) rest).map fun r => (([], "?xml version='1.0' encoding='utf-8'?".toList) :: r.1, r.2) := by
  simp [scan]

/-- The text of a tree is read back. -/
theorem parse_write (e : Elem) (h : Plain e) : parse (write e) = some (reread 0 e) := by
  have hf := found_tags (.inr ⟨rfl, rfl⟩) 0 ['\n'] (by decide) e h
  have hw : write e = '<' :: "?xml version='1.0' encoding='utf-8'?".toList ++ '>' :: (join (tags rootDecls 0 ['\n'] e) ++ ['\n']) := by
    simp [write, join]
  have hc : '\r' ∉ write e := by
    have := join_cr _ fun p hp => (hf p hp).2
    rw [hw]
    simp [this]
  unfold parse
  rw [lineEnds_id false _ hc rfl, hw, scan_decl, scan_join _ _ (fun p hp => (hf p hp).1) (by decide)]
  have hs : ∀ l, skipDecl (([], "?xml version='1.0' encoding='utf-8'?".toList) :: l) = l := by
    intro l
    simp [skipDecl]
  simp only [Option.map_some, hs, build_root ['\n'] ['\n'] (by decide) (by decide) e h]
  rfl

end Verif.Xml
