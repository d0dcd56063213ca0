import Verif.Props.XmlComments

/-!
# The layout of tags (C214)

How a source model file is typed does not matter: which quotation marks are around the values of attributes, and what blanks stand between and after them.
-/

namespace Verif.Xml

open Verif Verif.EqCatalog Verif.Nrml

namespace Spec

def Gap (b : Text) : Prop := ∀ c ∈ b, c = ' ' ∨ c = '\t' ∨ c = '\n'

/-- An attribute with its value, typed in some way. -/
def AttrTyped (a : Text × Text) (t : Text) : Prop :=
  ∃ b0 b1 b2 : Text, ∃ q : Char, Gap b0 ∧ b0 ≠ [] ∧ Gap b1 ∧ Gap b2 ∧ (q = '"' ∨ q = '\'') ∧ q ∉ a.2 ∧ t = b0 ++ a.1 ++ b1 ++ '=' :: b2 ++ q :: a.2 ++ [q]

/-- What a tag says. -/
inductive Tag where
  | start (name : Text) (attrs : List (Text × Text))
  | empty (name : Text) (attrs : List (Text × Text))
  | close (name : Text)

/-- Names without blanks and markup, values without `<`, no carriage returns. -/
def Tag.Ok : Tag → Prop
  | .start n as => GoodName n ∧ ∀ a ∈ as, GoodName a.1 ∧ '<' ∉ a.2 ∧ '\r' ∉ a.2
  | .empty n as => GoodName n ∧ ∀ a ∈ as, GoodName a.1 ∧ '<' ∉ a.2 ∧ '\r' ∉ a.2
  | .close n => GoodName n

/-- A tag typed in some way. -/
def Typed : Tag → Text → Prop
  | .start n as, s => ∃ ts b, List.Forall₂ AttrTyped as ts ∧ Gap b ∧ s = n ++ ts.flatten ++ b
  | .empty n as, s => ∃ ts b, List.Forall₂ AttrTyped as ts ∧ Gap b ∧ s = n ++ ts.flatten ++ b ++ ['/']
  | .close n, s => ∃ b, Gap b ∧ s = '/' :: n ++ b

end Spec

open Spec

theorem blanks_blank {b : Text} (h : Gap b) : ∀ c ∈ b, isBlank c = true := fun c hc => by
  rcases h c hc with rfl | rfl | rfl <;> decide

theorem attributes_after {b rest : Text} (h : Gap b) (hne : b ≠ []) : attributes .after (b ++ rest) = attributes .between rest := by
  have hb : ∀ b : Text, Gap b → attributes .between (b ++ rest) = attributes .between rest := by
    intro b h
    induction b with
    | nil => rfl
    | cons c b ih =>
      rw [List.cons_append, attributes, if_pos (blanks_blank h c List.mem_cons_self)]
      exact ih fun c hc => h c (List.mem_cons_of_mem _ hc)
  cases b with
  | nil => exact absurd rfl hne
  | cons c b =>
    rw [List.cons_append, attributes, if_pos (blanks_blank h c List.mem_cons_self)]
    exact hb b fun c hc => h c (List.mem_cons_of_mem _ hc)

theorem attributes_end {b : Text} (h : Gap b) : attributes .after b = some [] := by
  cases b with
  | nil => rfl
  | cons c b =>
    have := attributes_after (rest := []) h (by simp)
    rw [List.append_nil] at this
    rw [this]
    rfl

theorem attributes_equals {b rest n : Text} {q : Char} (h : Gap b) (hq : q = '"' ∨ q = '\'') : attributes (.equals n) (b ++ q :: rest) = attributes (.value n q []) rest := by
  induction b with
  | nil => rw [List.nil_append, attributes, if_pos hq]
  | cons c b ih =>
    have hc := h c List.mem_cons_self
    rw [List.cons_append, attributes, if_neg (by rcases hc with rfl | rfl | rfl <;> decide), if_pos (blanks_blank h c List.mem_cons_self)]
    exact ih fun c hc => h c (List.mem_cons_of_mem _ hc)

theorem attributes_named {b rest n : Text} (h : Gap b) : attributes (.named n) (b ++ '=' :: rest) = attributes (.equals n) rest := by
  induction b with
  | nil => rw [List.nil_append, attributes, if_pos rfl]
  | cons c b ih =>
    have hc := h c List.mem_cons_self
    rw [List.cons_append, attributes, if_neg (by rcases hc with rfl | rfl | rfl <;> decide), if_pos (blanks_blank h c List.mem_cons_self)]
    exact ih fun c hc => h c (List.mem_cons_of_mem _ hc)

theorem attributes_rest {acc m b rest : Text} (hm : ∀ c ∈ m, NameChar c) (h : Gap b) : attributes (.name acc) (m ++ (b ++ '=' :: rest)) = attributes (.equals (acc ++ m)) rest := by
  induction m generalizing acc with
  | nil =>
    rw [List.nil_append, List.append_nil]
    cases b with
    | nil => rw [List.nil_append, attributes, if_pos rfl]
    | cons c b =>
      have hc := h c List.mem_cons_self
      rw [List.cons_append, attributes, if_neg (by rcases hc with rfl | rfl | rfl <;> decide), if_pos (blanks_blank h c List.mem_cons_self)]
      exact attributes_named fun c hc => h c (List.mem_cons_of_mem _ hc)
  | cons c m ih =>
    have hc := hm c List.mem_cons_self
    rw [List.cons_append, attributes, if_neg (by rintro rfl; exact hc.2 (by simp)), hc.1, if_neg (by simp), ih fun c hc => hm c (List.mem_cons_of_mem _ hc)]
    simp

theorem attributes_quoted {n acc u rest : Text} {q : Char} (h : q ∉ u) (hl : '<' ∉ u) :
    attributes (.value n q acc) (u ++ q :: rest) = (attrText (acc ++ u)).bind fun v => (attributes .after rest).map ((n, v) :: ·) := by
  induction u generalizing acc with
  | nil => rw [List.nil_append, List.append_nil, attributes, if_pos rfl]
  | cons c u ih =>
    rw [List.mem_cons, not_or] at h hl
    rw [List.cons_append, attributes, if_neg (Ne.symm h.1), if_neg (Ne.symm hl.1), ih h.2 hl.2]
    simp

/-- What the attributes of a tag are read as. -/
def valuesOf : List (Text × Text) → Option (List (Text × Text))
  | [] => some []
  | a :: as => (attrText a.2).bind fun v => (valuesOf as).map ((a.1, v) :: ·)

theorem attributes_typed {as : List (Text × Text)} {ts : List Text} (h : List.Forall₂ AttrTyped as ts) (ha : ∀ a ∈ as, GoodName a.1 ∧ '<' ∉ a.2 ∧ '\r' ∉ a.2) {b : Text} (hb : Gap b) :
    attributes .after (ts.flatten ++ b) = valuesOf as := by
  induction h with
  | nil => exact attributes_end hb
  | @cons a t as ts h _ ih =>
    obtain ⟨b0, b1, b2, q, h0, h0', h1, h2, hq, hqu, rfl⟩ := h
    obtain ⟨⟨hn, hnc⟩, hl, -⟩ := ha a List.mem_cons_self
    obtain ⟨c, m, hcm⟩ := List.exists_cons_of_ne_nil hn
    rw [hcm] at hnc
    have hc := hnc c List.mem_cons_self
    have hsplit : ((b0 ++ a.1 ++ b1 ++ '=' :: b2 ++ q :: a.2 ++ [q]) :: ts).flatten ++ b = b0 ++ (c :: (m ++ (b1 ++ '=' :: (b2 ++ q :: (a.2 ++ q :: (ts.flatten ++ b)))))) := by simp [hcm]
    rw [hsplit, attributes_after h0 h0', attributes, hc.1, if_neg (by simp), if_neg (by rintro rfl; exact hc.2 (by simp)), attributes_rest (fun d hd => hnc d (List.mem_cons_of_mem _ hd)) h1,
      attributes_equals h2 hq, attributes_quoted hqu hl, ih fun a ha' => ha a (List.mem_cons_of_mem _ ha'), valuesOf, List.singleton_append, ← hcm]
    rfl

theorem startOf_typed {n : Text} {as : List (Text × Text)} {ts : List Text} (hn : GoodName n) (h : List.Forall₂ AttrTyped as ts) (ha : ∀ a ∈ as, GoodName a.1 ∧ '<' ∉ a.2 ∧ '\r' ∉ a.2)
    {b : Text} (hb : Gap b) : startOf (n ++ ts.flatten ++ b) = (valuesOf as).map fun vs => (n, vs) := by
  have hp : ∀ c ∈ n, (!isBlank c) = true := fun c hc => by rw [(hn.2 c hc).1]; rfl
  have hhead : ∀ c, (ts.flatten ++ b).head? = some c → isBlank c = true := by
    intro c hc
    cases h with
    | nil =>
      rw [List.flatten_nil, List.nil_append] at hc
      exact blanks_blank hb c (List.mem_of_head? hc)
    | cons h _ =>
      obtain ⟨b0, b1, b2, q, h0, h0', -, -, -, -, rfl⟩ := h
      obtain ⟨d, b0, rfl⟩ := List.exists_cons_of_ne_nil h0'
      simp at hc
      rw [← hc]
      exact blanks_blank h0 d List.mem_cons_self
  have h1 : (n ++ ts.flatten ++ b).takeWhile (fun c => !isBlank c) = n := by
    rw [List.append_assoc, List.takeWhile_append_of_pos hp]
    cases hx : ts.flatten ++ b with
    | nil => simp
    | cons c l => rw [List.takeWhile_cons_of_neg (by rw [hhead c (by rw [hx]; rfl)]; decide), List.append_nil]
  have h2 : (n ++ ts.flatten ++ b).dropWhile (fun c => !isBlank c) = ts.flatten ++ b := by
    rw [List.append_assoc, List.dropWhile_append_of_pos hp]
    cases hx : ts.flatten ++ b with
    | nil => simp
    | cons c l => rw [List.dropWhile_cons_of_neg (by rw [hhead c (by rw [hx]; rfl)]; decide)]
  unfold startOf
  simp only [h1, h2, if_neg hn.1, attributes_typed h ha hb]

theorem begin_typed {n : Text} {as as' : List (Text × Text)} {ts ts' : List Text} (hn : GoodName n) (h : List.Forall₂ AttrTyped as ts) (h' : List.Forall₂ AttrTyped as' ts')
    (ha : ∀ a ∈ as, GoodName a.1 ∧ '<' ∉ a.2 ∧ '\r' ∉ a.2) (ha' : ∀ a ∈ as', GoodName a.1 ∧ '<' ∉ a.2 ∧ '\r' ∉ a.2) (hv : valuesOf as = valuesOf as') {b b' : Text} (hb : Gap b) (hb' : Gap b') (sc : Scope) :
    begin sc (n ++ ts.flatten ++ b) = begin sc (n ++ ts'.flatten ++ b') := by
  unfold begin
  rw [startOf_typed hn h ha hb, startOf_typed hn h' ha' hb', hv]

/-- Tags with the same name and the same values of the same attributes. -/
inductive TagAlike : Tag → Tag → Prop
  | start {n : Text} {as as' : List (Text × Text)} : valuesOf as = valuesOf as' → TagAlike (.start n as) (.start n as')
  | empty {n : Text} {as as' : List (Text × Text)} : valuesOf as = valuesOf as' → TagAlike (.empty n as) (.empty n as')
  | close {n : Text} : TagAlike (.close n) (.close n)

theorem TagAlike.refl (g : Tag) : TagAlike g g := by
  cases g with
  | start n as => exact .start rfl
  | empty n as => exact .empty rfl
  | close n => exact .close

/-- The text before a tag and the tag, seen by the tree builder. -/
theorem build_alike {g g' : Tag} {s s' : Text} (hgg : TagAlike g g') (hg : g.Ok) (hg' : g'.Ok) (h : Typed g s) (h' : Typed g' s') (st : List Frame) {t t' : Text}
    (hdec : decode none t = decode none t') (R : List (Text × Text)) : build st ((t, s) :: R) = build st ((t', s') :: R) := by
  have key : ∀ s s' : Text, Opens s → Opens s' → (s.getLast? = some '/' ↔ s'.getLast? = some '/') → (s.getLast? = some '/' → ∀ sc, begin sc s.dropLast = begin sc s'.dropLast) →
      (¬ s.getLast? = some '/' → ∀ sc, begin sc s = begin sc s') → build st ((t, s) :: R) = build st ((t', s') :: R) := by
    rintro s s' ⟨h1, h2, h3⟩ ⟨h1', h2', h3'⟩ hlast hd hs
    cases hx : decode none t with
    | none => rw [build_bad hx, build_bad (hdec ▸ hx)]
    | some x =>
      have hx' := hdec ▸ hx
      rw [build.eq_def, build.eq_def st]
      rw [not_or] at h2 h2'
      simp only [hx, hx']
      cases st with
      | nil =>
        simp only [h1, h1', Bool.false_eq_true, and_false, if_false, h3, h3', h2.1, h2.2, h2'.1, h2'.2, or_false]
        by_cases hb : ¬ x.all isBlank = true
        · rw [if_pos hb, if_pos hb]
        · rw [if_neg hb, if_neg hb]
          by_cases hl : s.getLast? = some '/'
          · rw [if_pos hl, if_pos (hlast.1 hl), hd hl]
          · rw [if_neg hl, if_neg fun hh => hl (hlast.2 hh), hs hl]
      | cons f st =>
        simp only [h1, h1', Bool.false_eq_true, if_false, h3, h3', h2.1, h2.2, h2'.1, h2'.2, or_self]
        by_cases hl : s.getLast? = some '/'
        · rw [if_pos hl, if_pos (hlast.1 hl), hd hl]
        · rw [if_neg hl, if_neg fun hh => hl (hlast.2 hh), hs hl]
  have hopen : ∀ n : Text, GoodName n → ∀ l, Opens (n ++ l) := by
    rintro n ⟨h1, h2⟩ l
    obtain ⟨c, m, rfl⟩ := List.exists_cons_of_ne_nil h1
    exact opens_cons _ (h2 c List.mem_cons_self)
  have hend : ∀ (n : Text) (ts : List Text) (as : List (Text × Text)) (b : Text), GoodName n → List.Forall₂ AttrTyped as ts → Gap b → ¬ (n ++ ts.flatten ++ b).getLast? = some '/' := by
    intro n ts as b hn hts hb hh
    have hm := hh
    rcases List.eq_nil_or_concat b with rfl | ⟨b', c, rfl⟩
    · rw [List.append_nil] at hh
      rcases List.eq_nil_or_concat ts with rfl | ⟨ts', u, rfl⟩
      · rw [List.flatten_nil, List.append_nil] at hh
        exact (hn.2 _ (List.mem_of_getLast? hh)).2 (by simp)
      · obtain ⟨a, -, ha⟩ := forall₂_mem_right hts (show u ∈ ts'.concat u by simp)
        obtain ⟨b0, b1, b2, q, -, -, -, -, hq, -, rfl⟩ := ha
        simp [← List.append_assoc, List.getLast?_append] at hh
        rcases hq with rfl | rfl
        · exact absurd hh (by decide)
        · exact absurd hh (by decide)
    · rw [List.concat_eq_append, ← List.append_assoc, List.getLast?_concat] at hh
      have := hb c (by simp)
      rw [Option.some.inj hh] at this
      exact absurd this (by decide)
  cases hgg with
  | @start n as as' hv =>
    obtain ⟨ts, b, h1, h2, rfl⟩ := h
    obtain ⟨ts', b', h1', h2', rfl⟩ := h'
    obtain ⟨hn, ha⟩ := hg
    have ha' := hg'.2
    have e1 := hend n ts as b hn h1 h2
    have e2 := hend n ts' as' b' hn h1' h2'
    refine key _ _ (by rw [List.append_assoc]; exact hopen n hn _) (by rw [List.append_assoc]; exact hopen n hn _) ⟨fun hh => absurd hh e1, fun hh => absurd hh e2⟩ (fun hh => absurd hh e1) fun _ sc => ?_
    exact begin_typed hn h1 h1' ha ha' hv h2 h2' sc
  | @empty n as as' hv =>
    obtain ⟨ts, b, h1, h2, rfl⟩ := h
    obtain ⟨ts', b', h1', h2', rfl⟩ := h'
    obtain ⟨hn, ha⟩ := hg
    have ha' := hg'.2
    refine key _ _ (by rw [List.append_assoc, List.append_assoc]; exact hopen n hn _) (by rw [List.append_assoc, List.append_assoc]; exact hopen n hn _) (by simp) (fun _ sc => ?_) fun hh => absurd (by simp) hh
    rw [List.dropLast_concat, List.dropLast_concat]
    exact begin_typed hn h1 h1' ha ha' hv h2 h2' sc
  | @close n =>
    obtain ⟨b, h1, rfl⟩ := h
    obtain ⟨b', h1', rfl⟩ := h'
    have hname : ∀ b : Text, Gap b → ((('/' :: n ++ b).drop 1).reverse.dropWhile isBlank).reverse = n := by
      intro b hb
      have : ('/' :: n ++ b).drop 1 = n ++ b := rfl
      rw [this, List.reverse_append, List.dropWhile_append_of_pos fun c hc => blanks_blank hb c (List.mem_reverse.1 hc)]
      obtain ⟨hn, hc⟩ := hg
      rcases List.eq_nil_or_concat n with rfl | ⟨m, c, rfl⟩
      · exact absurd rfl hn
      · rw [List.concat_eq_append, List.reverse_append, List.reverse_singleton, List.singleton_append, List.dropWhile_cons_of_neg (by rw [(hc c (by simp)).1]; decide)]
        simp
    have hcom : ∀ b : Text, isComment ('/' :: n ++ b) = false := fun b => notComment (by simp)
    cases hx : decode none t with
    | none => rw [build_bad hx, build_bad (hdec ▸ hx)]
    | some x =>
      have hx' := hdec ▸ hx
      rw [build.eq_def, build.eq_def st]
      cases st with
      | nil =>
        simp only [hx, hx', hcom]
        simp
      | cons f st =>
        simp only [hx, hx', hcom, hname b h1, hname b' h1']
        simp

theorem build_typed {g : Tag} {s s' : Text} (hg : g.Ok) (h : Typed g s) (h' : Typed g s') (st : List Frame) (t : Text) (R : List (Text × Text)) :
    build st ((t, s) :: R) = build st ((t, s') :: R) := build_alike (.refl g) hg hg h h' st rfl R

theorem build_typed_some (l l' : List (Text × Text)) (h : List.Forall₂ (fun p p' => p.1 = p'.1 ∧ ∃ g : Tag, g.Ok ∧ Typed g p.2 ∧ Typed g p'.2) l l') (st : List Frame) {r} (hb : build st l = some r) :
    ∃ k, r.2 = l.drop k ∧ build st l' = some (r.1, l'.drop k) := by
  induction h generalizing st with
  | nil => simp [build] at hb
  | @cons p p' l l' h _ ih =>
    obtain ⟨t, s⟩ := p
    obtain ⟨t', s'⟩ := p'
    obtain ⟨rfl, g, hg, h1, h2⟩ := h
    simp only at h1 h2
    rw [← build_typed hg h1 h2]
    rcases build_step st t s with k1 | ⟨e, k1⟩ | ⟨st', k1⟩
    · rw [k1] at hb; cases hb
    · rw [k1] at hb
      obtain rfl := Option.some.inj hb
      exact ⟨1, rfl, k1 _⟩
    · rw [k1] at hb
      obtain ⟨k, hk1, hk2⟩ := ih st' hb
      exact ⟨k + 1, hk1, (k1 _).trans hk2⟩

theorem typed_attr_closed {a : Text × Text} {t : Text} (h : AttrTyped a t) (ha : GoodName a.1 ∧ '<' ∉ a.2 ∧ '\r' ∉ a.2) : Closed t ∧ '\r' ∉ t := by
  obtain ⟨b0, b1, b2, q, h0, -, h1, h2, hq, hqu, rfl⟩ := h
  obtain ⟨hn, -, hr⟩ := ha
  have hgap : ∀ b : Text, Gap b → ∀ c ∈ b, c ≠ '>' ∧ c ≠ '"' ∧ c ≠ '\'' := fun b hb c hc => by rcases hb c hc with rfl | rfl | rfl <;> decide
  have hgr : ∀ b : Text, Gap b → '\r' ∉ b := fun b hb hh => absurd (hb _ hh) (by decide)
  have c1 : Closed (b0 ++ a.1 ++ b1 ++ '=' :: b2) := by
    refine (((closed_plain (hgap b0 h0)).append (closed_name hn.2)).append (closed_plain (hgap b1 h1))).append (closed_plain ?_)
    intro c hc
    rcases List.mem_cons.1 hc with rfl | hc
    · decide
    · exact hgap b2 h2 c hc
  have c2 : Closed (q :: a.2 ++ [q]) := by
    rcases hq with rfl | rfl
    · exact closed_quoted hqu
    · exact closed_single hqu
  refine ⟨?_, ?_⟩
  · have := c1.append c2
    simpa using this
  · have hq' : '\r' ≠ q := by rcases hq with rfl | rfl <;> decide
    simp [hgr b0 h0, hgr b1 h1, hgr b2 h2, name_cr hn.2, hr, hq']

theorem typed_attrs_closed {as : List (Text × Text)} {ts : List Text} (h : List.Forall₂ AttrTyped as ts) (ha : ∀ a ∈ as, GoodName a.1 ∧ '<' ∉ a.2 ∧ '\r' ∉ a.2) :
    Closed ts.flatten ∧ '\r' ∉ ts.flatten := by
  induction h with
  | nil => exact ⟨closed_plain (by simp), by simp⟩
  | @cons a t as ts h _ ih =>
    obtain ⟨h1, h2⟩ := typed_attr_closed h (ha a List.mem_cons_self)
    obtain ⟨h3, h4⟩ := ih fun a ha' => ha a (List.mem_cons_of_mem _ ha')
    refine ⟨?_, ?_⟩
    · rw [List.flatten_cons]; exact h1.append h3
    · rw [List.flatten_cons, List.mem_append, not_or]; exact ⟨h2, h4⟩

/-- A typed tag is found by the scanner; it is no comment and no declaration. -/
theorem typed_closed {g : Tag} {s : Text} (hg : g.Ok) (h : Typed g s) : Closed s ∧ s.head? ≠ some '!' ∧ s.head? ≠ some '?' ∧ '\r' ∉ s := by
  have hgap : ∀ b : Text, Gap b → ∀ c ∈ b, c ≠ '>' ∧ c ≠ '"' ∧ c ≠ '\'' := fun b hb c hc => by rcases hb c hc with rfl | rfl | rfl <;> decide
  have hgr : ∀ b : Text, Gap b → '\r' ∉ b := fun b hb hh => absurd (hb _ hh) (by decide)
  have hhead : ∀ n : Text, GoodName n → ∀ l : Text, (n ++ l).head? ≠ some '!' ∧ (n ++ l).head? ≠ some '?' := by
    rintro n ⟨h1, h2⟩ l
    obtain ⟨c, m, rfl⟩ := List.exists_cons_of_ne_nil h1
    have := (h2 c List.mem_cons_self).2
    constructor
    · intro hh
      rw [Option.some.inj hh] at this
      exact this (by simp)
    · intro hh
      rw [Option.some.inj hh] at this
      exact this (by simp)
  cases g with
  | start n as =>
    obtain ⟨ts, b, h1, h2, rfl⟩ := h
    obtain ⟨k1, k2⟩ := typed_attrs_closed h1 hg.2
    have hh := hhead n hg.1 (ts.flatten ++ b)
    rw [← List.append_assoc] at hh
    exact ⟨((closed_name hg.1.2).append k1).append (closed_plain (hgap b h2)), hh.1, hh.2, by simp only [List.mem_append, not_or]; exact ⟨⟨name_cr hg.1.2, k2⟩, hgr b h2⟩⟩
  | empty n as =>
    obtain ⟨ts, b, h1, h2, rfl⟩ := h
    obtain ⟨k1, k2⟩ := typed_attrs_closed h1 hg.2
    have hh := hhead n hg.1 (ts.flatten ++ (b ++ ['/']))
    rw [← List.append_assoc, ← List.append_assoc] at hh
    exact ⟨(((closed_name hg.1.2).append k1).append (closed_plain (hgap b h2))).append (closed_plain (by decide)), hh.1, hh.2, by
      simp only [List.mem_append, not_or]; exact ⟨⟨⟨name_cr hg.1.2, k2⟩, hgr b h2⟩, by decide⟩⟩
  | close n =>
    obtain ⟨b, h1, rfl⟩ := h
    have c1 : Closed (['/'] ++ n ++ b) := ((closed_plain (by decide)).append (closed_name hg.2)).append (closed_plain (hgap b h1))
    refine ⟨c1, by simp, by simp, ?_⟩
    have := name_cr hg.2
    have := hgr b h1
    simp_all

namespace Spec

/-- The same texts and tags, the tags typed in two ways. -/
def Retyped (l l' : List (Text × Text)) : Prop :=
  List.Forall₂ (fun p p' => p.1 = p'.1 ∧ ('<' ∉ p.1 ∧ '\r' ∉ p.1) ∧ ∃ g : Tag, g.Ok ∧ Typed g p.2 ∧ Typed g p'.2) l l'

/-- Texts and tags one after the other. -/
def fileOf (l : List (Text × Text)) : Text := l.flatMap fun p => p.1 ++ '<' :: p.2 ++ ['>']

/-- An XML declaration, or none. -/
def Prolog (l : List (Text × Text)) : Prop := l = [] ∨ l = [([], "?xml version='1.0' encoding='utf-8'?".toList)] ∨ l = [([], "?xml version=\"1.0\" encoding=\"UTF-8\"?".toList)]

end Spec

theorem retyped_symm {l l' : List (Text × Text)} (h : Retyped l l') : Retyped l' l := by
  unfold Retyped at h ⊢
  induction h with
  | nil => exact .nil
  | cons h _ ih =>
    obtain ⟨h1, h2, g, h3, h4, h5⟩ := h
    exact .cons ⟨h1.symm, h1 ▸ h2, g, h3, h5, h4⟩ ih

theorem retyped_found {l l' : List (Text × Text)} (h : Retyped l l') : ∀ p ∈ l, Found p ∧ p.2.head? ≠ some '?' := by
  intro p hp
  unfold Retyped at h
  induction h with
  | nil => cases hp
  | cons h _ ih =>
    rcases List.mem_cons.1 hp with rfl | hp
    · obtain ⟨-, h2, g, h3, h4, -⟩ := h
      obtain ⟨k1, k2, k3, k4⟩ := typed_closed h3 h4
      exact ⟨⟨⟨h2.1, k1, k2⟩, h2.2, k4⟩, k3⟩
    · exact ih hp

theorem prolog_found {l : List (Text × Text)} (h : Prolog l) : ∀ p ∈ l, Found p := by
  have c2 : Closed "?xml version=\"1.0\" encoding=\"UTF-8\"?".toList := by
    have h1 : Closed "?xml version=".toList := closed_plain (by decide)
    have h2 : Closed " encoding=".toList := closed_plain (by decide)
    have h3 : Closed "?".toList := closed_plain (by decide)
    exact (((h1.append (closed_quoted (s := "1.0".toList) (by decide))).append h2).append (closed_quoted (s := "UTF-8".toList) (by decide))).append h3
  intro p hp
  rcases h with rfl | rfl | rfl
  · cases hp
  · rw [List.mem_singleton.1 hp]
    exact ⟨⟨by simp, closed_decl, by decide⟩, by simp, by decide⟩
  · rw [List.mem_singleton.1 hp]
    exact ⟨⟨by simp, c2, by decide⟩, by simp, by decide⟩

theorem skip_prolog {pro l : List (Text × Text)} (h : Prolog pro) (hl : ∀ p ∈ l, p.2.head? ≠ some '?') : skipDecl (pro ++ l) = l := by
  rcases h with rfl | rfl | rfl
  · rw [List.nil_append]
    unfold skipDecl
    split
    · next s rest =>
      rw [if_neg]
      intro hh
      apply hl _ List.mem_cons_self
      cases s with
      | nil => cases hh
      | cons c s =>
        have := congrArg List.head? hh
        simpa using this
    · rfl
  · simp [skipDecl]
  · simp [skipDecl]

theorem parse_list {pro l : List (Text × Text)} {last : Text} (hpro : Prolog pro) (h : ∀ p ∈ l, Found p ∧ p.2.head? ≠ some '?') (hl : '<' ∉ last ∧ '\r' ∉ last) :
    parse (fileOf (pro ++ l) ++ last) = match build [] l with
      | some (e, rest) => if (rest.all fun p => p.1.all isBlank && isComment p.2) ∧ last.all isBlank then some e else none
      | none => none := by
  have hf : ∀ p ∈ pro ++ l, Found p := fun p hp => (List.mem_append.1 hp).elim (prolog_found hpro p) fun hp => (h p hp).1
  have hcr : '\r' ∉ fileOf (pro ++ l) ++ last := by
    rw [List.mem_append, not_or]
    exact ⟨join_cr _ fun p hp => (hf p hp).2, hl.2⟩
  unfold parse
  rw [lineEnds_id false _ hcr rfl]
  have := scan_join (pro ++ l) last (fun p hp => (hf p hp).1) hl.1
  unfold fileOf
  unfold join at this
  rw [this]
  simp only [skip_prolog hpro fun p hp => (h p hp).2]
  rfl

theorem no_more {l : List (Text × Text)} (h : ∀ p ∈ l, Found p) : (l.all fun p => p.1.all isBlank && isComment p.2) = decide (l = []) := by
  cases l with
  | nil => rfl
  | cons p l =>
    rw [List.all_cons, notComment (h p List.mem_cons_self).1.2.2, Bool.and_false, Bool.false_and]
    simp

/-- **C214**: the tree of a file does not depend on how its tags are typed: on the quotation marks around the values of attributes, on the blanks and line breaks inside tags, and on the XML declaration. -/
theorem C214_layout (pro pro' l l' : List (Text × Text)) (last : Text) (hpro : Prolog pro) (hpro' : Prolog pro') (h : Retyped l l') (hl : '<' ∉ last ∧ '\r' ∉ last) :
    parse (fileOf (pro ++ l) ++ last) = parse (fileOf (pro' ++ l') ++ last) := by
  have key : ∀ l l', Retyped l l' → ∀ e, (match build [] l with
      | some (e, rest) => if (rest.all fun p => p.1.all isBlank && isComment p.2) ∧ last.all isBlank then some e else none
      | none => none) = some e → (match build [] l' with
      | some (e, rest) => if (rest.all fun p => p.1.all isBlank && isComment p.2) ∧ last.all isBlank then some e else none
      | none => none) = some e := by
    intro l l' h e he
    cases hb : build [] l with
    | none => rw [hb] at he; cases he
    | some r =>
      obtain ⟨k, hk1, hk2⟩ := build_typed_some l l' (List.Forall₂.imp (fun _ _ hh => ⟨hh.1, hh.2.2⟩) h) [] hb
      obtain ⟨e', rest⟩ := r
      simp only at hk1 hk2
      rw [hb] at he
      rw [hk2]
      simp only at he ⊢
      rw [hk1, no_more fun p hp => (retyped_found h p (List.mem_of_mem_drop hp)).1] at he
      rw [no_more fun p hp => (retyped_found (retyped_symm h) p (List.mem_of_mem_drop hp)).1]
      have hlen : l'.drop k = [] ↔ l.drop k = [] := by rw [List.drop_eq_nil_iff, List.drop_eq_nil_iff, List.Forall₂.length_eq h]
      simp only [hlen]
      exact he
  rw [parse_list hpro (retyped_found h) hl, parse_list hpro' (retyped_found (retyped_symm h)) hl]
  apply Option.ext
  intro e
  exact ⟨key l l' h e, key l' l (retyped_symm h) e⟩

namespace Spec

/-- A text with the line ends of Windows. -/
def windows (t : Text) : Text := t.flatMap fun c => if c = '\n' then "\r\n".toList else [c]

end Spec

theorem lineEnds_windows (t : Text) (h : '\r' ∉ t) : lineEnds false (windows t) = t := by
  induction t with
  | nil => rfl
  | cons c t ih =>
    rw [List.mem_cons, not_or] at h
    have ih := ih h.2
    unfold windows at ih ⊢
    rw [List.flatMap_cons]
    by_cases hc : c = '\n'
    · rw [if_pos hc, hc]
      change lineEnds false ('\r' :: '\n' :: _) = _
      rw [lineEnds, if_pos rfl, lineEnds, if_neg (by decide), if_pos ⟨rfl, rfl⟩]
      exact congrArg _ ih
    · rw [if_neg hc, List.singleton_append, lineEnds, if_neg (Ne.symm h.1), if_neg (by simp), ih]

/-- **C214**: nor does it depend on the line ends. -/
theorem C214_windows (t : Text) (h : '\r' ∉ t) : parse (windows t) = parse t := by
  unfold parse
  rw [lineEnds_windows t h, lineEnds_id false t h rfl]

instance : DecidablePred Gap := fun b => by unfold Gap; infer_instance

/-- The same tag with other quotation marks and more blanks. -/
example : Retyped [([], "a b=\"1'2\"".toList), ("x".toList, "/a".toList)] [([], "a\n  b = \"1'2\" ".toList), ("x".toList, "/a ".toList)] := by
  have ha : GoodName "a".toList := ⟨by decide, by unfold NameChar; decide⟩
  have hb : GoodName "b".toList := ⟨by decide, by unfold NameChar; decide⟩
  refine .cons ⟨rfl, by decide, .start "a".toList [("b".toList, "1'2".toList)], ⟨ha, ?_⟩, ⟨[" b=\"1'2\"".toList], [], .cons ?_ .nil, by decide, by decide⟩,
    ⟨["\n  b = \"1'2\"".toList], " ".toList, .cons ?_ .nil, by decide, by decide⟩⟩ (.cons ⟨rfl, by decide, .close "a".toList, ha, ⟨[], by decide, rfl⟩, ⟨" ".toList, by decide, rfl⟩⟩ .nil)
  · intro a h
    rw [List.mem_singleton.1 h]
    exact ⟨hb, by decide, by decide⟩
  · exact ⟨" ".toList, [], [], '"', by decide, by decide, by decide, by decide, .inl rfl, by decide, by decide⟩
  · exact ⟨"\n  ".toList, " ".toList, " ".toList, '"', by decide, by decide, by decide, by decide, .inl rfl, by decide, by decide⟩

#guard (parse "<a b='1'>x</a>".toList).isSome
#guard ((parse "<a b='1'>x</a>".toList).map fun e => (e.text, e.attrs.map Prod.snd)) = ((parse "<?xml version=\"1.0\" encoding=\"UTF-8\"?><a\n\tb = \"1\" >x</a\n>".toList).map fun e => (e.text, e.attrs.map Prod.snd))

end Verif.Xml
