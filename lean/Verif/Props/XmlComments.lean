import Verif.Props.XmlText

/-!
# Comments in a source model file (C213)

A comment directly in front of a tag changes nothing that is read; one inside a value cuts it off, because the reader takes `element.text`, the text before the first child or comment.
-/

namespace Verif.Xml

open Verif Verif.EqCatalog Verif.Nrml

namespace Spec

/-- The inside of a comment: no two dashes in a row, no dash at the end. -/
def Remark (c : Text) : Prop := (∀ a b : Text, c ≠ a ++ "--".toList ++ b) ∧ c.getLast? ≠ some '-'

/-- The comment as it stands in the file. -/
def remark (c : Text) : Text := "<!--".toList ++ c ++ "-->".toList

/-- A piece of a file: a text, then comments, each with the text after it, then the inside of a tag. -/
structure Piece where
  text : Text
  remarks : List (Text × Text)
  tag : Text

/-- The file with the comments, and without the comments and the texts between them and the next tag. -/
def remarked (l : List Piece) : Text := l.flatMap fun p => p.text ++ (p.remarks.flatMap fun c => remark c.1 ++ c.2) ++ '<' :: p.tag ++ ['>']
def bare (l : List Piece) : Text := l.flatMap fun p => p.text ++ '<' :: p.tag ++ ['>']

/-- Texts without `<`, tags with closed quotations, no carriage returns. -/
def Tidy (p : Piece) : Prop :=
  ('<' ∉ p.text ∧ '\r' ∉ p.text) ∧ (Closed p.tag ∧ p.tag.head? ≠ some '!' ∧ '\r' ∉ p.tag) ∧ ∀ c ∈ p.remarks, (Remark c.1 ∧ '\r' ∉ c.1) ∧ '<' ∉ c.2 ∧ '\r' ∉ c.2

/-- The file without the comments only. -/
def kept (l : List Piece) : Text := l.flatMap fun p => p.text ++ (p.remarks.flatMap Prod.snd) ++ '<' :: p.tag ++ ['>']

/-- Nothing stands before the XML declaration. -/
def DeclFirst (l : List Piece) : Prop := ∀ p, l.head? = some p → p.remarks = [] ∨ p.tag.take 5 ≠ "?xml ".toList

end Spec

open Spec

/-- The inside of a comment tag. -/
def com (c : Text) : Text := "!--".toList ++ c ++ "--".toList

/-- The comments of a piece and its tag, each with the text before it. -/
def pieceTags (t : Text) (s : Text) : List (Text × Text) → List (Text × Text)
  | [] => [(t, s)]
  | c :: cs => (t, com c.1) :: pieceTags c.2 s cs

def Piece.tags (p : Piece) : List (Text × Text) := pieceTags p.text p.tag p.remarks
def Piece.plain (p : Piece) : Text × Text := (p.text, p.tag)

theorem scan_comment (pre acc c rest : Text) (h : ∀ a b : Text, (acc ++ c) ≠ a ++ "--".toList ++ b) (hl : (acc ++ c).getLast? ≠ some '-') :
    scan (.comment pre ("!--".toList ++ acc)) (c ++ "-->".toList ++ rest) = (scan (.text []) rest).map fun r => ((pre, "!--".toList ++ acc ++ c ++ "--".toList) :: r.1, r.2) := by
  induction c generalizing acc with
  | nil =>
    rw [List.append_nil] at h hl
    have hcons : ([] : Text) ++ "-->".toList ++ rest = '-' :: '-' :: '>' :: rest := rfl
    rw [hcons, scan, if_neg (fun hh => absurd hh.1 (by decide)), scan, if_neg (fun hh => absurd hh.1 (by decide)), scan, if_pos]
    · simp
    · refine ⟨rfl, ?_, ?_⟩
      · simp
      · simp
  | cons d cs ih =>
    have hcons : (d :: cs) ++ "-->".toList ++ rest = d :: (cs ++ "-->".toList ++ rest) := rfl
    rw [hcons, scan, if_neg]
    · have := ih (acc ++ [d]) (by simpa using h) (by simpa using hl)
      simpa using this
    · rintro ⟨rfl, hlen, hd⟩
      -- two dashes at the end of `!--` and `acc`
      have hlen' : 2 ≤ acc.length := by simp at hlen; omega
      have hdrop : acc.drop (acc.length - 2) = "--".toList := by
        have : ("!--".toList ++ acc).length - 2 = 3 + (acc.length - 2) := by simp; omega
        rw [this] at hd
        have h3 : ("!--".toList ++ acc).drop (3 + (acc.length - 2)) = acc.drop (acc.length - 2) := by
          rw [← List.drop_drop]
          rfl
        rwa [h3] at hd
      apply h (acc.take (acc.length - 2)) ('>' :: cs)
      rw [← hdrop, List.take_append_drop]

theorem scan_remark (pre c rest : Text) (h : Remark c) : scan (.text pre) (remark c ++ rest) = (scan (.text []) rest).map fun r => ((pre, com c) :: r.1, r.2) := by
  have hcons : remark c ++ rest = '<' :: '!' :: '-' :: '-' :: (c ++ "-->".toList ++ rest) := by simp [remark]
  have h1 := scan_comment pre [] c rest (by simpa using h.1) (by simpa using h.2)
  rw [hcons, scan, if_pos rfl, scan, if_neg (by decide), if_neg (by decide), if_neg (by decide), scan, if_neg (by decide), if_neg (by decide), if_neg (by decide),
    scan, if_neg (by decide), if_pos (by decide)]
  simpa [com] using h1

theorem scan_tag (pre s rest : Text) (hc : Closed s) (hh : s.head? ≠ some '!') :
    scan (.text pre) ('<' :: s ++ '>' :: rest) = (scan (.text []) rest).map fun r => ((pre, s) :: r.1, r.2) := by
  rw [List.cons_append, scan, if_pos rfl, hc _ _ _ (by simpa using hh), scan, if_pos rfl]
  rfl

theorem scan_piece (t s rest : Text) (cs : List (Text × Text)) (hc : Closed s) (hh : s.head? ≠ some '!') (h : ∀ c ∈ cs, Remark c.1 ∧ '<' ∉ c.2) :
    scan (.text t) ((cs.flatMap fun c => remark c.1 ++ c.2) ++ ('<' :: s ++ '>' :: rest)) = (scan (.text []) rest).map fun r => (pieceTags t s cs ++ r.1, r.2) := by
  induction cs generalizing t with
  | nil => exact scan_tag t s rest hc hh
  | cons c cs ih =>
    rw [List.flatMap_cons, List.append_assoc, List.append_assoc, scan_remark _ _ _ (h c List.mem_cons_self).1, scan_text _ _ _ (h c List.mem_cons_self).2, List.nil_append,
      ih c.2 fun c hc => h c (List.mem_cons_of_mem _ hc), Option.map_map]
    rfl

theorem scan_pieces (l : List Piece) (last : Text) (h : ∀ p ∈ l, Tidy p) (hl : '<' ∉ last) : scan (.text []) (remarked l ++ last) = some (l.flatMap Piece.tags, last) := by
  induction l with
  | nil =>
    have := scan_text [] last [] hl
    rw [List.append_nil] at this
    simpa [remarked, scan] using this
  | cons p l ih =>
    obtain ⟨⟨h1, -⟩, ⟨h2, h3, -⟩, h4⟩ := h p List.mem_cons_self
    have ih := ih fun q hq => h q (List.mem_cons_of_mem _ hq)
    have hsplit : remarked (p :: l) ++ last = p.text ++ ((p.remarks.flatMap fun c => remark c.1 ++ c.2) ++ ('<' :: p.tag ++ '>' :: (remarked l ++ last))) := by simp [remarked]
    rw [hsplit, scan_text _ _ _ h1, List.nil_append, scan_piece _ _ _ _ h2 h3 fun c hc => ⟨(h4 c hc).1.1, (h4 c hc).2.1⟩, ih]
    rfl

theorem isComment_com (c : Text) : isComment (com c) = true := by
  unfold isComment com
  rw [List.append_assoc]
  rfl

theorem addText_twice (f : Frame) (x y : Text) : (f.addText x).addText y = f.addText x := by
  unfold Frame.addText
  split <;> simp_all

theorem build_bad {st : List Frame} {t s : Text} {rest : List (Text × Text)} (h : decode none t = none) : build st ((t, s) :: rest) = none := by
  rw [build, h]

/-- What the tree builder does with one tag. -/
theorem build_step (st : List Frame) (t s : Text) :
    (∀ R, build st ((t, s) :: R) = none) ∨ (∃ e, ∀ R, build st ((t, s) :: R) = some (e, R)) ∨ ∃ st', ∀ R, build st ((t, s) :: R) = build st' R := by
  cases hx : decode none t with
  | none => exact .inl fun R => build_bad hx
  | some x =>
    cases st with
    | nil =>
      by_cases h1 : x.all isBlank = true ∧ isComment s = true
      · exact .inr (.inr ⟨[], fun R => by rw [build, hx]; simp only; rw [if_pos h1]⟩)
      by_cases h2 : ¬ x.all isBlank = true ∨ s.head? = some '/' ∨ s.head? = some '!' ∨ s.head? = some '?'
      · exact .inl fun R => by rw [build, hx]; simp only; rw [if_neg h1, if_pos h2]
      by_cases h3 : s.getLast? = some '/'
      · cases hb : begin [] s.dropLast with
        | none => exact .inl fun R => by rw [build, hx]; simp only; rw [if_neg h1, if_neg h2, if_pos h3, hb]; rfl
        | some f => exact .inr (.inl ⟨f.elem, fun R => by rw [build, hx]; simp only; rw [if_neg h1, if_neg h2, if_pos h3, hb]; rfl⟩)
      · cases hb : begin [] s with
        | none => exact .inl fun R => by rw [build, hx]; simp only; rw [if_neg h1, if_neg h2, if_neg h3, hb]; rfl
        | some f => exact .inr (.inr ⟨[f], fun R => by rw [build, hx]; simp only; rw [if_neg h1, if_neg h2, if_neg h3, hb]; rfl⟩)
    | cons f st =>
      by_cases h1 : isComment s = true
      · exact .inr (.inr ⟨f.addText x :: st, fun R => by rw [build, hx]; simp only; rw [if_pos h1]⟩)
      by_cases h2 : s.head? = some '!' ∨ s.head? = some '?'
      · exact .inl fun R => by rw [build, hx]; simp only; rw [if_neg h1, if_pos h2]
      by_cases h3 : s.head? = some '/'
      · by_cases h4 : ((s.drop 1).reverse.dropWhile isBlank).reverse = f.name
        · cases st with
          | nil => exact .inr (.inl ⟨_, fun R => by rw [build, hx]; simp only; rw [if_neg h1, if_neg h2, if_pos h3, if_pos h4]⟩)
          | cons g st => exact .inr (.inr ⟨_, fun R => by rw [build, hx]; simp only; rw [if_neg h1, if_neg h2, if_pos h3, if_pos h4]⟩)
        · exact .inl fun R => by rw [build, hx]; simp only; rw [if_neg h1, if_neg h2, if_pos h3, if_neg h4]
      by_cases h5 : s.getLast? = some '/'
      · cases hb : begin f.scope s.dropLast with
        | none => exact .inl fun R => by rw [build, hx]; simp only; rw [if_neg h1, if_neg h2, if_neg h3, if_pos h5, hb]; rfl
        | some g => exact .inr (.inr ⟨(f.addText x).addKid g.elem :: st, fun R => by rw [build, hx]; simp only; rw [if_neg h1, if_neg h2, if_neg h3, if_pos h5, hb]; rfl⟩)
      · cases hb : begin f.scope s with
        | none => exact .inl fun R => by rw [build, hx]; simp only; rw [if_neg h1, if_neg h2, if_neg h3, if_neg h5, hb]; rfl
        | some g => exact .inr (.inr ⟨g :: f.addText x :: st, fun R => by rw [build, hx]; simp only; rw [if_neg h1, if_neg h2, if_neg h3, if_neg h5, hb]; rfl⟩)

/-- Inside the root, a comment and the text after it are skipped. -/
theorem build_inside {f : Frame} {st : List Frame} {t c q y s : Text} {rest : List (Text × Text)} (hq : decode none q = some y) :
    build (f :: st) ((t, com c) :: (q, s) :: rest) = build (f :: st) ((t, s) :: rest) := by
  cases hx : decode none t with
  | none => rw [build_bad hx, build_bad hx]
  | some x =>
    have hsc : (f.addText x).scope = f.scope := by unfold Frame.addText; split <;> rfl
    have hnm : (f.addText x).name = f.name := by unfold Frame.addText; split <;> rfl
    have h1 : build (f :: st) ((t, com c) :: (q, s) :: rest) = build (f.addText x :: st) ((q, s) :: rest) := by
      rw [build.eq_def]
      simp only [hx]
      rw [if_pos (isComment_com c)]
    rw [h1, build.eq_def, build.eq_def (f :: st)]
    simp only [hx, hq, addText_twice, hsc, hnm]

/-- Before the root, if the text after the comment is blank. -/
theorem build_outside {t c q y s : Text} {rest : List (Text × Text)} (hq : decode none q = some y) (hy : y.all isBlank = true) :
    build [] ((t, com c) :: (q, s) :: rest) = build [] ((t, s) :: rest) := by
  cases hx : decode none t with
  | none => rw [build_bad hx, build_bad hx]
  | some x =>
    by_cases hb : x.all isBlank = true
    · have h1 : build [] ((t, com c) :: (q, s) :: rest) = build [] ((q, s) :: rest) := by
        rw [build.eq_def]
        simp only [hx]
        rw [if_pos ⟨hb, isComment_com c⟩]
      rw [h1, build.eq_def, build.eq_def []]
      simp only [hx, hq, hb, hy]
    · have : ∀ s R, build [] ((t, s) :: R) = none := by
        intro s R
        rw [build.eq_def]
        simp only [hx]
        rw [if_neg fun hh => hb hh.1, if_pos (.inl hb)]
      rw [this, this]

theorem build_comment_some {st : List Frame} {t c q s : Text} {rest : List (Text × Text)} {r} (h : build st ((t, com c) :: (q, s) :: rest) = some r) : build st ((t, s) :: rest) = some r := by
  cases hq : decode none q with
  | none =>
    exfalso
    rcases build_step st t (com c) with h1 | ⟨e, h1⟩ | ⟨st', h1⟩
    · rw [h1] at h; cases h
    · -- a comment never ends the document
      cases hx : decode none t with
      | none => rw [build_bad hx] at h; cases h
      | some x =>
        cases st with
        | nil =>
          by_cases hb : x.all isBlank = true
          · have := h1 []
            rw [build.eq_def] at this
            simp only [hx] at this
            rw [if_pos ⟨hb, isComment_com c⟩] at this
            simp [build] at this
          · rw [build.eq_def] at h
            simp only [hx] at h
            rw [if_neg fun hh => hb hh.1, if_pos (.inl hb)] at h
            cases h
        | cons f st =>
          have := h1 []
          rw [build.eq_def] at this
          simp only [hx] at this
          rw [if_pos (isComment_com c)] at this
          simp [build] at this
    · rw [h1, build_bad hq] at h; cases h
  | some y =>
    cases st with
    | cons f st => rwa [build_inside hq] at h
    | nil =>
      by_cases hy : y.all isBlank = true
      · rwa [build_outside hq hy] at h
      · exfalso
        have hn : ∀ s R, build [] ((q, s) :: R) = none := by
          intro s R
          rw [build.eq_def]
          simp only [hq]
          rw [if_neg fun hh => hy hh.1, if_pos (.inl hy)]
        cases hx : decode none t with
        | none => rw [build_bad hx] at h; cases h
        | some x =>
          rw [build.eq_def] at h
          simp only [hx] at h
          by_cases hb : x.all isBlank = true
          · rw [if_pos ⟨hb, isComment_com c⟩, hn] at h
            cases h
          · rw [if_neg fun hh => hb hh.1, if_pos (.inl hb)] at h
            cases h

theorem build_piece_some {st : List Frame} {t s : Text} (cs : List (Text × Text)) {R : List (Text × Text)} {r} (h : build st (pieceTags t s cs ++ R) = some r) : build st ((t, s) :: R) = some r := by
  induction cs generalizing t with
  | nil => exact h
  | cons c cs ih =>
    apply ih
    cases cs with
    | nil => exact build_comment_some h
    | cons d cs => exact build_comment_some h

/-- A text that is read and is blank. -/
def BlankText (q : Text) : Prop := ∃ y, decode none q = some y ∧ y.all isBlank = true

theorem build_piece_eq {st : List Frame} {t s : Text} (cs : List (Text × Text)) {R : List (Text × Text)} (hb : ∀ c ∈ cs, BlankText c.2) : build st (pieceTags t s cs ++ R) = build st ((t, s) :: R) := by
  have key : ∀ t c q s R, BlankText q → build st ((t, com c) :: (q, s) :: R) = build st ((t, s) :: R) := by
    rintro t c q s R ⟨y, hq, hy⟩
    cases st with
    | nil => exact build_outside hq hy
    | cons f st => exact build_inside hq
  induction cs generalizing t with
  | nil => rfl
  | cons c cs ih =>
    rw [← ih fun c hc => hb c (List.mem_cons_of_mem _ hc)]
    cases cs with
    | nil => exact key _ _ _ _ _ (hb c List.mem_cons_self)
    | cons d cs => exact key _ _ _ _ _ (hb c List.mem_cons_self)

theorem build_pieces_some (l : List Piece) (st : List Frame) {r} (h : build st (l.flatMap Piece.tags) = some r) :
    ∃ k, r.2 = (l.drop k).flatMap Piece.tags ∧ build st (l.map Piece.plain) = some (r.1, (l.drop k).map Piece.plain) := by
  induction l generalizing st with
  | nil => simp [build] at h
  | cons p l ih =>
    rw [List.flatMap_cons] at h
    have h := build_piece_some _ h
    rw [List.map_cons]
    rcases build_step st p.text p.tag with h1 | ⟨e, h1⟩ | ⟨st', h1⟩
    · rw [h1] at h; cases h
    · rw [h1] at h
      obtain rfl := Option.some.inj h
      exact ⟨1, rfl, h1 _⟩
    · rw [h1] at h
      obtain ⟨k, hk1, hk2⟩ := ih st' h
      exact ⟨k + 1, hk1, (h1 _).trans hk2⟩

theorem build_pieces_back (l : List Piece) (st : List Frame) (hb : ∀ p ∈ l, ∀ c ∈ p.remarks, BlankText c.2) {r} (h : build st (l.map Piece.plain) = some r) :
    ∃ k, r.2 = (l.drop k).map Piece.plain ∧ build st (l.flatMap Piece.tags) = some (r.1, (l.drop k).flatMap Piece.tags) := by
  induction l generalizing st with
  | nil => simp [build] at h
  | cons p l ih =>
    rw [List.flatMap_cons]
    unfold Piece.tags
    rw [build_piece_eq _ (hb p List.mem_cons_self)]
    rw [List.map_cons] at h
    rcases build_step st p.text p.tag with h1 | ⟨e, h1⟩ | ⟨st', h1⟩
    · have := h1 (l.map Piece.plain); rw [Piece.plain, this] at h; cases h
    · rw [Piece.plain, h1] at h
      obtain rfl := Option.some.inj h
      exact ⟨1, rfl, h1 _⟩
    · rw [Piece.plain, h1] at h
      obtain ⟨k, hk1, hk2⟩ := ih st' (fun p hp => hb p (List.mem_cons_of_mem _ hp)) h
      exact ⟨k + 1, hk1, (h1 _).trans hk2⟩

theorem notComment {s : Text} (h : s.head? ≠ some '!') : isComment s = false := by
  unfold isComment
  rw [beq_eq_false_iff_ne]
  intro hh
  apply h
  cases s with
  | nil => cases hh
  | cons c l =>
    have := congrArg List.head? hh
    simpa using this

theorem after_tags {l : List Piece} (h : ∀ p ∈ l, Tidy p) : ((l.flatMap Piece.tags).all fun p => p.1.all isBlank && isComment p.2) = true ↔ l = [] := by
  constructor
  · intro hh
    cases l with
    | nil => rfl
    | cons p l =>
      exfalso
      have hm : ∀ t cs, ∃ q ∈ pieceTags t p.tag cs, q.2 = p.tag := by
        intro t cs
        induction cs generalizing t with
        | nil => exact ⟨_, List.mem_cons_self, rfl⟩
        | cons c cs ih =>
          obtain ⟨q, hq, h2⟩ := ih c.2
          exact ⟨q, List.mem_cons_of_mem _ hq, h2⟩
      obtain ⟨q, hq, h2⟩ := hm p.text p.remarks
      have := List.all_eq_true.1 hh q (by rw [List.flatMap_cons]; exact List.mem_append_left _ hq)
      rw [h2, notComment (h p List.mem_cons_self).2.1.2.1, Bool.and_false] at this
      cases this
  · rintro rfl
    rfl

theorem after_plain {l : List Piece} (h : ∀ p ∈ l, Tidy p) : ((l.map Piece.plain).all fun p => p.1.all isBlank && isComment p.2) = true ↔ l = [] := by
  constructor
  · intro hh
    cases l with
    | nil => rfl
    | cons p l =>
      exfalso
      have := List.all_eq_true.1 hh (Piece.plain p) (by simp)
      rw [Piece.plain, notComment (h p List.mem_cons_self).2.1.2.1, Bool.and_false] at this
      cases this
  · rintro rfl
    rfl

theorem remarked_cr {l : List Piece} (h : ∀ p ∈ l, Tidy p) : '\r' ∉ remarked l := by
  intro hm
  obtain ⟨p, hp, hm⟩ := List.mem_flatMap.1 hm
  obtain ⟨⟨-, h1⟩, ⟨-, -, h2⟩, h3⟩ := h p hp
  have h4 : '\r' ∉ (p.remarks.flatMap fun c => remark c.1 ++ c.2) := by
    intro hm
    obtain ⟨c, hc, hm⟩ := List.mem_flatMap.1 hm
    obtain ⟨⟨-, h5⟩, -, h6⟩ := h3 c hc
    simp [remark, h5, h6] at hm
  simp [h1, h2, h4] at hm

/-- The pieces without comments. -/
def strip (l : List Piece) : List Piece := l.map fun p => { p with remarks := [] }

theorem strip_tidy {l : List Piece} (h : ∀ p ∈ l, Tidy p) : ∀ p ∈ strip l, Tidy p := by
  intro p hp
  obtain ⟨q, hq, rfl⟩ := List.mem_map.1 hp
  exact ⟨(h q hq).1, (h q hq).2.1, fun c hc => by cases hc⟩

theorem strip_bare (l : List Piece) : remarked (strip l) = bare l := by
  simp [remarked, bare, strip, List.flatMap_map]

theorem strip_tags (l : List Piece) : (strip l).flatMap Piece.tags = l.map Piece.plain := by
  simp only [strip, List.flatMap_map]
  induction l with
  | nil => rfl
  | cons p l ih => rw [List.flatMap_cons, ih]; rfl

theorem skip_tags {l : List Piece} (h : DeclFirst l) : ∃ l', (∃ k, l' = l.drop k) ∧ skipDecl (l.flatMap Piece.tags) = l'.flatMap Piece.tags ∧ skipDecl (l.map Piece.plain) = l'.map Piece.plain := by
  have hskip : ∀ (t s : Text) (R : List (Text × Text)), skipDecl ((t, s) :: R) = if t = [] ∧ s.take 5 = "?xml ".toList then R else (t, s) :: R := by
    intro t s R
    cases t with
    | nil => simp [skipDecl]
    | cons c t => simp [skipDecl]
  cases l with
  | nil => exact ⟨[], ⟨0, rfl⟩, rfl, rfl⟩
  | cons p l =>
    by_cases hd : p.text = [] ∧ p.tag.take 5 = "?xml ".toList
    · have hr : p.remarks = [] := (h p rfl).resolve_right (fun hh => hh hd.2)
      refine ⟨l, ⟨1, rfl⟩, ?_, ?_⟩
      · rw [List.flatMap_cons, Piece.tags, hr, pieceTags, List.singleton_append, hskip, if_pos hd]
      · rw [List.map_cons, Piece.plain, hskip, if_pos hd]
    · refine ⟨p :: l, ⟨0, rfl⟩, ?_, ?_⟩
      · rw [List.flatMap_cons, Piece.tags]
        cases hr : p.remarks with
        | nil => rw [pieceTags, List.singleton_append, hskip, if_neg hd]
        | cons c cs =>
          rw [pieceTags, List.cons_append, hskip, if_neg]
          rintro ⟨-, hh⟩
          exact absurd hh (by simp [com])
      · rw [List.map_cons, Piece.plain, hskip, if_neg hd]

theorem parse_tags {l : List Piece} {last : Text} (h : ∀ p ∈ l, Tidy p) (hl : '<' ∉ last ∧ '\r' ∉ last) : parse (remarked l ++ last) =
    match build [] (skipDecl (l.flatMap Piece.tags)) with
    | some (e, rest) => if (rest.all fun p => p.1.all isBlank && isComment p.2) ∧ last.all isBlank then some e else none
    | none => none := by
  have hcr : '\r' ∉ remarked l ++ last := by
    rw [List.mem_append, not_or]
    exact ⟨remarked_cr h, hl.2⟩
  unfold parse
  rw [lineEnds_id false _ hcr rfl, scan_pieces l last h hl.1]
  rfl

theorem after_same {l : List Piece} (h : ∀ p ∈ l, Tidy p) :
    ((l.flatMap Piece.tags).all fun p => p.1.all isBlank && isComment p.2) = ((l.map Piece.plain).all fun p => p.1.all isBlank && isComment p.2) := by
  rw [Bool.eq_iff_iff, after_tags h, after_plain h]

theorem parse_plain {l : List Piece} {last : Text} (h : ∀ p ∈ l, Tidy p) (hl : '<' ∉ last ∧ '\r' ∉ last) : parse (bare l ++ last) =
    match build [] (skipDecl (l.map Piece.plain)) with
    | some (e, rest) => if (rest.all fun p => p.1.all isBlank && isComment p.2) ∧ last.all isBlank then some e else none
    | none => none := by
  rw [← strip_bare, parse_tags (strip_tidy h) hl, strip_tags]

/-- **C213**: whatever stands between a comment and the next tag is not read: a file with comments that is accepted gives the tree of the file without the comments and without the texts between
them and the next tags. -/
theorem C213_cut (l : List Piece) (last : Text) (h : ∀ p ∈ l, Tidy p) (hl : '<' ∉ last ∧ '\r' ∉ last) (hd : DeclFirst l) (e : Elem) (he : parse (remarked l ++ last) = some e) :
    parse (bare l ++ last) = some e := by
  rw [parse_tags h hl] at he
  rw [parse_plain h hl]
  obtain ⟨l', ⟨k, rfl⟩, hs1, hs2⟩ := skip_tags hd
  rw [hs1] at he
  rw [hs2]
  cases hb : build [] ((l.drop k).flatMap Piece.tags) with
  | none => rw [hb] at he; cases he
  | some r =>
    obtain ⟨j, hj1, hj2⟩ := build_pieces_some _ _ hb
    obtain ⟨e', rest⟩ := r
    simp only at hj1 hj2
    rw [hb] at he
    simp only at he
    rw [hj2]
    simp only
    have hsub : ∀ p ∈ (l.drop k).drop j, Tidy p := fun p hp => h p (List.mem_of_mem_drop (List.mem_of_mem_drop hp))
    rw [hj1, after_same hsub] at he
    exact he

/-- **C213**, what holds: comments with nothing but blanks between them and the next tag change nothing, in files that are accepted and in files that are not. -/
theorem C213_partial (l : List Piece) (last : Text) (h : ∀ p ∈ l, Tidy p) (hl : '<' ∉ last ∧ '\r' ∉ last) (hd : DeclFirst l) (hb : ∀ p ∈ l, ∀ c ∈ p.remarks, c.2.all isBlank = true) :
    parse (remarked l ++ last) = parse (bare l ++ last) := by
  have hblank : ∀ q : Text, q.all isBlank = true → BlankText q := by
    intro q hq
    refine ⟨q, ?_, hq⟩
    induction q with
    | nil => rfl
    | cons c q ih =>
      rw [List.all_cons, Bool.and_eq_true] at hq
      have hc : c = ' ' ∨ c = '\t' ∨ c = '\n' ∨ c = '\r' := by simpa [isBlank, or_assoc] using hq.1
      have h1 : c ≠ '&' ∧ xmlChar c = true := by rcases hc with rfl | rfl | rfl | rfl <;> decide
      have := decode_char h1.1 h1.2 q
      rw [List.singleton_append] at this
      rw [this, ih hq.2]
      rfl
  have hcut := C213_cut l last h hl hd
  cases hp : parse (remarked l ++ last) with
  | some e => exact (hcut e hp).symm
  | none =>
    cases hq : parse (bare l ++ last) with
    | none => rfl
    | some e =>
      exfalso
      rw [parse_plain h hl] at hq
      rw [parse_tags h hl] at hp
      obtain ⟨l', ⟨k, rfl⟩, hs1, hs2⟩ := skip_tags hd
      rw [hs1] at hp
      rw [hs2] at hq
      cases hbd : build [] ((l.drop k).map Piece.plain) with
      | none => rw [hbd] at hq; cases hq
      | some r =>
        obtain ⟨j, hj1, hj2⟩ := build_pieces_back _ _ (fun p hp c hc => hblank _ (hb p (List.mem_of_mem_drop hp) c hc)) hbd
        obtain ⟨e', rest⟩ := r
        simp only at hj1 hj2
        rw [hbd] at hq
        simp only at hq
        rw [hj2] at hp
        simp only at hp
        have hsub : ∀ p ∈ (l.drop k).drop j, Tidy p := fun p hp => h p (List.mem_of_mem_drop (List.mem_of_mem_drop hp))
        rw [hj1, ← after_same hsub, hp] at hq
        cases hq

theorem scan_single {s : Text} (h : '\'' ∉ s) (pre acc rest : Text) : scan (.tag pre acc (some '\'')) (s ++ '\'' :: rest) = scan (.tag pre (acc ++ s ++ ['\'']) none) rest := by
  induction s generalizing acc with
  | nil => rw [List.nil_append, scan, if_pos rfl, List.append_nil]
  | cons c l ih =>
    rw [List.mem_cons, not_or] at h
    rw [List.cons_append, scan, if_neg (Ne.symm h.1), ih h.2]
    simp

theorem closed_single {s : Text} (h : '\'' ∉ s) : Closed ('\'' :: s ++ ['\'']) := by
  intro pre acc rest hh
  have hb : ¬ (acc = "!-".toList ∧ '\'' = '-') := by
    rintro ⟨-, h⟩
    exact absurd h (by decide)
  rw [List.cons_append, List.cons_append, scan, if_neg (by decide), if_neg hb, if_pos (.inr rfl), List.append_assoc, List.singleton_append, scan_single h]
  simp

/-- The XML declaration that is written. -/
def decl : Text := "?xml version='1.0' encoding='utf-8'?".toList

theorem closed_decl : Closed decl := by
  have h1 : Closed "?xml version=".toList := closed_plain (by decide)
  have h2 : Closed " encoding=".toList := closed_plain (by decide)
  have h3 : Closed "?".toList := closed_plain (by decide)
  exact (((h1.append (closed_single (s := "1.0".toList) (by decide))).append h2).append (closed_single (s := "utf-8".toList) (by decide))).append h3

variable {F : Type} {nt : NumText F} {rnd : F → F}

/-- **C213**: a written source model into which comments are put, before any tags but that of the XML declaration, is read as the sources that were written. -/
theorem C213_sources (H : Lawful nt rnd) (valid : Elem → Bool) (ss : List (AreaSource F)) (doc : Elem) (hs : serialize nt ss = .ok doc) (hf : ∀ s ∈ ss, Filled s)
    (hid : ∀ s ∈ ss, ∀ s' ∈ ss, s.nrmlId = s'.nrmlId ∧ s.sourceModelId = s'.sourceModelId) (hne : ∀ s ∈ ss, s.name ≠ some [] ∧ s.tectonicRegion ≠ some [])
    (l : List Piece) (hw : l.map (fun p => (p.text, p.tag)) = ([], decl) :: tags rootDecls 0 ['\n'] doc) (hd : DeclFirst l)
    (hr : ∀ p ∈ l, ∀ c ∈ p.remarks, (Remark c.1 ∧ '\r' ∉ c.1) ∧ c.2.all isBlank = true ∧ '\r' ∉ c.2) :
    ∃ doc', parse (remarked l ++ ['\n']) = some doc' ∧ (valid doc' = true → readDoc nt valid doc' = .ok (ss.map (rndSource rnd))) := by
  have hfound := found_tags (.inr ⟨rfl, rfl⟩) 0 ['\n'] (by decide) doc (plain_document H hs)
  have ht : ∀ p ∈ l, Tidy p := by
    intro p hp
    have hm : (p.text, p.tag) ∈ ([], decl) :: tags rootDecls 0 ['\n'] doc := by
      rw [← hw]
      exact List.mem_map.2 ⟨p, hp, rfl⟩
    have hrem : ∀ c ∈ p.remarks, (Remark c.1 ∧ '\r' ∉ c.1) ∧ '<' ∉ c.2 ∧ '\r' ∉ c.2 := by
      intro c hc
      obtain ⟨h1, h2, h3⟩ := hr p hp c hc
      exact ⟨h1, fun hh => absurd (List.all_eq_true.1 h2 _ hh) (by decide), h3⟩
    rcases List.mem_cons.1 hm with hm | hm
    · obtain ⟨h1, h2⟩ := Prod.mk.inj hm
      refine ⟨?_, ?_, hrem⟩
      · rw [h1]; exact ⟨by simp, by simp⟩
      · rw [h2]; exact ⟨closed_decl, by decide, by decide⟩
    · obtain ⟨⟨h1, h2, h3⟩, h4, h5⟩ := hfound _ hm
      exact ⟨⟨h1, h4⟩, ⟨h2, h3, h5⟩, hrem⟩
  have hbare : bare l ++ ['\n'] = write doc := by
    unfold write
    change _ = join (([], decl) :: tags rootDecls 0 ['\n'] doc) ++ ['\n']
    rw [← hw, join, List.flatMap_map]
    rfl
  rw [C213_partial l ['\n'] ht (by decide) hd fun p hp c hc => (hr p hp c hc).2.1, hbare]
  exact C207_sources H valid ss doc hs hf hid hne

/-- A magnitude with a comment in it. -/
def halved : List Piece := [⟨[], [], "m".toList⟩, ⟨"6".toList, [("was 7".toList, ".5".toList)], "/m".toList⟩]

theorem remark_plain {c : Text} (h : '-' ∉ c) : Remark c := by
  refine ⟨?_, ?_⟩
  · rintro a b rfl
    simp at h
  · intro hh
    exact h (List.mem_of_getLast? hh)

theorem halved_tidy : ∀ p ∈ halved, Tidy p := by
  have : ∀ p ∈ halved, ('<' ∉ p.text ∧ '\r' ∉ p.text) ∧ ((∀ c ∈ p.tag, c ≠ '>' ∧ c ≠ '"' ∧ c ≠ '\'') ∧ p.tag.head? ≠ some '!' ∧ '\r' ∉ p.tag) ∧
      ∀ c ∈ p.remarks, ('-' ∉ c.1 ∧ '\r' ∉ c.1) ∧ '<' ∉ c.2 ∧ '\r' ∉ c.2 := by decide
  intro p hp
  obtain ⟨h1, ⟨h2, h3⟩, h4⟩ := this p hp
  exact ⟨h1, ⟨closed_plain h2, h3⟩, fun c hc => ⟨⟨remark_plain (h4 c hc).1.1, (h4 c hc).1.2⟩, (h4 c hc).2⟩⟩

/-- **C213** is false: of `<m>6<!--was 7-->.5</m>` only the 6 is read. -/
theorem C213_fails : ¬ ∀ (l : List Piece) (last : Text), (∀ p ∈ l, Tidy p) → '<' ∉ last ∧ '\r' ∉ last → DeclFirst l → parse (remarked l ++ last) = parse (kept l ++ last) := by
  intro h
  have h1 := h halved [] halved_tidy (by decide) (by intro p hp; obtain rfl := Option.some.inj hp; exact .inl rfl)
  have h2 : (parse (remarked halved ++ [])).map Elem.text = some (some "6".toList) := by decide +kernel
  have h3 : (parse (kept halved ++ [])).map Elem.text = some (some "6.5".toList) := by decide +kernel
  rw [h1, h3] at h2
  exact absurd h2 (by decide)

/-- A file with comments, each on a line of its own. -/
def noted : List Piece :=
  [⟨[], [("A".toList, "\n".toList)], "a".toList⟩, ⟨"\n  ".toList, [(" in doubt > 6 ".toList, "\n  ".toList), ("B".toList, [])], "m".toList⟩, ⟨"6.5".toList, [], "/m".toList⟩, ⟨"\n".toList, [], "/a".toList⟩]

example : parse (remarked noted ++ []) = parse (bare noted ++ []) := by
  refine C213_partial noted [] ?_ (by decide) ?_ (by decide)
  · have : ∀ p ∈ noted, ('<' ∉ p.text ∧ '\r' ∉ p.text) ∧ ((∀ c ∈ p.tag, c ≠ '>' ∧ c ≠ '"' ∧ c ≠ '\'') ∧ p.tag.head? ≠ some '!' ∧ '\r' ∉ p.tag) ∧
        ∀ c ∈ p.remarks, ('-' ∉ c.1 ∧ '\r' ∉ c.1) ∧ '<' ∉ c.2 ∧ '\r' ∉ c.2 := by decide
    intro p hp
    obtain ⟨h1, ⟨h2, h3⟩, h4⟩ := this p hp
    exact ⟨h1, ⟨closed_plain h2, h3⟩, fun c hc => ⟨⟨remark_plain (h4 c hc).1.1, (h4 c hc).1.2⟩, (h4 c hc).2⟩⟩
  · intro p hp
    obtain rfl := Option.some.inj hp
    exact .inr (by decide)

#guard (parse (remarked noted)).isSome
/-- A comment before every tag of the source model of the tests. -/
def everywhere (d : Elem) : List Piece := (([], decl) :: tags rootDecls 0 ['\n'] d).map fun q => ⟨q.1, if q.2 = decl then [] else [("see the report".toList, "\n".toList)], q.2⟩
#guard ((serialize pyNums [quito]).toOption.bind fun d => (parse (remarked (everywhere d) ++ ['\n'])).bind fun d => (readDoc pyNums (fun _ => true) d).toOption) = some [quito]

end Verif.Xml
