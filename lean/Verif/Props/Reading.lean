import Verif.Props.Files
import Verif.Props.PlainText
import Verif.Props.TableFiles
import Verif.Props.XmlReferences
import Verif.Props.XmlText

/-!
# C218: a run depends on its input files only through what they say
-/

namespace Verif.Workflow

open Verif Verif.EqCatalog Verif.Csv Verif.Nrml Verif.Declustering Verif.Recurrence Verif.MaxMag Spec

namespace Spec

/-- The catalogue file `t` has the documented header and these rows of cells.  Cells are written with or without quotes, lines are ended in either way, the last line
need not be ended, and empty lines are no rows. -/
def SaysCatalogue (rows : List (List Text)) (t : Text) : Prop :=
  ∃ (line : Text) (ls : List (Text × Text)) (last : Text) (all : List (List Text)), EqCatalog.Spec.FirstLine t line (ls.flatMap (fun l => l.1 ++ l.2) ++ last) ∧ EqCatalog.Spec.PaddedHeader line ∧
    List.Forall₂ (fun r l => Csv.Spec.WritesLine r l.1 ∧ Csv.Spec.LineEnd l.2) all ls ∧
    (last = [] ∧ rows = all.filter (· ≠ []) ∨ last ≠ [] ∧ ∃ r, Csv.Spec.WritesLine r last ∧ rows = (all ++ [r]).filter (· ≠ []))

/-- The source model file `t` has these texts and tags and ends with the text `last`.  There is an XML declaration or not, characters are written as they are or as
references, tags are typed with any blanks and quotation marks, and lines are ended in either way. -/
def SaysModel (xs : List (Text × Xml.Spec.Tag)) (last t : Text) : Prop :=
  ∃ pro l, Xml.Spec.Prolog pro ∧ List.Forall₂ Xml.Spec.StandsFor xs l ∧ (t = Xml.Spec.fileOf (pro ++ l) ++ last ∨
    '\r' ∉ Xml.Spec.fileOf (pro ++ l) ++ last ∧ t = Xml.Spec.windows (Xml.Spec.fileOf (pro ++ l) ++ last))

end Spec

section
variable {F : Type} [PyMath F]

/-- **C218**: two runs whose catalogues give the same events, whose source models give the same sources and whose completeness tables give the same rows raise the same
exception or none, have the same results, and write the same files; the other files stay as they were. -/
theorem C218_reading (x : Ext F) (cfg : Config F) (fs fs' : Text → Option Content) (pos : Nat) (h : SameReading x cfg fs fs') (o : Outcome F) (ho : main x cfg fs pos = some o) :
    ∃ o', main x cfg fs' pos = some o' ∧ o'.raised = o.raised ∧ o'.world.ctx = o.world.ctx ∧ o'.world.pos = o.world.pos ∧
      ∀ q, (Output cfg q ∧ o'.world.fs q = o.world.fs q) ∨ (o.world.fs q = fs q ∧ o'.world.fs q = fs' q) := by
  have hs := fs_main_reading x cfg fs fs' h pos
  rw [ho] at hs
  obtain ⟨g, hr, hg⟩ := fsOut_elim hs
  exact ⟨_, hr, rfl, rfl, rfl, fun q => (hg q).imp (fun h => ⟨h.1, h.2.symm⟩) id⟩

theorem reads_catalogue (x : Ext F) {rows : List (List Text)} {t : Text} (h : SaysCatalogue rows t) : eventsRead x (some (.text t)) = readEqCatalog x.env x.ord rows := by
  obtain ⟨line, ls, last, all, h1, h2, h3, h4⟩ := h
  have hk : ∃ rs, csvRows (ls.flatMap (fun l => l.1 ++ l.2) ++ last) = (rs, none) ∧ rows = rs.filter (· ≠ []) := by
    rw [C146_lines h3]
    rcases h4 with ⟨rfl, h⟩ | ⟨hl, r, hr, h⟩
    · exact ⟨all, by rw [show csvRows [] = ([], none) from rfl, List.append_nil], h⟩
    · exact ⟨all ++ [r], by rw [C146_last_line hr hl], h⟩
  obtain ⟨rs, hrs, rfl⟩ := hk
  show readCatalogFile x.env x.ord t = _
  unfold readCatalogFile
  rw [(C01_header_gate t _).2 ⟨line, h1, h2⟩]
  simp only [bind, Except.bind, hrs]
  have : readEqCatalog x.env x.ord (rs.filter (· ≠ [])) = readEqCatalog x.env x.ord rs := by
    unfold readEqCatalog
    rw [List.filter_filter]
    simp
  rw [this]
  cases readEqCatalog x.env x.ord rs <;> rfl

/-- **C218**, the catalogue: it says the same events however its cells and lines are written. -/
theorem C218_catalogue (x : Ext F) {rows : List (List Text)} {t t' : Text} (h : SaysCatalogue rows t) (h' : SaysCatalogue rows t') :
    eventsRead x (some (.text t)) = eventsRead x (some (.text t')) := (reads_catalogue x h).trans (reads_catalogue x h').symm

omit [PyMath F] in
/-- **C218**, the source model: it says the same sources however it is typed. -/
theorem C218_model (x : Ext F) (hx : x.parseXml = Xml.parse) {xs : List (Text × Xml.Spec.Tag)} (hn : ∀ y ∈ xs, Xml.Spec.Named y.2) {last : Text} (hl : '<' ∉ last ∧ '\r' ∉ last)
    {t t' : Text} (h : SaysModel xs last t) (h' : SaysModel xs last t') : sourcesRead x (some (.text t)) = sourcesRead x (some (.text t')) := by
  have key : ∀ t pro l, (t = Xml.Spec.fileOf (pro ++ l) ++ last ∨ '\r' ∉ Xml.Spec.fileOf (pro ++ l) ++ last ∧ t = Xml.Spec.windows (Xml.Spec.fileOf (pro ++ l) ++ last)) →
      Xml.parse t = Xml.parse (Xml.Spec.fileOf (pro ++ l) ++ last) := by
    rintro t pro l (rfl | ⟨h, rfl⟩)
    · rfl
    · exact Xml.C214_windows _ h
  obtain ⟨pro, l, h1, h2, h3⟩ := h
  obtain ⟨pro', l', h1', h2', h3'⟩ := h'
  have he : ∀ t, sourcesRead x (some (.text t)) = match x.parseXml t with
      | some e => readDoc x.nums x.schema e
      | none => .error .xmlSyntax := fun _ => rfl
  rw [he, he, hx, key t pro l h3, key t' pro' l' h3', Xml.C216_files xs hn pro pro' l l' last h1 h1' h2 h2' hl]

omit [PyMath F] in
/-- **C218**, the completeness table: it says the same rows however its values and lines are separated. -/
theorem C218_table (x : Ext F) {rows : List (List Text)} {t t' : Text} (h : Table.Spec.Contains t rows) (h' : Table.Spec.Contains t' rows) :
    tableRead x (some (.text t)) = tableRead x (some (.text t')) := by
  show Table.loadTable _ _ t = Table.loadTable _ _ t'
  unfold Table.loadTable Table.genFromTxt
  rw [Table.contains_eq h, Table.contains_eq h']

/-- The content of two files is a text with this property. -/
def Spec.BothSay (P : Text → Prop) (c c' : Option Content) : Prop := ∃ t t', c = some (.text t) ∧ c' = some (.text t') ∧ P t ∧ P t'

/-- **C218** for whole runs: two runs whose input files have the same rows, texts and tags, typed in different ways. -/
theorem C218_run (x : Ext F) (hx : x.parseXml = Xml.parse) (cfg : Config F) (fs fs' : Text → Option Content) (pos : Nat)
    (hc : ∃ rows, BothSay (SaysCatalogue rows) (fs cfg.eqCatalogFile) (fs' cfg.eqCatalogFile))
    (hm : ∀ q, Configured cfg.sourceModelFile → cfg.sourceModelFile = some q →
      ∃ xs last, (∀ y ∈ xs, Xml.Spec.Named y.2) ∧ ('<' ∉ last ∧ '\r' ∉ last) ∧ BothSay (SaysModel xs last) (fs q) (fs' q))
    (ht : ∀ q, UsesTable cfg → cfg.completenessTableFile = some q → ∃ rows, BothSay (fun t => Table.Spec.Contains t rows) (fs q) (fs' q))
    (o : Outcome F) (ho : main x cfg fs pos = some o) :
    ∃ o', main x cfg fs' pos = some o' ∧ o'.raised = o.raised ∧ o'.world.ctx = o.world.ctx ∧ o'.world.pos = o.world.pos ∧
      ∀ q, (Output cfg q ∧ o'.world.fs q = o.world.fs q) ∨ (o.world.fs q = fs q ∧ o'.world.fs q = fs' q) := by
  refine C218_reading x cfg fs fs' pos ⟨?_, fun q h1 h2 => ?_, fun q h1 h2 => ?_⟩ o ho
  · obtain ⟨rows, t, t', e, e', h, h'⟩ := hc
    rw [e, e']
    exact C218_catalogue x h h'
  · obtain ⟨xs, last, hn, hl, t, t', e, e', h, h'⟩ := hm q h1 h2
    rw [e, e']
    exact C218_model x hx hn hl h h'
  · obtain ⟨rows, t, t', e, e', h, h'⟩ := ht q h1 h2
    rw [e, e']
    exact C218_table x h h'

end

/-! ### Cases -/

/-- A tag with blanks before the names, around the equals signs and at the end, and with this quotation mark. -/
def typeTag (b0 b1 : Text) (q : Char) : Xml.Spec.Tag → Text
  | .start n as => n ++ (as.map fun a => b0 ++ a.1 ++ b1 ++ '=' :: b1 ++ q :: a.2 ++ [q]).flatten ++ b1
  | .empty n as => n ++ (as.map fun a => b0 ++ a.1 ++ b1 ++ '=' :: b1 ++ q :: a.2 ++ [q]).flatten ++ b1 ++ ['/']
  | .close n => '/' :: n ++ b1

/-- Characters that can be typed as they are in any place. -/
def easy (c : Char) : Bool := c ≠ '<' ∧ c ≠ '&' ∧ c ≠ '\r' ∧ c ≠ '\t' ∧ c ≠ '"' ∧ c ≠ '\'' ∧ xmlChar c

def easyTag : Xml.Spec.Tag → Bool
  | .start _ as => as.all fun a => a.2.all fun c => easy c ∧ c ≠ '\n'
  | .empty _ as => as.all fun a => a.2.all fun c => easy c ∧ c ≠ '\n'
  | .close _ => true

theorem one_by_one (t : Text) : t = (t.map fun c => [c]).flatten := by
  induction t with
  | nil => rfl
  | cons c t ih => rw [List.map_cons, List.flatten_cons, ← ih]; rfl

theorem easy_attrs {as : List (Text × Text)} (h : (as.all fun a => a.2.all fun c => easy c ∧ c ≠ '\n') = true) : List.Forall₂ Xml.Spec.AttrWrites as as := by
  induction as with
  | nil => exact .nil
  | cons a as ih =>
    rw [List.all_cons, Bool.and_eq_true] at h
    refine .cons ⟨rfl, fun c hc => ?_, a.2.map (fun c => [c]), ?_, one_by_one _⟩ (ih h.2)
    · have := List.all_eq_true.1 h.1 c hc
      simp only [easy, decide_eq_true_eq] at this
      exact this.1.2.2.2.2.2.2
    · rw [List.forall₂_map_right_iff, List.forall₂_same]
      intro c hc
      have := List.all_eq_true.1 h.1 c hc
      simp only [easy, decide_eq_true_eq] at this
      exact .inl ⟨rfl, this.1.1, this.1.2.1, this.1.2.2.1, this.2, this.1.2.2.2.1⟩

theorem easy_typed {as : List (Text × Text)} (h : (as.all fun a => a.2.all fun c => easy c ∧ c ≠ '\n') = true) {b0 b1 : Text} (h0 : Xml.Spec.Gap b0) (hne : b0 ≠ [])
    (h1 : Xml.Spec.Gap b1) {q : Char} (hq : q = '"' ∨ q = '\'') :
    List.Forall₂ Xml.Spec.AttrTyped as (as.map fun a => b0 ++ a.1 ++ b1 ++ '=' :: b1 ++ q :: a.2 ++ [q]) := by
  rw [List.forall₂_map_right_iff, List.forall₂_same]
  intro a ha
  refine ⟨b0, b1, b1, q, h0, hne, h1, h1, hq, fun hc => ?_, rfl⟩
  have := List.all_eq_true.1 (List.all_eq_true.1 h a ha) q hc
  simp only [easy, decide_eq_true_eq] at this
  rcases hq with rfl | rfl
  · exact this.1.2.2.2.2.1 rfl
  · exact this.1.2.2.2.2.2.1 rfl

theorem easy_stands {xs : List (Text × Xml.Spec.Tag)} (h : ∀ y ∈ xs, y.1.all easy = true ∧ easyTag y.2 = true) {b0 b1 : Text} (h0 : Xml.Spec.Gap b0) (hne : b0 ≠ [])
    (h1 : Xml.Spec.Gap b1) {q : Char} (hq : q = '"' ∨ q = '\'') : List.Forall₂ Xml.Spec.StandsFor xs (xs.map fun y => (y.1, typeTag b0 b1 q y.2)) := by
  rw [List.forall₂_map_right_iff, List.forall₂_same]
  intro y hy
  obtain ⟨k1, k2⟩ := h y hy
  have k1 : ∀ c ∈ y.1, easy c = true := fun c hc => List.all_eq_true.1 k1 c hc
  simp only [easy, decide_eq_true_eq] at k1
  refine ⟨⟨fun c hc => (k1 c hc).2.2.2.2.2.2, y.1.map (fun c => [c]), ?_, one_by_one _⟩, y.2, ?_, ?_⟩
  · rw [List.forall₂_map_right_iff, List.forall₂_same]
    exact fun c hc => .inl ⟨rfl, (k1 c hc).1, (k1 c hc).2.1, (k1 c hc).2.2.1⟩
  · cases hg : y.2 with
    | start n as => rw [hg] at k2; exact .start (easy_attrs k2)
    | empty n as => rw [hg] at k2; exact .empty (easy_attrs k2)
    | close n => exact .close
  · cases hg : y.2 with
    | start n as => rw [hg] at k2; exact ⟨_, b1, easy_typed k2 h0 hne h1 hq, h1, rfl⟩
    | empty n as => rw [hg] at k2; exact ⟨_, b1, easy_typed k2 h0 hne h1 hq, h1, rfl⟩
    | close n => exact ⟨b1, h1, rfl⟩

/-- Names and values of attributes between double quotes. -/
def pairs : List Text → List (Text × Text)
  | a :: v :: rest => (a.filter fun c => c ≠ ' ' ∧ c ≠ '=', v) :: pairs rest
  | _ => []

/-- What a written tag says. -/
def tagOf (s : Text) : Xml.Spec.Tag :=
  if s.head? = some '/' then .close s.tail
  else if s.getLast? = some '/' then .empty (s.dropLast.takeWhile (· ≠ ' ')) (pairs ((s.dropLast.dropWhile (· ≠ ' ')).splitOn '"'))
  else .start (s.takeWhile (· ≠ ' ')) (pairs ((s.dropWhile (· ≠ ' ')).splitOn '"'))

/-- The texts and tags of the source model of `fsDbl205`. -/
def said218 : List (Text × Xml.Spec.Tag) := (Xml.tags Xml.rootDecls 0 ['\n'] model205).map fun p => (p.1, tagOf p.2)

theorem named218 : ∀ y ∈ said218, Xml.Spec.Named y.2 := by
  have h : (said218.all fun y => match y.2 with
      | .start n as => n ≠ [] ∧ (∀ c ∈ n, Xml.NameChar c) ∧ ∀ a ∈ as, a.1 ≠ [] ∧ ∀ c ∈ a.1, Xml.NameChar c
      | .empty n as => n ≠ [] ∧ (∀ c ∈ n, Xml.NameChar c) ∧ ∀ a ∈ as, a.1 ≠ [] ∧ ∀ c ∈ a.1, Xml.NameChar c
      | .close n => n ≠ [] ∧ ∀ c ∈ n, Xml.NameChar c) = true := by decide +kernel
  intro y hy
  have := List.all_eq_true.1 h y hy
  cases hg : y.2 with
  | start n as => rw [hg] at this; simp only [decide_eq_true_eq] at this; exact ⟨⟨this.1, this.2.1⟩, this.2.2⟩
  | empty n as => rw [hg] at this; simp only [decide_eq_true_eq] at this; exact ⟨⟨this.1, this.2.1⟩, this.2.2⟩
  | close n => rw [hg] at this; simp only [decide_eq_true_eq] at this; exact this

theorem easy218 : ∀ y ∈ said218, y.1.all easy = true ∧ easyTag y.2 = true := by
  have h : (said218.all fun y => y.1.all easy && easyTag y.2) = true := by decide +kernel
  intro y hy
  simpa using List.all_eq_true.1 h y hy

/-- The source model with blanks and single quotes in the tags. -/
def model218 : Text := Xml.Spec.windows (Xml.Spec.fileOf ([] ++ said218.map fun y => (y.1, typeTag "\n  ".toList [' '] '\'' y.2)) ++ ['\n'])

theorem says_model218 : SaysModel said218 ['\n'] (Xml.write model205) ∧ SaysModel said218 ['\n'] model218 := by
  refine ⟨⟨[([], Xml.decl)], _, .inr (.inl rfl), easy_stands easy218 (b0 := [' ']) (b1 := []) (by decide) (by decide) (by decide) (.inl rfl), .inl ?_⟩,
    ⟨[], _, .inl rfl, easy_stands easy218 (b0 := "\n  ".toList) (b1 := [' ']) (by decide) (by decide) (by decide) (.inr rfl), .inr ⟨?_, rfl⟩⟩⟩
  · decide +kernel
  · decide +kernel

/-- A catalogue with every cell between quotes and an empty line after each row. -/
def quoted218 (rows : List (List Text)) : Text :=
  writeRow (fieldNames.map (fun f => f.name.toList)) ++ rows.flatMap fun r => Csv.Spec.commas (r.map fun c => ['"'] ++ Csv.Spec.doubled c ++ ['"']) ++ ['\n'] ++ ['\n']

theorem says_catalogue218 : SaysCatalogue in205 (fileDbl205 in205) ∧ SaysCatalogue in205 (quoted218 in205) := by
  have plain : ∀ r ∈ in205, ∀ c ∈ r, Csv.Spec.PlainCell c := by unfold Csv.Spec.PlainCell Csv.Spec.Cell; decide +kernel
  constructor
  · obtain ⟨line, h1, h2⟩ := (C01_header_gate (fileDbl205 in205) (((in205.map fun r => (Csv.Spec.commas r, "\r\n".toList)).flatMap fun l => l.1 ++ l.2) ++ [])).1 (by decide +kernel)
    refine ⟨line, _, [], in205, h1, h2, ?_, .inl ⟨rfl, by decide⟩⟩
    rw [List.forall₂_map_right_iff, List.forall₂_same]
    intro r hr
    refine ⟨.inl ⟨r, ?_, List.forall₂_same.2 fun c hc => .inl ⟨plain r hr c hc, rfl⟩, rfl, ?_⟩, .inr rfl⟩
    · revert r; decide
    · revert r; decide
  · obtain ⟨line, h1, h2⟩ := (C01_header_gate (quoted218 in205) (((in205.flatMap fun r => [(Csv.Spec.commas (r.map fun c => ['"'] ++ Csv.Spec.doubled c ++ ['"']), ['\n']),
      ([], ['\n'])]).flatMap fun l => l.1 ++ l.2) ++ [])).1 (by decide +kernel)
    refine ⟨line, _, [], in205.flatMap fun r => [r, []], h1, h2, ?_, .inl ⟨rfl, by decide⟩⟩
    have key : ∀ rows : List (List Text), (∀ r ∈ rows, (∀ c ∈ r, Csv.Spec.PlainCell c) ∧ r ≠ []) →
        List.Forall₂ (fun r (l : Text × Text) => Csv.Spec.WritesLine r l.1 ∧ Csv.Spec.LineEnd l.2) (rows.flatMap fun r => [r, []])
          (rows.flatMap fun r => [(Csv.Spec.commas (r.map fun c => ['"'] ++ Csv.Spec.doubled c ++ ['"']), ['\n']), ([], ['\n'])]) := by
      intro rows h
      induction rows with
      | nil => exact .nil
      | cons r rows ih =>
        rw [List.flatMap_cons, List.flatMap_cons]
        refine .cons ⟨.inl ⟨_, (h r List.mem_cons_self).2, ?_, rfl, ?_⟩, .inl rfl⟩ (.cons ⟨.inr ⟨rfl, rfl⟩, .inl rfl⟩ (ih fun r hr => h r (List.mem_cons_of_mem _ hr)))
        · rw [List.forall₂_map_right_iff, List.forall₂_same]
          exact fun c hc => .inr (.inl ⟨((h r List.mem_cons_self).1 c hc).1, rfl⟩)
        · obtain ⟨c, cs, rfl⟩ := List.exists_cons_of_ne_nil (h r List.mem_cons_self).2
          cases cs <;> simp [Csv.Spec.commas, List.intercalate]
    exact key in205 fun r hr => ⟨plain r hr, by revert r; decide⟩

theorem contains_self (file : Text) : Table.Spec.Contains file (((Table.lines (Table.universal file)).map Table.splitLine).filter (fun r => r ≠ [])) := by
  obtain ⟨rows, h⟩ := Table.contains_exists file
  rwa [Table.contains_eq h]

/-- The same completeness table typed in another way. -/
def table218 : Text := "# years\r\n  1980.0,3.3 # Mw\r\n\r\n1970.0,3.9  ".toList

/-- Two sets of files. -/
def plain218 : Text → Option Content := fun n => if n = ['m'] then some (.text (Xml.write model205)) else fsDbl205 in205 n

def typed218 : Text → Option Content := fun n =>
  if n = ['c'] then some (.text (quoted218 in205)) else if n = ['m'] then some (.text model218) else if n = ['q'] then some (.text table218) else none

def x218 : Ext Dbl := { xDbl205 with parseXml := Xml.parse }

/-- Non-vacuity of C218: a run in double precision that ends normally, and the same with all three input files typed in another way. -/
example : ∃ w w', @main Dbl (@instPyMathDbl plainLibm) x218 cfgDbl205 plain218 0 = some ⟨none, w⟩ ∧ @main Dbl (@instPyMathDbl plainLibm) x218 cfgDbl205 typed218 0 = some ⟨none, w'⟩ ∧
    w'.fs ['r'] = w.fs ['r'] ∧ (w.fs ['r']).isSome ∧ plain218 ['c'] ≠ typed218 ['c'] ∧ plain218 ['m'] ≠ typed218 ['m'] ∧ plain218 ['q'] ≠ typed218 ['q'] := by
  let _ := plainLibm
  have h : (@main Dbl (@instPyMathDbl plainLibm) x218 cfgDbl205 plain218 0).map (fun r => (r.raised.isNone, (r.world.fs ['r']).isSome)) = some (true, true) := by decide +kernel
  rcases hr : @main Dbl (@instPyMathDbl plainLibm) x218 cfgDbl205 plain218 0 with _ | ⟨_ | e, w⟩ <;> rw [hr] at h
  · cases h
  · obtain ⟨⟨e', w'⟩, h1, h2, -, -, h3⟩ := C218_run x218 rfl cfgDbl205 plain218 typed218 0 ⟨in205, _, _, rfl, rfl, says_catalogue218⟩
      (fun q _ hq => by cases hq; exact ⟨said218, ['\n'], named218, by decide, _, _, rfl, rfl, says_model218⟩)
      (fun q _ hq => by
        cases hq
        refine ⟨_, _, _, rfl, rfl, contains_self _, ?_⟩
        have := contains_self table218
        rwa [show ((Table.lines (Table.universal table218)).map Table.splitLine).filter (fun r => r ≠ []) =
          ((Table.lines (Table.universal "1980.0,3.3\n1970.0,3.9\n".toList)).map Table.splitLine).filter (fun r => r ≠ []) from by decide +kernel] at this) _ hr
    simp only at h2
    subst h2
    have hsome : (w.fs ['r']).isSome = true := by simpa using h
    refine ⟨w, w', rfl, h1, ?_, hsome, fun hh => absurd (Content.text.inj (Option.some.inj hh)) (by decide +kernel), fun hh => absurd (Content.text.inj (Option.some.inj hh)) (by decide +kernel),
      fun hh => absurd (Content.text.inj (Option.some.inj hh)) (by decide +kernel)⟩
    rcases h3 ['r'] with h3 | ⟨h3, -⟩
    · exact h3.2
    · rw [show w.fs ['r'] = plain218 ['r'] from h3] at hsome
      exact absurd hsome (by decide)
  · cases h

end Verif.Workflow
