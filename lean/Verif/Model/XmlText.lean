import Verif.Model.Nrml

/-!
# Model of the texts of XML documents

What `tree.write(open(filename, 'w'), xml_declaration=True, encoding='utf-8', pretty_print=True)` (nrml/writer.py:61-64) writes for an element tree, and what
`etree.iterparse(nrml_file)` (nrml/reader.py:71-72) makes of a text.  This is code of lxml and libxml2, not of the repository; the model follows the XML 1.0 recommendation and
the serialiser of libxml2.

Simplified: a file is a list of characters (the encoding UTF-8 is not modelled); the parser knows elements, attributes, namespaces, references to characters and to the five
predefined entities and comments, and refuses texts with CDATA sections, processing instructions inside the document, or a document type; it accepts more characters in names than XML does.
-/

namespace Verif.Xml

open Verif Verif.EqCatalog Verif.Nrml

/-! ### The writer -/

/-- `xmlEscapeContent` of libxml2. -/
def escText : Text → Text
  | [] => []
  | c :: cs =>
    (if c = '<' then "&lt;".toList else if c = '>' then "&gt;".toList else if c = '&' then "&amp;".toList else if c = '\r' then "&#13;".toList else [c]) ++ escText cs

/-- `xmlAttrSerializeTxtContent` of libxml2. -/
def escAttr : Text → Text
  | [] => []
  | c :: cs =>
    (if c = '"' then "&quot;".toList else if c = '<' then "&lt;".toList else if c = '>' then "&gt;".toList else if c = '&' then "&amp;".toList else
      if c = '\n' then "&#10;".toList else if c = '\r' then "&#13;".toList else if c = '\t' then "&#9;".toList else [c]) ++ escAttr cs

/-- nrml/nrml_xml.py:38. -/
def nrmlUri : Text := "http://openquake.org/xmlns/nrml/0.3".toList
/-- nrml/nrml_xml.py:39. -/
def gmlUri : Text := "http://www.opengis.net/gml".toList

/-- A name with the prefixes of `NSMAP` (nrml/nrml_xml.py:44): nothing for the namespace of NRML, `gml` for that of GML. -/
def writeName (q : QName) : Text :=
  match q.ns with
  | .gml => "gml:".toList ++ q.loc.toList
  | _ => q.loc.toList

def writeAttr (a : Text × Text) : Text := ' ' :: a.1 ++ "=\"".toList ++ escAttr a.2 ++ ['"']

/-- The inside of a start tag: the name, the namespace declarations (on the root only), the attributes. -/
def startTag (decls : List (Text × Text)) (q : QName) (attrs : List (QName × Text)) : Text :=
  writeName q ++ (decls ++ attrs.map fun a => (writeName a.1, a.2)).flatMap writeAttr

/-- A line break and the indentation of a level. -/
def newline (level : ℕ) : Text := '\n' :: List.replicate (2 * level) ' '

mutual
/-- The tags of an element, each with the text before it.  With `pretty_print` every child begins a new line, unless the element has a text of its own
(`xmlNodeDumpOutputInternal` of libxml2). -/
def tags (decls : List (Text × Text)) (level : ℕ) (pre : Text) : Elem → List (Text × Text)
  | .mk t a none [] => [(pre, startTag decls t a ++ ['/'])]
  | .mk t a (some x) [] => [(pre, startTag decls t a), (escText x, '/' :: writeName t)]
  | .mk t a none (c :: cs) => (pre, startTag decls t a) :: (tags [] (level + 1) (newline (level + 1)) c ++ tagsList (level + 1) cs ++ [(newline level, '/' :: writeName t)])
  | .mk t a (some x) (c :: cs) => (pre, startTag decls t a) :: (tags [] level (escText x) c ++ tagsPlain cs ++ [([], '/' :: writeName t)])
def tagsList (level : ℕ) : List Elem → List (Text × Text)
  | [] => []
  | c :: cs => tags [] level (newline level) c ++ tagsList level cs
def tagsPlain : List Elem → List (Text × Text)
  | [] => []
  | c :: cs => tags [] 0 [] c ++ tagsPlain cs
end

/-- Texts and tags one after the other. -/
def join (l : List (Text × Text)) : Text := l.flatMap fun p => p.1 ++ '<' :: p.2 ++ ['>']

/-- The declarations of `NSMAP` on the root element (nrml/writer.py:79), in the order of tests/data/serialized_models.xml. -/
def rootDecls : List (Text × Text) := [("xmlns:gml".toList, gmlUri), ("xmlns".toList, nrmlUri)]

/-- The text of a document (nrml/writer.py:61-64). -/
def write (e : Elem) : Text := join (([], "?xml version='1.0' encoding='utf-8'?".toList) :: tags rootDecls 0 ['\n'] e) ++ ['\n']

/-! ### The parser -/

/-- Line ends: `\r\n` and `\r` are read as `\n` (XML 1.0, 2.11). -/
def lineEnds : Bool → Text → Text
  | _, [] => []
  | cr, c :: cs => if c = '\r' then '\n' :: lineEnds true cs else if cr ∧ c = '\n' then lineEnds false cs else c :: lineEnds false cs

/-- Where the scanner is: in a text, or in a tag (with the text before it, and the quotation mark if inside a quotation), or in a comment. -/
inductive Scan where
  | text (acc : Text)
  | tag (pre acc : Text) (quote : Option Char)
  | comment (pre acc : Text)

/-- A text is cut into tags, each with the text before it, and the text after the last tag. -/
def scan : Scan → Text → Option (List (Text × Text) × Text)
  | .text acc, [] => some ([], acc)
  | .tag _ _ _, [] => none
  | .comment _ _, [] => none
  | .text acc, c :: cs => if c = '<' then scan (.tag acc [] none) cs else scan (.text (acc ++ [c])) cs
  | .tag pre acc none, c :: cs =>
    if c = '>' then (scan (.text []) cs).map fun r => ((pre, acc) :: r.1, r.2)
    else if acc = "!-".toList ∧ c = '-' then scan (.comment pre "!--".toList) cs
    else scan (.tag pre (acc ++ [c]) (if c = '"' ∨ c = '\'' then some c else none)) cs
  | .tag pre acc (some q), c :: cs => scan (.tag pre (acc ++ [c]) (if c = q then none else some q)) cs
  | .comment pre acc, c :: cs =>
    if c = '>' ∧ 5 ≤ acc.length ∧ acc.drop (acc.length - 2) = "--".toList then (scan (.text []) cs).map fun r => ((pre, acc) :: r.1, r.2)
    else scan (.comment pre (acc ++ [c])) cs

/-- The value of digits to a base. -/
def digits (base : ℕ) : ℕ → Text → Option ℕ
  | n, [] => some n
  | n, c :: cs =>
    let d := if '0' ≤ c ∧ c ≤ '9' then c.toNat - '0'.toNat else if 'a' ≤ c ∧ c ≤ 'f' then c.toNat - 'a'.toNat + 10 else if 'A' ≤ c ∧ c ≤ 'F' then c.toNat - 'A'.toNat + 10 else base
    if d < base then digits base (base * n + d) cs else none

/-- The character of a code, if XML allows it. -/
def charOf (n : ℕ) : Option Char := if n.isValidChar ∧ xmlChar (Char.ofNat n) then some (Char.ofNat n) else none

/-- A reference (XML 1.0, 4.1 and 4.6). -/
def reference (name : Text) : Option Char :=
  if name = "lt".toList then some '<' else if name = "gt".toList then some '>' else if name = "amp".toList then some '&' else
  if name = "quot".toList then some '"' else if name = "apos".toList then some '\'' else
  match name with
  | '#' :: 'x' :: c :: cs => (digits 16 0 (c :: cs)).bind charOf
  | '#' :: c :: cs => (digits 10 0 (c :: cs)).bind charOf
  | _ => none

/-- References are replaced; characters that are not allowed are refused.  The first argument holds the name of a reference that has begun. -/
def decode : Option Text → Text → Option Text
  | none, [] => some []
  | some _, [] => none
  | none, c :: cs => if c = '&' then decode (some []) cs else if xmlChar c then (decode none cs).map (c :: ·) else none
  | some r, c :: cs => if c = ';' then (reference r).bind fun d => (decode none cs).map (d :: ·) else decode (some (r ++ [c])) cs

/-- The value of an attribute (XML 1.0, 3.3.3): white space that is not written as a reference is read as blanks. -/
def attrText (t : Text) : Option Text := decode none (t.map fun c => if c = '\n' ∨ c = '\t' then ' ' else c)

def isBlank (c : Char) : Bool := c == ' ' || c == '\t' || c == '\n' || c == '\r'

/-- Where the parser of attributes is. -/
inductive Att where
  | between
  | name (acc : Text)
  | named (name : Text)
  | equals (name : Text)
  | value (name : Text) (quote : Char) (acc : Text)
  | after

/-- The attributes of a start tag. -/
def attributes : Att → Text → Option (List (Text × Text))
  | .between, [] => some []
  | .after, [] => some []
  | .name _, [] => none
  | .named _, [] => none
  | .equals _, [] => none
  | .value _ _ _, [] => none
  | .between, c :: cs => if isBlank c then attributes .between cs else if c = '=' then none else attributes (.name [c]) cs
  | .name acc, c :: cs => if c = '=' then attributes (.equals acc) cs else if isBlank c then attributes (.named acc) cs else attributes (.name (acc ++ [c])) cs
  | .named n, c :: cs => if c = '=' then attributes (.equals n) cs else if isBlank c then attributes (.named n) cs else none
  | .equals n, c :: cs => if c = '"' ∨ c = '\'' then attributes (.value n c []) cs else if isBlank c then attributes (.equals n) cs else none
  | .value n q acc, c :: cs =>
    if c = q then (attrText acc).bind fun v => (attributes .after cs).map ((n, v) :: ·) else if c = '<' then none else attributes (.value n q (acc ++ [c])) cs
  | .after, c :: cs => if isBlank c then attributes .between cs else none

/-- The name and the attributes of a start tag. -/
def startOf (s : Text) : Option (Text × List (Text × Text)) :=
  let name := s.takeWhile fun c => !isBlank c
  if name = [] then none else (attributes .after (s.dropWhile fun c => !isBlank c)).map fun as => (name, as)

/-- Prefixes and namespaces in scope, the innermost first. -/
abbrev Scope := List (Text × Text)

def nsOf (uri : Text) : Ns := if uri = nrmlUri then .nrml else if uri = gmlUri then .gml else .other (String.ofList uri)

/-- The declarations among the attributes. -/
def declared (as : List (Text × Text)) : Scope :=
  as.filterMap fun a => if a.1 = "xmlns".toList then some ([], a.2) else if a.1.take 6 = "xmlns:".toList then some (a.1.drop 6, a.2) else none

/-- A qualified name; `dflt` says whether the default namespace applies (it does to elements, not to attributes). -/
def qname (sc : Scope) (dflt : Bool) (t : Text) : Option QName :=
  match t.span (· ≠ ':') with
  | (l, []) =>
    if dflt then match sc.lookup [] with
      | some uri => some ⟨nsOf uri, String.ofList l⟩
      | none => some ⟨.none, String.ofList l⟩
    else some ⟨.none, String.ofList l⟩
  | (p, _ :: l) => (sc.lookup p).map fun uri => ⟨nsOf uri, String.ofList l⟩

/-- The attributes that are no declarations. -/
def plainAttrs (sc : Scope) (as : List (Text × Text)) : Option (List (QName × Text)) :=
  (as.filter fun a => ¬ (a.1 = "xmlns".toList ∨ a.1.take 6 = "xmlns:".toList)).mapM fun a => (qname sc false a.1).map fun q => (q, a.2)

/-- An element that has begun; `fresh` until its first child or comment. -/
structure Frame where
  name : Text
  scope : Scope
  tag : QName
  attrs : List (QName × Text)
  text : Option Text
  kids : List Elem
  fresh : Bool

/-- The text before the first child; texts after children and comments are not represented in `Elem`. -/
def Frame.addText (f : Frame) (t : Text) : Frame := if f.fresh then { f with text := if t = [] then none else some t, fresh := false } else f
def Frame.addKid (f : Frame) (e : Elem) : Frame := { f with kids := f.kids ++ [e] }
def Frame.elem (f : Frame) : Elem := .mk f.tag f.attrs f.text f.kids

/-- A start tag within a scope. -/
def begin (sc : Scope) (s : Text) : Option Frame := do
  let (n, as) ← startOf s
  let sc' := declared as ++ sc
  let q ← qname sc' true n
  let at_ ← plainAttrs sc' as
  if (at_.map Prod.fst).Nodup then some ⟨n, sc', q, at_, none, [], true⟩ else none

def isComment (s : Text) : Bool := s.take 3 == "!--".toList

/-- The tree of the tags: the elements that have begun, the innermost first. -/
def build : List Frame → List (Text × Text) → Option (Elem × List (Text × Text))
  | _, [] => none
  | stack, (t, s) :: rest =>
    match decode none t with
    | none => none
    | some x =>
      match stack with
      | [] =>
        if x.all isBlank ∧ isComment s then build [] rest
        else if ¬ x.all isBlank ∨ s.head? = some '/' ∨ s.head? = some '!' ∨ s.head? = some '?' then none
        else if s.getLast? = some '/' then (begin [] s.dropLast).map fun f => (f.elem, rest)
        else (begin [] s).bind fun f => build [f] rest
      | f :: st =>
        if isComment s then build (f.addText x :: st) rest
        else if s.head? = some '!' ∨ s.head? = some '?' then none
        else if s.head? = some '/' then
          if ((s.drop 1).reverse.dropWhile isBlank).reverse = f.name then
            match st with
            | [] => some ((f.addText x).elem, rest)
            | g :: st' => build (g.addKid (f.addText x).elem :: st') rest
          else none
        else if s.getLast? = some '/' then (begin f.scope s.dropLast).bind fun g => build ((f.addText x).addKid g.elem :: st) rest
        else (begin f.scope s).bind fun g => build (g :: f.addText x :: st) rest

/-- The XML declaration at the beginning of a text, if any, is skipped. -/
def skipDecl : List (Text × Text) → List (Text × Text)
  | ([], s) :: rest => if s.take 5 = "?xml ".toList then rest else ([], s) :: rest
  | l => l

/-- The tree of a text; `none` for a text that is not well-formed (or not in the modelled part of XML). -/
def parse (t : Text) : Option Elem :=
  match scan (.text []) (lineEnds false t) with
  | none => none
  | some (l, last) =>
    match build [] (skipDecl l) with
    | some (e, rest) => if (rest.all fun p => p.1.all isBlank && isComment p.2) ∧ last.all isBlank then some e else none
    | none => none

end Verif.Xml
