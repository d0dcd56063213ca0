import Verif.Model.SourceModel

/-!
# Model of nrml/reader.py and nrml/writer.py

An XML document is an element tree.  Qualified names are pairs of a namespace and a local name (lxml writes them
`{namespace}local`).  Tail texts, comments and processing instructions are not represented: neither module looks at them.
Number texts (`str`, `float`) are a parameter `NumText`; `Verif/Model/Format.lean` gives the concrete Python 2.7 formatting.
-/

namespace Verif.Nrml

open Verif Verif.EqCatalog

/-- Namespaces (nrml/nrml_xml.py:38-42). -/
inductive Ns where
  | none
  | nrml
  | gml
  | other (uri : String)
deriving DecidableEq, Repr

structure QName where
  ns : Ns
  loc : String
deriving DecidableEq, Repr

/-! Names (nrml/nrml_xml.py:46-80, 100). -/
def tROOT : QName := ⟨.nrml, "nrml"⟩
def tSOURCE_MODEL : QName := ⟨.nrml, "sourceModel"⟩
def tCONFIG : QName := ⟨.nrml, "config"⟩
def aTYPE : QName := ⟨.none, "type"⟩
def tAREA_SOURCE : QName := ⟨.nrml, "areaSource"⟩
def aGML_ID : QName := ⟨.gml, "id"⟩
def tGML_NAME : QName := ⟨.gml, "name"⟩
def tTECTONIC_REGION : QName := ⟨.nrml, "tectonicRegion"⟩
def tAREA_BOUNDARY : QName := ⟨.nrml, "areaBoundary"⟩
def tPOLYGON : QName := ⟨.gml, "Polygon"⟩
def tEXTERIOR : QName := ⟨.gml, "exterior"⟩
def tLINEAR_RING : QName := ⟨.gml, "LinearRing"⟩
def aLINEAR_RING_NAME : QName := ⟨.none, "srsName"⟩
def aSRS_NAME : QName := ⟨.none, "srsName"⟩
def tPOS_LIST : QName := ⟨.gml, "posList"⟩
def tRUPTURE_RATE_MODEL : QName := ⟨.nrml, "ruptureRateModel"⟩
def tTGR : QName := ⟨.nrml, "truncatedGutenbergRichter"⟩
def tA_VALUE : QName := ⟨.nrml, "aValueCumulative"⟩
def tB_VALUE : QName := ⟨.nrml, "bValue"⟩
def tMIN_MAGNITUDE : QName := ⟨.nrml, "minMagnitude"⟩
def tMAX_MAGNITUDE : QName := ⟨.nrml, "maxMagnitude"⟩
def tSTRIKE : QName := ⟨.nrml, "strike"⟩
def tDIP : QName := ⟨.nrml, "dip"⟩
def tRAKE : QName := ⟨.nrml, "rake"⟩
def tRUPTURE_DEPTH_DISTRIB : QName := ⟨.nrml, "ruptureDepthDistribution"⟩
def tMAGNITUDE : QName := ⟨.nrml, "magnitude"⟩
def tDEPTH : QName := ⟨.nrml, "depth"⟩
def tHYPOCENTRAL_DEPTH : QName := ⟨.nrml, "hypocentralDepth"⟩

/-- An element: tag, attributes, text before the first child, children. -/
inductive Elem where
  | mk (tag : QName) (attrs : List (QName × Text)) (text : Option Text) (children : List Elem)

namespace Elem
def tag : Elem → QName | mk t _ _ _ => t
def attrs : Elem → List (QName × Text) | mk _ a _ _ => a
def text : Elem → Option Text | mk _ _ t _ => t
def children : Elem → List Elem | mk _ _ _ c => c

/-- `elem.get(name)`. -/
def get (e : Elem) (name : QName) : Option Text :=
  (e.attrs.find? (fun p => p.1 = name)).map Prod.snd

/-- `elem.find(tag)`: the first child with that tag. -/
def findChild (e : Elem) (t : QName) : Option Elem := e.children.find? (fun c => c.tag = t)

mutual
/-- The element and its descendants in document order. -/
def nodes : Elem → List Elem
  | mk t a x cs => mk t a x cs :: nodesList cs
def nodesList : List Elem → List Elem
  | [] => []
  | c :: cs => nodes c ++ nodesList cs
end

/-- `elem.find('.//tag')`: the first proper descendant with that tag. -/
def findDesc (e : Elem) (t : QName) : Option Elem := (nodesList e.children).find? (fun c => c.tag = t)

/-- `elem.clear()`: attributes, text and children are dropped. -/
def clear (e : Elem) : Elem := mk e.tag [] none []
end Elem

/-- Python's `str(number)` and `float(text)` (`none` is `ValueError`). -/
structure NumText (F : Type) where
  str : F → Text
  float : Text → Option F

/-- `text.split()` for the ASCII white space characters. -/
def splitGo (cur : Text) : Text → List Text
  | [] => if cur = [] then [] else [cur]
  | c :: cs =>
    if isWs c then (if cur = [] then splitGo [] cs else cur :: splitGo [] cs)
    else splitGo (cur ++ [c]) cs

def splitWs (t : Text) : List Text := splitGo [] t

section reader
variable {F : Type} (nt : NumText F)

/-- Attribute access on the result of `find`: `None` has no attribute. -/
def need (e : Option Elem) : Except PyErr Elem :=
  match e with
  | none => .error .attributeError
  | some e => .ok e

/-- `float(text)` of one word. -/
def toFloat (t : Text) : Except PyErr F :=
  match nt.float t with
  | none => .error .valueError
  | some x => .ok x

/-- `float(elem.find(tag).text)`; `float(None)` is a `TypeError`. -/
def childFloat (e : Elem) (t : QName) : Except PyErr F := do
  let c ← need (e.findChild t)
  match c.text with
  | none => .error .typeError
  | some x => toFloat nt x

/-- `elem.text.split()`; `None` has no method. -/
def words (e : Elem) : Except PyErr (List Text) :=
  match e.text with
  | none => .error .attributeError
  | some t => .ok (splitWs t)

/-- The list comprehension of nrml/reader.py:138-139: points from consecutive pairs, `IndexError` when the last one has no partner. -/
def points : List Text → Except PyErr (List (Point F))
  | [] => .ok []
  | [a] => do
    let _ ← toFloat nt a
    .error .indexError
  | a :: b :: rest => do
    let x ← toFloat nt a
    let y ← toFloat nt b
    let ps ← points rest
    .ok (⟨x, y⟩ :: ps)

/-- `_parse_area_boundary` (nrml/reader.py:123-143).  Clearing the element afterwards is accounted for in `readNode`. -/
def parseAreaBoundary (e : Elem) : Except PyErr (AreaBoundary F) := do
  let ring ← need (e.findDesc tLINEAR_RING)
  let srs := ring.get aLINEAR_RING_NAME
  let pos ← need (e.findDesc tPOS_LIST)
  let ws ← words pos
  let ps ← points nt ws
  .ok ⟨srs, ps⟩

/-- `_parse_rupture_rate_model` (nrml/reader.py:146-178).  The arguments are evaluated from left to right; the `find` of the truncated
Gutenberg-Richter element gives `None` when there is none, and the first use of it then fails. -/
def parseRateModel (e : Elem) : Except PyErr (RateModel F) := do
  let t ← need (e.findChild tTGR)
  let a ← childFloat nt t tA_VALUE
  let b ← childFloat nt t tB_VALUE
  let mn ← childFloat nt t tMIN_MAGNITUDE
  let mx ← childFloat nt t tMAX_MAGNITUDE
  let strike ← childFloat nt e tSTRIKE
  let dip ← childFloat nt e tDIP
  let rake ← childFloat nt e tRAKE
  .ok ⟨⟨a, b, mn, mx, t.get aTYPE⟩, strike, dip, rake⟩

/-- `_parse_rupture_depth_distrib` (nrml/reader.py:181-205). -/
def parseDepthDistrib (e : Elem) : Except PyErr (DepthDistrib F) := do
  let m ← need (e.findChild tMAGNITUDE)
  let mw ← words m
  let mv ← mw.mapM (toFloat nt)
  let d ← need (e.findChild tDEPTH)
  let dw ← words d
  let dv ← dw.mapM (toFloat nt)
  .ok ⟨⟨m.get aTYPE, mv⟩, dv⟩

/-- Identifier attributes of the enclosing elements, innermost first: `getparent()`, `getparent().getparent()`, ... -/
abbrev Anc := List (Option Text)

/-- `_parse_area_source` (nrml/reader.py:78-120).  `anc` are the `gml:id` attributes of the ancestors; with fewer than two ancestors
`getparent()` gives `None` and the next attribute access fails. -/
def parseAreaSource (anc : Anc) (e : Elem) : Except PyErr (AreaSource F) :=
  match anc with
  | smId :: nrmlId :: _ => do
    let nm ← need (e.findChild tGML_NAME)
    let tr ← need (e.findChild tTECTONIC_REGION)
    let be ← need (e.findChild tAREA_BOUNDARY)
    let b ← parseAreaBoundary nt be
    let re ← need (e.findChild tRUPTURE_RATE_MODEL)
    let r ← parseRateModel nt re
    let de ← need (e.findChild tRUPTURE_DEPTH_DISTRIB)
    let d ← parseDepthDistrib nt de
    let h ← childFloat nt e tHYPOCENTRAL_DEPTH
    .ok { nrmlId := nrmlId, sourceModelId := smId, areaSourceId := e.get aGML_ID, name := nm.text,
          tectonicRegion := tr.text, boundary := b, rate := r, depthDist := d, hypocentralDepth := h }
  | _ => .error .attributeError

mutual
/-- `NRMLReader.read` (nrml/reader.py:62-75) on one element: `iterparse` reports an element when it is closed, that is after all
its descendants.  An area source is parsed and then cleared.  Returns the sources yielded and the element
as it is left behind (which is what an enclosing area source would see). -/
def readNode (anc : Anc) : Elem → Except PyErr (List (AreaSource F) × Elem)
  | .mk t a x cs => do
    let r ← readChildren (((Elem.mk t a x []).get aGML_ID) :: anc) cs
    if t = tAREA_SOURCE then do
      let s ← parseAreaSource nt anc (.mk t a x r.2)
      .ok (r.1 ++ [s], (Elem.mk t a x r.2).clear)
    else .ok (r.1, .mk t a x r.2)
def readChildren (anc : Anc) : List Elem → Except PyErr (List (AreaSource F) × List Elem)
  | [] => .ok ([], [])
  | c :: cs => do
    let r ← readNode anc c
    let rs ← readChildren anc cs
    .ok (r.1 ++ rs.1, r.2 :: rs.2)
end

/-- The list of sources obtained by iterating over `NRMLReader(filename, schema).read()` to the end.  `valid` is the schema; a document that does not
conform ends the iteration with `XMLSyntaxError` (simplified: sources yielded before the error are not kept;
every caller loses them with the exception). -/
def readDoc (valid : Elem → Bool) (doc : Elem) : Except PyErr (List (AreaSource F)) := do
  if valid doc then
    let r ← readNode nt [] doc
    .ok r.1
  else .error .xmlSyntax

end reader

section writer
variable {F : Type} (nt : NumText F)

/-- Characters lxml accepts in attribute values and texts: no NUL and no control characters except tab, line feed, carriage return. -/
def xmlChar (c : Char) : Bool := 0x20 ≤ c.toNat || c == '\t' || c == '\n' || c == '\r'

def xmlOk (t : Text) : Bool := t.all xmlChar

/-- `elem.attrib[name] = value`: `None` is a `TypeError`, illegal characters a `ValueError`. -/
def attrValue (v : Option Text) : Except PyErr Text :=
  match v with
  | none => .error .typeError
  | some t => if xmlOk t then .ok t else .error .valueError

/-- `elem.text = value`: `None` removes the text, illegal characters are a `ValueError`. -/
def textValue (v : Option Text) : Except PyErr (Option Text) :=
  match v with
  | none => .ok none
  | some t => if xmlOk t then .ok (some t) else .error .valueError

/-- An element with a text only. -/
def leaf (t : QName) (v : Option Text) : Except PyErr Elem := do
  let x ← textValue v
  .ok (.mk t [] x [])

/-- `' '.join(str(value) for value in values)`. -/
def joinNums (xs : List F) : Text := [' '].intercalate (xs.map nt.str)

/-- `_write_area_boundary` (nrml/writer.py:144-175). -/
def writeAreaBoundary (b : AreaBoundary F) : Except PyErr Elem := do
  let srs ← attrValue b.srsName
  let pos ← leaf tPOS_LIST (some (joinNums nt (b.posList.flatMap (fun p => [p.lon, p.lat]))))
  .ok (.mk tAREA_BOUNDARY [] none [.mk tPOLYGON [] none [.mk tEXTERIOR [] none
    [.mk tLINEAR_RING [(aSRS_NAME, srs)] none [pos]]]])

/-- `_write_truncated_guten_richter` (nrml/writer.py:208-242). -/
def writeTgr (g : Tgr F) : Except PyErr Elem := do
  let ty ← attrValue g.typeTgr
  let a ← leaf tA_VALUE (some (nt.str g.aValue))
  let b ← leaf tB_VALUE (some (nt.str g.bValue))
  let mn ← leaf tMIN_MAGNITUDE (some (nt.str g.minMagnitude))
  let mx ← leaf tMAX_MAGNITUDE (some (nt.str g.maxMagnitude))
  .ok (.mk tTGR [(aTYPE, ty)] none [a, b, mn, mx])

/-- `_write_rupture_rate_model` (nrml/writer.py:178-205). -/
def writeRateModel (r : RateModel F) : Except PyErr Elem := do
  let g ← writeTgr nt r.tgr
  let s ← leaf tSTRIKE (some (nt.str r.strike))
  let d ← leaf tDIP (some (nt.str r.dip))
  let k ← leaf tRAKE (some (nt.str r.rake))
  .ok (.mk tRUPTURE_RATE_MODEL [] none [g, s, d, k])

/-- `_write_rupture_depth_distrib` (nrml/writer.py:245-272). -/
def writeDepthDistrib (d : DepthDistrib F) : Except PyErr Elem := do
  let ty ← attrValue d.magnitude.typeMag
  let mt ← textValue (some (joinNums nt d.magnitude.values))
  let dp ← leaf tDEPTH (some (joinNums nt d.depth))
  .ok (.mk tRUPTURE_DEPTH_DISTRIB [] none [.mk tMAGNITUDE [(aTYPE, ty)] mt [], dp])

/-- `_area_source_elem` (nrml/writer.py:109-141). -/
def areaSourceElem (s : AreaSource F) : Except PyErr Elem := do
  let id ← attrValue s.areaSourceId
  let nm ← leaf tGML_NAME s.name
  let tr ← leaf tTECTONIC_REGION s.tectonicRegion
  let b ← writeAreaBoundary nt s.boundary
  let r ← writeRateModel nt s.rate
  let d ← writeDepthDistrib nt s.depthDist
  let h ← leaf tHYPOCENTRAL_DEPTH (some (nt.str s.hypocentralDepth))
  .ok (.mk tAREA_SOURCE [(aGML_ID, id)] none [nm, tr, b, r, d, h])

/-- The tree written by `AreaSourceWriter.serialize` (nrml/writer.py:51-106): header from the first source (`IndexError` when there is none),
an empty `config` element, then one element per source. -/
def serialize (sources : List (AreaSource F)) : Except PyErr Elem :=
  match sources with
  | [] => .error .indexError
  | s :: _ => do
    let nid ← attrValue s.nrmlId
    let sid ← attrValue s.sourceModelId
    let body ← sources.mapM (areaSourceElem nt)
    .ok (.mk tROOT [(aGML_ID, nid)] none
      [.mk tSOURCE_MODEL [(aGML_ID, sid)] none (.mk tCONFIG [] none [] :: body)])

end writer

/-- Writing a tree to a file with `pretty_print=True` and parsing the file (nrml/writer.py:61-64, nrml/reader.py:71-72): tags,
attributes and children are kept; a leaf keeps its text, but an empty text becomes `None`; an element with children and no
text of its own gets some indentation as text. -/
inductive Reparse : Elem → Elem → Prop
  | leaf (t a) : Reparse (.mk t a none []) (.mk t a none [])
  | leafEmpty (t a) : Reparse (.mk t a (some []) []) (.mk t a none [])
  | leafText (t a c cs) : Reparse (.mk t a (some (c :: cs)) []) (.mk t a (some (c :: cs)) [])
  | node (t a x c cs c' cs') : Reparse c c' → List.Forall₂ Reparse cs cs' →
      Reparse (.mk t a none (c :: cs)) (.mk t a x (c' :: cs'))

/-! ### Output paths -/

/-- `os.path.dirname` on POSIX: the part up to the last slash, without trailing slashes unless it consists of slashes only. -/
def dirname (p : Text) : Text :=
  let head := (p.reverse.dropWhile (· ≠ '/')).reverse
  if head.all (· == '/') then head else (head.reverse.dropWhile (· = '/')).reverse

/-- Constructor of `AreaSourceWriter` (nrml/writer.py:38-49) and of `EqEntryWriter` (mtoolkit/eqcatalog.py:337-341): the directory must exist.  `exists_`
is `os.path.exists` on the current file system. -/
def mkWriter (exists_ : Text → Bool) (filename : Text) : Except PyErr Text :=
  if exists_ (dirname filename) then .ok filename else .error .ioError

end Verif.Nrml
