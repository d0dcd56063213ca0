import Verif.Model.Nrml

/-!
# Specifications for reading and writing source models
-/

namespace Verif.Nrml.Spec

open Verif Verif.EqCatalog Verif.Nrml

/-- Area source elements of a list of nodes. -/
def areaSources (l : List Elem) : List Elem := l.filter (fun e => e.tag = tAREA_SOURCE)

/-- No area source contains another one. -/
def NotNested (doc : Elem) : Prop :=
  ∀ n ∈ doc.nodes, n.tag = tAREA_SOURCE → areaSources (Elem.nodesList n.children) = []

mutual
/-- The area source elements in document order, each with the identifiers of its ancestors. -/
def occ (anc : Anc) : Elem → List (Anc × Elem)
  | .mk t a x cs => (if t = tAREA_SOURCE then [(anc, .mk t a x cs)] else []) ++
      occList (((Elem.mk t a x []).get aGML_ID) :: anc) cs
def occList (anc : Anc) : List Elem → List (Anc × Elem)
  | [] => []
  | c :: cs => occ anc c ++ occList anc cs
end

/-- The characters that XML can represent, control characters being excluded (U+FFFE and U+FFFF, which XML excludes as
well, are not considered). -/
def XmlChar (c : Char) : Prop := ' ' ≤ c ∨ c ∈ ['\t', '\n', '\r']

/-- What the number texts have to satisfy: they are words, and `rnd x` is what is read back from the text of `x`, a value that
prints in the same way. -/
structure Lawful {F : Type} (nt : NumText F) (rnd : F → F) : Prop where
  str_ne : ∀ x, nt.str x ≠ []
  str_ws : ∀ x, ∀ c ∈ nt.str x, isWs c = false
  str_ok : ∀ x, ∀ c ∈ nt.str x, XmlChar c
  float_str : ∀ x, nt.float (nt.str x) = some (rnd x)
  str_rnd : ∀ x, nt.str (rnd x) = nt.str x

/-- An empty text is the same as no text in XML. -/
def blankText : Option Text → Option Text
  | some [] => none
  | t => t

mutual
/-- The content of a document as XML sees it: an empty text is no text. -/
def content : Elem → Elem
  | .mk t a x cs => .mk t a (blankText x) (contentList cs)
def contentList : List Elem → List Elem
  | [] => []
  | c :: cs => content c :: contentList cs
end

variable {F : Type}

def rndPoint (rnd : F → F) (p : Point F) : Point F := ⟨rnd p.lon, rnd p.lat⟩

/-- The source with every number at its printed precision. -/
def rndSource (rnd : F → F) (s : AreaSource F) : AreaSource F :=
  { s with
    boundary := ⟨s.boundary.srsName, s.boundary.posList.map (rndPoint rnd)⟩
    rate := ⟨⟨rnd s.rate.tgr.aValue, rnd s.rate.tgr.bValue, rnd s.rate.tgr.minMagnitude, rnd s.rate.tgr.maxMagnitude,
      s.rate.tgr.typeTgr⟩, rnd s.rate.strike, rnd s.rate.dip, rnd s.rate.rake⟩
    depthDist := ⟨⟨s.depthDist.magnitude.typeMag, s.depthDist.magnitude.values.map rnd⟩, s.depthDist.depth.map rnd⟩
    hypocentralDepth := rnd s.hypocentralDepth }

/-- What is read back for a source of a document with the given identifiers: numbers at their printed precision, empty texts as
`None`. -/
def readBack (rnd : F → F) (nrmlId smId : Option Text) (s : AreaSource F) : AreaSource F :=
  { rndSource rnd s with
    nrmlId := nrmlId
    sourceModelId := smId
    name := blankText s.name
    tectonicRegion := blankText s.tectonicRegion }

/-- The three number lists of a source are not empty. -/
def Filled (s : AreaSource F) : Prop :=
  s.boundary.posList ≠ [] ∧ s.depthDist.magnitude.values ≠ [] ∧ s.depthDist.depth ≠ []

/-- A text that may be stored in XML. -/
def Storable (t : Text) : Prop := ∀ c ∈ t, XmlChar c

/-- The texts of a source that are written as attributes are present, and all texts are storable. -/
def Writable (s : AreaSource F) : Prop :=
  (∃ t, s.areaSourceId = some t ∧ Storable t) ∧ (∀ t, s.name = some t → Storable t) ∧
  (∀ t, s.tectonicRegion = some t → Storable t) ∧ (∃ t, s.boundary.srsName = some t ∧ Storable t) ∧
  (∃ t, s.rate.tgr.typeTgr = some t ∧ Storable t) ∧ (∃ t, s.depthDist.magnitude.typeMag = some t ∧ Storable t)

/-- A path split at its last slash: directory part and file name. -/
def PathParts (p dir file : Text) : Prop := p = dir ++ '/' :: file ∧ '/' ∉ file

end Verif.Nrml.Spec
