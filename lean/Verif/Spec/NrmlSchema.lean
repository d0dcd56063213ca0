import Verif.Spec.Nrml

/-!
# The part of the NRML schema that describes an area source

From nrml/schema/nrml_seismic.xsd:42-51 (tectonic regions), 112-143, 157-177 (area source), 207-238 (rate model and its two kinds
of magnitude-frequency distribution), nrml_common.xsd:51-64, 174-176.  Simplified: of the optional GML properties in front of the
tectonic region only `gml:name` (any number) is represented.  The element structure comes first; the attributes, the value ranges
and the uniqueness of the identifiers follow in `Valid`.
-/

namespace Verif.Nrml.Schema

open Verif Verif.EqCatalog Verif.Nrml

/-- `TectonicRegion` (nrml_seismic.xsd:42-51). -/
def regions : List Text :=
  ["Active Shallow Crust", "Stable Shallow Crust", "Subduction Interface", "Subduction IntraSlab", "Volcanic"].map String.toList

def tINCREMENTAL : QName := ⟨.nrml, "evenlyDiscretizedIncrementalMFD"⟩

/-- A leaf holding one `xs:double`. -/
def Double (dbl : Text → Prop) (t : QName) (e : Elem) : Prop := ∃ a x, e = .mk t a (some x) [] ∧ dbl x

/-- A leaf holding a list of `xs:double`; an empty list has no text. -/
def Doubles (dbl : Text → Prop) (t : QName) (e : Elem) : Prop :=
  ∃ a x, e = .mk t a x [] ∧ (x = none ∨ ∃ y, x = some y ∧ ∀ w ∈ splitWs y, dbl w)

/-- `truncatedGutenbergRichter` (nrml_seismic.xsd:218-228). -/
def TruncatedGR (dbl : Text → Prop) (e : Elem) : Prop :=
  ∃ a x c1 c2 c3 c4, e = .mk ⟨.nrml, "truncatedGutenbergRichter"⟩ a x [c1, c2, c3, c4] ∧
    Double dbl ⟨.nrml, "aValueCumulative"⟩ c1 ∧ Double dbl ⟨.nrml, "bValue"⟩ c2 ∧
    Double dbl ⟨.nrml, "minMagnitude"⟩ c3 ∧ Double dbl ⟨.nrml, "maxMagnitude"⟩ c4

/-- `evenlyDiscretizedIncrementalMFD` (nrml_seismic.xsd:230-238). -/
def Incremental (dbl : Text → Prop) (e : Elem) : Prop := Doubles dbl tINCREMENTAL e

/-- `RuptureRateModel` (nrml_seismic.xsd:207-214). -/
def RateModel (dbl : Text → Prop) (e : Elem) : Prop :=
  ∃ a x m c1 c2 c3, e = .mk ⟨.nrml, "ruptureRateModel"⟩ a x [m, c1, c2, c3] ∧ (TruncatedGR dbl m ∨ Incremental dbl m) ∧
    Double dbl ⟨.nrml, "strike"⟩ c1 ∧ Double dbl ⟨.nrml, "dip"⟩ c2 ∧ Double dbl ⟨.nrml, "rake"⟩ c3

/-- `RuptureDepthDistribution` (nrml_seismic.xsd:136-143). -/
def DepthDistribution (dbl : Text → Prop) (e : Elem) : Prop :=
  ∃ a x m d, e = .mk ⟨.nrml, "ruptureDepthDistribution"⟩ a x [m, d] ∧
    Doubles dbl ⟨.nrml, "magnitude"⟩ m ∧ Doubles dbl ⟨.nrml, "depth"⟩ d

/-- `AreaBoundary` (nrml_seismic.xsd:169-177) with the polygon given by a position list. -/
def Boundary (dbl : Text → Prop) (e : Elem) : Prop :=
  ∃ a x a1 x1 a2 x2 a3 x3 p, e = .mk ⟨.nrml, "areaBoundary"⟩ a x [.mk ⟨.gml, "Polygon"⟩ a1 x1
    [.mk ⟨.gml, "exterior"⟩ a2 x2 [.mk ⟨.gml, "LinearRing"⟩ a3 x3 [p]]]] ∧ Doubles dbl ⟨.gml, "posList"⟩ p

/-- `AreaSource` (nrml_seismic.xsd:112-134, 157-167). -/
def AreaSource (dbl : Text → Prop) (e : Elem) : Prop :=
  ∃ a x names region boundary rates depth hypo, e = .mk ⟨.nrml, "areaSource"⟩ a x
      (names ++ [region, boundary] ++ rates ++ [depth, hypo]) ∧
    (∀ n ∈ names, ∃ b y, n = .mk ⟨.gml, "name"⟩ b y []) ∧
    (∃ b r, region = .mk ⟨.nrml, "tectonicRegion"⟩ b (some r) [] ∧ r ∈ regions) ∧
    Boundary dbl boundary ∧ rates ≠ [] ∧ (∀ r ∈ rates, RateModel dbl r) ∧ DepthDistribution dbl depth ∧
    Double dbl ⟨.nrml, "hypocentralDepth"⟩ hypo

/-- A document (nrml.xsd:27-46) holding a source model (nrml_seismic.xsd:394-404) of area sources: an optional `config`, then one or more sources.
`Config` (nrml_common.xsd:14-18) may be empty. -/
def Document (dbl : Text → Prop) (e : Elem) : Prop :=
  ∃ a x a1 x1 configs sources, e = .mk ⟨.nrml, "nrml"⟩ a x [.mk ⟨.nrml, "sourceModel"⟩ a1 x1 (configs ++ sources)] ∧
    (configs = [] ∨ ∃ a2 x2, configs = [.mk ⟨.nrml, "config"⟩ a2 x2 []]) ∧ sources ≠ [] ∧ ∀ s ∈ sources, AreaSource dbl s

/-- `MagnitudeType` (nrml_common.xsd:48-53). -/
def magnitudeTypes : List Text := ["ML", "Mw"].map String.toList

/-- The attributes an element may carry; `nc` holds of the names `xs:ID` admits.  Features have a `gml:id` (gmlsf.xsd:877-892), geometries
may have one and an `srsName` (gmlsf.xsd:626-660), distributions and lists of magnitudes the type of the magnitudes
(nrml_seismic.xsd:226, 234-235, nrml_common.xsd:39-46, 55-63, 90-96), names a `codeSpace`. -/
def Attributes (nc : Text → Prop) (t : QName) (a : List (QName × Text)) : Prop :=
  if t ∈ [⟨.nrml, "nrml"⟩, ⟨.nrml, "sourceModel"⟩, ⟨.nrml, "areaSource"⟩] then ∃ i, a = [(⟨.gml, "id"⟩, i)] ∧ nc i
  else if t ∈ [⟨.nrml, "truncatedGutenbergRichter"⟩, ⟨.nrml, "magnitude"⟩] then
    a = [] ∨ ∃ k ∈ magnitudeTypes, a = [(⟨.none, "type"⟩, k)]
  else if t ∈ [⟨.nrml, "minMagnitude"⟩, ⟨.nrml, "maxMagnitude"⟩] then ∀ p ∈ a, p.1 = ⟨.none, "type"⟩
  else if t = tINCREMENTAL then
    ∀ p ∈ a, p.1 ∈ [⟨.none, "minVal"⟩, ⟨.none, "binSize"⟩] ∨ p.1 = ⟨.none, "type"⟩ ∧ p.2 ∈ magnitudeTypes
  else if t ∈ [⟨.gml, "Polygon"⟩, ⟨.gml, "LinearRing"⟩] then ∀ p ∈ a, p.1 = ⟨.gml, "id"⟩ ∧ nc p.2 ∨ p.1 = ⟨.none, "srsName"⟩
  else if t = ⟨.gml, "name"⟩ then ∀ p ∈ a, p.1 = ⟨.none, "codeSpace"⟩
  else a = []

/-- The values an element may hold (nrml_seismic.xsd:21-40, 132, 141, 221, nrml_common.xsd:161-165). -/
def Range {K : Type} [Zero K] [LE K] [Neg K] [NatCast K] (t : QName) (v : K) : Prop :=
  if t ∈ [⟨.nrml, "bValue"⟩, ⟨.nrml, "depth"⟩, ⟨.nrml, "hypocentralDepth"⟩] then 0 ≤ v
  else if t = ⟨.nrml, "strike"⟩ then 0 ≤ v ∧ v ≤ ((360 : ℕ) : K)
  else if t = ⟨.nrml, "dip"⟩ then 0 ≤ v ∧ v ≤ ((90 : ℕ) : K)
  else if t = ⟨.nrml, "rake"⟩ then -((180 : ℕ) : K) ≤ v ∧ v ≤ ((180 : ℕ) : K)
  else True

/-- The texts of the numbers an element holds: those of a list for `depth`, otherwise one. -/
def numbers (t : QName) (x : Text) : List Text := if t = ⟨.nrml, "depth"⟩ then splitWs x else [x]

/-- The identifiers used in a document. -/
def identifiers (e : Elem) : List Text := e.nodes.filterMap (fun n => n.get ⟨.gml, "id"⟩)

/-- A document of area sources that conforms to the schema in its elements, attributes, values and identifiers, which are of type
`xs:ID` and so occur once (gmlsf.xsd:994-1006).  Simplified: an attribute is not required to occur only once, an `srsName` may be any text. -/
structure Valid {K : Type} [Zero K] [LE K] [Neg K] [NatCast K] (num : Text → Option K) (nc : Text → Prop) (e : Elem) : Prop where
  elements : Document (fun w => (num w).isSome) e
  attributes : ∀ n ∈ e.nodes, Attributes nc n.tag n.attrs
  values : ∀ n ∈ e.nodes, ∀ x, n.text = some x → ∀ w ∈ numbers n.tag x, ∀ v, num w = some v → Range n.tag v
  once : (identifiers e).Nodup

end Verif.Nrml.Schema
