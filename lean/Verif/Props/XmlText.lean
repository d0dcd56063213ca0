import Verif.Lemmas.XmlText
import Verif.Props.ValidRun
import Verif.Props.OutsideEvents

/-!
# The text of a result file (C207)

What is written for a list of sources is text, and what the next program reads is that text: identifiers, names and regions with quotation marks, brackets, ampersands or line breaks included.
-/

namespace Verif.Xml

open Verif Verif.EqCatalog Verif.Nrml Verif.Nrml.Spec

mutual
theorem reread_reparse (level : ℕ) : ∀ e, Plain e → Reparse e (reread level e)
  | .mk t a none [], _ => .leaf t a
  | .mk t a (some []) [], _ => .leafEmpty t a
  | .mk t a (some (c :: l)) [], _ => .leafText t a c l
  | .mk t a none (c :: cs), h => by
    cases h with
    | node _ _ _ _ _ _ h1 h2 => exact .node t a _ c cs _ _ (reread_reparse (level + 1) c h1) (reread_reparseList (level + 1) cs h2)
  | .mk t a (some u) (c :: cs), h => by cases h
theorem reread_reparseList (level : ℕ) : ∀ cs, (∀ e ∈ cs, Plain e) → List.Forall₂ Reparse cs (rereadList level cs)
  | [], _ => .nil
  | c :: cs, h => .cons (reread_reparse level c (h c List.mem_cons_self)) (reread_reparseList level cs fun e he => h e (List.mem_cons_of_mem _ he))
end

/-- **C207**, any tree: the text of it is well-formed, and reading the text gives the tree back, up to indentation and empty texts. -/
theorem C207_tree (e : Elem) (h : Plain e) : ∃ e', parse (write e) = some e' ∧ Reparse e e' := ⟨_, parse_write e h, reread_reparse 0 e h⟩

/-! ### Written documents are plain -/

theorem plain_leaf {t : QName} (ht : TagName t) {x : Option Text} (hx : ∀ u, x = some u → Storable u) : Plain (.mk t [] x []) :=
  .leaf t [] x ht ⟨by simp, by simp⟩ fun u hu => (xmlOk_iff u).2 (hx u hu)

theorem plain_inner {t : QName} (ht : TagName t) {c : Elem} {cs : List Elem} (hc : ∀ e ∈ c :: cs, Plain e) : Plain (.mk t [] none (c :: cs)) :=
  .node t [] c cs ht ⟨by simp, by simp⟩ (hc c List.mem_cons_self) fun e he => hc e (List.mem_cons_of_mem _ he)

theorem attrs_one {a : QName} (ha : AttrName a) {v : Text} (hv : Storable v) : AttrsOk [(a, v)] := by
  refine ⟨?_, by simp⟩
  simp only [List.mem_singleton, forall_eq]
  exact ⟨ha, (xmlOk_iff v).2 hv⟩

theorem plain_attr {t : QName} (ht : TagName t) {a : QName} (ha : AttrName a) {v : Text} (hv : Storable v) {c : Elem} {cs : List Elem} (hc : ∀ e ∈ c :: cs, Plain e) :
    Plain (.mk t [(a, v)] none (c :: cs)) :=
  .node t _ c cs ht (attrs_one ha hv) (hc c List.mem_cons_self) fun e he => hc e (List.mem_cons_of_mem _ he)

variable {F : Type} {nt : NumText F} {rnd : F → F}

theorem plain_source (H : Lawful nt rnd) {s : AreaSource F} {e : Elem} (h : areaSourceElem nt s = .ok e) : Plain e := by
  obtain ⟨hw, id, srs, tyG, tyM, h1, h2, h3, h4, rfl⟩ := areaSourceElem_ok H h
  have num : ∀ {t : QName} (_ : TagName t) (x : F), Plain (.mk t [] (some (nt.str x)) []) := fun ht x => plain_leaf ht (by rintro u ⟨⟩; exact H.str_ok x)
  have nums : ∀ {t : QName} (_ : TagName t) (xs : List F), Plain (.mk t [] (some (joinNums nt xs)) []) := fun ht xs =>
    plain_leaf ht (by rintro u ⟨⟩; exact (xmlOk_iff _).1 (joinNums_ok H _))
  obtain ⟨⟨id', e1, k1⟩, hn, hr, ⟨srs', e2, k2⟩, ⟨tyG', e3, k3⟩, ⟨tyM', e4, k4⟩⟩ := hw
  cases e1.symm.trans h1
  cases e2.symm.trans h2
  cases e3.symm.trans h3
  cases e4.symm.trans h4
  refine plain_attr (by decide) (by decide) k1 ?_
  simp only [List.mem_cons, List.not_mem_nil, or_false, forall_eq_or_imp, forall_eq]
  refine ⟨plain_leaf (by decide) hn, plain_leaf (by decide) hr, ?_, ?_, ?_, num (by decide) _⟩
  · refine plain_inner (by decide) ?_
    simp only [List.mem_singleton, forall_eq]
    refine plain_inner (by decide) ?_
    simp only [List.mem_singleton, forall_eq]
    refine plain_inner (by decide) ?_
    simp only [List.mem_singleton, forall_eq]
    refine plain_attr (by decide) (by decide) k2 ?_
    simp only [List.mem_singleton, forall_eq]
    exact nums (by decide) _
  · refine plain_inner (by decide) ?_
    simp only [List.mem_cons, List.not_mem_nil, or_false, forall_eq_or_imp, forall_eq]
    refine ⟨plain_attr (by decide) (by decide) k3 ?_, num (by decide) _, num (by decide) _, num (by decide) _⟩
    simp only [List.mem_cons, List.not_mem_nil, or_false, forall_eq_or_imp, forall_eq]
    exact ⟨num (by decide) _, num (by decide) _, num (by decide) _, num (by decide) _⟩
  · refine plain_inner (by decide) ?_
    simp only [List.mem_cons, List.not_mem_nil, or_false, forall_eq_or_imp, forall_eq]
    exact ⟨.leaf _ _ _ (by decide) (attrs_one (by decide) k4) (by rintro u ⟨⟩; exact joinNums_ok H _), nums (by decide) _⟩

theorem plain_document (H : Lawful nt rnd) {ss : List (AreaSource F)} {doc : Elem} (h : serialize nt ss = .ok doc) : Plain doc := by
  obtain ⟨s0, rest, nid, sid, body, -, -, -, k1, k2, hb, rfl⟩ := serialize_ok h
  refine plain_attr (by decide) (by decide) k1 ?_
  simp only [List.mem_singleton, forall_eq]
  refine plain_attr (by decide) (by decide) k2 ?_
  simp only [List.mem_cons, forall_eq_or_imp]
  refine ⟨plain_leaf (by decide) (by simp), fun c hc => ?_⟩
  obtain ⟨s, -, hs⟩ := forall₂_mem_right hb hc
  exact plain_source H hs

/-- **C207**: whenever a list of sources is written, the text of the file is well-formed and is read back as the written document, up to indentation and empty texts. -/
theorem C207_document (H : Lawful nt rnd) (ss : List (AreaSource F)) (doc : Elem) (hs : serialize nt ss = .ok doc) :
    ∃ doc', parse (write doc) = some doc' ∧ Reparse doc doc' := C207_tree doc (plain_document H hs)

/-- **C207**: the sources come back from the text of the file, in order, with numbers at their printed precision. -/
theorem C207_sources (H : Lawful nt rnd) (valid : Elem → Bool) (ss : List (AreaSource F)) (doc : Elem) (hs : serialize nt ss = .ok doc) (hf : ∀ s ∈ ss, Filled s)
    (hid : ∀ s ∈ ss, ∀ s' ∈ ss, s.nrmlId = s'.nrmlId ∧ s.sourceModelId = s'.sourceModelId) (hne : ∀ s ∈ ss, s.name ≠ some [] ∧ s.tectonicRegion ≠ some []) :
    ∃ doc', parse (write doc) = some doc' ∧ (valid doc' = true → readDoc nt valid doc' = .ok (ss.map (rndSource rnd))) := by
  obtain ⟨doc', h1, h2⟩ := C207_document H ss doc hs
  exact ⟨doc', h1, fun hv => C83_same_list_partial H valid ss doc doc' hs h2 hv hf hid hne⟩

/-- **C207**: source models that differ at the printed precision are never written as the same text. -/
theorem C207_injective (H : Lawful nt rnd) (ss ss' : List (AreaSource F)) (doc doc' : Elem) (hs : serialize nt ss = .ok doc) (hs' : serialize nt ss' = .ok doc')
    (hf : ∀ s ∈ ss ++ ss', Filled s) (hid : ∀ s ∈ ss, ∀ s' ∈ ss, s.nrmlId = s'.nrmlId ∧ s.sourceModelId = s'.sourceModelId)
    (hid' : ∀ s ∈ ss', ∀ s' ∈ ss', s.nrmlId = s'.nrmlId ∧ s.sourceModelId = s'.sourceModelId) (hne : ∀ s ∈ ss ++ ss', s.name ≠ some [] ∧ s.tectonicRegion ≠ some [])
    (h : write doc = write doc') : ss.map (rndSource rnd) = ss'.map (rndSource rnd) := by
  obtain ⟨d, h1, h2⟩ := C207_sources H (fun _ => true) ss doc hs (fun s m => hf s (List.mem_append_left _ m)) hid (fun s m => hne s (List.mem_append_left _ m))
  obtain ⟨d', h1', h2'⟩ := C207_sources H (fun _ => true) ss' doc' hs' (fun s m => hf s (List.mem_append_right _ m)) hid' (fun s m => hne s (List.mem_append_right _ m))
  rw [h, h1'] at h1
  cases h1
  exact Except.ok.inj ((h2 rfl).symm.trans (h2' rfl))

/-! ### Concrete texts -/

/-- tests/data/serialized_models.xml, character by character. -/
def serializedModels : String :=
    "<?xml version='1.0' encoding='utf-8'?>" ++ "\n" ++
    "<nrml xmlns:gml=\"http://www.opengis.net/gml\" xmlns=\"http://openquake.org/xmlns/nrml/0.3\" gml:id=\"n1\">" ++ "\n" ++
    "  <sourceModel gml:id=\"sm1\">" ++ "\n" ++
    "    <config/>" ++ "\n" ++
    "    <areaSource gml:id=\"src03\">" ++ "\n" ++
    "      <gml:name>Quito</gml:name>" ++ "\n" ++
    "      <tectonicRegion>Active Shallow Crust</tectonicRegion>" ++ "\n" ++
    "      <areaBoundary>" ++ "\n" ++
    "        <gml:Polygon>" ++ "\n" ++
    "          <gml:exterior>" ++ "\n" ++
    "            <gml:LinearRing srsName=\"urn:ogc:def:crs:EPSG::4326\">" ++ "\n" ++
    "              <gml:posList>-122.5 37.5 -121.5 37.5 -121.5 38.5 -122.5 38.5</gml:posList>" ++ "\n" ++
    "            </gml:LinearRing>" ++ "\n" ++
    "          </gml:exterior>" ++ "\n" ++
    "        </gml:Polygon>" ++ "\n" ++
    "      </areaBoundary>" ++ "\n" ++
    "      <ruptureRateModel>" ++ "\n" ++
    "        <truncatedGutenbergRichter type=\"ML\">" ++ "\n" ++
    "          <aValueCumulative>5.0</aValueCumulative>" ++ "\n" ++
    "          <bValue>0.8</bValue>" ++ "\n" ++
    "          <minMagnitude>5.0</minMagnitude>" ++ "\n" ++
    "          <maxMagnitude>7.0</maxMagnitude>" ++ "\n" ++
    "        </truncatedGutenbergRichter>" ++ "\n" ++
    "        <strike>0.0</strike>" ++ "\n" ++
    "        <dip>90.0</dip>" ++ "\n" ++
    "        <rake>0.0</rake>" ++ "\n" ++
    "      </ruptureRateModel>" ++ "\n" ++
    "      <ruptureDepthDistribution>" ++ "\n" ++
    "        <magnitude type=\"ML\">6.0 6.5 7.0</magnitude>" ++ "\n" ++
    "        <depth>5000.0 3000.0 0.0</depth>" ++ "\n" ++
    "      </ruptureDepthDistribution>" ++ "\n" ++
    "      <hypocentralDepth>5000.0</hypocentralDepth>" ++ "\n" ++
    "    </areaSource>" ++ "\n" ++
    "  </sourceModel>" ++ "\n" ++
    "</nrml>" ++ "\n"

#guard (serialize pyNums [quito]).toOption.map write = some serializedModels.toList
#guard ((parse serializedModels.toList).bind fun d => (readDoc pyNums (fun _ => true) d).toOption) = some [quito]

/-- A source whose identifier and name are full of markup. -/
def marked : AreaSource ℚ := { quito with areaSourceId := some "a\"b'c<d>&e\n\t\r".toList, name := some "<gml:name a='1'>&amp;]]>\r\n\"".toList }

#guard ((serialize pyNums [marked]).toOption.bind fun d => (parse (write d)).bind fun d => (readDoc pyNums (fun _ => true) d).toOption) = some [marked]

/-- Non-vacuity: the source full of markup is written and meets the conditions. -/
example : (∃ doc, serialize (pyNums (K := ℚ)) [marked] = .ok doc) ∧ Filled marked ∧ marked.name ≠ some [] ∧ marked.tectonicRegion ≠ some [] := by
  refine ⟨?_, ⟨?_, ?_, ?_⟩, ?_, ?_⟩
  · rw [C83_writer_accepts pyNums_lawful]
    refine ⟨?_, marked, [], rfl, ⟨_, rfl, ?_⟩, ⟨_, rfl, ?_⟩⟩
    · simp only [List.mem_singleton, forall_eq]
      refine ⟨⟨_, rfl, ?_⟩, ?_, ?_, ⟨_, rfl, ?_⟩, ⟨_, rfl, ?_⟩, ⟨_, rfl, ?_⟩⟩
      · rw [← xmlOk_iff]; decide
      · rintro t ⟨⟩; rw [← xmlOk_iff]; decide
      · rintro t ⟨⟩; rw [← xmlOk_iff]; decide
      · rw [← xmlOk_iff]; decide
      · rw [← xmlOk_iff]; decide
      · rw [← xmlOk_iff]; decide
    · rw [← xmlOk_iff]; decide
    · rw [← xmlOk_iff]; decide
  all_goals simp [marked, quito]

end Verif.Xml

namespace Verif.Workflow

open Verif Verif.EqCatalog Verif.Csv Verif.Nrml Verif.Declustering Verif.Recurrence Verif.MaxMag Spec Nrml.Spec

/-- **C207**, a run: the text of the source model a run has written is well-formed; a later run that reads that text starts from the sources the first one ended with, numbers at
their printed precision. -/
theorem C207_next_run {F : Type} [PyMath F] (x x' : Ext F) {rnd : F → F} (H : Lawful x.nums rnd) (hx : x'.nums = x.nums) (hp : x'.parseXml = Xml.parse) (cfg cfg' : Config F)
    (fs fs' : Text → Option Content) (pos : Nat) (w' : World F) (path : Text) (hpath : cfg'.sourceModelFile = some path) (hne : path ≠ []) (h : main x cfg fs pos = some ⟨none, w'⟩) :
    ∃ inputs finals doc doc', InputSources x cfg fs inputs ∧ List.Forall₂ SameBut inputs finals ∧ w'.fs cfg.resultFile = some (.xml doc) ∧ Xml.parse (Xml.write doc) = some doc' ∧
      (fs' path = some (.text (Xml.write doc)) → x'.schema doc' = true → (∀ s ∈ inputs, Filled s) →
        (∀ s ∈ inputs, ∀ s' ∈ inputs, s.nrmlId = s'.nrmlId ∧ s.sourceModelId = s'.sourceModelId) → (∀ s ∈ inputs, s.name ≠ some [] ∧ s.tectonicRegion ≠ some []) →
        InputSources x' cfg' fs' (finals.map (rndSource rnd))) := by
  obtain ⟨inputs, finals, doc, hin, hsame, hdoc, hres⟩ := C88_written x cfg fs pos w' h
  obtain ⟨doc', h1, h2⟩ := Xml.C207_document H finals doc hdoc
  refine ⟨inputs, finals, doc, doc', hin, hsame, hres, h1, fun hf hv hfill hid hnm => ?_⟩
  have back : ∀ t ∈ finals, ∃ s ∈ inputs, SameBut s t := fun t ht => forall₂_mem_right hsame ht
  refine .inl ⟨path, doc', hne, hpath, .inr ⟨_, hf, by rw [hp, h1]⟩, ?_⟩
  rw [hx]
  refine C83_same_list_partial H _ finals doc doc' hdoc h2 hv ?_ ?_ ?_
  · intro t ht
    obtain ⟨s, hs, hb⟩ := back t ht
    have := hfill s hs
    obtain ⟨h1, h2, h3, h4, h5, h6, h7, h8, h9, h10, h11, h12⟩ := hb
    unfold Filled
    rw [h6, h11]
    exact this
  · intro t ht u hu
    obtain ⟨s, hs, hb⟩ := back t ht
    obtain ⟨r, hr, hc⟩ := back u hu
    have := hid s hs r hr
    obtain ⟨h1, h2, -⟩ := hb
    obtain ⟨k1, k2, -⟩ := hc
    rw [h1, h2, k1, k2]
    exact this
  · intro t ht
    obtain ⟨s, hs, hb⟩ := back t ht
    have := hnm s hs
    obtain ⟨h1, h2, h3, h4, h5, -⟩ := hb
    rw [h4, h5]
    exact this

/-- A second run that reads the text written by the first. -/
def second207 (doc : Elem) : Option (Outcome Dbl) :=
  @main Dbl (@instPyMathDbl plainLibm) { xDbl205 with parseXml := Xml.parse } cfgDbl205 (fun n => if n = ['m'] then some (.text (Xml.write doc)) else fsDbl205 in205 n) 0

/-- Non-vacuity: a run in double precision whose result, as text, is the source model of a run that comes to its end as well. -/
example : ∃ w doc w', @main Dbl (@instPyMathDbl plainLibm) xDbl205 cfgDbl205 (fsDbl205 in205) 0 = some ⟨none, w⟩ ∧ w.fs cfgDbl205.resultFile = some (.xml doc) ∧
    second207 doc = some ⟨none, w'⟩ := by
  obtain ⟨w, h⟩ := runDbl205
  have hk : (@main Dbl (@instPyMathDbl plainLibm) xDbl205 cfgDbl205 (fsDbl205 in205) 0).bind (fun r => match r.world.fs cfgDbl205.resultFile with
      | some (.xml doc) => (second207 doc).map fun r => r.raised.isNone
      | _ => none) = some true := by decide +kernel
  rw [h, Option.bind_some] at hk
  split at hk
  · next doc hd =>
    refine ⟨w, doc, ?_⟩
    rcases hr : second207 doc with _ | ⟨_ | e, w'⟩ <;> rw [hr] at hk
    · cases hk
    · exact ⟨w', h, hd, rfl⟩
    · cases hk
  · cases hk

end Verif.Workflow
