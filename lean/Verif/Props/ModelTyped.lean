import Verif.Props.NumbersTyped

/-!
# C221: how numbers are typed and lines are indented in the source model
-/

namespace Verif.Nrml

open Verif Verif.EqCatalog Verif.Format Verif.Format.Spec

namespace Spec

/-- The words of a text: white space, a word, white space, a word, ... -/
inductive Words : Text → List Text → Prop
  | nil {g : Text} : (∀ c ∈ g, isWs c = true) → Words g []
  | cons {g w rest : Text} {ws : List Text} : (∀ c ∈ g, isWs c = true) → w ≠ [] → (∀ c ∈ w, isWs c = false) → (∀ c r, rest = c :: r → isWs c = true) → Words rest ws →
      Words (g ++ w ++ rest) (w :: ws)

/-- Elements of the NRML format with one number. -/
def oneNumber : List QName :=
  [⟨.nrml, "aValueCumulative"⟩, ⟨.nrml, "bValue"⟩, ⟨.nrml, "minMagnitude"⟩, ⟨.nrml, "maxMagnitude"⟩, ⟨.nrml, "strike"⟩, ⟨.nrml, "dip"⟩, ⟨.nrml, "rake"⟩, ⟨.nrml, "hypocentralDepth"⟩]

/-- Elements of the NRML format with a list of numbers. -/
def numberList : List QName := [⟨.gml, "posList"⟩, ⟨.nrml, "magnitude"⟩, ⟨.nrml, "depth"⟩, ⟨.nrml, "evenlyDiscretizedIncrementalMFD"⟩]

/-- Elements of the NRML format with a text. -/
def plainText : List QName := [⟨.gml, "name"⟩, ⟨.nrml, "tectonicRegion"⟩]

/-- Two contents of an element that say the same: the same number, the same list of numbers, the same text; whatever stands before the first child of other elements does
not matter. -/
def SameText (t : QName) (x x' : Option Text) : Prop :=
  (t ∈ oneNumber → Option.Rel SameNumber x x') ∧ (t ∈ numberList → Option.Rel (fun y y' => ∃ ws ws', Words y ws ∧ Words y' ws' ∧ List.Forall₂ SameNumber ws ws') x x') ∧ (t ∈ plainText → x = x')

mutual
/-- Two elements with the same tags and attributes and contents that say the same. -/
inductive SameElem : Elem → Elem → Prop
  | mk {t : QName} {a : List (QName × Text)} {x x' : Option Text} {cs cs' : List Elem} : SameText t x x' → SameElems cs cs' → SameElem (.mk t a x cs) (.mk t a x' cs')
inductive SameElems : List Elem → List Elem → Prop
  | nil : SameElems [] []
  | cons {e e' : Elem} {cs cs' : List Elem} : SameElem e e' → SameElems cs cs' → SameElems (e :: cs) (e' :: cs')
end

end Spec

open Spec

theorem words_split {t : Text} {ws : List Text} (h : Words t ws) : splitWs t = ws := by
  have blanks : ∀ (g rest : Text), (∀ c ∈ g, isWs c = true) → splitGo [] (g ++ rest) = splitGo [] rest := by
    intro g rest hg
    induction g with
    | nil => rfl
    | cons c g ih =>
      rw [List.cons_append, splitGo, if_pos (hg c List.mem_cons_self), if_pos rfl]
      exact ih fun c hc => hg c (List.mem_cons_of_mem _ hc)
  induction h with
  | nil hg =>
    have := blanks _ [] hg
    rw [List.append_nil] at this
    exact this
  | @cons g w rest ws hg hw hw' hr _ ih =>
    rw [splitWs, List.append_assoc, blanks _ _ hg, splitGo_word w [] _ hw', List.nil_append]
    cases rest with
    | nil =>
      rw [splitGo, if_neg hw]
      rw [show splitWs [] = [] from rfl] at ih
      rw [← ih]
    | cons c r =>
      have hc := hr c r rfl
      rw [splitGo, if_pos hc, if_neg hw]
      rw [splitWs, splitGo, if_pos hc, if_pos rfl] at ih
      rw [ih]

theorem words_self (t : Text) : Words t (splitWs t) := by
  have blank : ∀ (c : Char) (t : Text) (ws : List Text), isWs c = true → Words t ws → Words (c :: t) ws := by
    intro c t ws hc h
    cases h with
    | nil hg => exact .nil fun d hd => (List.mem_cons.1 hd).elim (fun h => h ▸ hc) (hg d)
    | @cons g w rest ws hg hw hw' hr h =>
      rw [← List.cons_append, ← List.cons_append]
      exact .cons (fun d hd => (List.mem_cons.1 hd).elim (fun h => h ▸ hc) (hg d)) hw hw' hr h
  have key : ∀ (t cur : Text), (∀ c ∈ cur, isWs c = false) → Words (cur ++ t) (splitGo cur t) := by
    intro t
    induction t with
    | nil =>
      intro cur hc
      rw [splitGo, List.append_nil]
      split_ifs with h
      · rw [h]; exact .nil (by simp)
      · have := Words.cons (g := []) (w := cur) (rest := []) (ws := []) (by simp) h hc (by simp) (.nil (by simp))
        rwa [List.nil_append, List.append_nil] at this
    | cons c t ih =>
      intro cur hc
      rw [splitGo]
      have h0 : Words t (splitGo [] t) := ih [] (by simp)
      split_ifs with hw h
      · rw [h]; exact blank c t _ hw h0
      · have := Words.cons (g := []) (w := cur) (rest := c :: t) (by simp) h hc (fun d r hd => (List.cons.inj hd).1 ▸ hw) (blank c t _ hw h0)
        rwa [List.nil_append] at this
      · have := ih (cur ++ [c]) fun d hd => (List.mem_append.1 hd).elim (hc d) fun h => by rw [List.mem_singleton.1 h]; simpa using hw
        rwa [List.append_assoc] at this
  exact key t [] (by simp)

/-- **C221**: the reader divides a text into its words. -/
theorem C221_words (t : Text) (ws : List Text) : splitWs t = ws ↔ Words t ws := ⟨fun h => h ▸ words_self t, words_split⟩

theorem Spec.SameElem.tag_eq {e e' : Elem} (h : SameElem e e') : e.tag = e'.tag := by cases h; rfl

theorem Spec.SameElem.get_eq {e e' : Elem} (h : SameElem e e') (n : QName) : e.get n = e'.get n := by cases h; rfl

theorem Spec.SameElem.text_same {e e' : Elem} (h : SameElem e e') : SameText e.tag e.text e'.text := by cases h; assumption

theorem Spec.SameElem.children_same {e e' : Elem} (h : SameElem e e') : SameElems e.children e'.children := by cases h; assumption

theorem sameElems_append {l l' m m' : List Elem} (h : SameElems l l') (h' : SameElems m m') : SameElems (l ++ m) (l' ++ m') := by
  induction l generalizing l' with
  | nil => cases h; exact h'
  | cons e l ih => cases h with | cons h1 h2 => exact .cons h1 (ih h2)

theorem sameElems_find {l l' : List Elem} (h : SameElems l l') (t : QName) : Option.Rel SameElem (l.find? fun c => c.tag = t) (l'.find? fun c => c.tag = t) := by
  induction l generalizing l' with
  | nil => cases h; exact .none
  | cons e l ih =>
    cases h with
    | cons h1 h2 =>
      rw [List.find?_cons, List.find?_cons, ← h1.tag_eq]
      cases decide (e.tag = t) with
      | true => exact .some h1
      | false => exact ih h2

mutual
theorem same_nodes : ∀ (e e' : Elem), SameElem e e' → SameElems e.nodes e'.nodes
  | .mk t a x cs, .mk t' a' x' cs', h => by
    rw [Elem.nodes, Elem.nodes]
    exact .cons h (same_nodesList cs cs' h.children_same)
theorem same_nodesList : ∀ (l l' : List Elem), SameElems l l' → SameElems (Elem.nodesList l) (Elem.nodesList l')
  | [], l', h => by cases h; exact .nil
  | e :: l, [], h => by cases h
  | e :: l, e' :: l', h => by
    rw [Elem.nodesList, Elem.nodesList]
    cases h with
    | cons h1 h2 => exact sameElems_append (same_nodes e e' h1) (same_nodesList l l' h2)
end

theorem same_findDesc {e e' : Elem} (h : SameElem e e') (t : QName) : Option.Rel SameElem (e.findDesc t) (e'.findDesc t) :=
  sameElems_find (same_nodesList _ _ h.children_same) t

theorem same_findChild {e e' : Elem} (h : SameElem e e') (t : QName) : Option.Rel SameElem (e.findChild t) (e'.findChild t) := sameElems_find h.children_same t

/-- What is found by a search for a tag has that tag. -/
theorem found_tag {l : List Elem} {t : QName} {e : Elem} (h : (l.find? fun c => c.tag = t) = some e) : e.tag = t := by simpa using List.find?_some h

section
variable {F : Type} {nt : NumText F} (H : ∀ t t', SameNumber t t' → nt.float t = nt.float t')

include H

theorem same_toFloat {t t' : Text} (h : SameNumber t t') : toFloat nt t = toFloat nt t' := by unfold toFloat; rw [H t t' h]

theorem same_childFloat {e e' : Elem} (h : SameElem e e') {t : QName} (ht : t ∈ oneNumber) : childFloat nt e t = childFloat nt e' t := by
  unfold childFloat
  have hr := same_findChild h t
  have hf := fun c => found_tag (l := e.children) (t := t) (e := c)
  rcases hc : e.findChild t with _ | c <;> rcases hc' : e'.findChild t with _ | c' <;> rw [hc, hc'] at hr <;> cases hr
  rename_i hr
  have hs := hr.text_same
  rw [hf c hc] at hs
  have hs := hs.1 ht
  simp only [need, Recurrence.bind_ok]
  cases hx : c.text <;> cases hx' : c'.text <;> rw [hx, hx'] at hs <;> cases hs
  simp only
  exact same_toFloat H (by assumption)

theorem same_points {ws ws' : List Text} (h : List.Forall₂ SameNumber ws ws') : points nt ws = points nt ws' := by
  induction ws using points.induct generalizing ws' with
  | case1 => cases h; rfl
  | case2 a =>
    cases h with
    | cons h1 h2 =>
      cases h2
      rw [points, points, same_toFloat H h1]
  | case3 a b rest ih =>
    cases h with
    | cons h1 h2 =>
      cases h2 with
      | cons h2 h3 => rw [points, points, same_toFloat H h1, same_toFloat H h2, ih h3]

theorem same_floats {ws ws' : List Text} (h : List.Forall₂ SameNumber ws ws') : ws.mapM (toFloat nt) = ws'.mapM (toFloat nt) := by
  induction h with
  | nil => rfl
  | cons h _ ih => rw [List.mapM_cons, List.mapM_cons, same_toFloat H h, ih]

omit H in
/-- Words of an element with a list of numbers. -/
theorem same_words {e e' : Elem} (h : SameElem e e') (ht : e.tag ∈ numberList) : (words e = .error .attributeError ∧ words e' = .error .attributeError) ∨
    ∃ ws ws', words e = .ok ws ∧ words e' = .ok ws' ∧ List.Forall₂ SameNumber ws ws' := by
  have hs := h.text_same.2.1 ht
  unfold words
  cases hx : e.text <;> cases hx' : e'.text <;> rw [hx, hx'] at hs <;> cases hs
  · exact .inl ⟨rfl, rfl⟩
  · rename_i hs
    obtain ⟨ws, ws', h1, h2, h3⟩ := hs
    exact .inr ⟨ws, ws', by simp only [words_split h1], by simp only [words_split h2], h3⟩

theorem same_boundary {e e' : Elem} (h : SameElem e e') : parseAreaBoundary nt e = parseAreaBoundary nt e' := by
  unfold parseAreaBoundary
  have hr := same_findDesc h tLINEAR_RING
  rcases hc : e.findDesc tLINEAR_RING with _ | c <;> rcases hc' : e'.findDesc tLINEAR_RING with _ | c' <;> rw [hc, hc'] at hr <;> cases hr
  · rfl
  rename_i hr
  have hp := same_findDesc h tPOS_LIST
  have hf := fun c => found_tag (l := Elem.nodesList e.children) (t := tPOS_LIST) (e := c)
  rcases hd : e.findDesc tPOS_LIST with _ | d <;> rcases hd' : e'.findDesc tPOS_LIST with _ | d' <;> rw [hd, hd'] at hp <;> cases hp
  · rfl
  rename_i hp
  simp only [need, Recurrence.bind_ok, hr.get_eq]
  rcases same_words hp (by rw [hf d hd]; decide) with ⟨h1, h2⟩ | ⟨ws, ws', h1, h2, h3⟩
  · rw [h1, h2]
  · rw [h1, h2, Recurrence.bind_ok, Recurrence.bind_ok, same_points H h3]

theorem same_rate {e e' : Elem} (h : SameElem e e') : parseRateModel nt e = parseRateModel nt e' := by
  unfold parseRateModel
  have hr := same_findChild h tTGR
  rcases hc : e.findChild tTGR with _ | c <;> rcases hc' : e'.findChild tTGR with _ | c' <;> rw [hc, hc'] at hr <;> cases hr
  · rfl
  rename_i hr
  simp only [need, Recurrence.bind_ok, hr.get_eq]
  rw [same_childFloat H hr (t := tA_VALUE) (by decide), same_childFloat H hr (t := tB_VALUE) (by decide), same_childFloat H hr (t := tMIN_MAGNITUDE) (by decide),
    same_childFloat H hr (t := tMAX_MAGNITUDE) (by decide), same_childFloat H h (t := tSTRIKE) (by decide), same_childFloat H h (t := tDIP) (by decide), same_childFloat H h (t := tRAKE) (by decide)]

theorem same_depths {e e' : Elem} (h : SameElem e e') : parseDepthDistrib nt e = parseDepthDistrib nt e' := by
  unfold parseDepthDistrib
  have one : ∀ t ∈ numberList, (need (e.findChild t) = .error .attributeError ∧ need (e'.findChild t) = .error .attributeError) ∨ ∃ c c', need (e.findChild t) = .ok c ∧ need (e'.findChild t) = .ok c' ∧
      SameElem c c' ∧ ((words c = .error .attributeError ∧ words c' = .error .attributeError) ∨ ∃ ws ws', words c = .ok ws ∧ words c' = .ok ws' ∧ ws.mapM (toFloat nt) = ws'.mapM (toFloat nt)) := by
    intro t ht
    have hr := same_findChild h t
    have hf := fun c => found_tag (l := e.children) (t := t) (e := c)
    rcases hc : e.findChild t with _ | c <;> rcases hc' : e'.findChild t with _ | c' <;> rw [hc, hc'] at hr <;> cases hr
    · exact .inl ⟨rfl, rfl⟩
    rename_i hr
    refine .inr ⟨c, c', rfl, rfl, hr, (same_words hr (by rw [hf c hc]; exact ht)).imp id ?_⟩
    rintro ⟨ws, ws', h1, h2, h3⟩
    exact ⟨ws, ws', h1, h2, same_floats H h3⟩
  rcases one tMAGNITUDE (by decide) with ⟨h1, h2⟩ | ⟨c, c', h1, h2, h3, h4⟩
  · rw [h1, h2]; rfl
  rw [h1, h2, Recurrence.bind_ok, Recurrence.bind_ok]
  rcases h4 with ⟨k1, k2⟩ | ⟨ws, ws', k1, k2, k3⟩
  · rw [k1, k2]; rfl
  rw [k1, k2, Recurrence.bind_ok, Recurrence.bind_ok, k3]
  rcases one tDEPTH (by decide) with ⟨q1, q2⟩ | ⟨d, d', q1, q2, q3, q4⟩
  · rw [q1, q2]; rfl
  rw [q1, q2]
  simp only [Recurrence.bind_ok]
  rcases q4 with ⟨k1, k2⟩ | ⟨ws, ws', k1, k2, k3⟩
  · rw [k1, k2]; rfl
  rw [k1, k2]
  simp only [Recurrence.bind_ok, k3, h3.get_eq]

/-- An area source is read in the same way. -/
theorem same_source (anc : Anc) {e e' : Elem} (h : SameElem e e') : parseAreaSource nt anc e = parseAreaSource nt anc e' := by
  have child : ∀ t, (need (e.findChild t) = .error .attributeError ∧ need (e'.findChild t) = .error .attributeError) ∨
      ∃ c c', need (e.findChild t) = .ok c ∧ need (e'.findChild t) = .ok c' ∧ SameElem c c' ∧ c.tag = t := by
    intro t
    have hr := same_findChild h t
    have hf := fun c => found_tag (l := e.children) (t := t) (e := c)
    rcases hc : e.findChild t with _ | c <;> rcases hc' : e'.findChild t with _ | c' <;> rw [hc, hc'] at hr <;> cases hr
    · exact .inl ⟨rfl, rfl⟩
    · exact .inr ⟨c, c', rfl, rfl, by assumption, hf c hc⟩
  have text : ∀ t ∈ plainText, ∀ c c', SameElem c c' → c.tag = t → c.text = c'.text := fun t ht c c' hc he => hc.text_same.2.2 (he ▸ ht)
  unfold parseAreaSource
  match anc with
  | [] => rfl
  | [_] => rfl
  | smId :: nrmlId :: _ =>
    simp only
    rcases child tGML_NAME with ⟨h1, h2⟩ | ⟨c1, c1', h1, h2, hs1, ht1⟩ <;> rw [h1, h2]
    · rfl
    rcases child tTECTONIC_REGION with ⟨h1, h2⟩ | ⟨c2, c2', h1, h2, hs2, ht2⟩ <;> rw [h1, h2]
    · rfl
    rcases child tAREA_BOUNDARY with ⟨h1, h2⟩ | ⟨c3, c3', h1, h2, hs3, -⟩ <;> rw [h1, h2]
    · rfl
    simp only [Recurrence.bind_ok]
    rw [same_boundary H hs3]
    rcases child tRUPTURE_RATE_MODEL with ⟨h1, h2⟩ | ⟨c4, c4', h1, h2, hs4, -⟩ <;> rw [h1, h2]
    · rfl
    simp only [Recurrence.bind_ok]
    rw [same_rate H hs4]
    rcases child tRUPTURE_DEPTH_DISTRIB with ⟨h1, h2⟩ | ⟨c5, c5', h1, h2, hs5, -⟩ <;> rw [h1, h2]
    · rfl
    simp only [Recurrence.bind_ok]
    rw [same_depths H hs5, same_childFloat H h (t := tHYPOCENTRAL_DEPTH) (by decide), h.get_eq, text _ (by decide) _ _ hs1 ht1, text _ (by decide) _ _ hs2 ht2]

/-- The two results are the same exception, or the same sources and elements that say the same. -/
def SameLeft {α : Type} (R : α → α → Prop) (r r' : Except PyErr (List (AreaSource F) × α)) : Prop :=
  (∃ e, r = .error e ∧ r' = .error e) ∨ ∃ l a a', r = .ok (l, a) ∧ r' = .ok (l, a') ∧ R a a'

set_option linter.unusedSectionVars false in
mutual
theorem same_readNode (anc : Anc) : ∀ (e e' : Elem), SameElem e e' → SameLeft SameElem (readNode nt anc e) (readNode nt anc e')
  | .mk t a x cs, .mk t' a' x' cs', h => by
    cases h with
    | mk hx hcs =>
      rw [readNode, readNode]
      have hg : (Elem.mk t a x []).get aGML_ID = (Elem.mk t a x' []).get aGML_ID := rfl
      rw [hg]
      rcases same_readChildren (((Elem.mk t a x' []).get aGML_ID) :: anc) cs cs' hcs with ⟨e, h1, h2⟩ | ⟨l, r, r', h1, h2, h3⟩
      · rw [h1, h2]
        exact .inl ⟨e, rfl, rfl⟩
      · rw [h1, h2, Recurrence.bind_ok, Recurrence.bind_ok]
        have hn : SameElem (.mk t a x r) (.mk t a x' r') := .mk hx h3
        split_ifs with ht
        · simp only
          rw [same_source H anc hn]
          cases hp : parseAreaSource nt anc (.mk t a x' r') with
          | error e => exact .inl ⟨e, rfl, rfl⟩
          | ok s =>
            refine .inr ⟨_, _, _, rfl, rfl, .mk (t := t) ?_ .nil⟩
            subst ht
            exact ⟨fun h => absurd h (by decide), fun h => absurd h (by decide), fun _ => rfl⟩
        · exact .inr ⟨_, _, _, rfl, rfl, hn⟩
theorem same_readChildren (anc : Anc) : ∀ (l l' : List Elem), SameElems l l' → SameLeft SameElems (readChildren nt anc l) (readChildren nt anc l')
  | [], l', h => by cases h; exact .inr ⟨_, _, _, rfl, rfl, .nil⟩
  | e :: l, [], h => by cases h
  | e :: l, e' :: l', h => by
    cases h with
    | cons h1 h2 =>
      rw [readChildren, readChildren]
      rcases same_readNode anc e e' h1 with ⟨er, k1, k2⟩ | ⟨m, b, b', k1, k2, k3⟩
      · rw [k1, k2]
        exact .inl ⟨er, rfl, rfl⟩
      · rw [k1, k2, Recurrence.bind_ok, Recurrence.bind_ok]
        rcases same_readChildren anc l l' h2 with ⟨er, q1, q2⟩ | ⟨n, d, d', q1, q2, q3⟩
        · rw [q1, q2]
          exact .inl ⟨er, rfl, rfl⟩
        · rw [q1, q2]
          exact .inr ⟨_, _, _, rfl, rfl, .cons k3 q3⟩
end

/-- **C221**: two documents that say the same give the same sources or the same exception, if the schema accepts both or neither. -/
theorem C221_doc (valid : Elem → Bool) {e e' : Elem} (h : SameElem e e') (hv : valid e = valid e') : readDoc nt valid e = readDoc nt valid e' := by
  unfold readDoc
  rw [hv]
  rcases same_readNode H [] e e' h with ⟨er, k1, k2⟩ | ⟨m, b, b', k1, k2, -⟩ <;> rw [k1, k2]
  rfl

end

end Verif.Nrml

namespace Verif.Workflow

open Verif Verif.EqCatalog Verif.Csv Verif.Nrml Verif.Declustering Verif.Recurrence Verif.MaxMag Verif.Format Spec

/-- **C221**, the source model file: it says the same sources however its numbers are typed and its elements are indented. -/
theorem C221_model (x : Ext Dbl) (hf : x.nums.float = floatDbl) {t t' : Text} {e e' : Elem} (ht : x.parseXml t = some e) (ht' : x.parseXml t' = some e') (h : Nrml.Spec.SameElem e e')
    (hv : x.schema e = x.schema e') : sourcesRead x (some (.text t)) = sourcesRead x (some (.text t')) := by
  have he : ∀ t, sourcesRead x (some (.text t)) = match x.parseXml t with
      | some e => readDoc x.nums x.schema e
      | none => .error .xmlSyntax := fun _ => rfl
  rw [he, he, ht, ht']
  refine C221_doc (fun t t' hs => ?_) x.schema h hv
  rw [hf]
  exact sameNumber_iff hs

/-- **C221** for whole runs: source models that say the same lead to the same end, the same results and the same files. -/
theorem C221_run [Libm] (x : Ext Dbl) (hf : x.nums.float = floatDbl) (cfg : Config Dbl) (fs fs' : Text → Option Content) (pos : Nat)
    (hc : fs cfg.eqCatalogFile = fs' cfg.eqCatalogFile)
    (hm : ∀ q, Configured cfg.sourceModelFile → cfg.sourceModelFile = some q → ∃ t t' e e', fs q = some (.text t) ∧ fs' q = some (.text t') ∧ x.parseXml t = some e ∧ x.parseXml t' = some e' ∧
      Nrml.Spec.SameElem e e' ∧ x.schema e = x.schema e')
    (ht : ∀ q, UsesTable cfg → cfg.completenessTableFile = some q → fs q = fs' q)
    (o : Outcome Dbl) (ho : main x cfg fs pos = some o) :
    ∃ o', main x cfg fs' pos = some o' ∧ o'.raised = o.raised ∧ o'.world.ctx = o.world.ctx ∧ o'.world.pos = o.world.pos ∧
      ∀ q, (Output cfg q ∧ o'.world.fs q = o.world.fs q) ∨ (o.world.fs q = fs q ∧ o'.world.fs q = fs' q) := by
  refine C218_reading x cfg fs fs' pos ⟨by rw [hc], fun q h1 h2 => ?_, fun q h1 h2 => by rw [ht q h1 h2]⟩ o ho
  obtain ⟨t, t', e, e', f1, f2, h3, h4, h5, h6⟩ := hm q h1 h2
  rw [f1, f2]
  exact C221_model x hf h3 h4 h5 h6

/-! ### Cases -/

/-- A check of `SameNumber`. -/
def sameNumberB (t t' : Text) : Bool := pyFloat (K := ℚ) t = pyFloat t'

def sameTextB (t : QName) : Option Text → Option Text → Bool
  | none, none => true
  | some x, some x' => (decide (t ∉ Nrml.Spec.oneNumber) || sameNumberB x x') &&
      (decide (t ∉ Nrml.Spec.numberList) || decide ((splitWs x).length = (splitWs x').length) && ((splitWs x).zip (splitWs x')).all fun p => sameNumberB p.1 p.2) &&
      (decide (t ∉ Nrml.Spec.plainText) || decide (x = x'))
  | _, _ => decide (t ∉ Nrml.Spec.oneNumber ++ Nrml.Spec.numberList ++ Nrml.Spec.plainText)

mutual
def sameElemB : Elem → Elem → Bool
  | .mk t a x cs, .mk t' a' x' cs' => decide (t = t') && decide (a = a') && sameTextB t x x' && sameElemsB cs cs'
def sameElemsB : List Elem → List Elem → Bool
  | [], [] => true
  | e :: l, e' :: l' => sameElemB e e' && sameElemsB l l'
  | _, _ => false
end

theorem sameNumberB_of {t t' : Text} (h : sameNumberB t t' = true) : Format.Spec.SameNumber t t' := sameNumber_of (of_decide_eq_true h)

theorem sameTextB_of {t : QName} {x x' : Option Text} (h : sameTextB t x x' = true) : Nrml.Spec.SameText t x x' := by
  have numbers : ∀ ws ws' : List Text, ws.length = ws'.length → ((ws.zip ws').all fun p => sameNumberB p.1 p.2) = true → List.Forall₂ Format.Spec.SameNumber ws ws' := by
    intro ws
    induction ws with
    | nil => intro ws' hl _; cases ws' with | nil => exact .nil | cons => cases hl
    | cons w ws ih =>
      intro ws' hl h
      cases ws' with
      | nil => cases hl
      | cons w' ws' =>
        rw [List.zip_cons_cons, List.all_cons, Bool.and_eq_true] at h
        exact .cons (sameNumberB_of h.1) (ih ws' (Nat.succ.inj hl) h.2)
  cases x with
  | none =>
    cases x' with
    | none => exact ⟨fun _ => .none, fun _ => .none, fun _ => rfl⟩
    | some x' =>
      have h : t ∉ Nrml.Spec.oneNumber ++ Nrml.Spec.numberList ++ Nrml.Spec.plainText := of_decide_eq_true h
      simp only [List.mem_append, not_or] at h
      exact ⟨fun k => absurd k h.1.1, fun k => absurd k h.1.2, fun k => absurd k h.2⟩
  | some x =>
    cases x' with
    | none =>
      have h : t ∉ Nrml.Spec.oneNumber ++ Nrml.Spec.numberList ++ Nrml.Spec.plainText := of_decide_eq_true h
      simp only [List.mem_append, not_or] at h
      exact ⟨fun k => absurd k h.1.1, fun k => absurd k h.1.2, fun k => absurd k h.2⟩
    | some x' =>
      simp only [sameTextB, Bool.and_eq_true, Bool.or_eq_true, decide_eq_true_eq] at h
      obtain ⟨⟨h1, h2⟩, h3⟩ := h
      refine ⟨fun k => .some (sameNumberB_of (h1.resolve_left (not_not.2 k))), fun k => ?_, fun k => by rw [h3.resolve_left (not_not.2 k)]⟩
      obtain ⟨hl, hw⟩ := h2.resolve_left (not_not.2 k)
      exact .some ⟨_, _, words_self x, words_self x', numbers _ _ hl hw⟩

mutual
theorem sameElemB_of : ∀ (e e' : Elem), sameElemB e e' = true → Nrml.Spec.SameElem e e'
  | .mk t a x cs, .mk t' a' x' cs', h => by
    rw [sameElemB] at h
    simp only [Bool.and_eq_true, decide_eq_true_eq] at h
    obtain ⟨⟨⟨rfl, rfl⟩, h1⟩, h2⟩ := h
    exact .mk (sameTextB_of h1) (sameElemsB_of cs cs' h2)
theorem sameElemsB_of : ∀ (l l' : List Elem), sameElemsB l l' = true → Nrml.Spec.SameElems l l'
  | [], [], _ => .nil
  | e :: l, e' :: l', h => by
    rw [sameElemsB, Bool.and_eq_true] at h
    exact .cons (sameElemB_of e e' h.1) (sameElemsB_of l l' h.2)
  | [], _ :: _, h => by simp [sameElemsB] at h
  | _ :: _, [], h => by simp [sameElemsB] at h
end

/-- Another way to type a number. -/
def other221 (t : Text) : Text := (if t.head? = some '-' then t else '+' :: t) ++ (if '.' ∈ t then "00".toList else ".0".toList)

mutual
/-- All numbers typed in another way, lists of numbers with line breaks, no indentation. -/
def retype221 : Elem → Elem
  | .mk t a x cs => .mk t a (if t ∈ Nrml.Spec.oneNumber then x.map other221 else if t ∈ Nrml.Spec.numberList then x.map fun y => "\n ".toList ++ "\n ".toList.intercalate ((splitWs y).map other221)
      else if t ∈ Nrml.Spec.plainText then x else some "\n\n".toList) (retypes221 cs)
def retypes221 : List Elem → List Elem
  | [] => []
  | e :: l => retype221 e :: retypes221 l
end

def plain221 : Text → Option Content := fun n => if n = ['m'] then some (.text (Xml.write model205)) else fsDbl205 in205 n

def typed221 : Text → Option Content := fun n => if n = ['m'] then some (.text (Xml.write (retype221 model205))) else fsDbl205 in205 n

theorem same221 : ∃ e e', Xml.parse (Xml.write model205) = some e ∧ Xml.parse (Xml.write (retype221 model205)) = some e' ∧ Nrml.Spec.SameElem e e' := by
  have h : (match Xml.parse (Xml.write model205), Xml.parse (Xml.write (retype221 model205)) with
    | some e, some e' => sameElemB e e'
    | _, _ => false) = true := by decide +kernel
  split at h
  · rename_i e e' h1 h2
    exact ⟨e, e', h1, h2, sameElemB_of _ _ h⟩
  · cases h

/-- Non-vacuity of C221: a run in double precision that ends normally and writes a source model, and the same with the numbers of its source model typed in other ways. -/
example : ∃ w w', @main Dbl (@instPyMathDbl plainLibm) x218 cfgDbl205 plain221 0 = some ⟨none, w⟩ ∧ @main Dbl (@instPyMathDbl plainLibm) x218 cfgDbl205 typed221 0 = some ⟨none, w'⟩ ∧
    w'.fs ['r'] = w.fs ['r'] ∧ (w.fs ['r']).isSome ∧ plain221 ['m'] ≠ typed221 ['m'] := by
  let _ := plainLibm
  have h : (@main Dbl (@instPyMathDbl plainLibm) x218 cfgDbl205 plain221 0).map (fun r => (r.raised.isNone, (r.world.fs ['r']).isSome)) = some (true, true) := by decide +kernel
  have m : plain221 ['m'] = some (.text (Xml.write model205)) := by rw [plain221, if_pos rfl]
  have m' : typed221 ['m'] = some (.text (Xml.write (retype221 model205))) := by rw [typed221, if_pos rfl]
  have rest : ∀ q, q ≠ ['m'] → plain221 q = typed221 q := fun q hq => by rw [plain221, typed221, if_neg hq, if_neg hq]
  obtain ⟨e, e', h1, h2, h3⟩ := same221
  rcases hr : @main Dbl (@instPyMathDbl plainLibm) x218 cfgDbl205 plain221 0 with _ | ⟨_ | e, w⟩ <;> rw [hr] at h
  · cases h
  · obtain ⟨⟨e', w'⟩, k1, k2, -, -, k3⟩ := C221_run x218 rfl cfgDbl205 plain221 typed221 0 (rest _ (by decide))
      (fun q _ hq => by
        obtain rfl : ['m'] = q := Option.some.inj hq
        exact ⟨_, _, e, e', m, m', h1, h2, h3, rfl⟩) (fun q _ hq => by
        obtain rfl : ['q'] = q := Option.some.inj hq
        exact rest _ (by decide)) _ hr
    simp only at k2
    subst k2
    have hsome : (w.fs ['r']).isSome = true := by simpa using h
    refine ⟨w, w', rfl, k1, ?_, hsome, ?_⟩
    · rcases k3 ['r'] with k3 | ⟨k3, k4⟩
      · exact k3.2
      · rw [show w'.fs ['r'] = _ from k4, show w.fs ['r'] = _ from k3, rest _ (by decide)]
    · rw [m, m']
      exact fun hh => absurd (Content.text.inj (Option.some.inj hh)) (by decide +kernel)
  · cases h

end Verif.Workflow
