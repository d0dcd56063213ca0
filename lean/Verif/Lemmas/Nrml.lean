import Verif.Spec.Nrml

/-!
# Lemmas on reading and writing source models
-/

namespace Verif.Nrml

open Verif Verif.EqCatalog Spec

/-! ### Words -/

theorem splitGo_word (w cur t : Text) (hw : ∀ c ∈ w, isWs c = false) :
    splitGo cur (w ++ t) = splitGo (cur ++ w) t := by
  induction w generalizing cur with
  | nil => simp
  | cons c w ih =>
    simp only [List.mem_cons, forall_eq_or_imp] at hw
    simp only [List.cons_append, splitGo, hw.1, Bool.false_eq_true, if_false]
    rw [ih _ hw.2]; simp

theorem splitWs_join (ws : List Text) (hne : ∀ w ∈ ws, w ≠ []) (hws : ∀ w ∈ ws, ∀ c ∈ w, isWs c = false) :
    splitWs ([' '].intercalate ws) = ws := by
  induction ws with
  | nil => simp [splitWs, splitGo]
  | cons w ws ih =>
    simp only [List.mem_cons, forall_eq_or_imp] at hne hws
    have h := ih hne.2 hws.2
    cases ws with
    | nil =>
      have := splitGo_word w [] [] hws.1
      simp only [List.append_nil, List.nil_append] at this
      simp [splitWs, this, splitGo, hne.1]
    | cons v vs =>
      rw [List.intercalate_cons_cons, splitWs, List.append_assoc, splitGo_word w [] _ hws.1]
      have : isWs ' ' = true := by decide
      simp only [List.nil_append, List.singleton_append, splitGo, this, if_true, if_neg hne.1]
      exact congrArg _ h

theorem join_ne_nil (ws : List Text) (hne : ∀ w ∈ ws, w ≠ []) (h : ws ≠ []) : [' '].intercalate ws ≠ [] := by
  cases ws with
  | nil => exact absurd rfl h
  | cons w ws =>
    have := hne w (by simp)
    cases ws with
    | nil => simpa using this
    | cons v vs => rw [List.intercalate_cons_cons]; simp [this]

theorem join_ok (ws : List Text) (h : ∀ w ∈ ws, ∀ c ∈ w, XmlChar c) :
    ∀ c ∈ [' '].intercalate ws, XmlChar c := by
  induction ws with
  | nil => simp
  | cons w ws ih =>
    simp only [List.mem_cons, forall_eq_or_imp] at h
    cases ws with
    | nil => simpa using h.1
    | cons v vs =>
      rw [List.intercalate_cons_cons]
      intro c hc
      simp only [List.append_assoc, List.mem_append, List.mem_singleton] at hc
      rcases hc with hc | hc | hc
      · exact h.1 c hc
      · subst hc; exact .inl (by decide)
      · exact ih h.2 c hc

theorem xmlChar_iff (c : Char) : xmlChar c = true ↔ XmlChar c := by
  have : (0x20 ≤ c.toNat) ↔ ' ' ≤ c := Iff.rfl
  simp [xmlChar, XmlChar, this, or_assoc]

theorem xmlOk_iff (t : Text) : xmlOk t = true ↔ Storable t := by simp [xmlOk, Storable, xmlChar_iff]

section
variable {F : Type} {nt : NumText F} {rnd : F → F}

theorem toFloat_str (H : Lawful nt rnd) (x : F) : toFloat nt (nt.str x) = .ok (rnd x) := by
  simp [toFloat, H.float_str]

theorem joinNums_words (H : Lawful nt rnd) (xs : List F) : splitWs (joinNums nt xs) = xs.map nt.str := by
  apply splitWs_join
  · simp only [List.mem_map]; rintro w ⟨x, -, rfl⟩; exact H.str_ne x
  · simp only [List.mem_map]; rintro w ⟨x, -, rfl⟩; exact H.str_ws x

theorem joinNums_ne (H : Lawful nt rnd) (xs : List F) (h : xs ≠ []) : joinNums nt xs ≠ [] := by
  apply join_ne_nil
  · simp only [List.mem_map]; rintro w ⟨x, -, rfl⟩; exact H.str_ne x
  · simpa using h

theorem joinNums_ok (H : Lawful nt rnd) (xs : List F) : xmlOk (joinNums nt xs) = true := by
  rw [xmlOk_iff]
  apply join_ok
  simp only [List.mem_map]; rintro w ⟨x, -, rfl⟩; exact H.str_ok x

theorem str_xmlOk (H : Lawful nt rnd) (x : F) : xmlOk (nt.str x) = true := by
  rw [xmlOk_iff]; exact H.str_ok x

theorem mapM_toFloat (H : Lawful nt rnd) (xs : List F) :
    (xs.map nt.str).mapM (toFloat nt) = .ok (xs.map rnd) := by
  induction xs with
  | nil => rfl
  | cons x xs ih =>
    simp only [List.map_cons, List.mapM_cons, toFloat_str H, ih]; rfl

theorem points_str (H : Lawful nt rnd) (ps : List (Point F)) :
    points nt ((ps.flatMap (fun p => [p.lon, p.lat])).map nt.str) = .ok (ps.map (rndPoint rnd)) := by
  induction ps with
  | nil => rfl
  | cons p ps ih =>
    simp only [List.flatMap_cons, List.cons_append, List.nil_append, List.map_cons, points, toFloat_str H, ih]
    rfl

end

/-! ### Trees -/

theorem reparse_leaf {t a x e'} (h : Reparse (.mk t a x []) e') : e' = .mk t a (blankText x) [] := by
  cases h <;> rfl

theorem reparse_node {t a c cs e'} (h : Reparse (.mk t a none (c :: cs)) e') :
    ∃ x c' cs', e' = .mk t a x (c' :: cs') ∧ Reparse c c' ∧ List.Forall₂ Reparse cs cs' := by
  cases h with
  | node _ _ x _ _ c' cs' h1 h2 => exact ⟨x, c', cs', rfl, h1, h2⟩

theorem reparse_tag {e e'} (h : Reparse e e') : e'.tag = e.tag := by cases h <;> rfl

theorem forall2_cons {a : Elem} {l m} (h : List.Forall₂ Reparse (a :: l) m) :
    ∃ b n, m = b :: n ∧ Reparse a b ∧ List.Forall₂ Reparse l n := by
  cases h with | cons h1 h2 => exact ⟨_, _, rfl, h1, h2⟩

theorem forall2_nil {m} (h : List.Forall₂ Reparse [] m) : m = [] := by
  cases h; rfl

/-! ### Writer then reader, element by element -/

section
variable {F : Type} {nt : NumText F} {rnd : F → F}

theorem attrValue_ok {v : Option Text} {t : Text} (h : attrValue v = .ok t) : v = some t ∧ Storable t := by
  cases v with
  | none => simp [attrValue] at h
  | some u =>
    simp only [attrValue] at h
    split at h
    · next hu => cases h; exact ⟨rfl, (xmlOk_iff _).1 hu⟩
    · cases h

theorem attrValue_of {v : Option Text} {t : Text} (h : v = some t) (ht : Storable t) : attrValue v = .ok t := by
  subst h; simp [attrValue, (xmlOk_iff _).2 ht]

theorem textValue_ok {v x : Option Text} (h : textValue v = .ok x) : x = v ∧ ∀ t, v = some t → Storable t := by
  cases v with
  | none => simp only [textValue] at h; cases h; simp
  | some u =>
    simp only [textValue] at h
    split at h
    · next hu => cases h; refine ⟨rfl, ?_⟩; rintro t ⟨⟩; exact (xmlOk_iff _).1 hu
    · cases h

theorem textValue_of {v : Option Text} (h : ∀ t, v = some t → Storable t) : textValue v = .ok v := by
  cases v with
  | none => rfl
  | some u => simp [textValue, (xmlOk_iff _).2 (h u rfl)]

theorem leaf_ok {t : QName} {v : Option Text} {e : Elem} (h : leaf t v = .ok e) :
    e = .mk t [] v [] ∧ ∀ u, v = some u → Storable u := by
  unfold leaf at h
  rcases hx : textValue v with er | x
  · rw [hx] at h; cases h
  · rw [hx] at h; cases h
    obtain ⟨rfl, h2⟩ := textValue_ok hx
    exact ⟨rfl, h2⟩

theorem leaf_of {t : QName} {v : Option Text} (h : ∀ u, v = some u → Storable u) : leaf t v = .ok (.mk t [] v []) := by
  unfold leaf; rw [textValue_of h]; rfl

theorem leaf_num (H : Lawful nt rnd) (t : QName) (x : F) :
    leaf t (some (nt.str x)) = .ok (.mk t [] (some (nt.str x)) []) :=
  leaf_of (by rintro u ⟨⟩; exact H.str_ok x)

theorem leaf_nums (H : Lawful nt rnd) (t : QName) (xs : List F) :
    leaf t (some (joinNums nt xs)) = .ok (.mk t [] (some (joinNums nt xs)) []) :=
  leaf_of (by rintro u ⟨⟩; exact (xmlOk_iff _).1 (joinNums_ok H xs))

theorem blank_str (H : Lawful nt rnd) (x : F) : blankText (some (nt.str x)) = some (nt.str x) := by
  have := H.str_ne x
  cases h : nt.str x with
  | nil => exact absurd h this
  | cons _ _ => rfl

theorem blank_ne {t : Text} (h : t ≠ []) : blankText (some t) = some t := by
  cases t with
  | nil => exact absurd rfl h
  | cons _ _ => rfl

/-- Tree of an area boundary. -/
def boundaryTree (nt : NumText F) (srs : Text) (ps : List (Point F)) : Elem :=
  .mk tAREA_BOUNDARY [] none [.mk tPOLYGON [] none [.mk tEXTERIOR [] none
    [.mk tLINEAR_RING [(aSRS_NAME, srs)] none
      [.mk tPOS_LIST [] (some (joinNums nt (ps.flatMap (fun p => [p.lon, p.lat])))) []]]]]

theorem writeAreaBoundary_eq (H : Lawful nt rnd) (b : AreaBoundary F) :
    writeAreaBoundary nt b = (attrValue b.srsName).map (fun srs => boundaryTree nt srs b.posList) := by
  unfold writeAreaBoundary
  rw [leaf_nums H]
  cases attrValue b.srsName <;> rfl

theorem parse_boundary (H : Lawful nt rnd) (srs : Text) (ps : List (Point F)) (hp : ps ≠ []) (e' : Elem)
    (h : Reparse (boundaryTree nt srs ps) e') :
    parseAreaBoundary nt e' = .ok ⟨some srs, ps.map (rndPoint rnd)⟩ := by
  have hne : ps.flatMap (fun p => [p.lon, p.lat]) ≠ [] := by
    cases ps with
    | nil => exact absurd rfl hp
    | cons _ _ => simp
  obtain ⟨_, c1, cs1, rfl, h1, hn1⟩ := reparse_node h
  obtain ⟨_, c2, cs2, rfl, h2, hn2⟩ := reparse_node h1
  obtain ⟨_, c3, cs3, rfl, h3, hn3⟩ := reparse_node h2
  obtain ⟨_, c4, cs4, rfl, h4, hn4⟩ := reparse_node h3
  have hl := reparse_leaf h4
  rw [blank_ne (joinNums_ne H _ hne)] at hl
  rw [forall2_nil hn1, forall2_nil hn2, forall2_nil hn3, forall2_nil hn4, hl]
  simp [parseAreaBoundary, Elem.findDesc, Elem.children, Elem.nodesList, Elem.nodes, Elem.tag, tPOLYGON, tEXTERIOR,
    tLINEAR_RING, tPOS_LIST, need, words, Elem.text, Elem.get, Elem.attrs, aSRS_NAME, aLINEAR_RING_NAME, joinNums_words H,
    points_str H, bind, Except.bind]

def tgrTree (nt : NumText F) (ty : Text) (g : Tgr F) : Elem :=
  .mk tTGR [(aTYPE, ty)] none [.mk tA_VALUE [] (some (nt.str g.aValue)) [], .mk tB_VALUE [] (some (nt.str g.bValue)) [],
    .mk tMIN_MAGNITUDE [] (some (nt.str g.minMagnitude)) [], .mk tMAX_MAGNITUDE [] (some (nt.str g.maxMagnitude)) []]

def rateTree (nt : NumText F) (ty : Text) (r : RateModel F) : Elem :=
  .mk tRUPTURE_RATE_MODEL [] none [tgrTree nt ty r.tgr, .mk tSTRIKE [] (some (nt.str r.strike)) [],
    .mk tDIP [] (some (nt.str r.dip)) [], .mk tRAKE [] (some (nt.str r.rake)) []]

theorem writeRateModel_eq (H : Lawful nt rnd) (r : RateModel F) :
    writeRateModel nt r = (attrValue r.tgr.typeTgr).map (fun ty => rateTree nt ty r) := by
  unfold writeRateModel writeTgr
  simp only [leaf_num H]
  cases attrValue r.tgr.typeTgr <;> rfl

theorem parse_rate (H : Lawful nt rnd) (ty : Text) (r : RateModel F) (e' : Elem) (h : Reparse (rateTree nt ty r) e') :
    parseRateModel nt e' = .ok ⟨⟨rnd r.tgr.aValue, rnd r.tgr.bValue, rnd r.tgr.minMagnitude, rnd r.tgr.maxMagnitude, some ty⟩,
      rnd r.strike, rnd r.dip, rnd r.rake⟩ := by
  obtain ⟨_, c1, cs1, rfl, h1, hn1⟩ := reparse_node h
  obtain ⟨_, d1, ds1, rfl, k1, kn1⟩ := reparse_node h1
  obtain ⟨d2, ds2, rfl, k2, kn2⟩ := forall2_cons kn1
  obtain ⟨d3, ds3, rfl, k3, kn3⟩ := forall2_cons kn2
  obtain ⟨d4, ds4, rfl, k4, kn4⟩ := forall2_cons kn3
  obtain ⟨c2, cs2, rfl, h2, hn2⟩ := forall2_cons hn1
  obtain ⟨c3, cs3, rfl, h3, hn3⟩ := forall2_cons hn2
  obtain ⟨c4, cs4, rfl, h4, hn4⟩ := forall2_cons hn3
  rw [reparse_leaf k1, reparse_leaf k2, reparse_leaf k3, reparse_leaf k4, reparse_leaf h2, reparse_leaf h3,
    reparse_leaf h4, forall2_nil kn4, forall2_nil hn4]
  simp only [blank_str H]
  simp [parseRateModel, Elem.findChild, Elem.children, Elem.tag, need, childFloat, Elem.text, toFloat_str H, Elem.get,
    Elem.attrs, tTGR, tA_VALUE, tB_VALUE, tMIN_MAGNITUDE, tMAX_MAGNITUDE, tSTRIKE, tDIP, tRAKE, bind, Except.bind]

def depthTree (nt : NumText F) (ty : Text) (d : DepthDistrib F) : Elem :=
  .mk tRUPTURE_DEPTH_DISTRIB [] none [.mk tMAGNITUDE [(aTYPE, ty)] (some (joinNums nt d.magnitude.values)) [],
    .mk tDEPTH [] (some (joinNums nt d.depth)) []]

theorem writeDepth_eq (H : Lawful nt rnd) (d : DepthDistrib F) :
    writeDepthDistrib nt d = (attrValue d.magnitude.typeMag).map (fun ty => depthTree nt ty d) := by
  unfold writeDepthDistrib
  rw [leaf_nums H, textValue_of (by rintro t ⟨⟩; exact (xmlOk_iff _).1 (joinNums_ok H _))]
  cases attrValue d.magnitude.typeMag <;> rfl

theorem parse_depth (H : Lawful nt rnd) (ty : Text) (d : DepthDistrib F) (h1 : d.magnitude.values ≠ []) (h2 : d.depth ≠ [])
    (e' : Elem) (h : Reparse (depthTree nt ty d) e') :
    parseDepthDistrib nt e' = .ok ⟨⟨some ty, d.magnitude.values.map rnd⟩, d.depth.map rnd⟩ := by
  obtain ⟨_, c1, cs1, rfl, k1, hn1⟩ := reparse_node h
  obtain ⟨c2, cs2, rfl, k2, hn2⟩ := forall2_cons hn1
  rw [reparse_leaf k1, reparse_leaf k2, forall2_nil hn2, blank_ne (joinNums_ne H _ h1), blank_ne (joinNums_ne H _ h2)]
  simp [parseDepthDistrib, Elem.findChild, Elem.children, Elem.tag, need, words, Elem.text, joinNums_words H, mapM_toFloat H,
    Elem.get, Elem.attrs, tMAGNITUDE, tDEPTH, bind, Except.bind]

/-- Tree of an area source. -/
def sourceTree (nt : NumText F) (id srs tyG tyM : Text) (s : AreaSource F) : Elem :=
  .mk tAREA_SOURCE [(aGML_ID, id)] none [.mk tGML_NAME [] s.name [], .mk tTECTONIC_REGION [] s.tectonicRegion [],
    boundaryTree nt srs s.boundary.posList, rateTree nt tyG s.rate, depthTree nt tyM s.depthDist,
    .mk tHYPOCENTRAL_DEPTH [] (some (nt.str s.hypocentralDepth)) []]

theorem bind_ok {α β : Type} {m : Except PyErr α} {f : α → Except PyErr β} {b : β} (h : (m >>= f) = .ok b) :
    ∃ a, m = .ok a ∧ f a = .ok b := by
  cases m with
  | error e => cases h
  | ok a => exact ⟨a, rfl, h⟩

theorem map_ok {α β : Type} {m : Except PyErr α} {f : α → β} {b : β} (h : m.map f = .ok b) :
    ∃ a, m = .ok a ∧ f a = b := by
  cases m with
  | error e => cases h
  | ok a => cases h; exact ⟨a, rfl, rfl⟩

theorem areaSourceElem_ok (H : Lawful nt rnd) {s : AreaSource F} {e : Elem} (h : areaSourceElem nt s = .ok e) :
    Writable s ∧ ∃ id srs tyG tyM, s.areaSourceId = some id ∧ s.boundary.srsName = some srs ∧ s.rate.tgr.typeTgr = some tyG ∧
      s.depthDist.magnitude.typeMag = some tyM ∧ e = sourceTree nt id srs tyG tyM s := by
  unfold areaSourceElem at h
  obtain ⟨id, hid, h⟩ := bind_ok h
  obtain ⟨nm, hnm, h⟩ := bind_ok h
  obtain ⟨tr, htr, h⟩ := bind_ok h
  obtain ⟨b, hb, h⟩ := bind_ok h
  obtain ⟨r, hr, h⟩ := bind_ok h
  obtain ⟨d, hd, h⟩ := bind_ok h
  obtain ⟨hh, hhh, h⟩ := bind_ok h
  cases h
  rw [leaf_num H] at hhh
  cases hhh
  rw [writeAreaBoundary_eq H] at hb
  rw [writeRateModel_eq H] at hr
  rw [writeDepth_eq H] at hd
  obtain ⟨srs, hs, rfl⟩ := map_ok hb
  obtain ⟨tyG, hg, rfl⟩ := map_ok hr
  obtain ⟨tyM, hm, rfl⟩ := map_ok hd
  obtain ⟨rfl, hn⟩ := leaf_ok hnm
  obtain ⟨rfl, ht⟩ := leaf_ok htr
  have a1 := attrValue_ok hid
  have a2 := attrValue_ok hs
  have a3 := attrValue_ok hg
  have a4 := attrValue_ok hm
  exact ⟨⟨⟨_, a1⟩, hn, ht, ⟨_, a2⟩, ⟨_, a3⟩, ⟨_, a4⟩⟩, id, srs, tyG, tyM, a1.1, a2.1, a3.1, a4.1, rfl⟩

theorem areaSourceElem_of (H : Lawful nt rnd) {s : AreaSource F} (h : Writable s) :
    ∃ e, areaSourceElem nt s = .ok e := by
  obtain ⟨⟨id, i1, i2⟩, hn, ht, ⟨srs, s1, s2⟩, ⟨tg, g1, g2⟩, ⟨tm, m1, m2⟩⟩ := h
  refine ⟨sourceTree nt id srs tg tm s, ?_⟩
  unfold areaSourceElem
  rw [attrValue_of i1 i2, leaf_of hn, leaf_of ht, writeAreaBoundary_eq H, writeRateModel_eq H, writeDepth_eq H, leaf_num H,
    attrValue_of s1 s2, attrValue_of g1 g2, attrValue_of m1 m2]
  rfl

theorem parse_source (H : Lawful nt rnd) {s : AreaSource F} {e e' : Elem} (hs : areaSourceElem nt s = .ok e) (hf : Filled s)
    (h : Reparse e e') (smId nrmlId : Option Text) (anc : Anc) :
    parseAreaSource nt (smId :: nrmlId :: anc) e' =
      .ok (readBack rnd nrmlId smId s) := by
  obtain ⟨-, id, srs, tyG, tyM, h1, h2, h3, h4, rfl⟩ := areaSourceElem_ok H hs
  obtain ⟨_, c1, cs1, rfl, k1, hn1⟩ := reparse_node h
  obtain ⟨c2, cs2, rfl, k2, hn2⟩ := forall2_cons hn1
  obtain ⟨c3, cs3, rfl, k3, hn3⟩ := forall2_cons hn2
  obtain ⟨c4, cs4, rfl, k4, hn4⟩ := forall2_cons hn3
  obtain ⟨c5, cs5, rfl, k5, hn5⟩ := forall2_cons hn4
  obtain ⟨c6, cs6, rfl, k6, hn6⟩ := forall2_cons hn5
  have t3 := reparse_tag k3
  have t4 := reparse_tag k4
  have t5 := reparse_tag k5
  have p3 := parse_boundary H _ _ hf.1 _ k3
  have p4 := parse_rate H _ _ _ k4
  have p5 := parse_depth H _ _ hf.2.1 hf.2.2 _ k5
  rw [reparse_leaf k1, reparse_leaf k2, reparse_leaf k6, forall2_nil hn6, blank_str H]
  simp only [boundaryTree, rateTree, depthTree, Elem.tag] at t3 t4 t5
  simp [parseAreaSource, Elem.findChild, Elem.children, need, t3, t4, t5, p3, p4, p5, tGML_NAME, tTECTONIC_REGION,
    tAREA_BOUNDARY, tRUPTURE_RATE_MODEL, tRUPTURE_DEPTH_DISTRIB, tHYPOCENTRAL_DEPTH, childFloat, Elem.text, Elem.get,
    Elem.attrs, toFloat_str H, readBack, rndSource, h1, h2, h3, h4, bind, Except.bind, Elem.tag]

end

end Verif.Nrml
