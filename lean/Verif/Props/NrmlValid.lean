import Verif.Props.NrmlSchema
import Mathlib.Algebra.Order.Field.Basic

/-!
# C90: the written document against the whole schema

Attributes, value ranges and identifiers in addition to the elements.
-/

namespace Verif.Nrml

open Verif Verif.EqCatalog Spec

namespace Spec

/-- What the schema asks of a source that is to be written, `rnd` being the value that is left after printing. -/
structure Conforming {K : Type} [Zero K] [LE K] [Neg K] [NatCast K] (rnd : K → K) (nc : Text → Prop) (s : AreaSource K) : Prop where
  region : ∃ r ∈ Schema.regions, s.tectonicRegion = some r
  id : ∃ i, s.areaSourceId = some i ∧ nc i
  rateType : ∃ k ∈ Schema.magnitudeTypes, s.rate.tgr.typeTgr = some k
  depthType : ∃ k ∈ Schema.magnitudeTypes, s.depthDist.magnitude.typeMag = some k
  b : 0 ≤ rnd s.rate.tgr.bValue
  strike : 0 ≤ rnd s.rate.strike ∧ rnd s.rate.strike ≤ ((360 : ℕ) : K)
  dip : 0 ≤ rnd s.rate.dip ∧ rnd s.rate.dip ≤ ((90 : ℕ) : K)
  rake : -((180 : ℕ) : K) ≤ rnd s.rate.rake ∧ rnd s.rate.rake ≤ ((180 : ℕ) : K)
  depth : ∀ d ∈ s.depthDist.depth, 0 ≤ rnd d
  hypocentre : 0 ≤ rnd s.hypocentralDepth

end Spec

mutual
theorem reparse_ids : ∀ e e' : Elem, Reparse e e' → e'.nodes.map Elem.attrs = e.nodes.map Elem.attrs
  | .mk t a x [], e', h => by
    rw [reparse_leaf h]; rfl
  | .mk t a x (c :: cs), e', h => by
    cases h with
    | node _ _ x' _ _ c' cs' h1 h2 =>
      simp only [Elem.nodes, Elem.nodesList, List.map_cons, List.map_append, reparse_ids c c' h1,
        reparse_idsList cs cs' h2, Elem.attrs]
theorem reparse_idsList : ∀ l l' : List Elem, List.Forall₂ Reparse l l' →
    (Elem.nodesList l').map Elem.attrs = (Elem.nodesList l).map Elem.attrs
  | [], l', h => by rw [forall2_nil h]
  | c :: cs, l', h => by
    cases h with
    | cons h1 h2 =>
      simp only [Elem.nodesList, List.map_append, reparse_ids c _ h1, reparse_idsList cs _ h2]
end

/-- Reading a written document back does not change the identifiers. -/
theorem reparse_identifiers (e e' : Elem) (h : Reparse e e') : Schema.identifiers e' = Schema.identifiers e := by
  have key : ∀ l : List Elem, l.filterMap (fun n => n.get ⟨.gml, "id"⟩) =
      (l.map Elem.attrs).filterMap (fun a => (a.find? (fun p => p.1 = (⟨.gml, "id"⟩ : QName))).map Prod.snd) := by
    intro l
    rw [List.filterMap_map]; rfl
  rw [Schema.identifiers, Schema.identifiers, key, key, reparse_ids e e' h]

section
variable {F : Type} [Zero F] [LE F] [Neg F] [NatCast F] {nt : NumText F} {rnd : F → F}

/-- Elements without a value range. -/
theorem range_free (t : QName) (ht : t ∈ [tAREA_SOURCE, tGML_NAME, tTECTONIC_REGION, tAREA_BOUNDARY, tPOLYGON, tEXTERIOR, tLINEAR_RING, tPOS_LIST, tRUPTURE_RATE_MODEL, tTGR, tA_VALUE, tMIN_MAGNITUDE, tMAX_MAGNITUDE, tRUPTURE_DEPTH_DISTRIB, tMAGNITUDE, tROOT, tSOURCE_MODEL, tCONFIG]) (v : F) :
    Schema.Range t v := by
  simp only [List.mem_cons, List.not_mem_nil, or_false] at ht
  rcases ht with rfl | rfl | rfl | rfl | rfl | rfl | rfl | rfl | rfl | rfl | rfl | rfl | rfl | rfl | rfl | rfl | rfl | rfl <;>
    simp [Schema.Range, tAREA_SOURCE, tGML_NAME, tTECTONIC_REGION, tAREA_BOUNDARY, tPOLYGON, tEXTERIOR, tLINEAR_RING, tPOS_LIST, tRUPTURE_RATE_MODEL, tTGR, tA_VALUE, tMIN_MAGNITUDE, tMAX_MAGNITUDE, tRUPTURE_DEPTH_DISTRIB, tMAGNITUDE, tROOT, tSOURCE_MODEL, tCONFIG]

/-- Elements written without attributes. -/
theorem attributes_none (nc : Text → Prop) (t : QName) (ht : t ∈ [tTECTONIC_REGION, tAREA_BOUNDARY, tEXTERIOR, tPOS_LIST, tRUPTURE_RATE_MODEL, tA_VALUE, tB_VALUE, tSTRIKE, tDIP, tRAKE, tRUPTURE_DEPTH_DISTRIB, tDEPTH, tHYPOCENTRAL_DEPTH, tCONFIG, tGML_NAME, tPOLYGON, tMIN_MAGNITUDE, tMAX_MAGNITUDE]) :
    Schema.Attributes nc t [] := by
  simp only [List.mem_cons, List.not_mem_nil, or_false] at ht
  rcases ht with rfl | rfl | rfl | rfl | rfl | rfl | rfl | rfl | rfl | rfl | rfl | rfl | rfl | rfl | rfl | rfl | rfl | rfl <;>
    simp [Schema.Attributes, Schema.tINCREMENTAL, tTECTONIC_REGION, tAREA_BOUNDARY, tEXTERIOR, tPOS_LIST, tRUPTURE_RATE_MODEL, tA_VALUE, tB_VALUE, tSTRIKE, tDIP, tRAKE, tRUPTURE_DEPTH_DISTRIB, tDEPTH, tHYPOCENTRAL_DEPTH, tCONFIG, tGML_NAME, tPOLYGON, tMIN_MAGNITUDE, tMAX_MAGNITUDE]

/-- The attributes and the values of the elements written for one source. -/
theorem nodes_conform (H : Lawful nt rnd) (nc : Text → Prop) (s : AreaSource F) (e e' : Elem) (he : areaSourceElem nt s = .ok e)
    (hr : Reparse e e') :
    ((∀ n ∈ e'.nodes, Schema.Attributes nc n.tag n.attrs) ∧
      ∀ n ∈ e'.nodes, ∀ x, n.text = some x → ∀ w ∈ Schema.numbers n.tag x, ∀ v, nt.float w = some v → Schema.Range n.tag v) ∧
      (∃ r ∈ Schema.regions, s.tectonicRegion = some r) ↔ Spec.Conforming rnd nc s := by
  obtain ⟨-, id, srs, tyG, tyM, i1, i2, i3, i4, rfl⟩ := areaSourceElem_ok H he
  obtain ⟨_, c1, cs1, rfl, k1, hn1⟩ := reparse_node hr
  obtain ⟨c2, cs2, rfl, k2, hn2⟩ := forall2_cons hn1
  obtain ⟨c3, cs3, rfl, k3, hn3⟩ := forall2_cons hn2
  obtain ⟨c4, cs4, rfl, k4, hn4⟩ := forall2_cons hn3
  obtain ⟨c5, cs5, rfl, k5, hn5⟩ := forall2_cons hn4
  obtain ⟨c6, cs6, rfl, k6, hn6⟩ := forall2_cons hn5
  obtain rfl := forall2_nil hn6
  obtain rfl := reparse_leaf k1
  obtain rfl := reparse_leaf k2
  obtain rfl := reparse_leaf k6
  obtain ⟨_, d1, ds1, rfl, h1, hm1⟩ := reparse_node k3
  obtain ⟨_, d2, ds2, rfl, h2, hm2⟩ := reparse_node h1
  obtain ⟨_, d3, ds3, rfl, h3, hm3⟩ := reparse_node h2
  obtain ⟨_, d4, ds4, rfl, h4, hm4⟩ := reparse_node h3
  obtain rfl := forall2_nil hm1
  obtain rfl := forall2_nil hm2
  obtain rfl := forall2_nil hm3
  obtain rfl := forall2_nil hm4
  obtain rfl := reparse_leaf h4
  obtain ⟨_, m, ms, rfl, l1, lm1⟩ := reparse_node k4
  obtain ⟨_, f1, fs1, rfl, j1, jn1⟩ := reparse_node l1
  obtain ⟨f2, fs2, rfl, j2, jn2⟩ := forall2_cons jn1
  obtain ⟨f3, fs3, rfl, j3, jn3⟩ := forall2_cons jn2
  obtain ⟨f4, fs4, rfl, j4, jn4⟩ := forall2_cons jn3
  obtain ⟨b2, bs2, rfl, l2, lm2⟩ := forall2_cons lm1
  obtain ⟨b3, bs3, rfl, l3, lm3⟩ := forall2_cons lm2
  obtain ⟨b4, bs4, rfl, l4, lm4⟩ := forall2_cons lm3
  obtain rfl := forall2_nil lm4
  obtain rfl := forall2_nil jn4
  obtain rfl := reparse_leaf j1
  obtain rfl := reparse_leaf j2
  obtain rfl := reparse_leaf j3
  obtain rfl := reparse_leaf j4
  obtain rfl := reparse_leaf l2
  obtain rfl := reparse_leaf l3
  obtain rfl := reparse_leaf l4
  obtain ⟨_, g, gs, rfl, o1, om1⟩ := reparse_node k5
  obtain ⟨d, ds, rfl, o2, om2⟩ := forall2_cons om1
  obtain rfl := forall2_nil om2
  obtain rfl := reparse_leaf o1
  obtain rfl := reparse_leaf o2
  have words : ∀ (xs : List F) (P : F → Prop), (∀ x, blankText (some (joinNums nt xs)) = some x → ∀ w ∈ splitWs x, ∀ v, nt.float w = some v → P v) ↔
      ∀ y ∈ xs, P (rnd y) := by
    intro xs P
    by_cases hx : joinNums nt xs = []
    · have : xs = [] := by
        by_contra hne
        exact joinNums_ne H _ hne hx
      subst this
      simp [hx, blankText]
    · simp [blank_ne hx, joinNums_words H, H.float_str]
  simp only [Elem.nodes, Elem.nodesList, List.append_nil, List.nil_append, List.cons_append, List.forall_mem_cons,
    List.not_mem_nil, false_imp_iff, implies_true, and_true, Elem.tag, Elem.attrs, Elem.text, blank_str H]
  have q0 : ∀ v : F, Schema.Range tAREA_SOURCE v ↔ True := fun v => iff_true_intro (range_free _ (by simp) v)
  have q1 : ∀ v : F, Schema.Range tGML_NAME v ↔ True := fun v => iff_true_intro (range_free _ (by simp) v)
  have q2 : ∀ v : F, Schema.Range tTECTONIC_REGION v ↔ True := fun v => iff_true_intro (range_free _ (by simp) v)
  have q3 : ∀ v : F, Schema.Range tAREA_BOUNDARY v ↔ True := fun v => iff_true_intro (range_free _ (by simp) v)
  have q4 : ∀ v : F, Schema.Range tPOLYGON v ↔ True := fun v => iff_true_intro (range_free _ (by simp) v)
  have q5 : ∀ v : F, Schema.Range tEXTERIOR v ↔ True := fun v => iff_true_intro (range_free _ (by simp) v)
  have q6 : ∀ v : F, Schema.Range tLINEAR_RING v ↔ True := fun v => iff_true_intro (range_free _ (by simp) v)
  have q7 : ∀ v : F, Schema.Range tPOS_LIST v ↔ True := fun v => iff_true_intro (range_free _ (by simp) v)
  have q8 : ∀ v : F, Schema.Range tRUPTURE_RATE_MODEL v ↔ True := fun v => iff_true_intro (range_free _ (by simp) v)
  have q9 : ∀ v : F, Schema.Range tTGR v ↔ True := fun v => iff_true_intro (range_free _ (by simp) v)
  have q10 : ∀ v : F, Schema.Range tA_VALUE v ↔ True := fun v => iff_true_intro (range_free _ (by simp) v)
  have q11 : ∀ v : F, Schema.Range tMIN_MAGNITUDE v ↔ True := fun v => iff_true_intro (range_free _ (by simp) v)
  have q12 : ∀ v : F, Schema.Range tMAX_MAGNITUDE v ↔ True := fun v => iff_true_intro (range_free _ (by simp) v)
  have q13 : ∀ v : F, Schema.Range tRUPTURE_DEPTH_DISTRIB v ↔ True := fun v => iff_true_intro (range_free _ (by simp) v)
  have q14 : ∀ v : F, Schema.Range tMAGNITUDE v ↔ True := fun v => iff_true_intro (range_free _ (by simp) v)
  have z0 : Schema.Attributes nc tTECTONIC_REGION [] ↔ True := iff_true_intro (attributes_none nc _ (by simp))
  have z1 : Schema.Attributes nc tAREA_BOUNDARY [] ↔ True := iff_true_intro (attributes_none nc _ (by simp))
  have z2 : Schema.Attributes nc tEXTERIOR [] ↔ True := iff_true_intro (attributes_none nc _ (by simp))
  have z3 : Schema.Attributes nc tPOS_LIST [] ↔ True := iff_true_intro (attributes_none nc _ (by simp))
  have z4 : Schema.Attributes nc tRUPTURE_RATE_MODEL [] ↔ True := iff_true_intro (attributes_none nc _ (by simp))
  have z5 : Schema.Attributes nc tA_VALUE [] ↔ True := iff_true_intro (attributes_none nc _ (by simp))
  have z6 : Schema.Attributes nc tB_VALUE [] ↔ True := iff_true_intro (attributes_none nc _ (by simp))
  have z7 : Schema.Attributes nc tSTRIKE [] ↔ True := iff_true_intro (attributes_none nc _ (by simp))
  have z8 : Schema.Attributes nc tDIP [] ↔ True := iff_true_intro (attributes_none nc _ (by simp))
  have z9 : Schema.Attributes nc tRAKE [] ↔ True := iff_true_intro (attributes_none nc _ (by simp))
  have z10 : Schema.Attributes nc tRUPTURE_DEPTH_DISTRIB [] ↔ True := iff_true_intro (attributes_none nc _ (by simp))
  have z11 : Schema.Attributes nc tDEPTH [] ↔ True := iff_true_intro (attributes_none nc _ (by simp))
  have z12 : Schema.Attributes nc tHYPOCENTRAL_DEPTH [] ↔ True := iff_true_intro (attributes_none nc _ (by simp))
  have z13 : Schema.Attributes nc tGML_NAME [] ↔ True := iff_true_intro (attributes_none nc _ (by simp))
  have z14 : Schema.Attributes nc tPOLYGON [] ↔ True := iff_true_intro (attributes_none nc _ (by simp))
  have z15 : Schema.Attributes nc tMIN_MAGNITUDE [] ↔ True := iff_true_intro (attributes_none nc _ (by simp))
  have z16 : Schema.Attributes nc tMAX_MAGNITUDE [] ↔ True := iff_true_intro (attributes_none nc _ (by simp))
  simp only [q0, q1, q2, q3, q4, q5, q6, q7, q8, q9, q10, q11, q12, q13, q14, z0, z1, z2, z3, z4, z5, z6, z7, z8, z9, z10, z11, z12, z13, z14, z15, z16, implies_true, true_and, and_true]
  have v1 : ∀ v : F, Schema.Range tB_VALUE v ↔ 0 ≤ v := by simp [Schema.Range, tB_VALUE]
  have v2 : ∀ v : F, Schema.Range tDEPTH v ↔ 0 ≤ v := by simp [Schema.Range, tDEPTH]
  have v3 : ∀ v : F, Schema.Range tHYPOCENTRAL_DEPTH v ↔ 0 ≤ v := by simp [Schema.Range, tHYPOCENTRAL_DEPTH]
  have v4 : ∀ v : F, Schema.Range tSTRIKE v ↔ 0 ≤ v ∧ v ≤ ((360 : ℕ) : F) := by simp [Schema.Range, tSTRIKE]
  have v5 : ∀ v : F, Schema.Range tDIP v ↔ 0 ≤ v ∧ v ≤ ((90 : ℕ) : F) := by simp [Schema.Range, tDIP]
  have v6 : ∀ v : F, Schema.Range tRAKE v ↔ -((180 : ℕ) : F) ≤ v ∧ v ≤ ((180 : ℕ) : F) := by simp [Schema.Range, tRAKE]
  have a1 : Schema.Attributes nc tAREA_SOURCE [(aGML_ID, id)] ↔ nc id := by simp [Schema.Attributes, tAREA_SOURCE, aGML_ID]
  have a2 : Schema.Attributes nc tLINEAR_RING [(aSRS_NAME, srs)] ↔ True := by
    simp [Schema.Attributes, tLINEAR_RING, aSRS_NAME, Schema.tINCREMENTAL]
  have a3 : Schema.Attributes nc tTGR [(aTYPE, tyG)] ↔ tyG ∈ Schema.magnitudeTypes := by simp [Schema.Attributes, tTGR, aTYPE]
  have a4 : Schema.Attributes nc tMAGNITUDE [(aTYPE, tyM)] ↔ tyM ∈ Schema.magnitudeTypes := by
    simp [Schema.Attributes, tMAGNITUDE, aTYPE]
  have w1 : ∀ x, Schema.numbers tB_VALUE x = [x] := by simp [Schema.numbers, tB_VALUE]
  have w2 : ∀ x, Schema.numbers tDEPTH x = splitWs x := by simp [Schema.numbers, tDEPTH]
  have w3 : ∀ x, Schema.numbers tHYPOCENTRAL_DEPTH x = [x] := by simp [Schema.numbers, tHYPOCENTRAL_DEPTH]
  have w4 : ∀ x, Schema.numbers tSTRIKE x = [x] := by simp [Schema.numbers, tSTRIKE]
  have w5 : ∀ x, Schema.numbers tDIP x = [x] := by simp [Schema.numbers, tDIP]
  have w6 : ∀ x, Schema.numbers tRAKE x = [x] := by simp [Schema.numbers, tRAKE]
  simp only [w1, w2, w3, w4, w5, w6, v1, v2, v3, v4, v5, v6, a1, a2, a3, a4, words, Option.some.injEq, forall_eq', List.mem_singleton, forall_eq, H.float_str,
    true_and]
  constructor
  · rintro ⟨⟨⟨g1, g2, g3⟩, g4, g5, g6, g7, g8, g9⟩, g0⟩
    exact ⟨g0, ⟨id, i1, g1⟩, ⟨tyG, g2, i3⟩, ⟨tyM, g3, i4⟩, g4, g5, g6, g7, g8, g9⟩
  · rintro ⟨g0, ⟨id', q, g1⟩, ⟨tyG', g2, q'⟩, ⟨tyM', g3, q''⟩, g4, g5, g6, g7, g8, g9⟩
    rw [i1] at q
    rw [i3] at q'
    rw [i4] at q''
    cases q; cases q'; cases q''
    exact ⟨⟨⟨g1, g2, g3⟩, g4, g5, g6, g7, g8, g9⟩, g0⟩

/-- The identifiers in the elements written for a source: its own one. -/
theorem source_identifiers (H : Lawful nt rnd) (s : AreaSource F) (e e' : Elem) (he : areaSourceElem nt s = .ok e)
    (hr : Reparse e e') : (Schema.identifiers e').map some = [s.areaSourceId] := by
  rw [reparse_identifiers e e' hr]
  obtain ⟨-, id, srs, tyG, tyM, i1, i2, i3, i4, rfl⟩ := areaSourceElem_ok H he
  simp [Schema.identifiers, sourceTree, boundaryTree, rateTree, tgrTree, depthTree, Elem.nodes, Elem.nodesList, Elem.get, Elem.attrs,
    aGML_ID, aTYPE, aSRS_NAME, i1]

theorem identifiers_list (l : List Elem) : (Elem.nodesList l).filterMap (fun n => n.get ⟨.gml, "id"⟩) = l.flatMap Schema.identifiers := by
  induction l with
  | nil => rfl
  | cons a l ih => simp only [Elem.nodesList, List.filterMap_append, ih, List.flatMap_cons, Schema.identifiers]

/-- The identifiers of the document: those of the document and the source model, then one per source. -/
theorem document_identifiers (H : Lawful nt rnd) (s0 : AreaSource F) (rest : List (AreaSource F)) (doc doc' : Elem)
    (hd : serialize nt (s0 :: rest) = .ok doc) (hr : Reparse doc doc') :
    (Schema.identifiers doc').map some = s0.nrmlId :: s0.sourceModelId :: (s0 :: rest).map AreaSource.areaSourceId := by
  obtain ⟨s0', rest', nid, sid, body, heq, hn, hs, -, -, hb, rfl⟩ := serialize_ok hd
  cases heq
  obtain ⟨x, m, n, rfl, km, hn'⟩ := reparse_node hr
  obtain rfl := forall2_nil hn'
  obtain ⟨x1, c, src, rfl, kc, hsrc⟩ := reparse_node km
  obtain rfl := reparse_leaf kc
  have ids : ∀ {ss : List (AreaSource F)} {body src : List Elem}, List.Forall₂ (fun s e => areaSourceElem nt s = .ok e) ss body →
      List.Forall₂ Reparse body src → (src.flatMap Schema.identifiers).map some = ss.map AreaSource.areaSourceId := by
    intro ss body src hb
    induction hb generalizing src with
    | nil => intro h; cases h; rfl
    | cons he _ ih =>
      intro h
      cases h with
      | cons h1 h2 => rw [List.flatMap_cons, List.map_append, source_identifiers H _ _ _ he h1, ih h2, List.map_cons]; rfl
  have e1 : Schema.identifiers (.mk tROOT [(aGML_ID, nid)] x [.mk tSOURCE_MODEL [(aGML_ID, sid)] x1
      (.mk tCONFIG [] (blankText none) [] :: src)]) = nid :: sid :: src.flatMap Schema.identifiers := by
      rw [← identifiers_list, Schema.identifiers]
      simp only [Elem.nodes, Elem.nodesList, List.append_nil, List.cons_append, List.nil_append]
      rfl
  rw [e1, List.map_cons, List.map_cons, ids hb hsrc, hn, hs]

/-- C90, what holds of the document as a whole: it conforms to the schema exactly when every source does, the two identifiers of the
document are names, and no identifier is used twice. -/
theorem C90_valid_partial (H : Lawful nt rnd) (nc : Text → Prop) (s0 : AreaSource F) (rest : List (AreaSource F)) (doc doc' : Elem)
    (hd : serialize nt (s0 :: rest) = .ok doc) (hr : Reparse doc doc') :
    Schema.Valid nt.float nc doc' ↔ (∀ s ∈ s0 :: rest, Spec.Conforming rnd nc s) ∧ (∀ i, s0.nrmlId = some i → nc i) ∧
      (∀ i, s0.sourceModelId = some i → nc i) ∧
      (s0.nrmlId :: s0.sourceModelId :: (s0 :: rest).map AreaSource.areaSourceId).Nodup := by
  have hdoc := C90_document_partial H _ doc doc' hd hr
  obtain ⟨s0', rest', nid, sid, body, heq, hn, hs, -, -, hb, rfl⟩ := serialize_ok hd
  cases heq
  obtain ⟨x, m, n, rfl, km, hn'⟩ := reparse_node hr
  obtain rfl := forall2_nil hn'
  obtain ⟨x1, c, src, rfl, kc, hsrc⟩ := reparse_node km
  obtain rfl := reparse_leaf kc
  have nodes : ∀ {ss : List (AreaSource F)} {body src : List Elem}, List.Forall₂ (fun s e => areaSourceElem nt s = .ok e) ss body →
      List.Forall₂ Reparse body src →
      (((∀ n ∈ Elem.nodesList src, Schema.Attributes nc n.tag n.attrs) ∧
        ∀ n ∈ Elem.nodesList src, ∀ x, n.text = some x → ∀ w ∈ Schema.numbers n.tag x, ∀ v, nt.float w = some v → Schema.Range n.tag v) ∧
        (∀ s ∈ ss, ∃ r ∈ Schema.regions, s.tectonicRegion = some r) ↔ ∀ s ∈ ss, Spec.Conforming rnd nc s) := by
    intro ss body src hb
    induction hb generalizing src with
    | nil => intro h; cases h; simp [Elem.nodesList]
    | cons he _ ih =>
      intro h
      cases h with
      | cons h1 h2 =>
        rw [List.forall_mem_cons (p := fun s => Spec.Conforming rnd nc s), ← ih h2, ← nodes_conform H nc _ _ _ he h1]
        simp only [Elem.nodesList, List.forall_mem_append, List.forall_mem_cons]
        tauto
  have honce : (Schema.identifiers (.mk tROOT [(aGML_ID, nid)] x [.mk tSOURCE_MODEL [(aGML_ID, sid)] x1
      (.mk tCONFIG [] (blankText none) [] :: src)])).Nodup ↔ (s0.nrmlId :: s0.sourceModelId ::
        (s0 :: rest).map AreaSource.areaSourceId).Nodup := by
    rw [← document_identifiers H s0 rest _ _ hd hr, List.nodup_map_iff (Option.some_injective _)]
  have hat : (∀ n ∈ (Elem.mk tROOT [(aGML_ID, nid)] x [.mk tSOURCE_MODEL [(aGML_ID, sid)] x1
      (.mk tCONFIG [] (blankText none) [] :: src)]).nodes, Schema.Attributes nc n.tag n.attrs) ↔
      nc nid ∧ nc sid ∧ ∀ n ∈ Elem.nodesList src, Schema.Attributes nc n.tag n.attrs := by
    have a1 : Schema.Attributes nc tROOT [(aGML_ID, nid)] ↔ nc nid := by simp [Schema.Attributes, tROOT, aGML_ID]
    have a2 : Schema.Attributes nc tSOURCE_MODEL [(aGML_ID, sid)] ↔ nc sid := by simp [Schema.Attributes, tSOURCE_MODEL, aGML_ID]
    have a3 : Schema.Attributes nc tCONFIG [] ↔ True := iff_true_intro (attributes_none nc _ (by simp))
    simp only [Elem.nodes, Elem.nodesList, List.forall_mem_cons, List.append_nil, Elem.tag, Elem.attrs, a1, a2, a3, List.cons_append,
      List.nil_append, true_and]
  have hva : (∀ n ∈ (Elem.mk tROOT [(aGML_ID, nid)] x [.mk tSOURCE_MODEL [(aGML_ID, sid)] x1
      (.mk tCONFIG [] (blankText none) [] :: src)]).nodes, ∀ x, n.text = some x → ∀ w ∈ Schema.numbers n.tag x, ∀ v, nt.float w = some v →
        Schema.Range n.tag v) ↔
      ∀ n ∈ Elem.nodesList src, ∀ x, n.text = some x → ∀ w ∈ Schema.numbers n.tag x, ∀ v, nt.float w = some v → Schema.Range n.tag v := by
    have a1 : ∀ v : F, Schema.Range tROOT v ↔ True := fun v => iff_true_intro (range_free _ (by simp) v)
    have a2 : ∀ v : F, Schema.Range tSOURCE_MODEL v ↔ True := fun v => iff_true_intro (range_free _ (by simp) v)
    have a3 : ∀ v : F, Schema.Range tCONFIG v ↔ True := fun v => iff_true_intro (range_free _ (by simp) v)
    simp only [Elem.nodes, Elem.nodesList, List.forall_mem_cons, List.append_nil, Elem.tag, List.cons_append,
      List.nil_append, a1, a2, a3, implies_true, true_and]
  rw [← nodes hb hsrc, ← honce, ← hdoc]
  constructor
  · rintro ⟨g1, g2, g3, g4⟩
    rw [hat] at g2
    rw [hva] at g3
    exact ⟨⟨⟨g2.2.2, g3⟩, g1⟩, fun i hi => by rw [hn] at hi; cases hi; exact g2.1, fun i hi => by rw [hs] at hi; cases hi; exact g2.2.1, g4⟩
  · rintro ⟨⟨⟨g1, g2⟩, g3⟩, g4, g5, g6⟩
    exact ⟨g3, hat.2 ⟨g4 _ hn, g5 _ hs, g1⟩, hva.2 g2, g6⟩

end

/-- The default source fails in three ways: its region and the type of its magnitudes are none of the schema's, and its identifier is that
of the document, too (source_model.py:92-126). -/
theorem C90_default_identifiers [PyNum F] (H : Lawful nt rnd) (nc : Text → Prop) (s : AreaSource F)
    (hn : s.nrmlId = (defaultAreaSource (F := F)).nrmlId) (hi : s.areaSourceId = (defaultAreaSource (F := F)).areaSourceId)
    (rest : List (AreaSource F)) (doc doc' : Elem)
    (hd : serialize nt (s :: rest) = .ok doc) (hr : Reparse doc doc') : ¬ (Schema.identifiers doc').Nodup := by
  rw [← List.nodup_map_iff (Option.some_injective _), document_identifiers H s rest doc doc' hd hr, hn, List.map_cons, hi]
  simp [defaultAreaSource]

/-! ### Non-vacuity -/

/-- The default source after its texts were replaced by ones of the schema. -/
def okSource : AreaSource ℚ :=
  { (defaultAreaSource (F := ℚ)) with
    nrmlId := some "n1".toList
    sourceModelId := some "sm1".toList
    areaSourceId := some "src1".toList
    tectonicRegion := some "Volcanic".toList
    rate := { (defaultAreaSource (F := ℚ)).rate with tgr := ⟨4.5, 1.1, 0, 7.5, some "Mw".toList⟩ }
    depthDist := ⟨⟨some "Mw".toList, [6.5]⟩, [5000]⟩ }

/-- It is written, and what is written conforms. -/
example : ∃ doc, serialize (pyNums (K := ℚ)) [okSource] = .ok doc ∧ ∀ doc', Reparse doc doc' →
    Schema.Valid (pyNums (K := ℚ)).float (fun t => t ≠ []) doc' := by
  have h : ∀ (x : Except PyErr Elem), x.toOption.isSome → ∃ d, x = .ok d := by
    intro x hx; cases x with | ok d => exact ⟨d, rfl⟩ | error _ => simp [Except.toOption] at hx
  obtain ⟨doc, hdoc⟩ := h (serialize (pyNums (K := ℚ)) [okSource]) (by decide +kernel)
  refine ⟨doc, hdoc, fun doc' hr => ?_⟩
  rw [C90_valid_partial pyNums_lawful _ okSource [] doc doc' hdoc hr]
  refine ⟨?_, by decide, by decide, by decide⟩
  simp only [List.mem_singleton, forall_eq]
  exact ⟨⟨"Volcanic".toList, by decide, rfl⟩, ⟨"src1".toList, rfl, by decide⟩, ⟨"Mw".toList, by decide, rfl⟩,
    ⟨"Mw".toList, by decide, rfl⟩, by decide +kernel, by decide +kernel, by decide +kernel, by decide +kernel, by decide +kernel, by decide +kernel⟩

end Verif.Nrml
