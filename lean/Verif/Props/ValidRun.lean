import Verif.Props.NrmlValid
import Verif.Props.RunResults
import Verif.Lemmas.FormatOrder
import Verif.Props.Equivalence
import Verif.Props.RunExamples
import Verif.Props.EquivalenceRun

/-!
# C137: a run from a valid source model writes a valid one
-/

namespace Verif.Nrml

open Verif Verif.EqCatalog Spec

namespace Spec

/-- Every b value in the document is at least zero. -/
def BValuesNonneg {K : Type} [Zero K] [LE K] (num : Text → Option K) (doc : Elem) : Prop :=
  ∀ n ∈ doc.nodes, n.tag = ⟨.nrml, "bValue"⟩ → ∀ x, n.text = some x → ∀ v, num x = some v → 0 ≤ v

/-- Printing and reading keeps numbers within the ranges of the schema. -/
structure KeepsRanges {K : Type} [Zero K] [LE K] [Neg K] [NatCast K] (rnd : K → K) : Prop where
  nonneg : ∀ x, 0 ≤ x → 0 ≤ rnd x
  strike : ∀ x, x ≤ ((360 : ℕ) : K) → rnd x ≤ ((360 : ℕ) : K)
  dip : ∀ x, x ≤ ((90 : ℕ) : K) → rnd x ≤ ((90 : ℕ) : K)
  rake : ∀ x, -((180 : ℕ) : K) ≤ x ∧ x ≤ ((180 : ℕ) : K) → -((180 : ℕ) : K) ≤ rnd x ∧ rnd x ≤ ((180 : ℕ) : K)

end Spec

/-- Python's number texts do. -/
theorem rnd12_keeps {K : Type} [Field K] [LinearOrder K] [IsStrictOrderedRing K] [FloorRing K] :
    KeepsRanges (Format.rnd12 : K → K) := by
  refine ⟨fun x h => ?_, fun x h => ?_, fun x h => ?_, fun x h => ⟨?_, ?_⟩⟩
  · have := Format.rnd12_mono h
    rwa [Format.rnd12_zero] at this
  · have := Format.rnd12_mono h
    rwa [Format.rnd12_360] at this
  · have := Format.rnd12_mono h
    rwa [Format.rnd12_90] at this
  · have := Format.rnd12_mono h.1
    rwa [Format.rnd12_neg_eq, Format.rnd12_180] at this
  · have := Format.rnd12_mono h.2
    rwa [Format.rnd12_180] at this

/-! ### What is read from a valid document -/

theorem mem_nodesList (l : List Elem) (n : Elem) : n ∈ Elem.nodesList l ↔ ∃ e ∈ l, n ∈ e.nodes := by
  induction l with
  | nil => simp [Elem.nodesList]
  | cons a l ih => simp [Elem.nodesList, ih]

theorem self_nodes (e : Elem) : e ∈ e.nodes := by cases e; simp [Elem.nodes]

mutual
theorem nodes_trans : ∀ (e n m : Elem), n ∈ e.nodes → m ∈ n.nodes → m ∈ e.nodes
  | .mk t a x cs, n, m, hn, hm => by
    rw [Elem.nodes, List.mem_cons] at hn
    rcases hn with rfl | hn
    · exact hm
    · rw [Elem.nodes]
      exact List.mem_cons_of_mem _ (nodesList_trans cs n m hn hm)
theorem nodesList_trans : ∀ (l : List Elem) (n m : Elem), n ∈ Elem.nodesList l → m ∈ n.nodes → m ∈ Elem.nodesList l
  | [], n, m, hn, hm => by simp [Elem.nodesList] at hn
  | c :: cs, n, m, hn, hm => by
    rw [Elem.nodesList, List.mem_append] at hn ⊢
    rcases hn with hn | hn
    · exact .inl (nodes_trans c n m hn hm)
    · exact .inr (nodesList_trans cs n m hn hm)
end

theorem findChild_nodes {e c : Elem} {t : QName} (h : e.findChild t = some c) : c ∈ e.nodes ∧ c.tag = t := by
  have h1 := List.mem_of_find?_eq_some h
  have h2 := List.find?_some h
  cases e with
  | mk _ _ _ cs =>
    refine ⟨?_, by simpa using h2⟩
    rw [Elem.nodes]
    exact List.mem_cons_of_mem _ ((mem_nodesList _ _).2 ⟨c, h1, self_nodes c⟩)

section
variable {F : Type} [Zero F] [LE F] [Neg F] [NatCast F] {nt : NumText F} {rnd : F → F}

theorem need_ok {e : Option Elem} {c : Elem} (h : need e = .ok c) : e = some c := by
  cases e with
  | none => cases h
  | some e => cases h; rfl

/-- The number of a child of an element lies in the range of the schema. -/
theorem childFloat_range {e : Elem} {t : QName} {v : F} (ht : t ≠ ⟨.nrml, "depth"⟩)
    (hv : ∀ n ∈ e.nodes, ∀ x, n.text = some x → ∀ w ∈ Schema.numbers n.tag x, ∀ v, nt.float w = some v → Schema.Range n.tag v)
    (h : childFloat nt e t = .ok v) : Schema.Range t v := by
  unfold childFloat at h
  obtain ⟨c, hc, h⟩ := bind_ok h
  obtain ⟨hm, htag⟩ := findChild_nodes (need_ok hc)
  cases hx : c.text with
  | none => rw [hx] at h; cases h
  | some x =>
    rw [hx] at h
    simp only [toFloat] at h
    cases hf : nt.float x with
    | none => rw [hf] at h; cases h
    | some u =>
      rw [hf] at h
      cases h
      have := hv c hm x hx x (by rw [htag, Schema.numbers, if_neg ht]; simp) _ hf
      rwa [htag] at this

/-- What reading one source of a valid document delivers: everything the schema asks for, except that the type of the magnitudes may be
missing. -/
theorem read_conforms {anc : Anc} {e : Elem} {s : AreaSource F} (dbl : Text → Prop) (nc : Text → Prop) (he : Schema.AreaSource dbl e)
    (ha : ∀ n ∈ e.nodes, Schema.Attributes nc n.tag n.attrs)
    (hv : ∀ n ∈ e.nodes, ∀ x, n.text = some x → ∀ w ∈ Schema.numbers n.tag x, ∀ v, nt.float w = some v → Schema.Range n.tag v)
    (h : parseAreaSource nt anc e = .ok s) :
    (∃ r ∈ Schema.regions, s.tectonicRegion = some r) ∧ (∃ i, s.areaSourceId = some i ∧ nc i) ∧
      (∀ k, s.rate.tgr.typeTgr = some k → k ∈ Schema.magnitudeTypes) ∧
      (∀ k, s.depthDist.magnitude.typeMag = some k → k ∈ Schema.magnitudeTypes) ∧
      (0 ≤ s.rate.strike ∧ s.rate.strike ≤ ((360 : ℕ) : F)) ∧ (0 ≤ s.rate.dip ∧ s.rate.dip ≤ ((90 : ℕ) : F)) ∧
      (-((180 : ℕ) : F) ≤ s.rate.rake ∧ s.rate.rake ≤ ((180 : ℕ) : F)) ∧ (∀ d ∈ s.depthDist.depth, 0 ≤ d) ∧ 0 ≤ s.hypocentralDepth := by
  have types : ∀ (n : Elem) (k : Text), n ∈ e.nodes → (n.tag = tTGR ∨ n.tag = tMAGNITUDE) → n.get aTYPE = some k →
      k ∈ Schema.magnitudeTypes := by
    intro n k hn ht hk
    have hb := ha n hn
    have : n.attrs = [] ∨ ∃ k ∈ Schema.magnitudeTypes, n.attrs = [(⟨.none, "type"⟩, k)] := by
      rcases ht with ht | ht <;> simpa [Schema.Attributes, ht, tTGR, tMAGNITUDE] using hb
    rcases this with h0 | ⟨k', hk', h0⟩
    · simp [Elem.get, h0] at hk
    · simp only [Elem.get, h0, aTYPE, List.find?_cons, decide_true, Option.map_some, Option.some.injEq] at hk
      rwa [← hk]
  have v3 : ∀ v : F, Schema.Range tHYPOCENTRAL_DEPTH v ↔ 0 ≤ v := by simp [Schema.Range, tHYPOCENTRAL_DEPTH]
  have v4 : ∀ v : F, Schema.Range tSTRIKE v ↔ 0 ≤ v ∧ v ≤ ((360 : ℕ) : F) := by simp [Schema.Range, tSTRIKE]
  have v5 : ∀ v : F, Schema.Range tDIP v ↔ 0 ≤ v ∧ v ≤ ((90 : ℕ) : F) := by simp [Schema.Range, tDIP]
  have v6 : ∀ v : F, Schema.Range tRAKE v ↔ -((180 : ℕ) : F) ≤ v ∧ v ≤ ((180 : ℕ) : F) := by simp [Schema.Range, tRAKE]
  have v2 : ∀ v : F, Schema.Range tDEPTH v ↔ 0 ≤ v := by simp [Schema.Range, tDEPTH]
  unfold parseAreaSource at h
  split at h
  · obtain ⟨nm, -, h⟩ := bind_ok h
    obtain ⟨tr, htr, h⟩ := bind_ok h
    obtain ⟨be, -, h⟩ := bind_ok h
    obtain ⟨b, -, h⟩ := bind_ok h
    obtain ⟨re, hre, h⟩ := bind_ok h
    obtain ⟨r, hr, h⟩ := bind_ok h
    obtain ⟨de, hde, h⟩ := bind_ok h
    obtain ⟨d, hd, h⟩ := bind_ok h
    obtain ⟨hy, hhy, h⟩ := bind_ok h
    cases h
    have htr' := need_ok htr
    obtain ⟨nre, tre⟩ := findChild_nodes (need_ok hre)
    obtain ⟨nde, tde⟩ := findChild_nodes (need_ok hde)
    have hvr : ∀ n ∈ re.nodes, ∀ x, n.text = some x → ∀ w ∈ Schema.numbers n.tag x, ∀ v, nt.float w = some v → Schema.Range n.tag v :=
      fun n hn => hv n (nodes_trans e re n nre hn)
    unfold parseRateModel at hr
    obtain ⟨t, ht, hr⟩ := bind_ok hr
    obtain ⟨av, -, hr⟩ := bind_ok hr
    obtain ⟨bv, -, hr⟩ := bind_ok hr
    obtain ⟨mn, -, hr⟩ := bind_ok hr
    obtain ⟨mx, -, hr⟩ := bind_ok hr
    obtain ⟨st, hst, hr⟩ := bind_ok hr
    obtain ⟨dp, hdp, hr⟩ := bind_ok hr
    obtain ⟨rk, hrk, hr⟩ := bind_ok hr
    cases hr
    obtain ⟨ntgr, ttgr⟩ := findChild_nodes (need_ok ht)
    unfold parseDepthDistrib at hd
    obtain ⟨m, hm, hd⟩ := bind_ok hd
    obtain ⟨mw, -, hd⟩ := bind_ok hd
    obtain ⟨mv, -, hd⟩ := bind_ok hd
    obtain ⟨dd, hdd, hd⟩ := bind_ok hd
    obtain ⟨dw, hdw, hd⟩ := bind_ok hd
    obtain ⟨dv, hdv, hd⟩ := bind_ok hd
    cases hd
    obtain ⟨nm', tm⟩ := findChild_nodes (need_ok hm)
    obtain ⟨ndd, tdd⟩ := findChild_nodes (need_ok hdd)
    refine ⟨?_, ?_, ?_, ?_, ?_, ?_, ?_, ?_, ?_⟩
    · obtain ⟨a, x, names, region, boundary, rates, depth, hypo, rfl, hn, ⟨b', r', rfl, hr'⟩, -⟩ := he
      refine ⟨r', hr', ?_⟩
      simp only [Elem.findChild, Elem.children, List.append_assoc] at htr'
      rw [find?_skip _ names _ (by
        intro c hc
        obtain ⟨b1, y1, rfl⟩ := hn c hc
        simp [Elem.tag, tTECTONIC_REGION])] at htr'
      simp only [List.cons_append, Elem.tag, tTECTONIC_REGION, List.find?_cons, decide_true, Option.some.injEq] at htr'
      rw [← htr']; rfl
    · obtain ⟨a, x, names, region, boundary, rates, depth, hypo, rfl, -⟩ := he
      have h0 : Schema.Attributes nc ⟨.nrml, "areaSource"⟩ a := ha _ (self_nodes _)
      rw [Schema.Attributes, if_pos (by simp)] at h0
      obtain ⟨i, rfl, hi⟩ := h0
      exact ⟨i, by simp [Elem.get, Elem.attrs, aGML_ID], hi⟩
    · exact fun k hk => types t k (nodes_trans e re t nre ntgr) (.inl ttgr) hk
    · exact fun k hk => types m k (nodes_trans e de m nde nm') (.inr tm) hk
    · exact (v4 _).1 (childFloat_range (by simp [tSTRIKE]) hvr hst)
    · exact (v5 _).1 (childFloat_range (by simp [tDIP]) hvr hdp)
    · exact (v6 _).1 (childFloat_range (by simp [tRAKE]) hvr hrk)
    · intro u hu
      have hall := mapM_forall₂ _ _ _ hdv
      obtain ⟨w, hw, hwu⟩ : ∃ w ∈ dw, toFloat nt w = .ok u := by
        clear * - hall hu
        induction hall with
        | nil => cases hu
        | cons h1 _ ih =>
          rcases List.mem_cons.1 hu with rfl | hu
          · exact ⟨_, by simp, h1⟩
          · obtain ⟨w, hw, h⟩ := ih hu
            exact ⟨w, List.mem_cons_of_mem _ hw, h⟩
      unfold words at hdw
      cases hx : dd.text with
      | none => rw [hx] at hdw; cases hdw
      | some x =>
        rw [hx] at hdw
        cases hdw
        have := hv dd (nodes_trans e de dd nde ndd) x hx w (by rw [tdd, Schema.numbers, if_pos (by simp [tDEPTH])]; exact hw) u ((toFloat_ok_iff w u).1 hwu)
        rw [tdd] at this
        exact (v2 _).1 this
    · exact (v3 _).1 (childFloat_range (by simp [tHYPOCENTRAL_DEPTH]) hv hhy)
  · cases h

/-- No area source lies inside one that conforms. -/
theorem conforming_inner (dbl : Text → Prop) (e : Elem) (he : Schema.AreaSource dbl e) :
    e.tag = tAREA_SOURCE ∧ areaSources (Elem.nodesList e.children) = [] := by
  have leaf : ∀ (t : QName) (c : Elem), t ≠ tAREA_SOURCE → Schema.Double dbl t c → areaSources c.nodes = [] := by
    rintro t c ht ⟨a, x, rfl, -⟩
    simp [areaSources, Elem.nodes, Elem.nodesList, Elem.tag, ht]
  have leafs : ∀ (t : QName) (c : Elem), t ≠ tAREA_SOURCE → Schema.Doubles dbl t c → areaSources c.nodes = [] := by
    rintro t c ht ⟨a, x, rfl, -⟩
    simp [areaSources, Elem.nodes, Elem.nodesList, Elem.tag, ht]
  have app : ∀ l m : List Elem, areaSources (l ++ m) = areaSources l ++ areaSources m := fun l m => List.filter_append ..
  have node : ∀ (t : QName) (a : List (QName × Text)) (x : Option Text) (cs : List Elem), t ≠ tAREA_SOURCE →
      areaSources (Elem.mk t a x cs).nodes = areaSources (Elem.nodesList cs) := by
    intro t a x cs ht
    simp [areaSources, Elem.nodes, Elem.tag, ht]
  have list : ∀ l : List Elem, (∀ c ∈ l, areaSources c.nodes = []) → areaSources (Elem.nodesList l) = [] := by
    intro l
    induction l with
    | nil => intro; rfl
    | cons c l ih =>
      intro h
      rw [Elem.nodesList, app, h c (by simp), ih fun d hd => h d (by simp [hd])]
      rfl
  obtain ⟨a, x, names, region, boundary, rates, depth, hypo, rfl, hn, ⟨b, r, rfl, -⟩, hb, -, hr, hd, hh⟩ := he
  refine ⟨rfl, ?_⟩
  apply list
  intro c hc
  simp only [Elem.children, List.mem_append, List.mem_cons, List.not_mem_nil, or_false] at hc
  rcases hc with ((hc | rfl | rfl) | hc) | rfl | rfl
  · obtain ⟨b1, y1, rfl⟩ := hn c hc
    simp [areaSources, Elem.nodes, Elem.nodesList, Elem.tag, tAREA_SOURCE]
  · simp [areaSources, Elem.nodes, Elem.nodesList, Elem.tag, tAREA_SOURCE]
  · obtain ⟨a, x, a1, x1, a2, x2, a3, x3, p, rfl, hp⟩ := hb
    rw [node _ _ _ _ (by simp [tAREA_SOURCE])]
    refine list _ fun c hc => ?_
    rw [List.mem_singleton.1 hc, node _ _ _ _ (by simp [tAREA_SOURCE])]
    refine list _ fun c hc => ?_
    rw [List.mem_singleton.1 hc, node _ _ _ _ (by simp [tAREA_SOURCE])]
    refine list _ fun c hc => ?_
    rw [List.mem_singleton.1 hc, node _ _ _ _ (by simp [tAREA_SOURCE])]
    refine list _ fun c hc => ?_
    rw [List.mem_singleton.1 hc]
    exact leafs _ _ (by simp [tAREA_SOURCE]) hp
  · obtain ⟨a, x, m, c1, c2, c3, rfl, hm, h1, h2, h3⟩ := hr c hc
    rw [node _ _ _ _ (by simp [tAREA_SOURCE])]
    refine list _ fun d hd => ?_
    simp only [List.mem_cons, List.not_mem_nil, or_false] at hd
    rcases hd with rfl | rfl | rfl | rfl
    · rcases hm with ⟨a, x, d1, d2, d3, d4, rfl, k1, k2, k3, k4⟩ | hm
      · rw [node _ _ _ _ (by simp [tAREA_SOURCE])]
        refine list _ fun d hd => ?_
        simp only [List.mem_cons, List.not_mem_nil, or_false] at hd
        rcases hd with rfl | rfl | rfl | rfl
        · exact leaf _ _ (by simp [tAREA_SOURCE]) k1
        · exact leaf _ _ (by simp [tAREA_SOURCE]) k2
        · exact leaf _ _ (by simp [tAREA_SOURCE]) k3
        · exact leaf _ _ (by simp [tAREA_SOURCE]) k4
      · exact leafs _ _ (by simp [tAREA_SOURCE, Schema.tINCREMENTAL]) hm
    · exact leaf _ _ (by simp [tAREA_SOURCE]) h1
    · exact leaf _ _ (by simp [tAREA_SOURCE]) h2
    · exact leaf _ _ (by simp [tAREA_SOURCE]) h3
  · obtain ⟨a, x, m, d, rfl, h1, h2⟩ := hd
    rw [node _ _ _ _ (by simp [tAREA_SOURCE])]
    refine list _ fun d hd => ?_
    simp only [List.mem_cons, List.not_mem_nil, or_false] at hd
    rcases hd with rfl | rfl
    · exact leafs _ _ (by simp [tAREA_SOURCE]) h1
    · exact leafs _ _ (by simp [tAREA_SOURCE]) h2
  · exact leaf _ _ (by simp [tAREA_SOURCE]) hh

/-- The area sources of a conforming document, with the identifiers above them. -/
theorem occ_document (dbl : Text → Prop) (a : List (QName × Text)) (x : Option Text) (a1 : List (QName × Text)) (x1 : Option Text)
    (configs sources : List Elem) (hc : configs = [] ∨ ∃ a2 x2, configs = [.mk ⟨.nrml, "config"⟩ a2 x2 []])
    (hs : ∀ s ∈ sources, Schema.AreaSource dbl s) :
    occ [] (.mk tROOT a x [.mk tSOURCE_MODEL a1 x1 (configs ++ sources)]) =
      sources.map (fun s => ([(Elem.mk tSOURCE_MODEL a1 x1 []).get aGML_ID, (Elem.mk tROOT a x []).get aGML_ID], s)) := by
  have hsrc : ∀ anc, occList anc sources = sources.map (fun s => (anc, s)) := by
    intro anc
    induction sources with
    | nil => rfl
    | cons s l ih =>
      rw [occList, ih fun t ht => hs t (by simp [ht]), List.map_cons]
      obtain ⟨h1, h2⟩ := conforming_inner dbl s (hs s (by simp))
      cases s with
      | mk t b y cs =>
        have : occList (((Elem.mk t b y []).get aGML_ID) :: anc) cs = [] := by
          have := occList_snd (((Elem.mk t b y []).get aGML_ID) :: anc) cs
          rw [show areaSources (Elem.nodesList cs) = [] from h2] at this
          simpa using this
        rw [occ, this, if_pos (show t = tAREA_SOURCE from h1)]
        rfl
  rw [occ, if_neg (by simp [tROOT, tAREA_SOURCE]), occList, occ, if_neg (by simp [tSOURCE_MODEL, tAREA_SOURCE]), occList,
    List.nil_append, List.append_nil, List.nil_append]
  rcases hc with rfl | ⟨a2, x2, rfl⟩
  · rw [List.nil_append, hsrc]
  · rw [List.cons_append, List.nil_append, occList, occ, if_neg (by simp [tAREA_SOURCE]), occList, List.nil_append, List.nil_append, hsrc]

theorem notNested_document (dbl : Text → Prop) (doc : Elem) (hd : Schema.Document dbl doc) : NotNested doc := by
  obtain ⟨a, x, a1, x1, configs, sources, rfl, hc, -, hs⟩ := hd
  intro n hn ht
  simp only [Elem.nodes, Elem.nodesList, List.append_nil, List.mem_cons] at hn
  rcases hn with rfl | rfl | hn
  · simp [Elem.tag, tAREA_SOURCE] at ht
  · simp [Elem.tag, tAREA_SOURCE] at ht
  · obtain ⟨e, he, hm⟩ := (mem_nodesList _ _).1 hn
    clear hn
    rcases List.mem_append.1 he with he | he
    · rcases hc with rfl | ⟨a2, x2, rfl⟩
      · cases he
      · rw [List.mem_singleton.1 he] at hm
        simp only [Elem.nodes, Elem.nodesList, List.mem_singleton] at hm
        subst hm
        simp [Elem.tag, tAREA_SOURCE] at ht
    · obtain ⟨-, h2⟩ := conforming_inner dbl e (hs e he)
      cases e with
      | mk t b y cs =>
        rw [Elem.nodes, List.mem_cons] at hm
        rcases hm with rfl | hm
        · exact h2
        · have : n ∈ areaSources (Elem.nodesList cs) := by simp [areaSources, hm, ht]
          rw [show areaSources (Elem.nodesList cs) = [] from h2] at this
          cases this

/-- What is read of a valid document: sources that conform, with the identifiers of the document, all of them different. -/
theorem read_valid (schema : Elem → Bool) (nc : Text → Prop) (doc : Elem) (hv : Schema.Valid nt.float nc doc) (inputs : List (AreaSource F))
    (hr : readDoc nt schema doc = .ok inputs) :
    ∃ nid sid, nc nid ∧ nc sid ∧ (some nid :: some sid :: inputs.map AreaSource.areaSourceId).Nodup ∧
      ∀ s ∈ inputs, s.nrmlId = some nid ∧ s.sourceModelId = some sid ∧ ∃ e anc, Schema.AreaSource (fun w => (nt.float w).isSome) e ∧
        (∀ n ∈ e.nodes, n ∈ doc.nodes) ∧ parseAreaSource nt anc e = .ok s := by
  have hsch : schema doc = true := by
    by_contra hc
    rw [readDoc, if_neg hc] at hr
    cases hr
  rw [readDoc_eq schema doc hsch (notNested_document _ doc hv.elements)] at hr
  obtain ⟨hdoc, hat, -, honce⟩ := hv
  obtain ⟨a, x, a1, x1, configs, sources, rfl, hc, -, hs⟩ := hdoc
  have h1 : Schema.Attributes nc ⟨.nrml, "nrml"⟩ a := hat _ (self_nodes _)
  have h2 : Schema.Attributes nc ⟨.nrml, "sourceModel"⟩ a1 :=
    hat (.mk ⟨.nrml, "sourceModel"⟩ a1 x1 (configs ++ sources)) (by simp [Elem.nodes, Elem.nodesList])
  rw [Schema.Attributes, if_pos (by simp)] at h1 h2
  obtain ⟨nid, rfl, hnid⟩ := h1
  obtain ⟨sid, rfl, hsid⟩ := h2
  have hocc := occ_document (fun w => (nt.float w).isSome) [(⟨.gml, "id"⟩, nid)] x [(⟨.gml, "id"⟩, sid)] x1 configs sources hc hs
  have hall := mapM_forall₂ _ _ _ hr
  change List.Forall₂ _ (occ [] (.mk tROOT [(⟨.gml, "id"⟩, nid)] x [.mk tSOURCE_MODEL [(⟨.gml, "id"⟩, sid)] x1 (configs ++ sources)])) _ at hall
  rw [hocc] at hall
  have hin : ∀ s ∈ sources, ∀ n ∈ s.nodes, n ∈ (Elem.mk ⟨.nrml, "nrml"⟩ [(⟨.gml, "id"⟩, nid)] x
      [.mk ⟨.nrml, "sourceModel"⟩ [(⟨.gml, "id"⟩, sid)] x1 (configs ++ sources)]).nodes := by
    intro s hs n hn
    simp only [Elem.nodes, Elem.nodesList, List.append_nil, List.mem_cons]
    exact .inr (.inr ((mem_nodesList _ _).2 ⟨s, by simp [hs], hn⟩))
  refine ⟨nid, sid, hnid, hsid, ?_, ?_⟩
  · have hsub : (nid :: sid :: sources.filterMap (fun e => e.get ⟨.gml, "id"⟩)).Nodup := by
      refine honce.sublist ?_
      have : Schema.identifiers (Elem.mk ⟨.nrml, "nrml"⟩ [(⟨.gml, "id"⟩, nid)] x
          [.mk ⟨.nrml, "sourceModel"⟩ [(⟨.gml, "id"⟩, sid)] x1 (configs ++ sources)]) =
          nid :: sid :: (configs ++ sources).flatMap Schema.identifiers := by
        rw [← identifiers_list, Schema.identifiers]
        simp only [Elem.nodes, Elem.nodesList, List.append_nil]
        rfl
      rw [this, List.flatMap_append]
      refine .cons_cons _ (.cons_cons _ ?_)
      refine List.Sublist.trans ?_ (List.sublist_append_right _ _)
      clear * -
      induction sources with
      | nil => simp
      | cons e l ih =>
        rw [List.flatMap_cons]
        have : (e.get ⟨.gml, "id"⟩).toList.Sublist (Schema.identifiers e) := by
          cases e with
          | mk t b y cs =>
            rw [Schema.identifiers, Elem.nodes, List.filterMap_cons]
            cases (Elem.mk t b y cs).get ⟨.gml, "id"⟩ <;> simp
        rw [List.filterMap_cons]
        cases hg : e.get ⟨.gml, "id"⟩ with
        | none => exact ih.trans (List.sublist_append_right _ _)
        | some i =>
          rw [hg] at this
          exact this.append ih
    have hids : inputs.map AreaSource.areaSourceId = (sources.filterMap (fun e => e.get ⟨.gml, "id"⟩)).map some := by
      have hid : ∀ s ∈ sources, ∃ i, s.get ⟨.gml, "id"⟩ = some i := by
        intro s hms
        have h0 := hat s (hin s hms s (self_nodes s))
        obtain ⟨a, x, names, region, boundary, rates, depth, hypo, rfl, -⟩ := hs s hms
        have h0 : Schema.Attributes nc ⟨.nrml, "areaSource"⟩ a := h0
        rw [Schema.Attributes, if_pos (by simp)] at h0
        obtain ⟨i, rfl, -⟩ := h0
        exact ⟨i, by simp [Elem.get, Elem.attrs]⟩
      rw [List.forall₂_map_left_iff] at hall
      clear * - hall hid
      induction hall with
      | nil => rfl
      | @cons e s l m h _ ih =>
        rw [List.map_cons, parseAreaSource_id h, ih fun s hs => hid s (by simp [hs])]
        obtain ⟨i, hi⟩ := hid e (by simp)
        rw [show e.get aGML_ID = some i from hi, List.filterMap_cons, hi]
        rfl
    have := (List.nodup_map_iff (Option.some_injective _)).2 hsub
    rw [hids]
    exact this
  · intro s hms
    rw [List.forall₂_map_left_iff] at hall
    have hex : ∃ e ∈ sources, parseAreaSource nt [some sid, some nid] e = .ok s := by
      clear * - hall hms
      induction hall with
      | nil => cases hms
      | @cons e t l m h _ ih =>
        rcases List.mem_cons.1 hms with rfl | hms
        · exact ⟨e, by simp, h⟩
        · obtain ⟨e, he, h⟩ := ih hms
          exact ⟨e, by simp [he], h⟩
    obtain ⟨e, he, hp⟩ := hex
    have hp' := hp
    unfold parseAreaSource at hp
    simp only at hp
    obtain ⟨_, -, hp⟩ := bind_ok hp
    obtain ⟨_, -, hp⟩ := bind_ok hp
    obtain ⟨_, -, hp⟩ := bind_ok hp
    obtain ⟨_, -, hp⟩ := bind_ok hp
    obtain ⟨_, -, hp⟩ := bind_ok hp
    obtain ⟨_, -, hp⟩ := bind_ok hp
    obtain ⟨_, -, hp⟩ := bind_ok hp
    obtain ⟨_, -, hp⟩ := bind_ok hp
    obtain ⟨_, -, hp⟩ := bind_ok hp
    cases hp
    exact ⟨rfl, rfl, e, _, hs e he, hin e he, hp'⟩

mutual
theorem reparse_text : ∀ (e e' : Elem), Reparse e e' → ∀ t a x, x ≠ [] → Elem.mk t a (some x) [] ∈ e.nodes → Elem.mk t a (some x) [] ∈ e'.nodes
  | .mk t a x [], e', h, t', a', x', hx, hm => by
    rw [reparse_leaf h]
    simp only [Elem.nodes, Elem.nodesList, List.mem_singleton] at hm ⊢
    cases hm
    rw [blank_ne hx]
  | .mk t a x (c :: cs), e', h, t', a', x', hx, hm => by
    cases h with
    | node _ _ y _ _ c' cs' h1 h2 =>
      simp only [Elem.nodes, Elem.nodesList, List.mem_cons, List.mem_append] at hm ⊢
      rcases hm with hm | hm | hm
      · cases hm
      · exact .inr (.inl (reparse_text c c' h1 t' a' x' hx hm))
      · exact .inr (.inr (reparse_textList cs cs' h2 t' a' x' hx hm))
theorem reparse_textList : ∀ (l l' : List Elem), List.Forall₂ Reparse l l' → ∀ t a x, x ≠ [] → Elem.mk t a (some x) [] ∈ Elem.nodesList l →
    Elem.mk t a (some x) [] ∈ Elem.nodesList l'
  | [], l', h, t', a', x', hx, hm => by rw [forall2_nil h]; exact hm
  | c :: cs, l', h, t', a', x', hx, hm => by
    cases h with
    | cons h1 h2 =>
      simp only [Elem.nodesList, List.mem_append] at hm ⊢
      rcases hm with hm | hm
      · exact .inl (reparse_text c _ h1 t' a' x' hx hm)
      · exact .inr (reparse_textList cs _ h2 t' a' x' hx hm)
end

omit [Zero F] [LE F] [Neg F] [NatCast F] in
/-- The b value of a source is in the document. -/
theorem b_in_document (H : Lawful nt rnd) (ss : List (AreaSource F)) (doc doc' : Elem) (hd : serialize nt ss = .ok doc)
    (hr : Reparse doc doc') (s : AreaSource F) (hs : s ∈ ss) : Elem.mk tB_VALUE [] (some (nt.str s.rate.tgr.bValue)) [] ∈ doc'.nodes := by
  refine reparse_text doc doc' hr _ _ _ (H.str_ne _) ?_
  obtain ⟨s0, rest, nid, sid, body, rfl, -, -, -, -, hb, rfl⟩ := serialize_ok hd
  obtain ⟨e, he, hse⟩ : ∃ e ∈ body, areaSourceElem nt s = .ok e := by
    clear * - hb hs
    generalize s0 :: rest = l at hb hs
    induction hb with
    | nil => cases hs
    | cons h _ ih =>
      rcases List.mem_cons.1 hs with rfl | hs
      · exact ⟨_, by simp, h⟩
      · obtain ⟨e, he, h⟩ := ih hs
        exact ⟨e, by simp [he], h⟩
  have : Elem.mk tB_VALUE [] (some (nt.str s.rate.tgr.bValue)) [] ∈ e.nodes := by
    obtain ⟨-, id, srs, tyG, tyM, -, -, -, -, rfl⟩ := areaSourceElem_ok H hse
    simp [sourceTree, rateTree, tgrTree, Elem.nodes, Elem.nodesList]
  simp only [docTree, Elem.nodes, Elem.nodesList, List.append_nil, List.mem_cons]
  exact .inr (.inr (List.mem_append_right _ ((mem_nodesList _ _).2 ⟨e, he, this⟩)))

/-- Sources read from a valid document, changed in nothing but their activity, b value and magnitudes, are written as a valid document
exactly when no b value is negative. -/
theorem rewritten_valid (H : Lawful nt rnd) (hk : KeepsRanges rnd) (schema : Elem → Bool) (nc : Text → Prop) (doc0 : Elem)
    (hv : Schema.Valid nt.float nc doc0) (inputs finals : List (AreaSource F)) (hin : readDoc nt schema doc0 = .ok inputs)
    (hsame : List.Forall₂ Workflow.Spec.SameBut inputs finals) (doc doc' : Elem) (hd : serialize nt finals = .ok doc) (hr : Reparse doc doc') :
    Schema.Valid nt.float nc doc' ↔ BValuesNonneg nt.float doc' := by
  constructor
  · intro h n hn ht x hx v hv
    have := h.values n hn x hx x (by rw [ht, Schema.numbers, if_neg (by simp)]; simp) v hv
    rw [ht] at this
    simpa [Schema.Range] using this
  intro hb
  have hread := read_valid schema nc doc0 hv inputs hin
  obtain ⟨s0, rest, nid', sid', body, rfl, hn0, hs0, -, -, hbody, -⟩ := serialize_ok hd
  obtain ⟨nid, sid, hnid, hsid, hnodup, hall⟩ := hread
  have hmem : ∀ s ∈ s0 :: rest, ∃ i ∈ inputs, Workflow.Spec.SameBut i s := by
    intro s hs
    clear * - hsame hs
    generalize s0 :: rest = l at hsame hs
    induction hsame with
    | nil => cases hs
    | cons h _ ih =>
      rcases List.mem_cons.1 hs with rfl | hs
      · exact ⟨_, by simp, h⟩
      · obtain ⟨e, he, h⟩ := ih hs
        exact ⟨e, by simp [he], h⟩
  have hwrite : ∀ s ∈ s0 :: rest, Writable s := by
    intro s hs
    clear * - H hbody hs
    generalize s0 :: rest = l at hbody hs
    induction hbody with
    | nil => cases hs
    | cons h _ ih =>
      rcases List.mem_cons.1 hs with rfl | hs
      · exact (areaSourceElem_ok H h).1
      · exact ih hs
  have hids : (s0 :: rest).map AreaSource.areaSourceId = inputs.map AreaSource.areaSourceId := by
    clear * - hsame
    generalize s0 :: rest = l at hsame ⊢
    induction hsame with
    | nil => rfl
    | cons h _ ih => rw [List.map_cons, List.map_cons, ih, h.areaSourceId]
  obtain ⟨i0, hi0, hsb0⟩ := hmem s0 (by simp)
  obtain ⟨k1, k2, -⟩ := hall i0 hi0
  rw [C90_valid_partial H nc s0 rest doc doc' hd hr]
  refine ⟨?_, ?_, ?_, ?_⟩
  · intro s hs
    obtain ⟨i, hi, hsb⟩ := hmem s hs
    obtain ⟨-, -, e, anc, hea, hsub, hp⟩ := hall i hi
    obtain ⟨g1, g2, g3, g4, g5, g6, g7, g8, g9⟩ := read_conforms _ nc hea (fun n hn => hv.attributes n (hsub n hn))
      (fun n hn => hv.values n (hsub n hn)) hp
    obtain ⟨-, -, -, -, ⟨ty, hty, -⟩, ⟨tm, htm, -⟩⟩ := hwrite s hs
    refine ⟨?_, ?_, ⟨ty, ?_, hty⟩, ⟨tm, ?_, htm⟩, ?_, ?_, ?_, ?_, ?_, ?_⟩
    · rw [hsb.tectonicRegion]; exact g1
    · rw [hsb.areaSourceId]; exact g2
    · exact g3 ty (by rw [← hsb.typeTgr]; exact hty)
    · exact g4 tm (by rw [← hsb.depthDist]; exact htm)
    · exact hb _ (b_in_document H _ doc doc' hd hr s hs) rfl _ rfl _ (H.float_str _)
    · rw [hsb.strike]; exact ⟨hk.nonneg _ g5.1, hk.strike _ g5.2⟩
    · rw [hsb.dip]; exact ⟨hk.nonneg _ g6.1, hk.dip _ g6.2⟩
    · rw [hsb.rake]; exact hk.rake _ g7
    · rw [hsb.depthDist]; exact fun d hd => hk.nonneg _ (g8 d hd)
    · rw [hsb.hypocentralDepth]; exact hk.nonneg _ g9
  · intro i hi
    rw [hsb0.nrmlId, k1] at hi
    cases hi; exact hnid
  · intro i hi
    rw [hsb0.sourceModelId, k2] at hi
    cases hi; exact hsid
  · rw [hids, hsb0.nrmlId, hsb0.sourceModelId, k1, k2]
    exact hnodup

end

end Verif.Nrml

namespace Verif.Workflow

open Verif Verif.EqCatalog Verif.Csv Verif.Nrml Verif.Declustering Verif.Recurrence Verif.MaxMag Spec Nrml.Spec

/-- **C137**: a run whose source model conforms to the schema writes a source model that does, exactly when no b value in it is negative. -/
theorem C137_valid_result (x : Ext ℝ) {rnd : ℝ → ℝ} (H : Lawful x.nums rnd) (hk : KeepsRanges rnd) (nc : Text → Prop) (cfg : Config ℝ)
    (fs : Text → Option Content) (pos : Nat) (w' : World ℝ) (path : Text) (doc0 : Elem) (hp : cfg.sourceModelFile = some path)
    (hne : path ≠ []) (hf : fs path = some (.xml doc0)) (hv : Schema.Valid x.nums.float nc doc0)
    (h : main x cfg fs pos = some ⟨none, w'⟩) :
    ∃ doc, w'.fs cfg.resultFile = some (.xml doc) ∧ ∀ doc', Reparse doc doc' →
      (Schema.Valid x.nums.float nc doc' ↔ BValuesNonneg x.nums.float doc') := by
  obtain ⟨inputs, finals, doc, hin, hsame, hdoc, hres⟩ := C88_written x cfg fs pos w' h
  refine ⟨doc, hres, fun doc' hr => ?_⟩
  rcases hin with ⟨path', doc1, -, hp', hf', hread⟩ | ⟨hc, -⟩
  · rw [hp] at hp'
    cases hp'
    have : doc1 = doc0 := by
      rcases hf' with hf' | ⟨t, hf', -⟩
      · rw [hf] at hf'; cases hf'; rfl
      · rw [hf] at hf'; cases hf'
    subst this
    exact rewritten_valid H hk x.schema nc doc1 hv inputs finals hread hsame doc doc' hdoc hr
  · exact absurd ⟨path, hp, hne⟩ hc

/-! ### A run -/

/-- `okSource` over the reals. -/
noncomputable def okSourceR : AreaSource ℝ :=
  { (defaultAreaSource (F := ℝ)) with
    nrmlId := some "n1".toList
    sourceModelId := some "sm1".toList
    areaSourceId := some "src1".toList
    tectonicRegion := some "Volcanic".toList
    rate := { (defaultAreaSource (F := ℝ)).rate with tgr := ⟨4.5, 1.1, 0, 7.5, some "Mw".toList⟩ }
    depthDist := ⟨⟨some "Mw".toList, [6.5]⟩, [5000]⟩ }

theorem okSourceR_written : ∃ doc, serialize (pyNums (K := ℝ)) [okSourceR] = .ok doc := by
  rw [C83_writer_accepts pyNums_lawful]
  have st : ∀ t : Text, xmlOk t = true → Storable t := fun t h => (xmlOk_iff t).1 h
  refine ⟨?_, _, [], rfl, ⟨_, rfl, st _ (by decide)⟩, ⟨_, rfl, st _ (by decide)⟩⟩
  intro s hs
  rw [List.mem_singleton] at hs
  subst hs
  refine ⟨⟨_, rfl, st _ (by decide)⟩, ?_, ?_, ⟨_, rfl, st _ (by decide)⟩, ⟨_, rfl, st _ (by decide)⟩, ⟨_, rfl, st _ (by decide)⟩⟩
  · rintro t ⟨⟩; exact st _ (by decide)
  · rintro t ⟨⟩; exact st _ (by decide)

/-- A source whose values are in their ranges stays so when it is printed and read. -/
theorem conforming_rnd {rnd : ℝ → ℝ} (hk : KeepsRanges rnd) {nc : Text → Prop} {s : AreaSource ℝ} (h : Nrml.Spec.Conforming rnd nc s) :
    Nrml.Spec.Conforming rnd nc (rndSource rnd s) := by
  refine ⟨h.region, h.id, h.rateType, h.depthType, hk.nonneg _ h.b, ⟨hk.nonneg _ h.strike.1, hk.strike _ h.strike.2⟩,
    ⟨hk.nonneg _ h.dip.1, hk.dip _ h.dip.2⟩, hk.rake _ h.rake, ?_, hk.nonneg _ h.hypocentre⟩
  intro d hd
  obtain ⟨d', hd', rfl⟩ := List.mem_map.1 hd
  exact hk.nonneg _ (h.depth d' hd')

theorem okSourceR_conforming : Nrml.Spec.Conforming (Format.rnd12 : ℝ → ℝ) (fun t => t ≠ []) okSourceR := by
  have hk := rnd12_keeps (K := ℝ)
  refine ⟨⟨"Volcanic".toList, by decide, rfl⟩, ⟨"src1".toList, rfl, by decide⟩, ⟨"Mw".toList, by decide, rfl⟩,
    ⟨"Mw".toList, by decide, rfl⟩, hk.nonneg _ ?_, ⟨hk.nonneg _ ?_, hk.strike _ ?_⟩, ⟨hk.nonneg _ ?_, hk.dip _ ?_⟩, hk.rake _ ⟨?_, ?_⟩,
    fun d hd => hk.nonneg _ ?_, hk.nonneg _ ?_⟩
  case refine_8 =>
    simp only [okSourceR, List.mem_singleton] at hd
    subst hd; norm_num
  all_goals norm_num [okSourceR, defaultAreaSource]

/-- Non-vacuity of C137: a run whose source model is valid, and whose result is valid too. -/
example : ∃ fs w' doc0 doc, Schema.Valid (pyNums (K := ℝ)).float (fun t => t ≠ []) doc0 ∧ fs "m.xml".toList = some (.xml doc0) ∧
    main exExt { exConfig (some "m.xml".toList) with applyProcessing := false } fs 0 = some ⟨none, w'⟩ ∧
    w'.fs "result.xml".toList = some (.xml doc) ∧
    ∀ doc', Reparse doc doc' → Schema.Valid (pyNums (K := ℝ)).float (fun t => t ≠ []) doc' := by
  obtain ⟨doc1, hdoc1⟩ := okSourceR_written
  obtain ⟨doc0, hr⟩ := reparse_exists pyNums_lawful _ _ hdoc1
  have hv : Schema.Valid (pyNums (K := ℝ)).float (fun t => t ≠ []) doc0 := by
    rw [C90_valid_partial pyNums_lawful _ okSourceR [] doc1 doc0 hdoc1 hr]
    refine ⟨?_, by decide, by decide, by decide⟩
    simp only [List.mem_singleton, forall_eq]
    exact okSourceR_conforming
  have hread : readDoc (pyNums (K := ℝ)) (fun _ => true) doc0 = .ok [rndSource Format.rnd12 okSourceR] := by
    refine C83_same_list_partial pyNums_lawful _ [okSourceR] doc1 doc0 hdoc1 hr rfl ?_ ?_ ?_
    · simp only [List.mem_singleton, forall_eq]
      exact ⟨by simp [okSourceR, defaultAreaSource], by simp [okSourceR], by simp [okSourceR]⟩
    · simp
    · simp only [List.mem_singleton, forall_eq]
      exact ⟨by simp [okSourceR, defaultAreaSource, mtk], by simp [okSourceR]⟩
  obtain ⟨doc, hdoc, -⟩ := C84_python (fun _ => true) _ _ doc1 doc0 hdoc1 hr hread
  obtain ⟨e, he⟩ := exFile_loaded
  set fs : Text → Option Content := fun p => if p = "catalogue.csv".toList then some (.text (exFile exRow)) else some (.xml doc0) with hfs
  set cfg : Config ℝ := { exConfig (some "m.xml".toList) with applyProcessing := false } with hcfg
  have hcat : fs "catalogue.csv".toList = some (.text (exFile exRow)) := if_pos rfl
  have hxml : fs "m.xml".toList = some (.xml doc0) := if_neg (by decide)
  obtain ⟨rows, my, mm, hrows, hne, h1, h2⟩ : ∃ rows my mm, [e].mapM matrixRow = .ok rows ∧ rows ≠ [] ∧
      Np.npMin (rows.map fun r => r 0) = .ok my ∧ Np.npMin (rows.map fun r => r 5) = .ok mm := by
    obtain ⟨w5, hc, -, -⟩ := C15_accepted_catalogue exExt (exConfig none) ⟨exFs, 0, {}⟩ (exFile exRow) [e] (by simp) exFs_catalogue he
    rcases hc with _ | ⟨_, _, _, w1, _, h1, _ | ⟨_, _, _, w2, _, h2, _ | ⟨_, _, _, w3, _, h3, _ | ⟨_, _, _, w4, _, h4, -⟩⟩⟩⟩
    have := (compulsory_iff exExt (exConfig none) exFs 0 w4).1 (by
        rw [compulsoryJobs, show sourceJob (exConfig none) = .createDefaultSourceModel from if_neg (by rintro ⟨t, h, -⟩; cases h)]
        exact .cons _ _ _ _ _ h1 (.cons _ _ _ _ _ h2 (.cons _ _ _ _ _ h3 (.cons _ _ _ _ _ h4 (.nil _)))))
    obtain ⟨file, es, inputs, rows, my, mm, q1, q2, -, -, q3, q4, q5, q6, -⟩ := this
    have q1' : exFs "catalogue.csv".toList = some (.text file) := q1
    rw [exFs_catalogue] at q1'
    cases q1'
    rw [he] at q2
    cases q2
    exact ⟨rows, my, mm, q3, q4, q5, q6⟩
  obtain ⟨w4, hw4⟩ : ∃ w4, w4 = prepared fs 0 [e] ([rndSource Format.rnd12 okSourceR].map fun a => ({ area := a } : Source ℝ)) rows my mm := ⟨_, rfl⟩
  have hpre := (compulsory_iff exExt cfg fs 0 w4).2 ⟨exFile exRow, [e], [rndSource Format.rnd12 okSourceR], rows, my, mm, hcat, he,
    .inl ⟨"m.xml".toList, doc0, by decide, rfl, .inl hxml, hread⟩, by simp, hrows, hne, h1, h2, hw4⟩
  rw [compulsoryJobs, show sourceJob cfg = .readSourceModel from if_pos ⟨_, rfl, by decide⟩, ← C18_in_order] at hpre
  have hdefs : w4.ctx.smDefinitions = some [{ area := rndSource Format.rnd12 okSourceR }] := by rw [hw4]; rfl
  have hout : writeResult exExt cfg w4 = .ok (w4.write "result.xml".toList (.xml doc)) :=
    writeResult_run rfl rfl hdefs hdoc
  have hself : ∀ (w : World ℝ) (p : Text) (d : Elem), (w.write p (.xml d)).fs p = some (.xml d) := fun w p d => by
    simp [World.write]
  refine ⟨fs, _, doc0, doc, hv, hxml, main_ok.2 ⟨[.readEqCatalog, .readSourceModel, .createCatalogMatrix, .createDefaultValues], [], w4, rfl, rfl, ?_, hout⟩, ?_, ?_⟩
  · unfold start
    rw [hpre]
    rfl
  · exact hself w4 "result.xml".toList doc
  · intro doc' hr'
    rw [C90_valid_partial pyNums_lawful _ (rndSource Format.rnd12 okSourceR) [] doc doc' hdoc hr']
    refine ⟨?_, by decide, by decide, by decide⟩
    simp only [List.mem_singleton, forall_eq]
    exact conforming_rnd rnd12_keeps okSourceR_conforming

end Verif.Workflow
