import Verif.Props.NrmlExamples
import Verif.Props.NumberText
import Verif.Spec.NrmlSchema

/-!
# C89, C90: the reader and the writer against the NRML schema
-/

namespace Verif.Nrml

open Verif Verif.EqCatalog Spec

section
variable {F : Type} {nt : NumText F}

theorem toFloat_ok {t : Text} (h : (nt.float t).isSome) : ∃ x, toFloat nt t = .ok x := by
  obtain ⟨x, hx⟩ := Option.isSome_iff_exists.1 h
  exact ⟨x, by simp [toFloat, hx]⟩

theorem mapM_toFloat_ok (ws : List Text) (h : ∀ w ∈ ws, (nt.float w).isSome) : ∃ xs, ws.mapM (toFloat nt) = .ok xs := by
  induction ws with
  | nil => exact ⟨[], rfl⟩
  | cons w ws ih =>
    simp only [List.mem_cons, forall_eq_or_imp] at h
    obtain ⟨x, hx⟩ := toFloat_ok h.1
    obtain ⟨xs, hxs⟩ := ih h.2
    exact ⟨x :: xs, by rw [List.mapM_cons, hx, hxs]; rfl⟩

/-- Text of an element is not empty. -/
def HasText (e : Elem) : Prop := e.text ≠ none

/-- The first coordinate text below an element has an even number of words. -/
def EvenCoords (e : Elem) : Prop := ∀ p t, e.findDesc tPOS_LIST = some p → p.text = some t → (splitWs t).length % 2 = 0

theorem childFloat_of (e c : Elem) (t : QName) (hf : e.findChild t = some c)
    (hd : Schema.Double (fun w => (nt.float w).isSome) t c) : ∃ x, childFloat nt e t = .ok x := by
  obtain ⟨a, y, rfl, hy⟩ := hd
  obtain ⟨x, hx⟩ := toFloat_ok (nt := nt) hy
  exact ⟨x, by simp [childFloat, hf, need, Elem.text, hx, bind, Except.bind]⟩

theorem rateModel_tgr (e : Elem) (a : List (QName × Text)) (x : Option Text) (m c1 c2 c3 : Elem)
    (he : e = .mk tRUPTURE_RATE_MODEL a x [m, c1, c2, c3]) (hm : Schema.TruncatedGR (fun w => (nt.float w).isSome) m)
    (h1 : Schema.Double (fun w => (nt.float w).isSome) tSTRIKE c1) (h2 : Schema.Double (fun w => (nt.float w).isSome) tDIP c2)
    (h3 : Schema.Double (fun w => (nt.float w).isSome) tRAKE c3) : ∃ r, parseRateModel nt e = .ok r := by
  have hm' : ∃ a x c1 c2 c3 c4, m = .mk tTGR a x [c1, c2, c3, c4] ∧
      Schema.Double (fun w => (nt.float w).isSome) tA_VALUE c1 ∧ Schema.Double (fun w => (nt.float w).isSome) tB_VALUE c2 ∧
      Schema.Double (fun w => (nt.float w).isSome) tMIN_MAGNITUDE c3 ∧
      Schema.Double (fun w => (nt.float w).isSome) tMAX_MAGNITUDE c4 := hm
  obtain ⟨b, y, d1, d2, d3, d4, rfl, k1, k2, k3, k4⟩ := hm'
  have f : ∀ (t : QName) (c : Elem), Schema.Double (fun w => (nt.float w).isSome) t c → c.tag = t := by
    rintro t c ⟨_, _, rfl, -⟩; rfl
  have q1 := f _ _ h1; have q2 := f _ _ h2; have q3 := f _ _ h3
  have p1 := f _ _ k1; have p2 := f _ _ k2; have p3 := f _ _ k3; have p4 := f _ _ k4
  obtain ⟨x1, e1⟩ := childFloat_of (nt := nt) (.mk tTGR b y [d1, d2, d3, d4]) d1 tA_VALUE
    (by simp [Elem.findChild, Elem.children, p1]) k1
  obtain ⟨x2, e2⟩ := childFloat_of (nt := nt) (.mk tTGR b y [d1, d2, d3, d4]) d2 tB_VALUE
    (by simp [Elem.findChild, Elem.children, p1, p2, tA_VALUE, tB_VALUE]) k2
  obtain ⟨x3, e3⟩ := childFloat_of (nt := nt) (.mk tTGR b y [d1, d2, d3, d4]) d3 tMIN_MAGNITUDE
    (by simp [Elem.findChild, Elem.children, p1, p2, p3, tA_VALUE, tB_VALUE, tMIN_MAGNITUDE]) k3
  obtain ⟨x4, e4⟩ := childFloat_of (nt := nt) (.mk tTGR b y [d1, d2, d3, d4]) d4 tMAX_MAGNITUDE
    (by simp [Elem.findChild, Elem.children, p1, p2, p3, p4, tA_VALUE, tB_VALUE, tMIN_MAGNITUDE, tMAX_MAGNITUDE]) k4
  subst he
  have hT : (Elem.mk tTGR b y [d1, d2, d3, d4]).tag = tTGR := rfl
  have fc : ∀ (M : Elem), M.tag = tTGR →
      (Elem.mk tRUPTURE_RATE_MODEL a x [M, c1, c2, c3]).findChild tSTRIKE = some c1 ∧
      (Elem.mk tRUPTURE_RATE_MODEL a x [M, c1, c2, c3]).findChild tDIP = some c2 ∧
      (Elem.mk tRUPTURE_RATE_MODEL a x [M, c1, c2, c3]).findChild tRAKE = some c3 := by
    intro M hM
    simp [Elem.findChild, Elem.children, hM, q1, q2, q3, tTGR, tSTRIKE, tDIP, tRAKE]
  obtain ⟨f1, f2, f3⟩ := fc _ hT
  obtain ⟨x5, e5⟩ := childFloat_of (nt := nt) _ c1 tSTRIKE f1 h1
  obtain ⟨x6, e6⟩ := childFloat_of (nt := nt) _ c2 tDIP f2 h2
  obtain ⟨x7, e7⟩ := childFloat_of (nt := nt) _ c3 tRAKE f3 h3
  refine ⟨⟨⟨x1, x2, x3, x4, (Elem.mk tTGR b y [d1, d2, d3, d4]).get aTYPE⟩, x5, x6, x7⟩, ?_⟩
  have hfind : (Elem.mk tRUPTURE_RATE_MODEL a x [.mk tTGR b y [d1, d2, d3, d4], c1, c2, c3]).findChild tTGR =
      some (.mk tTGR b y [d1, d2, d3, d4]) := by
    simp [Elem.findChild, Elem.children, Elem.tag]
  simp [parseRateModel, hfind, need, e1, e2, e3, e4, e5, e6, e7, bind, Except.bind]

theorem find?_skip {α : Type} (p : α → Bool) (l m : List α) (h : ∀ a ∈ l, p a = false) : (l ++ m).find? p = m.find? p := by
  induction l with
  | nil => rfl
  | cons a l ih =>
    simp only [List.mem_cons, forall_eq_or_imp] at h
    rw [List.cons_append, List.find?_cons, h.1]
    exact ih h.2

/-- C89, what holds: a schema conforming area source with a name, non-empty number lists, an even number of coordinates and a
truncated Gutenberg-Richter distribution in its first rate model is read. -/
theorem C89_readable_partial (e : Elem) (smId nrmlId : Option Text) (anc : Anc)
    (a : List (QName × Text)) (x : Option Text) (n : Elem) (names : List Elem) (region boundary rate : Elem) (rates : List Elem)
    (depth hypo : Elem)
    (he : e = .mk tAREA_SOURCE a x ((n :: names) ++ [region, boundary] ++ (rate :: rates) ++ [depth, hypo]))
    (hn : ∀ m ∈ n :: names, m.tag = tGML_NAME) (hreg : region.tag = tTECTONIC_REGION)
    (hb : Schema.Boundary (fun w => (nt.float w).isSome) boundary) (heven : EvenCoords boundary)
    (hbt : ∀ p, boundary.findDesc tPOS_LIST = some p → HasText p)
    (hr : ∀ r ∈ rate :: rates, Schema.RateModel (fun w => (nt.float w).isSome) r)
    (htgr : ∃ m, rate.findChild tTGR = some m)
    (hd : Schema.DepthDistribution (fun w => (nt.float w).isSome) depth)
    (hdt : ∀ c ∈ depth.children, HasText c)
    (hh : Schema.Double (fun w => (nt.float w).isSome) tHYPOCENTRAL_DEPTH hypo) :
    ∃ s : AreaSource F, parseAreaSource nt (smId :: nrmlId :: anc) e = .ok s := by
  subst he
  have fn : ∀ t : QName, tGML_NAME ≠ t → ∀ m : List Elem,
      ((n :: names) ++ m).find? (fun c => decide (c.tag = t)) = m.find? (fun c => decide (c.tag = t)) := by
    intro t ht m
    apply find?_skip
    intro c hc
    simp [hn c hc, ht]
  have tb : boundary.tag = tAREA_BOUNDARY := by
    obtain ⟨a, x, a1, x1, a2, x2, a3, x3, p, rfl, -⟩ := hb; rfl
  have tr : ∀ r ∈ rate :: rates, r.tag = tRUPTURE_RATE_MODEL := by
    intro r hm
    obtain ⟨a, x, m, c1, c2, c3, rfl, -⟩ := hr r hm; rfl
  have td : depth.tag = tRUPTURE_DEPTH_DISTRIB := by
    obtain ⟨a, x, m, d, rfl, -⟩ := hd; rfl
  have th : hypo.tag = tHYPOCENTRAL_DEPTH := by
    obtain ⟨a, x, rfl, -⟩ := hh; rfl
  have fr : ∀ t : QName, tRUPTURE_RATE_MODEL ≠ t → ∀ m : List Elem,
      ((rate :: rates) ++ m).find? (fun c => decide (c.tag = t)) = m.find? (fun c => decide (c.tag = t)) := by
    intro t ht m
    apply find?_skip
    intro c hc
    simp [tr c hc, ht]
  set E := Elem.mk tAREA_SOURCE a x ((n :: names) ++ [region, boundary] ++ (rate :: rates) ++ [depth, hypo]) with hE
  have g1 : E.findChild tGML_NAME = some n := by
    simp [hE, Elem.findChild, Elem.children, hn n (by simp)]
  have g2 : E.findChild tTECTONIC_REGION = some region := by
    simp only [hE, Elem.findChild, Elem.children, List.append_assoc]
    rw [fn _ (by simp [tGML_NAME, tTECTONIC_REGION])]
    simp [hreg]
  have g3 : E.findChild tAREA_BOUNDARY = some boundary := by
    simp only [hE, Elem.findChild, Elem.children, List.append_assoc]
    rw [fn _ (by simp [tGML_NAME, tAREA_BOUNDARY])]
    simp [hreg, tb, tTECTONIC_REGION, tAREA_BOUNDARY]
  have g4 : E.findChild tRUPTURE_RATE_MODEL = some rate := by
    simp only [hE, Elem.findChild, Elem.children, List.append_assoc]
    rw [fn _ (by simp [tGML_NAME, tRUPTURE_RATE_MODEL])]
    simp [hreg, tb, tr rate (by simp), tTECTONIC_REGION, tAREA_BOUNDARY, tRUPTURE_RATE_MODEL]
  have skip2 : ∀ t : QName, tTECTONIC_REGION ≠ t → tAREA_BOUNDARY ≠ t → ∀ m : List Elem,
      ([region, boundary] ++ m).find? (fun c => decide (c.tag = t)) = m.find? (fun c => decide (c.tag = t)) := by
    intro t h1 h2 m
    apply find?_skip
    intro c hc
    simp only [List.mem_cons, List.not_mem_nil, or_false] at hc
    rcases hc with rfl | rfl
    · simp [hreg, h1]
    · simp [tb, h2]
  have g5 : E.findChild tRUPTURE_DEPTH_DISTRIB = some depth := by
    simp only [hE, Elem.findChild, Elem.children, List.append_assoc]
    rw [fn _ (by simp [tGML_NAME, tRUPTURE_DEPTH_DISTRIB]), skip2 _ (by simp [tTECTONIC_REGION, tRUPTURE_DEPTH_DISTRIB])
      (by simp [tAREA_BOUNDARY, tRUPTURE_DEPTH_DISTRIB]), fr _ (by simp [tRUPTURE_RATE_MODEL, tRUPTURE_DEPTH_DISTRIB])]
    simp [td]
  have g6 : E.findChild tHYPOCENTRAL_DEPTH = some hypo := by
    simp only [hE, Elem.findChild, Elem.children, List.append_assoc]
    rw [fn _ (by simp [tGML_NAME, tHYPOCENTRAL_DEPTH]), skip2 _ (by simp [tTECTONIC_REGION, tHYPOCENTRAL_DEPTH])
      (by simp [tAREA_BOUNDARY, tHYPOCENTRAL_DEPTH]), fr _ (by simp [tRUPTURE_RATE_MODEL, tHYPOCENTRAL_DEPTH])]
    simp [td, th, tRUPTURE_DEPTH_DISTRIB, tHYPOCENTRAL_DEPTH]
  have pb : ∃ b, parseAreaBoundary nt boundary = .ok b := by
    obtain ⟨a, x, a1, x1, a2, x2, a3, x3, p, rfl, hp⟩ := hb
    obtain ⟨pa, px, rfl, hpx⟩ := hp
    have fp : (Elem.mk tAREA_BOUNDARY a x [.mk tPOLYGON a1 x1 [.mk tEXTERIOR a2 x2 [.mk tLINEAR_RING a3 x3
        [.mk tPOS_LIST pa px []]]]]).findDesc tPOS_LIST = some (.mk tPOS_LIST pa px []) := by
      simp [Elem.findDesc, Elem.children, Elem.nodesList, Elem.nodes, Elem.tag, tPOLYGON, tEXTERIOR, tLINEAR_RING, tPOS_LIST]
    have fl : (Elem.mk tAREA_BOUNDARY a x [.mk tPOLYGON a1 x1 [.mk tEXTERIOR a2 x2 [.mk tLINEAR_RING a3 x3
        [.mk tPOS_LIST pa px []]]]]).findDesc tLINEAR_RING = some (.mk tLINEAR_RING a3 x3 [.mk tPOS_LIST pa px []]) := by
      simp [Elem.findDesc, Elem.children, Elem.nodesList, Elem.nodes, Elem.tag, tPOLYGON, tEXTERIOR, tLINEAR_RING, tPOS_LIST]
    have ht := hbt _ fp
    rcases hpx with rfl | ⟨y, rfl, hy⟩
    · exact absurd rfl ht
    · exact C86_even_accepted _ _ _ y fl fp rfl (heven _ y fp rfl) hy
  obtain ⟨b, hbok⟩ := pb
  have prm : ∃ r, parseRateModel nt rate = .ok r := by
    obtain ⟨a, x, m, c1, c2, c3, hrate, hm, h1, h2, h3⟩ := hr rate (by simp)
    refine rateModel_tgr rate a x m c1 c2 c3 hrate ?_ h1 h2 h3
    rcases hm with hm | hm
    · exact hm
    · exfalso
      obtain ⟨m', hm'⟩ := htgr
      obtain ⟨b, y, rfl, -⟩ := hm
      obtain ⟨_, _, rfl, -⟩ := h1
      obtain ⟨_, _, rfl, -⟩ := h2
      obtain ⟨_, _, rfl, -⟩ := h3
      subst hrate
      simp [Elem.findChild, Elem.children, Elem.tag, Schema.tINCREMENTAL, tTGR] at hm'
  obtain ⟨r, hrok⟩ := prm
  have pdd : ∃ d, parseDepthDistrib nt depth = .ok d := by
    have hd0 : ∃ a x m d, depth = .mk tRUPTURE_DEPTH_DISTRIB a x [m, d] ∧
        Schema.Doubles (fun w => (nt.float w).isSome) tMAGNITUDE m ∧ Schema.Doubles (fun w => (nt.float w).isSome) tDEPTH d := hd
    obtain ⟨a, x, m, d, rfl, hm, hd'⟩ := hd0
    obtain ⟨ma, mx, rfl, hmx⟩ := hm
    obtain ⟨da, dx, rfl, hdx⟩ := hd'
    have h1 := hdt (.mk tMAGNITUDE ma mx []) (by simp [Elem.children])
    have h2 := hdt (.mk tDEPTH da dx []) (by simp [Elem.children])
    rcases hmx with rfl | ⟨y, rfl, hy⟩
    · exact absurd rfl h1
    rcases hdx with rfl | ⟨z, rfl, hz⟩
    · exact absurd rfl h2
    obtain ⟨ys, hys⟩ := mapM_toFloat_ok (nt := nt) _ hy
    obtain ⟨zs, hzs⟩ := mapM_toFloat_ok (nt := nt) _ hz
    exact ⟨⟨⟨(Elem.mk tMAGNITUDE ma (some y) []).get aTYPE, ys⟩, zs⟩, by
      simp [parseDepthDistrib, Elem.findChild, Elem.children, Elem.tag, need, words, Elem.text, hys, hzs, tMAGNITUDE, tDEPTH,
        bind, Except.bind]⟩
  obtain ⟨d, hdok⟩ := pdd
  obtain ⟨h, hhok⟩ := childFloat_of (nt := nt) E hypo tHYPOCENTRAL_DEPTH g6 hh
  refine ⟨⟨nrmlId, smId, E.get aGML_ID, n.text, region.text, b, r, d, h⟩, ?_⟩
  simp [parseAreaSource, g1, g2, g3, g4, g5, need, hbok, hrok, hdok, hhok, bind, Except.bind]

/-- Further rate models are never looked at: only the first one matters. -/
theorem C89_only_first_rate_model (smId nrmlId : Option Text) (anc : Anc) (a : List (QName × Text)) (x : Option Text)
    (pre post : List Elem) (rate : Elem) (rates : List Elem) (hrate : rate.tag = tRUPTURE_RATE_MODEL)
    (hrates : ∀ r ∈ rates, r.tag = tRUPTURE_RATE_MODEL) :
    parseAreaSource nt (smId :: nrmlId :: anc) (.mk tAREA_SOURCE a x (pre ++ [rate] ++ rates ++ post)) =
      parseAreaSource nt (smId :: nrmlId :: anc) (.mk tAREA_SOURCE a x (pre ++ [rate] ++ post)) := by
  have key : ∀ t, (Elem.mk tAREA_SOURCE a x (pre ++ [rate] ++ rates ++ post)).findChild t =
      (Elem.mk tAREA_SOURCE a x (pre ++ [rate] ++ post)).findChild t := by
    intro t
    simp only [Elem.findChild, Elem.children]
    rw [List.append_assoc (pre ++ [rate])]
    by_cases ht : tRUPTURE_RATE_MODEL = t
    · subst ht
      simp [hrate]
    · rw [List.find?_append, find?_skip _ rates post (by intro c hc; simp [hrates c hc, ht]),
        ← List.find?_append]
  have k2 : ∀ t, (Elem.mk tAREA_SOURCE a x (pre ++ [rate] ++ rates ++ post)).get t =
      (Elem.mk tAREA_SOURCE a x (pre ++ [rate] ++ post)).get t := fun _ => rfl
  simp only [parseAreaSource, childFloat, key, k2]

end

/-! ### Counterexamples -/

/-- An area source whose distribution is given by evenly spaced rates. -/
def incrementalSource : Elem :=
  .mk tAREA_SOURCE [(aGML_ID, "src1".toList)] none [
    .mk tGML_NAME [] (some "Quito".toList) [],
    .mk tTECTONIC_REGION [] (some "Volcanic".toList) [],
    .mk tAREA_BOUNDARY [] none [.mk tPOLYGON [] none [.mk tEXTERIOR [] none [.mk tLINEAR_RING [] none
      [.mk tPOS_LIST [] (some "0.0 0.0 1.0 0.0 1.0 1.0".toList) []]]]],
    .mk tRUPTURE_RATE_MODEL [] none [.mk Schema.tINCREMENTAL [] (some "0.01 0.02".toList) [],
      .mk tSTRIKE [] (some "0.0".toList) [], .mk tDIP [] (some "90.0".toList) [], .mk tRAKE [] (some "0.0".toList) []],
    .mk tRUPTURE_DEPTH_DISTRIB [] none [.mk tMAGNITUDE [] (some "6.0".toList) [], .mk tDEPTH [] (some "5000.0".toList) []],
    .mk tHYPOCENTRAL_DEPTH [] (some "5000.0".toList) []]

/-- Texts of decimal numbers. -/
def isDouble (w : Text) : Prop := ∃ v : ℚ, Format.Spec.Literal w v

theorem isDouble_iff (w : Text) : isDouble w ↔ (Format.pyFloat (K := ℚ) w).isSome = true := by
  simp only [isDouble, ← Format.C140_read, Option.isSome_iff_exists]

instance (w : Text) : Decidable (isDouble w) := decidable_of_iff _ (isDouble_iff w).symm

/-- **C140**: the words that the reader takes for numbers are the words that the schema takes for numbers. -/
theorem C140_schema {K : Type} [Field K] [LinearOrder K] [IsStrictOrderedRing K] [FloorRing K] (w : Text) :
    ((pyNums (K := K)).float w).isSome = true ↔ isDouble w := by
  rw [Option.isSome_iff_exists, isDouble]
  constructor
  · rintro ⟨v, hv⟩
    obtain ⟨pre, sgn, whole, point, frac, ex, post, s, e, h1, h2, h3, h4, h5, h6, h7, h8, h9, -⟩ := (Format.C140_read w v).1 hv
    exact ⟨_, pre, sgn, whole, point, frac, ex, post, s, e, h1, h2, h3, h4, h5, h6, h7, h8, h9, rfl⟩
  · rintro ⟨v, pre, sgn, whole, point, frac, ex, post, s, e, h1, h2, h3, h4, h5, h6, h7, h8, h9, -⟩
    exact ⟨_, (Format.C140_read w _).2 ⟨pre, sgn, whole, point, frac, ex, post, s, e, h1, h2, h3, h4, h5, h6, h7, h8, h9, rfl⟩⟩

theorem incremental_conforms : Schema.AreaSource isDouble incrementalSource := by
  refine ⟨_, _, [_], _, _, [_], _, _, rfl, ?_, ⟨_, _, rfl, ?_⟩, ?_, ?_, ?_, ?_, ?_⟩
  · simp only [List.mem_singleton, forall_eq]
    exact ⟨_, _, rfl⟩
  · decide
  · exact ⟨_, _, _, _, _, _, _, _, _, rfl, _, _, rfl, .inr ⟨_, rfl, by decide⟩⟩
  · simp
  · simp only [List.mem_singleton, forall_eq]
    exact ⟨_, _, _, _, _, _, rfl, .inr ⟨_, _, rfl, .inr ⟨_, rfl, by decide⟩⟩, ⟨_, _, rfl, by decide⟩, ⟨_, _, rfl, by decide⟩,
      ⟨_, _, rfl, by decide⟩⟩
  · exact ⟨_, _, _, _, rfl, ⟨_, _, rfl, .inr ⟨_, rfl, by decide⟩⟩, ⟨_, _, rfl, .inr ⟨_, rfl, by decide⟩⟩⟩
  · exact ⟨_, _, rfl, by decide⟩

/-- C89 as stated is false: an area source with an incremental distribution conforms to the schema, but the reader fails on it with
`AttributeError`. -/
theorem C89_fails : ¬ ∀ (e : Elem) (smId nrmlId : Option Text), Schema.AreaSource isDouble e →
    ∃ s : AreaSource ℚ, parseAreaSource pyNums [smId, nrmlId] e = .ok s := by
  intro h
  obtain ⟨s, hs⟩ := h incrementalSource none none incremental_conforms
  have : (parseAreaSource (pyNums (K := ℚ)) [none, none] incrementalSource).toOption.isNone = true := by decide
  rw [hs] at this
  cases this

section
variable {F : Type} {nt : NumText F} {rnd : F → F}

theorem double_str (H : Lawful nt rnd) {t : QName} {x : F} {e : Elem} (h : Reparse (.mk t [] (some (nt.str x)) []) e) :
    Schema.Double (fun w => (nt.float w).isSome) t e := by
  rw [reparse_leaf h, blank_str H]
  exact ⟨_, _, rfl, by simp [H.float_str]⟩

theorem doubles_join (H : Lawful nt rnd) {t : QName} {a : List (QName × Text)} {xs : List F} {e : Elem}
    (h : Reparse (.mk t a (some (joinNums nt xs)) []) e) : Schema.Doubles (fun w => (nt.float w).isSome) t e := by
  rw [reparse_leaf h]
  refine ⟨_, _, rfl, ?_⟩
  by_cases hx : joinNums nt xs = []
  · left; simp [hx, blankText]
  · right
    refine ⟨_, blank_ne hx, ?_⟩
    rw [joinNums_words H]
    simp [H.float_str]

theorem regions_nonempty : ∀ r ∈ Schema.regions, r ≠ [] := by decide

/-- C90, what holds: the element written for a source conforms exactly when its tectonic region is one of the schema. -/
theorem C90_conforms_partial (H : Lawful nt rnd) (s : AreaSource F) (e e' : Elem) (he : areaSourceElem nt s = .ok e)
    (hr : Reparse e e') :
    Schema.AreaSource (fun w => (nt.float w).isSome) e' ↔ ∃ r ∈ Schema.regions, s.tectonicRegion = some r := by
  obtain ⟨-, id, srs, tyG, tyM, -, -, -, -, rfl⟩ := areaSourceElem_ok H he
  obtain ⟨_, c1, cs1, rfl, k1, hn1⟩ := reparse_node hr
  obtain ⟨c2, cs2, rfl, k2, hn2⟩ := forall2_cons hn1
  obtain ⟨c3, cs3, rfl, k3, hn3⟩ := forall2_cons hn2
  obtain ⟨c4, cs4, rfl, k4, hn4⟩ := forall2_cons hn3
  obtain ⟨c5, cs5, rfl, k5, hn5⟩ := forall2_cons hn4
  obtain ⟨c6, cs6, rfl, k6, hn6⟩ := forall2_cons hn5
  obtain rfl := forall2_nil hn6
  have e1 := reparse_leaf k1
  have e2 := reparse_leaf k2
  constructor
  · rintro ⟨a, x, names, region, boundary, rates, depth, hypo, heq, hn, ⟨b, r, rfl, hr'⟩, -⟩
    have hlist : c1 :: c2 :: [c3, c4, c5, c6] =
        names ++ [Elem.mk tTECTONIC_REGION b (some r) [], boundary] ++ rates ++ [depth, hypo] := by
      have := congrArg Elem.children heq
      exact this
    have hne : tTECTONIC_REGION ≠ tGML_NAME := by simp [tTECTONIC_REGION, tGML_NAME]
    subst e1 e2
    match names with
    | [] =>
      simp only [List.nil_append, List.cons_append, List.cons.injEq] at hlist
      have := congrArg Elem.tag hlist.1
      exact absurd (by simpa [Elem.tag] using this.symm) hne
    | [n] =>
      simp only [List.nil_append, List.cons_append, List.cons.injEq] at hlist
      have := congrArg Elem.text hlist.2.1
      simp only [Elem.text] at this
      refine ⟨r, hr', ?_⟩
      cases hsr : s.tectonicRegion with
      | none => rw [hsr] at this; simp [blankText] at this
      | some q =>
        rw [hsr] at this
        cases q with
        | nil => simp [blankText] at this
        | cons c q => simpa [blankText] using this
    | n :: m :: names =>
      simp only [List.cons_append, List.cons.injEq] at hlist
      have := hn m (by simp)
      rw [← hlist.2.1] at this
      obtain ⟨_, _, hm⟩ := this
      have this := congrArg Elem.tag hm
      exact absurd this hne
  · rintro ⟨r, hrm, hsr⟩
    refine ⟨_, _, [c1], c2, c3, [c4], c5, c6, rfl, ?_, ⟨[], r, ?_, hrm⟩, ?_, by simp, ?_, ?_, double_str H k6⟩
    · rw [e1]; simp only [List.mem_singleton, forall_eq]; exact ⟨_, _, rfl⟩
    · rw [e2, hsr, blank_ne (regions_nonempty r hrm)]; rfl
    · obtain ⟨_, d1, ds1, rfl, h1, hm1⟩ := reparse_node k3
      obtain ⟨_, d2, ds2, rfl, h2, hm2⟩ := reparse_node h1
      obtain ⟨_, d3, ds3, rfl, h3, hm3⟩ := reparse_node h2
      obtain ⟨_, d4, ds4, rfl, h4, hm4⟩ := reparse_node h3
      obtain rfl := forall2_nil hm1
      obtain rfl := forall2_nil hm2
      obtain rfl := forall2_nil hm3
      obtain rfl := forall2_nil hm4
      exact ⟨_, _, _, _, _, _, _, _, d4, rfl, doubles_join H h4⟩
    · simp only [List.mem_singleton, forall_eq]
      obtain ⟨_, m, ms, rfl, h1, hm1⟩ := reparse_node k4
      obtain ⟨_, d1, ds1, rfl, j1, jn1⟩ := reparse_node h1
      obtain ⟨d2, ds2, rfl, j2, jn2⟩ := forall2_cons jn1
      obtain ⟨d3, ds3, rfl, j3, jn3⟩ := forall2_cons jn2
      obtain ⟨d4, ds4, rfl, j4, jn4⟩ := forall2_cons jn3
      obtain ⟨b2, bs2, rfl, h2, hm2⟩ := forall2_cons hm1
      obtain ⟨b3, bs3, rfl, h3, hm3⟩ := forall2_cons hm2
      obtain ⟨b4, bs4, rfl, h4, hm4⟩ := forall2_cons hm3
      obtain rfl := forall2_nil hm4
      obtain rfl := forall2_nil jn4
      exact ⟨_, _, _, _, _, _, rfl, .inl ⟨_, _, _, _, _, _, rfl, double_str H j1, double_str H j2, double_str H j3,
        double_str H j4⟩, double_str H h2, double_str H h3, double_str H h4⟩
    · obtain ⟨_, m, ms, rfl, h1, hm1⟩ := reparse_node k5
      obtain ⟨d, ds, rfl, h2, hm2⟩ := forall2_cons hm1
      obtain rfl := forall2_nil hm2
      exact ⟨_, _, _, _, rfl, doubles_join H h1, doubles_join H h2⟩

/-- C90, what holds for the whole document: it conforms exactly when the tectonic region of every source is one of the schema. -/
theorem C90_document_partial (H : Lawful nt rnd) (ss : List (AreaSource F)) (doc doc' : Elem) (hd : serialize nt ss = .ok doc)
    (hr : Reparse doc doc') :
    Schema.Document (fun w => (nt.float w).isSome) doc' ↔ ∀ s ∈ ss, ∃ r ∈ Schema.regions, s.tectonicRegion = some r := by
  obtain ⟨s0, rest, nid, sid, body, rfl, -, -, -, -, hb, rfl⟩ := serialize_ok hd
  obtain ⟨x, m, n, rfl, km, hn⟩ := reparse_node hr
  obtain rfl := forall2_nil hn
  obtain ⟨x1, c, src, rfl, kc, hs⟩ := reparse_node km
  obtain rfl := reparse_leaf kc
  have key : ∀ {ss : List (AreaSource F)} {body src : List Elem}, List.Forall₂ (fun s e => areaSourceElem nt s = .ok e) ss body →
      List.Forall₂ Reparse body src →
      ((∀ e ∈ src, Schema.AreaSource (fun w => (nt.float w).isSome) e) ↔ ∀ s ∈ ss, ∃ r ∈ Schema.regions, s.tectonicRegion = some r) := by
    intro ss body src hb
    induction hb generalizing src with
    | nil => intro h; cases h; simp
    | cons he _ ih =>
      intro h
      cases h with
      | cons h1 h2 => simp only [List.forall_mem_cons, ih h2, C90_conforms_partial H _ _ _ he h1]
  have hne : src ≠ [] := by
    cases hb with
    | cons _ _ => cases hs with
      | cons _ _ => simp
  rw [← key hb hs]
  constructor
  · rintro ⟨a, y, a1, y1, configs, sources, heq, hc, -, hall⟩
    simp only [Elem.mk.injEq, List.cons.injEq, and_true] at heq
    obtain ⟨-, -, -, -, -, -, hl⟩ := heq
    rcases hc with rfl | ⟨a2, x2, rfl⟩
    · rw [List.nil_append] at hl
      subst hl
      intro e he
      exact hall e (List.mem_cons_of_mem _ he)
    · simp only [List.cons_append, List.nil_append, List.cons.injEq] at hl
      obtain ⟨-, rfl⟩ := hl
      exact hall
  · intro hall
    exact ⟨_, _, _, _, [_], src, rfl, .inr ⟨_, _, rfl⟩, hne, hall⟩

/-- C90 is false: whatever was computed for the default source (create_default_source_model, jobs.py:94-104), the element written for
it does not conform, because `"MTK"` is none of the regions of the schema. -/
theorem C90_default_not_valid [PyNum F] (H : Lawful nt rnd) (s : AreaSource F)
    (hs : s.tectonicRegion = (defaultAreaSource (F := F)).tectonicRegion) (e e' : Elem) (he : areaSourceElem nt s = .ok e)
    (hr : Reparse e e') : ¬ Schema.AreaSource (fun w => (nt.float w).isSome) e' := by
  rw [C90_conforms_partial H s e e' he hr, hs]
  have : ∀ r ∈ Schema.regions, (some mtk : Option Text) ≠ some r := by decide
  rintro ⟨r, hr, h⟩
  exact this r hr h

end

/-- A document of two sources of the schema's regions is written, so the document statement is not about nothing. -/
example : ∃ doc, serialize (pyNums (K := ℚ)) [{ (defaultAreaSource (F := ℚ)) with tectonicRegion := some "Volcanic".toList },
    { (defaultAreaSource (F := ℚ)) with tectonicRegion := some "Active Shallow Crust".toList }] = .ok doc := by
  have h : ∀ (x : Except PyErr Elem), x.toOption.isSome → ∃ d, x = .ok d := by intro x hx; cases x with | ok d => exact ⟨d, rfl⟩ | error _ => simp [Except.toOption] at hx
  exact h _ (by decide +kernel)

/-- The default source is written, so the negative statement is about an actual document. -/
example : ∃ e, areaSourceElem (pyNums (K := ℚ)) defaultAreaSource = .ok e := by
  apply areaSourceElem_of pyNums_lawful
  refine ⟨⟨_, rfl, ?_⟩, ?_, ?_, ⟨_, rfl, ?_⟩, ⟨_, rfl, ?_⟩, ⟨_, rfl, ?_⟩⟩ <;> first
    | (rw [← xmlOk_iff]; decide)
    | (rintro t ⟨⟩; rw [← xmlOk_iff]; decide)

/-- A source with a region of the schema. -/
example : ∃ r ∈ Schema.regions, quito.tectonicRegion = some r := ⟨_, by decide, rfl⟩

end Verif.Nrml
