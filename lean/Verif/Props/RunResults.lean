import Verif.Props.Processing
import Verif.Props.NrmlExamples

/-!
# C24, C25, C88: sources of a run
-/

namespace Verif.Workflow

open Verif Verif.EqCatalog Verif.Csv Verif.Nrml Verif.Declustering Verif.Recurrence Verif.MaxMag Spec Nrml.Spec

section
variable {F : Type} [PyMath F]

/-! ### C25 -/

theorem readDoc_no_sources (nt : NumText F) (schema : Elem → Bool) (doc : Elem) (hv : schema doc = true) (h : areaSources doc.nodes = []) :
    readDoc nt schema doc = .ok [] := by
  have hn : NotNested doc := by
    intro n hn ht
    have : n ∈ areaSources doc.nodes := by simp [areaSources, hn, ht]
    rw [h] at this
    cases this
  rw [readDoc_eq schema doc hv hn]
  have : occ [] doc = [] := by
    have := occ_snd [] doc
    rw [h] at this
    exact List.map_eq_nil_iff.1 this
  rw [this]
  rfl

/-- **C25 fails** for every document without area sources: reading it as the source model of a run raises `TypeError`. -/
theorem C25_no_sources_raises (x : Ext F) (cfg : Config F) (w : World F) (path : Text) (doc : Elem) (hp : cfg.sourceModelFile = some path)
    (hf : w.fs path = some (.xml doc)) (hv : x.schema doc = true) (h : areaSources doc.nodes = []) (h0 : w.ctx.smDefinitions = none) :
    readSourceModelJob x cfg w = .error .typeError := by
  unfold readSourceModelJob
  simp only [hp, Option.getD_some, document, hf, bind, Except.bind, readDoc_no_sources x.nums x.schema doc hv h, List.isEmpty_nil, if_true,
    h0, notNone]

/-- **C25**, the part that holds: the reader itself delivers the empty list. -/
theorem C25_reader_partial (nt : NumText F) (schema : Elem → Bool) (doc : Elem) (hv : schema doc = true) (h : areaSources doc.nodes = []) :
    readDoc nt schema doc = .ok [] := readDoc_no_sources nt schema doc hv h

/-- The document tests/data/simple_point_source_model.xml, whose only source is a point source (line breaks between elements left out). -/
def pointModel : Elem :=
  let qml : Ns := .other "http://quakeml.org/xmlns/quakeml/1.1"
  let leaf (n : QName) (t : String) : Elem := .mk n [] (some t.toList) []
  let value (n : QName) (t : String) : Elem := .mk n [] none [leaf ⟨qml, "value"⟩ t]
  .mk tROOT [(aGML_ID, "n1".toList)] none [.mk tSOURCE_MODEL [(aGML_ID, "sm1".toList)] none [.mk tCONFIG [] none [],
    .mk ⟨.nrml, "pointSource"⟩ [(aGML_ID, "src04".toList)] none [
      leaf tGML_NAME "point",
      leaf tTECTONIC_REGION "Active Shallow Crust",
      .mk ⟨.nrml, "location"⟩ [] none [.mk ⟨.gml, "Point"⟩ [(aSRS_NAME, "epsg:4326".toList)] none [leaf ⟨.gml, "pos"⟩ "-122.0 38.0"]],
      .mk tRUPTURE_RATE_MODEL [] none [
        .mk tTGR [(aTYPE, "ML".toList)] none [leaf tA_VALUE "5.0", leaf tB_VALUE "0.8", leaf tMIN_MAGNITUDE "5.0", leaf tMAX_MAGNITUDE "7.0"],
        .mk ⟨.nrml, "focalMechanism"⟩ [(⟨.none, "publicID"⟩, "smi:local/1".toList)] none [.mk ⟨qml, "nodalPlanes"⟩ [] none [
          .mk ⟨qml, "nodalPlane1"⟩ [] none [value ⟨qml, "strike"⟩ "0.0", value ⟨qml, "dip"⟩ "90.0", value ⟨qml, "rake"⟩ "0.0"]]]],
      .mk tRUPTURE_DEPTH_DISTRIB [] none [.mk tMAGNITUDE [(aTYPE, "ML".toList)] (some "6.0 6.5 7.0".toList) [], leaf tDEPTH "5.0 3.0 0.0"],
      leaf tHYPOCENTRAL_DEPTH "5.0"]]]

theorem pointModel_no_sources : areaSources pointModel.nodes = [] := by
  simp [pointModel, Elem.nodes, Elem.nodesList, areaSources, Elem.tag, tROOT, tSOURCE_MODEL, tCONFIG, tAREA_SOURCE, tGML_NAME, tTECTONIC_REGION,
    tRUPTURE_RATE_MODEL, tTGR, tA_VALUE, tB_VALUE, tMIN_MAGNITUDE, tMAX_MAGNITUDE, tRUPTURE_DEPTH_DISTRIB, tMAGNITUDE, tDEPTH, tHYPOCENTRAL_DEPTH]

/-- Statement of C25. -/
def Spec.EmptyModelLoads (F : Type) [PyMath F] : Prop :=
  ∀ (x : Ext F) (cfg : Config F) (w : World F) (path : Text) (doc : Elem), cfg.sourceModelFile = some path → w.fs path = some (.xml doc) →
    x.schema doc = true → areaSources doc.nodes = [] → w.ctx.smDefinitions = none →
      ∃ w', readSourceModelJob x cfg w = .ok w' ∧ w'.ctx.smDefinitions = some []

/-! ### C24 -/

/-- No event of the working catalogue lies in the (valid) polygon of the source. -/
def EmptyZone (x : Ext F) (working : Matrix F) (s : Source F) : Prop :=
  x.polygonBuilt s.area.boundary.posList = true ∧ x.polygonValid s.area.boundary.posList = true ∧
    ∀ r ∈ working.rows, x.contains s.area.boundary.posList (r 3) (r 4) = false

theorem empty_zone_filter (x : Ext F) (cfg : Config F) (hs : Configured cfg.sourceModelFile) (working : Matrix F) (s : Source F)
    (h : EmptyZone x working s) : chosenFilter x cfg s working = .ok ⟨[], true⟩ := by
  rw [← truthy_iff] at hs
  obtain ⟨h1, h2, h3⟩ := h
  have : working.rows.filter (fun r => x.contains s.area.boundary.posList (r 3) (r 4)) = [] := by
    rw [List.filter_eq_nil_iff]
    intro r hr
    simp [h3 r hr]
  simp only [chosenFilter, hs, if_true, sourceModelFilter, h1, h2, this, Bool.not_true, Bool.false_eq_true, if_false, bind, Except.bind, pure,
    Except.pure]
  rfl

/-- **C24 fails**: whenever the zone of the source whose turn it is has no event and the processing list starts with `Recurrence` or `MaximumMagnitude`, the
run ends with `IndexError`. -/
theorem C24_empty_zone_raises (x : Ext F) (cfg : Config F) (hs : Configured cfg.sourceModelFile) (working : Matrix F) (j : Job)
    (hj : j = .recurrence ∨ j = .maximumMagnitude) (js : List Job) (i : Nat) (is : List Nat) (w : World F) (d : List (Source F)) (s : Source F)
    (hd : w.ctx.smDefinitions = some d) (hi : d[i]? = some s) (hz : EmptyZone x working s) :
    ∃ w', processSources x cfg (chosenFilter x cfg) (j :: js) working (i :: is) w = some ⟨some .indexError, w'⟩ ∧ w'.fs = w.fs ∧
      w'.ctx.smDefinitions = some d := by
  refine ⟨w.turn i ⟨[], true⟩, ?_, rfl, hd⟩
  rw [processSources, hd]
  simp only [Option.bind_some, hi, empty_zone_filter x cfg hs working s hz]
  have : runJob x cfg j (w.turn i ⟨[], true⟩) = some (.error .indexError) := by
    rcases hj with rfl | rfl <;> rfl
  rw [runPipeline]
  simp only [World.turn, hd] at this ⊢
  rw [this]
  rfl

/-- **C24 fails** for the program: if the first source has an empty zone, the program ends with `IndexError`, and no result document is written (the files are
those left by the preprocessing). -/
theorem C24_program_aborts (x : Ext F) (cfg : Config F) (hs : Configured cfg.sourceModelFile) (hp : cfg.applyProcessing = true)
    (fs : Text → Option Content) (pos : Nat) (pre : List Job) (hpre : buildPreprocessing cfg = .ok pre) (j : Job)
    (hj : j = .recurrence ∨ j = .maximumMagnitude) (js : List Job) (hproc : buildProcessing cfg = .ok (j :: js)) (w : World F)
    (hw : runPipeline x cfg pre ⟨fs, pos, {}⟩ = some ⟨none, w⟩) (s : Source F) (rest : List (Source F))
    (hd : w.ctx.smDefinitions = some (s :: rest)) (working : Matrix F) (hwk : w.ctx.workingCatalog = some working) (hz : EmptyZone x working s) :
    ∃ w', main x cfg fs pos = some ⟨some .indexError, w'⟩ ∧ w'.fs = w.fs := by
  obtain ⟨w', h1, h2, -⟩ := C24_empty_zone_raises x cfg hs working j hj js 0 (List.range' 1 rest.length) w (s :: rest) s hd rfl hz
  refine ⟨w', ?_, h2⟩
  unfold main start
  simp only [hpre, hproc, hw, andThen, hp, if_true, hd, hwk]
  rw [List.length_cons, List.range_eq_range', List.range'_succ, Nat.zero_add, h1]

/-- **C24**, what holds: with a processing list without the two jobs, an empty zone leaves its source as it is (whatever else the list does). -/
theorem C24_kept_partial (x : Ext F) (cfg : Config F) (filter : Source F → Matrix F → Except PyErr (Matrix F)) (names : List String)
    (procs : List Job) (hn : Named names procs) (hr : .recurrence ∉ procs) (hm : .maximumMagnitude ∉ procs) (working : Matrix F) (is : List Nat)
    (w w' : World F) (d : List (Source F)) (hd : w.ctx.smDefinitions = some d)
    (h : processSources x cfg filter procs working is w = some ⟨none, w'⟩) : w'.ctx.smDefinitions = some d := by
  obtain ⟨d', h1, h2⟩ := sources_related x cfg filter procs (named_not_reader hn) working (R := fun s t => t = s)
    ⟨fun h => absurd h hr, fun h => absurd h hm⟩ d is w w' ((processSources_ok _ _ _ _ _ _ _ _).1 h)
    ⟨d, hd, List.forall₂_same.2 fun _ _ => rfl⟩
  rw [h1]
  congr 1
  clear * - h2
  induction h2 with
  | nil => rfl
  | cons h _ ih => rw [h, ih]

/-- Statement of C24. -/
def Spec.EmptyZoneKept (F : Type) [PyMath F] : Prop :=
  ∀ (x : Ext F) (cfg : Config F) (names : List String) (procs : List Job) (working : Matrix F) (w : World F) (d : List (Source F)),
    Configured cfg.sourceModelFile → Named names procs → w.ctx.smDefinitions = some d → (∀ s ∈ d, EmptyZone x working s) →
      ∃ w', processSources x cfg (chosenFilter x cfg) procs working (List.range d.length) w = some ⟨none, w'⟩ ∧
        w'.ctx.smDefinitions = some d

/-! ### C88 -/

/-- The source used when no source model is configured: all its names are `MTK`, it lies at the origin, has no seismicity, and a vertical rupture at 5 km. -/
def Spec.placeholder : AreaSource F :=
  let n := some ['M', 'T', 'K']
  ⟨n, n, n, n, n, ⟨n, [⟨((0 : ℕ) : F), ((0 : ℕ) : F)⟩]⟩, ⟨⟨0.0, 0.0, 0.0, 0.0, n⟩, 0.0, 90.0, 0.0⟩, ⟨⟨n, [6.5]⟩, [5000.0]⟩, 5000.0⟩

/-- The sources a run starts from: those of the document named in the configuration, or the default source. -/
def Spec.InputSources (x : Ext F) (cfg : Config F) (fs : Text → Option Content) (inputs : List (AreaSource F)) : Prop :=
  (∃ path doc, path ≠ [] ∧ cfg.sourceModelFile = some path ∧
      (fs path = some (.xml doc) ∨ ∃ t, fs path = some (.text t) ∧ x.parseXml t = some doc) ∧ readDoc x.nums x.schema doc = .ok inputs) ∨
    (¬ Configured cfg.sourceModelFile ∧ inputs = [placeholder])

theorem start_related (x : Ext F) (cfg : Config F) (filter : Source F → Matrix F → Except PyErr (Matrix F)) (pre procs : List Job)
    (hpre : buildPreprocessing cfg = .ok pre) (hproc : buildProcessing cfg = .ok procs) (fs : Text → Option Content) (pos : Nat) (w' : World F)
    (h : start x cfg filter pre procs ⟨fs, pos, {}⟩ = some ⟨none, w'⟩) :
    ∃ inputs finals, InputSources x cfg fs inputs ∧ inputs ≠ [] ∧ w'.ctx.smDefinitions = some finals ∧
      List.Forall₂ (fun s t => SameBut s t.area) inputs finals := by
  classical
  have hR : ∀ procs, Kept cfg procs (fun s t : Source F => SameBut s.area t.area) := by
    intro procs
    refine ⟨?_, ?_⟩
    · rintro - c g - s t ⟨h1, h2, h3, h4, h5, h6, h7, h8, h9, h10, h11, h12⟩
      exact ⟨h1, h2, h3, h4, h5, h6, h7, h8, h9, h10, h11, h12⟩
    · rintro - r s t ⟨h1, h2, h3, h4, h5, h6, h7, h8, h9, h10, h11, h12⟩
      exact ⟨h1, h2, h3, h4, h5, h6, h7, h8, h9, h10, h11, h12⟩
  obtain ⟨w0, h0, hrest⟩ : ∃ w0, runPipeline x cfg pre ⟨fs, pos, {}⟩ = some ⟨none, w0⟩ ∧
      ∀ d, w0.ctx.smDefinitions = some d → Related (fun s t => SameBut s.area t.area) d w' := by
    unfold start at h
    rw [andThen_ok] at h
    obtain ⟨w0, h0, h⟩ := h
    refine ⟨w0, h0, fun d hd => ?_⟩
    split at h
    · rw [hd] at h
      cases hw : w0.ctx.workingCatalog with
      | none => rw [hw] at h; cases h
      | some working =>
        rw [hw] at h
        exact C21_only_parameters x cfg filter _ procs ((C16_processing cfg procs).1 hproc) working _ w0 w' d hd h
    · cases h
      exact ⟨d, hd, List.forall₂_same.2 fun s _ => ⟨rfl, rfl, rfl, rfl, rfl, rfl, rfl, rfl, rfl, rfl, rfl, rfl⟩⟩
  obtain ⟨js, hjs, hpre'⟩ := (C16_preprocessing cfg pre).1 hpre
  rw [C18_in_order] at h0
  -- the tail of the pipeline contains no source reader
  have htail : ∃ src tail, pre = .readEqCatalog :: src :: tail ∧
      src = (if Configured cfg.sourceModelFile then .readSourceModel else .createDefaultSourceModel) ∧
      ∀ j ∈ tail, j ≠ .readSourceModel ∧ j ≠ .createDefaultSourceModel := by
    refine ⟨_, [.createCatalogMatrix, .createDefaultValues] ++ js ++
      (if cfg.preprocessingJobs ≠ [] then
        (if Configured cfg.pprocessingResultFile then [.createSelectedEqVector, .storePreprocessedCatalog, .storeCompletenessTable] else [])
      else if Configured cfg.completenessTableFile then [.retrieveCompletenessTable] else []),
      by rw [hpre']; simp only [List.cons_append, List.nil_append], rfl, ?_⟩
    intro j hj
    rw [List.mem_append, List.mem_append] at hj
    rcases hj with (hj | hj) | hj
    · simp only [List.mem_cons, List.not_mem_nil, or_false] at hj
      rcases hj with rfl | rfl <;> simp
    · exact named_not_reader hjs j hj
    · split_ifs at hj <;> simp only [List.mem_cons, List.not_mem_nil, or_false] at hj
      · rcases hj with rfl | rfl | rfl <;> simp
      · subst hj; simp
  obtain ⟨src, tail, rfl, hsrc, htl⟩ := htail
  rcases h0 with _ | ⟨_, _, _, w1, _, hj1, _ | ⟨_, _, _, w2, _, hj2, hj3⟩⟩
  have hfs1 : w1.fs = fs := by
    simp only [Succeeds, runJob, Option.some.injEq] at hj1
    unfold readEqCatalogJob at hj1
    split at hj1
    · cases hj1
    · cases hj1
    · obtain ⟨_, -, hj1⟩ := bind_ok hj1
      cases hj1
      rfl
  have hdef1 : w1.ctx.smDefinitions = none := by
    simp only [Succeeds, runJob, Option.some.injEq] at hj1
    unfold readEqCatalogJob at hj1
    split at hj1
    · cases hj1
    · cases hj1
    · obtain ⟨_, -, hj1⟩ := bind_ok hj1
      cases hj1
      rfl
  have key : ∃ inputs, InputSources x cfg fs inputs ∧ inputs ≠ [] ∧ w2.ctx.smDefinitions = some (inputs.map (fun a => { area := a })) := by
    by_cases hc : Configured cfg.sourceModelFile
    · rw [if_pos hc] at hsrc
      subst hsrc
      obtain ⟨path, hpath, hne⟩ := hc
      simp only [Succeeds, runJob, Option.some.injEq] at hj2
      unfold readSourceModelJob at hj2
      obtain ⟨doc, hdoc, hj2⟩ := bind_ok hj2
      obtain ⟨areas, hareas, hj2⟩ := bind_ok hj2
      obtain ⟨defs, hdefs, hj2⟩ := bind_ok hj2
      rw [notNone_ok] at hdefs
      cases hj2
      have hne' : areas ≠ [] := by
        rintro rfl
        simp only [List.isEmpty_nil, if_true, hdef1] at hdefs
        cases hdefs
      refine ⟨areas, .inl ⟨path, doc, hne, hpath, ?_, hareas⟩, hne', ?_⟩
      · rw [hpath, Option.getD_some] at hdoc
        unfold document at hdoc
        rw [hfs1] at hdoc
        split at hdoc
        · cases hdoc
        · next he => cases hdoc; exact .inl he
        · next t ht =>
          split at hdoc
          · next he => cases hdoc; exact .inr ⟨t, ht, he⟩
          · cases hdoc
      · simp only [List.isEmpty_iff, hne', if_false]
    · rw [if_neg hc] at hsrc
      subst hsrc
      simp only [Succeeds, runJob, createDefaultSourceModelJob, Option.some.injEq, Except.ok.injEq] at hj2
      subst hj2
      exact ⟨[placeholder], .inr ⟨hc, rfl⟩, by simp, rfl⟩
  obtain ⟨inputs, hin, hne, hd2⟩ := key
  have hrel0 : Related (fun s t => SameBut s.area t.area) (inputs.map (fun a => { area := a })) w0 :=
    Chain.invariant hj3 (fun j hj a b hab => job_related x cfg tail htl (hR tail) _ j hj a b hab)
      ⟨_, hd2, List.forall₂_same.2 fun s _ => ⟨rfl, rfl, rfl, rfl, rfl, rfl, rfl, rfl, rfl, rfl, rfl, rfl⟩⟩
  obtain ⟨d0, hd0, hs0⟩ := hrel0
  obtain ⟨d', hd', hs'⟩ := hrest d0 hd0
  refine ⟨inputs, d', hin, hne, hd', ?_⟩
  rw [List.forall₂_map_left_iff] at hs0
  clear * - hs0 hs'
  induction hs0 generalizing d' with
  | nil => cases hs'; exact .nil
  | cons h _ ih =>
    rcases hs' with _ | ⟨h', ht'⟩
    obtain ⟨h1, h2, h3, h4, h5, h6, h7, h8, h9, h10, h11, h12⟩ := h
    obtain ⟨k1, k2, k3, k4, k5, k6, k7, k8, k9, k10, k11, k12⟩ := h'
    exact .cons ⟨k1.trans h1, k2.trans h2, k3.trans h3, k4.trans h4, k5.trans h5, k6.trans h6, k7.trans h7, k8.trans h8, k9.trans h9,
      k10.trans h10, k11.trans h11, k12.trans h12⟩ (ih _ ht')

/-- **C88**: after a run without exception the result file is an XML document, written from a list of sources that agree one by one, in order, with those of
the input in everything but the Gutenberg-Richter numbers. -/
theorem C88_written (x : Ext F) (cfg : Config F) (fs : Text → Option Content) (pos : Nat) (w' : World F)
    (h : main x cfg fs pos = some ⟨none, w'⟩) :
    ∃ inputs finals doc, InputSources x cfg fs inputs ∧ List.Forall₂ SameBut inputs finals ∧ serialize x.nums finals = .ok doc ∧
      w'.fs cfg.resultFile = some (.xml doc) := by
  unfold main at h
  simp only at h
  cases hpre : buildPreprocessing cfg with
  | error e => rw [hpre] at h; cases h
  | ok pre =>
    rw [hpre] at h
    simp only at h
    cases hproc : buildProcessing cfg with
    | error e => rw [hproc] at h; cases h
    | ok procs =>
      rw [hproc] at h
      simp only at h
      rw [andThen_ok] at h
      obtain ⟨w1, h1, h2⟩ := h
      obtain ⟨inputs, finals, hin, -, hd, hs⟩ := start_related x cfg _ pre procs hpre hproc fs pos w1 h1
      cases hw : writeResult x cfg w1 with
      | error e => rw [hw] at h2; cases h2
      | ok w2 =>
        rw [hw] at h2
        cases h2
        unfold writeResult at hw
        obtain ⟨path, hpath, hw⟩ := bind_ok hw
        obtain ⟨defs, hdefs, hw⟩ := bind_ok hw
        obtain ⟨doc, hdoc, hw⟩ := bind_ok hw
        obtain ⟨_, -, hw⟩ := bind_ok hw
        cases hw
        rw [hd] at hdefs
        cases hdefs
        have : path = cfg.resultFile := by
          unfold mkWriter at hpath
          split at hpath
          · cases hpath; rfl
          · cases hpath
        subst this
        exact ⟨inputs, finals.map Source.area, doc, hin, by rw [List.forall₂_map_right_iff]; exact hs, hdoc, by simp [World.write]⟩

/-- What an area source element says about identifiers and geometry. -/
structure Spec.Describes (nt : NumText F) (s : AreaSource F) (e : Elem) : Prop where
  tag : e.tag = tAREA_SOURCE
  id : e.get aGML_ID = s.areaSourceId
  name : ∃ c, e.findChild tGML_NAME = some c ∧ c.text = s.name
  region : ∃ c, e.findChild tTECTONIC_REGION = some c ∧ c.text = s.tectonicRegion
  ring : ∃ b r, e.findChild tAREA_BOUNDARY = some b ∧ b.findDesc tLINEAR_RING = some r ∧ r.get aLINEAR_RING_NAME = s.boundary.srsName
  points : ∃ b p, e.findChild tAREA_BOUNDARY = some b ∧ b.findDesc tPOS_LIST = some p ∧
    p.text = some ([' '].intercalate (s.boundary.posList.flatMap (fun q => [nt.str q.lon, nt.str q.lat])))
  depth : ∃ c, e.findChild tHYPOCENTRAL_DEPTH = some c ∧ c.text = some (nt.str s.hypocentralDepth)

omit [PyMath F] in
theorem describes_of {nt : NumText F} {rnd : F → F} (H : Lawful nt rnd) {s t : AreaSource F} (hst : SameBut s t) {e : Elem}
    (h : areaSourceElem nt t = .ok e) : Describes nt s e := by
  obtain ⟨-, id, srs, tyG, tyM, hid, hsrs, -, -, rfl⟩ := areaSourceElem_ok H h
  obtain ⟨-, -, h3, h4, h5, h6, -, -, -, -, -, h12⟩ := hst
  have hp : t.boundary.posList.flatMap (fun p => [p.lon, p.lat]) = s.boundary.posList.flatMap (fun p => [p.lon, p.lat]) := by rw [h6]
  refine ⟨rfl, ?_, ?_, ?_, ?_, ?_, ?_⟩
  · rw [← h3, hid]
    simp [sourceTree, Elem.get, Elem.attrs]
  · exact ⟨_, by simp [sourceTree, Elem.findChild, Elem.children, Elem.tag, tGML_NAME]; rfl, by simpa [Elem.text] using h4⟩
  · exact ⟨_, by simp [sourceTree, Elem.findChild, Elem.children, Elem.tag, tGML_NAME, tTECTONIC_REGION]; rfl, by simpa [Elem.text] using h5⟩
  · refine ⟨boundaryTree nt srs t.boundary.posList,
      .mk tLINEAR_RING [(aSRS_NAME, srs)] none [.mk tPOS_LIST [] (some (joinNums nt (t.boundary.posList.flatMap (fun p => [p.lon, p.lat])))) []], ?_, ?_, ?_⟩
    · simp [sourceTree, boundaryTree, Elem.findChild, Elem.children, Elem.tag, tGML_NAME, tTECTONIC_REGION, tAREA_BOUNDARY]
    · simp [boundaryTree, Elem.findDesc, Elem.children, Elem.nodesList, Elem.nodes, Elem.tag, tPOLYGON, tEXTERIOR, tLINEAR_RING]
    · simp [Elem.get, Elem.attrs, aSRS_NAME, aLINEAR_RING_NAME, ← h6, hsrs]
  · refine ⟨boundaryTree nt srs t.boundary.posList,
      .mk tPOS_LIST [] (some (joinNums nt (t.boundary.posList.flatMap (fun p => [p.lon, p.lat])))) [], ?_, ?_, ?_⟩
    · simp [sourceTree, boundaryTree, Elem.findChild, Elem.children, Elem.tag, tGML_NAME, tTECTONIC_REGION, tAREA_BOUNDARY]
    · simp [boundaryTree, Elem.findDesc, Elem.children, Elem.nodesList, Elem.nodes, Elem.tag, tPOLYGON, tEXTERIOR, tLINEAR_RING, tPOS_LIST]
    · simp only [Elem.text, joinNums, hp]
      congr 2
      rw [List.map_flatMap]
      rfl
  · exact ⟨_, by simp [sourceTree, boundaryTree, rateTree, depthTree, Elem.findChild, Elem.children, Elem.tag, tGML_NAME, tTECTONIC_REGION,
      tAREA_BOUNDARY, tRUPTURE_RATE_MODEL, tRUPTURE_DEPTH_DISTRIB, tHYPOCENTRAL_DEPTH]; rfl, by simp [Elem.text, h12]⟩

omit [PyMath F] in
theorem areaSources_docTree {nt : NumText F} {rnd : F → F} (H : Lawful nt rnd) (nid sid : Text) (ss : List (AreaSource F)) (body : List Elem)
    (h : List.Forall₂ (fun s e => areaSourceElem nt s = .ok e) ss body) : areaSources (docTree nid sid body).nodes = body := by
  have key : areaSources (Elem.nodesList body) = body := by
    clear nid sid
    induction h with
    | nil => rfl
    | @cons s e ss body hs _ ih =>
      obtain ⟨h1, h2⟩ := sourceTree_inner H hs
      have h3 : areaSources (Elem.nodesList e.children) = [] := by
        unfold areaSources
        rw [List.filter_eq_nil_iff]
        intro n hn hc
        exact h2 (List.mem_map.2 ⟨n, hn, by simpa using hc⟩)
      have h4 : areaSources e.nodes = [e] := by
        cases e with
        | mk t a x cs =>
          rw [Elem.nodes]
          simp only [areaSources, Elem.children] at h3 ⊢
          rw [List.filter_cons, if_pos (by simpa using h1), h3]
      rw [Elem.nodesList]
      unfold areaSources at h4 ih ⊢
      rw [List.filter_append, h4, ih]
      rfl
  have : areaSources (docTree nid sid body).nodes = areaSources (Elem.nodesList body) := by
    simp [docTree, Elem.nodes, Elem.nodesList, areaSources, Elem.tag, tROOT, tSOURCE_MODEL, tCONFIG, tAREA_SOURCE]
  rw [this, key]

/-- **C88**: the area source elements of the result document describe the sources of the input one by one, in order: same identifiers, names, regions,
boundaries and depths. -/
theorem C88_result_document (x : Ext F) {rnd : F → F} (H : Lawful x.nums rnd) (cfg : Config F) (fs : Text → Option Content) (pos : Nat)
    (w' : World F) (h : main x cfg fs pos = some ⟨none, w'⟩) :
    ∃ inputs doc, InputSources x cfg fs inputs ∧ w'.fs cfg.resultFile = some (.xml doc) ∧
      List.Forall₂ (Describes x.nums) inputs (areaSources doc.nodes) := by
  obtain ⟨inputs, finals, doc, hin, hsame, hdoc, hf⟩ := C88_written x cfg fs pos w' h
  obtain ⟨_, _, nid, sid, body, -, -, -, -, -, hbody, rfl⟩ := serialize_ok hdoc
  refine ⟨inputs, _, hin, hf, ?_⟩
  rw [areaSources_docTree H nid sid finals body hbody]
  clear * - H hsame hbody
  induction hsame generalizing body with
  | nil => cases hbody; exact .nil
  | cons h _ ih =>
    rcases hbody with _ | ⟨hb, hbs⟩
    exact .cons (describes_of H h hb) (ih _ hbs)

end

end Verif.Workflow
