import Verif.Props.WholeRun

/-!
# C145: a run is the composition of its analyses
-/

namespace Verif.Workflow

open Verif Verif.EqCatalog Verif.Csv Verif.Nrml Verif.Declustering Verif.Recurrence Verif.MaxMag Spec

namespace Spec

section
variable {F : Type} [PyMath F]

/-- What the preprocessing works on: the events left, the flags of the declustering, the completeness table. -/
structure Prep (F : Type) where
  events : List (Row F)
  flags : List Int
  table : List (F × F)

/-- Years and magnitudes. -/
def years (l : List (Row F)) : List (F × F) := l.map fun r => (r 0, r 5)

/-- One analysis of the preprocessing, by its name in the configuration; `all` is the whole catalogue.  Gardner-Knopoff takes the events left, Afteran the whole catalogue. -/
inductive Prepares (x : Ext F) (cfg : Config F) (all : List (Row F)) : String → Prep F → Prep F → Prop
  | gardnerKnopoff (p : Prep F) (opt : String) (fsw : F) (r : Declustering.Result F p.events.length) : cfg.gardnerKnopoff = some (opt, fsw) →
      Declustering.gardnerKnopoff (fun i => p.events[i]) opt fsw (x.argsort fun j => p.events[j] 5)
        (x.argsortInt (flipud (x.argsort fun j => p.events[j] 5))) = .ok r →
      Prepares x cfg all "GardnerKnopoff" p ⟨r.vmain, List.ofFn r.flag, p.table⟩
  | afteran (p : Prep F) (opt : String) (tw : F) (r : Declustering.Result F all.length) : cfg.afteran = some (opt, tw) →
      Declustering.afteran (fun i => all[i]) opt tw (x.argsort fun j => all[j] 5) (x.argsortInt (flipud (x.argsort fun j => all[j] 5))) = .ok r →
      Prepares x cfg all "Afteran" p ⟨r.vmain, List.ofFn r.flag, p.table⟩
  | stepp (p : Prep F) (c : SteppConfig F) (t : List (F × F)) : cfg.stepp = some c →
      Completeness.stepp (years p.events) c.magnitudeWindows c.timeWindow c.sensitivity c.incrementLock = .ok t →
      Prepares x cfg all "Stepp" p ⟨p.events, p.flags, t⟩

/-- The files with one file written. -/
def put (fs : Text → Option Content) (path : Text) (c : Content) : Text → Option Content := fun q => if q = path then some c else fs q

/-- A file can be written: its directory exists and it can be opened. -/
def Writable (x : Ext F) (path : Text) : Prop := x.exists_ (dirname path) = true ∧ x.openable path = true

/-- Storing the preprocessed catalogue and the completeness table. -/
def Stored (x : Ext F) (cfg : Config F) (es : List (Entry F)) (all : List (Row F)) (p : Prep F) (fs fs' : Text → Option Content) : Prop :=
  ∃ path tpath sel, cfg.pprocessingResultFile = some path ∧ cfg.completenessTableFile = some tpath ∧
    Completeness.selectedEqFlagVector (years all) p.table p.flags = .ok sel ∧ Writable x path ∧ x.openable tpath = true ∧
    fs' = put (put fs path (.text (writeCatalog x.show_ (kept es sel)))) tpath (.text (Table.saveTable x.fmt5 p.table))

/-- The completeness table read from the file. -/
def TableRead (x : Ext F) (cfg : Config F) (fs : Text → Option Content) (t : List (F × F)) : Prop :=
  ∃ path txt, cfg.completenessTableFile = some path ∧ fs path = some (.text txt) ∧ Table.loadTable x.nums.float x.nan txt = .ok t

/-- A source with other Gutenberg-Richter parameters. -/
def withTgr (s : AreaSource F) (t : Tgr F) : AreaSource F := { s with rate := { s.rate with tgr := t } }

/-- The analyses of one source with the events `rows`, in the configured order; the normal variates are taken from a stream, from position `n` to `n'`. -/
inductive SourceRun (x : Ext F) (cfg : Config F) (table : List (F × F)) (rows : List (Row F)) : List String → Nat → AreaSource F → Nat → AreaSource F → Prop
  | nil (n s) : SourceRun x cfg table rows [] n s n s
  | recurrence (names n s n' t c g) : cfg.recurrence = some c →
      recurrenceAnalysis (years rows) table c.magnitudeWindow c.algorithm c.referenceMagnitude c.timeWindow x.fuel = .ok (some g) →
      SourceRun x cfg table rows names n (withTgr s { s.rate.tgr with aValue := g.a, bValue := g.b, minMagnitude := c.referenceMagnitude }) n' t →
      SourceRun x cfg table rows ("Recurrence" :: names) n s n' t
  | maximum (names n s n' t c r) : cfg.maximumMagnitude = some c →
      analysis (rows.map fun r => ⟨r 0, r 5, r 6⟩) c (fun i k => x.normal (n + i * rows.length + k)) x.fuel = some (.ok r) →
      SourceRun x cfg table rows names (n + if c.algorithm = "Cumulative_Moment" then c.nboot * rows.length else 0)
        (withTgr s { s.rate.tgr with maxMagnitude := r.1 }) n' t →
      SourceRun x cfg table rows ("MaximumMagnitude" :: names) n s n' t

/-- The events of a source.  With a source model, its boundary must be a valid polygon, and there must be an event inside it if anything is computed. -/
def HasEvents (x : Ext F) (cfg : Config F) (s : AreaSource F) (events rows : List (Row F)) : Prop :=
  (Configured cfg.sourceModelFile → x.polygonBuilt s.boundary.posList = true ∧ x.polygonValid s.boundary.posList = true ∧
    rows = events.filter (fun r => x.contains s.boundary.posList (r 3) (r 4)) ∧ (cfg.processingJobs ≠ [] → rows ≠ [])) ∧
  (¬ Configured cfg.sourceModelFile → rows = events)

/-- The processing of all the sources, one after the other. -/
inductive SourcesRun (x : Ext F) (cfg : Config F) (p : Prep F) : Nat → List (AreaSource F) → Nat → List (AreaSource F) → Prop
  | nil (n) : SourcesRun x cfg p n [] n []
  | cons (n s m t ss n' ts rows) : HasEvents x cfg s p.events rows → SourceRun x cfg p.table rows cfg.processingJobs n s m t →
      SourcesRun x cfg p m ss n' ts → SourcesRun x cfg p n (s :: ss) n' (t :: ts)

/-- The preprocessing, from the files `fs` to the files `fs'`: the entries of the catalogue, the sources, the rows of the catalogue, and what is left for the processing. -/
def Prepared (x : Ext F) (cfg : Config F) (fs : Text → Option Content) (es : List (Entry F)) (inputs : List (AreaSource F)) (all : List (Row F)) (q : Prep F)
    (fs' : Text → Option Content) : Prop :=
  ∃ file y m p,
    -- the catalogue and the sources are read
    fs cfg.eqCatalogFile = some (.text file) ∧ readCatalogFile x.env x.ord file = .ok es ∧ InputSources x cfg fs inputs ∧ inputs ≠ [] ∧
    -- the rows of the catalogue; the table made of the first year and the smallest magnitude
    List.Forall₂ RowOf es all ∧ Np.npMin (all.map fun r => r 0) = .ok y ∧ Np.npMin (all.map fun r => r 5) = .ok m ∧
    -- the analyses of the preprocessing, or the table from the file
    Chain (Prepares x cfg all) cfg.preprocessingJobs ⟨all, List.replicate all.length 0, [(y, m)]⟩ p ∧ q.events = p.events ∧ q.flags = p.flags ∧
    (cfg.preprocessingJobs = [] ∧ Configured cfg.completenessTableFile → TableRead x cfg fs q.table) ∧
    (¬ (cfg.preprocessingJobs = [] ∧ Configured cfg.completenessTableFile) → q.table = p.table) ∧
    -- the files of the preprocessing
    (cfg.preprocessingJobs ≠ [] ∧ Configured cfg.pprocessingResultFile → Stored x cfg es all q fs fs') ∧
    (¬ (cfg.preprocessingJobs ≠ [] ∧ Configured cfg.pprocessingResultFile) → fs' = fs)

/-- A run, described by its analyses: from the files `fs`, with the normal variates from position `pos`, to the files `fs'`. -/
def Run (x : Ext F) (cfg : Config F) (fs : Text → Option Content) (pos : Nat) (fs' : Text → Option Content) : Prop :=
  ∃ es inputs all q fs1 n finals doc, Prepared x cfg fs es inputs all q fs1 ∧
    -- the analyses of the sources
    (cfg.applyProcessing = true → SourcesRun x cfg q pos inputs n finals) ∧ (cfg.applyProcessing = false → finals = inputs) ∧
    -- the result file
    serialize x.nums finals = .ok doc ∧ Writable x cfg.resultFile ∧ fs' = put fs1 cfg.resultFile (.xml doc)

end

end Spec

section
variable {F : Type} [PyMath F]

/-- A world holds what the preprocessing works on. -/
structure Holds (fs : Text → Option Content) (pos : Nat) (es : List (Entry F)) (d : List (Source F)) (all : List (Row F)) (p : Prep F) (w : World F) : Prop where
  fs : w.fs = fs
  pos : w.pos = pos
  es : w.ctx.eqCatalog = some es
  d : w.ctx.smDefinitions = some d
  all : w.ctx.catalogMatrix = some ⟨all, false⟩
  events : w.ctx.workingCatalog = some ⟨p.events, false⟩
  flags : w.ctx.flagVector = some p.flags
  table : w.ctx.completenessTable = some p.table

omit [PyMath F] in
theorem cols_false (rows : List (Row F)) : (⟨rows, false⟩ : Matrix F).cols = .ok rows := rfl

theorem prepares_of_succeeds {x : Ext F} {cfg : Config F} {fs pos es d all} {p : Prep F} {w w' : World F} (hw : Holds fs pos es d all p w) {n : String} {j : Job}
    (hn : n = "GardnerKnopoff" ∨ n = "Afteran" ∨ n = "Stepp") (hj : (n, j) ∈ documented) (h : Succeeds x cfg j w w') :
    ∃ p', Prepares x cfg all n p p' ∧ Holds fs pos es d all p' w' := by
  simp only [documented, List.mem_cons, Prod.mk.injEq, List.not_mem_nil, or_false] at hj
  rcases hn with rfl | rfl | rfl
  · obtain rfl : j = .gardnerKnopoff := by simpa using hj
    simp only [Succeeds, runJob, Option.some.injEq] at h
    unfold gardnerKnopoffJob at h
    obtain ⟨⟨opt, fsw⟩, hc, h⟩ := bind_ok h
    obtain ⟨m, hm, h⟩ := bind_ok h
    rw [notNone_ok, hw.events] at hm
    cases hm
    obtain ⟨rows, hr, h⟩ := bind_ok h
    cases hr
    obtain ⟨r, hg, h⟩ := bind_ok h
    cases h
    exact ⟨_, .gardnerKnopoff p opt fsw r (section_ok.1 hc) hg, hw.fs, hw.pos, hw.es, hw.d, hw.all, rfl, rfl, hw.table⟩
  · obtain rfl : j = .afteran := by simpa using hj
    simp only [Succeeds, runJob, Option.some.injEq] at h
    unfold afteranJob at h
    obtain ⟨⟨opt, fsw⟩, hc, h⟩ := bind_ok h
    obtain ⟨m, hm, h⟩ := bind_ok h
    rw [notNone_ok, hw.all] at hm
    cases hm
    obtain ⟨rows, hr, h⟩ := bind_ok h
    cases hr
    obtain ⟨r, hg, h⟩ := bind_ok h
    cases h
    exact ⟨_, .afteran p opt fsw r (section_ok.1 hc) hg, hw.fs, hw.pos, hw.es, hw.d, hw.all, rfl, rfl, hw.table⟩
  · obtain rfl : j = .stepp := by simpa using hj
    simp only [Succeeds, runJob, Option.some.injEq] at h
    unfold steppJob at h
    obtain ⟨m, hm, h⟩ := bind_ok h
    rw [notNone_ok, hw.events] at hm
    cases hm
    obtain ⟨rows, hr, h⟩ := bind_ok h
    cases hr
    obtain ⟨c, hc, h⟩ := bind_ok h
    obtain ⟨t, ht, h⟩ := bind_ok h
    cases h
    exact ⟨_, .stepp p c t (section_ok.1 hc) ht, hw.fs, hw.pos, hw.es, hw.d, hw.all, hw.events, hw.flags, rfl⟩

theorem succeeds_of_prepares {x : Ext F} {cfg : Config F} {fs pos es d all} {p p' : Prep F} {w : World F} (hw : Holds fs pos es d all p w) {n : String} {j : Job}
    (hj : (n, j) ∈ documented) (h : Prepares x cfg all n p p') : ∃ w', Succeeds x cfg j w w' ∧ Holds fs pos es d all p' w' := by
  simp only [documented, List.mem_cons, Prod.mk.injEq, List.not_mem_nil, or_false] at hj
  cases h with
  | gardnerKnopoff _ opt fsw r hc hg =>
    obtain rfl : j = .gardnerKnopoff := by simpa using hj
    refine ⟨storeDeclustered w r, ?_, hw.fs, hw.pos, hw.es, hw.d, hw.all, rfl, rfl, hw.table⟩
    simp only [Succeeds, runJob, Option.some.injEq]
    unfold gardnerKnopoffJob
    rw [section_ok.2 hc, Recurrence.bind_ok]
    simp only
    rw [notNone_ok.2 hw.events, Recurrence.bind_ok, cols_false, Recurrence.bind_ok]
    rw [hg, Recurrence.bind_ok]
  | afteran _ opt fsw r hc hg =>
    obtain rfl : j = .afteran := by simpa using hj
    refine ⟨storeDeclustered w r, ?_, hw.fs, hw.pos, hw.es, hw.d, hw.all, rfl, rfl, hw.table⟩
    simp only [Succeeds, runJob, Option.some.injEq]
    unfold afteranJob
    rw [section_ok.2 hc, Recurrence.bind_ok]
    simp only
    rw [notNone_ok.2 hw.all, Recurrence.bind_ok, cols_false, Recurrence.bind_ok]
    rw [hg, Recurrence.bind_ok]
  | stepp _ c t hc ht =>
    obtain rfl : j = .stepp := by simpa using hj
    refine ⟨{ w with ctx := { w.ctx with completenessTable := some t } }, ?_, hw.fs, hw.pos, hw.es, hw.d, hw.all, hw.events, hw.flags, rfl⟩
    simp only [Succeeds, runJob, Option.some.injEq]
    unfold steppJob
    rw [notNone_ok.2 hw.events, Recurrence.bind_ok, cols_false, Recurrence.bind_ok, section_ok.2 hc, Recurrence.bind_ok]
    change (do let table ← Completeness.stepp (years p.events) _ _ _ _; _) = _
    rw [ht, Recurrence.bind_ok]

/-- The named analyses of the preprocessing and their jobs. -/
theorem prepares_chain {x : Ext F} {cfg : Config F} {fs pos es d all} {names : List String} {js : List Job} (hn : Named names js)
    (hnames : ∀ n ∈ names, n = "GardnerKnopoff" ∨ n = "Afteran" ∨ n = "Stepp") {p : Prep F} {w : World F} (hw : Holds fs pos es d all p w) :
    (∀ w', Chain (Succeeds x cfg) js w w' → ∃ p', Chain (Prepares x cfg all) names p p' ∧ Holds fs pos es d all p' w') ∧
    (∀ p', Chain (Prepares x cfg all) names p p' → ∃ w', Chain (Succeeds x cfg) js w w' ∧ Holds fs pos es d all p' w') := by
  induction hn generalizing p w with
  | nil => exact ⟨fun w' h => by cases h; exact ⟨p, .nil _, hw⟩, fun p' h => by cases h; exact ⟨w, .nil _, hw⟩⟩
  | cons hd _ ih =>
    refine ⟨fun w' h => ?_, fun p' h => ?_⟩
    · rcases h with _ | ⟨_, _, _, w1, _, h, ht⟩
      obtain ⟨p1, h1, hw1⟩ := prepares_of_succeeds hw (hnames _ (by simp)) hd h
      obtain ⟨p', h2, hw'⟩ := (ih (fun n hn => hnames n (by simp [hn])) hw1).1 _ ht
      exact ⟨p', .cons _ _ _ p1 _ h1 h2, hw'⟩
    · rcases h with _ | ⟨_, _, _, p1, _, h, ht⟩
      obtain ⟨w1, h1, hw1⟩ := succeeds_of_prepares hw hd h
      obtain ⟨w', h2, hw'⟩ := (ih (fun n hn => hnames n (by simp [hn])) hw1).2 _ ht
      exact ⟨w', .cons _ _ _ w1 _ h1 h2, hw'⟩

/-- Storing the results of the preprocessing. -/
theorem stored_iff {x : Ext F} {cfg : Config F} {fs pos es d all} {p : Prep F} {w : World F} (hw : Holds fs pos es d all p w) (hl : es.length = all.length)
    (hc : Configured cfg.pprocessingResultFile) :
    (∀ w', Chain (Succeeds x cfg) [.createSelectedEqVector, .storePreprocessedCatalog, .storeCompletenessTable] w w' →
      ∃ fs', Stored x cfg es all p fs fs' ∧ Holds fs' pos es d all p w') ∧
    (∀ fs', Stored x cfg es all p fs fs' → ∃ w', Chain (Succeeds x cfg) [.createSelectedEqVector, .storePreprocessedCatalog, .storeCompletenessTable] w w' ∧
      Holds fs' pos es d all p w') := by
  obtain ⟨path, hpath, -⟩ := hc
  have hfs := hw.fs
  subst hfs
  refine ⟨?_, ?_⟩
  · rintro w' (_ | ⟨_, _, _, w1, _, h1, _ | ⟨_, _, _, w2, _, h2, _ | ⟨_, _, _, w3, _, h3, _ | _⟩⟩⟩)
    obtain ⟨m, rows, t, flags, sel, hm, hr, ht, hf, hs, rfl⟩ := select_ok h1
    rw [hw.all] at hm
    cases hm
    cases hr
    rw [hw.table] at ht
    cases ht
    rw [hw.flags] at hf
    cases hf
    have hsl : sel.length = es.length := by
      rw [selected_length hs, hl]
      simp [yearMag]
    simp only [Succeeds, runJob, Option.some.injEq] at h2 h3
    unfold storePreprocessedCatalogJob at h2
    simp only [hpath, hw.es, attr, notNone] at h2
    obtain ⟨_, k1, h2⟩ := bind_ok h2
    cases k1
    obtain ⟨path', k2, h2⟩ := bind_ok h2
    unfold mkWriter at k2
    split at k2
    · next hex =>
      cases k2
      obtain ⟨_, k3, h2⟩ := bind_ok h2
      cases k3
      obtain ⟨_, k4, h2⟩ := bind_ok h2
      cases k4
      obtain ⟨l, k5, h2⟩ := bind_ok h2
      rw [zeros_entries es sel hsl] at k5
      cases k5
      obtain ⟨_, k6, h2⟩ := bind_ok h2
      unfold openWrite at k6
      split at k6
      · next hop =>
        cases h2
        unfold storeCompletenessTableJob at h3
        cases htp : cfg.completenessTableFile with
        | none => simp only [htp] at h3; cases h3
        | some tp =>
          simp only [htp] at h3
          obtain ⟨_, l1, h3⟩ := bind_ok h3
          cases l1
          obtain ⟨_, l2, h3⟩ := bind_ok h3
          unfold openWrite at l2
          split at l2
          · next hop2 =>
            obtain ⟨t, l3, h3⟩ := bind_ok h3
            have : t = p.table := by
              have := notNone_ok.1 l3
              simp only [World.write, hw.table, Option.some.injEq] at this
              exact this.symm
            subst this
            cases h3
            refine ⟨_, ⟨path, tp, sel, hpath, htp, hs, ⟨hex, hop⟩, hop2, rfl⟩, rfl, hw.pos, rfl, hw.d, hw.all, hw.events, hw.flags, hw.table⟩
          · cases l2
      · cases k6
    · cases k2
  · rintro fs' ⟨path', tp, sel, hpath', htp, hs, ⟨hex, hop⟩, hop2, rfl⟩
    rw [hpath] at hpath'
    cases hpath'
    have hsl : sel.length = es.length := by
      rw [selected_length hs, hl]
      simp [years]
    let w1 : World F := { w with ctx := { w.ctx with selectedEqVector := some sel } }
    let w2 : World F := w1.write path (.text (writeCatalog x.show_ (kept es sel)))
    refine ⟨w2.write tp (.text (Table.saveTable x.fmt5 p.table)), .cons _ _ _ w1 _ ?_ (.cons _ _ _ w2 _ ?_ (.cons _ _ _ _ _ ?_ (.nil _))), ?_⟩
    · simp only [Succeeds, runJob, Option.some.injEq]
      unfold createSelectedEqVectorJob
      rw [notNone_ok.2 hw.all, notNone_ok.2 hw.table, attr_ok.2 hw.flags]
      simp only [Matrix.cols, Bool.false_eq_true, if_false, bind, Except.bind]
      rw [show yearMag all = years all from rfl, hs]
    · simp only [Succeeds, runJob, Option.some.injEq]
      unfold storePreprocessedCatalogJob
      simp only [w1, w2, hpath, mkWriter, hex, if_true, attr, hw.es, notNone, zeros_entries es sel hsl, openWrite, hop, bind, Except.bind]
    · simp only [Succeeds, runJob, Option.some.injEq]
      unfold storeCompletenessTableJob
      simp only [w1, w2, htp, openWrite, hop2, if_true, World.write, hw.table, notNone, bind, Except.bind]
    · exact ⟨rfl, hw.pos, hw.es, hw.d, hw.all, hw.events, hw.flags, hw.table⟩

/-- Reading the completeness table. -/
theorem tableRead_iff {x : Ext F} {cfg : Config F} {fs pos es d all} {p : Prep F} {w : World F} (hw : Holds fs pos es d all p w) :
    (∀ w', Chain (Succeeds x cfg) [.retrieveCompletenessTable] w w' → ∃ t, TableRead x cfg fs t ∧ Holds fs pos es d all ⟨p.events, p.flags, t⟩ w') ∧
    (∀ t, TableRead x cfg fs t → ∃ w', Chain (Succeeds x cfg) [.retrieveCompletenessTable] w w' ∧ Holds fs pos es d all ⟨p.events, p.flags, t⟩ w') := by
  have hfs := hw.fs
  subst hfs
  refine ⟨?_, ?_⟩
  · rintro w' (_ | ⟨_, _, _, w1, _, h, _ | _⟩)
    simp only [Succeeds, runJob, Option.some.injEq] at h
    unfold retrieveCompletenessTableJob at h
    obtain ⟨path, hp, h⟩ := bind_ok h
    split at h
    · cases h
    · cases h
    · next txt htxt =>
      obtain ⟨t, ht, h⟩ := bind_ok h
      cases h
      exact ⟨t, ⟨path, txt, notNone_ok.1 hp, htxt, ht⟩, hw.fs, hw.pos, hw.es, hw.d, hw.all, hw.events, hw.flags, rfl⟩
  · rintro t ⟨path, txt, hp, htxt, ht⟩
    refine ⟨{ w with ctx := { w.ctx with completenessTable := some t } }, .cons _ _ _ _ _ ?_ (.nil _), hw.fs, hw.pos, hw.es, hw.d, hw.all, hw.events, hw.flags, rfl⟩
    simp only [Succeeds, runJob, Option.some.injEq]
    unfold retrieveCompletenessTableJob
    rw [notNone_ok.2 hp, Recurrence.bind_ok, htxt]
    simp only
    rw [ht, Recurrence.bind_ok]

/-- The two analyses of a source and their jobs. -/
theorem sourceRun_chain {x : Ext F} {cfg : Config F} {table : List (F × F)} {m : Matrix F} {names : List String} {js : List Job} (hn : Named names js)
    (hnames : ∀ n ∈ names, n = "Recurrence" ∨ n = "MaximumMagnitude") {a b : List (Source F)} {s : Source F} {w : World F}
    (hd : w.ctx.smDefinitions = some (a ++ s :: b)) (hi : w.ctx.curSm = some a.length) (hm : w.ctx.currentFilteredEq = some m)
    (ht : w.ctx.completenessTable = some table) :
    (∀ w', Chain (Succeeds x cfg) js w w' → (names ≠ [] → m.oneD = false) ∧ ∃ n' s', SourceRun x cfg table m.rows names w.pos s.area n' s'.area ∧
      w' = { w with pos := n', ctx := { w.ctx with smDefinitions := some (a ++ s' :: b) } }) ∧
    ((names ≠ [] → m.oneD = false) → ∀ n' t, SourceRun x cfg table m.rows names w.pos s.area n' t → ∃ s', s'.area = t ∧
      Chain (Succeeds x cfg) js w { w with pos := n', ctx := { w.ctx with smDefinitions := some (a ++ s' :: b) } }) := by
  have hmod : ∀ (s : Source F) (f : Source F → Source F), (a ++ s :: b).modify a.length f = a ++ f s :: b := by
    intro s f
    clear * -
    induction a with
    | nil => rfl
    | cons c a ih => simpa using ih
  induction hn generalizing s w with
  | nil =>
    refine ⟨fun w' h => ?_, fun _ n' t h => ?_⟩
    · cases h
      exact ⟨by simp, w.pos, s, .nil _ _, by rw [← hd]⟩
    · cases h
      exact ⟨s, rfl, by rw [← hd]; exact .nil _⟩
  | @cons n j ns js hnj _ ih =>
    have hns : ∀ n ∈ ns, n = "Recurrence" ∨ n = "MaximumMagnitude" := fun n hn => hnames n (by simp [hn])
    simp only [documented, List.mem_cons, Prod.mk.injEq, List.not_mem_nil, or_false] at hnj
    rcases hnames n (by simp) with rfl | rfl
    · obtain rfl : j = .recurrence := by simpa using hnj
      refine ⟨fun w' h => ?_, fun h1 n' t h => ?_⟩
      · rcases h with _ | ⟨_, _, _, w1, _, h, hc⟩
        obtain ⟨i', d', m', f, hi', hd', -, hm', ⟨rows, tb, c, g, hr, htb, hcfg, hg, rfl⟩, rfl⟩ := recurrenceJob_ok.1 h
        rw [hi] at hi'; cases hi'
        rw [hd] at hd'; cases hd'
        rw [hm] at hm'; cases hm'
        rw [ht] at htb; cases htb
        have h1 : m.oneD = false := by
          unfold Matrix.cols at hr
          split at hr
          · cases hr
          · next h => simpa using h
        obtain rfl := cols_rows hr
        obtain ⟨-, n', s', hs', rfl⟩ := (ih hns (s := withRecurrence c.referenceMagnitude g s) (w := w.setSource (a ++ s :: b) a.length (withRecurrence c.referenceMagnitude g))
          (by simp only [World.setSource]; rw [hmod]) hi hm ht).1 _ hc
        exact ⟨fun _ => h1, n', s', .recurrence _ _ _ _ _ c g hcfg hg hs', rfl⟩
      · generalize hl : "Recurrence" :: ns = l at h
        cases h with
        | nil => cases hl
        | maximum => exact absurd (List.cons.inj hl).1 (by decide)
        | recurrence _ _ _ _ _ c g hcfg hg h =>
          obtain rfl := (List.cons.inj hl).2
          obtain ⟨s', hs', hc⟩ := (ih hns (s := withRecurrence c.referenceMagnitude g s) (w := w.setSource (a ++ s :: b) a.length (withRecurrence c.referenceMagnitude g))
            (by simp only [World.setSource]; rw [hmod]) hi hm ht).2 (fun _ => h1 (by simp)) n' t h
          refine ⟨s', hs', .cons _ _ _ _ _ (recurrenceJob_ok.2 ⟨a.length, _, m, _, hi, hd, by simp, hm, ⟨m.rows, table, c, g, ?_, ht, hcfg, hg, rfl⟩, rfl⟩) hc⟩
          simp [Matrix.cols, h1 (by simp)]
    · obtain rfl : j = .maximumMagnitude := by simpa using hnj
      refine ⟨fun w' h => ?_, fun h1 n' t h => ?_⟩
      · rcases h with _ | ⟨_, _, _, w1, _, h, hc⟩
        obtain ⟨i', d', m', f, q, hi', hd', -, hm', ⟨rows, c, r, hr, hcfg, hg, rfl, rfl⟩, rfl⟩ := maximumMagnitudeJob_ok.1 h
        rw [hi] at hi'; cases hi'
        rw [hd] at hd'; cases hd'
        rw [hm] at hm'; cases hm'
        have h1 : m.oneD = false := by
          unfold Matrix.cols at hr
          split at hr
          · cases hr
          · next h => simpa using h
        obtain rfl := cols_rows hr
        obtain ⟨-, n', s', hs', rfl⟩ := (ih hns (s := withMaxMag r s) (w := { w.setSource (a ++ s :: b) a.length (withMaxMag r) with pos := w.pos + drawn c m.rows.length })
          (by simp only [World.setSource]; rw [hmod]) hi hm ht).1 _ hc
        exact ⟨fun _ => h1, n', s', .maximum _ _ _ _ _ c r hcfg hg hs', rfl⟩
      · generalize hl : "MaximumMagnitude" :: ns = l at h
        cases h with
        | nil => cases hl
        | recurrence => exact absurd (List.cons.inj hl).1 (by decide)
        | maximum _ _ _ _ _ c r hcfg hg h =>
          obtain rfl := (List.cons.inj hl).2
          obtain ⟨s', hs', hc⟩ := (ih hns (s := withMaxMag r s) (w := { w.setSource (a ++ s :: b) a.length (withMaxMag r) with pos := w.pos + drawn c m.rows.length })
            (by simp only [World.setSource]; rw [hmod]) hi hm ht).2 (fun _ => h1 (by simp)) n' t h
          refine ⟨s', hs', .cons _ _ _ _ _ (maximumMagnitudeJob_ok.2 ⟨a.length, _, m, _, _, hi, hd, by simp, hm, ⟨m.rows, c, r, ?_, hcfg, hg, rfl, rfl⟩, rfl⟩) hc⟩
          simp [Matrix.cols, h1 (by simp)]

/-- The events a source gets. -/
theorem filter_iff {x : Ext F} {cfg : Config F} {s : Source F} {events : List (Row F)} {m : Matrix F} :
    chosenFilter x cfg s ⟨events, false⟩ = .ok m ∧ (cfg.processingJobs ≠ [] → m.oneD = false) ↔
      HasEvents x cfg s.area events m.rows ∧ (m.oneD = true → Configured cfg.sourceModelFile ∧ m.rows = []) ∧
        (Configured cfg.sourceModelFile → m.oneD = m.rows.isEmpty) := by
  by_cases hc : Configured cfg.sourceModelFile
  · have hc' := (truthy_iff _).2 hc
    simp only [chosenFilter, hc', if_true, sourceModelFilter]
    constructor
    · rintro ⟨h, h1⟩
      split at h
      · cases h
      · next hb =>
        split at h
        · cases h
        · next hv =>
          cases h
          refine ⟨⟨fun _ => ⟨by simpa using hb, by simpa using hv, rfl, fun h => ?_⟩, fun h => absurd hc h⟩, ?_, fun _ => rfl⟩
          · have := h1 h
            simpa [Matrix.ofRows] using this
          · intro h
            exact ⟨hc, by simpa [Matrix.ofRows] using h⟩
    · rintro ⟨⟨h, -⟩, -, h1⟩
      obtain ⟨hb, hv, hr, hne⟩ := h hc
      obtain ⟨rows, o⟩ := m
      simp only at hr h1 hne
      have := h1 hc
      subst hr
      refine ⟨?_, fun h => ?_⟩
      · simp only [hb, hv]
        rw [this]
        rfl
      · simp only
        rw [this]
        simpa using hne h
  · rw [C19_default_source x cfg hc]
    constructor
    · rintro ⟨h, -⟩
      cases h
      exact ⟨⟨fun h => absurd h hc, fun _ => rfl⟩, by simp, fun h => absurd h hc⟩
    · rintro ⟨⟨-, h⟩, h1, -⟩
      obtain ⟨rows, o⟩ := m
      cases o with
      | true => exact absurd (h1 rfl).1 hc
      | false =>
        have := h hc
        simp only at this
        subst this
        exact ⟨rfl, fun _ => rfl⟩

/-- The processing of the sources and the loop over them. -/
theorem sourcesRun_chain {x : Ext F} {cfg : Config F} {p : Prep F} {procs : List Job} (hn : Named cfg.processingJobs procs)
    (hnames : ∀ n ∈ cfg.processingJobs, n = "Recurrence" ∨ n = "MaximumMagnitude") {a b : List (Source F)} {w : World F}
    (hd : w.ctx.smDefinitions = some (a ++ b)) (ht : w.ctx.completenessTable = some p.table) :
    (∀ w', Chain (ProcessesSource x cfg (chosenFilter x cfg) procs ⟨p.events, false⟩) (List.range' a.length b.length) w w' →
      ∃ n' b', SourcesRun x cfg p w.pos (b.map Source.area) n' (b'.map Source.area) ∧ w'.fs = w.fs ∧ w'.ctx.smDefinitions = some (a ++ b')) ∧
    (∀ n' ts, SourcesRun x cfg p w.pos (b.map Source.area) n' ts → ∃ w' b', ts = b'.map Source.area ∧ w'.fs = w.fs ∧ w'.ctx.smDefinitions = some (a ++ b') ∧
      Chain (ProcessesSource x cfg (chosenFilter x cfg) procs ⟨p.events, false⟩) (List.range' a.length b.length) w w') := by
  induction b generalizing a w with
  | nil =>
    refine ⟨fun w' h => ?_, fun n' ts h => ?_⟩
    · cases h
      exact ⟨_, [], .nil _, rfl, hd⟩
    · cases h
      exact ⟨w, [], rfl, rfl, hd, .nil _⟩
  | cons s b ih =>
    have hs : (a ++ s :: b)[a.length]? = some s := by simp
    rw [List.length_cons, List.range'_succ]
    refine ⟨fun w' h => ?_, fun n' ts h => ?_⟩
    · rcases h with _ | ⟨_, _, _, w2, _, ⟨defs, s', m, hd', hs', hf, hc⟩, hrest⟩
      rw [hd] at hd'
      cases hd'
      rw [hs] at hs'
      cases hs'
      obtain ⟨h1, k, s', hrun, rfl⟩ := (sourceRun_chain hn hnames (w := w.turn a.length m) hd rfl rfl ht).1 _ hc
      obtain ⟨n', b', hb', hfs, hdefs⟩ := (ih (a := a ++ [s'])
        (w := { w.turn a.length m with pos := k, ctx := { (w.turn a.length m).ctx with smDefinitions := some (a ++ s' :: b) } }) (by simp) (by exact ht)).1 _
        (by simpa using hrest)
      refine ⟨n', s' :: b', .cons _ _ k _ _ _ _ m.rows (filter_iff.1 ⟨hf, h1⟩).1 hrun hb', hfs, by rw [hdefs]; simp⟩
    · rw [List.map_cons] at h
      cases h with
      | cons _ _ k t _ _ ts rows hev hrun hrest =>
        -- the array of the events
        obtain ⟨m, hm, hf⟩ : ∃ m : Matrix F, m.rows = rows ∧ chosenFilter x cfg s ⟨p.events, false⟩ = .ok m ∧ (cfg.processingJobs ≠ [] → m.oneD = false) := by
          by_cases hc : Configured cfg.sourceModelFile
          · exact ⟨.ofRows rows, rfl, filter_iff.2 ⟨hev, fun h => ⟨hc, by simpa [Matrix.ofRows] using h⟩, fun _ => rfl⟩⟩
          · exact ⟨⟨rows, false⟩, rfl, filter_iff.2 ⟨hev, by simp, fun h => absurd h hc⟩⟩
        subst hm
        obtain ⟨s', rfl, hc⟩ := (sourceRun_chain hn hnames (w := w.turn a.length m) hd rfl rfl ht).2 hf.2 _ _ hrun
        obtain ⟨w', b', rfl, hfs, hdefs, hch⟩ := (ih (a := a ++ [s'])
          (w := { w.turn a.length m with pos := k, ctx := { (w.turn a.length m).ctx with smDefinitions := some (a ++ s' :: b) } }) (by simp) (by exact ht)).2 _ _ hrest
        refine ⟨w', s' :: b', rfl, hfs, by rw [hdefs]; simp, .cons _ _ _ _ _ ⟨_, s, m, hd, hs, hf.1, hc⟩ (by simpa using hch)⟩

omit [PyMath F] in
/-- Writing the result. -/
theorem writeResult_iff {x : Ext F} {cfg : Config F} {w w' : World F} {d : List (Source F)} (hd : w.ctx.smDefinitions = some d) :
    writeResult x cfg w = .ok w' ↔ ∃ doc, serialize x.nums (d.map Source.area) = .ok doc ∧ Writable x cfg.resultFile ∧ w' = w.write cfg.resultFile (.xml doc) := by
  unfold writeResult
  constructor
  · intro h
    obtain ⟨path, hp, h⟩ := bind_ok h
    unfold mkWriter at hp
    split at hp
    · next hex =>
      cases hp
      obtain ⟨d', hd', h⟩ := bind_ok h
      rw [notNone_ok, hd] at hd'
      cases hd'
      obtain ⟨doc, hdoc, h⟩ := bind_ok h
      obtain ⟨_, ho, h⟩ := bind_ok h
      unfold openWrite at ho
      split at ho
      · next hop =>
        cases h
        exact ⟨doc, hdoc, ⟨hex, hop⟩, rfl⟩
      · cases ho
    · cases hp
  · rintro ⟨doc, hdoc, ⟨hex, hop⟩, rfl⟩
    simp only [mkWriter, hex, if_true, notNone_ok.2 hd, hdoc, openWrite, hop, bind, Except.bind]

/-- The preprocessing. -/
theorem preprocessing_iff {x : Ext F} {cfg : Config F} (hnames : ∀ n ∈ cfg.preprocessingJobs, n = "GardnerKnopoff" ∨ n = "Afteran" ∨ n = "Stepp")
    {pre : List Job} (hpre : buildPreprocessing cfg = .ok pre) {fs : Text → Option Content} {pos : Nat} :
    (∀ w, Chain (Succeeds x cfg) pre ⟨fs, pos, {}⟩ w → ∃ es inputs all q fs1, Prepared x cfg fs es inputs all q fs1 ∧
      Holds fs1 pos es (inputs.map fun a => { area := a }) all q w) ∧
    (∀ es inputs all q fs1, Prepared x cfg fs es inputs all q fs1 → ∃ w, Chain (Succeeds x cfg) pre ⟨fs, pos, {}⟩ w ∧
      Holds fs1 pos es (inputs.map fun a => { area := a }) all q w) := by
  classical
  obtain ⟨js, hjs, hpre'⟩ := (C16_preprocessing cfg pre).1 hpre
  have hsplit : pre = compulsoryJobs cfg ++ (js ++ (if cfg.preprocessingJobs ≠ [] then (if Configured cfg.pprocessingResultFile then
      [.createSelectedEqVector, .storePreprocessedCatalog, .storeCompletenessTable] else []) else if Configured cfg.completenessTableFile then
      [.retrieveCompletenessTable] else [])) := by
    rw [hpre', List.append_assoc]
    rfl
  rw [hsplit]
  simp only [Chain.append_iff]
  have hlen : ∀ {es : List (Entry F)} {all : List (Row F)}, List.Forall₂ RowOf es all → es.length = all.length := fun h => h.length_eq
  refine ⟨?_, ?_⟩
  · rintro w ⟨w1, h1, w2, h2, h3⟩
    obtain ⟨file, es, inputs, all, y, m, hfile, hes, hin, hne, hrows, -, hy, hm, rfl⟩ := (compulsory_iff _ _ _ _ _).1 h1
    have hrows' : List.Forall₂ RowOf es all := (mapM_forall₂ _ _ _ hrows).imp fun _ _ h => (matrixRow_ok _ _).1 h
    have hold : Holds fs pos es (inputs.map fun a => { area := a }) all ⟨all, List.replicate all.length 0, [(y, m)]⟩
      (prepared fs pos es (inputs.map fun a => { area := a }) all y m) := ⟨rfl, rfl, rfl, rfl, rfl, rfl, rfl, rfl⟩
    obtain ⟨p, hp, hold⟩ := (prepares_chain hjs hnames hold).1 _ h2
    by_cases hjobs : cfg.preprocessingJobs = []
    · rw [if_neg (by simpa using hjobs)] at h3
      by_cases hc : Configured cfg.completenessTableFile
      · rw [if_pos hc] at h3
        obtain ⟨t, ht, hold⟩ := (tableRead_iff hold).1 _ h3
        exact ⟨es, inputs, all, ⟨p.events, p.flags, t⟩, fs, ⟨file, y, m, p, hfile, hes, hin, hne, hrows', hy, hm, hp, rfl, rfl, fun _ => ht, fun h => absurd ⟨hjobs, hc⟩ h,
          fun h => absurd hjobs h.1, fun _ => rfl⟩, hold⟩
      · rw [if_neg hc] at h3
        cases h3
        exact ⟨es, inputs, all, p, fs, ⟨file, y, m, p, hfile, hes, hin, hne, hrows', hy, hm, hp, rfl, rfl, fun h => absurd h.2 hc, fun _ => rfl,
          fun h => absurd hjobs h.1, fun _ => rfl⟩, hold⟩
    · rw [if_pos hjobs] at h3
      by_cases hc : Configured cfg.pprocessingResultFile
      · rw [if_pos hc] at h3
        obtain ⟨fs', hst, hold⟩ := (stored_iff hold (hlen hrows') hc).1 _ h3
        exact ⟨es, inputs, all, p, fs', ⟨file, y, m, p, hfile, hes, hin, hne, hrows', hy, hm, hp, rfl, rfl, fun h => absurd h.1 hjobs, fun _ => rfl,
          fun _ => hst, fun h => absurd ⟨hjobs, hc⟩ h⟩, hold⟩
      · rw [if_neg hc] at h3
        cases h3
        exact ⟨es, inputs, all, p, fs, ⟨file, y, m, p, hfile, hes, hin, hne, hrows', hy, hm, hp, rfl, rfl, fun h => absurd h.1 hjobs, fun _ => rfl,
          fun h => absurd h.2 hc, fun _ => rfl⟩, hold⟩
  · rintro es inputs all q fs1 ⟨file, y, m, p, hfile, hes, hin, hne, hrows', hy, hm, hp, he, hfl, ht, ht', hst, hst'⟩
    have hrows : es.mapM matrixRow = .ok all := by
      clear * - hrows'
      induction hrows' with
      | nil => rfl
      | cons h _ ih =>
        rw [List.mapM_cons, (matrixRow_ok _ _).2 h, ih]
        rfl
    have hall : all ≠ [] := by
      rintro rfl
      cases hy
    have h1 := (compulsory_iff x cfg fs pos _).2 ⟨file, es, inputs, all, y, m, hfile, hes, hin, hne, hrows, hall, hy, hm, rfl⟩
    have hold : Holds fs pos es (inputs.map fun a => { area := a }) all ⟨all, List.replicate all.length 0, [(y, m)]⟩
      (prepared fs pos es (inputs.map fun a => { area := a }) all y m) := ⟨rfl, rfl, rfl, rfl, rfl, rfl, rfl, rfl⟩
    obtain ⟨w2, h2, hold⟩ := (prepares_chain hjs hnames hold).2 _ hp
    obtain ⟨qe, qf, qt⟩ := q
    simp only at he hfl
    subst he hfl
    by_cases hjobs : cfg.preprocessingJobs = []
    · rw [if_neg (by simpa using hjobs)]
      obtain rfl := hst' (fun h => h.1 hjobs)
      by_cases hc : Configured cfg.completenessTableFile
      · rw [if_pos hc]
        obtain ⟨w, h3, hold⟩ := (tableRead_iff hold).2 _ (ht ⟨hjobs, hc⟩)
        exact ⟨w, ⟨_, h1, _, h2, h3⟩, hold⟩
      · rw [if_neg hc]
        have := ht' (fun h => hc h.2)
        simp only at this
        subst this
        exact ⟨w2, ⟨_, h1, _, h2, .nil _⟩, hold⟩
    · rw [if_pos hjobs]
      have := ht' (fun h => hjobs h.1)
      simp only at this
      subst this
      by_cases hc : Configured cfg.pprocessingResultFile
      · rw [if_pos hc]
        obtain ⟨w, h3, hold⟩ := (stored_iff hold (hlen hrows') hc).2 _ (hst ⟨hjobs, hc⟩)
        exact ⟨w, ⟨_, h1, _, h2, h3⟩, hold⟩
      · rw [if_neg hc]
        obtain rfl := hst' (fun h => hc h.2)
        exact ⟨w2, ⟨_, h1, _, h2, .nil _⟩, hold⟩

/-- The names stand for jobs. -/
theorem named_exists {names : List String} (h : ∀ n ∈ names, ∃ j, (n, j) ∈ documented) : ∃ js, Named names js := by
  induction names with
  | nil => exact ⟨[], .nil⟩
  | cons n ns ih =>
    obtain ⟨j, hj⟩ := h n (by simp)
    obtain ⟨js, hjs⟩ := ih fun n hn => h n (by simp [hn])
    exact ⟨j :: js, .cons hj hjs⟩

/-- **C145**: a run with the documented jobs ends without exception and leaves the files `fs'` exactly when the files come from the composition of the analyses: the catalogue and the sources
are read; the declusterings and the completeness analysis follow in the configured order, or the completeness table is read; the preprocessed catalogue and the table are stored; each source
is analysed with its own events; and the sources are written.  Nothing else is written. -/
theorem C145_run (x : Ext F) (cfg : Config F) (fs fs' : Text → Option Content) (pos : Nat)
    (hpre : ∀ n ∈ cfg.preprocessingJobs, n = "GardnerKnopoff" ∨ n = "Afteran" ∨ n = "Stepp")
    (hproc : ∀ n ∈ cfg.processingJobs, n = "Recurrence" ∨ n = "MaximumMagnitude") :
    (∃ w', main x cfg fs pos = some ⟨none, w'⟩ ∧ w'.fs = fs') ↔ Run x cfg fs pos fs' := by
  have harea : ∀ inputs : List (AreaSource F), (inputs.map fun a => ({ area := a } : Source F)).map Source.area = inputs := by
    intro inputs
    rw [List.map_map]
    exact List.map_id inputs
  constructor
  · rintro ⟨w', h, rfl⟩
    obtain ⟨pre, procs, w1, hb, hb', hst, hwr⟩ := main_ok.1 h
    cases hp : cfg.applyProcessing with
    | true =>
      obtain ⟨w0, defs, working, hc0, hd0, hw0, hc⟩ := (C19_once_in_order _ _ _ _ _ _ _ hp).1 hst
      obtain ⟨es, inputs, all, q, fs1, hprep, hold⟩ := (preprocessing_iff hpre hb).1 _ hc0
      rw [hold.d] at hd0
      cases hd0
      rw [hold.events] at hw0
      cases hw0
      rw [List.range_eq_range'] at hc
      obtain ⟨n, finals, hrun, hfs, hd1⟩ := (sourcesRun_chain ((C16_processing cfg procs).1 hb') hproc (a := []) hold.d hold.table).1 _ (by simpa using hc)
      obtain ⟨doc, hdoc, hw, rfl⟩ := (writeResult_iff hd1).1 hwr
      rw [harea, hold.pos] at hrun
      refine ⟨es, inputs, all, q, fs1, n, _, doc, hprep, fun _ => hrun, fun h => absurd (hp.symm.trans h) (by decide), hdoc, hw, ?_⟩
      rw [← hold.fs, ← hfs]
      rfl
    | false =>
      rw [C20_disabled x cfg _ pre procs _ hp, C18_in_order] at hst
      obtain ⟨es, inputs, all, q, fs1, hprep, hold⟩ := (preprocessing_iff hpre hb).1 _ hst
      obtain ⟨doc, hdoc, hw, rfl⟩ := (writeResult_iff hold.d).1 hwr
      rw [harea] at hdoc
      refine ⟨es, inputs, all, q, fs1, 0, inputs, doc, hprep, fun h => absurd (hp.symm.trans h) (by decide), fun _ => rfl, hdoc, hw, ?_⟩
      rw [← hold.fs]
      rfl
  · rintro ⟨es, inputs, all, q, fs1, n, finals, doc, hprep, hrun, hnot, hdoc, hw, rfl⟩
    obtain ⟨pre, hb⟩ : ∃ pre, buildPreprocessing cfg = .ok pre := by
      obtain ⟨js, hjs⟩ := named_exists (names := cfg.preprocessingJobs) (by
        intro n hn
        rcases hpre n hn with rfl | rfl | rfl
        exacts [⟨.gardnerKnopoff, by decide⟩, ⟨.afteran, by decide⟩, ⟨.stepp, by decide⟩])
      exact ⟨_, (C16_preprocessing cfg _).2 ⟨js, hjs, rfl⟩⟩
    obtain ⟨procs, hb'⟩ : ∃ procs, buildProcessing cfg = .ok procs := by
      obtain ⟨js, hjs⟩ := named_exists (names := cfg.processingJobs) (by
        intro n hn
        rcases hproc n hn with rfl | rfl
        exacts [⟨.recurrence, by decide⟩, ⟨.maximumMagnitude, by decide⟩])
      exact ⟨_, (C16_processing cfg _).2 hjs⟩
    obtain ⟨w0, hc0, hold⟩ := (preprocessing_iff (pos := pos) hpre hb).2 _ _ _ _ _ hprep
    cases hp : cfg.applyProcessing with
    | true =>
      obtain ⟨w1, b', rfl, hfs, hd1, hc⟩ := (sourcesRun_chain ((C16_processing cfg procs).1 hb') hproc (a := []) hold.d hold.table).2 n finals (by
        rw [harea, hold.pos]; exact hrun hp)
      refine ⟨w1.write cfg.resultFile (.xml doc), main_ok.2 ⟨pre, procs, w1, hb, hb', (C19_once_in_order _ _ _ _ _ _ _ hp).2
        ⟨w0, _, _, hc0, hold.d, hold.events, by rw [List.range_eq_range']; simpa using hc⟩, (writeResult_iff hd1).2 ⟨doc, hdoc, hw, rfl⟩⟩, ?_⟩
      rw [← hold.fs, ← hfs]
      rfl
    | false =>
      obtain rfl := hnot hp
      refine ⟨w0.write cfg.resultFile (.xml doc), main_ok.2 ⟨pre, procs, w0, hb, hb', ?_, (writeResult_iff hold.d).2 ⟨doc, by rw [harea]; exact hdoc, hw, rfl⟩⟩, ?_⟩
      · rw [C20_disabled x cfg _ pre procs _ hp, C18_in_order]
        exact hc0
      · rw [← hold.fs]
        rfl

/-- **C145** for the documented standard run, Gardner-Knopoff declustering and the Stepp analysis: the events left by the declustering of the whole catalogue give the completeness table, and
are, source by source and with this table, what the sources are analysed with. -/
theorem C145_standard (x : Ext F) (cfg : Config F) (fs fs' : Text → Option Content) (pos : Nat) (hpre : cfg.preprocessingJobs = ["GardnerKnopoff", "Stepp"])
    (hproc : cfg.processingJobs = ["Recurrence", "MaximumMagnitude"]) (hp : cfg.applyProcessing = true) (w' : World F) (h : main x cfg fs pos = some ⟨none, w'⟩)
    (hfs : w'.fs = fs') :
    ∃ file es inputs all opt fsw st table finals doc n, ∃ r : Declustering.Result F all.length,
      fs cfg.eqCatalogFile = some (.text file) ∧ readCatalogFile x.env x.ord file = .ok es ∧ List.Forall₂ RowOf es all ∧ InputSources x cfg fs inputs ∧
      cfg.gardnerKnopoff = some (opt, fsw) ∧
      Declustering.gardnerKnopoff (fun i => all[i]) opt fsw (x.argsort fun j => all[j] 5) (x.argsortInt (flipud (x.argsort fun j => all[j] 5))) = .ok r ∧
      cfg.stepp = some st ∧ Completeness.stepp (years r.vmain) st.magnitudeWindows st.timeWindow st.sensitivity st.incrementLock = .ok table ∧
      SourcesRun x cfg ⟨r.vmain, List.ofFn r.flag, table⟩ pos inputs n finals ∧ serialize x.nums finals = .ok doc ∧ fs' cfg.resultFile = some (.xml doc) := by
  obtain ⟨es, inputs, all, q, fs1, n, finals, doc, ⟨file, y, m, p, hfile, hes, hin, -, hrows, -, -, hch, he, hfl, -, ht, -, -⟩, hrun, -, hdoc, -, rfl⟩ :=
    (C145_run x cfg fs fs' pos (by rw [hpre]; simp) (by rw [hproc]; simp)).1 ⟨w', h, hfs⟩
  rw [hpre] at hch ht
  have ht' := ht (by simp)
  clear ht
  obtain ⟨qe, qf, qt⟩ := q
  simp only at he hfl ht'
  subst he hfl ht'
  rcases hch with _ | ⟨_, _, _, p1, _, h1, _ | ⟨_, _, _, p2, _, h2, _ | _⟩⟩
  generalize hn : "GardnerKnopoff" = name at h1
  cases h1 with
  | afteran => exact absurd hn (by decide)
  | stepp => exact absurd hn (by decide)
  | gardnerKnopoff _ opt fsw r hc hg =>
    generalize hn : "Stepp" = name at h2
    cases h2 with
    | afteran => exact absurd hn (by decide)
    | gardnerKnopoff => exact absurd hn (by decide)
    | stepp _ st t hst hs =>
      exact ⟨file, es, inputs, all, opt, fsw, st, t, finals, doc, n, r, hfile, hes, hrows, hin, hc, hg, hst, hs, hrun hp, hdoc, by simp [put]⟩

/-- The files a run leaves are determined by its analyses. -/
theorem C145_determined (x : Ext F) (cfg : Config F) (fs f1 f2 : Text → Option Content) (pos : Nat)
    (hpre : ∀ n ∈ cfg.preprocessingJobs, n = "GardnerKnopoff" ∨ n = "Afteran" ∨ n = "Stepp")
    (hproc : ∀ n ∈ cfg.processingJobs, n = "Recurrence" ∨ n = "MaximumMagnitude") (h1 : Run x cfg fs pos f1) (h2 : Run x cfg fs pos f2) : f1 = f2 := by
  obtain ⟨w1, hw1, rfl⟩ := (C145_run x cfg fs f1 pos hpre hproc).2 h1
  obtain ⟨w2, hw2, rfl⟩ := (C145_run x cfg fs f2 pos hpre hproc).2 h2
  rw [hw1] at hw2
  cases hw2
  rfl

end

/-- The example run of the declustering and the recurrence is such a composition. -/
example : ∃ fs', Run x31 config31 (fs31 "5") 0 fs' ∧ ∃ doc, fs' config31.resultFile = some (.xml doc) := by
  obtain ⟨w', h⟩ := run31_exists
  have hr := (C145_run x31 config31 (fs31 "5") w'.fs 0 (fun n hn => .inl (List.mem_singleton.1 hn)) (fun n hn => .inl (List.mem_singleton.1 hn))).1 ⟨w', h, rfl⟩
  refine ⟨w'.fs, hr, ?_⟩
  obtain ⟨_, _, _, _, _, _, _, doc, -, -, -, -, -, e⟩ := hr
  exact ⟨doc, by rw [e]; simp [put]⟩

end Verif.Workflow
