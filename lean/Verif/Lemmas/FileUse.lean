import Verif.Props.Processing

/-!
# Which files a run uses

Two runs of the same configuration on two file systems are compared step by step.  The files in `out` have been written by both runs, with the same
contents; all others are still those at the beginning.
-/

namespace Verif.Workflow

open Verif Verif.EqCatalog Verif.Csv Verif.Nrml Verif.Declustering Verif.Recurrence Verif.MaxMag Spec

section
variable {F : Type} [PyMath F]

/-- The world with other files. -/
def World.on (w : World F) (g : Text → Option Content) : World F := { w with fs := g }

/-- Files of two runs that started with `b` and `b'`. -/
def FsRel (out : Text → Prop) (b b' f g : Text → Option Content) : Prop := ∀ q, (out q ∧ f q = g q) ∨ (f q = b q ∧ g q = b' q)

/-- Same end of a job, up to the files. -/
inductive FsJob (out : Text → Prop) (b b' : Text → Option Content) :
    Option (Except PyErr (World F)) → Option (Except PyErr (World F)) → Prop
  | none : FsJob out b b' none none
  | error (e) : FsJob out b b' (some (.error e)) (some (.error e))
  | ok (w g) (h : FsRel out b b' w.fs g) : FsJob out b b' (some (.ok w)) (some (.ok (w.on g)))

/-- Same end of a run, up to the files. -/
inductive FsOut (out : Text → Prop) (b b' : Text → Option Content) : Option (Outcome F) → Option (Outcome F) → Prop
  | none : FsOut out b b' none none
  | some (e w g) (h : FsRel out b b' w.fs g) : FsOut out b b' (some ⟨e, w⟩) (some ⟨e, w.on g⟩)

theorem FsRel.mono {out out' : Text → Prop} {b b' f g : Text → Option Content} (h : FsRel out b b' f g) (ho : ∀ q, out q → out' q) :
    FsRel out' b b' f g := fun q => (h q).imp (fun h => ⟨ho q h.1, h.2⟩) id

omit [PyMath F] in
theorem FsOut.mono {out out' : Text → Prop} {b b' : Text → Option Content} {r r' : Option (Outcome F)} (h : FsOut out b b' r r')
    (ho : ∀ q, out q → out' q) : FsOut out' b b' r r' := by
  cases h with
  | none => exact .none
  | some e w g h => exact .some e w g (h.mono ho)

theorem FsRel.refl (out : Text → Prop) (b b' : Text → Option Content) : FsRel out b b' b b' := fun _ => .inr ⟨rfl, rfl⟩

theorem FsRel.read {out : Text → Prop} {b b' f g : Text → Option Content} (h : FsRel out b b' f g) {q : Text} (hq : b q = b' q) : f q = g q := by
  rcases h q with h | ⟨h1, h2⟩
  · exact h.2
  · rw [h1, h2, hq]

theorem FsRel.via {α : Type} {out : Text → Prop} {b b' f g : Text → Option Content} (h : FsRel out b b' f g) (k : Option Content → α) {q : Text}
    (hq : k (b q) = k (b' q)) : k (g q) = k (f q) := by
  rcases h q with h | ⟨h1, h2⟩
  · rw [h.2]
  · rw [h1, h2, hq]

theorem FsRel.write {out : Text → Prop} {b b' f g : Text → Option Content} (h : FsRel out b b' f g) {p : Text} (hp : out p) (c : Content) :
    FsRel out b b' (fun q => if q = p then some c else f q) (fun q => if q = p then some c else g q) := by
  intro q
  by_cases hq : q = p
  · subst hq
    exact .inl ⟨hp, by simp⟩
  · simpa [hq] using h q

variable {out : Text → Prop} {b b' : Text → Option Content}

omit [PyMath F] in
theorem fsUpdate (w : World F) (g : Text → Option Content) (h : FsRel out b b' w.fs g) (f : Source F → Source F) :
    FsJob out b b' (some (updateCurrent w f)) (some (updateCurrent (w.on g) f)) := by
  unfold updateCurrent World.on
  simp only
  cases attr w.ctx.curSm with
  | error e => exact .error e
  | ok i =>
    cases notNone w.ctx.smDefinitions with
    | error e => exact .error e
    | ok d =>
      simp only [bind, Except.bind]
      split
      · exact .ok _ g h
      · exact .error _

/-- The events in a catalogue file, or the exception raised by reading it. -/
def Spec.eventsRead (x : Ext F) : Option Content → Except PyErr (List (Entry F))
  | none => .error .ioError
  | some (.xml _) => .error .malformedCatalog
  | some (.text t) => readCatalogFile x.env x.ord t

/-- The sources in a source model file, or the exception raised by reading it. -/
def Spec.sourcesRead (x : Ext F) : Option Content → Except PyErr (List (AreaSource F))
  | none => .error .ioError
  | some (.xml e) => readDoc x.nums x.schema e
  | some (.text t) => match x.parseXml t with
    | some e => readDoc x.nums x.schema e
    | none => .error .xmlSyntax

/-- The rows of a completeness table file, or the exception raised by reading it. -/
def Spec.tableRead (x : Ext F) : Option Content → Except PyErr (List (F × F))
  | none => .error .ioError
  | some (.xml _) => .error .valueError
  | some (.text t) => Table.loadTable x.nums.float x.nan t

/-- The files the jobs read say the same. -/
structure SameInputs (x : Ext F) (cfg : Config F) (js : List Job) (b b' : Text → Option Content) : Prop where
  catalogue : .readEqCatalog ∈ js → eventsRead x (b cfg.eqCatalogFile) = eventsRead x (b' cfg.eqCatalogFile)
  model : .readSourceModel ∈ js → sourcesRead x (b (cfg.sourceModelFile.getD [])) = sourcesRead x (b' (cfg.sourceModelFile.getD []))
  table : .retrieveCompletenessTable ∈ js → ∀ q, cfg.completenessTableFile = some q → tableRead x (b q) = tableRead x (b' q)

theorem events_job (x : Ext F) (cfg : Config F) (w : World F) : readEqCatalogJob x cfg w =
    (eventsRead x (w.fs cfg.eqCatalogFile)).bind fun es => .ok { w with ctx := { w.ctx with eqCatalog := some es } } := by
  unfold readEqCatalogJob eventsRead
  cases w.fs cfg.eqCatalogFile with
  | none => rfl
  | some c => cases c <;> rfl

theorem sources_job (x : Ext F) (cfg : Config F) (w : World F) : readSourceModelJob x cfg w =
    (sourcesRead x (w.fs (cfg.sourceModelFile.getD []))).bind fun areas =>
      (notNone (if areas.isEmpty then w.ctx.smDefinitions else some (areas.map (fun a => ({ area := a } : Source F))))).bind fun _ =>
        .ok { w with ctx := { w.ctx with smDefinitions := if areas.isEmpty then w.ctx.smDefinitions else some (areas.map (fun a => ({ area := a } : Source F))) } } := by
  unfold readSourceModelJob document sourcesRead
  cases w.fs (cfg.sourceModelFile.getD []) with
  | none => rfl
  | some c => cases c with
    | xml e => rfl
    | text t =>
      simp only
      cases x.parseXml t <;> rfl

omit [PyMath F] in
theorem table_job (x : Ext F) (cfg : Config F) (w : World F) : retrieveCompletenessTableJob x cfg w =
    (notNone cfg.completenessTableFile).bind fun path => (tableRead x (w.fs path)).bind fun t =>
      .ok { w with ctx := { w.ctx with completenessTable := some t } } := by
  unfold retrieveCompletenessTableJob tableRead
  cases cfg.completenessTableFile with
  | none => rfl
  | some path =>
    simp only [notNone, bind, Except.bind]
    cases w.fs path with
    | none => rfl
    | some c => cases c <;> rfl

theorem fs_job (x : Ext F) (cfg : Config F) (hp : ∀ q, cfg.pprocessingResultFile = some q → out q)
    (ht : ∀ q, cfg.completenessTableFile = some q → out q) (j : Job) (js : List Job) (hj : j ∈ js) (hin : SameInputs x cfg js b b') (w : World F)
    (g : Text → Option Content) (h : FsRel out b b' w.fs g) : FsJob out b b' (runJob x cfg j w) (runJob x cfg j (w.on g)) := by
  cases j with
  | readEqCatalog =>
    simp only [runJob, events_job, World.on]
    rw [h.via (eventsRead x) (hin.catalogue hj)]
    cases eventsRead x (w.fs cfg.eqCatalogFile) with
    | error e => exact .error _
    | ok es => exact .ok _ g h
  | readSourceModel =>
    simp only [runJob, sources_job, World.on]
    rw [h.via (sourcesRead x) (hin.model hj)]
    cases sourcesRead x (w.fs (cfg.sourceModelFile.getD [])) with
    | error e => exact .error _
    | ok areas =>
      simp only [bind, Except.bind]
      cases notNone (if areas.isEmpty then w.ctx.smDefinitions else some (areas.map (fun a => ({ area := a } : Source F)))) with
      | error e => exact .error _
      | ok _ => exact .ok _ g h
  | createDefaultSourceModel => exact .ok _ g h
  | createCatalogMatrix =>
    simp only [runJob, createCatalogMatrixJob, World.on]
    cases notNone w.ctx.eqCatalog with
    | error e => exact .error _
    | ok es =>
      simp only [bind, Except.bind]
      cases es.mapM matrixRow with
      | error e => exact .error _
      | ok _ => exact .ok _ g h
  | createDefaultValues =>
    simp only [runJob, createDefaultValuesJob, World.on]
    cases notNone w.ctx.workingCatalog with
    | error e => exact .error _
    | ok m =>
      simp only [bind, Except.bind]
      cases m.cols with
      | error e => exact .error _
      | ok rows =>
        simp only
        cases Np.npMin (rows.map (fun r => r 0)) with
        | error e => exact .error _
        | ok y =>
          simp only
          cases Np.npMin (rows.map (fun r => r 5)) with
          | error e => exact .error _
          | ok _ => exact .ok _ g h
  | gardnerKnopoff =>
    simp only [runJob, gardnerKnopoffJob, World.on]
    cases section_ cfg.gardnerKnopoff with
    | error e => exact .error _
    | ok c =>
      simp only [bind, Except.bind]
      cases notNone w.ctx.workingCatalog with
      | error e => exact .error _
      | ok m =>
        simp only
        cases m.cols with
        | error e => exact .error _
        | ok rows =>
          simp only
          cases gardnerKnopoff (fun i : Fin rows.length => rows[i]) c.1 c.2 (x.argsort fun j : Fin rows.length => rows[j] 5)
            (x.argsortInt (flipud (x.argsort fun j : Fin rows.length => rows[j] 5))) with
          | error e => exact .error _
          | ok r => exact .ok _ g h
  | afteran =>
    simp only [runJob, afteranJob, World.on]
    cases section_ cfg.afteran with
    | error e => exact .error _
    | ok c =>
      simp only [bind, Except.bind]
      cases notNone w.ctx.catalogMatrix with
      | error e => exact .error _
      | ok m =>
        simp only
        cases m.cols with
        | error e => exact .error _
        | ok rows =>
          simp only
          cases afteran (fun i : Fin rows.length => rows[i]) c.1 c.2 (x.argsort fun j : Fin rows.length => rows[j] 5)
            (x.argsortInt (flipud (x.argsort fun j : Fin rows.length => rows[j] 5))) with
          | error e => exact .error _
          | ok r => exact .ok _ g h
  | stepp =>
    simp only [runJob, steppJob, World.on]
    cases notNone w.ctx.workingCatalog with
    | error e => exact .error _
    | ok m =>
      simp only [bind, Except.bind]
      cases m.cols with
      | error e => exact .error _
      | ok rows =>
        simp only
        cases section_ cfg.stepp with
        | error e => exact .error _
        | ok c =>
          simp only
          cases Completeness.stepp (yearMag rows) c.magnitudeWindows c.timeWindow c.sensitivity c.incrementLock with
          | error e => exact .error _
          | ok _ => exact .ok _ g h
  | recurrence =>
    simp only [runJob, recurrenceJob]
    rw [show (w.on g).ctx = w.ctx from rfl]
    cases attr w.ctx.currentFilteredEq with
    | error e => exact .error _
    | ok m =>
      simp only [bind, Except.bind]
      cases m.cols with
      | error e => exact .error _
      | ok rows =>
        simp only
        cases section_ cfg.recurrence with
        | error e => exact .error _
        | ok c =>
          simp only
          cases notNone w.ctx.completenessTable with
          | error e => exact .error _
          | ok t =>
            simp only
            cases recurrenceAnalysis (yearMag rows) t c.magnitudeWindow c.algorithm c.referenceMagnitude c.timeWindow x.fuel with
            | error e => exact .error _
            | ok r => cases r with
              | none => exact .none
              | some r => exact fsUpdate w g h _
  | createSelectedEqVector =>
    simp only [runJob, createSelectedEqVectorJob, World.on]
    cases notNone w.ctx.catalogMatrix with
    | error e => exact .error _
    | ok m =>
      simp only [bind, Except.bind]
      cases m.cols with
      | error e => exact .error _
      | ok rows =>
        simp only
        cases notNone w.ctx.completenessTable with
        | error e => exact .error _
        | ok t =>
          simp only
          cases attr w.ctx.flagVector with
          | error e => exact .error _
          | ok f =>
            simp only
            cases Completeness.selectedEqFlagVector (yearMag rows) t f with
            | error e => exact .error _
            | ok _ => exact .ok _ g h
  | storePreprocessedCatalog =>
    simp only [runJob, storePreprocessedCatalogJob, World.on]
    cases hpath : cfg.pprocessingResultFile with
    | none => exact .error _
    | some path =>
      simp only [bind, Except.bind]
      cases hm : mkWriter x.exists_ path with
      | error e => exact .error _
      | ok path' =>
        have : path' = path := by
          unfold mkWriter at hm
          split at hm <;> cases hm
          rfl
        subst this
        simp only
        cases attr w.ctx.selectedEqVector with
        | error e => exact .error _
        | ok sel =>
          simp only
          cases notNone w.ctx.eqCatalog with
          | error e => exact .error _
          | ok es =>
            simp only
            cases (zeros sel).mapM (entryAt es) with
            | error e => exact .error _
            | ok entries =>
              simp only
              cases openWrite x path' with
              | error e => exact .error _
              | ok _ => exact .ok _ _ (h.write (hp _ hpath) _)
  | storeCompletenessTable =>
    simp only [runJob, storeCompletenessTableJob, World.on]
    cases hpath : cfg.completenessTableFile with
    | none => exact .error _
    | some path =>
      simp only [bind, Except.bind]
      cases openWrite x path with
      | error e => exact .error _
      | ok _ =>
        simp only
        cases notNone w.ctx.completenessTable with
        | error e => exact .error _
        | ok t => exact .ok _ _ (h.write (ht _ hpath) _)
  | retrieveCompletenessTable =>
    simp only [runJob, table_job, World.on]
    cases hpath : cfg.completenessTableFile with
    | none => exact .error _
    | some path =>
      simp only [notNone, Except.bind]
      rw [h.via (tableRead x) (hin.table hj path hpath)]
      cases tableRead x (w.fs path) with
      | error e => exact .error _
      | ok _ => exact .ok _ g h
  | maximumMagnitude =>
    simp only [runJob, maximumMagnitudeJob]
    rw [show (w.on g).ctx = w.ctx from rfl]
    cases attr w.ctx.currentFilteredEq with
    | error e => exact .error _
    | ok m =>
      simp only [bind, Except.bind]
      cases m.cols with
      | error e => exact .error _
      | ok rows =>
        simp only
        cases section_ cfg.maximumMagnitude with
        | error e => exact .error _
        | ok c =>
          simp only
          rw [show (w.on g).pos = w.pos from rfl]
          cases analysis (yearMagSigma rows) c (fun i k => x.normal (w.pos + i * rows.length + k)) x.fuel with
          | none => exact .none
          | some r => cases r with
            | error e => exact .error _
            | ok r => exact fsUpdate { w with pos := w.pos + drawn c rows.length } g h _

omit [PyMath F] in
theorem fs_andThen {r r' : Option (Outcome F)} {f f' : World F → Option (Outcome F)} (hr : FsOut out b b' r r')
    (hf : ∀ w g, FsRel out b b' w.fs g → FsOut out b b' (f w) (f' (w.on g))) : FsOut out b b' (andThen r f) (andThen r' f') := by
  cases hr with
  | none => exact .none
  | some e w g h => cases e with
    | none => exact hf w g h
    | some e => exact .some _ _ _ h

theorem fs_pipeline (x : Ext F) (cfg : Config F) (hp : ∀ q, cfg.pprocessingResultFile = some q → out q)
    (ht : ∀ q, cfg.completenessTableFile = some q → out q) (js js' : List Job) (hsub : ∀ j ∈ js, j ∈ js') (hin : SameInputs x cfg js' b b') (w : World F)
    (g : Text → Option Content) (h : FsRel out b b' w.fs g) : FsOut out b b' (runPipeline x cfg js w) (runPipeline x cfg js (w.on g)) := by
  induction js generalizing w g with
  | nil => exact .some _ _ _ h
  | cons j js ih =>
    have hj := fs_job x cfg hp ht j js' (hsub j (by simp)) hin w g h
    rw [runPipeline, runPipeline]
    generalize runJob x cfg j w = r at hj
    generalize runJob x cfg j (w.on g) = r' at hj
    cases hj with
    | none => exact .none
    | error e => exact .some _ _ _ h
    | ok w g h => exact ih (fun j hj => hsub j (by simp [hj])) w g h

theorem fs_sources (x : Ext F) (cfg : Config F) (hp : ∀ q, cfg.pprocessingResultFile = some q → out q)
    (ht : ∀ q, cfg.completenessTableFile = some q → out q) (procs : List Job) (hin : SameInputs x cfg procs b b')
    (filter : Source F → Matrix F → Except PyErr (Matrix F)) (working : Matrix F) (is : List Nat) (w : World F)
    (g : Text → Option Content) (h : FsRel out b b' w.fs g) :
    FsOut out b b' (processSources x cfg filter procs working is w) (processSources x cfg filter procs working is (w.on g)) := by
  induction is generalizing w g with
  | nil => exact .some _ _ _ h
  | cons i is ih =>
    rw [processSources, processSources]
    rw [show (w.on g).ctx.smDefinitions = w.ctx.smDefinitions from rfl]
    cases w.ctx.smDefinitions.bind (·[i]?) with
    | none => exact .some _ _ _ h
    | some s =>
      simp only
      cases filter s working with
      | error e => exact .some _ _ _ h
      | ok m =>
        exact fs_andThen (fs_pipeline x cfg hp ht procs procs (fun _ h => h) hin
          { w with ctx := { w.ctx with curSm := some i, currentFilteredEq := some m } } g h) (fun v q hv => ih v q hv)

theorem fs_start (x : Ext F) (cfg : Config F) (hp : ∀ q, cfg.pprocessingResultFile = some q → out q)
    (ht : ∀ q, cfg.completenessTableFile = some q → out q) (pre procs : List Job) (hpre : SameInputs x cfg pre b b') (hprocs : SameInputs x cfg procs b b')
    (filter : Source F → Matrix F → Except PyErr (Matrix F)) (pos : Nat) :
    FsOut out b b' (start x cfg filter pre procs ⟨b, pos, {}⟩) (start x cfg filter pre procs ⟨b', pos, {}⟩) := by
  unfold start
  refine fs_andThen (fs_pipeline x cfg hp ht pre pre (fun _ h => h) hpre ⟨b, pos, {}⟩ b' (.refl out b b')) ?_
  intro w g h
  split
  · rw [show (w.on g).ctx = w.ctx from rfl]
    cases w.ctx.smDefinitions with
    | none => exact .some _ _ _ h
    | some d =>
      cases w.ctx.workingCatalog with
      | none => exact .some _ _ _ h
      | some wk => exact fs_sources x cfg hp ht procs hprocs filter wk _ w g h
  · exact .some _ _ _ h

omit [PyMath F] in
theorem writeResult_on (x : Ext F) (cfg : Config F) (w : World F) (g : Text → Option Content) :
    writeResult x cfg (w.on g) = (writeResult x cfg w).map
      (fun v => v.on (fun q => if q = cfg.resultFile then v.fs q else g q)) := by
  unfold writeResult
  simp only [World.on]
  cases hm : mkWriter x.exists_ cfg.resultFile with
  | error e => rfl
  | ok path =>
    have : path = cfg.resultFile := by
      unfold mkWriter at hm
      split at hm <;> cases hm
      rfl
    subst this
    simp only [bind, Except.bind]
    cases notNone w.ctx.smDefinitions with
    | error e => rfl
    | ok d =>
      simp only
      cases serialize x.nums (d.map Source.area) with
      | error e => rfl
      | ok doc =>
        simp only
        cases openWrite x cfg.resultFile with
        | error e => rfl
        | ok _ =>
          simp only [World.write, Except.map, Except.ok.injEq, World.mk.injEq, and_true]
          funext q
          by_cases hq : q = cfg.resultFile <;> simp [hq]

omit [PyMath F] in
theorem writeResult_fs {x : Ext F} {cfg : Config F} {w v : World F} (h : writeResult x cfg w = .ok v) :
    v.ctx = w.ctx ∧ v.pos = w.pos ∧ ∀ q, q ≠ cfg.resultFile → v.fs q = w.fs q := by
  unfold writeResult at h
  obtain ⟨path, hm, h⟩ := bind_ok h
  have : path = cfg.resultFile := by
    unfold mkWriter at hm
    split at hm <;> cases hm
    rfl
  subst this
  obtain ⟨d, -, h⟩ := bind_ok h
  obtain ⟨doc, -, h⟩ := bind_ok h
  obtain ⟨_, -, h⟩ := bind_ok h
  cases h
  refine ⟨rfl, rfl, fun q hq => ?_⟩
  simp [World.write, hq]

end

end Verif.Workflow
