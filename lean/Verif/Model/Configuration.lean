import Verif.Model.Workflow

/-!
# Model of the use of the configuration dictionary: mtoolkit/workflow.py, mtoolkit/jobs.py and main.py

`Context` (mtoolkit/workflow.py:220-223) keeps the configuration as the dictionary delivered by `yaml.load` and never checks it; every key is
looked up where it is used.  `Model/Workflow` runs a configuration in which the keys are there.  Here keys may be missing or have no value; the
lookups are made in the order of the code, and the rest of each step is that of `Model/Workflow`.  Simplified: a value that is there has
the documented type, and a list of jobs or a flag without value is empty or false.
-/

namespace Verif.Workflow

open Verif Verif.EqCatalog Verif.Csv Verif.Nrml Verif.Declustering Verif.Recurrence Verif.MaxMag

/-- A key of a dictionary: it is not there, it has no value (`None`), or it has one. -/
inductive Key (α : Type) where
  | missing
  | null
  | given (a : α)

/-- `config[key]` of which `None` is acceptable. -/
def Key.get {α : Type} : Key α → Except PyErr (Option α)
  | .missing => .error .keyError
  | .null => .ok none
  | .given a => .ok (some a)

/-- The value, if any. -/
def Key.toOption {α : Type} : Key α → Option α
  | .given a => some a
  | _ => none

/-- `config[section]` followed by a lookup in it: `None` has no items. -/
def Key.section_ {α : Type} : Key α → Except PyErr α
  | .missing => .error .keyError
  | .null => .error .typeError
  | .given a => .ok a

/-- Lookup of a parameter. -/
def param {α : Type} : Option α → Except PyErr α
  | none => .error .keyError
  | some a => .ok a

/-- Sections `GardnerKnopoff` and `Afteran`: kind of windows and time window. -/
structure RawDecluster (F : Type) where
  timeDistWindows : Option String
  timeWindow : Option F

/-- Section `Stepp`. -/
structure RawStepp (F : Type) where
  magnitudeWindows : Option F
  timeWindow : Option F
  sensitivity : Option F
  incrementLock : Option Bool

/-- Section `Recurrence`. -/
structure RawRecurrence (F : Type) where
  magnitudeWindow : Option F
  algorithm : Option String
  referenceMagnitude : Option F
  timeWindow : Option F

/-- Section `MaximumMagnitude`. -/
structure RawMaxMag (F : Type) where
  algorithm : Option String
  tolerance : Option F
  maxIterations : Option Nat
  neq : Option Nat
  nsamp : Option F
  nboot : Option Nat

/-- The dictionary read from the configuration file. -/
structure RawConfig (F : Type) where
  eqCatalogFile : Key Text
  pprocessingResultFile : Key Text
  completenessTableFile : Key Text
  sourceModelFile : Key Text
  resultFile : Key Text
  applyProcessing : Key Bool
  preprocessingJobs : Key (List String)
  processingJobs : Key (List String)
  gardnerKnopoff : Key (RawDecluster F)
  afteran : Key (RawDecluster F)
  stepp : Key (RawStepp F)
  recurrence : Key (RawRecurrence F)
  maximumMagnitude : Key (RawMaxMag F)

section
variable {F : Type}

/-- The two parameters of a declustering job, mtoolkit/jobs.py:150-151, 179-180. -/
def RawDecluster.params (r : RawDecluster F) : Except PyErr (String × F) := do
  let o ← param r.timeDistWindows
  let t ← param r.timeWindow
  .ok (o, t)

/-- The parameters of `stepp`, mtoolkit/jobs.py:209-212. -/
def RawStepp.params (r : RawStepp F) : Except PyErr (SteppConfig F) := do
  let m ← param r.magnitudeWindows
  let t ← param r.timeWindow
  let s ← param r.sensitivity
  let l ← param r.incrementLock
  .ok ⟨m, t, s, l⟩

/-- The parameters of `recurrence`, mtoolkit/jobs.py:314-317. -/
def RawRecurrence.params (r : RawRecurrence F) : Except PyErr (RecurrenceConfig F) := do
  let m ← param r.magnitudeWindow
  let a ← param r.algorithm
  let f ← param r.referenceMagnitude
  let t ← param r.timeWindow
  .ok ⟨m, a, f, t⟩

/-- The parameters of `maximum_magnitude`, mtoolkit/jobs.py:349-354. -/
def RawMaxMag.params (r : RawMaxMag F) : Except PyErr (MaxMagConfig F) := do
  let a ← param r.algorithm
  let t ← param r.tolerance
  let i ← param r.maxIterations
  let n ← param r.neq
  let s ← param r.nsamp
  let b ← param r.nboot
  .ok ⟨a, t, i, n, s, b⟩

/-- A section with all its parameters. -/
def whole {α β : Type} (k : Key α) (params : α → Except PyErr β) : Option β :=
  match k with
  | .given a => match params a with
    | .ok b => some b
    | .error _ => none
  | _ => none

/-- The record of `Model/Workflow`; it is only used by steps that have looked up the keys they need. -/
def RawConfig.config (r : RawConfig F) : Config F where
  eqCatalogFile := r.eqCatalogFile.toOption.getD []
  pprocessingResultFile := r.pprocessingResultFile.toOption
  completenessTableFile := r.completenessTableFile.toOption
  sourceModelFile := r.sourceModelFile.toOption
  resultFile := r.resultFile.toOption.getD []
  applyProcessing := r.applyProcessing.toOption.getD false
  preprocessingJobs := r.preprocessingJobs.toOption.getD []
  processingJobs := r.processingJobs.toOption.getD []
  gardnerKnopoff := whole r.gardnerKnopoff RawDecluster.params
  afteran := whole r.afteran RawDecluster.params
  stepp := whole r.stepp RawStepp.params
  recurrence := whole r.recurrence RawRecurrence.params
  maximumMagnitude := whole r.maximumMagnitude RawMaxMag.params

/-- `PreprocessingBuilder.build`, mtoolkit/workflow.py:159-187: the lookups. -/
def preprocessingKeys (r : RawConfig F) : Except PyErr Unit := do
  let _ ← r.sourceModelFile.get
  let jobs ← r.preprocessingJobs.get
  match jobs with
  | some (name :: names) =>
    let _ ← appendJobs [] (name :: names)
    let _ ← r.pprocessingResultFile.get
    .ok ()
  | _ =>
    let _ ← r.completenessTableFile.get
    .ok ()

/-- The lookups of a job in the configuration, with what is evaluated before them: mtoolkit/jobs.py:68 (`open(None)` raises `TypeError`), 85, 148-151, 177-180, 206-212,
252, 278, 294, 309-317, 345-354. -/
def jobKeys (r : RawConfig F) (j : Job) (w : World F) : Except PyErr Unit :=
  match j with
  | .readEqCatalog => do
    let p ← r.eqCatalogFile.get
    let _ ← notNone p
    .ok ()
  | .readSourceModel => do
    let p ← r.sourceModelFile.get
    let _ ← notNone p
    .ok ()
  | .gardnerKnopoff => do
    let c ← r.gardnerKnopoff.section_
    let _ ← c.params
    .ok ()
  | .afteran => do
    let c ← r.afteran.section_
    let _ ← c.params
    .ok ()
  | .stepp => do
    let m ← notNone w.ctx.workingCatalog
    let _ ← m.cols
    let c ← r.stepp.section_
    let _ ← c.params
    .ok ()
  | .recurrence => do
    let m ← attr w.ctx.currentFilteredEq
    let _ ← m.cols
    let c ← r.recurrence.section_
    let _ ← c.params
    .ok ()
  | .maximumMagnitude => do
    let m ← attr w.ctx.currentFilteredEq
    let _ ← m.cols
    let c ← r.maximumMagnitude.section_
    let _ ← c.params
    .ok ()
  | .storePreprocessedCatalog => do
    let _ ← r.pprocessingResultFile.get
    .ok ()
  | .storeCompletenessTable => do
    let _ ← r.completenessTableFile.get
    .ok ()
  | .retrieveCompletenessTable => do
    let _ ← r.completenessTableFile.get
    .ok ()
  | _ => .ok ()

end

section
variable {F : Type} [PyMath F]

/-- Calling a job. -/
def rawJob (x : Ext F) (r : RawConfig F) (j : Job) (w : World F) : Option (Except PyErr (World F)) :=
  match jobKeys r j w with
  | .error e => some (.error e)
  | .ok _ => runJob x r.config j w

/-- `PipeLine.run`, mtoolkit/workflow.py:84-96. -/
def rawPipeline (x : Ext F) (r : RawConfig F) : List Job → World F → Option (Outcome F)
  | [], w => some ⟨none, w⟩
  | j :: js, w => match rawJob x r j w with
    | none => none
    | some (.error e) => some ⟨some e, w⟩
    | some (.ok w') => rawPipeline x r js w'

/-- The loop over the sources, mtoolkit/workflow.py:252-257. -/
def rawSources (x : Ext F) (r : RawConfig F) (procs : List Job) (working : Matrix F) : List Nat → World F → Option (Outcome F)
  | [], w => some ⟨none, w⟩
  | i :: is, w => match w.ctx.smDefinitions.bind (·[i]?) with
    | none => some ⟨some .typeError, w⟩
    | some s => match chosenFilter x r.config s working with
      | .error e => some ⟨some e, w⟩
      | .ok m => andThen (rawPipeline x r procs { w with ctx := { w.ctx with curSm := some i, currentFilteredEq := some m } })
          (rawSources x r procs working is)

/-- `Workflow.start`, mtoolkit/workflow.py:246-257. -/
def rawStart (x : Ext F) (r : RawConfig F) (pre procs : List Job) (w : World F) : Option (Outcome F) :=
  andThen (rawPipeline x r pre w) fun w =>
    match r.applyProcessing.get with
    | .error e => some ⟨some e, w⟩
    | .ok b =>
      if b.getD false then
        match w.ctx.smDefinitions, w.ctx.workingCatalog with
        | some defs, some working => rawSources x r procs working (List.range defs.length) w
        | _, _ => some ⟨some .typeError, w⟩
      else some ⟨none, w⟩

/-- Writing the results, main.py:57-58; `os.path.dirname(None)` raises `AttributeError`. -/
def rawWriteResult (x : Ext F) (r : RawConfig F) (w : World F) : Except PyErr (World F) := do
  let p ← r.resultFile.get
  let _ ← attr p
  writeResult x r.config w

/-- The two pipelines, main.py:45-47. -/
def rawBuild (r : RawConfig F) : Except PyErr (List Job × List Job) := do
  preprocessingKeys r
  let pre ← buildPreprocessing r.config
  let _ ← r.processingJobs.get
  let procs ← buildProcessing r.config
  .ok (pre, procs)

/-- main.py:43-58 with the dictionary of the configuration file. -/
def rawMain (x : Ext F) (r : RawConfig F) (fs : Text → Option Content) (pos : Nat) : Option (Outcome F) :=
  let w : World F := ⟨fs, pos, {}⟩
  match rawBuild r with
  | .error e => some ⟨some e, w⟩
  | .ok (pre, procs) => andThen (rawStart x r pre procs w) fun w =>
      match rawWriteResult x r w with
      | .error e => some ⟨some e, w⟩
      | .ok w' => some ⟨none, w'⟩

end

end Verif.Workflow
