import Verif.Model.Configuration
import Verif.Spec.Workflow

/-!
# Vocabulary for the properties of the configuration (C110 to C112)
-/

namespace Verif.Workflow.Spec

open Verif Verif.EqCatalog Verif.Csv Verif.Nrml Verif.Declustering Verif.Recurrence Verif.MaxMag

variable {F : Type}

/-- A path at which no file can be written: its directory does not exist, or the system refuses to open it. -/
def Unusable (x : Ext F) (p : Text) : Prop :=
  (∃ dir file, p = dir ++ '/' :: file ∧ '/' ∉ file ∧ dir ≠ [] ∧ dir.getLast? ≠ some '/' ∧ x.exists_ dir = false) ∨ x.openable p = false

/-- The configuration asks for an intermediate output file. -/
def AsksForOutput (cfg : Config F) : Prop :=
  (cfg.preprocessingJobs ≠ [] ∧ Configured cfg.pprocessingResultFile) ∨
    ∃ n ∈ cfg.preprocessingJobs ++ cfg.processingJobs, n = "Store_eq_catalog" ∨ n = "Store_completeness_table"

/-- A job is listed under a key. -/
def Listed (k : Key (List String)) (name : String) : Prop := ∃ l, k = .given l ∧ name ∈ l

/-- A job is requested: it is listed for the preprocessing, or for the processing and the processing is switched on. -/
def Requested (r : RawConfig F) (name : String) : Prop :=
  Listed r.preprocessingJobs name ∨ (r.applyProcessing = .given true ∧ Listed r.processingJobs name)

/-- Two configurations that differ at most in the sections of jobs that are not requested. -/
structure SameRequests (r r' : RawConfig F) : Prop where
  eqCatalogFile : r.eqCatalogFile = r'.eqCatalogFile
  pprocessingResultFile : r.pprocessingResultFile = r'.pprocessingResultFile
  completenessTableFile : r.completenessTableFile = r'.completenessTableFile
  sourceModelFile : r.sourceModelFile = r'.sourceModelFile
  resultFile : r.resultFile = r'.resultFile
  applyProcessing : r.applyProcessing = r'.applyProcessing
  preprocessingJobs : r.preprocessingJobs = r'.preprocessingJobs
  processingJobs : r.processingJobs = r'.processingJobs
  gardnerKnopoff : Requested r "GardnerKnopoff" → r.gardnerKnopoff = r'.gardnerKnopoff
  afteran : Requested r "Afteran" → r.afteran = r'.afteran
  stepp : Requested r "Stepp" → r.stepp = r'.stepp
  recurrence : Requested r "Recurrence" → r.recurrence = r'.recurrence
  maximumMagnitude : Requested r "MaximumMagnitude" → r.maximumMagnitude = r'.maximumMagnitude

/-- Parameters of the recurrence analysis that agree in what the chosen algorithm uses: the time window is for Weichert's method only. -/
structure SameRecurrence (c c' : RecurrenceConfig F) : Prop where
  magnitudeWindow : c.magnitudeWindow = c'.magnitudeWindow
  algorithm : c.algorithm = c'.algorithm
  referenceMagnitude : c.referenceMagnitude = c'.referenceMagnitude
  timeWindow : c.algorithm = "Weichert" → c.timeWindow = c'.timeWindow

/-- Parameters of the maximum magnitude analysis that agree in what the chosen algorithm uses. -/
structure SameMaxMag (c c' : MaxMagConfig F) : Prop where
  algorithm : c.algorithm = c'.algorithm
  kijko : c.algorithm = "Kijko_Npg" → c.tolerance = c'.tolerance ∧ c.maxIterations = c'.maxIterations ∧ c.neq = c'.neq ∧ c.nsamp = c'.nsamp
  moment : c.algorithm = "Cumulative_Moment" → c.nboot = c'.nboot

/-- Two optional sections that are both absent or agree. -/
def Both {α : Type} (R : α → α → Prop) : Option α → Option α → Prop
  | none, none => True
  | some a, some b => R a b
  | _, _ => False

/-- The section of a job is there with all its parameters. -/
def HasSection (r : RawConfig F) (name : String) : Prop :=
  (name = "GardnerKnopoff" → ∃ a b, r.gardnerKnopoff = .given ⟨some a, some b⟩) ∧
  (name = "Afteran" → ∃ a b, r.afteran = .given ⟨some a, some b⟩) ∧
  (name = "Stepp" → ∃ a b c d, r.stepp = .given ⟨some a, some b, some c, some d⟩) ∧
  (name = "Recurrence" → ∃ a b c d, r.recurrence = .given ⟨some a, some b, some c, some d⟩) ∧
  (name = "MaximumMagnitude" → ∃ a b c d e f, r.maximumMagnitude = .given ⟨some a, some b, some c, some d, some e, some f⟩)

/-- What has to be in the configuration file whatever is requested: the catalogue and the result file by name, the flag, the
two lists of jobs and the source model file, which may have no value. -/
structure HasBasics (r : RawConfig F) : Prop where
  eqCatalogFile : ∃ p, r.eqCatalogFile = .given p
  sourceModelFile : r.sourceModelFile ≠ .missing
  resultFile : ∃ p, r.resultFile = .given p
  applyProcessing : r.applyProcessing ≠ .missing
  preprocessingJobs : r.preprocessingJobs ≠ .missing
  processingJobs : r.processingJobs ≠ .missing

/-- All that a run needs is in the configuration file. -/
structure Complete (r : RawConfig F) : Prop where
  basics : HasBasics r
  outputs : (∃ n, Listed r.preprocessingJobs n) → r.pprocessingResultFile ≠ .missing
  table : (¬ ∃ n, Listed r.preprocessingJobs n) → r.completenessTableFile ≠ .missing
  sections : ∀ n, Requested r n → HasSection r n

/-- A key that is looked up before any file is read or written is missing. -/
def MissingAtStart (r : RawConfig F) : Prop :=
  r.sourceModelFile = .missing ∨ r.preprocessingJobs = .missing ∨ r.processingJobs = .missing ∨
    ((∃ n, Listed r.preprocessingJobs n) ∧ r.pprocessingResultFile = .missing) ∨
    ((¬ ∃ n, Listed r.preprocessingJobs n) ∧ r.completenessTableFile = .missing) ∨ ∀ p, r.eqCatalogFile ≠ .given p

end Verif.Workflow.Spec
