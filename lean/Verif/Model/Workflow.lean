import Verif.Model.Csv
import Verif.Model.Table
import Verif.Model.Declustering
import Verif.Model.Completeness
import Verif.Model.Recurrence
import Verif.Model.MaximumMagnitude
import Verif.Model.Nrml

/-!
# Model of `mtoolkit/jobs.py`, `mtoolkit/workflow.py`, `mtoolkit/catalog_filter.py` and `main.py`

The world of a run is the file system, the position in the random stream and the shared `Context`.  An attribute that may not exist
yet (or is still `None`) is an `Option`.  `context.cur_sm` is the same object as an element of `context.sm_definitions`, so it is modelled
by its position in that list.  A run ends normally, by an exception, or not at all (`none`: the Weichert iteration did not stop
within the fuel).  Logging is left out except for the expressions in it that can raise.
-/

namespace Verif.Workflow

open Verif Verif.EqCatalog Verif.Csv Verif.Nrml Verif.Declustering Verif.Recurrence Verif.MaxMag

/-! ### Data -/

/-- An `AreaSource` object with the attributes attached by the processing jobs (mtoolkit/jobs.py:328-329, 363). -/
structure Source (F : Type) where
  area : AreaSource F
  sigB : Option F := none
  sigA : Option F := none
  maxMagSigma : Option F := none

/-- A numpy array of catalogue rows.  `np.array([])` has one dimension only, so that taking a column of it fails. -/
structure Matrix (F : Type) where
  rows : List (Row F)
  oneD : Bool

/-- `np.array(list_of_rows)`. -/
def Matrix.ofRows {F : Type} (l : List (Row F)) : Matrix F := ⟨l, l.isEmpty⟩

/-- Taking columns, `matrix[:, k]`: the rows, or `IndexError` for a one-dimensional array. -/
def Matrix.cols {F : Type} (m : Matrix F) : Except PyErr (List (Row F)) := if m.oneD then .error .indexError else .ok m.rows

/-- Contents of a file: a text, or an XML document (by its tree). -/
inductive Content where
  | text (t : Text)
  | xml (e : Elem)

/-- Section `Stepp` of the configuration. -/
structure SteppConfig (F : Type) where
  magnitudeWindows : F
  timeWindow : F
  sensitivity : F
  incrementLock : Bool

/-- Section `Recurrence` of the configuration. -/
structure RecurrenceConfig (F : Type) where
  magnitudeWindow : F
  algorithm : String
  referenceMagnitude : F
  timeWindow : F

/-- The configuration (config.yml).  Simplified: the keys of the first part are always present, the values have the documented types; a job
section may be missing. -/
structure Config (F : Type) where
  eqCatalogFile : Text
  pprocessingResultFile : Option Text
  completenessTableFile : Option Text
  sourceModelFile : Option Text
  resultFile : Text
  applyProcessing : Bool
  preprocessingJobs : List String
  processingJobs : List String
  gardnerKnopoff : Option (String × F)
  afteran : Option (String × F)
  stepp : Option (SteppConfig F)
  recurrence : Option (RecurrenceConfig F)
  maximumMagnitude : Option (MaxMagConfig F)

/-- Truth value of an optional text in Python. -/
def truthy : Option Text → Bool
  | some (_ :: _) => true
  | _ => false

/-- `Context` (mtoolkit/workflow.py:208-232) without `config` and `map_sc`, with the attributes added by the jobs. -/
structure Context (F : Type) where
  eqCatalog : Option (List (Entry F)) := none
  smDefinitions : Option (List (Source F)) := none
  catalogMatrix : Option (Matrix F) := none
  workingCatalog : Option (Matrix F) := none
  completenessTable : Option (List (F × F)) := none
  flagVector : Option (List Int) := none
  vcl : Option (List Int) := none
  selectedEqVector : Option (List Int) := none
  curSm : Option Nat := none
  currentFilteredEq : Option (Matrix F) := none

/-- What a run depends on and changes. -/
structure World (F : Type) where
  fs : Text → Option Content
  pos : Nat
  ctx : Context F

/-- What the code takes from its libraries and from the machine. -/
structure Ext (F : Type) where
  /-- `int`, `float` and the current year for the catalogue reader -/
  env : Env F
  /-- iteration order of the row dictionaries -/
  ord : DictOrder
  /-- `repr` and `str` of numbers in the csv writer -/
  show_ : ShowNum F
  /-- `str` and `float` in the NRML writer and reader -/
  nums : NumText F
  /-- `'%10.5f' % x` -/
  fmt5 : F → Text
  /-- the float NaN -/
  nan : F
  /-- XML parsing of a text file -/
  parseXml : Text → Option Elem
  /-- conformance to nrml.xsd -/
  schema : Elem → Bool
  /-- `os.path.exists` -/
  exists_ : Text → Bool
  /-- whether a file can be opened for writing -/
  openable : Text → Bool
  /-- `np.argsort` of floats and of integers -/
  argsort : {n : Nat} → (Fin n → F) → Equiv.Perm (Fin n)
  argsortInt : {n : Nat} → (Fin n → Fin n) → Equiv.Perm (Fin n)
  /-- whether shapely builds a polygon from the points (at least three of them), whether it is valid, and its `contains` -/
  polygonBuilt : List (Point F) → Bool
  polygonValid : List (Point F) → Bool
  contains : List (Point F) → F → F → Bool
  /-- the stream of normal variates -/
  normal : Nat → F
  /-- bound on the iterations of the Weichert method -/
  fuel : Nat

section
variable {F : Type}

/-- An attribute of the context that does not exist. -/
def attr {α : Type} (v : Option α) : Except PyErr α := match v with
  | some a => .ok a
  | none => .error .attributeError

/-- Operating on an attribute that is still `None`. -/
def notNone {α : Type} (v : Option α) : Except PyErr α := match v with
  | some a => .ok a
  | none => .error .typeError

/-- `config[section]`. -/
def section_ {α : Type} (v : Option α) : Except PyErr α := match v with
  | some a => .ok a
  | none => .error .keyError

/-- Writing a file. -/
def World.write (w : World F) (p : Text) (c : Content) : World F := { w with fs := fun q => if q = p then some c else w.fs q }

end

section
variable {F : Type} [PyMath F]

/-! ### Jobs -/

/-- `read_eq_catalog`, mtoolkit/jobs.py:60-72.  An XML document does not start with the header line. -/
def readEqCatalogJob (x : Ext F) (cfg : Config F) (w : World F) : Except PyErr (World F) :=
  match w.fs cfg.eqCatalogFile with
  | none => .error .ioError
  | some (.xml _) => .error .malformedCatalog
  | some (.text t) => do
    let es ← readCatalogFile x.env x.ord t
    .ok { w with ctx := { w.ctx with eqCatalog := some es } }

/-- The document read by `NRMLReader`. -/
def document (x : Ext F) (w : World F) (p : Text) : Except PyErr Elem :=
  match w.fs p with
  | none => .error .ioError
  | some (.xml e) => .ok e
  | some (.text t) => match x.parseXml t with
    | some e => .ok e
    | none => .error .xmlSyntax

/-- `read_source_model`, mtoolkit/jobs.py:75-91.  `context.sm_definitions` is only assigned inside the loop; `len(None)` in the log message
raises `TypeError`. -/
def readSourceModelJob (x : Ext F) (cfg : Config F) (w : World F) : Except PyErr (World F) := do
  let doc ← document x w (cfg.sourceModelFile.getD [])
  let areas ← readDoc x.nums x.schema doc
  let defs := if areas.isEmpty then w.ctx.smDefinitions else some (areas.map (fun a => { area := a }))
  let _ ← notNone defs
  .ok { w with ctx := { w.ctx with smDefinitions := defs } }

/-- `create_default_source_model`, mtoolkit/jobs.py:94-104. -/
def createDefaultSourceModelJob (w : World F) : Except PyErr (World F) :=
  .ok { w with ctx := { w.ctx with smDefinitions := some [{ area := defaultAreaSource }] } }

/-- A value as an element of a float array.  A string would turn the whole array into strings; that does not happen for delivered
entries (C14), and is an error here. -/
def number : Val F → Except PyErr F
  | .int i => .ok (i : F)
  | .flt x => .ok x
  | _ => .error .typeError

/-- `CATALOG_MATRIX_FIXED_COLOUMNS`, mtoolkit/jobs.py:36-37. -/
def fixedColumns : List Fld := [.year, .month, .day, .longitude, .latitude, .mw, .sigmaMw]

/-- Row of the catalogue matrix, mtoolkit/jobs.py:116-118. -/
def matrixRow (e : Entry F) : Except PyErr (Row F) := do
  let xs ← fixedColumns.mapM (fun f => number (e f))
  .ok (fun k => xs.getD k 0)

/-- `create_catalog_matrix`, mtoolkit/jobs.py:107-121. -/
def createCatalogMatrixJob (w : World F) : Except PyErr (World F) := do
  let es ← notNone w.ctx.eqCatalog
  let rows ← es.mapM matrixRow
  .ok { w with ctx := { w.ctx with catalogMatrix := some (.ofRows rows), workingCatalog := some (.ofRows rows) } }

/-- `create_default_values`, mtoolkit/jobs.py:124-137. -/
def createDefaultValuesJob (w : World F) : Except PyErr (World F) := do
  let m ← notNone w.ctx.workingCatalog
  let rows ← m.cols
  let minYear ← Np.npMin (rows.map (fun r => r 0))
  let minMag ← Np.npMin (rows.map (fun r => r 5))
  .ok { w with ctx := { w.ctx with flagVector := some (List.replicate rows.length 0), completenessTable := some [(minYear, minMag)] } }

/-- The result of a declustering, stored in the context (mtoolkit/jobs.py:153-155, 182-184). -/
def storeDeclustered {n : Nat} (w : World F) (r : Result F n) : World F :=
  { w with ctx := { w.ctx with vcl := some (List.ofFn r.vcl), workingCatalog := some ⟨r.vmain, false⟩, flagVector := some (List.ofFn r.flag) } }

/-- `gardner_knopoff`, mtoolkit/jobs.py:140-166: declusters the working catalogue. -/
def gardnerKnopoffJob (x : Ext F) (cfg : Config F) (w : World F) : Except PyErr (World F) := do
  let (opt, fs) ← section_ cfg.gardnerKnopoff
  let m ← notNone w.ctx.workingCatalog
  let rows ← m.cols
  let cat : Fin rows.length → Row F := fun i => rows[i]
  let asc := x.argsort (fun j => cat j 5)
  let r ← gardnerKnopoff cat opt fs asc (x.argsortInt (flipud asc))
  .ok (storeDeclustered w r)

/-- `afteran`, mtoolkit/jobs.py:169-195: declusters the catalogue matrix, not the working catalogue. -/
def afteranJob (x : Ext F) (cfg : Config F) (w : World F) : Except PyErr (World F) := do
  let (opt, tw) ← section_ cfg.afteran
  let m ← notNone w.ctx.catalogMatrix
  let rows ← m.cols
  let cat : Fin rows.length → Row F := fun i => rows[i]
  let asc := x.argsort (fun j => cat j 5)
  let r ← afteran cat opt tw asc (x.argsortInt (flipud asc))
  .ok (storeDeclustered w r)

/-- Year and magnitude of the rows (columns 0 and 5, mtoolkit/jobs.py:34-35). -/
def yearMag (rows : List (Row F)) : List (F × F) := rows.map (fun r => (r 0, r 5))

/-- `stepp`, mtoolkit/jobs.py:198-221. -/
def steppJob (cfg : Config F) (w : World F) : Except PyErr (World F) := do
  let m ← notNone w.ctx.workingCatalog
  let rows ← m.cols
  let c ← section_ cfg.stepp
  let table ← Completeness.stepp (yearMag rows) c.magnitudeWindows c.timeWindow c.sensitivity c.incrementLock
  .ok { w with ctx := { w.ctx with completenessTable := some table } }

/-- `create_selected_eq_vector`, mtoolkit/jobs.py:224-238. -/
def createSelectedEqVectorJob (w : World F) : Except PyErr (World F) := do
  let m ← notNone w.ctx.catalogMatrix
  let rows ← m.cols
  let table ← notNone w.ctx.completenessTable
  let flag ← attr w.ctx.flagVector
  let sel ← Completeness.selectedEqFlagVector (yearMag rows) table flag
  .ok { w with ctx := { w.ctx with selectedEqVector := some sel } }

/-- `np.where(v == 0)[0]`. -/
def zeros (v : List Int) : List Nat := (List.range v.length).filter (fun i => v[i]? = some 0)

/-- `context.eq_catalog[index]`. -/
def entryAt (es : List (Entry F)) (i : Nat) : Except PyErr (Entry F) := match es[i]? with
  | some e => .ok e
  | none => .error .indexError

/-- `open(path, 'w')`. -/
def openWrite (x : Ext F) (p : Text) : Except PyErr Unit := if x.openable p then .ok () else .error .ioError

/-- `store_preprocessed_catalog`, mtoolkit/jobs.py:241-265. -/
def storePreprocessedCatalogJob (x : Ext F) (cfg : Config F) (w : World F) : Except PyErr (World F) := do
  let path ← match cfg.pprocessingResultFile with
    | some p => .ok p
    | none => .error .attributeError
  let path ← mkWriter x.exists_ path
  let sel ← attr w.ctx.selectedEqVector
  let es ← notNone w.ctx.eqCatalog
  let entries ← (zeros sel).mapM (entryAt es)
  openWrite x path
  .ok (w.write path (.text (writeCatalog x.show_ entries)))

/-- `store_completeness_table`, mtoolkit/jobs.py:268-281. -/
def storeCompletenessTableJob (x : Ext F) (cfg : Config F) (w : World F) : Except PyErr (World F) := do
  let path ← match cfg.completenessTableFile with
    | some p => .ok p
    | none => .error .valueError
  openWrite x path
  let table ← notNone w.ctx.completenessTable
  .ok (w.write path (.text (Table.saveTable x.fmt5 table)))

/-- `retrieve_completeness_table`, mtoolkit/jobs.py:284-297.  Simplified: an XML document is not a table (`ValueError`). -/
def retrieveCompletenessTableJob (x : Ext F) (cfg : Config F) (w : World F) : Except PyErr (World F) := do
  let path ← notNone cfg.completenessTableFile
  match w.fs path with
  | none => .error .ioError
  | some (.xml _) => .error .valueError
  | some (.text t) => do
    let table ← Table.loadTable x.nums.float x.nan t
    .ok { w with ctx := { w.ctx with completenessTable := some table } }

/-- Replaces the Gutenberg-Richter parameters of the current source (`_replace` on the two named tuples, mtoolkit/jobs.py:319-326, 356-361). -/
def Source.setTgr (s : Source F) (f : Tgr F → Tgr F) : Source F :=
  { s with area := { s.area with rate := { s.area.rate with tgr := f s.area.rate.tgr } } }

/-- Changes the object `context.cur_sm`. -/
def updateCurrent (w : World F) (f : Source F → Source F) : Except PyErr (World F) := do
  let i ← attr w.ctx.curSm
  let defs ← notNone w.ctx.smDefinitions
  if i < defs.length then .ok { w with ctx := { w.ctx with smDefinitions := some (defs.modify i f) } } else .error .attributeError

/-- What `recurrence` writes to the source (mtoolkit/jobs.py:319-329). -/
def withRecurrence (ref : F) (g : GR F) (s : Source F) : Source F :=
  { s.setTgr (fun t => { t with aValue := g.a, bValue := g.b, minMagnitude := ref }) with sigB := some g.sigb, sigA := some g.siga }

/-- `recurrence`, mtoolkit/jobs.py:300-332. -/
def recurrenceJob (x : Ext F) (cfg : Config F) (w : World F) : Option (Except PyErr (World F)) :=
  let args : Except PyErr (List (Row F) × List (F × F) × RecurrenceConfig F) := do
    let m ← attr w.ctx.currentFilteredEq
    let rows ← m.cols
    let c ← section_ cfg.recurrence
    let table ← notNone w.ctx.completenessTable
    .ok (rows, table, c)
  match args with
  | .error e => some (.error e)
  | .ok (rows, table, c) =>
    match recurrenceAnalysis (yearMag rows) table c.magnitudeWindow c.algorithm c.referenceMagnitude c.timeWindow x.fuel with
    | .error e => some (.error e)
    | .ok none => none
    | .ok (some g) => some (updateCurrent w (withRecurrence c.referenceMagnitude g))

/-- Year, magnitude and uncertainty of the rows (columns 0, 5 and 6, mtoolkit/jobs.py:34-39). -/
def yearMagSigma (rows : List (Row F)) : List (MEvent F) := rows.map (fun r => ⟨r 0, r 5, r 6⟩)

/-- What `maximum_magnitude` writes to the source (mtoolkit/jobs.py:356-363). -/
def withMaxMag (p : F × F) (s : Source F) : Source F :=
  { s.setTgr (fun t => { t with maxMagnitude := p.1 }) with maxMagSigma := some p.2 }

/-- Number of normal variates drawn by the analysis. -/
def drawn (c : MaxMagConfig F) (n : Nat) : Nat := if c.algorithm = "Cumulative_Moment" then c.nboot * n else 0

/-- `maximum_magnitude`, mtoolkit/jobs.py:335-366. -/
def maximumMagnitudeJob (x : Ext F) (cfg : Config F) (w : World F) : Option (Except PyErr (World F)) :=
  let args : Except PyErr (List (Row F) × MaxMagConfig F) := do
    let m ← attr w.ctx.currentFilteredEq
    let rows ← m.cols
    let c ← section_ cfg.maximumMagnitude
    .ok (rows, c)
  match args with
  | .error e => some (.error e)
  | .ok (rows, c) =>
    match analysis (yearMagSigma rows) c (fun i k => x.normal (w.pos + i * rows.length + k)) x.fuel with
    | none => none
    | some (.error e) => some (.error e)
    | some (.ok p) => some (updateCurrent { w with pos := w.pos + drawn c rows.length } (withMaxMag p))

/-! ### Pipelines -/

/-- The callables of mtoolkit/jobs.py. -/
inductive Job where
  | readEqCatalog | readSourceModel | createDefaultSourceModel | createCatalogMatrix | createDefaultValues
  | gardnerKnopoff | afteran | stepp | recurrence | createSelectedEqVector | storePreprocessedCatalog
  | storeCompletenessTable | retrieveCompletenessTable | maximumMagnitude
deriving DecidableEq, Repr

/-- Calling a job. -/
def runJob (x : Ext F) (cfg : Config F) (j : Job) (w : World F) : Option (Except PyErr (World F)) :=
  match j with
  | .readEqCatalog => some (readEqCatalogJob x cfg w)
  | .readSourceModel => some (readSourceModelJob x cfg w)
  | .createDefaultSourceModel => some (createDefaultSourceModelJob w)
  | .createCatalogMatrix => some (createCatalogMatrixJob w)
  | .createDefaultValues => some (createDefaultValuesJob w)
  | .gardnerKnopoff => some (gardnerKnopoffJob x cfg w)
  | .afteran => some (afteranJob x cfg w)
  | .stepp => some (steppJob cfg w)
  | .recurrence => recurrenceJob x cfg w
  | .createSelectedEqVector => some (createSelectedEqVectorJob w)
  | .storePreprocessedCatalog => some (storePreprocessedCatalogJob x cfg w)
  | .storeCompletenessTable => some (storeCompletenessTableJob x cfg w)
  | .retrieveCompletenessTable => some (retrieveCompletenessTableJob x cfg w)
  | .maximumMagnitude => maximumMagnitudeJob x cfg w

/-- How a run ended: the exception raised, if any, and the world it left. -/
structure Outcome (F : Type) where
  raised : Option PyErr
  world : World F

/-- Running two steps one after the other; the second only if the first did not raise. -/
def andThen (r : Option (Outcome F)) (f : World F → Option (Outcome F)) : Option (Outcome F) :=
  match r with
  | none => none
  | some ⟨some e, w⟩ => some ⟨some e, w⟩
  | some ⟨none, w⟩ => f w

/-- `PipeLine.run`, mtoolkit/workflow.py:84-96.  A job that raises has changed nothing observable (see the comments at the jobs). -/
def runPipeline (x : Ext F) (cfg : Config F) : List Job → World F → Option (Outcome F)
  | [], w => some ⟨none, w⟩
  | j :: js, w => match runJob x cfg j w with
    | none => none
    | some (.error e) => some ⟨some e, w⟩
    | some (.ok w') => runPipeline x cfg js w'

/-- `map_job_callable`, mtoolkit/workflow.py:109-122. -/
def jobCallable : String → Option Job
  | "GardnerKnopoff" => some .gardnerKnopoff
  | "Afteran" => some .afteran
  | "Stepp" => some .stepp
  | "Recurrence" => some .recurrence
  | "Create_eq_vector" => some .createSelectedEqVector
  | "Store_eq_catalog" => some .storePreprocessedCatalog
  | "Store_completeness_table" => some .storeCompletenessTable
  | "Retrieve_completeness_table" => some .retrieveCompletenessTable
  | "MaximumMagnitude" => some .maximumMagnitude
  | _ => none

/-- `append_jobs`, mtoolkit/workflow.py:134-147. -/
def appendJobs (pipeline : List Job) : List String → Except PyErr (List Job)
  | [] => .ok pipeline
  | name :: names => match jobCallable name with
    | some j => appendJobs (pipeline ++ [j]) names
    | none => .error (.runtimeError ("Invalid job: " ++ name))

/-- `PreprocessingBuilder.build`, mtoolkit/workflow.py:159-187. -/
def buildPreprocessing (cfg : Config F) : Except PyErr (List Job) := do
  let source := if truthy cfg.sourceModelFile then Job.readSourceModel else .createDefaultSourceModel
  let pipeline := [.readEqCatalog, source, .createCatalogMatrix, .createDefaultValues]
  if !cfg.preprocessingJobs.isEmpty then
    let pipeline ← appendJobs pipeline cfg.preprocessingJobs
    if truthy cfg.pprocessingResultFile then
      .ok (pipeline ++ [.createSelectedEqVector] ++ [.storePreprocessedCatalog] ++ [.storeCompletenessTable])
    else .ok pipeline
  else if truthy cfg.completenessTableFile then .ok (pipeline ++ [.retrieveCompletenessTable])
  else .ok pipeline

/-- `ProcessingBuilder.build`, mtoolkit/workflow.py:198-205. -/
def buildProcessing (cfg : Config F) : Except PyErr (List Job) :=
  if !cfg.processingJobs.isEmpty then appendJobs [] cfg.processingJobs else .ok []

/-! ### Filters -/

/-- `SourceModelCatalogFilter.filter_eqs`, mtoolkit/catalog_filter.py:63-105 (longitude in column 3, latitude in column 4). -/
def sourceModelFilter (x : Ext F) (s : Source F) (cat : Matrix F) : Except PyErr (Matrix F) := do
  let poly := s.area.boundary.posList
  if !x.polygonBuilt poly then throw .valueError
  if !x.polygonValid poly then throw (.runtimeError "Polygon invalid")
  .ok (.ofRows (cat.rows.filter (fun r => x.contains poly (r 3) (r 4))))

/-- `NullCatalogFilter.filter_eqs`, mtoolkit/catalog_filter.py:115-116. -/
def nullFilter (_ : Source F) (cat : Matrix F) : Except PyErr (Matrix F) := .ok cat

/-- The filter chosen by main.py:49-52. -/
def chosenFilter (x : Ext F) (cfg : Config F) : Source F → Matrix F → Except PyErr (Matrix F) :=
  if truthy cfg.sourceModelFile then sourceModelFilter x else nullFilter

/-! ### Workflow -/

/-- The loop of `Workflow.start` (mtoolkit/workflow.py:252-257) over the generator `CatalogFilter.filter_eqs` (mtoolkit/catalog_filter.py:44-50): the source
list and the working catalogue are those at the start of the loop, each source is filtered when its turn comes. -/
def processSources (x : Ext F) (cfg : Config F) (filter : Source F → Matrix F → Except PyErr (Matrix F)) (procs : List Job)
    (working : Matrix F) : List Nat → World F → Option (Outcome F)
  | [], w => some ⟨none, w⟩
  | i :: is, w => match w.ctx.smDefinitions.bind (·[i]?) with
    | none => some ⟨some .typeError, w⟩
    | some s => match filter s working with
      | .error e => some ⟨some e, w⟩
      | .ok m => andThen (runPipeline x cfg procs { w with ctx := { w.ctx with curSm := some i, currentFilteredEq := some m } })
          (processSources x cfg filter procs working is)

/-- `Workflow.start`, mtoolkit/workflow.py:246-257. -/
def start (x : Ext F) (cfg : Config F) (filter : Source F → Matrix F → Except PyErr (Matrix F)) (pre procs : List Job) (w : World F) :
    Option (Outcome F) :=
  andThen (runPipeline x cfg pre w) fun w =>
    if cfg.applyProcessing then
      match w.ctx.smDefinitions, w.ctx.workingCatalog with
      | some defs, some working => processSources x cfg filter procs working (List.range defs.length) w
      | _, _ => some ⟨some .typeError, w⟩
    else some ⟨none, w⟩

/-- Writing the results, main.py:57-58. -/
def writeResult (x : Ext F) (cfg : Config F) (w : World F) : Except PyErr (World F) := do
  let path ← mkWriter x.exists_ cfg.resultFile
  let defs ← notNone w.ctx.smDefinitions
  let doc ← serialize x.nums (defs.map Source.area)
  openWrite x path
  .ok (w.write path (.xml doc))

/-- main.py:43-58 after the configuration is read: both pipelines are built, the workflow is run, the result is written.  `Context()` starts
empty. -/
def main (x : Ext F) (cfg : Config F) (fs : Text → Option Content) (pos : Nat) : Option (Outcome F) :=
  let w : World F := ⟨fs, pos, {}⟩
  match buildPreprocessing cfg with
  | .error e => some ⟨some e, w⟩
  | .ok pre => match buildProcessing cfg with
    | .error e => some ⟨some e, w⟩
    | .ok procs => andThen (start x cfg (chosenFilter x cfg) pre procs w) fun w =>
        match writeResult x cfg w with
        | .error e => some ⟨some e, w⟩
        | .ok w' => some ⟨none, w'⟩

end

end Verif.Workflow
