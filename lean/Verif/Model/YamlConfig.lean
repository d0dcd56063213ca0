import Verif.Model.YamlScalar
import Verif.Model.Configuration

/-!
# Model of the text of configuration files

`Context.__init__` (mtoolkit/workflow.py:224-226) reads the configuration with `yaml.load`.  Modelled here is the part of YAML that config.yml and tests/data/*.yml use: a block mapping of
words to plain scalars, to lists of plain scalars (`- item` lines) and to flow mappings (`{`, one entry per line, `}`), with comments, blank lines and indentation of the entries of flow
mappings; plain scalars are typed by `Model/YamlScalar`.  `document` is `none` for everything else that YAML allows or rejects (quoted texts, nested or indented blocks, anchors, several
documents, characters outside printable ASCII except in comments) and for the empty document.  `config` makes the record of `Model/Configuration` from the dictionary; it is `none` when a value does not
have its documented type.
-/

namespace Verif.Yaml

open Verif Verif.EqCatalog Verif.Workflow

/-- A value of the mapping, scalars as their texts; no text is an empty one. -/
inductive Node where
  | scalar (t : Text)
  | list (ts : List Text)
  | map (es : List (Text × Text))
deriving DecidableEq

abbrev Doc := List (Text × Node)

/-- Characters of keys. -/
def wordChar (c : Char) : Bool := c.isAlphanum || c == '_'

/-- A comment begins with a `#` at the beginning of the line or after a space; the flag says whether it could begin here. -/
def uncomment : Bool → Text → Text
  | _, [] => []
  | b, c :: cs => if b && c == '#' then [] else c :: uncomment (c == ' ') cs

def rstrip (t : Text) : Text := (t.reverse.dropWhile (· == ' ')).reverse

/-- Indentation and text of a line without comment and spaces at the end. -/
def clean (l : Text) : ℕ × Text :=
  let t := rstrip (uncomment true l)
  ((t.takeWhile (· == ' ')).length, t.dropWhile (· == ' '))

/-- No colon followed by a space or at the end. -/
def noMapping : Text → Bool
  | [] => true
  | [c] => c != ':'
  | c :: d :: cs => !(c == ':' && d == ' ') && noMapping (d :: cs)

/-- The first character of a plain scalar: none of the indicators, or a `-` not followed by a space. -/
def plainStart : Text → Bool
  | '-' :: c :: _ => c != ' '
  | c :: _ => !("-?:,[]{}#&*!|>'\"%@`~ ".toList.contains c)
  | [] => false

/-- The texts accepted as plain scalars, in a flow mapping or outside.  (`~` is a plain scalar too, left out here.) -/
def plain (flow : Bool) (t : Text) : Bool :=
  plainStart t && t.all (fun c => decide (32 ≤ c.toNat ∧ c.toNat ≤ 126)) && noMapping t && (uncomment true t == t) && (t.getLast? != some ' ') &&
    (!flow || t.all fun c => !(",[]{}:?".toList.contains c))

/-- `key: value` or `key:`. -/
def entry (t : Text) : Option (Text × Text) :=
  let k := t.takeWhile wordChar
  if k = [] then none else
  match t.dropWhile wordChar with
  | [':'] => some (k, [])
  | ':' :: ' ' :: v => some (k, v.dropWhile (· == ' '))
  | _ => none

/-- The `- item` lines at the beginning, and the lines after them. -/
def items : List (ℕ × Text) → List Text × List (ℕ × Text)
  | (0, '-' :: ' ' :: v) :: ls =>
    if plain false (v.dropWhile (· == ' ')) then (v.dropWhile (· == ' ') :: (items ls).1, (items ls).2) else ([], (0, '-' :: ' ' :: v) :: ls)
  | ls => ([], ls)

/-- An entry of a flow mapping. -/
def flowEntry (t : Text) : Option (Text × Text) :=
  match entry t with
  | some (k, v) => if v = [] || plain true v then some (k, v) else none
  | none => none

/-- The entries up to the closing brace, and the lines after it. -/
def flow : List (ℕ × Text) → Option (List (Text × Text) × List (ℕ × Text))
  | [] => none
  | (_, t) :: ls =>
    if t = ['}'] then some ([], ls) else
    if t.getLast? = some ',' then
      match flowEntry (rstrip t.dropLast), flow ls with
      | some e, some (es, r) => some (e :: es, r)
      | _, _ => none
    else
      match flowEntry t, ls with
      | some e, (_, u) :: r => if u = ['}'] then some ([e], r) else none
      | _, _ => none

/-- The entries of the block mapping. -/
def block : ℕ → List (ℕ × Text) → Option Doc
  | _, [] => some []
  | 0, _ => none
  | n + 1, (i, t) :: ls =>
    if i ≠ 0 then none else
    match entry t with
    | none => none
    | some (k, v) =>
      if v = [] then
        match items ls with
        | ([], _) => (block n ls).map ((k, .scalar []) :: ·)
        | (vs, r) => (block n r).map ((k, .list vs) :: ·)
      else if v = ['{'] then
        match flow ls with
        | some (es, r) => (block n r).map ((k, .map es) :: ·)
        | none => none
      else if plain false v then (block n ls).map ((k, .scalar v) :: ·) else none

/-- The lines with something in them. -/
def contents (ls : List Text) : List (ℕ × Text) := (ls.map clean).filter fun l => l.2 ≠ []

/-- `yaml.load` of a text. -/
def document (t : Text) : Option Doc :=
  match contents (t.splitOn '\n') with
  | [] => none
  | ls => block ls.length ls

/-! ### The dictionary -/

/-- The value of a key; of several entries with the same key the last one stays. -/
def lookup {α : Type} (k : String) (d : List (Text × α)) : Option α := (d.reverse.find? fun e => e.1 = k.toList).map Prod.snd

def textKey (k : String) (d : Doc) : Option (Key Text) :=
  match lookup k d with
  | none => some .missing
  | some (.scalar t) => match scalar t with
    | .null => some .null
    | .str t => some (.given t)
    | _ => none
  | some _ => none

def boolKey (k : String) (d : Doc) : Option (Key Bool) :=
  match lookup k d with
  | none => some .missing
  | some (.scalar t) => match scalar t with
    | .null => some .null
    | .bool b => some (.given b)
    | _ => none
  | some _ => none

def strOf (t : Text) : Option String :=
  match scalar t with
  | .str t => some (String.ofList t)
  | _ => none

/-- `map f` when `f` has a value everywhere. -/
def allOf {α β : Type} (f : α → Option β) : List α → Option (List β)
  | [] => some []
  | a :: as => match f a, allOf f as with
    | some b, some bs => some (b :: bs)
    | _, _ => none

def listKey (k : String) (d : Doc) : Option (Key (List String)) :=
  match lookup k d with
  | none => some .missing
  | some (.scalar t) => match scalar t with
    | .null => some .null
    | _ => none
  | some (.list ts) => (allOf strOf ts).map .given
  | some _ => none

/-- A parameter of a section read by `f`. -/
def paramKey {α : Type} (f : Text → Option α) (k : String) (es : List (Text × Text)) : Option (Option α) :=
  match lookup k es with
  | none => some none
  | some t => (f t).map some

/-- A floating point number.  Used for `reference_magnitude`, which is not only computed with but also written to the result by `str` (mtoolkit/jobs.py:322, nrml/writer.py:237): an integer
would be written without a decimal point, which is not modelled. -/
def decimalOf (t : Text) : Option Dbl :=
  match scalar t with
  | .float x => some x
  | _ => none

/-- A floating point number, or an integer used as one: these parameters only occur in arithmetic and comparisons with floating point numbers. -/
def numOf (t : Text) : Option Dbl :=
  match scalar t with
  | .float x => some x
  | .int z => some (z : Dbl)
  | _ => none

def natOf (t : Text) : Option ℕ :=
  match scalar t with
  | .int z => if 0 ≤ z then some z.toNat else none
  | _ => none

def boolOf (t : Text) : Option Bool :=
  match scalar t with
  | .bool b => some b
  | _ => none

def sectionKey {α : Type} (f : List (Text × Text) → Option α) (k : String) (d : Doc) : Option (Key α) :=
  match lookup k d with
  | none => some .missing
  | some (.scalar t) => match scalar t with
    | .null => some .null
    | _ => none
  | some (.map es) => (f es).map .given
  | some _ => none

/-- Sections `GardnerKnopoff` (mtoolkit/jobs.py:150-151) and `Afteran` (mtoolkit/jobs.py:179-180). -/
def declusterOf (window : String) (es : List (Text × Text)) : Option (RawDecluster Dbl) := do
  let o ← paramKey strOf "time_dist_windows" es
  let t ← paramKey numOf window es
  some ⟨o, t⟩

/-- Section `Stepp`, mtoolkit/jobs.py:209-212. -/
def steppOf (es : List (Text × Text)) : Option (RawStepp Dbl) := do
  let m ← paramKey numOf "magnitude_windows" es
  let t ← paramKey numOf "time_window" es
  let s ← paramKey numOf "sensitivity" es
  let l ← paramKey boolOf "increment_lock" es
  some ⟨m, t, s, l⟩

/-- Section `Recurrence`, mtoolkit/jobs.py:314-317. -/
def recurrenceOf (es : List (Text × Text)) : Option (RawRecurrence Dbl) := do
  let m ← paramKey numOf "magnitude_window" es
  let a ← paramKey strOf "recurrence_algorithm" es
  let f ← paramKey decimalOf "reference_magnitude" es
  let t ← paramKey numOf "time_window" es
  some ⟨m, a, f, t⟩

/-- Section `MaximumMagnitude`, mtoolkit/jobs.py:349-354. -/
def maximumOf (es : List (Text × Text)) : Option (RawMaxMag Dbl) := do
  let a ← paramKey strOf "maxim_mag_algorithm" es
  let t ← paramKey numOf "iteration_tolerance" es
  let i ← paramKey natOf "maximum_iterations" es
  let n ← paramKey natOf "neq" es
  let s ← paramKey numOf "number_samples" es
  let b ← paramKey natOf "number_bootstraps" es
  some ⟨a, t, i, n, s, b⟩

/-- The configuration in the dictionary. -/
def config (d : Doc) : Option (RawConfig Dbl) := do
  let eq ← textKey "eq_catalog_file" d
  let pp ← textKey "pprocessing_result_file" d
  let ct ← textKey "completeness_table_file" d
  let sm ← textKey "source_model_file" d
  let rf ← textKey "result_file" d
  let ap ← boolKey "apply_processing_jobs" d
  let pj ← listKey "preprocessing_jobs" d
  let cj ← listKey "processing_jobs" d
  let gk ← sectionKey (declusterOf "foreshock_time_window") "GardnerKnopoff" d
  let af ← sectionKey (declusterOf "time_window") "Afteran" d
  let st ← sectionKey steppOf "Stepp" d
  let re ← sectionKey recurrenceOf "Recurrence" d
  let mm ← sectionKey maximumOf "MaximumMagnitude" d
  some ⟨eq, pp, ct, sm, rf, ap, pj, cj, gk, af, st, re, mm⟩

/-- The configuration in a file. -/
def load (t : Text) : Option (RawConfig Dbl) :=
  match document t with
  | some d => config d
  | none => none

/-! ### The sample configuration -/

/-- The contents of config.yml. -/
def sampleFile : String := "# *********************************************************
# MT Workflow configuration file 
# *********************************************************

# =========================================================
# Input/Output files
# =========================================================

# Path to the file defining the eq catalog.
eq_catalog_file: tests/data/completeness_input_test.csv 

# Path to the file defining the transformed 
# eq catalog after the preprocessing jobs.
# If not defined no file will be written.
pprocessing_result_file: tests/data/preprocessed_catalogue.csv

# Path to the file defining the computed
# completeness table after preprocessing jobs
completeness_table_file: tests/data/completeness_table.csv

# Path to the file defining the source model.
source_model_file: tests/data/area_source_model_processing.xml

# Path to the file defining the results 
# of computation.
result_file: tests/data/output.xml

# Boolean flag to declare
# if processing jobs are needed.
apply_processing_jobs: yes

# =========================================================
# List of preprocessing jobs
# =========================================================


# Choose one algorithm per preprocessing job,
# algorithms will be executed in the specified
# order.
preprocessing_jobs:
- GardnerKnopoff
- Stepp


# =========================================================
# List of processing jobs
# =========================================================


# Choose one algorithm per preprocessing job,
# algorithms will be executed in the specified
# order.
processing_jobs:
- Recurrence
- MaximumMagnitude

# =========================================================
# Preprocessing jobs in detail
# =========================================================

# Declustering jobs

GardnerKnopoff: {
  # Possible values: `GardnerKnopoff`, `Uhrhammer`, `Gruenthal`.
  # `GardnerKnopoff` is the default choice.
  time_dist_windows: GardnerKnopoff,

  # float >= 0 proportion of aftershock time windows 
  # to use to search for foreshock.
  foreshock_time_window: 0
}

Afteran: {
    # Possible values: GardnerKnopoff, Uhrhammer, Gruenthal.
    time_dist_windows: Uhrhammer,
    
    # float >= 0 
    # Length (in days) of moving time window
    time_window: 60.0
}

Reasenberg: {
    # Interaction radius for dependent events (km)
    # float >= 0
    rfact: 10.0,

    # Effective lower magnitude cut-off for the catalogue
    # float 
    xmeff: 1.5,

    # Factor to raise the lower magnitude within clusters
    # float >= 0
    xk: 0.5,

    # Minimum look-ahead time for non clustered events
    # float >= 0
    taumin: 1.0,

    # Maximum look ahead time for clustered events
    # float >= 0
    taumax: 10.0,

    # Confidence Level for the next event in the sequence
    # float >= 0 in range 0.0 <= plev <= 1.0
    plev: 0.95
}

# Completeness jobs

Stepp: {
  # Time Window of each step (in years)
  time_window: 5,

  # Magnitude window of each step (in Mw units)
  magnitude_windows: 0.2,
  
  # Sensitivity parameter (see documentation)
  sensitivity: 0.1,
  
  # Increment Lock (fixes that the completeness magnitude
  # will always increase further back in time)
  increment_lock: True 
} 


# =========================================================
# Processing jobs in detail
# =========================================================

# Recurrence job

Recurrence: {
    # Width of magnitude window positive float
    magnitude_window: 0.2,
    
    # Choose one among `Weichert` or `MLE`
    recurrence_algorithm: Weichert,

    # A float
    reference_magnitude: 1.1,

    # Greater than zero (float), used only with Wiechart
    time_window: 0.2
}

MaximumMagnitude: {
    
    # Chosose one among `Kijko_Npg`, `Cumulative_Moment`.
    # default choice: Cumulative_Moment,
    maxim_mag_algorithm: Kijko_Npg,

    # float > 0, default value 1.0E-5
    iteration_tolerance: 1.0E-5,

    # int > 0, default value 1000
    maximum_iterations: 1000,

    # neq
    neq: 100,

    # Used in Kijko_Npg
    # int > 0 default value 51
    number_samples: 51,

    # Used in Cumulative_Moment
    # int > 0 default value 100
    number_bootstraps: 100
}
"

/-- The dictionary in it. -/
def sampleDoc : List (String × (String ⊕ List String ⊕ List (String × String))) := [
  ("eq_catalog_file", .inl "tests/data/completeness_input_test.csv"),
  ("pprocessing_result_file", .inl "tests/data/preprocessed_catalogue.csv"),
  ("completeness_table_file", .inl "tests/data/completeness_table.csv"),
  ("source_model_file", .inl "tests/data/area_source_model_processing.xml"),
  ("result_file", .inl "tests/data/output.xml"),
  ("apply_processing_jobs", .inl "yes"),
  ("preprocessing_jobs", .inr (.inl ["GardnerKnopoff", "Stepp"])),
  ("processing_jobs", .inr (.inl ["Recurrence", "MaximumMagnitude"])),
  ("GardnerKnopoff", .inr (.inr [("time_dist_windows", "GardnerKnopoff"), ("foreshock_time_window", "0")])),
  ("Afteran", .inr (.inr [("time_dist_windows", "Uhrhammer"), ("time_window", "60.0")])),
  ("Reasenberg", .inr (.inr [("rfact", "10.0"), ("xmeff", "1.5"), ("xk", "0.5"), ("taumin", "1.0"), ("taumax", "10.0"), ("plev", "0.95")])),
  ("Stepp", .inr (.inr [("time_window", "5"), ("magnitude_windows", "0.2"), ("sensitivity", "0.1"), ("increment_lock", "True")])),
  ("Recurrence", .inr (.inr [("magnitude_window", "0.2"), ("recurrence_algorithm", "Weichert"), ("reference_magnitude", "1.1"), ("time_window", "0.2")])),
  ("MaximumMagnitude", .inr (.inr [("maxim_mag_algorithm", "Kijko_Npg"), ("iteration_tolerance", "1.0E-5"), ("maximum_iterations", "1000"), ("neq", "100"), ("number_samples", "51"),
    ("number_bootstraps", "100")]))]

def nodeOf : String ⊕ List String ⊕ List (String × String) → Node
  | .inl t => .scalar t.toList
  | .inr (.inl ts) => .list (ts.map String.toList)
  | .inr (.inr es) => .map (es.map fun e => (e.1.toList, e.2.toList))

#guard document sampleFile.toList = some (sampleDoc.map fun e => (e.1.toList, nodeOf e.2))
#guard match load sampleFile.toList with
  | some r => (match r.eqCatalogFile, r.applyProcessing, r.processingJobs with
      | .given f, .given true, .given js => decide (f = "tests/data/completeness_input_test.csv".toList ∧ js = ["Recurrence", "MaximumMagnitude"])
      | _, _, _ => false) && (match r.maximumMagnitude, r.stepp with
      | .given m, .given s =>
        decide (m.algorithm = some "Kijko_Npg" ∧ m.tolerance = some (.of (1 / 100000)) ∧ m.nsamp = some (.of 51) ∧ s.timeWindow = some (.of 5) ∧ s.incrementLock = some true)
      | _, _ => false)
  | none => false

end Verif.Yaml
