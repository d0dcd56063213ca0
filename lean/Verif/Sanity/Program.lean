import Verif.Model.Workflow
import Verif.Model.Format
import Verif.Props.EqCatalog
import Verif.Lemmas.Format

/-!
# The models at `Float` on the data of the tests of the catalogue reader, the declustering and the storing jobs

A check of the translation, not a proof: the inputs and expected results of tests/declustering/test_declustering.py, tests/qa_tests/test_declustering.py and tests/test_jobs.py.
-/

namespace Verif.Sanity.Program

open Verif Verif.EqCatalog Verif.Csv Verif.Declustering Verif.Workflow

/-! ### An environment -/

/-- Selection sort by exchanges: an `argsort` with ties in the original order. -/
def sortBy {n : Nat} (lt : Fin n → Fin n → Bool) : Equiv.Perm (Fin n) :=
  (List.finRange n).foldl (fun p i =>
    let j := (List.finRange n).foldl (fun j k => if i < k && lt (p k) (p j) then k else j) i
    (Equiv.swap i j).trans p) (Equiv.refl _)

def argsortF {n : Nat} (key : Fin n → Float) : Equiv.Perm (Fin n) :=
  sortBy fun a b => decide (key a < key b) || (!decide (key b < key a) && decide (a < b))

def argsortI {n : Nat} (key : Fin n → Fin n) : Equiv.Perm (Fin n) := sortBy fun a b => decide (key a < key b)

/-- Nearest double of a decimal number with few digits. -/
def ofRat (q : ℚ) : Float := Float.ofInt q.num / Float.ofNat q.den

/-- Exact value of a finite double. -/
def toRat (x : Float) : ℚ :=
  let (m, e) := x.frExp
  (((m.scaleB 53).toInt64.toInt : Int) : ℚ) * (2 : ℚ) ^ (e - 53)

def floatText (t : Text) : Option Float := (Format.pyFloat (K := ℚ) t).map ofRat

def intText (t : Text) : Option Int := match Format.pyFloat (K := ℚ) t with
  | some q => if q.den = 1 then some q.num else none
  | none => none

def ext : Ext Float where
  env := ⟨intText, floatText, 2012⟩
  ord := cpythonOrder
  show_ := ⟨fun i => (toString i).toList, fun x => Format.str (toRat x)⟩
  nums := ⟨fun x => Format.str (toRat x), floatText⟩
  fmt5 := fun x => Format.fmt5 (toRat x)
  nan := 0.0 / 0.0
  parseXml := fun _ => none
  schema := fun _ => true
  exists_ := fun _ => true
  openable := fun _ => true
  argsort := fun key => argsortF key
  argsortInt := fun key => argsortI key
  polygonBuilt := fun _ => true
  polygonValid := fun _ => true
  contains := fun _ _ _ => false
  normal := fun _ => 0
  fuel := 100

/-! ### tests/declustering/test_declustering.py -/

def matrix (l : List (List Float)) : List (Row Float) := l.map fun r k => r.getD k 0

def lists (l : List (Row Float)) : List (List Float) := l.map List.ofFn

def outcome {n : Nat} (r : Except PyErr (Result Float n)) : Option (List Int × List (List Float) × List Int) := match r with
  | .ok r => some (List.ofFn r.vcl, lists r.vmain, List.ofFn r.flag)
  | .error _ => none

def viaGK (rows : List (Row Float)) (opt : String) (fs : Float) : Option (List Int × List (List Float) × List Int) :=
  let cat : Fin rows.length → Row Float := fun i => rows[i]
  let asc := argsortF (fun j => cat j 5)
  outcome (gardnerKnopoff cat opt fs asc (argsortI (flipud asc)))

def viaAfteran (rows : List (Row Float)) (opt : String) (tw : Float) : Option (List Int × List (List Float) × List Int) :=
  let cat : Fin rows.length → Row Float := fun i => rows[i]
  let asc := argsortF (fun j => cat j 5)
  outcome (afteran cat opt tw asc (argsortI (flipud asc)))

/-- tests/declustering/data/_declustering_test_data.py:17-77. -/
def allInACluster : List (List Float) := [
  [1982.0, 5.0, 3.0, 20.596, 38.545, 7.2, 0.1],
  [1982.0, 5.0, 3.0, 20.581, 38.564, 5.0, 0.1],
  [1982.0, 5.0, 3.0, 20.58, 38.562, 4.8, 0.1],
  [1982.0, 5.0, 3.0, 20.594, 38.567, 4.6, 0.1],
  [1982.0, 5.0, 3.0, 20.589, 38.569, 4.2, 0.1],
  [1982.0, 5.0, 3.0, 20.571, 38.565, 5.3, 0.1],
  [1982.0, 5.0, 3.0, 20.581, 38.555, 3.7, 0.1],
  [1982.0, 5.0, 3.0, 20.599, 38.531, 5.1, 0.1],
  [1982.0, 5.0, 3.0, 20.579, 38.562, 5.3, 0.1],
  [1982.0, 5.0, 3.0, 20.57, 38.531, 4.6, 0.1],
  [1982.0, 5.0, 3.0, 20.603, 38.534, 5.8, 0.1],
  [1982.0, 5.0, 3.0, 20.603, 38.557, 4.5, 0.1],
  [1982.0, 5.0, 3.0, 20.605, 38.551, 5.0, 0.1],
  [1982.0, 5.0, 3.0, 20.594, 38.543, 4.9, 0.1],
  [1982.0, 5.0, 3.0, 20.609, 38.542, 2.0, 0.1],
  [1982.0, 5.0, 3.0, 20.589, 38.544, 5.1, 0.1],
  [1982.0, 5.0, 3.0, 20.573, 38.538, 4.4, 0.1],
  [1982.0, 5.0, 3.0, 20.598, 38.548, 4.4, 0.1],
  [1982.0, 5.0, 3.0, 20.59, 38.549, 4.4, 0.1],
  [1982.0, 5.0, 3.0, 20.571, 38.559, 4.4, 0.1]]

/-- tests/declustering/data/_declustering_test_data.py:79-139. -/
def noClusters : List (List Float) := [
  [1961.0, 1.0, 21.0, 20.59, 38.55, 6.2, 0.1],
  [1964.0, 5.0, 25.0, 122.59, 39.52, 5.7, 0.1],
  [1967.0, 4.0, 30.0, 24.18, 37.91, 5.2, 0.1],
  [1970.0, 7.0, 14.0, 22.25, 36.86, 6.5, 0.1],
  [1970.0, 7.0, 16.0, 122.24, 36.88, 5.3, 0.1],
  [1973.0, 8.0, 5.0, 20.86, 33.87, 6.1, 0.1],
  [1976.0, 12.0, 8.0, 23.15, 31.68, 7.2, 0.1],
  [1979.0, 11.0, 12.0, 25.86, 30.75, 5.7, 0.1],
  [1982.0, 3.0, 4.0, 27.85, 30.89, 6.4, 0.1],
  [1985.0, 4.0, 14.0, 29.83, 32.79, 6.8, 0.1],
  [1985.0, 4.0, 15.0, (-129.82), 32.8, 5.8, 0.1],
  [1988.0, 12.0, 18.0, 23.44, 34.52, 4.5, 0.1],
  [1991.0, 6.0, 23.0, 25.66, 33.58, 5.0, 0.1],
  [1994.0, 8.0, 27.0, 28.47, 34.96, 4.9, 0.1],
  [1997.0, 6.0, 30.0, 25.89, 36.1, 5.9, 0.1],
  [2000.0, 3.0, 1.0, 20.17, 30.13, 6.4, 0.1],
  [2003.0, 2.0, 9.0, 27.29, 38.0, 6.0, 0.1],
  [2006.0, 1.0, 10.0, 25.7, 39.87, 5.4, 0.1],
  [2009.0, 10.0, 13.0, 29.9, 36.86, 6.3, 0.1],
  [2009.0, 10.0, 16.0, (-129.91), 36.86, 5.3, 0.1]]

def windows : List String := ["GardnerKnopoff", "Gruenthal", "Uhrhammer"]

def oneCluster : Option (List Int × List (List Float) × List Int) :=
  some (List.replicate 20 1, allInACluster.take 1, 0 :: List.replicate 19 1)

def unclustered : Option (List Int × List (List Float) × List Int) := some (List.replicate 20 0, noClusters, List.replicate 20 0)

#guard windows.all fun o => [0.0, 0.1, 0.2].all fun fs => viaGK (matrix allInACluster) o fs == oneCluster
#guard windows.all fun o => [0.0, 0.1, 0.2].all fun fs => viaGK (matrix noClusters) o fs == unclustered
#guard windows.all fun o => [10.0, 30.0, 60.0].all fun tw => viaAfteran (matrix allInACluster) o tw == oneCluster
#guard windows.all fun o => [10.0, 30.0, 60.0].all fun tw => viaAfteran (matrix noClusters) o tw == unclustered

/-! ### tests/qa_tests/test_declustering.py -/

/-- tests/data/declustering_input_test.csv. -/
def declusteringInput : String :=
  "eventID,Agency,Identifier,year,month,day,hour,minute,second,timeError,longitude,latitude,SemiMajor90,SemiMinor90,ErrorStrike,depth,depthError,Mw,sigmaMw,Ms,sigmaMs,mb,sigmamb,ML,sigmaML\r\n" ++
  "1,XXX,1,1961,1,21,1,1,1.0,,20.59,38.55,,,,10.0,1.0,6.2,0.1,,,,,,\r\n" ++
  "2,XXX,2,1964,5,25,2,2,2.0,,22.59,39.52,,,,10.0,1.0,5.7,0.1,,,,,,\r\n" ++
  "3,XXX,3,1967,4,30,3,3,3.0,,24.18,37.91,,,,10.0,1.0,5.2,0.1,,,,,,\r\n" ++
  "4,XXX,4,1970,7,14,4,4,4.0,,22.25,36.86,,,,10.0,1.0,6.5,0.1,,,,,,\r\n" ++
  "5,XXX,5,1970,7,16,5,5,5.0,,22.24,36.88,,,,10.0,1.0,5.3,0.1,,,,,,\r\n" ++
  "6,XXX,6,1973,8,5,6,6,6.0,,20.86,33.87,,,,10.0,1.0,6.1,0.1,,,,,,\r\n" ++
  "7,XXX,7,1976,12,8,7,7,7.0,,23.15,31.68,,,,10.0,1.0,7.2,0.1,,,,,,\r\n" ++
  "8,XXX,8,1979,11,12,8,8,8.0,,25.86,30.75,,,,10.0,1.0,5.7,0.1,,,,,,\r\n" ++
  "9,XXX,9,1982,3,4,9,9,9.0,,27.85,30.89,,,,10.0,1.0,6.4,0.1,,,,,,\r\n" ++
  "10,XXX,10,1985,4,14,10,10,10.0,,29.83,32.79,,,,10.0,1.0,6.8,0.1,,,,,,\r\n" ++
  "11,XXX,11,1985,4,15,11,11,11.0,,29.82,32.8,,,,10.0,1.0,5.8,0.1,,,,,,\r\n" ++
  "12,XXX,12,1988,12,18,12,12,12.0,,23.44,34.52,,,,10.0,1.0,4.5,0.1,,,,,,\r\n" ++
  "13,XXX,13,1991,6,23,13,13,13.0,,25.66,33.58,,,,10.0,1.0,5,0.1,,,,,,\r\n" ++
  "14,XXX,14,1994,8,27,14,14,14.0,,28.47,34.96,,,,10.0,1.0,4.9,0.1,,,,,,\r\n" ++
  "15,XXX,15,1997,6,30,15,15,15.0,,25.89,36.1,,,,10.0,1.0,5.9,0.1,,,,,,\r\n" ++
  "16,XXX,16,2000,3,1,16,16,16.0,,20.17,30.13,,,,10.0,1.0,6.4,0.1,,,,,,\r\n" ++
  "17,XXX,17,2003,2,9,17,17,17.0,,27.29,38,,,,10.0,1.0,6,0.1,,,,,,\r\n" ++
  "18,XXX,18,2006,1,10,18,18,18.0,,25.7,39.87,,,,10.0,1.0,5.4,0.1,,,,,,\r\n" ++
  "19,XXX,19,2009,10,13,19,19,19.0,,29.9,36.86,,,,10.0,1.0,6.3,0.1,,,,,,\r\n" ++
  "20,XXX,20,2009,10,16,20,20,20.0,,29.91,36.86,,,,10.0,1.0,5.3,0.1,,,,,,\r\n"

/-- tests/data/ISC_small_data.csv. -/
def smallData : String :=
  "eventID,Agency,Identifier,year,month,day,hour,minute,second,timeError,longitude,latitude,SemiMajor90,SemiMinor90,ErrorStrike,depth,depthError,Mw,sigmaMw,Ms,sigmaMs,mb,sigmamb,ML,sigmaML\r\n" ++
  "1,AAA,20000102034913,2000,01,02,03,49,13,0.02,7.282,44.368,2.43,1.01,298,9.3,0.5,1.71,0.355,   ,   ,   ,   ,1.7,0.1\r\n" ++
  "2,AAA,20000105132157,2000,01,05,13,21,57,0.10,11.988,44.318,0.77,0.25,315,7.9,0.5,3.89,0.199,   ,   ,3.8,0.1,   ,   \r\n" ++
  "3,FFG,20000105161907,2000,01,05,16,19,07,0.01,8.491,44.599,2.61,1.83,232,4.2,0.2,2.12,0.355,   ,   ,   ,   ,2.1,0.1\r\n" ++
  "4,AAA,20000106051614,2000,01,06,05,16,14,0.07,11.837,38.343,2.78,2.41,70,7.4,0.2,3.98,0.199,   ,   ,3.9,0.1,   ,   \r\n" ++
  "5,FFG,20000106100500,2000,01,06,10,05,00,0.01,8.711,44.048,2.91,1.65,138,2.1,0.2,2.54,0.355,   ,   ,   ,   ,2.5,0.1\r\n" ++
  "6,AAA,20000107034517,2000,01,07,03,45,17,0.03,7.157,44.373,0.82,0.60,30,9.4,0.2,1.81,0.355,   ,   ,   ,   ,1.8,0.1\r\n" ++
  "7,FFG,20000107042724,2000,01,07,04,27,24,0.04,8.691,44.040,1.02,0.44,336,5.3,0.2,2.12,0.355,   ,   ,   ,   ,2.1,0.1\r\n" ++
  "8,AAA,20000107120040,2000,01,07,12,00,40,0.00,11.922,38.385,2.05,0.72,202,3.2,0.5,4.92,0.436,4.4,0.1,   ,   ,   ,   \r\n" ++
  "9,AAA,20000107124602,2000,01,07,12,46,02,0.04,11.874,38.418,2.48,0.89,78,9.5,0.5,3.52,0.199,   ,   ,3.4,0.1,   ,   \r\n" ++
  "10,FFG,20000108020106,2000,01,08,02,01,06,0.09,6.679,44.771,0.66,0.04,332,8.6,0.2,1.71,0.355,   ,   ,   ,   ,1.7,0.1\r\n"

/-- tests/data/expected_preprocessed_catalogue.csv. -/
def expectedCatalogue : String :=
  "eventID,Agency,Identifier,year,month,day,hour,minute,second,timeError,longitude,latitude,SemiMajor90,SemiMinor90,ErrorStrike,depth,depthError,Mw,sigmaMw,Ms,sigmaMs,mb,sigmamb,ML,sigmaML\r\n" ++
  "1,AAA,20000102034913,2000,1,2,3,49,13.0,0.02,7.282,44.368,2.43,1.01,298.0,9.3,0.5,1.71,0.355,,,,,1.7,0.1\r\n" ++
  "2,AAA,20000105132157,2000,1,5,13,21,57.0,0.1,11.988,44.318,0.77,0.25,315.0,7.9,0.5,3.89,0.199,,,3.8,0.1,,\r\n" ++
  "3,FFG,20000105161907,2000,1,5,16,19,7.0,0.01,8.491,44.599,2.61,1.83,232.0,4.2,0.2,2.12,0.355,,,,,2.1,0.1\r\n" ++
  "6,AAA,20000107034517,2000,1,7,3,45,17.0,0.03,7.157,44.373,0.82,0.6,30.0,9.4,0.2,1.81,0.355,,,,,1.8,0.1\r\n" ++
  "8,AAA,20000107120040,2000,1,7,12,0,40.0,0.0,11.922,38.385,2.05,0.72,202.0,3.2,0.5,4.92,0.436,4.4,0.1,,,,\r\n" ++
  "10,FFG,20000108020106,2000,1,8,2,1,6.0,0.09,6.679,44.771,0.66,0.04,332.0,8.6,0.2,1.71,0.355,,,,,1.7,0.1\r\n"

/-- tests/data/expected_completeness_table.csv. -/
def expectedTable : String :=
  "1991.00000,   4.00000\n" ++
  "1991.00000,   4.20000\n" ++
  "1961.00000,   4.40000\n" ++
  "1961.00000,   4.60000\n" ++
  "1961.00000,   4.80000\n" ++
  "1961.00000,   5.00000\n" ++
  "1961.00000,   5.20000\n" ++
  "1912.00000,   5.40000\n" ++
  "1912.00000,   5.60000\n" ++
  "1911.00000,   5.80000\n" ++
  "1911.00000,   6.00000\n" ++
  "1911.00000,   6.20000\n" ++
  "1911.00000,   6.40000\n" ++
  "1911.00000,   6.60000\n" ++
  "1911.00000,   6.80000\n" ++
  "1911.00000,   7.00000\n" ++
  "1911.00000,   7.20000\n"

def config (jobs : List String) : Config Float where
  eqCatalogFile := "catalogue".toList
  pprocessingResultFile := none
  completenessTableFile := none
  sourceModelFile := none
  resultFile := "result".toList
  applyProcessing := false
  preprocessingJobs := jobs
  processingJobs := []
  gardnerKnopoff := some ("GardnerKnopoff", 0.5)
  afteran := some ("Uhrhammer", 150.8)
  stepp := none
  recurrence := none
  maximumMagnitude := none

def files (name content : String) (p : Text) : Option Content := if p = name.toList then some (.text content.toList) else none

/-- Cluster numbers, working catalogue and flags after the preprocessing. -/
def preprocessed (job : String) : Option (List Int × List (List Float) × List Int) :=
  match buildPreprocessing (config [job]) with
  | .error _ => none
  | .ok pre => match runPipeline ext (config [job]) pre ⟨files "catalogue" declusteringInput, 0, {}⟩ with
    | some ⟨none, w⟩ => match w.ctx.vcl, w.ctx.workingCatalog, w.ctx.flagVector with
      | some v, some m, some f => some (v, lists m.rows, f)
      | _, _, _ => none
    | _ => none

def expectedMain : List (List Float) := [
  [1.961e+03, 1.0e+00, 2.1e+01, 2.059e+01, 3.855e+01, 6.2e+00, 0.1],
  [1.964e+03, 5.0e+00, 2.5e+01, 2.259e+01, 3.952e+01, 5.7e+00, 0.1],
  [1.967e+03, 4.0e+00, 3.0e+01, 2.418e+01, 3.791e+01, 5.2e+00, 0.1],
  [1.970e+03, 7.0e+00, 1.4e+01, 2.225e+01, 3.686e+01, 6.5e+00, 0.1],
  [1.973e+03, 8.0e+00, 5.0e+00, 2.086e+01, 3.387e+01, 6.1e+00, 0.1],
  [1.976e+03, 1.2e+01, 8.0e+00, 2.315e+01, 3.168e+01, 7.2e+00, 0.1],
  [1.979e+03, 1.1e+01, 1.2e+01, 2.586e+01, 3.075e+01, 5.7e+00, 0.1],
  [1.982e+03, 3.0e+00, 4.0e+00, 2.785e+01, 3.089e+01, 6.4e+00, 0.1],
  [1.985e+03, 4.0e+00, 1.4e+01, 2.983e+01, 3.279e+01, 6.8e+00, 0.1],
  [1.988e+03, 1.2e+01, 1.8e+01, 2.344e+01, 3.452e+01, 4.5e+00, 0.1],
  [1.991e+03, 6.0e+00, 2.3e+01, 2.566e+01, 3.358e+01, 5.0e+00, 0.1],
  [1.994e+03, 8.0e+00, 2.7e+01, 2.847e+01, 3.496e+01, 4.9e+00, 0.1],
  [1.997e+03, 6.0e+00, 3.0e+01, 2.589e+01, 3.610e+01, 5.9e+00, 0.1],
  [2.000e+03, 3.0e+00, 1.0e+00, 2.017e+01, 3.013e+01, 6.4e+00, 0.1],
  [2.003e+03, 2.0e+00, 9.0e+00, 2.729e+01, 3.800e+01, 6.0e+00, 0.1],
  [2.006e+03, 1.0e+00, 1.0e+01, 2.570e+01, 3.987e+01, 5.4e+00, 0.1],
  [2.009e+03, 1.0e+01, 1.3e+01, 2.990e+01, 3.686e+01, 6.3e+00, 0.1]]

def expectedRun : Option (List Int × List (List Float) × List Int) :=
  some ([0, 0, 0, 2, 2, 0, 0, 0, 0, 1, 1, 0, 0, 0, 0, 0, 0, 0, 3, 3], expectedMain,
    [0, 0, 0, 0, 1, 0, 0, 0, 0, 0, 1, 0, 0, 0, 0, 0, 0, 0, 0, 1])

#guard preprocessed "GardnerKnopoff" == expectedRun
#guard preprocessed "Afteran" == expectedRun

/-! ### tests/test_jobs.py -/

/-- `test_store_catalog_in_csv_after_preprocessing`. -/
def storedCatalogue : Option String :=
  let cfg := { config [] with pprocessingResultFile := some "out".toList }
  match readEqCatalogJob ext cfg ⟨files "catalogue" smallData, 0, { selectedEqVector := some [0, 0, 0, 1, 1, 0, 1, 0, 1, 0] }⟩ with
  | .error _ => none
  | .ok w => match storePreprocessedCatalogJob ext cfg w with
    | .ok w => match w.fs "out".toList with
      | some (.text t) => some (String.ofList t)
      | _ => none
    | .error _ => none

#guard storedCatalogue == some expectedCatalogue

def table : List (Float × Float) := [(1991, 4), (1991, 4.2), (1961, 4.4), (1961, 4.6), (1961, 4.8), (1961, 5), (1961, 5.2), (1912, 5.4), (1912, 5.6),
  (1911, 5.8), (1911, 6), (1911, 6.2), (1911, 6.4), (1911, 6.6), (1911, 6.8), (1911, 7), (1911, 7.2)]

/-- `test_store_completeness_table`. -/
def storedTable : Option String :=
  let cfg := { config [] with completenessTableFile := some "table".toList }
  match storeCompletenessTableJob ext cfg ⟨fun _ => none, 0, { completenessTable := some table }⟩ with
  | .ok w => match w.fs "table".toList with
    | some (.text t) => some (String.ofList t)
    | _ => none
  | .error _ => none

#guard storedTable == some expectedTable

/-- `test_retrieve_completeness_table`. -/
def retrievedTable : Option (List (Float × Float)) :=
  let cfg := { config [] with completenessTableFile := some "table".toList }
  match retrieveCompletenessTableJob ext cfg ⟨files "table" expectedTable, 0, {}⟩ with
  | .ok w => w.ctx.completenessTable
  | .error _ => none

#guard retrievedTable == some table

end Verif.Sanity.Program
