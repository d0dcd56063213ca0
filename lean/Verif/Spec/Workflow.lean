import Verif.Model.Workflow

/-!
# What a user expects from the workflow
-/

namespace Verif.Workflow.Spec

open Verif Verif.EqCatalog Verif.Nrml Verif.Declustering Verif.Workflow

/-- The job names of the manual with the step they stand for. -/
def documented : List (String × Job) :=
  [("GardnerKnopoff", .gardnerKnopoff), ("Afteran", .afteran), ("Stepp", .stepp), ("Recurrence", .recurrence),
   ("Create_eq_vector", .createSelectedEqVector), ("Store_eq_catalog", .storePreprocessedCatalog),
   ("Store_completeness_table", .storeCompletenessTable), ("Retrieve_completeness_table", .retrieveCompletenessTable),
   ("MaximumMagnitude", .maximumMagnitude)]

/-- A list of names stands for a list of jobs, one by one. -/
def Named (names : List String) (js : List Job) : Prop := List.Forall₂ (fun n j => (n, j) ∈ documented) names js

/-- A name that stands for no job. -/
def Unknown (name : String) : Prop := ∀ j, (name, j) ∉ documented

/-- An entry of the configuration is filled in. -/
def Configured (f : Option Text) : Prop := ∃ t, f = some t ∧ t ≠ []

variable {F : Type}

/-- Number held by a value. -/
def IsNumber [IntCast F] (v : Val F) (x : F) : Prop := v = .flt x ∨ ∃ i, v = .int i ∧ x = (i : F)

/-- The columns of the catalogue matrix (C14). -/
structure RowOf [IntCast F] (e : Entry F) (r : Row F) : Prop where
  year : IsNumber (e .year) (r 0)
  month : IsNumber (e .month) (r 1)
  day : IsNumber (e .day) (r 2)
  longitude : IsNumber (e .longitude) (r 3)
  latitude : IsNumber (e .latitude) (r 4)
  mw : IsNumber (e .mw) (r 5)
  sigmaMw : IsNumber (e .sigmaMw) (r 6)

/-- Two sources agree in everything but the four Gutenberg-Richter numbers and the attached uncertainties (C21). -/
structure SameBut (s t : AreaSource F) : Prop where
  nrmlId : t.nrmlId = s.nrmlId
  sourceModelId : t.sourceModelId = s.sourceModelId
  areaSourceId : t.areaSourceId = s.areaSourceId
  name : t.name = s.name
  tectonicRegion : t.tectonicRegion = s.tectonicRegion
  boundary : t.boundary = s.boundary
  typeTgr : t.rate.tgr.typeTgr = s.rate.tgr.typeTgr
  strike : t.rate.strike = s.rate.strike
  dip : t.rate.dip = s.rate.dip
  rake : t.rate.rake = s.rate.rake
  depthDist : t.depthDist = s.depthDist
  hypocentralDepth : t.hypocentralDepth = s.hypocentralDepth

/-- The entries whose flag is zero, in order. -/
def kept {α : Type} (es : List α) (flags : List Int) : List α := ((es.zip flags).filter (fun p => p.2 = 0)).map Prod.fst

/-- A chain of steps, one per element of the list, each taking the world left by the one before. -/
inductive Chain {α σ : Type} (step : α → σ → σ → Prop) : List α → σ → σ → Prop
  | nil (s) : Chain step [] s s
  | cons (a as s s' s'') : step a s s' → Chain step as s' s'' → Chain step (a :: as) s s''

end Verif.Workflow.Spec
