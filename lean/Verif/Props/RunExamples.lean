import Verif.Props.RunResults
import Verif.Props.Preprocessing
import Verif.Props.Csv
import Verif.Lemmas.CastCatalog
import Mathlib.Data.Fin.Tuple.Sort

/-!
# C24, C25 refuted; a concrete run
-/

namespace Verif.Workflow

open Verif Verif.EqCatalog Verif.Csv Verif.Nrml Verif.Declustering Spec Nrml.Spec

open Classical in
/-- A concrete environment over the reals: decimal texts, sorting, and a polygon that contains the points inside its bounding box. -/
noncomputable def exExt : Ext ℝ where
  env := exEnv.cast
  ord := cpythonOrder
  show_ := ⟨showInt, Format.str⟩
  nums := pyNums
  fmt5 := Format.fmt5
  nan := 0
  parseXml := fun _ => none
  schema := fun _ => true
  exists_ := fun _ => true
  openable := fun _ => true
  argsort := fun key => Tuple.sort key
  argsortInt := fun key => Tuple.sort key
  polygonBuilt := fun ps => decide (3 ≤ ps.length)
  polygonValid := fun _ => true
  contains := fun ps lon lat => decide ((∃ p ∈ ps, p.lon < lon) ∧ (∃ p ∈ ps, lon < p.lon) ∧ (∃ p ∈ ps, p.lat < lat) ∧ ∃ p ∈ ps, lat < p.lat)
  normal := fun _ => 0
  fuel := 100

/-- A configuration without jobs. -/
def exConfig (sourceModel : Option Text) : Config ℝ where
  eqCatalogFile := "catalogue.csv".toList
  pprocessingResultFile := none
  completenessTableFile := none
  sourceModelFile := sourceModel
  resultFile := "result.xml".toList
  applyProcessing := true
  preprocessingJobs := []
  processingJobs := []
  gardnerKnopoff := none
  afteran := none
  stepp := none
  recurrence := none
  maximumMagnitude := none

/-- **C25 fails**: reading a document without area sources (the point source model of the test data) raises. -/
theorem C25_fails : ¬ Spec.EmptyModelLoads ℝ := by
  intro h
  obtain ⟨w', h1, -⟩ := h exExt (exConfig (some ['m'])) ⟨fun _ => some (.xml pointModel), 0, {}⟩ ['m'] pointModel rfl rfl rfl
    pointModel_no_sources rfl
  rw [C25_no_sources_raises exExt (exConfig (some ['m'])) ⟨fun _ => some (.xml pointModel), 0, {}⟩ ['m'] pointModel rfl rfl rfl
    pointModel_no_sources rfl] at h1
  cases h1

/-- A square zone around the point (10, 10). -/
noncomputable def squareSource : AreaSource ℝ :=
  { (defaultAreaSource : AreaSource ℝ) with boundary := ⟨some mtk, [⟨9, 9⟩, ⟨11, 9⟩, ⟨11, 11⟩, ⟨9, 11⟩]⟩ }

/-- One event at the point (0, 0). -/
def farCatalogue : Matrix ℝ := ⟨[![2000, 1, 1, 0, 0, 5, 0]], false⟩

theorem square_empty : EmptyZone exExt farCatalogue { area := squareSource } := by
  refine ⟨?_, rfl, ?_⟩
  · simp [exExt, squareSource]
  · intro r hr
    simp only [farCatalogue, List.mem_singleton] at hr
    subst hr
    simp only [exExt, squareSource, decide_eq_false_iff_not]
    rintro ⟨⟨p, hp, h⟩, -⟩
    simp only [List.mem_cons, List.not_mem_nil, or_false] at hp
    have e : (![(2000 : ℝ), 1, 1, 0, 0, 5, 0] : Row ℝ) 3 = 0 := rfl
    change p.lon < (![(2000 : ℝ), 1, 1, 0, 0, 5, 0] : Row ℝ) 3 at h
    rw [e] at h
    rcases hp with rfl | rfl | rfl | rfl <;> norm_num at h

/-- **C24 fails**: an empty zone ends the run. -/
theorem C24_fails : ¬ Spec.EmptyZoneKept ℝ := by
  intro h
  obtain ⟨w', h1, -⟩ := h exExt (exConfig (some ['m'])) ["Recurrence"] [.recurrence] farCatalogue
    ⟨fun _ => none, 0, { smDefinitions := some [{ area := squareSource }] }⟩ _ ⟨_, rfl, by simp⟩ (.cons (by decide) .nil) rfl
    (by intro s hs; rw [List.mem_singleton] at hs; subst hs; exact square_empty)
  obtain ⟨w2, h2, -⟩ := C24_empty_zone_raises exExt (exConfig (some ['m'])) ⟨_, rfl, by simp⟩ farCatalogue .recurrence (.inl rfl) [] 0 []
    ⟨fun _ => none, 0, { smDefinitions := some [{ area := squareSource }] }⟩ _ _ rfl rfl square_empty
  rw [show List.range [({ area := squareSource } : Source ℝ)].length = [0] from rfl, h2] at h1
  cases h1

/-! ### A concrete run -/

/-- A file with the row `exRow` is loaded. -/
theorem exFile_loaded : ∃ e, readCatalogFile exExt.env exExt.ord (exFile exRow) = .ok [e] := by
  have h : (readCatalogFile exEnv cpythonOrder (exFile exRow)).map List.length = .ok 1 := by decide +kernel
  show ∃ e, readCatalogFile exEnv.cast cpythonOrder (exFile exRow) = .ok [e]
  rw [readCatalogFile_cast]
  cases hr : readCatalogFile exEnv cpythonOrder (exFile exRow) with
  | error err => rw [hr] at h; cases h
  | ok es =>
    rw [hr] at h
    simp only [Except.map, Except.ok.injEq] at h
    obtain ⟨e, rfl⟩ := List.length_eq_one_iff.1 h
    exact ⟨e.cast, rfl⟩

theorem mtk_storable : Storable mtk := by rw [← xmlOk_iff]; decide

/-- The default source can be written. -/
theorem default_serialized : ∃ doc, serialize (pyNums (K := ℝ)) [defaultAreaSource] = .ok doc := by
  rw [C83_writer_accepts pyNums_lawful]
  refine ⟨?_, _, [], rfl, ⟨_, rfl, mtk_storable⟩, ⟨_, rfl, mtk_storable⟩⟩
  intro s hs
  rw [List.mem_singleton] at hs
  subst hs
  refine ⟨⟨_, rfl, mtk_storable⟩, ?_, ?_, ⟨_, rfl, mtk_storable⟩, ⟨_, rfl, mtk_storable⟩, ⟨_, rfl, mtk_storable⟩⟩
  · rintro t ⟨⟩; exact mtk_storable
  · rintro t ⟨⟩; exact mtk_storable

/-- The file system with the catalogue only. -/
def exFs : Text → Option Content := fun p => if p = "catalogue.csv".toList then some (.text (exFile exRow)) else none

theorem exFs_catalogue : exFs "catalogue.csv".toList = some (.text (exFile exRow)) := by unfold exFs; rw [if_pos rfl]

/-- Non-vacuity of C88: a run that ends without exception. -/
theorem exRun_ends : ∃ w', main exExt (exConfig none) exFs 0 = some ⟨none, w'⟩ := by
  obtain ⟨e, he⟩ := exFile_loaded
  obtain ⟨doc, hdoc⟩ := default_serialized
  obtain ⟨w5, hc, -, -⟩ := C15_accepted_catalogue exExt (exConfig none) ⟨exFs, 0, {}⟩ (exFile exRow) [e] (by simp) exFs_catalogue he
  have hpre : buildPreprocessing (exConfig none) = .ok [.readEqCatalog, .createDefaultSourceModel, .createCatalogMatrix, .createDefaultValues] := rfl
  rcases hc with _ | ⟨_, _, _, w1, _, h1, _ | ⟨_, _, _, w2, _, h2, _ | ⟨_, _, _, w3, _, h3, _ | ⟨_, _, _, w4, _, h4, -⟩⟩⟩⟩
  have hrun : runPipeline exExt (exConfig none) [.readEqCatalog, .createDefaultSourceModel, .createCatalogMatrix, .createDefaultValues]
      ⟨exFs, 0, {}⟩ = some ⟨none, w4⟩ := by
    rw [C18_in_order]
    exact .cons _ _ _ _ _ h1 (.cons _ _ _ _ _ h2 (.cons _ _ _ _ _ h3 (.cons _ _ _ _ _ h4 (.nil _))))
  have hd : w4.ctx.smDefinitions = some [{ area := defaultAreaSource }] := by
    simp only [Succeeds, runJob, Option.some.injEq] at h2 h3 h4
    cases h2
    unfold createCatalogMatrixJob at h3
    obtain ⟨_, -, h3⟩ := bind_ok h3
    obtain ⟨_, -, h3⟩ := bind_ok h3
    cases h3
    unfold createDefaultValuesJob at h4
    obtain ⟨_, -, h4⟩ := bind_ok h4
    obtain ⟨_, -, h4⟩ := bind_ok h4
    obtain ⟨_, -, h4⟩ := bind_ok h4
    obtain ⟨_, -, h4⟩ := bind_ok h4
    cases h4
    rfl
  have hw : ∃ m, w4.ctx.workingCatalog = some m := by
    simp only [Succeeds, runJob, Option.some.injEq] at h4
    unfold createDefaultValuesJob at h4
    obtain ⟨m, hm, h4⟩ := bind_ok h4
    obtain ⟨_, -, h4⟩ := bind_ok h4
    obtain ⟨_, -, h4⟩ := bind_ok h4
    obtain ⟨_, -, h4⟩ := bind_ok h4
    cases h4
    exact ⟨m, (notNone_ok).1 hm⟩
  obtain ⟨m, hm⟩ := hw
  have hmain : ∀ w : World ℝ, start exExt (exConfig none) (chosenFilter exExt (exConfig none))
      [.readEqCatalog, .createDefaultSourceModel, .createCatalogMatrix, .createDefaultValues] [] ⟨exFs, 0, {}⟩ = some ⟨none, w⟩ →
      w.ctx.smDefinitions = some [{ area := defaultAreaSource }] → ∃ w', main exExt (exConfig none) exFs 0 = some ⟨none, w'⟩ := by
    intro w hs hw
    refine ⟨w.write "result.xml".toList (.xml doc), ?_⟩
    unfold main
    simp only [hpre, show buildProcessing (exConfig none) = .ok [] from rfl, hs, andThen]
    have : writeResult exExt (exConfig none) w = .ok (w.write "result.xml".toList (.xml doc)) := by
      have e1 : mkWriter exExt.exists_ (exConfig none).resultFile = .ok "result.xml".toList := rfl
      have e2 : openWrite exExt "result.xml".toList = .ok () := rfl
      have e3 : serialize exExt.nums [defaultAreaSource] = .ok doc := hdoc
      unfold writeResult
      simp only [hw, notNone, bind, Except.bind, e1, List.map_cons, List.map_nil, e2, e3]
    rw [this]
  refine hmain (w4.turn 0 m) ?_ hd
  unfold start
  rw [hrun]
  have e1 : (exConfig none).applyProcessing = true := rfl
  have e2 : chosenFilter exExt (exConfig none) = nullFilter := rfl
  have e3 : List.range [({ area := defaultAreaSource } : Source ℝ)].length = [0] := rfl
  simp only [andThen, hd, hm, e1, if_true, e2, e3]
  rw [processSources, hd]
  rfl

/-- The result document of that run lists the default source. -/
example : ∃ w' doc, main exExt (exConfig none) exFs 0 = some ⟨none, w'⟩ ∧ w'.fs "result.xml".toList = some (.xml doc) ∧
    List.Forall₂ (Describes pyNums) [(defaultAreaSource : AreaSource ℝ)] (areaSources doc.nodes) := by
  obtain ⟨w', h⟩ := exRun_ends
  obtain ⟨inputs, doc, hin, hf, hd⟩ := C88_result_document exExt pyNums_lawful (exConfig none) exFs 0 w' h
  have : inputs = [defaultAreaSource] := by
    rcases hin with ⟨p, d, -, hp, -⟩ | ⟨-, h⟩
    · cases hp
    · exact h
  subst this
  exact ⟨w', doc, h, hf, hd⟩

end Verif.Workflow
