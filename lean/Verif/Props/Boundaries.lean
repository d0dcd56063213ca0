import Verif.Props.Configuration
import Verif.Props.ValidRun

/-!
# C139: a source with an unusable boundary stops the run
-/

namespace Verif.Workflow

open Verif Verif.EqCatalog Verif.Csv Verif.Nrml Verif.Declustering Verif.Recurrence Verif.MaxMag Spec

namespace Spec

/-- The geometry library makes a polygon of the boundary and finds it valid. -/
def UsableBoundary {F : Type} (x : Ext F) (s : AreaSource F) : Prop :=
  x.polygonBuilt s.boundary.posList = true ∧ x.polygonValid s.boundary.posList = true

end Spec

section
variable {F : Type} [PyMath F]

theorem inputs_unique {x : Ext F} {cfg : Config F} {fs : Text → Option Content} {a b : List (AreaSource F)} (ha : InputSources x cfg fs a)
    (hb : InputSources x cfg fs b) : a = b := by
  rcases ha with ⟨p, doc, hne, hp, hf, hr⟩ | ⟨hn, rfl⟩ <;> rcases hb with ⟨p', doc', hne', hp', hf', hr'⟩ | ⟨hn', rfl⟩
  · rw [hp] at hp'
    cases hp'
    have : doc = doc' := by
      rcases hf with hf | ⟨t, hf, ht⟩ <;> rcases hf' with hf' | ⟨t', hf', ht'⟩ <;> rw [hf] at hf' <;> cases hf'
      · rfl
      · rw [ht] at ht'; cases ht'; rfl
    subst this
    rw [hr] at hr'
    cases hr'
    rfl
  · exact absurd ⟨p, hp, hne⟩ hn'
  · exact absurd ⟨p', hp', hne'⟩ hn
  · rfl

omit [PyMath F] in
theorem filter_usable {x : Ext F} {s : Source F} {working : Matrix F} :
    (UsableBoundary x s.area → ∃ m, sourceModelFilter x s working = .ok m) ∧
    (x.polygonBuilt s.area.boundary.posList = false → sourceModelFilter x s working = .error .valueError) ∧
    (x.polygonBuilt s.area.boundary.posList = true → x.polygonValid s.area.boundary.posList = false →
      sourceModelFilter x s working = .error (.runtimeError "Polygon invalid")) := by
  unfold sourceModelFilter
  refine ⟨?_, ?_, ?_⟩
  · rintro ⟨h1, h2⟩
    simp only [h1, h2]
    exact ⟨_, rfl⟩
  · intro h
    simp only [h]
    rfl
  · intro h1 h2
    simp only [h1, h2]
    rfl

/-- **C139**, the message: when the turn of a source with an unusable boundary comes, after the sources before it, the processing ends with `ValueError` if the boundary makes no polygon and
`RuntimeError` if the polygon is not valid; the files and the parameters of the other sources are as the sources before it left them. -/
theorem C139_reported (x : Ext F) (cfg : Config F) (hs : Configured cfg.sourceModelFile) (procs : List Job) (working : Matrix F) (before after : List Nat) (i : Nat)
    (w w1 : World F) (hb : processSources x cfg (chosenFilter x cfg) procs working before w = some ⟨none, w1⟩) (d : List (Source F)) (s : Source F)
    (hd : w1.ctx.smDefinitions = some d) (hi : d[i]? = some s) :
    (x.polygonBuilt s.area.boundary.posList = false →
      processSources x cfg (chosenFilter x cfg) procs working (before ++ i :: after) w = some ⟨some .valueError, w1⟩) ∧
    (x.polygonBuilt s.area.boundary.posList = true → x.polygonValid s.area.boundary.posList = false →
      processSources x cfg (chosenFilter x cfg) procs working (before ++ i :: after) w = some ⟨some (.runtimeError "Polygon invalid"), w1⟩) := by
  have hf : chosenFilter x cfg = sourceModelFilter x := by
    unfold chosenFilter
    rw [if_pos ((truthy_iff _).2 hs)]
  rw [hf] at hb ⊢
  have key : ∀ e, sourceModelFilter x s working = .error e →
      processSources x cfg (sourceModelFilter x) procs working (before ++ i :: after) w = some ⟨some e, w1⟩ := by
    intro e he
    have hc := (processSources_ok _ _ _ _ _ _ _ _).1 hb
    clear hb
    induction hc with
    | nil w =>
      rw [List.nil_append, processSources, hd, Option.bind_some, hi]
      simp only [he]
    | cons a as w w2 w3 ha _ ih =>
      obtain ⟨defs, s', m, h1, h2, h3, h4⟩ := ha
      rw [List.cons_append, processSources, h1, Option.bind_some, h2]
      simp only [h3]
      rw [(C18_in_order _ _ _ _ _).2 h4]
      exact ih hd
  exact ⟨fun h => key _ (filter_usable.2.1 h), fun h1 h2 => key _ (filter_usable.2.2 h1 h2)⟩

/-- **C139**: a run with a source model and with processing that ends without exception had a usable boundary in every source of the model.  So a model with an unusable boundary makes every
such run that ends raise an exception, and then the result file is as before the run (if it is not also the output of the preprocessing). -/
theorem C139_unusable_boundary (x : Ext F) (cfg : Config F) (hs : Configured cfg.sourceModelFile) (hp : cfg.applyProcessing = true) (fs : Text → Option Content) (pos : Nat)
    (inputs : List (AreaSource F)) (hin : InputSources x cfg fs inputs) (s : AreaSource F) (hm : s ∈ inputs) (hu : ¬ UsableBoundary x s) (o : Outcome F)
    (h : main x cfg fs pos = some o) :
    o.raised ≠ none ∧ (cfg.pprocessingResultFile ≠ some cfg.resultFile → cfg.completenessTableFile ≠ some cfg.resultFile →
      o.world.fs cfg.resultFile = fs cfg.resultFile) := by
  suffices hr : o.raised ≠ none from ⟨hr, C95_result_last x cfg fs pos o h hr⟩
  intro hr
  obtain ⟨e, w⟩ := o
  simp only at hr
  subst hr
  obtain ⟨pre, procs, w1, hpre, hproc, hst, -⟩ := main_ok.1 h
  obtain ⟨inputs', finals, hin', -, hd, hsame⟩ := start_related x cfg _ pre procs hpre hproc fs pos w1 hst
  obtain rfl := inputs_unique hin hin'
  obtain ⟨w0, defs, working, -, hd0, -, hc⟩ := (C19_once_in_order _ _ _ _ _ _ _ hp).1 hst
  have hn := named_not_reader ((C16_processing cfg procs).1 hproc)
  have hf : chosenFilter x cfg = sourceModelFilter x := by
    unfold chosenFilter
    rw [if_pos ((truthy_iff _).2 hs)]
  rw [hf] at hc
  have hR : Kept cfg procs (fun s t : Source F => t.area.boundary = s.area.boundary) := ⟨fun _ _ _ _ _ _ h => h, fun _ _ _ _ h => h⟩
  obtain ⟨d', hd', hs'⟩ := sources_related x cfg _ procs hn working hR defs _ w0 w1 hc ⟨defs, hd0, List.forall₂_same.2 fun _ _ => rfl⟩
  rw [hd] at hd'
  cases hd'
  obtain ⟨i, hi, rfl⟩ := List.getElem_of_mem hm
  have hl : defs.length = finals.length := hs'.length_eq
  have hl' : inputs.length = finals.length := hsame.length_eq
  have hsplit : List.range defs.length = List.range i ++ i :: (List.range defs.length).drop (i + 1) := by
    have h1 := List.take_append_drop i (List.range defs.length)
    rw [List.take_range, min_eq_left (by omega), List.drop_eq_getElem_cons (by simp; omega), List.getElem_range] at h1
    exact h1.symm
  rw [hsplit, Chain.append_iff] at hc
  obtain ⟨w2, -, hc2⟩ := hc
  obtain ⟨v, d2, s2, m, h1, h2, h3, -⟩ : ∃ v, ProcessesSource x cfg (sourceModelFilter x) procs working i w2 v := by
    cases hc2 with
    | cons _ _ _ s' _ hstep _ => exact ⟨s', hstep⟩
  obtain ⟨d3, hd3, hs3⟩ := sources_related x cfg _ procs hn working hR d2 _ w2 w1 hc2 ⟨d2, h1, List.forall₂_same.2 fun _ _ => rfl⟩
  rw [hd] at hd3
  cases hd3
  have hi2 : i < d2.length := by rw [hs3.length_eq]; omega
  have e2 : s2 = d2[i] := by rw [List.getElem?_eq_getElem hi2] at h2; cases h2; rfl
  have b1 : finals[i].area.boundary = s2.area.boundary := by rw [e2]; exact (List.forall₂_iff_get.1 hs3).2 i hi2 (by omega)
  have b2 : finals[i].area.boundary = inputs[i].boundary := ((List.forall₂_iff_get.1 hsame).2 i hi (by omega)).boundary
  refine hu ?_
  unfold UsableBoundary
  rw [← b2, b1]
  by_cases hb : x.polygonBuilt s2.area.boundary.posList = true
  · by_cases hv : x.polygonValid s2.area.boundary.posList = true
    · exact ⟨hb, hv⟩
    · rw [filter_usable.2.2 hb (by simpa using hv)] at h3; cases h3
  · rw [filter_usable.2.1 (by simpa using hb)] at h3; cases h3

end

/-- The example surroundings with a geometry library that makes a polygon of every boundary and finds none valid. -/
noncomputable def x139 : Ext ℝ := { exExt with polygonBuilt := fun _ => true, polygonValid := fun _ => false }

/-- Non-vacuity of C139: a run with one source, whose polygon is not valid, ends with `RuntimeError`, without a result file. -/
example : ∃ fs w' s, InputSources x139 (exConfig (some "m.xml".toList)) fs [s] ∧ ¬ UsableBoundary x139 s ∧
    main x139 (exConfig (some "m.xml".toList)) fs 0 = some ⟨some (.runtimeError "Polygon invalid"), w'⟩ ∧ w'.fs = fs := by
  obtain ⟨doc1, hdoc1⟩ := okSourceR_written
  obtain ⟨doc0, hr⟩ := reparse_exists pyNums_lawful _ _ hdoc1
  have hread : readDoc (pyNums (K := ℝ)) (fun _ => true) doc0 = .ok [rndSource Format.rnd12 okSourceR] := by
    refine C83_same_list_partial pyNums_lawful _ [okSourceR] doc1 doc0 hdoc1 hr rfl ?_ ?_ ?_
    · simp only [List.mem_singleton, forall_eq]
      exact ⟨by simp [okSourceR, defaultAreaSource], by simp [okSourceR], by simp [okSourceR]⟩
    · simp
    · simp only [List.mem_singleton, forall_eq]
      exact ⟨by simp [okSourceR, defaultAreaSource, mtk], by simp [okSourceR]⟩
  obtain ⟨e, he⟩ := exFile_loaded
  set fs : Text → Option Content := fun p => if p = "catalogue.csv".toList then some (.text (exFile exRow)) else some (.xml doc0) with hfs
  set cfg : Config ℝ := exConfig (some "m.xml".toList) with hcfg
  have hcat : fs "catalogue.csv".toList = some (.text (exFile exRow)) := if_pos rfl
  have hxml : fs "m.xml".toList = some (.xml doc0) := if_neg (by decide)
  obtain ⟨rows, my, mm, hrows, hne, h1, h2⟩ : ∃ rows my mm, [e].mapM matrixRow = .ok rows ∧ rows ≠ [] ∧
      Np.npMin (rows.map fun r => r 0) = .ok my ∧ Np.npMin (rows.map fun r => r 5) = .ok mm := by
    obtain ⟨w5, hc, -, -⟩ := C15_accepted_catalogue exExt (exConfig none) ⟨exFs, 0, {}⟩ (exFile exRow) [e] (by simp) exFs_catalogue he
    rcases hc with _ | ⟨_, _, _, w1, _, h1, _ | ⟨_, _, _, w2, _, h2, _ | ⟨_, _, _, w3, _, h3, _ | ⟨_, _, _, w4, _, h4, -⟩⟩⟩⟩
    have := (compulsory_iff exExt (exConfig none) exFs 0 w4).1 (by
        rw [compulsoryJobs, show sourceJob (exConfig none) = .createDefaultSourceModel from if_neg (by rintro ⟨t, h, -⟩; cases h)]
        exact .cons _ _ _ _ _ h1 (.cons _ _ _ _ _ h2 (.cons _ _ _ _ _ h3 (.cons _ _ _ _ _ h4 (.nil _)))))
    obtain ⟨file, es, inputs, rows, my, mm, q1, q2, -, -, q3, q4, q5, q6, -⟩ := this
    have q1' : exFs "catalogue.csv".toList = some (.text file) := q1
    rw [exFs_catalogue] at q1'
    cases q1'
    rw [he] at q2
    cases q2
    exact ⟨rows, my, mm, q3, q4, q5, q6⟩
  have hin : InputSources x139 cfg fs [rndSource Format.rnd12 okSourceR] := .inl ⟨"m.xml".toList, doc0, by decide, rfl, .inl hxml, hread⟩
  obtain ⟨w4, hw4⟩ : ∃ w4, w4 = prepared fs 0 [e] ([rndSource Format.rnd12 okSourceR].map fun a => ({ area := a } : Source ℝ)) rows my mm := ⟨_, rfl⟩
  have hpre := (compulsory_iff x139 cfg fs 0 w4).2 ⟨exFile exRow, [e], [rndSource Format.rnd12 okSourceR], rows, my, mm, hcat, he, hin, by simp, hrows, hne, h1, h2, hw4⟩
  rw [compulsoryJobs, show sourceJob cfg = .readSourceModel from if_pos ⟨_, rfl, by decide⟩, ← C18_in_order] at hpre
  have hdefs : w4.ctx.smDefinitions = some [{ area := rndSource Format.rnd12 okSourceR }] := by rw [hw4]; rfl
  have hworking : w4.ctx.workingCatalog = some ⟨rows, false⟩ := by rw [hw4]; rfl
  have hfiles : w4.fs = fs := by rw [hw4]; rfl
  refine ⟨fs, w4, rndSource Format.rnd12 okSourceR, hin, fun h => absurd h.2 (by simp [x139]), ?_, hfiles⟩
  have hstart : start x139 cfg (chosenFilter x139 cfg) [.readEqCatalog, .readSourceModel, .createCatalogMatrix, .createDefaultValues] [] ⟨fs, 0, {}⟩ =
      some ⟨some (.runtimeError "Polygon invalid"), w4⟩ := by
    have hrep := (C139_reported x139 cfg ⟨_, rfl, by decide⟩ [] ⟨rows, false⟩ [] [] 0 w4 w4 rfl _ _ hdefs rfl).2 rfl rfl
    unfold start
    rw [hpre]
    simp only [andThen, hdefs, hworking]
    exact hrep
  unfold main
  rw [show buildPreprocessing cfg = .ok [.readEqCatalog, .readSourceModel, .createCatalogMatrix, .createDefaultValues] from rfl,
    show buildProcessing cfg = .ok [] from rfl]
  simp only [hstart, andThen]

end Verif.Workflow
