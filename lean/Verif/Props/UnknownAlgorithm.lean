import Verif.Props.MaximumRun
import Verif.Props.CumulativeMoment

/-!
# C74: whole runs with an algorithm name that is not known
-/

namespace Verif.Workflow

open Verif Verif.EqCatalog Verif.Csv Verif.Nrml Verif.Declustering Verif.Recurrence Verif.MaxMag Spec

section
variable {F : Type} [PyMath F]

/-- **C74 fails in whole runs** (maximum magnitude): every run with an unknown algorithm name that ends without exception has replaced the maximum magnitude of every source by 0. -/
theorem C74_run_zero (x : Ext F) (cfg : Config F) (fs : Text → Option Content) (pos : ℕ) (w' : World F)
    (hpre : ∀ n ∈ cfg.preprocessingJobs, n = "GardnerKnopoff" ∨ n = "Afteran" ∨ n = "Stepp")
    (hproc : ∀ n ∈ cfg.processingJobs, n = "Recurrence" ∨ n = "MaximumMagnitude") (hin : "MaximumMagnitude" ∈ cfg.processingJobs) (hp : cfg.applyProcessing = true)
    (halg : ∀ c, cfg.maximumMagnitude = some c → c.algorithm ≠ "Kijko_Npg" ∧ c.algorithm ≠ "Cumulative_Moment") (h : main x cfg fs pos = some ⟨none, w'⟩) :
    ∃ finals doc, serialize x.nums finals = .ok doc ∧ w'.fs cfg.resultFile = some (.xml doc) ∧ finals ≠ [] ∧ ∀ s ∈ finals, s.rate.tgr.maxMagnitude = ((0 : ℕ) : F) := by
  obtain ⟨es, inputs, all, q, fs1, n, finals, doc, ⟨file, y, m, p, -, -, -, hne, -⟩, hrun, -, hdoc, -, hfs⟩ :=
    (C145_run x cfg fs w'.fs pos hpre hproc).1 ⟨w', h, rfl⟩
  have hrun := hrun hp
  refine ⟨finals, doc, hdoc, by rw [hfs]; simp [put], ?_, sourcesRun_maximum (P := fun v => v = ((0 : ℕ) : F)) hin ?_ hrun⟩
  · cases hrun with
    | nil => exact absurd rfl hne
    | cons => simp
  intro rows _ c r n hc ha
  obtain ⟨h1, h2⟩ := halg c hc
  rw [analysis, if_neg h1, if_neg h2] at ha
  cases ha
  rfl

/-- Runs with two configurations that differ in the section of the recurrence only, when the job does the same with both. -/
theorem main_recurrence (x : Ext F) (cfg : Config F) (r : Option (RecurrenceConfig F)) (h : ∀ w, recurrenceJob x cfg w = recurrenceJob x { cfg with recurrence := r } w)
    (fs : Text → Option Content) (pos : ℕ) : main x cfg fs pos = main x { cfg with recurrence := r } fs pos := by
  have hj : ∀ j w, runJob x cfg j w = runJob x { cfg with recurrence := r } j w := by
    intro j w
    cases j
    case recurrence => exact h w
    all_goals rfl
  have hp : ∀ js w, runPipeline x cfg js w = runPipeline x { cfg with recurrence := r } js w := by
    intro js
    induction js with
    | nil => exact fun _ => rfl
    | cons j js ih =>
      intro w
      rw [runPipeline, runPipeline, hj]
      split
      · rfl
      · rfl
      · exact ih _
  have hs : ∀ f js wk is w, processSources x cfg f js wk is w = processSources x { cfg with recurrence := r } f js wk is w := by
    intro f js wk is
    induction is with
    | nil => exact fun _ => rfl
    | cons i is ih =>
      intro w
      rw [processSources, processSources, funext ih]
      simp only [hp]
  unfold main start
  simp only [hp, hs]
  rfl

/-- **C74 fails in whole runs** (recurrence): the program does with any unknown algorithm name exactly what it does with `MLE`, whatever the configuration, the files and the exceptions. -/
theorem C74_run_mle (x : Ext F) (cfg : Config F) (c : RecurrenceConfig F) (hc : cfg.recurrence = some c) (h : c.algorithm ≠ "Weichert") (fs : Text → Option Content) (pos : ℕ) :
    main x cfg fs pos = main x { cfg with recurrence := some { c with algorithm := "MLE" } } fs pos := by
  refine main_recurrence x cfg _ (fun w => ?_) fs pos
  unfold recurrenceJob
  simp only [hc]
  cases h1 : attr w.ctx.currentFilteredEq with
  | error e => rfl
  | ok m =>
    cases h2 : m.cols with
    | error e => simp [h2, bind, Except.bind]
    | ok rows =>
      cases h3 : notNone w.ctx.completenessTable with
      | error e => simp [h2, bind, Except.bind, section_]
      | ok table => simp [h2, bind, Except.bind, section_, C74_unknown_recurrence_fails _ _ _ _ _ _ _ h]

end

/-- A run with the algorithm `Kijko` (the name is `Kijko_Npg`) on the catalogue of one earthquake. -/
noncomputable def config74 : Config (XNum ℝ) where
  __ := config198
  maximumMagnitude := some { algorithm := "Kijko", tolerance := .fin 0.05, maxIterations := 1000, neq := 100, nsamp := .fin ((51 : ℕ) : ℝ), nboot := 200 }

example : ∃ w', main x198 config74 fs198 0 = some ⟨none, w'⟩ ∧
    ∃ finals doc, serialize x198.nums finals = .ok doc ∧ w'.fs "result.xml".toList = some (.xml doc) ∧ finals ≠ [] ∧ ∀ s ∈ finals, s.rate.tgr.maxMagnitude = ((0 : ℕ) : XNum ℝ) := by
  obtain ⟨es, h1, h2, -⟩ := file198_loaded
  have hnc : ∀ q : Prop, ¬ (q ∧ Configured (none : Option Text)) := by rintro q ⟨-, t, ht, -⟩; cases ht
  suffices h : ∃ fs', Run x198 config74 fs198 0 fs' by
    obtain ⟨fs', h⟩ := h
    obtain ⟨w', h, -⟩ := (C145_run x198 config74 fs198 fs' 0 config198_pre config198_proc).2 h
    refine ⟨w', h, C74_run_zero x198 config74 fs198 0 w' config198_pre config198_proc (List.mem_singleton.2 rfl) rfl ?_ h⟩
    rintro c ⟨⟩
    exact ⟨by decide, by decide⟩
  have hmin : Np.npMin (rows198.map fun r => r 0) = .ok (XNum.fin (1980 : ℝ)) ∧ Np.npMin (rows198.map fun r => r 5) = .ok (XNum.fin (5 : ℝ)) := ⟨rfl, rfl⟩
  refine ⟨_, es, [placeholder], rows198, ⟨rows198, List.replicate 1 0, [(.fin 1980, .fin 5)]⟩, fs198, 0, _, _,
    ⟨file198, _, _, _, fs198_catalogue, h1, .inr ⟨?_, rfl⟩, by simp, h2, hmin.1, hmin.2, .nil _, rfl, rfl, fun h => absurd h (hnc _), fun _ => rfl,
      fun h => absurd h (hnc _), fun _ => rfl⟩,
    fun _ => .cons _ _ _ _ _ _ _ rows198 ⟨fun h => absurd ⟨trivial, h⟩ (hnc True), fun _ => rfl⟩ (.maximum _ _ _ _ _ _ (((0 : ℕ) : XNum ℝ), ((0 : ℕ) : XNum ℝ)) rfl ?_ (.nil _ _)) (.nil _),
    fun h => Bool.noConfusion (show true = false from h), rfl, ⟨rfl, rfl⟩, rfl⟩
  · exact fun h => hnc True ⟨trivial, h⟩
  · rfl

end Verif.Workflow
