import Verif.Props.Independence
import Verif.Props.EquivalenceRun
import Verif.Props.SteppTable
import Verif.Props.SourceOrder

/-!
# C132, C133: example runs
-/

namespace Verif.Workflow

open Verif Verif.EqCatalog Verif.Csv Verif.Nrml Verif.Declustering Verif.Recurrence Verif.MaxMag Spec

/-- An event. -/
def row132 (year lat mag : String) : List Text :=
  ["1", "AAA", "20000110034913", year, "01", "10", "03", "49", "13", "0.02", "0", lat, "2.43", "1.01", "298",
   "9.3", "0.5", mag, "0", "", "", "", "", "1.7", "0.1"].map String.toList

/-- The catalogue file: an event of magnitude 6 in 2000 and one of magnitude 5 in 2001. -/
def file132 : Text :=
  writeRow (fieldNames.map (fun f => f.name.toList)) ++ writeRow (row132 "2000" "0" "6") ++ writeRow (row132 "2001" "40" "5")

theorem holds132 : (readCatalogFile (ratEnv 2012) cpythonOrder file132).map (fun es => es.map fun e => fixedColumns.map e) =
    .ok [[.int 2000, .int 1, .int 10, .flt 0, .flt 0, .flt 6, .flt 0], [.int 2001, .int 1, .int 10, .flt 0, .flt 40, .flt 5, .flt 0]] := by
  decide +kernel

/-- The catalogue as a matrix. -/
noncomputable def rows132 : List (Row ℝ) := [![2000, 1, 10, 0, 0, 6, 0], ![2001, 1, 10, 0, 40, 5, 0]]

theorem loaded132 : ∃ es, readCatalogFile x31.env x31.ord file132 = .ok es ∧ es.mapM matrixRow = .ok rows132 := by
  show ∃ es, readCatalogFile (ratEnv 2012).cast cpythonOrder file132 = .ok es ∧ _
  rw [readCatalogFile_cast]
  have h := holds132
  cases hr : readCatalogFile (ratEnv 2012) cpythonOrder file132 with
  | error err => rw [hr] at h; cases h
  | ok es =>
    rw [hr] at h
    simp only [Except.map, Except.ok.injEq] at h
    refine ⟨es.map Entry.cast, rfl, ?_⟩
    have hl : es.length = 2 := by simpa using congrArg List.length h
    obtain ⟨e1, e2, rfl⟩ := List.length_eq_two.1 hl
    simp only [List.map_cons, List.map_nil, fixedColumns, List.cons.injEq, and_true] at h
    obtain ⟨⟨a1, a2, a3, a4, a5, a6, a7⟩, ⟨b1, b2, b3, b4, b5, b6, b7⟩⟩ := h
    simp only [List.map_cons, List.map_nil, List.mapM_cons, List.mapM_nil, matrixRow, fixedColumns, Entry.cast, a1, a2, a3, a4, a5, a6, a7, b1, b2, b3, b4,
      b5, b6, b7, Val.cast, number, bind, Except.bind, pure, Except.pure]
    refine congrArg Except.ok (congrArg₂ List.cons ?_ (congrArg₂ List.cons ?_ rfl))
    · funext k; fin_cases k <;> simp
    · funext k; fin_cases k <;> simp

/-- A configuration without preprocessing, with the processing jobs `jobs`, the reference magnitude `ref` and the settings `m` of the maximum magnitude. -/
noncomputable def configOf132 (jobs : List String) (ref : ℝ) (m : MaxMagConfig ℝ) : Config ℝ :=
  { exConfig none with processingJobs := jobs, recurrence := some ⟨1, "MLE", ref, 5⟩, maximumMagnitude := some m }

/-- The maximum magnitude by cumulative moments. -/
noncomputable def moments132 : MaxMagConfig ℝ := ⟨"Cumulative_Moment", 0.1, 10, 10, 10, 2⟩

/-- The same with reference magnitude 4 and cumulative moments. -/
noncomputable abbrev config132 (jobs : List String) : Config ℝ := configOf132 jobs 4 moments132

/-- The files. -/
def fs132 : Text → Option Content := fun p => if p = "catalogue.csv".toList then some (.text file132) else none

/-- The default source with other Gutenberg-Richter numbers can be written. -/
theorem serialized132 (f : Source ℝ → Source ℝ) (hf : SameBut (defaultAreaSource : AreaSource ℝ) (f { area := defaultAreaSource }).area) :
    ∃ doc, serialize (pyNums (K := ℝ)) [(f { area := defaultAreaSource }).area] = .ok doc := by
  rw [C83_writer_accepts pyNums_lawful]
  obtain ⟨h1, h2, h3, h4, h5, h6, h7, h8, h9, h10, h11, h12⟩ := hf
  refine ⟨?_, _, [], rfl, ⟨_, h1, mtk_storable⟩, ⟨_, h2, mtk_storable⟩⟩
  intro s hs
  rw [List.mem_singleton] at hs
  subst hs
  refine ⟨⟨_, h3, mtk_storable⟩, ?_, ?_, ⟨_, by rw [h6]; rfl, mtk_storable⟩, ⟨_, by rw [h7]; rfl, mtk_storable⟩, ⟨_, by rw [h11]; rfl, mtk_storable⟩⟩
  · intro t ht
    rw [h4] at ht
    cases ht
    exact mtk_storable
  · intro t ht
    rw [h5] at ht
    cases ht
    exact mtk_storable

/-- A run with a given effect on the source. -/
theorem run132 {jobs : List String} {ref : ℝ} {m : MaxMagConfig ℝ} {procs : List Job} (hn : Named jobs procs) (f : Source ℝ → Source ℝ)
    (hf : SameBut (defaultAreaSource : AreaSource ℝ) (f { area := defaultAreaSource }).area)
    (h : ∀ w : World ℝ, w.ctx.smDefinitions = some [{ area := defaultAreaSource }] → w.ctx.curSm = some 0 → w.ctx.currentFilteredEq = some ⟨rows132, false⟩ →
      w.ctx.completenessTable = some [(2000, 5)] → w.pos = 0 →
      ∃ p, Chain (Succeeds x31 (configOf132 jobs ref m)) procs w { w.setSource [{ area := defaultAreaSource }] 0 f with pos := p }) :
    ∃ w, main x31 (configOf132 jobs ref m) fs132 0 = some ⟨none, w⟩ ∧ w.ctx.smDefinitions = some [f { area := defaultAreaSource }] := by
  obtain ⟨es, hes, hrows⟩ := loaded132
  have hc := (compulsory_iff x31 (configOf132 jobs ref m) fs132 0 _).2 ⟨file132, es, [defaultAreaSource], rows132, 2000, 5, if_pos rfl, hes,
    .inr ⟨(by rintro ⟨t, h, -⟩; cases h), rfl⟩, by simp, hrows, by simp [rows132], by
      rw [Np.npMin_iff]
      simp [rows132, IsLeast, lowerBounds]
      norm_num, npMin_two (by norm_num : (5 : ℝ) ≤ 6), rfl⟩
  set w0 := prepared fs132 0 es ([defaultAreaSource].map fun a => ({ area := a } : Source ℝ)) rows132 2000 5
  obtain ⟨p, hp⟩ := h (w0.turn 0 ⟨rows132, false⟩) rfl rfl rfl rfl rfl
  obtain ⟨doc, hdoc⟩ := serialized132 f hf
  have hwrite := writeResult_run (x := x31) (cfg := configOf132 jobs ref m) rfl rfl (d := [f { area := defaultAreaSource }])
    (w := { (w0.turn 0 ⟨rows132, false⟩).setSource [{ area := defaultAreaSource }] 0 f with pos := p }) rfl hdoc
  refine ⟨_, main_ok.2 ⟨_, procs, _, (C16_preprocessing (configOf132 jobs ref m) _).2 ⟨[], .nil, rfl⟩, (C16_processing (configOf132 jobs ref m) _).2 hn,
    (C19_once_in_order x31 (configOf132 jobs ref m) _ _ _ _ _ rfl).2 ⟨w0, [{ area := defaultAreaSource }], ⟨rows132, false⟩, ?_, rfl, rfl, ?_⟩, hwrite⟩, rfl⟩
  · have h1 : ¬ (configOf132 jobs ref m).preprocessingJobs ≠ [] := fun h => h rfl
    have h2 : ¬ Configured (configOf132 jobs ref m).completenessTableFile := by rintro ⟨t, h, -⟩; cases h
    rw [if_neg h1, if_neg h2, List.append_nil, List.append_nil]
    exact hc
  · exact .cons _ _ _ _ _ ⟨_, _, _, rfl, rfl, rfl, hp⟩ (.nil _)

/-- The recurrence analysis of the two events. -/
theorem recurrence132 (ref : ℝ) : ∃ g : GR ℝ, ∀ (jobs : List String) (m : MaxMagConfig ℝ),
    RecOk x31 (configOf132 jobs ref m) ⟨rows132, false⟩ (some [(2000, 5)]) (withRecurrence ref g) := by
  obtain ⟨g, hg, -⟩ := C125_periods_partial (ev := [((2000 : ℝ), (6 : ℝ)), (2001, 5)]) (table := [(2000, 5)]) (dmag := 1) (ref := ref) one_pos (by simp) (by
    intro c hc
    rw [List.mem_singleton] at hc
    subst hc
    exact ⟨(2000, 6), by simp, by norm_num, by norm_num⟩)
  refine ⟨g, fun jobs m => ⟨rows132, _, _, g, rfl, rfl, rfl, ?_, rfl⟩⟩
  simp only [recurrenceAnalysis, show ("MLE" = "Weichert") = False by decide, if_false]
  rw [show yearMag rows132 = [((2000 : ℝ), (6 : ℝ)), (2001, 5)] from rfl, hg]
  rfl

/-- The maximum magnitude of the two events. -/
theorem maximum132 : ∃ r : ℝ × ℝ, r.1 = (2.0 / 3.0) * (Real.logb 10 ((MaxMag.Spec.moment 6 - MaxMag.Spec.moment 5) / 2) - 9.05) ∧
    ∀ (jobs : List String) (ref : ℝ), MaxOk x31 (configOf132 jobs ref moments132) ⟨rows132, false⟩ 0 (withMaxMag r) 4 := by
  have hp : ∀ (z : ℕ → ℝ), perturbed (yearMagSigma rows132) z = [(2000, 6), (2001, 5)] := by
    intro z
    have e : yearMagSigma rows132 = [⟨2000, 6, 0⟩, ⟨2001, 5, 0⟩] := rfl
    rw [e]
    simp [perturbed]
  have hc := cumulativeMoment_pair 6 5 (by norm_num)
  set e := (2.0 / 3.0) * (Real.logb 10 ((MaxMag.Spec.moment 6 - MaxMag.Spec.moment 5) / 2) - 9.05) with he
  obtain ⟨s, hs⟩ : ∃ s, ∀ rnd, cumMoUncertainty (yearMagSigma rows132) 2 rnd = .ok (e, s) := by
    unfold cumMoUncertainty
    simp only [show List.range 2 = [0, 1] from rfl, List.mapM_cons, List.mapM_nil, hp, hc, bind, Except.bind, pure, Except.pure]
    refine ⟨_, fun _ => congrArg Except.ok (Prod.ext ?_ rfl)⟩
    dsimp only
    rw [npMean, Np.npSum_real]
    change (e + (e + 0)) / ((2 : ℕ) : ℝ) = e
    generalize e = e
    push_cast
    ring
  refine ⟨(e, s), rfl, fun jobs ref => ⟨rows132, _, (e, s), rfl, rfl, ?_, rfl, ?_⟩⟩
  · simp only [moments132, analysis, show ¬ ("Cumulative_Moment" = "Kijko_Npg") by decide, if_true, if_false, hs]
  · simp [drawn, rows132, moments132]

/-- Runs with the maximum magnitude analysis alone, with the recurrence alone, and with both, end without exception; C132 and C133 apply to them. -/
example : ∃ w1 w2 w3 d1 d2 d3, main x31 (config132 ["MaximumMagnitude"]) fs132 0 = some ⟨none, w1⟩ ∧ main x31 (config132 ["Recurrence"]) fs132 0 = some ⟨none, w2⟩ ∧
    main x31 (config132 ["Recurrence", "MaximumMagnitude"]) fs132 0 = some ⟨none, w3⟩ ∧
    w1.ctx.smDefinitions = some [d1] ∧ w2.ctx.smDefinitions = some [d2] ∧ w3.ctx.smDefinitions = some [d3] ∧
    d1.area.rate.tgr.maxMagnitude = (2.0 / 3.0) * (Real.logb 10 ((MaxMag.Spec.moment 6 - MaxMag.Spec.moment 5) / 2) - 9.05) ∧
    d3.area.rate.tgr.maxMagnitude = d1.area.rate.tgr.maxMagnitude ∧ d3.area.rate.tgr.bValue = d2.area.rate.tgr.bValue ∧
    SameMaximum (config132 ["MaximumMagnitude"]) (config132 ["Recurrence", "MaximumMagnitude"]) ∧
    SameButMaximum (config132 ["Recurrence"]) (config132 ["Recurrence", "MaximumMagnitude"]) := by
  obtain ⟨g, hg⟩ := recurrence132 4
  obtain ⟨r, hr1, hr⟩ := maximum132
  have n1 : Named ["MaximumMagnitude"] [.maximumMagnitude] := .cons (by simp [documented]) .nil
  have n2 : Named ["Recurrence"] [.recurrence] := .cons (by simp [documented]) .nil
  have n3 : Named ["Recurrence", "MaximumMagnitude"] [.recurrence, .maximumMagnitude] := .cons (by simp [documented]) n1
  obtain ⟨w1, h1, d1⟩ := run132 (ref := 4) (m := moments132) n1 (withMaxMag r) ⟨rfl, rfl, rfl, rfl, rfl, rfl, rfl, rfl, rfl, rfl, rfl, rfl⟩ fun w a1 a2 a3 a4 a5 =>
    ⟨4, .cons _ _ _ _ _ (maximumMagnitudeJob_ok.2 ⟨0, _, _, _, 4, a2, a1, by simp, a3, by rw [a5]; exact hr _ _, rfl⟩) (.nil _)⟩
  obtain ⟨w2, h2, d2⟩ := run132 (ref := 4) (m := moments132) n2 (withRecurrence 4 g) ⟨rfl, rfl, rfl, rfl, rfl, rfl, rfl, rfl, rfl, rfl, rfl, rfl⟩ fun w a1 a2 a3 a4 a5 =>
    ⟨w.pos, .cons _ _ _ _ _ (recurrenceJob_ok.2 ⟨0, _, _, _, a2, a1, by simp, a3, by rw [a4]; exact hg _ _, rfl⟩) (.nil _)⟩
  obtain ⟨w3, h3, d3⟩ := run132 (ref := 4) (m := moments132) n3 (withMaxMag r ∘ withRecurrence 4 g) ⟨rfl, rfl, rfl, rfl, rfl, rfl, rfl, rfl, rfl, rfl, rfl, rfl⟩ fun w a1 a2 a3 a4 a5 =>
    ⟨4, .cons _ _ _ _ _ (recurrenceJob_ok.2 ⟨0, _, _, _, a2, a1, by simp, a3, by rw [a4]; exact hg _ _, rfl⟩)
      (.cons _ _ _ _ _ (maximumMagnitudeJob_ok.2 ⟨0, _, _, _, 4, a2, rfl, by simp, a3, by
        show MaxOk _ _ _ w.pos _ _
        rw [a5]; exact hr _ _, by simp [World.setSource]⟩) (.nil _))⟩
  refine ⟨w1, w2, w3, _, _, _, h1, h2, h3, d1, d2, d3, hr1, rfl, rfl, ?_, ?_⟩
  · exact ⟨rfl, rfl, rfl, rfl, rfl, rfl, rfl, by unfold SameJobs; decide⟩
  · exact ⟨rfl, rfl, rfl, rfl, rfl, rfl, rfl, rfl, rfl, rfl, by unfold SameJobs; decide⟩

end Verif.Workflow
