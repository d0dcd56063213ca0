import Verif.Lemmas.Configuration
import Verif.Spec.Configuration

/-!
# Lemmas on the keys that a run without exception has found
-/

namespace Verif.Workflow

open Verif Verif.EqCatalog Verif.Csv Verif.Nrml Verif.Declustering Verif.Recurrence Verif.MaxMag Spec

section
variable {F : Type} [PyMath F]

theorem rawMain_ok {x : Ext F} {r : RawConfig F} {fs : Text → Option Content} {pos : Nat} {w : World F} (h : rawMain x r fs pos = some ⟨none, w⟩) :
    ∃ pre procs w1, rawBuild r = .ok (pre, procs) ∧ rawStart x r pre procs ⟨fs, pos, {}⟩ = some ⟨none, w1⟩ ∧ rawWriteResult x r w1 = .ok w := by
  unfold rawMain at h
  simp only at h
  cases hb : rawBuild r with
  | error e => rw [hb] at h; cases h
  | ok p =>
    obtain ⟨pre, procs⟩ := p
    rw [hb] at h
    simp only at h
    rw [andThen_ok] at h
    obtain ⟨w1, h1, h⟩ := h
    refine ⟨pre, procs, w1, rfl, h1, ?_⟩
    cases hw : rawWriteResult x r w1 with
    | error e => rw [hw] at h; cases h
    | ok v => rw [hw] at h; cases h; rfl

theorem rawPipeline_ok {x : Ext F} {r : RawConfig F} {js : List Job} {w w' : World F} (h : rawPipeline x r js w = some ⟨none, w'⟩) :
    runPipeline x r.config js w = some ⟨none, w'⟩ ∧ ∀ j ∈ js, ∃ v, jobKeys r j v = .ok () := by
  induction js generalizing w with
  | nil => exact ⟨h, by simp⟩
  | cons j js ih =>
    rw [rawPipeline] at h
    cases hj : rawJob x r j w with
    | none => rw [hj] at h; cases h
    | some e =>
      rw [hj] at h
      cases e with
      | error e => cases h
      | ok v =>
        obtain ⟨hk, hs⟩ := rawJob_ok hj
        obtain ⟨h1, h2⟩ := ih h
        refine ⟨?_, ?_⟩
        · rw [runPipeline, hs]
          exact h1
        · intro j' hj'
          rcases List.mem_cons.1 hj' with rfl | hj'
          · exact ⟨w, hk⟩
          · exact h2 j' hj'

theorem runPipeline_flag (x : Ext F) (c : Config F) (b : Bool) (js : List Job) (w : World F) :
    runPipeline x { c with applyProcessing := b } js w = runPipeline x c js w := by
  induction js generalizing w with
  | nil => rfl
  | cons j js ih =>
    have : runJob x { c with applyProcessing := b } j w = runJob x c j w := by cases j <;> rfl
    rw [runPipeline, runPipeline, this]
    cases runJob x c j w with
    | none => rfl
    | some e => cases e with
      | error e => rfl
      | ok v => exact ih v

/-- After a preprocessing without exception there is a source. -/
theorem preprocessing_sources {x : Ext F} {c : Config F} {pre procs : List Job} (hb : buildPreprocessing c = .ok pre) (hp : buildProcessing c = .ok procs)
    {fs : Text → Option Content} {pos : Nat} {w : World F} (h : runPipeline x c pre ⟨fs, pos, {}⟩ = some ⟨none, w⟩) :
    ∃ s d, w.ctx.smDefinitions = some (s :: d) := by
  have hs : start x { c with applyProcessing := false } (chosenFilter x c) pre procs ⟨fs, pos, {}⟩ = some ⟨none, w⟩ := by
    unfold start
    rw [runPipeline_flag, h]
    rfl
  obtain ⟨inputs, finals, -, h1, h2, h3⟩ := start_related x { c with applyProcessing := false } _ pre procs hb hp fs pos w hs
  cases finals with
  | nil => cases h3; exact absurd rfl h1
  | cons s d => exact ⟨s, d, h2⟩

theorem rawSources_keys {x : Ext F} {r : RawConfig F} {procs : List Job} {working : Matrix F} {i : Nat} {is : List Nat} {w w' : World F}
    (h : rawSources x r procs working (i :: is) w = some ⟨none, w'⟩) : ∀ j ∈ procs, ∃ v, jobKeys r j v = .ok () := by
  rw [rawSources] at h
  cases hs : w.ctx.smDefinitions.bind (·[i]?) with
  | none => rw [hs] at h; cases h
  | some s =>
    rw [hs] at h
    simp only at h
    cases hm : chosenFilter x r.config s working with
    | error e => rw [hm] at h; cases h
    | ok m =>
      rw [hm] at h
      simp only at h
      rw [andThen_ok] at h
      obtain ⟨v, h1, -⟩ := h
      exact (rawPipeline_ok h1).2

omit [PyMath F] in
theorem rawBuild_ok {r : RawConfig F} {pre procs : List Job} (h : rawBuild r = .ok (pre, procs)) :
    preprocessingKeys r = .ok () ∧ buildPreprocessing r.config = .ok pre ∧ r.processingJobs ≠ .missing ∧ buildProcessing r.config = .ok procs := by
  unfold rawBuild at h
  obtain ⟨_, h1, h⟩ := Nrml.bind_ok h
  obtain ⟨_, h2, h⟩ := Nrml.bind_ok h
  obtain ⟨_, h3, h⟩ := Nrml.bind_ok h
  obtain ⟨_, h4, h⟩ := Nrml.bind_ok h
  cases h
  refine ⟨h1, h2, ?_, h4⟩
  intro hm
  rw [hm] at h3
  cases h3

/-- What a run without exception has looked up. -/
theorem rawMain_keys {x : Ext F} {r : RawConfig F} {fs : Text → Option Content} {pos : Nat} {w : World F} (h : rawMain x r fs pos = some ⟨none, w⟩) :
    ∃ pre procs, rawBuild r = .ok (pre, procs) ∧ (∀ j ∈ pre, ∃ v, jobKeys r j v = .ok ()) ∧ r.applyProcessing ≠ .missing ∧
      (r.applyProcessing = .given true → ∀ j ∈ procs, ∃ v, jobKeys r j v = .ok ()) ∧ ∃ p, r.resultFile = .given p := by
  obtain ⟨pre, procs, w1, hb, hs, hw⟩ := rawMain_ok h
  obtain ⟨-, hb1, -, hb2⟩ := rawBuild_ok hb
  obtain ⟨p, hp, -⟩ := rawWriteResult_ok hw
  unfold rawStart at hs
  rw [andThen_ok] at hs
  obtain ⟨w0, h0, hs⟩ := hs
  obtain ⟨h1, h2⟩ := rawPipeline_ok h0
  refine ⟨pre, procs, hb, h2, ?_, ?_, p, hp⟩
  · intro hm
    rw [hm] at hs
    cases hs
  · intro ha
    rw [ha] at hs
    simp only [Key.get, Option.getD_some, if_true] at hs
    obtain ⟨s, d, hd⟩ := preprocessing_sources hb1 hb2 h1
    rw [hd] at hs
    cases hwk : w0.ctx.workingCatalog with
    | none => rw [hwk] at hs; cases hs
    | some working =>
      rw [hwk] at hs
      simp only [List.length_cons, List.range_eq_range', List.range'_succ] at hs
      exact rawSources_keys hs

end

section
variable {F : Type}

theorem param_ok {α : Type} {o : Option α} {a : α} (h : param o = .ok a) : o = some a := by
  cases o <;> cases h; rfl

theorem section_given {α : Type} {k : Key α} {a : α} (h : k.section_ = .ok a) : k = .given a := by
  cases k <;> cases h; rfl

theorem RawDecluster.params_ok {c : RawDecluster F} {p : String × F} (h : c.params = .ok p) : c = ⟨some p.1, some p.2⟩ := by
  unfold RawDecluster.params at h
  obtain ⟨a, ha, h⟩ := Nrml.bind_ok h
  obtain ⟨b, hb, h⟩ := Nrml.bind_ok h
  cases h
  obtain ⟨u, v⟩ := c
  cases param_ok ha
  cases param_ok hb
  rfl

theorem RawStepp.params_ok {c : RawStepp F} {p : SteppConfig F} (h : c.params = .ok p) :
    c = ⟨some p.magnitudeWindows, some p.timeWindow, some p.sensitivity, some p.incrementLock⟩ := by
  unfold RawStepp.params at h
  obtain ⟨a, h1, h⟩ := Nrml.bind_ok h
  obtain ⟨b, h2, h⟩ := Nrml.bind_ok h
  obtain ⟨b, h3, h⟩ := Nrml.bind_ok h
  obtain ⟨b, h4, h⟩ := Nrml.bind_ok h
  cases h
  obtain ⟨_, _, _, _⟩ := c
  cases param_ok h1
  cases param_ok h2
  cases param_ok h3
  cases param_ok h4
  rfl

theorem RawRecurrence.params_ok {c : RawRecurrence F} {p : RecurrenceConfig F} (h : c.params = .ok p) :
    c = ⟨some p.magnitudeWindow, some p.algorithm, some p.referenceMagnitude, some p.timeWindow⟩ := by
  unfold RawRecurrence.params at h
  obtain ⟨a, h1, h⟩ := Nrml.bind_ok h
  obtain ⟨b, h2, h⟩ := Nrml.bind_ok h
  obtain ⟨b, h3, h⟩ := Nrml.bind_ok h
  obtain ⟨b, h4, h⟩ := Nrml.bind_ok h
  cases h
  obtain ⟨_, _, _, _⟩ := c
  cases param_ok h1
  cases param_ok h2
  cases param_ok h3
  cases param_ok h4
  rfl

theorem RawMaxMag.params_ok {c : RawMaxMag F} {p : MaxMagConfig F} (h : c.params = .ok p) :
    c = ⟨some p.algorithm, some p.tolerance, some p.maxIterations, some p.neq, some p.nsamp, some p.nboot⟩ := by
  unfold RawMaxMag.params at h
  obtain ⟨a, h1, h⟩ := Nrml.bind_ok h
  obtain ⟨b, h2, h⟩ := Nrml.bind_ok h
  obtain ⟨b, h3, h⟩ := Nrml.bind_ok h
  obtain ⟨b, h4, h⟩ := Nrml.bind_ok h
  obtain ⟨b, h5, h⟩ := Nrml.bind_ok h
  obtain ⟨b, h6, h⟩ := Nrml.bind_ok h
  cases h
  obtain ⟨_, _, _, _, _, _⟩ := c
  cases param_ok h1
  cases param_ok h2
  cases param_ok h3
  cases param_ok h4
  cases param_ok h5
  cases param_ok h6
  rfl

/-- A job that has looked up its keys has its section. -/
theorem jobKeys_section {r : RawConfig F} {n : String} {j : Job} (hn : (n, j) ∈ documented) {v : World F} (h : jobKeys r j v = .ok ()) :
    HasSection r n := by
  simp only [documented, List.mem_cons, Prod.mk.injEq, List.not_mem_nil, or_false] at hn
  rcases hn with ⟨rfl, rfl⟩ | ⟨rfl, rfl⟩ | ⟨rfl, rfl⟩ | ⟨rfl, rfl⟩ | ⟨rfl, rfl⟩ | ⟨rfl, rfl⟩ | ⟨rfl, rfl⟩ | ⟨rfl, rfl⟩ | ⟨rfl, rfl⟩ <;>
    simp only [jobKeys] at h <;> refine ⟨?_, ?_, ?_, ?_, ?_⟩ <;> intro he <;> first | (exfalso; revert he; decide) | skip
  · obtain ⟨c, h1, h⟩ := Nrml.bind_ok h
    obtain ⟨p, h2, h⟩ := Nrml.bind_ok h
    rw [section_given h1, RawDecluster.params_ok h2]
    exact ⟨_, _, rfl⟩
  · obtain ⟨c, h1, h⟩ := Nrml.bind_ok h
    obtain ⟨p, h2, h⟩ := Nrml.bind_ok h
    rw [section_given h1, RawDecluster.params_ok h2]
    exact ⟨_, _, rfl⟩
  · obtain ⟨_, -, h⟩ := Nrml.bind_ok h
    obtain ⟨_, -, h⟩ := Nrml.bind_ok h
    obtain ⟨c, h1, h⟩ := Nrml.bind_ok h
    obtain ⟨p, h2, h⟩ := Nrml.bind_ok h
    rw [section_given h1, RawStepp.params_ok h2]
    exact ⟨_, _, _, _, rfl⟩
  · obtain ⟨_, -, h⟩ := Nrml.bind_ok h
    obtain ⟨_, -, h⟩ := Nrml.bind_ok h
    obtain ⟨c, h1, h⟩ := Nrml.bind_ok h
    obtain ⟨p, h2, h⟩ := Nrml.bind_ok h
    rw [section_given h1, RawRecurrence.params_ok h2]
    exact ⟨_, _, _, _, rfl⟩
  · obtain ⟨_, -, h⟩ := Nrml.bind_ok h
    obtain ⟨_, -, h⟩ := Nrml.bind_ok h
    obtain ⟨c, h1, h⟩ := Nrml.bind_ok h
    obtain ⟨p, h2, h⟩ := Nrml.bind_ok h
    rw [section_given h1, RawMaxMag.params_ok h2]
    exact ⟨_, _, _, _, _, _, rfl⟩

theorem listed_config {r : RawConfig F} {n : String} : n ∈ r.config.preprocessingJobs ↔ Listed r.preprocessingJobs n := by
  unfold Listed
  simp only [RawConfig.config]
  cases r.preprocessingJobs <;> simp [Key.toOption]

theorem listed_config' {r : RawConfig F} {n : String} : n ∈ r.config.processingJobs ↔ Listed r.processingJobs n := by
  unfold Listed
  simp only [RawConfig.config]
  cases r.processingJobs <;> simp [Key.toOption]

theorem named_job {names : List String} {js : List Job} (h : Named names js) {n : String} (hn : n ∈ names) : ∃ j ∈ js, (n, j) ∈ documented := by
  unfold Named at h
  induction h with
  | nil => cases hn
  | @cons m j ns js h _ ih =>
    rcases List.mem_cons.1 hn with rfl | hn
    · exact ⟨j, by simp, h⟩
    · obtain ⟨j', h1, h2⟩ := ih hn
      exact ⟨j', by simp [h1], h2⟩

/-- What the building of the preprocessing pipeline has looked up. -/
theorem preprocessingKeys_ok {r : RawConfig F} (h : preprocessingKeys r = .ok ()) :
    r.sourceModelFile ≠ .missing ∧ r.preprocessingJobs ≠ .missing ∧ ((∃ n, Listed r.preprocessingJobs n) → r.pprocessingResultFile ≠ .missing) ∧
      ((¬ ∃ n, Listed r.preprocessingJobs n) → r.completenessTableFile ≠ .missing) := by
  unfold preprocessingKeys at h
  obtain ⟨_, h1, h⟩ := Nrml.bind_ok h
  obtain ⟨jobs, h2, h⟩ := Nrml.bind_ok h
  refine ⟨?_, ?_, ?_, ?_⟩
  · intro hm; rw [hm] at h1; cases h1
  · intro hm; rw [hm] at h2; cases h2
  · rintro ⟨n, l, hl, hn⟩ hm
    rw [hl] at h2
    cases h2
    cases l with
    | nil => cases hn
    | cons m ms =>
      simp only at h
      obtain ⟨_, -, h⟩ := Nrml.bind_ok h
      obtain ⟨_, h3, h⟩ := Nrml.bind_ok h
      rw [hm] at h3
      cases h3
  · intro hn hm
    split at h
    · rename_i m ms
      refine hn ⟨m, m :: ms, ?_, by simp⟩
      cases hk : r.preprocessingJobs with
      | missing => rw [hk] at h2; cases h2
      | null => rw [hk] at h2; cases h2
      | given a => rw [hk] at h2; cases h2; rfl
    · obtain ⟨_, h3, h⟩ := Nrml.bind_ok h
      rw [hm] at h3
      cases h3

end

end Verif.Workflow
