import Verif.Model.Configuration
import Verif.Props.Files

/-!
# Lemmas on runs with the dictionary of the configuration file
-/

namespace Verif.Workflow

open Verif Verif.EqCatalog Verif.Csv Verif.Nrml Verif.Declustering Verif.Recurrence Verif.MaxMag Spec

section
variable {F : Type}

theorem named_name {names : List String} {js : List Job} (h : Named names js) {j : Job} (hj : j ∈ js) :
    ∃ n ∈ names, (n, j) ∈ documented := by
  unfold Named at h
  induction h with
  | nil => cases hj
  | @cons n j' ns js h _ ih =>
    rcases List.mem_cons.1 hj with rfl | hj
    · exact ⟨n, by simp, h⟩
    · obtain ⟨m, hm, h'⟩ := ih hj
      exact ⟨m, by simp [hm], h'⟩

theorem documented_unique {n m : String} {j : Job} (h : (n, j) ∈ documented) (h' : (m, j) ∈ documented) : n = m := by
  simp only [documented, List.mem_cons, Prod.mk.injEq, List.not_mem_nil, or_false] at h h'
  cases j <;> simp_all

/-- The jobs that are in the pipelines only if the configuration names them. -/
def OnRequest (j : Job) : Prop :=
  j = .gardnerKnopoff ∨ j = .afteran ∨ j = .stepp ∨ j = .recurrence ∨ j = .maximumMagnitude

end

section
variable {F : Type} [PyMath F]

theorem pre_requested {cfg : Config F} {pre : List Job} (h : buildPreprocessing cfg = .ok pre) {j : Job} (hj : j ∈ pre) (hr : OnRequest j)
    {n : String} (hn : (n, j) ∈ documented) : n ∈ cfg.preprocessingJobs := by
  classical
  obtain ⟨js, hjs, rfl⟩ := (C16_preprocessing cfg pre).1 h
  have : j ∈ js := by
    simp only [List.mem_append, List.mem_cons, List.not_mem_nil, or_false] at hj
    unfold OnRequest at hr
    rcases hj with (hj | hj) | hj
    · split_ifs at hj <;> rcases hj with rfl | rfl | rfl | rfl <;> simp at hr
    · exact hj
    · split_ifs at hj <;> simp at hj <;> rcases hr with rfl | rfl | rfl | rfl | rfl <;> simp at hj
  obtain ⟨m, hm, hd⟩ := named_name hjs this
  rwa [documented_unique hn hd]

theorem procs_requested {cfg : Config F} {procs : List Job} (h : buildProcessing cfg = .ok procs) {j : Job} (hj : j ∈ procs)
    {n : String} (hn : (n, j) ∈ documented) : n ∈ cfg.processingJobs := by
  obtain ⟨m, hm, hd⟩ := named_name ((C16_processing cfg procs).1 h) hj
  rwa [documented_unique hn hd]

end

section
variable {F : Type} [PyMath F]

/-- Two configurations whose jobs act in the same way. -/
theorem rawPipeline_congr {x x' : Ext F} {r r' : RawConfig F} {js : List Job} (h : ∀ j ∈ js, ∀ w, rawJob x r j w = rawJob x' r' j w) (w : World F) :
    rawPipeline x r js w = rawPipeline x' r' js w := by
  induction js generalizing w with
  | nil => rfl
  | cons j js ih =>
    rw [rawPipeline, rawPipeline, h j (by simp)]
    cases rawJob x' r' j w with
    | none => rfl
    | some e => cases e with
      | error e => rfl
      | ok w' => exact ih (fun j hj => h j (by simp [hj])) w'

theorem rawSources_congr {x x' : Ext F} {r r' : RawConfig F} {procs : List Job} (h : ∀ j ∈ procs, ∀ w, rawJob x r j w = rawJob x' r' j w)
    (hf : chosenFilter x r.config = chosenFilter x' r'.config) (working : Matrix F) (is : List Nat) (w : World F) :
    rawSources x r procs working is w = rawSources x' r' procs working is w := by
  induction is generalizing w with
  | nil => rfl
  | cons i is ih =>
    rw [rawSources, rawSources]
    rw [hf]
    cases w.ctx.smDefinitions.bind (·[i]?) with
    | none => rfl
    | some s =>
      simp only
      cases chosenFilter x' r'.config s working with
      | error e => rfl
      | ok m =>
        simp only [rawPipeline_congr h]
        congr 1
        funext v
        exact ih v

theorem rawStart_congr {x x' : Ext F} {r r' : RawConfig F} {pre procs : List Job} (hf : chosenFilter x r.config = chosenFilter x' r'.config)
    (ha : r.applyProcessing = r'.applyProcessing) (hpre : ∀ j ∈ pre, ∀ w, rawJob x r j w = rawJob x' r' j w)
    (hprocs : r.applyProcessing = .given true → ∀ j ∈ procs, ∀ w, rawJob x r j w = rawJob x' r' j w) (w : World F) :
    rawStart x r pre procs w = rawStart x' r' pre procs w := by
  unfold rawStart
  rw [rawPipeline_congr hpre, ← ha]
  congr 1
  funext w
  cases hap : r.applyProcessing with
  | missing => rfl
  | null => rfl
  | given b =>
    cases b with
    | false => rfl
    | true =>
      simp only [Key.get, Option.getD_some, if_true]
      cases w.ctx.smDefinitions with
      | none => rfl
      | some d =>
        cases w.ctx.workingCatalog with
        | none => rfl
        | some wk => exact rawSources_congr (hprocs hap) hf wk _ w

theorem rawMain_congr {x : Ext F} {r r' : RawConfig F} (hs : r.sourceModelFile = r'.sourceModelFile) (ha : r.applyProcessing = r'.applyProcessing)
    (hf : r.resultFile = r'.resultFile) (hb : rawBuild r = rawBuild r')
    (hpre : ∀ pre procs, rawBuild r = .ok (pre, procs) → ∀ j ∈ pre, ∀ w, rawJob x r j w = rawJob x r' j w)
    (hprocs : ∀ pre procs, rawBuild r = .ok (pre, procs) → r.applyProcessing = .given true → ∀ j ∈ procs, ∀ w, rawJob x r j w = rawJob x r' j w)
    (fs : Text → Option Content) (pos : Nat) : rawMain x r fs pos = rawMain x r' fs pos := by
  unfold rawMain
  have hw : ∀ w, rawWriteResult x r w = rawWriteResult x r' w := by
    intro w
    simp only [rawWriteResult, writeResult, RawConfig.config, hf]
  simp only [← hb]
  cases hr : rawBuild r with
  | error e => rfl
  | ok p =>
    obtain ⟨pre, procs⟩ := p
    simp only [hw]
    congr 1
    exact rawStart_congr (by simp only [chosenFilter, RawConfig.config, hs]; rfl) ha (hpre pre procs hr) (hprocs pre procs hr) _

/-! ### What a run leaves alone -/

/-- The only jobs that write files. -/
theorem job_frame {x : Ext F} {cfg : Config F} {j : Job} {w w' : World F} (h : Succeeds x cfg j w w') (q : Text)
    (h1 : j = .storePreprocessedCatalog → cfg.pprocessingResultFile ≠ some q)
    (h2 : j = .storeCompletenessTable → cfg.completenessTableFile ≠ some q) : w'.fs q = w.fs q := by
  by_cases hd : ∃ n, (n, j) ∈ documented
  · obtain ⟨n, hn⟩ := hd
    unfold Succeeds at h
    cases j with
    | storePreprocessedCatalog =>
      simp only [runJob, Option.some.injEq] at h
      unfold storePreprocessedCatalogJob at h
      simp only at h
      split at h
      · rename_i p hp
        obtain ⟨_, h3, h⟩ := Nrml.bind_ok h
        obtain ⟨p', h4, h⟩ := Nrml.bind_ok h
        obtain ⟨_, -, h⟩ := Nrml.bind_ok h
        obtain ⟨_, -, h⟩ := Nrml.bind_ok h
        obtain ⟨_, -, h⟩ := Nrml.bind_ok h
        obtain ⟨_, -, h⟩ := Nrml.bind_ok h
        cases h
        cases h3
        unfold mkWriter at h4
        split_ifs at h4
        cases h4
        refine if_neg ?_
        rintro rfl
        exact h1 rfl hp
      · cases h
    | storeCompletenessTable =>
      simp only [runJob, Option.some.injEq] at h
      unfold storeCompletenessTableJob at h
      simp only at h
      split at h
      · rename_i p hp
        obtain ⟨_, h3, h⟩ := Nrml.bind_ok h
        obtain ⟨_, -, h⟩ := Nrml.bind_ok h
        obtain ⟨_, -, h⟩ := Nrml.bind_ok h
        cases h
        cases h3
        refine if_neg ?_
        rintro rfl
        exact h2 rfl hp
      · cases h
    | recurrence =>
      obtain ⟨i, d, m, f, hi, hd, hl, -, -, rfl⟩ := recurrenceJob_ok.1 h
      rfl
    | maximumMagnitude =>
      obtain ⟨i, d, m, f, p', hi, hd, hl, -, -, rfl⟩ := maximumMagnitudeJob_ok.1 h
      rfl
    | retrieveCompletenessTable =>
      simp only [runJob, Option.some.injEq] at h
      unfold retrieveCompletenessTableJob at h
      obtain ⟨p, hp, h⟩ := Nrml.bind_ok h
      cases hc : w.fs p with
      | none => rw [hc] at h; cases h
      | some c =>
        rw [hc] at h
        cases c with
        | xml e => cases h
        | text t =>
          obtain ⟨_, -, h⟩ := Nrml.bind_ok h
          cases h
          rfl
    | gardnerKnopoff =>
      simp only [runJob, Option.some.injEq] at h
      unfold gardnerKnopoffJob at h
      obtain ⟨_, -, h⟩ := Nrml.bind_ok h
      obtain ⟨_, -, h⟩ := Nrml.bind_ok h
      obtain ⟨_, -, h⟩ := Nrml.bind_ok h
      obtain ⟨_, -, h⟩ := Nrml.bind_ok h
      cases h
      rfl
    | afteran =>
      simp only [runJob, Option.some.injEq] at h
      unfold afteranJob at h
      obtain ⟨_, -, h⟩ := Nrml.bind_ok h
      obtain ⟨_, -, h⟩ := Nrml.bind_ok h
      obtain ⟨_, -, h⟩ := Nrml.bind_ok h
      obtain ⟨_, -, h⟩ := Nrml.bind_ok h
      cases h
      rfl
    | stepp =>
      simp only [runJob, Option.some.injEq] at h
      unfold steppJob at h
      obtain ⟨_, -, h⟩ := Nrml.bind_ok h
      obtain ⟨_, -, h⟩ := Nrml.bind_ok h
      obtain ⟨_, -, h⟩ := Nrml.bind_ok h
      obtain ⟨_, -, h⟩ := Nrml.bind_ok h
      cases h
      rfl
    | createSelectedEqVector =>
      simp only [runJob, Option.some.injEq] at h
      unfold createSelectedEqVectorJob at h
      obtain ⟨_, -, h⟩ := Nrml.bind_ok h
      obtain ⟨_, -, h⟩ := Nrml.bind_ok h
      obtain ⟨_, -, h⟩ := Nrml.bind_ok h
      obtain ⟨_, -, h⟩ := Nrml.bind_ok h
      obtain ⟨_, -, h⟩ := Nrml.bind_ok h
      cases h
      rfl
    | readSourceModel => simp [documented] at hn
    | createDefaultSourceModel => simp [documented] at hn
    | readEqCatalog => simp [documented] at hn
    | createCatalogMatrix => simp [documented] at hn
    | createDefaultValues => simp [documented] at hn
  · unfold Succeeds at h
    cases j with
    | readEqCatalog =>
      simp only [runJob, Option.some.injEq] at h
      unfold readEqCatalogJob at h
      split at h
      · cases h
      · cases h
      · obtain ⟨_, -, h⟩ := Nrml.bind_ok h
        cases h
        rfl
    | readSourceModel =>
      simp only [runJob, Option.some.injEq] at h
      unfold readSourceModelJob at h
      obtain ⟨_, -, h⟩ := Nrml.bind_ok h
      obtain ⟨_, -, h⟩ := Nrml.bind_ok h
      obtain ⟨_, -, h⟩ := Nrml.bind_ok h
      cases h
      rfl
    | createDefaultSourceModel =>
      simp only [runJob, Option.some.injEq] at h
      cases h
      rfl
    | createCatalogMatrix =>
      simp only [runJob, Option.some.injEq] at h
      unfold createCatalogMatrixJob at h
      obtain ⟨_, -, h⟩ := Nrml.bind_ok h
      obtain ⟨_, -, h⟩ := Nrml.bind_ok h
      cases h
      rfl
    | createDefaultValues =>
      simp only [runJob, Option.some.injEq] at h
      unfold createDefaultValuesJob at h
      obtain ⟨_, -, h⟩ := Nrml.bind_ok h
      obtain ⟨_, -, h⟩ := Nrml.bind_ok h
      obtain ⟨_, -, h⟩ := Nrml.bind_ok h
      obtain ⟨_, -, h⟩ := Nrml.bind_ok h
      cases h
      rfl
    | _ => simp [documented] at hd

/-- Where a job may write. -/
def MayWrite (cfg : Config F) (j : Job) (q : Text) : Prop :=
  (j = .storePreprocessedCatalog ∧ cfg.pprocessingResultFile = some q) ∨ (j = .storeCompletenessTable ∧ cfg.completenessTableFile = some q)

theorem rawJob_ok {x : Ext F} {r : RawConfig F} {j : Job} {w w' : World F} (h : rawJob x r j w = some (.ok w')) :
    jobKeys r j w = .ok () ∧ Succeeds x r.config j w w' := by
  unfold rawJob at h
  cases hk : jobKeys r j w with
  | error e => rw [hk] at h; simp at h
  | ok u => rw [hk] at h; exact ⟨rfl, h⟩

theorem rawPipeline_frame {x : Ext F} {r : RawConfig F} {js : List Job} {q : Text} (hq : ∀ j ∈ js, ¬ MayWrite r.config j q) {w : World F}
    {o : Outcome F} (h : rawPipeline x r js w = some o) : o.world.fs q = w.fs q := by
  induction js generalizing w with
  | nil => cases h; rfl
  | cons j js ih =>
    rw [rawPipeline] at h
    cases hj : rawJob x r j w with
    | none => rw [hj] at h; cases h
    | some e =>
      rw [hj] at h
      cases e with
      | error e => cases h; rfl
      | ok w' =>
        rw [ih (fun j hj => hq j (by simp [hj])) h]
        have hj0 := hq j (by simp)
        exact job_frame (rawJob_ok hj).2 q (fun e hc => hj0 (.inl ⟨e, hc⟩)) (fun e hc => hj0 (.inr ⟨e, hc⟩))

omit [PyMath F] in
theorem andThen_frame {r : Option (Outcome F)} {f : World F → Option (Outcome F)} {o : Outcome F} {q : Text} {c : Option Content}
    (h : andThen r f = some o) (h1 : ∀ o', r = some o' → o'.world.fs q = c) (h2 : ∀ w o', w.fs q = c → f w = some o' → o'.world.fs q = c) :
    o.world.fs q = c := by
  match r, h1 with
  | none, _ => cases h
  | some ⟨some e, w⟩, h1 => cases h; exact h1 _ rfl
  | some ⟨none, w⟩, h1 => exact h2 w o (h1 _ rfl) h

theorem rawSources_frame {x : Ext F} {r : RawConfig F} {procs : List Job} {q : Text} (hq : ∀ j ∈ procs, ¬ MayWrite r.config j q) {working : Matrix F}
    {is : List Nat} {w : World F} {o : Outcome F} (h : rawSources x r procs working is w = some o) : o.world.fs q = w.fs q := by
  induction is generalizing w o with
  | nil => cases h; rfl
  | cons i is ih =>
    rw [rawSources] at h
    cases hs : w.ctx.smDefinitions.bind (·[i]?) with
    | none => rw [hs] at h; cases h; rfl
    | some s =>
      rw [hs] at h
      simp only at h
      cases hm : chosenFilter x r.config s working with
      | error e => rw [hm] at h; cases h; rfl
      | ok m =>
        rw [hm] at h
        refine andThen_frame h (fun o' ho => (by have := rawPipeline_frame hq ho; exact this)) fun v o' hv ho => ?_
        rw [ih ho, hv]

theorem rawStart_frame {x : Ext F} {r : RawConfig F} {pre procs : List Job} {q : Text} (h1 : ∀ j ∈ pre, ¬ MayWrite r.config j q)
    (h2 : ∀ j ∈ procs, ¬ MayWrite r.config j q) {w : World F} {o : Outcome F} (h : rawStart x r pre procs w = some o) : o.world.fs q = w.fs q := by
  unfold rawStart at h
  refine andThen_frame h (fun o' ho => rawPipeline_frame h1 ho) fun v o' hv ho => ?_
  split at ho
  · cases ho; exact hv
  · split at ho
    · split at ho
      · rw [rawSources_frame h2 ho, hv]
      · cases ho; exact hv
    · cases ho; exact hv

omit [PyMath F] in
theorem rawWriteResult_ok {x : Ext F} {r : RawConfig F} {w v : World F} (h : rawWriteResult x r w = .ok v) :
    ∃ p, r.resultFile = .given p ∧ writeResult x r.config w = .ok v := by
  unfold rawWriteResult at h
  cases hr : r.resultFile with
  | missing => rw [hr] at h; cases h
  | null => rw [hr] at h; cases h
  | given p => rw [hr] at h; exact ⟨p, rfl, h⟩

/-- A run leaves a file alone that no job of it writes and that is not the result file of a normal run. -/
theorem rawMain_frame {x : Ext F} {r : RawConfig F} {fs : Text → Option Content} {pos : Nat} {o : Outcome F} (h : rawMain x r fs pos = some o) (q : Text)
    (hq : ∀ pre procs, rawBuild r = .ok (pre, procs) → (∀ j ∈ pre, ¬ MayWrite r.config j q) ∧ ∀ j ∈ procs, ¬ MayWrite r.config j q)
    (hr : o.raised ≠ none ∨ q ≠ r.config.resultFile) : o.world.fs q = fs q := by
  unfold rawMain at h
  simp only at h
  cases hb : rawBuild r with
  | error e => rw [hb] at h; cases h; rfl
  | ok p =>
    obtain ⟨pre, procs⟩ := p
    obtain ⟨h1, h2⟩ := hq pre procs hb
    rw [hb] at h
    simp only at h
    cases hst : rawStart x r pre procs ⟨fs, pos, {}⟩ with
    | none => rw [hst] at h; cases h
    | some o' =>
      have := rawStart_frame h1 h2 hst
      rw [hst] at h
      obtain ⟨e, w⟩ := o'
      cases e with
      | some e => cases h; exact this
      | none =>
        simp only [andThen] at h
        cases hw : rawWriteResult x r w with
        | error e => rw [hw] at h; cases h; exact this
        | ok v =>
          rw [hw] at h
          cases h
          rcases hr with hr | hr
          · exact absurd rfl hr
          · obtain ⟨p, hp, hw⟩ := rawWriteResult_ok hw
            exact ((writeResult_fs hw).2.2 q hr).trans this

end

section
variable {F : Type}

/-! ### The configurations of `Model/Workflow` -/

/-- An optional value as a key. -/
def Key.ofOption {α : Type} : Option α → Key α
  | none => .null
  | some a => .given a

/-- An optional section as a key. -/
def Key.ofSection {α β : Type} (f : α → β) : Option α → Key β
  | none => .missing
  | some a => .given (f a)

/-- The dictionary of a configuration in which all keys of the first part are there. -/
def RawConfig.of (c : Config F) : RawConfig F where
  eqCatalogFile := .given c.eqCatalogFile
  pprocessingResultFile := .ofOption c.pprocessingResultFile
  completenessTableFile := .ofOption c.completenessTableFile
  sourceModelFile := .ofOption c.sourceModelFile
  resultFile := .given c.resultFile
  applyProcessing := .given c.applyProcessing
  preprocessingJobs := .given c.preprocessingJobs
  processingJobs := .given c.processingJobs
  gardnerKnopoff := .ofSection (fun p => ⟨some p.1, some p.2⟩) c.gardnerKnopoff
  afteran := .ofSection (fun p => ⟨some p.1, some p.2⟩) c.afteran
  stepp := .ofSection (fun p => ⟨some p.magnitudeWindows, some p.timeWindow, some p.sensitivity, some p.incrementLock⟩) c.stepp
  recurrence := .ofSection (fun p => ⟨some p.magnitudeWindow, some p.algorithm, some p.referenceMagnitude, some p.timeWindow⟩) c.recurrence
  maximumMagnitude := .ofSection (fun p => ⟨some p.algorithm, some p.tolerance, some p.maxIterations, some p.neq, some p.nsamp, some p.nboot⟩)
    c.maximumMagnitude

theorem RawConfig.of_config (c : Config F) : (RawConfig.of c).config = c := by
  obtain ⟨f1, f2, f3, f4, f5, f6, f7, f8, s1, s2, s3, s4, s5⟩ := c
  cases f2 <;> cases f3 <;> cases f4 <;> cases s1 <;> cases s2 <;> cases s3 <;> cases s4 <;> cases s5 <;> rfl

end

section
variable {F : Type} [PyMath F]

theorem rawJob_of (x : Ext F) (c : Config F) (j : Job) (w : World F) (hs : j = .readSourceModel → ∃ p, c.sourceModelFile = some p) :
    rawJob x (.of c) j w = runJob x c j w := by
  unfold rawJob
  rw [RawConfig.of_config]
  cases j with
  | readEqCatalog => rfl
  | readSourceModel =>
    obtain ⟨p, hp⟩ := hs rfl
    simp only [jobKeys, RawConfig.of, hp]
    rfl
  | gardnerKnopoff =>
    simp only [jobKeys, RawConfig.of, runJob, gardnerKnopoffJob]
    cases c.gardnerKnopoff <;> rfl
  | afteran =>
    simp only [jobKeys, RawConfig.of, runJob, afteranJob]
    cases c.afteran <;> rfl
  | stepp =>
    simp only [jobKeys, RawConfig.of, runJob, steppJob]
    cases notNone w.ctx.workingCatalog with
    | error e => rfl
    | ok m =>
      simp only [bind, Except.bind]
      cases m.cols with
      | error e => rfl
      | ok rows => cases c.stepp <;> rfl
  | recurrence =>
    simp only [jobKeys, RawConfig.of, runJob, recurrenceJob]
    cases attr w.ctx.currentFilteredEq with
    | error e => rfl
    | ok m =>
      simp only [bind, Except.bind]
      cases m.cols with
      | error e => rfl
      | ok rows => cases c.recurrence <;> rfl
  | maximumMagnitude =>
    simp only [jobKeys, RawConfig.of, runJob, maximumMagnitudeJob]
    cases attr w.ctx.currentFilteredEq with
    | error e => rfl
    | ok m =>
      simp only [bind, Except.bind]
      cases m.cols with
      | error e => rfl
      | ok rows => cases c.maximumMagnitude <;> rfl
  | storePreprocessedCatalog =>
    simp only [jobKeys, RawConfig.of]
    cases c.pprocessingResultFile <;> rfl
  | storeCompletenessTable =>
    simp only [jobKeys, RawConfig.of]
    cases c.completenessTableFile <;> rfl
  | retrieveCompletenessTable =>
    simp only [jobKeys, RawConfig.of]
    cases c.completenessTableFile <;> rfl
  | createDefaultSourceModel => rfl
  | createCatalogMatrix => rfl
  | createDefaultValues => rfl
  | createSelectedEqVector => rfl

theorem rawPipeline_of (x : Ext F) (c : Config F) (js : List Job) (hs : ∀ j ∈ js, j = .readSourceModel → ∃ p, c.sourceModelFile = some p) (w : World F) :
    rawPipeline x (.of c) js w = runPipeline x c js w := by
  induction js generalizing w with
  | nil => rfl
  | cons j js ih =>
    rw [rawPipeline, runPipeline, rawJob_of x c j w (hs j (by simp))]
    cases runJob x c j w with
    | none => rfl
    | some e => cases e with
      | error e => rfl
      | ok w' => exact ih (fun j hj => hs j (by simp [hj])) w'

theorem rawSources_of (x : Ext F) (c : Config F) (procs : List Job) (hs : ∀ j ∈ procs, j = .readSourceModel → ∃ p, c.sourceModelFile = some p)
    (working : Matrix F) (is : List Nat) (w : World F) :
    rawSources x (.of c) procs working is w = processSources x c (chosenFilter x c) procs working is w := by
  induction is generalizing w with
  | nil => rfl
  | cons i is ih =>
    rw [rawSources, processSources, RawConfig.of_config]
    cases w.ctx.smDefinitions.bind (·[i]?) with
    | none => rfl
    | some s =>
      simp only
      cases chosenFilter x c s working with
      | error e => rfl
      | ok m =>
        simp only [rawPipeline_of x c procs hs]
        congr 1
        funext v
        exact ih v

theorem appendJobs_append (p q : List Job) (names : List String) : appendJobs (p ++ q) names = (appendJobs q names).map (p ++ ·) := by
  induction names generalizing q with
  | nil => rfl
  | cons n ns ih =>
    rw [appendJobs, appendJobs]
    cases jobCallable n with
    | none => rfl
    | some j => simp only [List.append_assoc]; exact ih (q ++ [j])

omit [PyMath F] in
theorem preprocessingKeys_of (c : Config F) : preprocessingKeys (.of c) = (buildPreprocessing c).map fun _ => () := by
  unfold preprocessingKeys buildPreprocessing
  simp only [RawConfig.of, Key.get]
  cases hj : c.preprocessingJobs with
  | nil =>
    simp only [List.isEmpty_nil, Bool.not_true, Bool.false_eq_true, if_false]
    cases c.sourceModelFile <;> cases c.completenessTableFile <;> simp only [Key.ofOption, bind, Except.bind] <;> split <;> rfl
  | cons n ns =>
    simp only [List.isEmpty_cons, Bool.not_false, if_true]
    rw [← List.append_nil [Job.readEqCatalog, _, _, _], appendJobs_append]
    cases ha : appendJobs [] (n :: ns) with
    | error e => cases c.sourceModelFile <;> simp only [Key.ofOption, bind, Except.bind, Except.map, ha]
    | ok js =>
      cases c.sourceModelFile <;> cases c.pprocessingResultFile <;> simp only [Key.ofOption, bind, Except.bind, Except.map, ha] <;> split <;>
        first | rfl | (rename_i h; split at h <;> cases h)

/-- With all keys there, the lookups change nothing: the model of the dictionary extends that of `Model/Workflow`. -/
theorem rawMain_of (x : Ext F) (c : Config F) (fs : Text → Option Content) (pos : Nat) : rawMain x (.of c) fs pos = main x c fs pos := by
  unfold rawMain main rawBuild
  rw [RawConfig.of_config, preprocessingKeys_of]
  cases hb : buildPreprocessing c with
  | error e => rfl
  | ok pre =>
    have hp : (RawConfig.of c).processingJobs.get = .ok (some c.processingJobs) := rfl
    rw [hp]
    cases hc : buildProcessing c with
    | error e => rfl
    | ok procs =>
      have h1 : ∀ j ∈ pre, j = .readSourceModel → ∃ p, c.sourceModelFile = some p := by
        classical
        rintro j hj rfl
        obtain ⟨js, hjs, rfl⟩ := (C16_preprocessing c pre).1 hb
        by_cases hs : Configured c.sourceModelFile
        · obtain ⟨p, hp, -⟩ := hs
          exact ⟨p, hp⟩
        · exfalso
          simp only [List.mem_append, List.mem_cons, List.not_mem_nil, or_false, hs, if_false] at hj
          rcases hj with (hj | hj) | hj
          · simp at hj
          · obtain ⟨m, -, hd⟩ := named_name hjs hj
            simp [documented] at hd
          · split_ifs at hj <;> simp at hj
      have h2 : ∀ j ∈ procs, j = .readSourceModel → ∃ p, c.sourceModelFile = some p := by
        rintro j hj rfl
        obtain ⟨m, -, hd⟩ := named_name ((C16_processing c procs).1 hc) hj
        simp [documented] at hd
      simp only [bind, Except.bind, Except.map]
      have hst : rawStart x (.of c) pre procs ⟨fs, pos, {}⟩ = start x c (chosenFilter x c) pre procs ⟨fs, pos, {}⟩ := by
        unfold rawStart start
        rw [rawPipeline_of x c pre h1]
        congr 1
        funext w
        have ha : (RawConfig.of c).applyProcessing.get = .ok (some c.applyProcessing) := rfl
        rw [ha]
        simp only [Option.getD_some, rawSources_of x c procs h2]
        rfl
      rw [hst]
      congr 1

end

end Verif.Workflow
