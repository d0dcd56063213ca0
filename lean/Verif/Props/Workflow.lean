import Verif.Spec.Workflow
import Verif.Props.EqCatalog
import Verif.Props.Csv
import Verif.Props.Nrml

/-!
# C14, C16 to C20: the pipelines and the workflow
-/

namespace Verif.Workflow

open Verif Verif.EqCatalog Verif.Csv Verif.Nrml Verif.Declustering Verif.Recurrence Verif.MaxMag Spec

/-! ### C16, C17: building -/

theorem jobCallable_iff (n : String) (j : Job) : jobCallable n = some j ↔ (n, j) ∈ documented := by
  constructor
  · intro h
    unfold jobCallable at h
    split at h <;> first | (simp at h; done) | (cases h; simp [documented])
  · intro h
    simp only [documented, List.mem_cons, Prod.mk.injEq, List.not_mem_nil, or_false] at h
    rcases h with ⟨rfl, rfl⟩ | ⟨rfl, rfl⟩ | ⟨rfl, rfl⟩ | ⟨rfl, rfl⟩ | ⟨rfl, rfl⟩ | ⟨rfl, rfl⟩ | ⟨rfl, rfl⟩ | ⟨rfl, rfl⟩ | ⟨rfl, rfl⟩ <;> rfl

theorem unknown_iff (n : String) : Unknown n ↔ jobCallable n = none := by
  constructor
  · intro h
    cases hj : jobCallable n with
    | none => rfl
    | some j => exact absurd ((jobCallable_iff n j).1 hj) (h j)
  · intro h j hj
    rw [(jobCallable_iff n j).2 hj] at h
    cases h

theorem appendJobs_ok (p : List Job) (names : List String) (q : List Job) :
    appendJobs p names = .ok q ↔ ∃ js, Named names js ∧ q = p ++ js := by
  induction names generalizing p with
  | nil =>
    simp only [appendJobs, Except.ok.injEq]
    constructor
    · rintro rfl; exact ⟨[], .nil, by simp⟩
    · rintro ⟨js, h, rfl⟩; cases h; simp
  | cons n ns ih =>
    unfold appendJobs
    cases hj : jobCallable n with
    | none =>
      simp only [reduceCtorEq, false_iff, not_exists, not_and]
      intro js h
      cases h with
      | cons h _ => rw [(jobCallable_iff n _).2 h] at hj; cases hj
    | some j =>
      simp only [ih]
      constructor
      · rintro ⟨js, h, rfl⟩
        exact ⟨j :: js, .cons ((jobCallable_iff n j).1 hj) h, by simp⟩
      · rintro ⟨js, h, rfl⟩
        cases h with
        | cons h t =>
          have := (jobCallable_iff n _).2 h
          rw [hj] at this
          cases this
          exact ⟨_, t, by simp⟩

theorem appendJobs_error (p : List Job) (names : List String) (e : PyErr) (h : appendJobs p names = .error e) :
    ∃ n ∈ names, Unknown n ∧ e = .runtimeError ("Invalid job: " ++ n) := by
  induction names generalizing p with
  | nil => cases h
  | cons n ns ih =>
    unfold appendJobs at h
    cases hj : jobCallable n with
    | none =>
      rw [hj] at h
      cases h
      exact ⟨n, by simp, (unknown_iff n).2 hj, rfl⟩
    | some j =>
      rw [hj] at h
      obtain ⟨m, hm, hu, he⟩ := ih _ h
      exact ⟨m, by simp [hm], hu, he⟩

theorem truthy_iff (f : Option Text) : truthy f = true ↔ Configured f := by
  match f with
  | none => simp [truthy, Configured]
  | some [] => simp [truthy, Configured]
  | some (c :: cs) => simp [truthy, Configured]

section
variable {F : Type} [PyMath F]

open Classical in
/-- **C16** (preprocessing): the pipeline that is built is the documented one. -/
theorem C16_preprocessing (cfg : Config F) (p : List Job) :
    buildPreprocessing cfg = .ok p ↔ ∃ js, Named cfg.preprocessingJobs js ∧
      p = [.readEqCatalog, if Configured cfg.sourceModelFile then .readSourceModel else .createDefaultSourceModel,
          .createCatalogMatrix, .createDefaultValues] ++ js ++
        (if cfg.preprocessingJobs ≠ [] then
          (if Configured cfg.pprocessingResultFile then [.createSelectedEqVector, .storePreprocessedCatalog, .storeCompletenessTable] else [])
        else if Configured cfg.completenessTableFile then [.retrieveCompletenessTable] else []) := by
  unfold buildPreprocessing
  have e1 : (if truthy cfg.sourceModelFile then Job.readSourceModel else .createDefaultSourceModel) =
      if Configured cfg.sourceModelFile then .readSourceModel else .createDefaultSourceModel := by
    simp only [← truthy_iff]
  simp only [e1]
  generalize (if Configured cfg.sourceModelFile then Job.readSourceModel else .createDefaultSourceModel) = src
  cases hp : cfg.preprocessingJobs with
  | nil =>
    simp only [List.isEmpty_nil, Bool.not_true, Bool.false_eq_true, if_false, ne_eq, not_true_eq_false, truthy_iff]
    have : ∀ js, Named [] js ↔ js = [] := fun js => ⟨fun h => by cases h; rfl, fun h => by subst h; exact .nil⟩
    simp only [this, exists_eq_left]
    split_ifs <;> simp [eq_comm]
  | cons n ns =>
    simp only [List.isEmpty_cons, Bool.not_false, if_true, ne_eq, reduceCtorEq, not_false_eq_true, truthy_iff]
    cases ha : appendJobs [.readEqCatalog, src, .createCatalogMatrix, .createDefaultValues] (n :: ns) with
    | error e =>
      simp only [bind, Except.bind, reduceCtorEq, false_iff, not_exists, not_and]
      intro js hn _
      have := (appendJobs_ok [.readEqCatalog, src, .createCatalogMatrix, .createDefaultValues] (n :: ns) _).2 ⟨js, hn, rfl⟩
      rw [ha] at this
      cases this
    | ok q =>
      obtain ⟨js, hn, rfl⟩ := (appendJobs_ok _ _ _).1 ha
      have huniq : ∀ js', Named (n :: ns) js' → js' = js := by
        intro js' hn'
        have := (appendJobs_ok [.readEqCatalog, src, .createCatalogMatrix, .createDefaultValues] (n :: ns) _).2 ⟨js', hn', rfl⟩
        rw [ha] at this
        simpa using this.symm
      simp only [bind, Except.bind]
      constructor
      · intro h
        refine ⟨js, hn, ?_⟩
        split_ifs at h ⊢ <;> (cases h; simp)
      · rintro ⟨js', hn', rfl⟩
        obtain rfl := huniq js' hn'
        split_ifs <;> simp

/-- **C16** (processing): the pipeline is the configured job list. -/
theorem C16_processing (cfg : Config F) (p : List Job) : buildProcessing cfg = .ok p ↔ Named cfg.processingJobs p := by
  unfold buildProcessing
  cases hp : cfg.processingJobs with
  | nil =>
    simp only [List.isEmpty_nil, Bool.not_true, Bool.false_eq_true, if_false, Except.ok.injEq]
    exact ⟨fun h => by subst h; exact .nil, fun h => by cases h; rfl⟩
  | cons n ns =>
    simp only [List.isEmpty_cons, Bool.not_false, if_true, appendJobs_ok]
    simp

/-- Every documented name, and no other, can be configured. -/
theorem C16_names (names : List String) : (∃ js, Named names js) ↔ ∀ n ∈ names, ¬ Unknown n := by
  induction names with
  | nil => simp only [List.not_mem_nil, false_imp_iff, implies_true, iff_true]; exact ⟨[], .nil⟩
  | cons n ns ih =>
    simp only [List.mem_cons, forall_eq_or_imp, ← ih]
    constructor
    · rintro ⟨js, h⟩
      cases h with
      | cons h t => exact ⟨fun hu => hu _ h, _, t⟩
    · rintro ⟨h, js, t⟩
      simp only [Unknown, not_forall, not_not] at h
      obtain ⟨j, hj⟩ := h
      exact ⟨j :: js, .cons hj t⟩

/-- Non-vacuity of C16: the configuration of config.yml. -/
example : Named ["GardnerKnopoff", "Stepp"] [.gardnerKnopoff, .stepp] := .cons (by decide) (.cons (by decide) .nil)

/-- **C17**: an unknown name in either list ends the run with `RuntimeError` naming an unknown job; no file was written, no random number drawn and
no job was run (the context is still empty). -/
theorem C17_refused (x : Ext F) (cfg : Config F) (fs : Text → Option Content) (pos : Nat)
    (h : ∃ n ∈ cfg.preprocessingJobs ++ cfg.processingJobs, Unknown n) :
    ∃ n ∈ cfg.preprocessingJobs ++ cfg.processingJobs, Unknown n ∧
      main x cfg fs pos = some ⟨some (.runtimeError ("Invalid job: " ++ n)), ⟨fs, pos, {}⟩⟩ := by
  classical
  unfold main
  cases hb : buildPreprocessing cfg with
  | error e =>
    have : ∃ n ∈ cfg.preprocessingJobs, Unknown n ∧ e = .runtimeError ("Invalid job: " ++ n) := by
      unfold buildPreprocessing at hb
      simp only at hb
      split at hb
      · cases ha : appendJobs [.readEqCatalog, if truthy cfg.sourceModelFile then Job.readSourceModel else .createDefaultSourceModel,
          .createCatalogMatrix, .createDefaultValues] cfg.preprocessingJobs with
        | error e' =>
          rw [ha] at hb
          cases hb
          exact appendJobs_error _ _ _ ha
        | ok q =>
          rw [ha] at hb
          simp only [bind, Except.bind] at hb
          split at hb <;> cases hb
      · split at hb <;> cases hb
    obtain ⟨n, hn, hu, rfl⟩ := this
    exact ⟨n, by simp [hn], hu, rfl⟩
  | ok pre =>
    cases hc : buildProcessing cfg with
    | error e =>
      have : ∃ n ∈ cfg.processingJobs, Unknown n ∧ e = .runtimeError ("Invalid job: " ++ n) := by
        unfold buildProcessing at hc
        split at hc
        · exact appendJobs_error _ _ _ hc
        · cases hc
      obtain ⟨n, hn, hu, rfl⟩ := this
      exact ⟨n, by simp [hn], hu, rfl⟩
    | ok procs =>
      exfalso
      obtain ⟨n, hn, hu⟩ := h
      obtain ⟨js, hjs, -⟩ := (C16_preprocessing cfg pre).1 hb
      have h1 := (C16_names _).1 ⟨js, hjs⟩
      have h2 := (C16_names _).1 ⟨procs, (C16_processing cfg procs).1 hc⟩
      rcases List.mem_append.1 hn with hn | hn
      · exact h1 n hn hu
      · exact h2 n hn hu

/-- Non-vacuity of C17: a misspelled name. -/
example : Unknown "Gardner_Knopoff" := by rw [unknown_iff]; rfl

/-! ### C18: running -/

/-- **C18**: running a concatenation is running the first part and then, if that did not raise, the second. -/
theorem C18_concatenation (x : Ext F) (cfg : Config F) (a b : List Job) (w : World F) :
    runPipeline x cfg (a ++ b) w = andThen (runPipeline x cfg a w) (runPipeline x cfg b) := by
  induction a generalizing w with
  | nil => rfl
  | cons j js ih =>
    rw [List.cons_append, runPipeline, runPipeline]
    rcases runJob x cfg j w with _ | _ | _
    · rfl
    · rfl
    · exact ih _

/-- A job that succeeds, from one world to the next. -/
def Succeeds (x : Ext F) (cfg : Config F) (j : Job) (w w' : World F) : Prop := runJob x cfg j w = some (.ok w')

/-- **C18**: a run without exception is a chain of successful jobs, in queue order. -/
theorem C18_in_order (x : Ext F) (cfg : Config F) (js : List Job) (w w' : World F) :
    runPipeline x cfg js w = some ⟨none, w'⟩ ↔ Chain (Succeeds x cfg) js w w' := by
  induction js generalizing w with
  | nil =>
    simp only [runPipeline, Option.some.injEq, Outcome.mk.injEq, true_and]
    exact ⟨fun h => by subst h; exact .nil _, fun h => by cases h; rfl⟩
  | cons j js ih =>
    rw [runPipeline]
    constructor
    · intro h
      rcases hj : runJob x cfg j w with _ | _ | w1
      · rw [hj] at h; cases h
      · rw [hj] at h; cases h
      · rw [hj] at h
        exact .cons _ _ _ _ _ hj ((ih w1).1 h)
    · rintro (_ | ⟨_, _, _, w1, _, hj, ht⟩)
      rw [show runJob x cfg j w = _ from hj]
      exact (ih w1).2 ht

/-- **C18**: a run that raises is a chain of successful jobs followed by the job that raises; the jobs after it leave no trace. -/
theorem C18_stops (x : Ext F) (cfg : Config F) (js : List Job) (w w' : World F) (e : PyErr) :
    runPipeline x cfg js w = some ⟨some e, w'⟩ ↔
      ∃ a j b, js = a ++ j :: b ∧ Chain (Succeeds x cfg) a w w' ∧ runJob x cfg j w' = some (.error e) := by
  constructor
  · intro h
    induction js generalizing w with
    | nil => simp [runPipeline] at h
    | cons j js ih =>
      rw [runPipeline] at h
      rcases hj : runJob x cfg j w with _ | e1 | w1
      · rw [hj] at h; cases h
      · rw [hj] at h
        simp only [Option.some.injEq, Outcome.mk.injEq] at h
        obtain ⟨rfl, rfl⟩ := h
        exact ⟨[], j, js, rfl, .nil _, hj⟩
      · rw [hj] at h
        obtain ⟨a, j', b, rfl, hc, he⟩ := ih w1 h
        exact ⟨j :: a, j', b, rfl, .cons _ _ _ _ _ hj hc, he⟩
  · rintro ⟨a, j, b, rfl, hc, he⟩
    rw [C18_concatenation, (C18_in_order x cfg a w w').2 hc]
    simp only [andThen]
    rw [runPipeline, he]

/-! ### C19, C20: processing -/

theorem andThen_ok {r : Option (Outcome F)} {f : World F → Option (Outcome F)} {w : World F} :
    andThen r f = some ⟨none, w⟩ ↔ ∃ w1, r = some ⟨none, w1⟩ ∧ f w1 = some ⟨none, w⟩ := by
  match r with
  | none => simp [andThen]
  | some ⟨some e, w1⟩ => simp [andThen]
  | some ⟨none, w1⟩ => simp [andThen]

/-- Processing source number `i`: the pipeline runs on the events of the working catalogue that the filter leaves for the source. -/
def ProcessesSource (x : Ext F) (cfg : Config F) (filter : Source F → Matrix F → Except PyErr (Matrix F)) (procs : List Job)
    (working : Matrix F) (i : Nat) (w w' : World F) : Prop :=
  ∃ defs s m, w.ctx.smDefinitions = some defs ∧ defs[i]? = some s ∧ filter s working = .ok m ∧
    Chain (Succeeds x cfg) procs { w with ctx := { w.ctx with curSm := some i, currentFilteredEq := some m } } w'

theorem processSources_ok (x : Ext F) (cfg : Config F) (filter : Source F → Matrix F → Except PyErr (Matrix F)) (procs : List Job)
    (working : Matrix F) (is : List Nat) (w w' : World F) :
    processSources x cfg filter procs working is w = some ⟨none, w'⟩ ↔
      Chain (ProcessesSource x cfg filter procs working) is w w' := by
  induction is generalizing w with
  | nil =>
    simp only [processSources, Option.some.injEq, Outcome.mk.injEq, true_and]
    exact ⟨fun h => by subst h; exact .nil _, fun h => by cases h; rfl⟩
  | cons i is ih =>
    rw [processSources]
    constructor
    · intro h
      cases hd : w.ctx.smDefinitions with
      | none => rw [hd] at h; cases h
      | some defs =>
        rw [hd] at h
        simp only [Option.bind_some] at h
        cases hs : defs[i]? with
        | none => rw [hs] at h; cases h
        | some s =>
          rw [hs] at h
          simp only at h
          cases hf : filter s working with
          | error e => rw [hf] at h; cases h
          | ok m =>
            rw [hf] at h
            simp only at h
            obtain ⟨w1, h1, h2⟩ := andThen_ok.1 h
            exact .cons _ _ _ _ _ ⟨defs, s, m, hd, hs, hf, (C18_in_order _ _ _ _ _).1 h1⟩ ((ih w1).1 h2)
    · rintro (_ | ⟨_, _, _, w1, _, ⟨defs, s, m, hd, hs, hf, hc⟩, ht⟩)
      rw [hd]
      simp only [Option.bind_some, hs, hf]
      exact andThen_ok.2 ⟨w1, (C18_in_order _ _ _ _ _).2 hc, (ih w1).2 ht⟩

/-- **C19**: with processing enabled, a run without exception is the preprocessing followed by the processing of source 0, 1, 2, ..., each
exactly once, on the working catalogue left by the preprocessing. -/
theorem C19_once_in_order (x : Ext F) (cfg : Config F) (filter : Source F → Matrix F → Except PyErr (Matrix F)) (pre procs : List Job)
    (w w' : World F) (hp : cfg.applyProcessing = true) :
    start x cfg filter pre procs w = some ⟨none, w'⟩ ↔
      ∃ w0 defs working, Chain (Succeeds x cfg) pre w w0 ∧ w0.ctx.smDefinitions = some defs ∧ w0.ctx.workingCatalog = some working ∧
        Chain (ProcessesSource x cfg filter procs working) (List.range defs.length) w0 w' := by
  unfold start
  rw [andThen_ok]
  simp only [hp, if_true]
  constructor
  · rintro ⟨w0, h0, h⟩
    rw [C18_in_order] at h0
    cases hd : w0.ctx.smDefinitions with
    | none => rw [hd] at h; cases h
    | some defs =>
      cases hw : w0.ctx.workingCatalog with
      | none => rw [hd, hw] at h; cases h
      | some working =>
        rw [hd, hw] at h
        exact ⟨w0, defs, working, h0, hd, hw, (processSources_ok _ _ _ _ _ _ _ _).1 h⟩
  · rintro ⟨w0, defs, working, h0, hd, hw, hc⟩
    refine ⟨w0, (C18_in_order _ _ _ _ _).2 h0, ?_⟩
    rw [hd, hw]
    exact (processSources_ok _ _ _ _ _ _ _ _).2 hc

/-- **C19**: with a source model, the events of a source are exactly the rows of the working catalogue whose point lies in its polygon, in
catalogue order. -/
theorem C19_own_events (x : Ext F) (cfg : Config F) (hs : Configured cfg.sourceModelFile) (s : Source F) (working m : Matrix F)
    (h : chosenFilter x cfg s working = .ok m) :
    m.rows.Sublist working.rows ∧
      ∀ r, r ∈ m.rows ↔ r ∈ working.rows ∧ x.contains s.area.boundary.posList (r 3) (r 4) = true := by
  rw [← truthy_iff] at hs
  simp only [chosenFilter, hs, if_true, sourceModelFilter] at h
  split at h
  · cases h
  · split at h
    · cases h
    · cases h
      refine ⟨List.filter_sublist, fun r => ?_⟩
      simp [Matrix.ofRows]

/-- **C19**: an event is never dropped or duplicated by the filter: it occurs as often as in the working catalogue. -/
theorem C19_multiplicity [DecidableEq (Row F)] (x : Ext F) (cfg : Config F) (hs : Configured cfg.sourceModelFile) (s : Source F)
    (working m : Matrix F) (h : chosenFilter x cfg s working = .ok m) (r : Row F)
    (hr : x.contains s.area.boundary.posList (r 3) (r 4) = true) : m.rows.count r = working.rows.count r := by
  rw [← truthy_iff] at hs
  simp only [chosenFilter, hs, if_true, sourceModelFilter] at h
  split at h
  · cases h
  · split at h
    · cases h
    · cases h
      exact List.count_filter hr

/-- **C19**: without a source model the single default source gets the whole working catalogue. -/
theorem C19_default_source (x : Ext F) (cfg : Config F) (hs : ¬ Configured cfg.sourceModelFile) (s : Source F) (working : Matrix F) :
    chosenFilter x cfg s working = .ok working := by
  rw [← truthy_iff] at hs
  simp only [chosenFilter, hs]
  rfl

/-- **C20**: with processing disabled the run is the preprocessing, whatever the processing jobs and the filter. -/
theorem C20_disabled (x : Ext F) (cfg : Config F) (filter : Source F → Matrix F → Except PyErr (Matrix F)) (pre procs : List Job) (w : World F)
    (hp : cfg.applyProcessing = false) : start x cfg filter pre procs w = runPipeline x cfg pre w := by
  unfold start
  match runPipeline x cfg pre w with
  | none => rfl
  | some ⟨some e, w1⟩ => rfl
  | some ⟨none, w1⟩ => simp [andThen, hp]

/-! ### C14: the matrix -/

theorem number_ok {v : Val F} {r : F} : number v = .ok r ↔ IsNumber v r := by
  cases v <;> simp [number, IsNumber, eq_comm]

theorem matrixRow_ok (e : Entry F) (r : Row F) : matrixRow e = .ok r ↔ RowOf e r := by
  constructor
  · intro h
    unfold matrixRow fixedColumns at h
    cases h1 : number (e .year) with
    | error _ => simp [h1, bind, Except.bind] at h
    | ok a1 =>
    cases h2 : number (e .month) with
    | error _ => simp [h1, h2, bind, Except.bind] at h
    | ok a2 =>
    cases h3 : number (e .day) with
    | error _ => simp [h1, h2, h3, bind, Except.bind] at h
    | ok a3 =>
    cases h4 : number (e .longitude) with
    | error _ => simp [h1, h2, h3, h4, bind, Except.bind] at h
    | ok a4 =>
    cases h5 : number (e .latitude) with
    | error _ => simp [h1, h2, h3, h4, h5, bind, Except.bind] at h
    | ok a5 =>
    cases h6 : number (e .mw) with
    | error _ => simp [h1, h2, h3, h4, h5, h6, bind, Except.bind] at h
    | ok a6 =>
    cases h7 : number (e .sigmaMw) with
    | error _ => simp [h1, h2, h3, h4, h5, h6, h7, bind, Except.bind] at h
    | ok a7 =>
      simp [h1, h2, h3, h4, h5, h6, h7, bind, Except.bind, pure, Except.pure] at h
      subst h
      exact ⟨number_ok.1 h1, number_ok.1 h2, number_ok.1 h3, number_ok.1 h4, number_ok.1 h5, number_ok.1 h6, number_ok.1 h7⟩
  · rintro ⟨h1, h2, h3, h4, h5, h6, h7⟩
    rw [← number_ok] at h1 h2 h3 h4 h5 h6 h7
    unfold matrixRow fixedColumns
    simp only [List.mapM_cons, List.mapM_nil, h1, h2, h3, h4, h5, h6, h7, bind, Except.bind, pure, Except.pure]
    congr 1
    funext k
    fin_cases k <;> rfl

theorem delivered_entries (env : Env F) (ord : DictOrder) (file : Text) (es : List (Entry F))
    (h : readCatalogFile env ord file = .ok es) : ∀ e ∈ es, ∃ cells, ∀ n, readRow env ord n cells = .ok e := by
  unfold readCatalogFile at h
  obtain ⟨rest, -, h⟩ := bind_ok h
  obtain ⟨es', hes, h⟩ := bind_ok h
  split at h
  · cases h
  · cases h
    have := C10_order_preserving env ord _ es hes
    intro e he
    clear * - this he
    generalize List.filter _ _ = rs at this
    induction this with
    | nil => cases he
    | cons hr _ ih =>
      rcases List.mem_cons.1 he with rfl | he
      · exact ⟨_, hr⟩
      · exact ih he

/-- **C14**: for every accepted catalogue the matrix job succeeds; the matrix and the working catalogue have one row per entry, in order, with the numbers
of the documented columns. -/
theorem C14_matrix (env : Env F) (ord : DictOrder) (file : Text) (es : List (Entry F)) (h : readCatalogFile env ord file = .ok es)
    (w : World F) (hw : w.ctx.eqCatalog = some es) :
    ∃ rows, List.Forall₂ RowOf es rows ∧ createCatalogMatrixJob w =
      .ok { w with ctx := { w.ctx with catalogMatrix := some ⟨rows, es.isEmpty⟩, workingCatalog := some ⟨rows, es.isEmpty⟩ } } := by
  have hd := delivered_entries env ord file es h
  have : ∃ rows, List.Forall₂ (RowOf (F := F)) es rows := by
    clear hw h
    induction es with
    | nil => exact ⟨[], .nil⟩
    | cons e es ih =>
      obtain ⟨rows, hr⟩ := ih (fun e he => hd e (by simp [he]))
      obtain ⟨cells, hc⟩ := hd e (by simp)
      have R := C02_accepted_ranges env ord 2 cells e (hc 2)
      have hs : ∃ s, e .sigmaMw = .flt s := by
        obtain ⟨_, -, ⟨s, -, -, h⟩ | ⟨-, h⟩⟩ := C06_sigmaMw_number env ord 2 cells e (hc 2)
        · exact ⟨s, h⟩
        · exact ⟨_, h⟩
      obtain ⟨y, hy, -⟩ := R.year
      obtain ⟨m, hm, -⟩ := R.month
      obtain ⟨d, hd, -⟩ := R.dayInt
      obtain ⟨lo, hlo, -⟩ := R.longitude
      obtain ⟨la, hla, -⟩ := R.latitude
      obtain ⟨mw, hmw, -⟩ := R.mw
      obtain ⟨s, hs⟩ := hs
      exact ⟨![(y : F), (m : F), (d : F), lo, la, mw, s] :: rows, .cons ⟨.inr ⟨y, hy, rfl⟩, .inr ⟨m, hm, rfl⟩, .inr ⟨d, hd, rfl⟩,
        .inl hlo, .inl hla, .inl hmw, .inl hs⟩ hr⟩
  obtain ⟨rows, hr⟩ := this
  refine ⟨rows, hr, ?_⟩
  have hm : es.mapM matrixRow = .ok rows := mapM_of_forall₂ _ _ _ (hr.imp fun _ _ => (matrixRow_ok _ _).2)
  have hi : rows.isEmpty = es.isEmpty := by cases hr <;> rfl
  unfold createCatalogMatrixJob
  rw [hw]
  simp only [notNone, hm, Matrix.ofRows, hi, bind, Except.bind]

end

end Verif.Workflow
