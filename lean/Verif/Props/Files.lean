import Verif.Lemmas.FileUse
import Verif.Props.EquivalenceRun

/-!
# C95, C96, C97: the files of a run, and C26 for a whole run
-/

namespace Verif.Workflow

open Verif Verif.EqCatalog Verif.Csv Verif.Nrml Verif.Declustering Verif.Recurrence Verif.MaxMag Spec

section
variable {F : Type} [PyMath F]

/-- The files a configuration names for output. -/
def Spec.Output (cfg : Config F) (q : Text) : Prop :=
  cfg.pprocessingResultFile = some q ∨ cfg.completenessTableFile = some q ∨ q = cfg.resultFile

/-- A run with this configuration reads the completeness table file. -/
def Spec.UsesTable (cfg : Config F) : Prop :=
  cfg.preprocessingJobs = [] ∨ "Retrieve_completeness_table" ∈ cfg.preprocessingJobs ∨ "Retrieve_completeness_table" ∈ cfg.processingJobs

/-- The files a configuration names for input. -/
def Spec.Input (cfg : Config F) (q : Text) : Prop :=
  q = cfg.eqCatalogFile ∨ (Configured cfg.sourceModelFile ∧ cfg.sourceModelFile = some q) ∨ (UsesTable cfg ∧ cfg.completenessTableFile = some q)

omit [PyMath F] in
theorem named_retrieve {names : List String} {js : List Job} (hn : Named names js) (h : .retrieveCompletenessTable ∈ js) :
    "Retrieve_completeness_table" ∈ names := by
  unfold Named at hn
  induction hn with
  | nil => cases h
  | @cons n j ns js hj _ ih =>
    rcases List.mem_cons.1 h with h | h
    · subst h
      simp only [documented, List.mem_cons, Prod.mk.injEq, List.not_mem_nil, or_false] at hj
      rcases hj with hj | hj | hj | hj | hj | hj | hj | hj | hj <;> simp_all
    · exact List.mem_cons_of_mem _ (ih h)

/-- The input files say the same. -/
structure Spec.SameReading (x : Ext F) (cfg : Config F) (b b' : Text → Option Content) : Prop where
  catalogue : eventsRead x (b cfg.eqCatalogFile) = eventsRead x (b' cfg.eqCatalogFile)
  model : ∀ q, Configured cfg.sourceModelFile → cfg.sourceModelFile = some q → sourcesRead x (b q) = sourcesRead x (b' q)
  table : ∀ q, UsesTable cfg → cfg.completenessTableFile = some q → tableRead x (b q) = tableRead x (b' q)

theorem same_reading {x : Ext F} {cfg : Config F} {b b' : Text → Option Content} (h : ∀ q, Input cfg q → b q = b' q) : SameReading x cfg b b' :=
  ⟨congrArg _ (h _ (.inl rfl)), fun q hc hq => congrArg _ (h q (.inr (.inl ⟨hc, hq⟩))), fun q hu hq => congrArg _ (h q (.inr (.inr ⟨hu, hq⟩)))⟩

theorem same_pre {x : Ext F} {cfg : Config F} {pre : List Job} (hpre : buildPreprocessing cfg = .ok pre) {b b' : Text → Option Content}
    (h : SameReading x cfg b b') : SameInputs x cfg pre b b' := by
  classical
  obtain ⟨js, hjs, rfl⟩ := (C16_preprocessing cfg pre).1 hpre
  refine ⟨fun _ => h.catalogue, fun hm => ?_, fun hm q hq => h.table q ?_ hq⟩
  · by_cases hc : Configured cfg.sourceModelFile
    · obtain ⟨t, ht, h0⟩ := hc
      exact h.model _ ⟨t, ht, h0⟩ (by rw [ht]; rfl)
    · exfalso
      rw [if_neg hc] at hm
      simp only [List.mem_append, List.mem_cons, List.not_mem_nil, or_false, reduceCtorEq, false_or] at hm
      rcases hm with hm | hm
      · exact (named_not_reader hjs _ hm).1 rfl
      · split_ifs at hm <;> simp at hm
  · by_cases he : cfg.preprocessingJobs = []
    · exact .inl he
    · right; left
      rw [if_pos he] at hm
      have : Job.retrieveCompletenessTable ∈ js := by
        simp only [List.mem_append, List.mem_cons, List.not_mem_nil, or_false, reduceCtorEq, false_or] at hm
        rcases hm with (hm | hm) | hm
        · split_ifs at hm
        · exact hm
        · split_ifs at hm <;> simp at hm
      exact named_retrieve hjs this

theorem same_procs {x : Ext F} {cfg : Config F} {procs : List Job} (hprocs : buildProcessing cfg = .ok procs) {b b' : Text → Option Content}
    (h : SameReading x cfg b b') : SameInputs x cfg procs b b' := by
  have hn := (C16_processing cfg procs).1 hprocs
  refine ⟨fun _ => h.catalogue, fun hm => absurd rfl (named_not_reader hn _ hm).1, fun hm q hq => h.table q ?_ hq⟩
  exact .inr (.inr (named_retrieve hn hm))

/-- Two runs of one configuration on file systems whose input files say the same. -/
theorem fs_main_reading (x : Ext F) (cfg : Config F) (b b' : Text → Option Content) (h : SameReading x cfg b b') (pos : Nat) :
    FsOut (Output cfg) b b' (main x cfg b pos) (main x cfg b' pos) := by
  unfold main
  simp only
  cases hpre : buildPreprocessing cfg with
  | error e => exact .some _ _ _ (.refl _ b b')
  | ok pre =>
    simp only
    cases hprocs : buildProcessing cfg with
    | error e => exact .some _ _ _ (.refl _ b b')
    | ok procs =>
      simp only
      refine fs_andThen (fs_start x cfg (fun q hq => .inl hq) (fun q hq => .inr (.inl hq)) pre procs (same_pre hpre h) (same_procs hprocs h) _ pos) ?_
      intro w g hg
      rw [writeResult_on]
      cases hw : writeResult x cfg w with
      | error e => exact .some _ _ _ hg
      | ok v =>
        obtain ⟨-, -, hv⟩ := writeResult_fs hw
        refine .some _ _ _ fun q => ?_
        by_cases hq : q = cfg.resultFile
        · exact .inl ⟨.inr (.inr hq), by simp [hq]⟩
        · simp only [if_neg hq, hv q hq]
          exact hg q

/-- Two runs of one configuration on file systems with the same input files. -/
theorem fs_main (x : Ext F) (cfg : Config F) (b b' : Text → Option Content) (h : ∀ q, Input cfg q → b q = b' q) (pos : Nat) :
    FsOut (Output cfg) b b' (main x cfg b pos) (main x cfg b' pos) := fs_main_reading x cfg b b' (same_reading h) pos

omit [PyMath F] in
theorem fsOut_elim {out : Text → Prop} {b b' : Text → Option Content} {o : Outcome F} {r : Option (Outcome F)} (h : FsOut out b b' (.some o) r) :
    ∃ g, r = Option.some ⟨o.raised, o.world.on g⟩ ∧ FsRel out b b' o.world.fs g := by
  cases h with
  | some e w g h => exact ⟨g, rfl, h⟩

/-! ### C95 -/

/-- **C95**: a run, whether it ends normally or by an exception, leaves every file alone that is not one of its three output files. -/
theorem C95_only_outputs (x : Ext F) (cfg : Config F) (fs : Text → Option Content) (pos : Nat) (o : Outcome F) (h : main x cfg fs pos = some o)
    (q : Text) (hq : ¬ Output cfg q) : o.world.fs q = fs q := by
  have hs := fs_main x cfg fs fs (fun _ _ => rfl) pos
  rw [h] at hs
  obtain ⟨g, -, hg⟩ := fsOut_elim hs
  rcases hg q with hg | hg
  · exact absurd hg.1 hq
  · exact hg.1

/-- **C95**, the result file: a run that ends by an exception leaves it alone, unless it is also named as one of the other two output files. -/
theorem C95_result_last (x : Ext F) (cfg : Config F) (fs : Text → Option Content) (pos : Nat) (o : Outcome F) (h : main x cfg fs pos = some o)
    (hr : o.raised ≠ none) (h1 : cfg.pprocessingResultFile ≠ some cfg.resultFile) (h2 : cfg.completenessTableFile ≠ some cfg.resultFile) :
    o.world.fs cfg.resultFile = fs cfg.resultFile := by
  unfold main at h
  simp only at h
  cases hpre : buildPreprocessing cfg with
  | error e => rw [hpre] at h; cases h; rfl
  | ok pre =>
    rw [hpre] at h
    simp only at h
    cases hprocs : buildProcessing cfg with
    | error e => rw [hprocs] at h; cases h; rfl
    | ok procs =>
      rw [hprocs] at h
      simp only at h
      have hs := fs_start (out := fun q => cfg.pprocessingResultFile = some q ∨ cfg.completenessTableFile = some q) (b := fs) (b' := fs) x cfg
        (fun q hq => .inl hq) (fun q hq => .inr hq) pre procs (same_pre hpre (same_reading fun _ _ => rfl)) (same_procs hprocs (same_reading fun _ _ => rfl)) (chosenFilter x cfg) pos
      cases hst : start x cfg (chosenFilter x cfg) pre procs ⟨fs, pos, {}⟩ with
      | none => rw [hst] at h; cases h
      | some o' =>
        rw [hst] at h hs
        obtain ⟨g, -, hg⟩ := fsOut_elim hs
        have key : o'.world.fs cfg.resultFile = fs cfg.resultFile := by
          rcases hg cfg.resultFile with hg | hg
          · rcases hg.1 with h' | h'
            · exact absurd h' h1
            · exact absurd h' h2
          · exact hg.1
        rcases o' with ⟨e, w⟩
        cases e with
        | some e => cases h; exact key
        | none =>
          simp only [andThen] at h
          cases hw : writeResult x cfg w with
          | error e => rw [hw] at h; cases h; exact key
          | ok v => rw [hw] at h; cases h; exact absurd rfl hr

/-! ### C96 -/

/-- **C96**: a run depends on its input files only.  With any other files around them the same exception is raised or none, the results are the same, and every
file is either written with the same contents in both or left as it was in both. -/
theorem C96_inputs (x : Ext F) (cfg : Config F) (fs fs' : Text → Option Content) (pos : Nat) (hin : ∀ q, Input cfg q → fs q = fs' q) (o : Outcome F)
    (h : main x cfg fs pos = some o) :
    ∃ o', main x cfg fs' pos = some o' ∧ o'.raised = o.raised ∧ o'.world.ctx = o.world.ctx ∧ o'.world.pos = o.world.pos ∧
      ∀ q, (Output cfg q ∧ o'.world.fs q = o.world.fs q) ∨ (o.world.fs q = fs q ∧ o'.world.fs q = fs' q) := by
  have hs := fs_main x cfg fs fs' hin pos
  rw [h] at hs
  obtain ⟨g, hr, hg⟩ := fsOut_elim hs
  exact ⟨_, hr, rfl, rfl, rfl, fun q => (hg q).imp (fun h => ⟨h.1, h.2.symm⟩) id⟩

/-! ### C97 -/

/-- **C97**: running the same configuration again, on the files left by the first run, gives the same outcome and the same files, if no input file is named as
output file too. -/
theorem C97_rerun (x : Ext F) (cfg : Config F) (fs : Text → Option Content) (pos : Nat) (hsep : ∀ q, Input cfg q → ¬ Output cfg q) (o : Outcome F)
    (h : main x cfg fs pos = some o) : main x cfg o.world.fs pos = some o := by
  have hs := fs_main x cfg fs o.world.fs (fun q hq => (C95_only_outputs x cfg fs pos o h q (hsep q hq)).symm) pos
  rw [h] at hs
  obtain ⟨g, hr, hg⟩ := fsOut_elim hs
  have : g = o.world.fs := by
    funext q
    rcases hg q with hg | hg
    · exact hg.2.symm
    · exact hg.2
  rw [hr, this]
  rfl

/-! ### C26 for a whole run -/

/-- The jobs that a configuration can name leave the catalogue matrix alone. -/
theorem named_matrix {x : Ext F} {cfg : Config F} {w w' : World F} {n : String} {j : Job} (hn : (n, j) ∈ documented)
    (h : Succeeds x cfg j w w') : w'.ctx.catalogMatrix = w.ctx.catalogMatrix := by
  unfold Succeeds at h
  cases j with
  | readSourceModel => simp [documented] at hn
  | createDefaultSourceModel => simp [documented] at hn
  | readEqCatalog => simp [documented] at hn
  | createCatalogMatrix => simp [documented] at hn
  | createDefaultValues => simp [documented] at hn
  | gardnerKnopoff =>
    simp only [runJob, Option.some.injEq] at h
    unfold gardnerKnopoffJob at h
    obtain ⟨_, -, h⟩ := Nrml.bind_ok h
    obtain ⟨_, -, h⟩ := Nrml.bind_ok h
    obtain ⟨_, -, h⟩ := Nrml.bind_ok h
    obtain ⟨_, -, h⟩ := Nrml.bind_ok h
    cases h
    rfl
  | afteran =>
    simp only [runJob, Option.some.injEq] at h
    unfold afteranJob at h
    obtain ⟨_, -, h⟩ := Nrml.bind_ok h
    obtain ⟨_, -, h⟩ := Nrml.bind_ok h
    obtain ⟨_, -, h⟩ := Nrml.bind_ok h
    obtain ⟨_, -, h⟩ := Nrml.bind_ok h
    cases h
    rfl
  | recurrence =>
    obtain ⟨i, d, m, f, hi, hd, hl, -, -, rfl⟩ := recurrenceJob_ok.1 h
    rfl
  | maximumMagnitude =>
    obtain ⟨i, d, m, f, p', hi, hd, hl, -, -, rfl⟩ := maximumMagnitudeJob_ok.1 h
    rfl
  | stepp =>
    simp only [runJob, Option.some.injEq] at h
    unfold steppJob at h
    obtain ⟨_, -, h⟩ := Nrml.bind_ok h
    obtain ⟨_, -, h⟩ := Nrml.bind_ok h
    obtain ⟨_, -, h⟩ := Nrml.bind_ok h
    obtain ⟨_, -, h⟩ := Nrml.bind_ok h
    cases h
    rfl
  | createSelectedEqVector =>
    obtain ⟨_, _, _, _, _, -, -, -, -, -, rfl⟩ := select_ok h
    rfl
  | storePreprocessedCatalog =>
    simp only [runJob, Option.some.injEq] at h
    unfold storePreprocessedCatalogJob at h
    cases hp : cfg.pprocessingResultFile with
    | none => rw [hp] at h; cases h
    | some p =>
    simp only [hp] at h
    obtain ⟨_, -, h⟩ := Nrml.bind_ok h
    obtain ⟨_, -, h⟩ := Nrml.bind_ok h
    obtain ⟨_, -, h⟩ := Nrml.bind_ok h
    obtain ⟨_, -, h⟩ := Nrml.bind_ok h
    obtain ⟨_, -, h⟩ := Nrml.bind_ok h
    obtain ⟨_, -, h⟩ := Nrml.bind_ok h
    cases h
    rfl
  | storeCompletenessTable =>
    simp only [runJob, Option.some.injEq] at h
    unfold storeCompletenessTableJob at h
    cases hp : cfg.completenessTableFile with
    | none => rw [hp] at h; cases h
    | some p =>
    simp only [hp] at h
    obtain ⟨_, -, h⟩ := Nrml.bind_ok h
    obtain ⟨_, -, h⟩ := Nrml.bind_ok h
    obtain ⟨_, -, h⟩ := Nrml.bind_ok h
    cases h
    rfl
  | retrieveCompletenessTable =>
    simp only [runJob, Option.some.injEq] at h
    unfold retrieveCompletenessTableJob at h
    obtain ⟨_, -, h⟩ := Nrml.bind_ok h
    split at h
    · cases h
    · cases h
    · obtain ⟨_, -, h⟩ := Nrml.bind_ok h
      cases h
      rfl

theorem markRow_length (ev : List (F × F)) (t : List Int) (c : F × F) (h : t.length = ev.length) :
    (Completeness.markRow ev t c).length = ev.length := by
  unfold Completeness.markRow
  simp [h]

/-- The selection vector has one flag per event. -/
theorem selected_length {ev table : List (F × F)} {flag sel : List Int} (h : Completeness.selectedEqFlagVector ev table flag = .ok sel) :
    sel.length = ev.length := by
  unfold Completeness.selectedEqFlagVector at h
  have hl : (table.foldl (Completeness.markRow ev) (List.replicate ev.length 0)).length = ev.length := by
    have : ∀ (l : List (F × F)) (t : List Int), t.length = ev.length → (l.foldl (Completeness.markRow ev) t).length = ev.length := by
      intro l
      induction l with
      | nil => exact fun t h => h
      | cons c l ih => exact fun t h => ih _ (markRow_length ev t c h)
    exact this table _ (by simp)
  simp only at h
  generalize table.foldl (Completeness.markRow ev) (List.replicate ev.length 0) = tf at h hl
  split at h
  · next h1 =>
    cases h
    simp [hl, h1]
  · split at h
    · cases h
      simpa using hl
    · cases h
      simpa using hl
    · split at h
      · cases h
        simpa using hl
      · cases h
    · cases h

/-- The processing jobs are analyses of the sources. -/
def Spec.OnlyAnalyses (cfg : Config F) : Prop := ∀ n ∈ cfg.processingJobs, n = "Recurrence" ∨ n = "MaximumMagnitude"

theorem analyses_keep {x : Ext F} {cfg : Config F} (ho : OnlyAnalyses cfg) {procs : List Job} (hn : Named cfg.processingJobs procs)
    {filter : Source F → Matrix F → Except PyErr (Matrix F)} {working : Matrix F} {is : List Nat} {w w' : World F}
    (h : Chain (ProcessesSource x cfg filter procs working) is w w') :
    w'.fs = w.fs ∧ w'.ctx.eqCatalog = w.ctx.eqCatalog ∧ w'.ctx.completenessTable = w.ctx.completenessTable ∧
      w'.ctx.flagVector = w.ctx.flagVector := by
  refine Chain.invariant h (P := fun v => v.fs = w.fs ∧ v.ctx.eqCatalog = w.ctx.eqCatalog ∧
    v.ctx.completenessTable = w.ctx.completenessTable ∧ v.ctx.flagVector = w.ctx.flagVector) ?_ ⟨rfl, rfl, rfl, rfl⟩
  rintro i - s s' ⟨defs, sm, m, -, -, -, hc⟩ hs
  refine Chain.invariant hc (P := fun v => v.fs = w.fs ∧ v.ctx.eqCatalog = w.ctx.eqCatalog ∧
    v.ctx.completenessTable = w.ctx.completenessTable ∧ v.ctx.flagVector = w.ctx.flagVector) ?_ hs
  rintro j hj a b hab ha
  have hj' : j = .recurrence ∨ j = .maximumMagnitude := by
    clear * - ho hn hj
    unfold OnlyAnalyses at ho
    generalize cfg.processingJobs = names at ho hn
    unfold Named at hn
    induction hn with
    | nil => cases hj
    | @cons n k ns ks hk _ ih =>
      rcases List.mem_cons.1 hj with rfl | hj
      · simp only [documented, List.mem_cons, Prod.mk.injEq, List.not_mem_nil, or_false] at hk
        rcases ho n (by simp) with rfl | rfl <;> simp_all
      · exact ih hj (fun n hn => ho n (by simp [hn]))
  rcases hj' with rfl | rfl
  · obtain ⟨i, d, m, f, hi, hd, hl, -, -, rfl⟩ := recurrenceJob_ok.1 hab
    exact ha
  · obtain ⟨i, d, m, f, p', hi, hd, hl, -, -, rfl⟩ := maximumMagnitudeJob_ok.1 hab
    exact ha

/-- **C26** for a whole run that ends without exception: the catalogue file holds the entries of the catalogue that are selected by the final completeness table
and the final declustering flags, and the table file holds the final table.  (With other jobs than the two analyses in the processing the context may
still change after the files have been written.) -/
theorem C26_run (x : Ext F) (cfg : Config F) (fs : Text → Option Content) (pos : Nat) (w : World F) (h : main x cfg fs pos = some ⟨none, w⟩)
    (hne : cfg.preprocessingJobs ≠ []) (p q : Text) (hp : cfg.pprocessingResultFile = some p) (hp0 : p ≠ [])
    (hq : cfg.completenessTableFile = some q) (hpq : p ≠ q) (hpr : p ≠ cfg.resultFile) (hqr : q ≠ cfg.resultFile) (ho : OnlyAnalyses cfg) :
    ∃ file es rows t flags sel, fs cfg.eqCatalogFile = some (.text file) ∧ readCatalogFile x.env x.ord file = .ok es ∧ es.mapM matrixRow = .ok rows ∧
      w.ctx.completenessTable = some t ∧ w.ctx.flagVector = some flags ∧ Completeness.selectedEqFlagVector (yearMag rows) t flags = .ok sel ∧
      w.fs p = some (.text (writeCatalog x.show_ (kept es sel))) ∧ w.fs q = some (.text (Table.saveTable x.fmt5 t)) := by
  classical
  obtain ⟨pre, procs, we, hpre, hprocs, hstart, hwrite⟩ := main_ok.1 h
  obtain ⟨js, hjs, rfl⟩ := (C16_preprocessing cfg pre).1 hpre
  have hcp : Configured cfg.pprocessingResultFile := ⟨p, hp, hp0⟩
  rw [if_pos hne, if_pos hcp] at hstart
  have hn := (C16_processing cfg procs).1 hprocs
  -- the preprocessing and the loop
  obtain ⟨wd, hchain, k1, k2, k3, k4⟩ : ∃ wd, Chain (Succeeds x cfg) ([.readEqCatalog,
      if Configured cfg.sourceModelFile then .readSourceModel else .createDefaultSourceModel, .createCatalogMatrix, .createDefaultValues] ++ js ++
      [.createSelectedEqVector, .storePreprocessedCatalog, .storeCompletenessTable]) ⟨fs, pos, {}⟩ wd ∧ we.fs = wd.fs ∧
      we.ctx.eqCatalog = wd.ctx.eqCatalog ∧ we.ctx.completenessTable = wd.ctx.completenessTable ∧ we.ctx.flagVector = wd.ctx.flagVector := by
    by_cases happ : cfg.applyProcessing = true
    · obtain ⟨wd, defs, working, hchain, -, -, hloop⟩ := (C19_once_in_order x cfg _ _ _ _ we happ).1 hstart
      exact ⟨wd, hchain, analyses_keep ho hn hloop⟩
    · unfold start at hstart
      obtain ⟨wd, h1, h2⟩ := andThen_ok.1 hstart
      rw [if_neg happ] at h2
      cases h2
      exact ⟨_, (C18_in_order _ _ _ _ _).1 h1, rfl, rfl, rfl, rfl⟩
  rw [Chain.append_iff] at hchain
  obtain ⟨wa, hchain, htail⟩ := hchain
  rw [Chain.append_iff] at hchain
  obtain ⟨w0, hcomp, hnamed⟩ := hchain
  obtain ⟨file, es, inputs, rows, my, mm, hfile, hes, hin, hinne, hrows, hrne, hmy, hmm, rfl⟩ := (compulsory_iff x cfg fs pos w0).1 hcomp
  obtain ⟨-, l2, -, -⟩ := preprocessing_keeps hjs hnamed rfl
  have l3 : wa.ctx.catalogMatrix = some ⟨rows, false⟩ := by
    refine Chain.invariant hnamed (P := fun v => v.ctx.catalogMatrix = some ⟨rows, false⟩) ?_ rfl
    intro j hj s s' hs h0
    obtain ⟨n, hn'⟩ := named_mem hjs hj
    exact (named_matrix hn' hs).trans h0
  rcases htail with _ | ⟨_, _, _, wb, _, hb1, _ | ⟨_, _, _, wc, _, hb2, _ | ⟨_, _, _, wd', _, hb3, _ | _⟩⟩⟩
  obtain ⟨m, rows', t, flags, sel, g1, g2, g3, g4, hsel, rfl⟩ := select_ok hb1
  rw [l3] at g1; cases g1
  cases g2
  have hlen : rows.length = es.length := by
    have := (mapM_forall₂ _ _ _ hrows).length_eq
    omega
  have hsl := selected_length hsel
  have hwc := storeCatalog_ok hp hb2 (sel := sel) (es := es) rfl l2 (by rw [hsl]; simp [yearMag, hlen])
  subst hwc
  obtain ⟨t3, ht3, rfl⟩ := storeTable_ok hq hb3
  have : t3 = t := by
    have h' : some t = some t3 := g3.symm.trans ht3
    cases h'; rfl
  subst this
  obtain ⟨m1, -, m2⟩ := writeResult_fs hwrite
  refine ⟨file, es, rows, t3, flags, sel, hfile, hes, hrows, ?_, ?_, hsel, ?_, ?_⟩
  · rw [m1, k3]; exact g3
  · rw [m1, k4]; exact g4
  · rw [m2 p hpr, k1]
    simp [World.write, hpq]
  · rw [m2 q hqr, k1]
    simp [World.write]

end

/-! ### A run that meets the hypotheses -/

/-- A run with a declustering job and the recurrence analysis, its input file apart from its output files, ends without exception. -/
theorem run31_exists : ∃ w, main x31 config31 (fs31 "5") 0 = some ⟨none, w⟩ := by
  obtain ⟨b, s, hb, hmle⟩ := mle31 (((5 : ℚ) : ℝ)) 4 (by norm_num) (by norm_num)
  obtain ⟨t1, hg1⟩ := hmle (((5 : ℚ) : ℝ)) (by norm_num) (by norm_num)
  obtain ⟨w1, es, hmain, -⟩ := first31 holds_five (by norm_num) hg1
  exact ⟨w1, hmain⟩

theorem inputs31 (q : Text) (h : Input config31 q) : q = "catalogue.csv".toList := by
  rcases h with h | ⟨⟨_, h, -⟩, -⟩ | ⟨h, -⟩
  · exact h
  · exact absurd (show (none : Option Text) = some _ from h) (by simp)
  · rcases h with h | h | h
    · exact absurd h (List.cons_ne_nil _ _)
    · exact absurd (List.mem_singleton.1 h) (by decide)
    · exact absurd (List.mem_singleton.1 h) (by decide)

/-- What is none of the three output files. -/
theorem not_output31 (q : Text) (h1 : "p.csv".toList ≠ q) (h2 : "t.txt".toList ≠ q) (h3 : q ≠ "result.xml".toList) : ¬ Output config31 q := by
  rintro (h | h | h)
  · exact h1 (Option.some.inj h)
  · exact h2 (Option.some.inj h)
  · exact h3 h

theorem separated31 (q : Text) (h : Input config31 q) : ¬ Output config31 q := by
  have := inputs31 q h
  subst this
  exact not_output31 _ (by decide) (by decide) (by decide)

example : ∃ w, main x31 config31 (fs31 "5") 0 = some ⟨none, w⟩ ∧ main x31 config31 w.fs 0 = some ⟨none, w⟩ ∧
    w.fs "catalogue.csv".toList = fs31 "5" "catalogue.csv".toList ∧ w.fs "other.txt".toList = none := by
  obtain ⟨w, h⟩ := run31_exists
  refine ⟨w, h, C97_rerun x31 config31 _ 0 separated31 _ h, C95_only_outputs x31 config31 _ 0 _ h _ (separated31 _ (.inl rfl)), ?_⟩
  rw [C95_only_outputs x31 config31 _ 0 _ h _ (not_output31 _ (by decide) (by decide) (by decide))]
  exact if_neg (by decide)

example : ∃ w es t flags sel, main x31 config31 (fs31 "5") 0 = some ⟨none, w⟩ ∧ w.ctx.completenessTable = some t ∧ w.ctx.flagVector = some flags ∧
    w.fs "p.csv".toList = some (.text (writeCatalog x31.show_ (kept es sel))) := by
  obtain ⟨w, h⟩ := run31_exists
  obtain ⟨_, es, _, t, flags, sel, -, -, -, h1, h2, -, h3, -⟩ := C26_run x31 config31 _ 0 w h (List.cons_ne_nil _ _) "p.csv".toList "t.txt".toList rfl
    (by decide) rfl (by decide) (by decide) (by decide) (fun n hn => .inl (List.mem_singleton.1 hn))
  exact ⟨w, es, t, flags, sel, h, h1, h2, h3⟩

/-- A run that ends by an exception: there is no catalogue. -/
example : ∃ o, main x31 config31 (fun _ => none) 0 = some o ∧ o.raised = some .ioError ∧ o.world.fs config31.resultFile = none :=
  ⟨_, rfl, rfl, C95_result_last x31 config31 (fun _ => none) 0 _ rfl (by intro h; cases h) (fun h => absurd (Option.some.inj h) (by decide))
    (fun h => absurd (Option.some.inj h) (by decide))⟩

end Verif.Workflow
