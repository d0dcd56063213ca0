import Verif.Props.Chaining
import Verif.Props.Processing
import Verif.Props.EquivalenceRun

/-!
# C131: only seven columns of the catalogue matter
-/

namespace Verif.Workflow

open Verif Verif.EqCatalog Verif.Csv Verif.Nrml Verif.Declustering Verif.Recurrence Verif.MaxMag Spec

section
variable {F : Type} [PyMath F]

/-! ### Pairs of runs -/

/-- Two jobs that end alike: the same exception, or related worlds. -/
inductive RelJob (R : World F → World F → Prop) : Option (Except PyErr (World F)) → Option (Except PyErr (World F)) → Prop
  | none : RelJob R none none
  | error (e) : RelJob R (some (.error e)) (some (.error e))
  | ok (w v) (h : R w v) : RelJob R (some (.ok w)) (some (.ok v))

/-- Two runs that end alike. -/
inductive RelOut (R : World F → World F → Prop) : Option (Outcome F) → Option (Outcome F) → Prop
  | none : RelOut R none none
  | some (e w v) (h : R w v) : RelOut R (some ⟨e, w⟩) (some ⟨e, v⟩)

omit [PyMath F] in
theorem rel_andThen {R : World F → World F → Prop} {r r' : Option (Outcome F)} {f f' : World F → Option (Outcome F)} (hr : RelOut R r r')
    (hf : ∀ w v, R w v → RelOut R (f w) (f' v)) : RelOut R (andThen r f) (andThen r' f') := by
  cases hr with
  | none => exact .none
  | some e w v h => cases e with
    | none => exact hf w v h
    | some e => exact .some _ _ _ h

theorem rel_pipeline {R : World F → World F → Prop} (x x' : Ext F) (cfg cfg' : Config F) (js : List Job)
    (hj : ∀ j ∈ js, ∀ w v, R w v → RelJob R (runJob x cfg j w) (runJob x' cfg' j v)) (w v : World F) (h : R w v) :
    RelOut R (runPipeline x cfg js w) (runPipeline x' cfg' js v) := by
  induction js generalizing w v with
  | nil => exact .some _ _ _ h
  | cons j js ih =>
    have h1 := hj j (by simp) w v h
    rw [runPipeline, runPipeline]
    generalize runJob x cfg j w = r at h1
    generalize runJob x' cfg' j v = r' at h1
    cases h1 with
    | none => exact .none
    | error e => exact .some _ _ _ h
    | ok w v h => exact ih (fun j hj' => hj j (by simp [hj'])) w v h

/-! ### Catalogues with the same columns -/

/-- The same year, month, day, longitude, latitude, moment magnitude and its uncertainty. -/
def Spec.SameColumns (e e' : Entry F) : Prop :=
  e .year = e' .year ∧ e .month = e' .month ∧ e .day = e' .day ∧ e .longitude = e' .longitude ∧ e .latitude = e' .latitude ∧
    e .mw = e' .mw ∧ e .sigmaMw = e' .sigmaMw

theorem matrixRow_same {e e' : Entry F} (h : SameColumns e e') : matrixRow e = matrixRow e' := by
  obtain ⟨h1, h2, h3, h4, h5, h6, h7⟩ := h
  simp only [matrixRow, fixedColumns, List.mapM_cons, List.mapM_nil, h1, h2, h3, h4, h5, h6, h7]

theorem matrixRows_same {es es' : List (Entry F)} (h : List.Forall₂ SameColumns es es') : es.mapM matrixRow = es'.mapM matrixRow := by
  induction h with
  | nil => rfl
  | cons h1 _ ih => simp only [List.mapM_cons, matrixRow_same h1, ih]

/-- Neither or both catalogues are loaded, and they have the same columns. -/
def SameCat : Option (List (Entry F)) → Option (List (Entry F)) → Prop
  | none, none => True
  | some a, some b => List.Forall₂ SameColumns a b
  | _, _ => False

/-- Worlds that differ in the entries of the catalogue outside the seven columns, in the catalogue file and in the file of the stored catalogue. -/
def Alike (cfg : Config F) (w v : World F) : Prop :=
  ∃ fs' c', v = ⟨fs', w.pos, { w.ctx with eqCatalog := c' }⟩ ∧ SameCat w.ctx.eqCatalog c' ∧
    ∀ p, p ≠ cfg.eqCatalogFile → cfg.pprocessingResultFile ≠ some p → fs' p = w.fs p

omit [PyMath F] in
theorem alikeUpdate {cfg : Config F} {w v : World F} (h : Alike cfg w v) (k : Nat) (f : Source F → Source F) :
    RelJob (Alike cfg) (some (updateCurrent { w with pos := k } f)) (some (updateCurrent { v with pos := k } f)) := by
  obtain ⟨fs', c', rfl, hc, hf⟩ := h
  unfold updateCurrent
  simp only
  cases attr w.ctx.curSm with
  | error e => exact .error e
  | ok i =>
    cases notNone w.ctx.smDefinitions with
    | error e => exact .error e
    | ok d =>
      simp only [bind, Except.bind]
      split
      · exact .ok _ _ ⟨fs', c', rfl, hc, hf⟩
      · exact .error _

omit [PyMath F] in
theorem entryAt_same {es es' : List (Entry F)} (h : es.length = es'.length) (l : List Nat) :
    (∃ e, l.mapM (entryAt es) = .error e ∧ l.mapM (entryAt es') = .error e) ∨ ∃ a b, l.mapM (entryAt es) = .ok a ∧ l.mapM (entryAt es') = .ok b := by
  induction l with
  | nil => exact .inr ⟨[], [], rfl, rfl⟩
  | cons i l ih =>
    simp only [List.mapM_cons]
    by_cases hi : i < es.length
    · have hi' : i < es'.length := h ▸ hi
      simp only [entryAt, List.getElem?_eq_getElem hi, List.getElem?_eq_getElem hi', bind, Except.bind]
      rcases ih with ⟨e, h1, h2⟩ | ⟨a, b, h1, h2⟩
      · exact .inl ⟨e, by simp only [h1], by simp only [h2]⟩
      · exact .inr ⟨es[i] :: a, es'[i] :: b, by simp only [h1]; rfl, by simp only [h2]; rfl⟩
    · have hi' : ¬ i < es'.length := h ▸ hi
      refine .inl ⟨.indexError, ?_, ?_⟩
      · simp only [entryAt, List.getElem?_eq_none (Nat.le_of_not_lt hi), bind, Except.bind]
      · simp only [entryAt, List.getElem?_eq_none (Nat.le_of_not_lt hi'), bind, Except.bind]

theorem alike_job (x : Ext F) (cfg : Config F) (hs : ∀ p, cfg.completenessTableFile = some p → p ≠ cfg.eqCatalogFile ∧ cfg.pprocessingResultFile ≠ some p)
    (hm : ∀ p, cfg.sourceModelFile = some p → p ≠ cfg.eqCatalogFile ∧ cfg.pprocessingResultFile ≠ some p) (j : Job) (h1 : j ≠ .readEqCatalog)
    (h2 : j = .readSourceModel → Configured cfg.sourceModelFile) (w v : World F) (h : Alike cfg w v) : RelJob (Alike cfg) (runJob x cfg j w) (runJob x cfg j v) := by
  obtain ⟨fs', c', rfl, hc, hf⟩ := id h
  have okc : ∀ (ctx : Context F), ctx.eqCatalog = w.ctx.eqCatalog → Alike cfg { w with ctx := ctx } ⟨fs', w.pos, { ctx with eqCatalog := c' }⟩ :=
    fun ctx he => ⟨fs', c', rfl, by simpa [he] using hc, hf⟩
  cases j with
  | readEqCatalog => exact absurd rfl h1
  | readSourceModel =>
    obtain ⟨p, hp, -⟩ := h2 rfl
    obtain ⟨k1, k2⟩ := hm p hp
    simp only [runJob, readSourceModelJob, hp, Option.getD_some]
    have hd : document x ⟨fs', w.pos, { w.ctx with eqCatalog := c' }⟩ p = document x w p := by
      unfold document; simp only [hf p k1 k2]
    rw [hd]
    cases document x w p with
    | error e => exact .error _
    | ok doc =>
      simp only [bind, Except.bind]
      cases readDoc x.nums x.schema doc with
      | error e => exact .error _
      | ok areas =>
        simp only
        cases notNone (if areas.isEmpty then w.ctx.smDefinitions else some (areas.map (fun a => ({ area := a } : Source F)))) with
        | error e => exact .error _
        | ok _ => exact .ok _ _ (okc _ rfl)
  | createDefaultSourceModel => exact .ok _ _ (okc _ rfl)
  | createCatalogMatrix =>
    simp only [runJob, createCatalogMatrixJob]
    rcases he : w.ctx.eqCatalog with _ | es
    · rcases c' with _ | es'
      · exact .error _
      · simp [he, SameCat] at hc
    · rcases c' with _ | es'
      · simp [he, SameCat] at hc
      · simp only [he, SameCat] at hc
        simp only [notNone, bind, Except.bind, matrixRows_same hc]
        cases es'.mapM matrixRow with
        | error e => exact .error _
        | ok rows => exact .ok _ _ (by simpa [he] using okc { w.ctx with catalogMatrix := some (.ofRows rows), workingCatalog := some (.ofRows rows) } rfl)
  | createDefaultValues =>
    simp only [runJob, createDefaultValuesJob]
    cases notNone w.ctx.workingCatalog with
    | error e => exact .error _
    | ok m =>
      simp only [bind, Except.bind]
      cases m.cols with
      | error e => exact .error _
      | ok rows =>
        simp only
        cases Np.npMin (rows.map (fun r => r 0)) with
        | error e => exact .error _
        | ok y =>
          simp only
          cases Np.npMin (rows.map (fun r => r 5)) with
          | error e => exact .error _
          | ok _ => exact .ok _ _ (okc _ rfl)
  | gardnerKnopoff =>
    simp only [runJob, gardnerKnopoffJob]
    cases section_ cfg.gardnerKnopoff with
    | error e => exact .error _
    | ok c =>
      simp only [bind, Except.bind]
      cases notNone w.ctx.workingCatalog with
      | error e => exact .error _
      | ok m =>
        simp only
        cases m.cols with
        | error e => exact .error _
        | ok rows =>
          simp only
          cases gardnerKnopoff (fun i : Fin rows.length => rows[i]) c.1 c.2 (x.argsort fun j : Fin rows.length => rows[j] 5)
            (x.argsortInt (flipud (x.argsort fun j : Fin rows.length => rows[j] 5))) with
          | error e => exact .error _
          | ok r => exact .ok _ _ (okc _ rfl)
  | afteran =>
    simp only [runJob, afteranJob]
    cases section_ cfg.afteran with
    | error e => exact .error _
    | ok c =>
      simp only [bind, Except.bind]
      cases notNone w.ctx.catalogMatrix with
      | error e => exact .error _
      | ok m =>
        simp only
        cases m.cols with
        | error e => exact .error _
        | ok rows =>
          simp only
          cases afteran (fun i : Fin rows.length => rows[i]) c.1 c.2 (x.argsort fun j : Fin rows.length => rows[j] 5)
            (x.argsortInt (flipud (x.argsort fun j : Fin rows.length => rows[j] 5))) with
          | error e => exact .error _
          | ok r => exact .ok _ _ (okc _ rfl)
  | stepp =>
    simp only [runJob, steppJob]
    cases notNone w.ctx.workingCatalog with
    | error e => exact .error _
    | ok m =>
      simp only [bind, Except.bind]
      cases m.cols with
      | error e => exact .error _
      | ok rows =>
        simp only
        cases section_ cfg.stepp with
        | error e => exact .error _
        | ok c =>
          simp only
          cases Completeness.stepp (yearMag rows) c.magnitudeWindows c.timeWindow c.sensitivity c.incrementLock with
          | error e => exact .error _
          | ok _ => exact .ok _ _ (okc _ rfl)
  | recurrence =>
    simp only [runJob, recurrenceJob]
    cases attr w.ctx.currentFilteredEq with
    | error e => exact .error _
    | ok m =>
      simp only [bind, Except.bind]
      cases m.cols with
      | error e => exact .error _
      | ok rows =>
        simp only
        cases section_ cfg.recurrence with
        | error e => exact .error _
        | ok c =>
          simp only
          cases notNone w.ctx.completenessTable with
          | error e => exact .error _
          | ok t =>
            simp only
            cases recurrenceAnalysis (yearMag rows) t c.magnitudeWindow c.algorithm c.referenceMagnitude c.timeWindow x.fuel with
            | error e => exact .error _
            | ok r => cases r with
              | none => exact .none
              | some g => exact alikeUpdate h w.pos _
  | createSelectedEqVector =>
    simp only [runJob, createSelectedEqVectorJob]
    cases notNone w.ctx.catalogMatrix with
    | error e => exact .error _
    | ok m =>
      simp only [bind, Except.bind]
      cases m.cols with
      | error e => exact .error _
      | ok rows =>
        simp only
        cases notNone w.ctx.completenessTable with
        | error e => exact .error _
        | ok t =>
          simp only
          cases attr w.ctx.flagVector with
          | error e => exact .error _
          | ok f =>
            simp only
            cases Completeness.selectedEqFlagVector (yearMag rows) t f with
            | error e => exact .error _
            | ok _ => exact .ok _ _ (okc _ rfl)
  | storePreprocessedCatalog =>
    simp only [runJob, storePreprocessedCatalogJob]
    cases hpp : cfg.pprocessingResultFile with
    | none => exact .error _
    | some path =>
      simp only [bind, Except.bind]
      cases hw : mkWriter x.exists_ path with
      | error e => exact .error _
      | ok path' =>
        obtain rfl : path' = path := by
          unfold mkWriter at hw
          split_ifs at hw
          all_goals exact (Except.ok.inj hw).symm
        simp only
        cases attr w.ctx.selectedEqVector with
        | error e => exact .error _
        | ok sel =>
          simp only
          rcases he : w.ctx.eqCatalog with _ | es
          · rcases c' with _ | es'
            · exact .error _
            · simp [he, SameCat] at hc
          · rcases c' with _ | es'
            · simp [he, SameCat] at hc
            · simp only [he, SameCat] at hc
              simp only [notNone]
              rcases entryAt_same hc.length_eq (zeros sel) with ⟨e, a1, a2⟩ | ⟨a, b, a1, a2⟩
              · simp only [a1, a2]
                exact .error _
              · simp only [a1, a2]
                cases openWrite x path' with
                | error e => exact .error _
                | ok _ =>
                  refine .ok _ _ ⟨_, some es', rfl, by simpa [World.write, he, SameCat] using hc, fun p q1 q2 => ?_⟩
                  have : p ≠ path' := fun hh => q2 (by rw [hpp, hh])
                  simp only [World.write, if_neg this]
                  exact hf p q1 q2
  | storeCompletenessTable =>
    simp only [runJob, storeCompletenessTableJob]
    cases cfg.completenessTableFile with
    | none => exact .error _
    | some path =>
      simp only [bind, Except.bind]
      cases openWrite x path with
      | error e => exact .error _
      | ok _ =>
        simp only
        cases notNone w.ctx.completenessTable with
        | error e => exact .error _
        | ok t =>
          refine .ok _ _ ⟨_, c', rfl, by simpa [World.write] using hc, fun p q1 q2 => ?_⟩
          simp only [World.write]
          split_ifs
          · rfl
          · exact hf p q1 q2
  | retrieveCompletenessTable =>
    simp only [runJob, retrieveCompletenessTableJob]
    cases ht : cfg.completenessTableFile with
    | none => exact .error _
    | some path =>
      obtain ⟨k1, k2⟩ := hs path ht
      simp only [notNone, bind, Except.bind, hf path k1 k2]
      cases w.fs path with
      | none => exact .error _
      | some c => cases c with
        | xml _ => exact .error _
        | text t =>
          simp only
          cases Table.loadTable x.nums.float x.nan t with
          | error e => exact .error _
          | ok _ => exact .ok _ _ (okc _ rfl)
  | maximumMagnitude =>
    simp only [runJob, maximumMagnitudeJob]
    cases attr w.ctx.currentFilteredEq with
    | error e => exact .error _
    | ok m =>
      simp only [bind, Except.bind]
      cases m.cols with
      | error e => exact .error _
      | ok rows =>
        simp only
        cases hc : section_ cfg.maximumMagnitude with
        | error e => exact .error _
        | ok c =>
          simp only
          cases analysis (yearMagSigma rows) c (fun i k => x.normal (w.pos + i * rows.length + k)) x.fuel with
          | none => exact .none
          | some r => cases r with
            | error e => exact .error _
            | ok r => exact alikeUpdate h _ _

theorem rel_sources {R : World F → World F → Prop} (x x' : Ext F) (cfg cfg' : Config F) (filter : Source F → Matrix F → Except PyErr (Matrix F)) (procs : List Job)
    (hj : ∀ j ∈ procs, ∀ w v, R w v → RelJob R (runJob x cfg j w) (runJob x' cfg' j v))
    (hd : ∀ w v, R w v → v.ctx.smDefinitions = w.ctx.smDefinitions)
    (hs : ∀ w v i m, R w v → R { w with ctx := { w.ctx with curSm := some i, currentFilteredEq := some m } }
      { v with ctx := { v.ctx with curSm := some i, currentFilteredEq := some m } })
    (working : Matrix F) (is : List Nat) (w v : World F) (h : R w v) :
    RelOut R (processSources x cfg filter procs working is w) (processSources x' cfg' filter procs working is v) := by
  induction is generalizing w v with
  | nil => exact .some _ _ _ h
  | cons i is ih =>
    rw [processSources, processSources, hd w v h]
    cases w.ctx.smDefinitions.bind (·[i]?) with
    | none => exact .some _ _ _ h
    | some s =>
      simp only
      cases filter s working with
      | error e => exact .some _ _ _ h
      | ok m => exact rel_andThen (rel_pipeline x x' cfg cfg' procs hj _ _ (hs w v i m h)) (fun w v h => ih w v h)

/-- The files of the configuration other than the catalogue and the stored catalogue are other files. -/
structure Spec.SeparateFiles (cfg : Config F) : Prop where
  table : ∀ p, cfg.completenessTableFile = some p → p ≠ cfg.eqCatalogFile ∧ cfg.pprocessingResultFile ≠ some p
  model : ∀ p, cfg.sourceModelFile = some p → p ≠ cfg.eqCatalogFile ∧ cfg.pprocessingResultFile ≠ some p
  result : cfg.resultFile ≠ cfg.eqCatalogFile ∧ cfg.pprocessingResultFile ≠ some cfg.resultFile

theorem named_other {names : List String} {js : List Job} (hn : Named names js) : ∀ j ∈ js, j ≠ .readEqCatalog ∧ j ≠ .readSourceModel := by
  intro j hj
  obtain ⟨n, hn⟩ := named_mem hn hj
  constructor <;> rintro rfl <;> simp [documented] at hn

/-- **C131**: two runs of the same configuration, on file systems that differ in the catalogue file alone, whose entries agree in the seven columns, end alike. -/
theorem C131_run (x : Ext F) (cfg : Config F) (hsep : SeparateFiles cfg) (fs fs' : Text → Option Content) (pos : Nat)
    (hfs : ∀ p, p ≠ cfg.eqCatalogFile → fs' p = fs p) (t t' : Text) (ht : fs cfg.eqCatalogFile = some (.text t)) (ht' : fs' cfg.eqCatalogFile = some (.text t'))
    (es es' : List (Entry F)) (he : readCatalogFile x.env x.ord t = .ok es) (he' : readCatalogFile x.env x.ord t' = .ok es') (hsame : List.Forall₂ SameColumns es es') :
    RelOut (Alike cfg) (main x cfg fs pos) (main x cfg fs' pos) := by
  have h0 : Alike cfg (⟨fs, pos, {}⟩ : World F) ⟨fs', pos, {}⟩ := ⟨fs', none, rfl, trivial, fun p h _ => hfs p h⟩
  unfold main
  simp only
  cases hb : buildPreprocessing cfg with
  | error e => exact .some _ _ _ h0
  | ok pre =>
    simp only
    cases hp : buildProcessing cfg with
    | error e => exact .some _ _ _ h0
    | ok procs =>
      simp only
      obtain ⟨js, hn, rfl⟩ := (C16_preprocessing cfg pre).1 hb
      have hn' := (C16_processing cfg procs).1 hp
      have hj := alike_job x cfg hsep.table hsep.model
      apply rel_andThen
      · unfold start
        apply rel_andThen
        · simp only [List.cons_append]
          rw [runPipeline, runPipeline]
          simp only [runJob, readEqCatalogJob, ht, ht', he, he', bind, Except.bind]
          refine rel_pipeline x x cfg cfg _ (fun j hjm => ?_) _ _ ⟨fs', some es', rfl, hsame, fun p h _ => hfs p h⟩
          have : j ≠ .readEqCatalog ∧ (j = .readSourceModel → Configured cfg.sourceModelFile) := by
            simp only [List.nil_append, List.mem_cons, List.mem_append] at hjm
            rcases hjm with rfl | rfl | rfl | hjm | hjm
            · split_ifs with hc
              · exact ⟨by simp, fun _ => hc⟩
              · exact ⟨by simp, by simp⟩
            · exact ⟨by simp, by simp⟩
            · exact ⟨by simp, by simp⟩
            · have := named_other hn j hjm
              exact ⟨this.1, fun h => absurd h this.2⟩
            · split_ifs at hjm <;> simp only [List.mem_cons, List.not_mem_nil, or_false] at hjm
              · rcases hjm with rfl | rfl | rfl <;> exact ⟨by simp, by simp⟩
              · subst hjm; exact ⟨by simp, by simp⟩
          exact hj j this.1 this.2
        · intro w v h
          split
          · have e1 : v.ctx.smDefinitions = w.ctx.smDefinitions := by obtain ⟨_, _, rfl, _⟩ := h; rfl
            have e2 : v.ctx.workingCatalog = w.ctx.workingCatalog := by obtain ⟨_, _, rfl, _⟩ := h; rfl
            rw [e1, e2]
            cases w.ctx.smDefinitions with
            | none => exact .some _ _ _ h
            | some d =>
              cases w.ctx.workingCatalog with
              | none => exact .some _ _ _ h
              | some wk =>
                refine rel_sources x x cfg cfg (chosenFilter x cfg) procs (fun j hjm => ?_) ?_ ?_ wk _ _ _ h
                · have := named_other hn' j hjm
                  exact hj j this.1 (fun h => absurd h this.2)
                · rintro w v ⟨_, _, rfl, _⟩; rfl
                · rintro w v i m ⟨fs3, c3, rfl, hc, hf⟩; exact ⟨fs3, c3, rfl, hc, hf⟩
          · exact .some _ _ _ h
      · intro w v h
        obtain ⟨fs2, c2, rfl, hc, hf⟩ := id h
        unfold writeResult
        cases mkWriter x.exists_ cfg.resultFile with
        | error e => exact .some _ _ _ h
        | ok path =>
          simp only [bind, Except.bind]
          cases notNone w.ctx.smDefinitions with
          | error e => exact .some _ _ _ h
          | ok d =>
            simp only
            cases serialize x.nums (d.map Source.area) with
            | error e => exact .some _ _ _ h
            | ok doc =>
              simp only
              cases openWrite x path with
              | error e => exact .some _ _ _ h
              | ok _ =>
                refine .some _ _ _ ⟨_, c2, rfl, by simpa [World.write] using hc, fun p q1 q2 => ?_⟩
                simp only [World.write]
                split_ifs
                · rfl
                · exact hf p q1 q2

/-- **C131** in terms of what can be observed: both runs fail to end, or both raise the same exception (or none), with the same sources, completeness table and
flags, and the same contents of every file but the catalogue and the stored catalogue; in particular the same result document. -/
theorem C131_observable (x : Ext F) (cfg : Config F) (hsep : SeparateFiles cfg) (fs fs' : Text → Option Content) (pos : Nat)
    (hfs : ∀ p, p ≠ cfg.eqCatalogFile → fs' p = fs p) (t t' : Text) (ht : fs cfg.eqCatalogFile = some (.text t)) (ht' : fs' cfg.eqCatalogFile = some (.text t'))
    (es es' : List (Entry F)) (he : readCatalogFile x.env x.ord t = .ok es) (he' : readCatalogFile x.env x.ord t' = .ok es') (hsame : List.Forall₂ SameColumns es es') :
    (main x cfg fs' pos).map (fun o => (o.raised, o.world.fs cfg.resultFile, { o.world.ctx with eqCatalog := none })) =
        (main x cfg fs pos).map (fun o => (o.raised, o.world.fs cfg.resultFile, { o.world.ctx with eqCatalog := none })) ∧
      ∀ o o', main x cfg fs pos = some o → main x cfg fs' pos = some o' → ∀ p, p ≠ cfg.eqCatalogFile → cfg.pprocessingResultFile ≠ some p → o'.world.fs p = o.world.fs p := by
  have h := C131_run x cfg hsep fs fs' pos hfs t t' ht ht' es es' he he' hsame
  generalize main x cfg fs pos = r at h
  generalize main x cfg fs' pos = r' at h
  cases h with
  | none => exact ⟨rfl, fun _ _ h => by cases h⟩
  | some e w v h =>
    obtain ⟨fs2, c2, rfl, hc, hf⟩ := h
    refine ⟨by simp only [Option.map_some, hf _ hsep.result.1 hsep.result.2], ?_⟩
    intro o o' h1 h2 p q1 q2
    cases h1; cases h2
    exact hf p q1 q2

end

/-! ### Example -/

/-- The events of `file31`, reported by another agency at another hour and depth, with a local magnitude besides. -/
def row131 (lat mag : String) : List Text :=
  ["7", "ZZZ", "20000110110000", "2000", "01", "10", "11", "00", "00", "0.5", "0", lat, "9", "8", "120",
   "33.5", "0.1", mag, "0", "4.5", "0.2", "6.1", "0.3", "6.2", "0.4"].map String.toList

/-- The other catalogue file. -/
def file131 (mag : String) : Text :=
  writeRow (fieldNames.map (fun f => f.name.toList)) ++ writeRow (row131 "0" "6") ++ writeRow (row131 "40" mag)

theorem holds131 : (readCatalogFile (ratEnv 2012) cpythonOrder (file131 "5")).map (fun es => es.map fun e => fixedColumns.map e) =
    .ok [[.int 2000, .int 1, .int 10, .flt 0, .flt 0, .flt 6, .flt 0], [.int 2000, .int 1, .int 10, .flt 0, .flt 40, .flt 5, .flt 0]] := by
  decide +kernel

/-- The other file differs in what is read from it: the agencies. -/
example : (readCatalogFile (ratEnv 2012) cpythonOrder (file131 "5")).map (fun es => es.map fun e => e .agency) ≠
    (readCatalogFile (ratEnv 2012) cpythonOrder (file31 "5")).map (fun es => es.map fun e => e .agency) := by
  decide +kernel

theorem same_cast {a b : List (Entry ℚ)} (h : (a.map fun e => fixedColumns.map e) = b.map fun e => fixedColumns.map e) :
    List.Forall₂ SameColumns (a.map Entry.cast) (b.map Entry.cast) := by
  induction a generalizing b with
  | nil =>
    cases b with
    | nil => exact .nil
    | cons _ _ => simp at h
  | cons e a ih =>
    cases b with
    | nil => simp at h
    | cons f b =>
      simp only [List.map_cons, List.cons.injEq] at h
      refine .cons ?_ (ih h.2)
      have h1 := h.1
      simp only [fixedColumns, List.map_cons, List.map_nil, List.cons.injEq, and_true] at h1
      obtain ⟨a1, a2, a3, a4, a5, a6, a7⟩ := h1
      simp only [SameColumns, Entry.cast, a1, a2, a3, a4, a5, a6, a7, and_self]

theorem write_at (w : World ℝ) (p : Text) (c : Content) : (w.write p c).fs p = some c := by
  unfold World.write
  exact if_pos rfl

/-- The files with the other catalogue. -/
def fs131 : Text → Option Content := fun p => if p = "catalogue.csv".toList then some (.text (file131 "5")) else none

/-- The run on the other catalogue ends without exception and writes the same result document. -/
example : ∃ o o', main x31 config31 (fs31 "5") 0 = some o ∧ main x31 config31 fs131 0 = some o' ∧ o.raised = none ∧ o'.raised = none ∧
    (∃ doc, o.world.fs "result.xml".toList = some doc) ∧ o'.world.fs "result.xml".toList = o.world.fs "result.xml".toList := by
  obtain ⟨b, s, hb, hmle⟩ := mle31 (((5 : ℚ) : ℝ)) 4 (by norm_num) (by norm_num)
  obtain ⟨t1, hg1⟩ := hmle (((5 : ℚ) : ℝ)) (by norm_num) (by norm_num)
  obtain ⟨w1, es, hmain, hes, -⟩ := first31 holds_five (by norm_num) hg1
  have h1 := holds_five.1
  have h2 := holds131
  have he : readCatalogFile x31.env x31.ord (file31 "5") = _ := readCatalogFile_cast (ratEnv 2012) cpythonOrder (file31 "5")
  have he' : readCatalogFile x31.env x31.ord (file131 "5") = _ := readCatalogFile_cast (ratEnv 2012) cpythonOrder (file131 "5")
  cases r1 : readCatalogFile (ratEnv 2012) cpythonOrder (file31 "5") with
  | error e => rw [r1] at h1; cases h1
  | ok a =>
    cases r2 : readCatalogFile (ratEnv 2012) cpythonOrder (file131 "5") with
    | error e => rw [r2] at h2; cases h2
    | ok a' =>
      rw [r1] at h1 he
      rw [r2] at h2 he'
      have hs : SeparateFiles config31 := ⟨by rintro p ⟨⟩; decide, by rintro p ⟨⟩, by decide⟩
      have h := C131_observable x31 config31 hs (fs31 "5") fs131 0 (by
        intro p hp
        have hp : p ≠ "catalogue.csv".toList := hp
        simp only [fs31, fs131, if_neg hp]) (file31 "5") (file131 "5") (fs31_catalogue "5") (by unfold fs131; exact if_pos rfl) _ _ he he'
        (same_cast (by simpa [Except.map] using (Except.ok.inj h1).trans (Except.ok.inj h2).symm))
      rw [hmain] at h
      cases hm : main x31 config31 fs131 0 with
      | none => rw [hm] at h; cases h.1
      | some o' =>
        rw [hm] at h
        have h3 := Option.some.inj h.1
        simp only [Prod.mk.injEq] at h3
        refine ⟨_, o', hmain, rfl, rfl, h3.1, ?_, h3.2.1⟩
        obtain ⟨_, _, w2, -, -, -, hw⟩ := main_ok.1 hmain
        obtain ⟨_, doc, -, -, rfl⟩ := writeResult_ok hw
        exact ⟨.xml doc, write_at w2 config31.resultFile (.xml doc)⟩

end Verif.Workflow
