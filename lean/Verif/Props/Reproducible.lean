import Verif.Props.Processing
import Verif.Props.CumulativeMoment

/-!
# C33: reproducibility of a run
-/

namespace Verif.Workflow

open Verif Verif.EqCatalog Verif.Csv Verif.Nrml Verif.Declustering Verif.Recurrence Verif.MaxMag Spec

section
variable {F : Type} [PyMath F]

/-- The world at another position of the random stream. -/
def World.at (w : World F) (p : Nat) : World F := { w with pos := p }

/-- The machine with another random stream. -/
def Ext.stream (x : Ext F) (nrm : Nat → F) : Ext F := { x with normal := nrm }

/-- Same end of a job, up to the position in the random stream. -/
inductive SimJob : Option (Except PyErr (World F)) → Option (Except PyErr (World F)) → Prop
  | none : SimJob none none
  | error (e) : SimJob (some (.error e)) (some (.error e))
  | ok (w p) : SimJob (some (.ok w)) (some (.ok (w.at p)))

/-- Same end of a run, up to the position in the random stream. -/
inductive SimOut : Option (Outcome F) → Option (Outcome F) → Prop
  | none : SimOut none none
  | some (e w p) : SimOut (some ⟨e, w⟩) (some ⟨e, w.at p⟩)

theorem simUpdate (w : World F) (p p' : Nat) (f : Source F → Source F) :
    SimJob (some (updateCurrent (w.at p) f)) (some (updateCurrent (w.at p') f)) := by
  unfold updateCurrent World.at
  simp only
  cases attr w.ctx.curSm with
  | error e => exact .error e
  | ok i =>
    cases notNone w.ctx.smDefinitions with
    | error e => exact .error e
    | ok d =>
      simp only [bind, Except.bind]
      split
      · exact .ok _ p'
      · exact .error _

theorem sim_job (x : Ext F) (cfg : Config F) (hdet : Deterministic cfg) (nrm : Nat → F) (j : Job) (w : World F) (p : Nat) :
    SimJob (runJob x cfg j w) (runJob (x.stream nrm) cfg j (w.at p)) := by
  cases j with
  | readEqCatalog =>
    simp only [runJob, readEqCatalogJob, World.at, Ext.stream]
    cases w.fs cfg.eqCatalogFile with
    | none => exact .error _
    | some c => cases c with
      | xml _ => exact .error _
      | text t =>
        simp only [bind, Except.bind]
        cases readCatalogFile x.env x.ord t with
        | error e => exact .error _
        | ok es => exact .ok _ p
  | readSourceModel =>
    simp only [runJob, readSourceModelJob, World.at, Ext.stream]
    have hd : document (x.stream nrm) (w.at p) (cfg.sourceModelFile.getD []) = document x w (cfg.sourceModelFile.getD []) := rfl
    simp only [Ext.stream, World.at] at hd
    rw [hd]
    cases document x w (cfg.sourceModelFile.getD []) with
    | error e => exact .error _
    | ok doc =>
      simp only [bind, Except.bind]
      cases readDoc x.nums x.schema doc with
      | error e => exact .error _
      | ok areas =>
        simp only
        cases notNone (if areas.isEmpty then w.ctx.smDefinitions else some (areas.map (fun a => ({ area := a } : Source F)))) with
        | error e => exact .error _
        | ok _ => exact .ok _ p
  | createDefaultSourceModel => exact .ok _ p
  | createCatalogMatrix =>
    simp only [runJob, createCatalogMatrixJob, World.at]
    cases notNone w.ctx.eqCatalog with
    | error e => exact .error _
    | ok es =>
      simp only [bind, Except.bind]
      cases es.mapM matrixRow with
      | error e => exact .error _
      | ok _ => exact .ok _ p
  | createDefaultValues =>
    simp only [runJob, createDefaultValuesJob, World.at]
    cases notNone w.ctx.workingCatalog with
    | error e => exact .error _
    | ok m =>
      simp only [bind, Except.bind]
      cases m.cols with
      | error e => exact .error _
      | ok rows =>
        simp only
        cases Np.npMin (rows.map (fun r => r 0)) with
        | error e => exact .error _
        | ok y =>
          simp only
          cases Np.npMin (rows.map (fun r => r 5)) with
          | error e => exact .error _
          | ok _ => exact .ok _ p
  | gardnerKnopoff =>
    simp only [runJob, gardnerKnopoffJob, World.at, Ext.stream]
    cases section_ cfg.gardnerKnopoff with
    | error e => exact .error _
    | ok c =>
      simp only [bind, Except.bind]
      cases notNone w.ctx.workingCatalog with
      | error e => exact .error _
      | ok m =>
        simp only
        cases m.cols with
        | error e => exact .error _
        | ok rows =>
          simp only
          cases gardnerKnopoff (fun i : Fin rows.length => rows[i]) c.1 c.2 (x.argsort fun j : Fin rows.length => rows[j] 5)
            (x.argsortInt (flipud (x.argsort fun j : Fin rows.length => rows[j] 5))) with
          | error e => exact .error _
          | ok r => exact .ok _ p
  | afteran =>
    simp only [runJob, afteranJob, World.at, Ext.stream]
    cases section_ cfg.afteran with
    | error e => exact .error _
    | ok c =>
      simp only [bind, Except.bind]
      cases notNone w.ctx.catalogMatrix with
      | error e => exact .error _
      | ok m =>
        simp only
        cases m.cols with
        | error e => exact .error _
        | ok rows =>
          simp only
          cases afteran (fun i : Fin rows.length => rows[i]) c.1 c.2 (x.argsort fun j : Fin rows.length => rows[j] 5)
            (x.argsortInt (flipud (x.argsort fun j : Fin rows.length => rows[j] 5))) with
          | error e => exact .error _
          | ok r => exact .ok _ p
  | stepp =>
    simp only [runJob, steppJob, World.at]
    cases notNone w.ctx.workingCatalog with
    | error e => exact .error _
    | ok m =>
      simp only [bind, Except.bind]
      cases m.cols with
      | error e => exact .error _
      | ok rows =>
        simp only
        cases section_ cfg.stepp with
        | error e => exact .error _
        | ok c =>
          simp only
          cases Completeness.stepp (yearMag rows) c.magnitudeWindows c.timeWindow c.sensitivity c.incrementLock with
          | error e => exact .error _
          | ok _ => exact .ok _ p
  | recurrence =>
    simp only [runJob, recurrenceJob, World.at, Ext.stream]
    cases attr w.ctx.currentFilteredEq with
    | error e => exact .error _
    | ok m =>
      simp only [bind, Except.bind]
      cases m.cols with
      | error e => exact .error _
      | ok rows =>
        simp only
        cases section_ cfg.recurrence with
        | error e => exact .error _
        | ok c =>
          simp only
          cases notNone w.ctx.completenessTable with
          | error e => exact .error _
          | ok t =>
            simp only
            cases recurrenceAnalysis (yearMag rows) t c.magnitudeWindow c.algorithm c.referenceMagnitude c.timeWindow x.fuel with
            | error e => exact .error _
            | ok r => cases r with
              | none => exact .none
              | some g => exact simUpdate w w.pos p _
  | createSelectedEqVector =>
    simp only [runJob, createSelectedEqVectorJob, World.at]
    cases notNone w.ctx.catalogMatrix with
    | error e => exact .error _
    | ok m =>
      simp only [bind, Except.bind]
      cases m.cols with
      | error e => exact .error _
      | ok rows =>
        simp only
        cases notNone w.ctx.completenessTable with
        | error e => exact .error _
        | ok t =>
          simp only
          cases attr w.ctx.flagVector with
          | error e => exact .error _
          | ok f =>
            simp only
            cases Completeness.selectedEqFlagVector (yearMag rows) t f with
            | error e => exact .error _
            | ok _ => exact .ok _ p
  | storePreprocessedCatalog =>
    simp only [runJob, storePreprocessedCatalogJob, World.at, Ext.stream]
    have ho : ∀ q, openWrite (x.stream nrm) q = openWrite x q := fun _ => rfl
    simp only [Ext.stream] at ho
    simp only [ho]
    cases cfg.pprocessingResultFile with
    | none => exact .error _
    | some path =>
      simp only [bind, Except.bind]
      cases mkWriter x.exists_ path with
      | error e => exact .error _
      | ok path =>
        simp only
        cases attr w.ctx.selectedEqVector with
        | error e => exact .error _
        | ok sel =>
          simp only
          cases notNone w.ctx.eqCatalog with
          | error e => exact .error _
          | ok es =>
            simp only
            cases (zeros sel).mapM (entryAt es) with
            | error e => exact .error _
            | ok entries =>
              simp only
              cases openWrite x path with
              | error e => exact .error _
              | ok _ => exact .ok _ p
  | storeCompletenessTable =>
    simp only [runJob, storeCompletenessTableJob, World.at, Ext.stream]
    have ho : ∀ q, openWrite (x.stream nrm) q = openWrite x q := fun _ => rfl
    simp only [Ext.stream] at ho
    simp only [ho]
    cases cfg.completenessTableFile with
    | none => exact .error _
    | some path =>
      simp only [bind, Except.bind]
      cases openWrite x path with
      | error e => exact .error _
      | ok _ =>
        simp only
        cases notNone w.ctx.completenessTable with
        | error e => exact .error _
        | ok t => exact .ok _ p
  | retrieveCompletenessTable =>
    simp only [runJob, retrieveCompletenessTableJob, World.at, Ext.stream]
    cases notNone cfg.completenessTableFile with
    | error e => exact .error _
    | ok path =>
      simp only [bind, Except.bind]
      cases w.fs path with
      | none => exact .error _
      | some c => cases c with
        | xml _ => exact .error _
        | text t =>
          simp only
          cases Table.loadTable x.nums.float x.nan t with
          | error e => exact .error _
          | ok _ => exact .ok _ p
  | maximumMagnitude =>
    simp only [runJob, maximumMagnitudeJob, World.at, Ext.stream]
    cases attr w.ctx.currentFilteredEq with
    | error e => exact .error _
    | ok m =>
      simp only [bind, Except.bind]
      cases m.cols with
      | error e => exact .error _
      | ok rows =>
        simp only
        cases hc : section_ cfg.maximumMagnitude with
        | error e => exact .error _
        | ok c =>
          simp only
          rw [C33_reproducible (yearMagSigma rows) c (fun i k => nrm (p + i * rows.length + k))
            (fun i k => x.normal (w.pos + i * rows.length + k)) x.fuel (hdet c (section_ok.1 hc))]
          cases analysis (yearMagSigma rows) c (fun i k => x.normal (w.pos + i * rows.length + k)) x.fuel with
          | none => exact .none
          | some r => cases r with
            | error e => exact .error _
            | ok r => exact simUpdate w _ _ _

theorem sim_andThen {r r' : Option (Outcome F)} {f f' : World F → Option (Outcome F)} (hr : SimOut r r')
    (hf : ∀ w p, SimOut (f w) (f' (w.at p))) : SimOut (andThen r f) (andThen r' f') := by
  cases hr with
  | none => exact .none
  | some e w p => cases e with
    | none => exact hf w p
    | some e => exact .some _ _ _

theorem sim_pipeline (x : Ext F) (cfg : Config F) (hdet : Deterministic cfg) (nrm : Nat → F) (js : List Job) (w : World F) (p : Nat) :
    SimOut (runPipeline x cfg js w) (runPipeline (x.stream nrm) cfg js (w.at p)) := by
  induction js generalizing w p with
  | nil => exact .some _ _ _
  | cons j js ih =>
    have h := sim_job x cfg hdet nrm j w p
    rw [runPipeline, runPipeline]
    generalize runJob x cfg j w = r at h
    generalize runJob (x.stream nrm) cfg j (w.at p) = r' at h
    cases h with
    | none => exact .none
    | error e => exact .some _ _ _
    | ok w q => exact ih w q

theorem sim_sources (x : Ext F) (cfg : Config F) (hdet : Deterministic cfg) (nrm : Nat → F)
    (filter : Source F → Matrix F → Except PyErr (Matrix F)) (procs : List Job) (working : Matrix F) (is : List Nat) (w : World F) (p : Nat) :
    SimOut (processSources x cfg filter procs working is w) (processSources (x.stream nrm) cfg filter procs working is (w.at p)) := by
  induction is generalizing w p with
  | nil => exact .some _ _ _
  | cons i is ih =>
    rw [processSources, processSources]
    rw [show (w.at p).ctx.smDefinitions = w.ctx.smDefinitions from rfl]
    cases w.ctx.smDefinitions.bind (·[i]?) with
    | none => exact .some _ _ _
    | some s =>
      simp only
      cases filter s working with
      | error e => exact .some _ _ _
      | ok m => exact sim_andThen (sim_pipeline x cfg hdet nrm procs _ p) (fun v q => ih v q)

/-- **C33**: for every configuration whose maximum magnitude algorithm is not `Cumulative_Moment`, two runs with different random streams (and starting at
different positions of them) raise the same exception or none, and leave the same files and the same context. -/
theorem C33_run (x : Ext F) (cfg : Config F) (hdet : Deterministic cfg) (nrm : Nat → F) (fs : Text → Option Content) (p q : Nat) :
    SimOut (main x cfg fs p) (main (x.stream nrm) cfg fs q) := by
  unfold main
  simp only
  cases buildPreprocessing cfg with
  | error e => exact .some _ _ q
  | ok pre =>
    simp only
    cases buildProcessing cfg with
    | error e => exact .some _ _ q
    | ok procs =>
      simp only
      apply sim_andThen
      · unfold start
        refine sim_andThen (sim_pipeline x cfg hdet nrm pre ⟨fs, p, {}⟩ q) ?_
        intro w r
        split
        · rw [show (w.at r).ctx = w.ctx from rfl]
          cases w.ctx.smDefinitions with
          | none => exact .some _ _ _
          | some d =>
            cases w.ctx.workingCatalog with
            | none => exact .some _ _ _
            | some wk => exact sim_sources x cfg hdet nrm (chosenFilter x cfg) procs wk _ w r
        · exact .some _ _ _
      · intro w r
        have hw : writeResult (x.stream nrm) cfg (w.at r) = (writeResult x cfg w).map (fun v => v.at r) := by
          unfold writeResult
          simp only [Ext.stream, World.at]
          cases mkWriter x.exists_ cfg.resultFile with
          | error e => rfl
          | ok path =>
            simp only [bind, Except.bind]
            cases notNone w.ctx.smDefinitions with
            | error e => rfl
            | ok d =>
              simp only
              cases serialize x.nums (d.map Source.area) with
              | error e => rfl
              | ok doc =>
                simp only
                rw [show openWrite { x with normal := nrm } path = openWrite x path from rfl]
                cases openWrite x path with
                | error e => rfl
                | ok _ => rfl
        rw [hw]
        cases writeResult x cfg w with
        | error e => exact .some _ _ _
        | ok v => exact .some _ _ _

/-- **C33** in terms of what can be observed: exception, files, results. -/
theorem C33_observable (x : Ext F) (cfg : Config F) (hdet : Deterministic cfg) (nrm : Nat → F) (fs : Text → Option Content) (p q : Nat) :
    (main x cfg fs p).map (fun o => (o.raised, o.world.fs, o.world.ctx)) =
      (main (x.stream nrm) cfg fs q).map (fun o => (o.raised, o.world.fs, o.world.ctx)) := by
  have h := C33_run x cfg hdet nrm fs p q
  generalize main x cfg fs p = r at h
  generalize main (x.stream nrm) cfg fs q = r' at h
  cases h <;> rfl

end

end Verif.Workflow
