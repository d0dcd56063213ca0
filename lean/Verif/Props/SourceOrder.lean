import Verif.Props.Processing
import Verif.Props.RunExamples
import Verif.Props.CumulativeMoment

/-!
# C23 refuted

The bootstrap of `Cumulative_Moment` draws from one stream of random numbers for all sources, so that what a source gets depends on the sources before it.
-/

namespace Verif.Workflow

open Verif Verif.Np Verif.EqCatalog Verif.Nrml Verif.Declustering Verif.Recurrence Verif.MaxMag Spec

/-! ### Two events in consecutive years -/

theorem moDiff_pair (a b : ℝ) (hab : b < a) :
    moDiff [(2000, a), (2001, b)] = .ok ((MaxMag.Spec.moment a - MaxMag.Spec.moment b) / 2) := by
  have hr : moRate [((2000 : ℝ), a), (2001, b)] = .ok [MaxMag.Spec.moment a, MaxMag.Spec.moment b] := by
    have := moRate_events (cat := [(2000, a), (2001, b)]) (y0 := 2000) (y1 := 2001) (by constructor <;> simp [lowerBounds])
      (by constructor <;> simp [upperBounds])
    have e : events [(2000, a), (2001, b)] = [((2000 : ℝ), a), (2001, b)] := by simp [events]
    rw [e] at this
    rw [this, show (2001 - 2000 + 1 : ℤ).toNat = 2 from rfl]
    simp [List.range_succ, MaxMag.Spec.yearly, List.filter_cons]
  have hlt : MaxMag.Spec.moment b < MaxMag.Spec.moment a := by
    unfold MaxMag.Spec.moment
    exact Real.rpow_lt_rpow_of_exponent_lt (by norm_num) (by linarith)
  generalize MaxMag.Spec.moment a = A at *
  generalize MaxMag.Spec.moment b = B at *
  unfold moDiff
  rw [hr]
  simp only [bind, Except.bind, pure, Except.pure, List.length_cons, List.length_nil, npSum, List.foldl_cons, List.foldl_nil, List.replicate, cumsum, cumsumGo,
    List.zipWith_cons_cons, List.zipWith_nil_left, zero_add, npMax, npMin, maximum_fun, minimum_fun, npAbs_real]
  norm_num
  rw [if_neg (by linarith), if_pos (by linarith), abs_of_nonneg (by linarith), abs_zero]
  ring

theorem cumulativeMoment_pair (a b : ℝ) (hab : b < a) :
    cumulativeMoment [(2000, a), (2001, b)] = .ok ((2.0 / 3.0) * (Real.logb 10 ((MaxMag.Spec.moment a - MaxMag.Spec.moment b) / 2) - 9.05)) := by
  unfold cumulativeMoment
  rw [moDiff_pair a b hab]
  simp only [bind, Except.bind, pure, Except.pure, log10_real]

/-- The estimate grows with the larger magnitude. -/
theorem estimate_lt (a a' b : ℝ) (hab : b < a) (ha : a < a') :
    (2.0 / 3.0) * (Real.logb 10 ((MaxMag.Spec.moment a - MaxMag.Spec.moment b) / 2) - 9.05) <
      (2.0 / 3.0) * (Real.logb 10 ((MaxMag.Spec.moment a' - MaxMag.Spec.moment b) / 2) - 9.05) := by
  have h : ∀ s t : ℝ, s < t → MaxMag.Spec.moment s < MaxMag.Spec.moment t := fun s t hst => by
    unfold MaxMag.Spec.moment
    exact Real.rpow_lt_rpow_of_exponent_lt (by norm_num) (by linarith)
  have h1 := h b a hab
  have h2 := h a a' ha
  have := Real.logb_lt_logb (b := 10) (by norm_num) (x := (MaxMag.Spec.moment a - MaxMag.Spec.moment b) / 2)
    (y := (MaxMag.Spec.moment a' - MaxMag.Spec.moment b) / 2) (by linarith) (by linarith)
  linarith

/-! ### The run -/

/-- The random numbers of the first source are 0, those of the second 1. -/
noncomputable def x23 : Ext ℝ := { exExt with normal := fun k => if k < 4 then 0 else 1 }

noncomputable def config23 : Config ℝ :=
  { exConfig none with
    processingJobs := ["MaximumMagnitude"]
    maximumMagnitude := some ⟨"Cumulative_Moment", 0.1, 10, 10, 10, 2⟩ }

noncomputable def rows23 : List (Row ℝ) := [![2000, 1, 1, 10, 10, 5, 1], ![2001, 1, 1, 10, 10, 4, 0]]

noncomputable def matrix23 : Matrix ℝ := ⟨rows23, false⟩

/-- The estimate for the source whose random numbers are all `z`. -/
noncomputable def estimate23 (z : ℝ) : ℝ :=
  (2.0 / 3.0) * (Real.logb 10 ((MaxMag.Spec.moment (5 + z) - MaxMag.Spec.moment 4) / 2) - 9.05)

theorem cumMo23 (z : ℝ) (hz : 0 ≤ z) (rnd : Nat → Nat → ℝ) (h : ∀ i < 2, ∀ k < 2, rnd i k = z) :
    ∃ s, cumMoUncertainty (yearMagSigma rows23) 2 rnd = .ok (estimate23 z, s) := by
  have hp : ∀ i < 2, perturbed (yearMagSigma rows23) (rnd i) = [(2000, 5 + z), (2001, 4)] := by
    intro i hi
    have e : yearMagSigma rows23 = [⟨2000, 5, 1⟩, ⟨2001, 4, 0⟩] := rfl
    rw [e]
    simp [perturbed, h i hi]
  have hc := cumulativeMoment_pair (5 + z) 4 (by linarith)
  unfold cumMoUncertainty
  simp only [show List.range 2 = [0, 1] from rfl, List.mapM_cons, List.mapM_nil, hp 0 (by norm_num), hp 1 (by norm_num), hc, bind, Except.bind, pure, Except.pure]
  refine ⟨_, congrArg Except.ok (Prod.ext ?_ rfl)⟩
  dsimp only
  rw [npMean, npSum_real]
  change (estimate23 z + (estimate23 z + 0)) / ((2 : ℕ) : ℝ) = _
  generalize estimate23 z = e
  push_cast
  ring

/-- Statement of C23: a source comes out of a joint run as it comes out of a run in which it is alone. -/
def Spec.Independent (F : Type) [PyMath F] : Prop :=
  ∀ (x : Ext F) (cfg : Config F) (filter : Source F → Matrix F → Except PyErr (Matrix F)) (procs : List Job) (working : Matrix F) (w : World F)
    (d d' : List (Source F)), Named cfg.processingJobs procs → Processed x cfg filter procs working w d d' →
      List.Forall₂ (fun s s' => Processed x cfg filter procs working w [s] [s']) d d'

/-- The world after source `i`. -/
noncomputable def step23 (w : World ℝ) (d : List (Source ℝ)) (i : Nat) (p : ℝ × ℝ) : World ℝ :=
  { w with pos := w.pos + 4, ctx := { w.ctx with smDefinitions := some (d.modify i (withMaxMag p)) } }

/-- The world at the turn of source `i`. -/
noncomputable def turn23 (pos : Nat) (d : List (Source ℝ)) (i : Nat) : World ℝ :=
  ⟨fun _ => none, pos, { smDefinitions := some d, curSm := some i, currentFilteredEq := some matrix23 }⟩

/-- The processing of one source. -/
theorem run23 (pos : Nat) (d : List (Source ℝ)) (i : Nat) (hi : i < d.length) (z : ℝ) (hz : 0 ≤ z) (hr : ∀ j < 2, ∀ k < 2, x23.normal (pos + j * 2 + k) = z) :
    ∃ s, runPipeline x23 config23 [.maximumMagnitude] (turn23 pos d i) = some ⟨none, step23 (turn23 pos d i) d i (estimate23 z, s)⟩ := by
  obtain ⟨s, hs⟩ := cumMo23 z hz (fun j k => x23.normal (pos + j * rows23.length + k)) (fun j hj k hk => hr j hj k hk)
  refine ⟨s, ?_⟩
  simp only [runPipeline, runJob, maximumMagnitudeJob, turn23, attr, matrix23, Matrix.cols, bind, Except.bind, Bool.false_eq_true, if_false, section_, config23, analysis,
    show ¬ ("Cumulative_Moment" = "Kijko_Npg") by decide, if_true, hs, drawn, updateCurrent, notNone, if_pos hi]
  rfl

/-- **C23 fails**: two copies of the same source get different maximum magnitudes. -/
theorem C23_fails : ¬ Spec.Independent ℝ := by
  intro H
  let s0 : Source ℝ := { area := defaultAreaSource }
  let w : World ℝ := ⟨fun _ => none, 0, {}⟩
  have one : ∀ s', Processed x23 config23 nullFilter [.maximumMagnitude] matrix23 w [s0] [s'] → s'.area.rate.tgr.maxMagnitude = estimate23 0 := by
    rintro s' ⟨w', h1, h2⟩
    obtain ⟨s, hs⟩ := run23 0 [s0] 0 (by simp) 0 le_rfl (fun j hj k hk => if_pos (by omega))
    have h3 : processSources x23 config23 nullFilter [.maximumMagnitude] matrix23 (List.range 1) { w with ctx := { w.ctx with smDefinitions := some [s0] } } =
        andThen (runPipeline x23 config23 [.maximumMagnitude] (turn23 0 [s0] 0)) fun w => some ⟨none, w⟩ := rfl
    rw [hs] at h3
    have h4 := h1.symm.trans h3
    simp only [andThen, Option.some.injEq, Outcome.mk.injEq, true_and] at h4
    rw [h4] at h2
    have h5 := List.head_eq_of_cons_eq (Option.some.inj h2)
    rw [← h5]
    rfl
  obtain ⟨s, hs⟩ := run23 0 [s0, s0] 0 (by simp) 0 le_rfl (fun j hj k hk => if_pos (by omega))
  obtain ⟨t, ht⟩ := run23 4 [withMaxMag (estimate23 0, s) s0, s0] 1 (by simp) 1 zero_le_one (fun j hj k hk => if_neg (by omega))
  have joint : Processed x23 config23 nullFilter [.maximumMagnitude] matrix23 w [s0, s0]
      [withMaxMag (estimate23 0, s) s0, withMaxMag (estimate23 1, t) s0] := by
    refine ⟨step23 (turn23 4 [withMaxMag (estimate23 0, s) s0, s0] 1) [withMaxMag (estimate23 0, s) s0, s0] 1 (estimate23 1, t), ?_, rfl⟩
    have h3 : processSources x23 config23 nullFilter [.maximumMagnitude] matrix23 (List.range 2) { w with ctx := { w.ctx with smDefinitions := some [s0, s0] } } =
        andThen (runPipeline x23 config23 [.maximumMagnitude] (turn23 0 [s0, s0] 0)) (processSources x23 config23 nullFilter [.maximumMagnitude] matrix23 [1]) := rfl
    refine h3.trans ?_
    rw [hs]
    have h4 : processSources x23 config23 nullFilter [.maximumMagnitude] matrix23 [1] (step23 (turn23 0 [s0, s0] 0) [s0, s0] 0 (estimate23 0, s)) =
        andThen (runPipeline x23 config23 [.maximumMagnitude] (turn23 4 [withMaxMag (estimate23 0, s) s0, s0] 1)) fun w => some ⟨none, w⟩ := rfl
    refine h4.trans ?_
    rw [ht]
    rfl
  have := H x23 config23 nullFilter [.maximumMagnitude] matrix23 w [s0, s0] _ (.cons (by simp [documented]) .nil) joint
  simp only [List.forall₂_cons, List.forall₂_nil_left_iff, and_true] at this
  have h2 := one _ this.2
  have h3 : estimate23 1 = estimate23 0 := h2
  have h4 := estimate_lt (5 + 0) (5 + 1) 4 (by norm_num) (by norm_num)
  unfold estimate23 at h3
  rw [h3] at h4
  exact lt_irrefl _ h4

end Verif.Workflow
