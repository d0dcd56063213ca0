import Verif.Props.IndependenceExamples
import Verif.Props.WholeRun
import Verif.Props.KijkoExamples
import Verif.Props.Outcomes
import Verif.Props.KijkoOrder

/-!
# C149: the magnitude range of the written sources
-/

namespace Verif.Workflow

open Verif Verif.EqCatalog Verif.Csv Verif.Nrml Verif.Declustering Verif.Recurrence Verif.MaxMag Spec

namespace Spec

/-- The magnitudes lie within five smoothing widths of those used for the smoothing (the largest `neq`). -/
def Narrow (mags : List ℝ) (neq : ℕ) : Prop :=
  ∃ h, hSmooth (largest mags neq).1 = .ok h ∧ 0 < h ∧ ∀ g ∈ mags, ∀ g' ∈ (largest mags neq).1, g - g' ≤ 5 * h

/-- The magnitude range is not empty. -/
def RangeOk (t : AreaSource ℝ) : Prop := t.rate.tgr.minMagnitude ≤ t.rate.tgr.maxMagnitude

end Spec

/-- **C149**, for the Kijko algorithm (Missing from the full claim: catalogues that do not lie within five smoothing widths, and the cumulative moments, for which it fails:
`C149_fails`): a run with the jobs `Recurrence` and `MaximumMagnitude` that ends without exception writes sources whose magnitude range is not empty, for each source that
has an event at or above the reference magnitude and whose magnitudes lie within five smoothing widths. -/
theorem C149_range_partial (x : Ext ℝ) (cfg : Config ℝ) (fs : Text → Option Content) (pos : Nat) (w' : World ℝ) (hp : cfg.applyProcessing = true)
    (hjobs : ∀ n ∈ cfg.processingJobs, n = "Recurrence" ∨ n = "MaximumMagnitude") (hr : "Recurrence" ∈ cfg.processingJobs)
    (hm : "MaximumMagnitude" ∈ cfg.processingJobs) (r : RecurrenceConfig ℝ) (hcr : cfg.recurrence = some r) (c : MaxMagConfig ℝ) (hcm : cfg.maximumMagnitude = some c)
    (hk : c.algorithm = "Kijko_Npg") (n : ℕ) (hn : 2 ≤ n) (hs : c.nsamp = n) (h : main x cfg fs pos = some ⟨none, w'⟩) :
    ∃ pre w0 working inputs finals doc, buildPreprocessing cfg = .ok pre ∧ Chain (Succeeds x cfg) pre ⟨fs, pos, {}⟩ w0 ∧
      w0.ctx.workingCatalog = some working ∧ InputSources x cfg fs inputs ∧ w'.fs cfg.resultFile = some (.xml doc) ∧ serialize x.nums finals = .ok doc ∧
      List.Forall₂ (fun s t => ∃ rows, OwnEvents x cfg s working.rows rows ∧
        (Narrow (rows.map fun e => e 5) c.neq → (∃ e ∈ rows, r.referenceMagnitude ≤ e 5) → RangeOk t)) inputs finals := by
  obtain ⟨pre, w0, working, inputs, finals, doc, h1, h2, h3, h4, h5, h6, h7⟩ := C141_results x cfg fs pos w' hp hjobs h
  refine ⟨pre, w0, working, inputs, finals, doc, h1, h2, h3, h4, h5, h6, h7.imp ?_⟩
  rintro s t ⟨rows, ho, ha⟩
  refine ⟨rows, ho, ?_⟩
  rintro ⟨hf, k1, k2, k3⟩ ⟨e, he, hle⟩
  obtain ⟨r', tb, g, e1, -, -, -, -, e2⟩ := ha.recurrence hr
  obtain ⟨c', p, q, e3, e4, e5⟩ := ha.maximum hm
  rw [hcr] at e1
  cases e1
  rw [hcm] at e3
  cases e3
  simp only [analysis, hk, if_true, hs] at e4
  have hmag : (List.map (fun r : Row ℝ => (⟨r 0, r 5, r 6⟩ : MEvent ℝ)) rows).map MEvent.mag = rows.map fun e => e 5 := by simp [Function.comp_def]
  rw [hmag] at e4
  unfold RangeOk
  rw [e2, e5]
  exact hle.trans ((C70_not_below_observed_partial hn (by rw [e4])).2 hf k1 k2 k3 _ (List.mem_map_of_mem he))

/-- The run with both analyses. -/
theorem both132 {ref : ℝ} {m : MaxMagConfig ℝ} {r : ℝ × ℝ} {q : ℕ}
    (hr : MaxOk x31 (configOf132 ["Recurrence", "MaximumMagnitude"] ref m) ⟨rows132, false⟩ 0 (withMaxMag r) q) :
    ∃ (g : GR ℝ) (w : World ℝ), main x31 (configOf132 ["Recurrence", "MaximumMagnitude"] ref m) fs132 0 = some ⟨none, w⟩ ∧
      w.ctx.smDefinitions = some [(withMaxMag r ∘ withRecurrence ref g) { area := defaultAreaSource }] := by
  obtain ⟨g, hg⟩ := recurrence132 ref
  have n1 : Named ["MaximumMagnitude"] [.maximumMagnitude] := .cons (by simp [documented]) .nil
  have n3 : Named ["Recurrence", "MaximumMagnitude"] [.recurrence, .maximumMagnitude] := .cons (by simp [documented]) n1
  obtain ⟨w, h⟩ := run132 (ref := ref) (m := m) n3 (withMaxMag r ∘ withRecurrence ref g) ⟨rfl, rfl, rfl, rfl, rfl, rfl, rfl, rfl, rfl, rfl, rfl, rfl⟩ fun w a1 a2 a3 a4 a5 =>
    ⟨q, .cons _ _ _ _ _ (recurrenceJob_ok.2 ⟨0, _, _, _, a2, a1, by simp, a3, by rw [a4]; exact hg _ _, rfl⟩)
      (.cons _ _ _ _ _ (maximumMagnitudeJob_ok.2 ⟨0, _, _, _, q, a2, rfl, by simp, a3, by
        show MaxOk _ _ _ w.pos _ _
        rw [a5]; exact hr, by simp [World.setSource]⟩) (.nil _))⟩
  exact ⟨g, w, h⟩

/-- The estimate from the two events is below the larger of them. -/
theorem moments_below : (2.0 / 3.0 : ℝ) * (Real.logb 10 ((MaxMag.Spec.moment 6 - MaxMag.Spec.moment 5) / 2) - 9.05) < 6 := by
  have h6 : 0 < MaxMag.Spec.moment 6 := Real.rpow_pos_of_pos (by norm_num) _
  have h5 : 0 < MaxMag.Spec.moment 5 := Real.rpow_pos_of_pos (by norm_num) _
  have h56 : MaxMag.Spec.moment 5 < MaxMag.Spec.moment 6 := Real.rpow_lt_rpow_of_exponent_lt (by norm_num) (by norm_num)
  have : Real.logb 10 ((MaxMag.Spec.moment 6 - MaxMag.Spec.moment 5) / 2) < 9.05 + 1.5 * 6 := by
    rw [Real.logb_lt_iff_lt_rpow (by norm_num) (by linarith)]
    show _ < MaxMag.Spec.moment 6
    linarith
  norm_num at this ⊢
  linarith

/-- **C149 is false of the code**: with cumulative moments, two events of magnitudes 6 and 5 and the reference magnitude 6 the written minimum magnitude is larger than the
written maximum magnitude. -/
theorem C149_fails : ¬ ∀ (x : Ext ℝ) (cfg : Config ℝ) (fs : Text → Option Content) (pos : Nat) (w' : World ℝ), cfg.applyProcessing = true →
    cfg.processingJobs = ["Recurrence", "MaximumMagnitude"] → main x cfg fs pos = some ⟨none, w'⟩ →
    ∀ defs, w'.ctx.smDefinitions = some defs → ∀ d ∈ defs, RangeOk d.area := by
  intro hall
  obtain ⟨r, hr1, hr⟩ := maximum132
  obtain ⟨g, w, h1, h2⟩ := both132 (hr _ 6)
  have := hall x31 _ _ 0 w rfl rfl h1 _ h2 _ (List.mem_singleton.2 rfl)
  change (6 : ℝ) ≤ r.1 at this
  rw [hr1] at this
  exact absurd moments_below (not_lt.2 this)

/-- **C149 is false of the code** also when no maximum magnitude is computed: with the default source, whose maximum magnitude is 0, the recurrence alone gives an empty
magnitude range. -/
theorem C149_recurrence_only_fails : ¬ ∀ (x : Ext ℝ) (cfg : Config ℝ) (fs : Text → Option Content) (pos : Nat) (w' : World ℝ), cfg.applyProcessing = true →
    cfg.processingJobs = ["Recurrence"] → main x cfg fs pos = some ⟨none, w'⟩ →
    ∀ defs, w'.ctx.smDefinitions = some defs → ∀ d ∈ defs, RangeOk d.area := by
  intro hall
  obtain ⟨g, hg⟩ := recurrence132 4
  have n2 : Named ["Recurrence"] [.recurrence] := .cons (by simp [documented]) .nil
  obtain ⟨w, h1, h2⟩ := run132 (ref := 4) (m := moments132) n2 (withRecurrence 4 g) ⟨rfl, rfl, rfl, rfl, rfl, rfl, rfl, rfl, rfl, rfl, rfl, rfl⟩ fun w a1 a2 a3 a4 a5 =>
    ⟨w.pos, .cons _ _ _ _ _ (recurrenceJob_ok.2 ⟨0, _, _, _, a2, a1, by simp, a3, by rw [a4]; exact hg _ _, rfl⟩) (.nil _)⟩
  have := hall x31 _ _ 0 w rfl rfl h1 _ h2 _ (List.mem_singleton.2 rfl)
  change (4 : ℝ) ≤ (defaultAreaSource : AreaSource ℝ).rate.tgr.maxMagnitude at this
  norm_num [defaultAreaSource] at this

theorem quartiles149 : mquantile [(6 : ℝ), 5] 0.25 = .ok 5 ∧ mquantile [(6 : ℝ), 5] 0.75 = .ok 6 := by
  have hs : npSort [(6 : ℝ), 5] = [5, 6] := by
    rw [← npSort_of_sorted (l := [(5 : ℝ), 6]) (by norm_num)]
    exact npSort_congr (List.Perm.swap _ _ _)
  constructor
  · unfold mquantile
    simp only [hs]
    have e1 : clip (((2 : ℕ) : ℝ) * 0.25 + (0.4 + 0.25 * (((1 : ℕ) : ℝ) - 0.4 - 0.4))) ((1 : ℕ) : ℝ) ((2 - 1 : ℕ) : ℝ) = 1 := by
      simp only [clip]; norm_num
    simp only [List.length_cons, List.length_nil, zero_add, Nat.reduceAdd, e1, floorZ_real]
    simp [clip]
    norm_num
  · unfold mquantile
    simp only [hs]
    have e1 : clip (((2 : ℕ) : ℝ) * 0.75 + (0.4 + 0.75 * (((1 : ℕ) : ℝ) - 0.4 - 0.4))) ((1 : ℕ) : ℝ) ((2 - 1 : ℕ) : ℝ) = 1 := by
      simp only [clip]; norm_num
    simp only [List.length_cons, List.length_nil, zero_add, Nat.reduceAdd, e1, floorZ_real]
    simp [clip]
    norm_num

/-- The Kijko settings. -/
noncomputable def kijko149 : MaxMagConfig ℝ := ⟨"Kijko_Npg", 0.1, 10, 10, ((10 : ℕ) : ℝ), 2⟩

/-- Non-vacuity of C149: a run with the Kijko algorithm that ends without exception, on events that lie within five smoothing widths. -/
example : (∃ w, main x31 (configOf132 ["Recurrence", "MaximumMagnitude"] 4 kijko149) fs132 0 = some ⟨none, w⟩) ∧
    Narrow (rows132.map fun e => e 5) kijko149.neq ∧ ∃ e ∈ rows132, (4 : ℝ) ≤ e 5 := by
  refine ⟨?_, ?_, ⟨_, List.mem_cons_self, by simp; norm_num⟩⟩
  · obtain ⟨q, hq⟩ := (C138_kijko (yearMagSigma rows132) (cfg := kijko149) rfl (fun i k => x31.normal (0 + i * rows132.length + k))).2.2.2.2
      (by simp [yearMagSigma, rows132]) (by norm_num [kijko149]) (by norm_num [kijko149]) (by norm_num [kijko149])
    obtain ⟨g, w, h, -⟩ := both132 (ref := 4) (m := kijko149) (r := q) (q := 0) ⟨rows132, _, q, rfl, rfl, by
      rw [hq _ (by show 10 < x31.fuel; exact by decide)], rfl, by simp [drawn, kijko149]⟩
    exact ⟨w, h⟩
  · have e : (rows132.map fun e => e 5) = [(6 : ℝ), 5] := rfl
    rw [e]
    have hl : (largest [(6 : ℝ), 5] kijko149.neq).1 = [6, 5] := by simp [largest, kijko149]
    obtain ⟨h, hok⟩ := hSmooth_succeeds (l := [(6 : ℝ), 5]) (by simp)
    have hA := (C71_silverman_partial quartiles149.1 quartiles149.2 hok).1
    have a := abs_round2 (0.9 * ((6 - 5) / 1.34) * (([(6 : ℝ), 5].length : ℕ) : ℝ) ^ (-1 / 5 : ℝ))
    rw [← hA] at a
    have ht : (0.7 : ℝ) ≤ (([(6 : ℝ), 5].length : ℕ) : ℝ) ^ (-1 / 5 : ℝ) := by
      simp only [List.length_cons, List.length_nil, zero_add, Nat.reduceAdd]
      have : (0.7 : ℝ) = ((0.7 : ℝ) ^ (5 : ℝ)) ^ (1 / 5 : ℝ) := by rw [← Real.rpow_mul (by norm_num)]; norm_num
      rw [this, show (-1 / 5 : ℝ) = -(1 / 5) by norm_num, Real.rpow_neg (by norm_num), ← Real.inv_rpow (by norm_num)]
      refine Real.rpow_le_rpow (by positivity) ?_ (by norm_num)
      norm_num
    generalize (([(6 : ℝ), 5].length : ℕ) : ℝ) ^ (-1 / 5 : ℝ) = t at *
    rw [abs_le] at a
    norm_num at a ht
    refine ⟨h, by rw [hl]; exact hok, by linarith [a.1], ?_⟩
    rw [hl]
    intro g hg g' hg'
    simp only [List.mem_cons, List.not_mem_nil, or_false] at hg hg'
    rcases hg with rfl | rfl <;> rcases hg' with rfl | rfl <;> linarith [a.1]

end Verif.Workflow
