import Verif.Props.Chaining
import Verif.Props.Table
import Verif.Props.Recurrence

/-!
# C31: processing right away, or storing and processing in a second run
-/

namespace Verif.Recurrence

open Verif Verif.Np

/-- An event before the completeness year and below the magnitude of some row of the table. -/
def Spec.Excluded (table : List (ℝ × ℝ)) (e : ℝ × ℝ) : Prop := ∃ c ∈ table, e.1 < c.1 ∧ e.2 < c.2

/-- A table of numbers with at most five decimals. -/
def Spec.FiveDecimals (table : List (ℝ × ℝ)) : Prop := ∀ r ∈ table, (∃ z : ℤ, r.1 = z / 10 ^ 5) ∧ ∃ z : ℤ, r.2 = z / 10 ^ 5

/-- Later completeness years belong to smaller magnitudes. -/
def Spec.Decreasing (table : List (ℝ × ℝ)) : Prop := ∀ r ∈ table, ∀ r' ∈ table, r.1 < r'.1 → r'.2 < r.2

open Spec

open scoped Classical in
/-- The events that survive the completeness check. -/
noncomputable def complete (table ev : List (ℝ × ℝ)) : List (ℝ × ℝ) := ev.filter fun e => decide (¬ Excluded table e)

theorem five_lt {a b : ℝ} (ha : ∃ z : ℤ, a = z / 10 ^ 5) (hb : ∃ z : ℤ, b = z / 10 ^ 5) (h : a < b) : a + 1e-5 ≤ b := by
  obtain ⟨y, rfl⟩ := ha
  obtain ⟨z, rfl⟩ := hb
  have h1 : (y : ℝ) < z := by
    rwa [div_lt_div_iff_of_pos_right (by positivity)] at h
  have h2 : ((y + 1 : ℤ) : ℝ) ≤ z := by exact_mod_cast h1
  push_cast at h2
  have : (y : ℝ) / 10 ^ 5 + 1e-5 = (y + 1) / 10 ^ 5 := by norm_num; ring
  rw [this]
  gcongr

theorem periodEvents_complete {table ev : List (ℝ × ℝ)} (h5 : FiveDecimals table) (hd : Decreasing table) {r : ℝ × ℝ} (hr : r ∈ table) {mc : ℝ}
    (hm : npMin (groupOf table r.1) = .ok mc) : periodEvents (complete table ev) r.1 mc = periodEvents ev r.1 mc := by
  classical
  unfold periodEvents complete
  rw [List.filter_filter]
  apply List.filter_congr
  intro e _
  by_cases hp : e.1 ≥ r.1 ∧ e.2 ≥ mc - 1e-5
  · have hne : ¬ Excluded table e := by
      rintro ⟨c, hc, h1, h2⟩
      have hmem := (npMin_ok hm).1
      simp only [groupOf, Set.mem_ofPred_eq, List.mem_map, List.mem_filter, decide_eq_true_eq] at hmem
      obtain ⟨r', ⟨hr', hy⟩, hmc⟩ := hmem
      have hyr : r'.1 = r.1 := by
        have hy' : |r'.1 - r.1| < 1e-5 := by rw [← npAbs_real]; exact hy
        rw [abs_lt] at hy'
        rcases lt_trichotomy r'.1 r.1 with h | h | h
        · have := five_lt (h5 r' hr').1 (h5 r hr).1 h; linarith [hy'.1]
        · exact h
        · have := five_lt (h5 r hr).1 (h5 r' hr').1 h; linarith [hy'.2]
      have h3 := hd r' hr' c hc (by rw [hyr]; exact lt_of_le_of_lt hp.1 h1)
      have h4 := five_lt (h5 c hc).2 (h5 r' hr').2 h3
      rw [hmc] at h4
      linarith [hp.2]
    simp [hne]
  · have : (decide (e.1 ≥ r.1) && decide (e.2 ≥ mc - 1e-5)) = false := by
      rw [Bool.and_eq_false_iff]
      simp only [decide_eq_false_iff_not]
      tauto
    rw [this, Bool.false_and]

theorem periods_complete {table ev : List (ℝ × ℝ)} (h5 : FiveDecimals table) (hd : Decreasing table) (dmag ref : ℝ) (i : ℕ) :
    periods (complete table ev) table dmag ref i = periods ev table dmag ref i := by
  induction hn : table.length - i using Nat.strong_induction_on generalizing i with
  | _ n ih =>
    unfold periods
    split
    · rename_i hi
      simp only
      split
      · rfl
      · rename_i hg
        have hp : period (complete table ev) dmag ref table[i].1 (groupOf table table[i].1) = period ev dmag ref table[i].1 (groupOf table table[i].1) := by
          unfold period
          cases hm : npMin (groupOf table table[i].1) with
          | error e => rfl
          | ok mc =>
            simp only [bind, Except.bind]
            rw [periodEvents_complete h5 hd (List.getElem_mem hi) hm]
        rw [hp, ih (table.length - (i + (groupOf table table[i].1).length)) (by omega) _ rfl]
    · rfl

/-- The maximum likelihood method does not see the events that the completeness check removes. -/
theorem bMaxlikeTime_complete {table ev : List (ℝ × ℝ)} (h5 : FiveDecimals table) (hd : Decreasing table) (dmag ref : ℝ) :
    bMaxlikeTime (complete table ev) table dmag ref = bMaxlikeTime ev table dmag ref := by
  unfold bMaxlikeTime
  rw [periods_complete h5 hd]

theorem analysis_nil (table : List (ℝ × ℝ)) (dmag : ℝ) (alg : String) (ref dt : ℝ) (fuel : ℕ) (g : Option (GR ℝ)) :
    recurrenceAnalysis [] table dmag alg ref dt fuel ≠ .ok g := by
  intro h
  unfold recurrenceAnalysis at h
  split_ifs at h
  · simp [weichertPrep, cells, npMin, bind, Except.bind] at h
  · have hp : ∀ ps, periods ([] : List (ℝ × ℝ)) table dmag ref 0 = .ok ps → ps = [] := by
      intro ps hp
      unfold periods at hp
      split at hp
      · simp only at hp
        split at hp
        · cases hp
        · exfalso
          unfold period periodEvents at hp
          cases hm : npMin (groupOf table table[0].1) with
          | error e => simp [hm, bind, Except.bind] at hp
          | ok mc => simp [hm, bind, Except.bind, npMax] at hp
      · cases hp; rfl
    unfold bMaxlikeTime at h
    cases hps : periods ([] : List (ℝ × ℝ)) table dmag ref 0 with
    | error e => simp [hps, bind, Except.bind] at h
    | ok ps =>
      rw [hp ps hps] at hps
      simp [hps, bind, Except.bind, throw, throwThe, MonadExceptOf.throw] at h

theorem analysis_no_table (ev : List (ℝ × ℝ)) (dmag : ℝ) (alg : String) (ref dt : ℝ) (fuel : ℕ) (g : Option (GR ℝ)) :
    recurrenceAnalysis ev [] dmag alg ref dt fuel ≠ .ok g := by
  intro h
  unfold recurrenceAnalysis at h
  split_ifs at h with h0
  · obtain ⟨w, hw, -⟩ := Nrml.bind_ok h
    unfold weichertPrep at hw
    obtain ⟨c, hc, hw⟩ := Nrml.bind_ok hw
    have hnm : 0 < c.nm := by
      unfold cells at hc
      obtain ⟨y0, -, hc⟩ := Nrml.bind_ok hc
      obtain ⟨y1, -, hc⟩ := Nrml.bind_ok hc
      by_cases h1 : PyNum.decEq dt 0 = true
      · simp [h1, bind, Except.bind, throw, throwThe, MonadExceptOf.throw] at hc
      simp only [h1, Bool.false_eq_true, if_false] at hc
      obtain ⟨m0, -, hc⟩ := Nrml.bind_ok hc
      obtain ⟨m1, -, hc⟩ := Nrml.bind_ok hc
      by_cases h2 : PyNum.decEq dmag 0 = true
      · simp [h2, bind, Except.bind, throw, throwThe, MonadExceptOf.throw] at hc
      simp only [h2, Bool.false_eq_true, if_false] at hc
      split at hc
      · cases hc
      · cases hc
        simp only
        omega
    obtain ⟨k, hk⟩ := Nat.exists_eq_succ_of_ne_zero hnm.ne'
    rw [hk, List.range_succ_eq_map, List.mapM_cons] at hw
    simp [Cells.tPer, bind, Except.bind] at hw
  · unfold bMaxlikeTime periods at h
    simp [bind, Except.bind, throw, throwThe, MonadExceptOf.throw] at h

/-- For one set of events: the analysis gives the same after the completeness check. -/
theorem analysis_complete {table ev : List (ℝ × ℝ)} {dmag : ℝ} {alg : String} {ref dt : ℝ} {fuel : ℕ}
    (h : (FiveDecimals table ∧ Decreasing table ∧ alg ≠ "Weichert") ∨ ∀ e ∈ ev, ¬ Excluded table e) :
    recurrenceAnalysis (complete table ev) table dmag alg ref dt fuel = recurrenceAnalysis ev table dmag alg ref dt fuel := by
  classical
  rcases h with ⟨h5, hd, ha⟩ | h
  · unfold recurrenceAnalysis
    rw [if_neg ha, if_neg ha, bMaxlikeTime_complete h5 hd]
  · have : complete table ev = ev := by
      unfold complete
      rw [List.filter_eq_self]
      intro e he
      simpa using h e he
    rw [this]

end Verif.Recurrence

namespace Verif.Workflow

open Verif Verif.EqCatalog Verif.Csv Verif.Nrml Verif.Declustering Verif.Recurrence Spec

section
variable {F : Type} [PyMath F]

/-! ### What the jobs leave alone -/

/-- The jobs that a configuration can name leave the entries alone, and write to two files only. -/
theorem named_writes {x : Ext F} {cfg : Config F} {w w' : World F} {n : String} {j : Job} (hn : (n, j) ∈ documented)
    (h : Succeeds x cfg j w w') :
    w'.ctx.eqCatalog = w.ctx.eqCatalog ∧ ∀ q, cfg.pprocessingResultFile ≠ some q → cfg.completenessTableFile ≠ some q → w'.fs q = w.fs q := by
  unfold Succeeds at h
  cases j with
  | gardnerKnopoff =>
    simp only [runJob, Option.some.injEq] at h
    unfold gardnerKnopoffJob at h
    obtain ⟨_, -, h⟩ := bind_ok h
    obtain ⟨_, -, h⟩ := bind_ok h
    obtain ⟨_, -, h⟩ := bind_ok h
    obtain ⟨_, -, h⟩ := bind_ok h
    cases h
    exact ⟨rfl, fun _ _ _ => rfl⟩
  | afteran =>
    simp only [runJob, Option.some.injEq] at h
    unfold afteranJob at h
    obtain ⟨_, -, h⟩ := bind_ok h
    obtain ⟨_, -, h⟩ := bind_ok h
    obtain ⟨_, -, h⟩ := bind_ok h
    obtain ⟨_, -, h⟩ := bind_ok h
    cases h
    exact ⟨rfl, fun _ _ _ => rfl⟩
  | readSourceModel => simp [documented] at hn
  | createDefaultSourceModel => simp [documented] at hn
  | readEqCatalog => simp [documented] at hn
  | createCatalogMatrix => simp [documented] at hn
  | createDefaultValues => simp [documented] at hn
  | recurrence =>
    obtain ⟨i, d, m, f, hi, hd, hl, -, -, rfl⟩ := recurrenceJob_ok.1 h
    exact ⟨rfl, fun _ _ _ => rfl⟩
  | maximumMagnitude =>
    obtain ⟨i, d, m, f, p', hi, hd, hl, -, -, rfl⟩ := maximumMagnitudeJob_ok.1 h
    exact ⟨rfl, fun _ _ _ => rfl⟩
  | stepp =>
    simp only [runJob, Option.some.injEq] at h
    unfold steppJob at h
    obtain ⟨_, -, h⟩ := bind_ok h
    obtain ⟨_, -, h⟩ := bind_ok h
    obtain ⟨_, -, h⟩ := bind_ok h
    obtain ⟨_, -, h⟩ := bind_ok h
    cases h
    exact ⟨rfl, fun _ _ _ => rfl⟩
  | createSelectedEqVector =>
    simp only [runJob, Option.some.injEq] at h
    unfold createSelectedEqVectorJob at h
    obtain ⟨_, -, h⟩ := bind_ok h
    obtain ⟨_, -, h⟩ := bind_ok h
    obtain ⟨_, -, h⟩ := bind_ok h
    obtain ⟨_, -, h⟩ := bind_ok h
    obtain ⟨_, -, h⟩ := bind_ok h
    cases h
    exact ⟨rfl, fun _ _ _ => rfl⟩
  | storePreprocessedCatalog =>
    simp only [runJob, Option.some.injEq] at h
    unfold storePreprocessedCatalogJob at h
    simp only at h
    split at h
    · rename_i p hp
      obtain ⟨_, h1, h⟩ := bind_ok h
      obtain ⟨p', h2, h⟩ := bind_ok h
      obtain ⟨_, -, h⟩ := bind_ok h
      obtain ⟨_, -, h⟩ := bind_ok h
      obtain ⟨_, -, h⟩ := bind_ok h
      obtain ⟨_, -, h⟩ := bind_ok h
      cases h
      cases h1
      unfold mkWriter at h2
      split_ifs at h2
      cases h2
      refine ⟨rfl, fun q h1 h2 => if_neg ?_⟩
      rintro rfl
      exact h1 hp
    · cases h
  | storeCompletenessTable =>
    simp only [runJob, Option.some.injEq] at h
    unfold storeCompletenessTableJob at h
    simp only at h
    split at h
    · rename_i p hp
      obtain ⟨_, h1, h⟩ := bind_ok h
      obtain ⟨_, -, h⟩ := bind_ok h
      obtain ⟨_, -, h⟩ := bind_ok h
      cases h
      cases h1
      refine ⟨rfl, fun q h1 h2 => if_neg ?_⟩
      rintro rfl
      exact h2 hp
    · cases h
  | retrieveCompletenessTable =>
    simp only [runJob, Option.some.injEq] at h
    unfold retrieveCompletenessTableJob at h
    obtain ⟨_, -, h⟩ := bind_ok h
    split at h
    · cases h
    · cases h
    · obtain ⟨_, -, h⟩ := bind_ok h
      cases h
      exact ⟨rfl, fun _ _ _ => rfl⟩

/-! ### The compulsory jobs -/

/-- The world after the compulsory jobs. -/
def prepared (fs : Text → Option Content) (pos : Nat) (es : List (Entry F)) (d : List (Source F)) (rows : List (Row F)) (my mm : F) : World F where
  fs := fs
  pos := pos
  ctx := {
    eqCatalog := some es
    smDefinitions := some d
    catalogMatrix := some ⟨rows, false⟩
    workingCatalog := some ⟨rows, false⟩
    completenessTable := some [(my, mm)]
    flagVector := some (List.replicate rows.length 0) }

/-- The job that fetches the sources. -/
noncomputable def sourceJob (cfg : Config F) : Job := by
  classical exact if Configured cfg.sourceModelFile then .readSourceModel else .createDefaultSourceModel

theorem sourceJob_ok {x : Ext F} {cfg : Config F} {w w' : World F} (h0 : w.ctx.smDefinitions = none) :
    Succeeds x cfg (sourceJob cfg) w w' ↔ ∃ inputs, InputSources x cfg w.fs inputs ∧ inputs ≠ [] ∧
      w' = { w with ctx := { w.ctx with smDefinitions := some (inputs.map fun a => { area := a }) } } := by
  unfold Succeeds sourceJob
  by_cases hc : Configured cfg.sourceModelFile
  · rw [if_pos hc]
    simp only [runJob, Option.some.injEq]
    constructor
    · intro h
      obtain ⟨path, hpath, hne⟩ := hc
      unfold readSourceModelJob at h
      obtain ⟨doc, hdoc, h⟩ := bind_ok h
      obtain ⟨areas, hareas, h⟩ := bind_ok h
      obtain ⟨defs, hdefs, h⟩ := bind_ok h
      rw [notNone_ok] at hdefs
      have hne' : areas ≠ [] := by
        rintro rfl
        simp only [List.isEmpty_nil, if_true, h0] at hdefs
        cases hdefs
      refine ⟨areas, .inl ⟨path, doc, hne, hpath, ?_, hareas⟩, hne', ?_⟩
      · rw [hpath, Option.getD_some] at hdoc
        unfold document at hdoc
        split at hdoc
        · cases hdoc
        · next he => cases hdoc; exact .inl he
        · next t ht =>
          split at hdoc
          · next he => cases hdoc; exact .inr ⟨t, ht, he⟩
          · cases hdoc
      · cases h
        simp only [List.isEmpty_iff, hne', if_false]
    · rintro ⟨inputs, ⟨path, doc, hne, hpath, hf, hr⟩ | ⟨hn, -⟩, hne', rfl⟩
      · have hdoc : document x w path = .ok doc := by
          unfold document
          rcases hf with hf | ⟨t, hf, hp⟩
          · rw [hf]
          · rw [hf]; simp only [hp]
        unfold readSourceModelJob
        rw [hpath, Option.getD_some, hdoc]
        simp only [bind, Except.bind, hr, List.isEmpty_iff, hne', if_false, notNone]
      · exact absurd hc hn
  · rw [if_neg hc]
    simp only [runJob, Option.some.injEq, createDefaultSourceModelJob, Except.ok.injEq]
    constructor
    · rintro rfl
      exact ⟨[defaultAreaSource], .inr ⟨hc, rfl⟩, by simp, rfl⟩
    · rintro ⟨inputs, ⟨path, _, hne, hpath, -⟩ | ⟨-, rfl⟩, -, rfl⟩
      · exact absurd ⟨path, hpath, hne⟩ hc
      · rfl

/-- The compulsory jobs of a configuration. -/
noncomputable def compulsoryJobs (cfg : Config F) : List Job := [.readEqCatalog, sourceJob cfg, .createCatalogMatrix, .createDefaultValues]

theorem compulsory_iff (x : Ext F) (cfg : Config F) (fs : Text → Option Content) (pos : Nat) (w : World F) :
    Chain (Succeeds x cfg) (compulsoryJobs cfg) ⟨fs, pos, {}⟩ w ↔
      ∃ file es inputs rows my mm, fs cfg.eqCatalogFile = some (.text file) ∧ readCatalogFile x.env x.ord file = .ok es ∧
        InputSources x cfg fs inputs ∧ inputs ≠ [] ∧ es.mapM matrixRow = .ok rows ∧ rows ≠ [] ∧
        Np.npMin (rows.map fun r => r 0) = .ok my ∧ Np.npMin (rows.map fun r => r 5) = .ok mm ∧
        w = prepared fs pos es (inputs.map fun a => { area := a }) rows my mm := by
  unfold compulsoryJobs
  constructor
  · rintro (_ | ⟨_, _, _, w1, _, h1, _ | ⟨_, _, _, w2, _, h2, _ | ⟨_, _, _, w3, _, h3, _ | ⟨_, _, _, w4, _, h4, _ | _⟩⟩⟩⟩)
    simp only [Succeeds, runJob, Option.some.injEq] at h1
    unfold readEqCatalogJob at h1
    simp only at h1
    split at h1
    · cases h1
    · cases h1
    · rename_i file hfile
      obtain ⟨es, hes, h1⟩ := bind_ok h1
      cases h1
      obtain ⟨inputs, hi, hine, rfl⟩ := (sourceJob_ok (by rfl)).1 h2
      simp only [Succeeds, runJob, Option.some.injEq] at h3
      unfold createCatalogMatrixJob at h3
      simp only [notNone] at h3
      change (List.mapM matrixRow es >>= _) = _ at h3
      obtain ⟨rows, hrows, h3⟩ := bind_ok h3
      cases h3
      simp only [Succeeds, runJob, Option.some.injEq] at h4
      unfold createDefaultValuesJob at h4
      obtain ⟨m, hm, h4⟩ := bind_ok h4
      obtain ⟨rows', hr, h4⟩ := bind_ok h4
      obtain ⟨my, hmy, h4⟩ := bind_ok h4
      obtain ⟨mm, hmm, h4⟩ := bind_ok h4
      rw [notNone_ok] at hm
      cases hm
      unfold Matrix.cols Matrix.ofRows at hr
      cases rows with
      | nil => simp at hr
      | cons r0 rs =>
        simp only [List.isEmpty_cons, Bool.false_eq_true, if_false, Except.ok.injEq] at hr
        subst hr
        cases h4
        exact ⟨file, es, inputs, _, my, mm, hfile, hes, hi, hine, hrows, by simp, hmy, hmm, rfl⟩
  · rintro ⟨file, es, inputs, rows, my, mm, hfile, hes, hi, hine, hrows, hne, hmy, hmm, rfl⟩
    refine .cons _ _ _ { fs := fs, pos := pos, ctx := { eqCatalog := some es } } _ ?_
      (.cons _ _ _ _ _ ((sourceJob_ok (by rfl)).2 ⟨inputs, hi, hine, rfl⟩) (.cons _ _ _
        { fs := fs, pos := pos, ctx := { eqCatalog := some es, smDefinitions := some (inputs.map fun a => { area := a }), catalogMatrix := some ⟨rows, false⟩, workingCatalog := some ⟨rows, false⟩ } } _ ?_ (.cons _ _ _ _ _ ?_ (.nil _))))
    · simp only [Succeeds, runJob, readEqCatalogJob, hfile, hes, bind, Except.bind]
    · cases rows with
      | nil => exact absurd rfl hne
      | cons r0 rs =>
        simp only [Succeeds, runJob, createCatalogMatrixJob, notNone, hrows, bind, Except.bind, Matrix.ofRows, List.isEmpty_cons]
    · simp only [Succeeds, runJob, createDefaultValuesJob, notNone, Matrix.cols, hmy, hmm, bind, Except.bind, Bool.false_eq_true, if_false, prepared]

/-! ### The loop over the sources -/

theorem recurrence_turn {x : Ext F} {cfg : Config F} {filter : Source F → Matrix F → Except PyErr (Matrix F)} {working : Matrix F} {i : Nat}
    {w w' : World F} :
    ProcessesSource x cfg filter [.recurrence] working i w w' ↔ ∃ d s m f, w.ctx.smDefinitions = some d ∧ d[i]? = some s ∧
      filter s working = .ok m ∧ RecOk x cfg m w.ctx.completenessTable f ∧ w' = (w.turn i m).setSource d i f := by
  constructor
  · rintro ⟨d, s, m, hd, hs, hm, _ | ⟨_, _, _, w1, _, h, _ | _⟩⟩
    obtain ⟨i', d', m', f, hi, hd', hl, hm', hr, rfl⟩ := recurrenceJob_ok.1 h
    cases hi
    simp only at hd' hm' hr
    rw [hd] at hd'
    cases hd'
    cases hm'
    exact ⟨d, s, m, f, hd, hs, hm, hr, rfl⟩
  · rintro ⟨d, s, m, f, hd, hs, hm, hr, rfl⟩
    refine ⟨d, s, m, hd, hs, hm, .cons _ _ _ _ _ ?_ (.nil _)⟩
    exact recurrenceJob_ok.2 ⟨i, d, m, f, rfl, hd, (List.getElem?_eq_some_iff.1 hs).1, rfl, hr, rfl⟩

/-- The loop of a run that has other events but the same analyses gives the same sources. -/
theorem loop_equal {x : Ext F} {cfg cfg' : Config F} {filter filter' : Source F → Matrix F → Except PyErr (Matrix F)} {working working' : Matrix F}
    {t : Option (List (F × F))}
    (H : ∀ s m f, filter s working = .ok m → RecOk x cfg m t f → ∃ m', filter' s working' = .ok m' ∧ RecOk x cfg' m' t f)
    {is : List Nat} {w w1 : World F} (h : Chain (ProcessesSource x cfg filter [.recurrence] working) is w w1) :
    ∀ v : World F, v.ctx.smDefinitions = w.ctx.smDefinitions → v.ctx.completenessTable = t → w.ctx.completenessTable = t →
      w1.fs = w.fs ∧ w1.ctx.workingCatalog = w.ctx.workingCatalog ∧ w1.ctx.completenessTable = t ∧
      ∃ v1, Chain (ProcessesSource x cfg' filter' [.recurrence] working') is v v1 ∧ v1.ctx.smDefinitions = w1.ctx.smDefinitions ∧ v1.fs = v.fs := by
  induction h with
  | nil w => exact fun v hv ht hw => ⟨rfl, rfl, hw, v, .nil _, hv, rfl⟩
  | cons i is w w' w'' h _ ih =>
    intro v hv ht hw
    obtain ⟨d, s, m, f, hd, hs, hm, hr, rfl⟩ := recurrence_turn.1 h
    rw [hw] at hr
    obtain ⟨m', hm', hr'⟩ := H s m f hm hr
    obtain ⟨h1, h2, h3, v1, h4, h5, h6⟩ := ih ((v.turn i m').setSource d i f) rfl ht hw
    refine ⟨h1, h2, h3, v1, .cons _ _ _ _ _ (recurrence_turn.2 ⟨d, s, m', f, hv.trans hd, hs, hm', by rw [ht]; exact hr', rfl⟩) h4, h5, h6⟩

end

/-- One source: the same recurrence result from the complete events. -/
theorem source_equal {x : Ext ℝ} {cfg cfg' : Config ℝ} (hs : cfg'.sourceModelFile = cfg.sourceModelFile) (hr : cfg'.recurrence = cfg.recurrence)
    {rows rows' : List (Row ℝ)} {t : List (ℝ × ℝ)}
    (hrows : ∀ P : Row ℝ → Bool, yearMag (rows'.filter P) = complete t (yearMag (rows.filter P)))
    (hok : (FiveDecimals t ∧ Decreasing t ∧ ∀ c, cfg.recurrence = some c → c.algorithm ≠ "Weichert") ∨ ∀ e ∈ yearMag rows, ¬ Excluded t e)
    {s : Source ℝ} {m : Matrix ℝ} {f : Source ℝ → Source ℝ} (hm : chosenFilter x cfg s ⟨rows, false⟩ = .ok m) (hf : RecOk x cfg m (some t) f) :
    rows' ≠ [] ∧ t ≠ [] ∧ ∃ m', chosenFilter x cfg' s ⟨rows', false⟩ = .ok m' ∧ RecOk x cfg' m' (some t) f := by
  obtain ⟨r, t', c, g, hc, ht, hcfg, hg, rfl⟩ := hf
  cases ht
  have key : ∀ P : Row ℝ → Bool, r = rows.filter P →
      recurrenceAnalysis (yearMag (rows'.filter P)) t c.magnitudeWindow c.algorithm c.referenceMagnitude c.timeWindow x.fuel = .ok (some g) := by
    rintro P rfl
    rw [hrows, analysis_complete, hg]
    rcases hok with ⟨h5, hd, ha⟩ | h
    · exact .inl ⟨h5, hd, ha c hcfg⟩
    · refine .inr fun e he => h e ?_
      simp only [yearMag, List.mem_map, List.mem_filter] at he ⊢
      obtain ⟨a, ⟨h1, -⟩, h2⟩ := he
      exact ⟨a, h1, h2⟩
  have htne : t ≠ [] := by
    rintro rfl
    exact analysis_no_table _ _ _ _ _ _ _ hg
  unfold chosenFilter at hm ⊢
  rw [hs]
  split at hm
  · rename_i htr
    rw [if_pos htr]
    unfold sourceModelFilter at hm ⊢
    simp only at hm ⊢
    by_cases hb : x.polygonBuilt s.area.boundary.posList = true
    · by_cases hv : x.polygonValid s.area.boundary.posList = true
      · simp only [hb, hv, Bool.not_true, Bool.false_eq_true, if_false] at hm ⊢
        cases hm
        unfold Matrix.cols at hc
        split at hc
        · cases hc
        · cases hc
          have k := key _ rfl
          have hne : rows'.filter (fun r => x.contains s.area.boundary.posList (r 3) (r 4)) ≠ [] := by
            intro h0
            rw [h0] at k
            exact analysis_nil _ _ _ _ _ _ _ k
          refine ⟨fun h0 => hne (by rw [h0]; rfl), htne, _, rfl, _, t, c, g, ?_, rfl, hr.trans hcfg, k, rfl⟩
          simp [Matrix.cols, Matrix.ofRows, hne]
      · simp [hb, hv, bind, Except.bind, throw, throwThe, MonadExceptOf.throw] at hm
    · simp [hb, bind, Except.bind, throw, throwThe, MonadExceptOf.throw] at hm
  · rename_i htr
    rw [if_neg htr]
    unfold nullFilter at hm ⊢
    cases hm
    simp only [Matrix.cols, Bool.false_eq_true, if_false, Except.ok.injEq] at hc
    subst hc
    have k := key (fun _ => true) (by simp)
    rw [List.filter_true] at k
    refine ⟨?_, htne, _, rfl, _, t, c, g, rfl, rfl, hr.trans hcfg, k, rfl⟩
    rintro rfl
    exact analysis_nil _ _ _ _ _ _ _ k

/-! ### The stored catalogue -/

theorem matrixRow_congr {F : Type} [PyMath F] {e e' : Entry F}
    (h : ∀ f, f ≠ .errorStrike → f ≠ .semiMajor90 → f ≠ .semiMinor90 → e' f = e f) : matrixRow e' = matrixRow e := by
  unfold matrixRow fixedColumns
  simp only [List.mapM_cons, List.mapM_nil]
  rw [h .year (by simp) (by simp) (by simp), h .month (by simp) (by simp) (by simp), h .day (by simp) (by simp) (by simp),
    h .longitude (by simp) (by simp) (by simp), h .latitude (by simp) (by simp) (by simp), h .mw (by simp) (by simp) (by simp),
    h .sigmaMw (by simp) (by simp) (by simp)]

theorem kept_rows {F : Type} [PyMath F] {es : List (Entry F)} {rows : List (Row F)} (h : es.mapM matrixRow = .ok rows) (sel : List Int) :
    (kept es sel).mapM matrixRow = .ok (kept rows sel) := by
  apply mapM_of_forall₂
  have h' := mapM_forall₂ _ _ _ h
  clear h
  induction h' generalizing sel with
  | nil => simp [kept]
  | cons h _ ih =>
    cases sel with
    | nil => simp [kept]
    | cons f fs =>
      have := ih fs
      unfold kept at this ⊢
      by_cases hf : f = 0
      · simp only [List.zip_cons_cons, hf, List.filter_cons, decide_true, if_true, List.map_cons]
        exact .cons h this
      · simp only [List.zip_cons_cons, hf, List.filter_cons, decide_false, Bool.false_eq_true, if_false]
        exact this

theorem kept_and {α : Type} (l : List α) (flags out : List Int) (P : α → Bool) (h1 : flags.length = l.length) (h2 : out.length = l.length)
    (h : ∀ (i : ℕ) (hl : i < l.length) (hf : i < flags.length) (ho : i < out.length), out[i] = 0 ↔ flags[i] = 0 ∧ P l[i] = true) :
    kept l out = (kept l flags).filter P := by
  induction l generalizing flags out with
  | nil => simp [kept]
  | cons a l ih =>
    match flags, out, h1, h2 with
    | f :: fs, o :: os, h1, h2 =>
      have h0 := h 0 (by simp) (by simp) (by simp)
      simp only [List.getElem_cons_zero] at h0
      have hi := ih fs os (by simpa using h1) (by simpa using h2) fun i hl hf ho => by
        have := h (i + 1) (by simpa using hl) (by simpa using hf) (by simpa using ho)
        simpa using this
      unfold kept at hi ⊢
      simp only [List.zip_cons_cons, List.filter_cons]
      by_cases hf : f = 0
      · by_cases hP : P a = true
        · have ho := h0.2 ⟨hf, hP⟩
          simp [hf, ho, hi, hP]
        · have ho : o ≠ 0 := fun h => hP (h0.1 h).2
          simp [hf, ho, hi, hP]
      · have ho : o ≠ 0 := fun h => hf (h0.1 h).1
        simp [hf, ho, hi]

open scoped Classical in
/-- The rows of the stored catalogue are the complete ones among those of the working catalogue. -/
theorem kept_selected (rows : List (Row ℝ)) (t : List (ℝ × ℝ)) (flags sel : List Int) (hl : flags.length = rows.length)
    (h : Completeness.selectedEqFlagVector (yearMag rows) t flags = .ok sel) :
    sel.length = rows.length ∧ kept rows sel = (kept rows flags).filter fun r => decide (¬ Excluded t (r 0, r 5)) := by
  have hlen : flags.length = (yearMag rows).length := by simpa [yearMag] using hl
  obtain ⟨out, ho, hol, hi⟩ := Completeness.C27_selection (yearMag rows) t flags hlen
  rw [h] at ho
  cases ho
  have hol' : sel.length = rows.length := by simpa [yearMag] using hol
  refine ⟨hol', kept_and rows flags sel _ hl hol' fun i h1 h2 h3 => ?_⟩
  obtain ⟨h01, h1'⟩ := hi i (by simpa [yearMag] using h1) h3
  have e : (yearMag rows)[i]'(by simpa [yearMag] using h1) = (rows[i] 0, rows[i] 5) := by simp [yearMag]
  rw [e] at h1'
  simp only [decide_eq_true_eq]
  have h10 : sel[i] = 0 ↔ ¬ sel[i] = 1 := by
    rcases h01 with h | h <;> rw [h] <;> simp
  rw [h10, h1', not_or, not_not]
  rfl

open scoped Classical in
theorem complete_rows (rows : List (Row ℝ)) (t : List (ℝ × ℝ)) (P : Row ℝ → Bool) :
    yearMag ((rows.filter fun r => decide (¬ Excluded t (r 0, r 5))).filter P) = complete t (yearMag (rows.filter P)) := by
  unfold yearMag complete
  rw [List.filter_map, List.filter_filter, List.filter_filter]
  congr 1
  apply List.filter_congr
  intro r _
  simp only [Function.comp]
  rw [Bool.and_comm]

/-! ### The whole program -/

section
variable {F : Type} [PyMath F]

theorem main_ok {x : Ext F} {cfg : Config F} {fs : Text → Option Content} {pos : Nat} {w : World F} :
    main x cfg fs pos = some ⟨none, w⟩ ↔ ∃ pre procs w1, buildPreprocessing cfg = .ok pre ∧ buildProcessing cfg = .ok procs ∧
      start x cfg (chosenFilter x cfg) pre procs ⟨fs, pos, {}⟩ = some ⟨none, w1⟩ ∧ writeResult x cfg w1 = .ok w := by
  unfold main
  simp only
  constructor
  · intro h
    cases hpre : buildPreprocessing cfg with
    | error e => rw [hpre] at h; cases h
    | ok pre =>
      rw [hpre] at h
      simp only at h
      cases hproc : buildProcessing cfg with
      | error e => rw [hproc] at h; cases h
      | ok procs =>
        rw [hproc] at h
        simp only at h
        rw [andThen_ok] at h
        obtain ⟨w1, h1, h2⟩ := h
        cases hw : writeResult x cfg w1 with
        | error e => rw [hw] at h2; cases h2
        | ok w2 =>
          rw [hw] at h2
          cases h2
          exact ⟨pre, procs, w1, rfl, rfl, h1, hw⟩
  · rintro ⟨pre, procs, w1, hpre, hproc, h1, h2⟩
    simp only [hpre, hproc]
    rw [andThen_ok]
    exact ⟨w1, h1, by rw [h2]⟩

omit [PyMath F] in
theorem writeResult_ok {x : Ext F} {cfg : Config F} {w w' : World F} (h : writeResult x cfg w = .ok w') :
    ∃ defs doc, w.ctx.smDefinitions = some defs ∧ serialize x.nums (defs.map Source.area) = .ok doc ∧ w' = w.write cfg.resultFile (.xml doc) := by
  unfold writeResult at h
  obtain ⟨path, hpath, h⟩ := bind_ok h
  obtain ⟨defs, hdefs, h⟩ := bind_ok h
  obtain ⟨doc, hdoc, h⟩ := bind_ok h
  obtain ⟨_, -, h⟩ := bind_ok h
  unfold mkWriter at hpath
  split at hpath
  · cases hpath
    cases h
    exact ⟨defs, doc, notNone_ok.1 hdefs, hdoc, rfl⟩
  · cases hpath

omit [PyMath F] in
/-- Only the sources matter for the result document. -/
theorem writeResult_congr {x : Ext F} {cfg cfg' : Config F} {w w' v : World F} (h : writeResult x cfg w = .ok w')
    (hr : cfg'.resultFile = cfg.resultFile) (hd : v.ctx.smDefinitions = w.ctx.smDefinitions) :
    ∃ v', writeResult x cfg' v = .ok v' ∧ v'.ctx = v.ctx ∧ v'.fs cfg.resultFile = w'.fs cfg.resultFile := by
  unfold writeResult at h ⊢
  obtain ⟨path, hpath, h⟩ := bind_ok h
  obtain ⟨defs, hdefs, h⟩ := bind_ok h
  obtain ⟨doc, hdoc, h⟩ := bind_ok h
  obtain ⟨_, ho, h⟩ := bind_ok h
  cases h
  have : path = cfg.resultFile := by
    unfold mkWriter at hpath
    split at hpath
    · cases hpath; rfl
    · cases hpath
  subst this
  rw [hr, hpath, hd]
  simp only [bind, Except.bind, hdefs, hdoc, ho, Except.ok.injEq, exists_eq_left']
  refine ⟨rfl, ?_⟩
  simp [World.write]

theorem InputSources.congr {x : Ext F} {cfg cfg' : Config F} {fs fs' : Text → Option Content} {inputs : List (AreaSource F)}
    (hs : cfg'.sourceModelFile = cfg.sourceModelFile) (hf : ∀ m, cfg.sourceModelFile = some m → fs' m = fs m) (h : InputSources x cfg fs inputs) :
    InputSources x cfg' fs' inputs := by
  unfold InputSources at h ⊢
  rw [hs]
  rcases h with ⟨path, doc, h1, h2, h3, h4⟩ | h
  · exact .inl ⟨path, doc, h1, h2, by rw [hf path h2]; exact h3, h4⟩
  · exact .inr h

theorem select_ok {x : Ext F} {cfg : Config F} {w w' : World F} (h : Succeeds x cfg .createSelectedEqVector w w') :
    ∃ m rows t flags sel, w.ctx.catalogMatrix = some m ∧ m.cols = .ok rows ∧ w.ctx.completenessTable = some t ∧ w.ctx.flagVector = some flags ∧
      Completeness.selectedEqFlagVector (yearMag rows) t flags = .ok sel ∧
      w' = { w with ctx := { w.ctx with selectedEqVector := some sel } } := by
  simp only [Succeeds, runJob, Option.some.injEq] at h
  unfold createSelectedEqVectorJob at h
  obtain ⟨m, hm, h⟩ := bind_ok h
  obtain ⟨rows, hr, h⟩ := bind_ok h
  obtain ⟨t, ht, h⟩ := bind_ok h
  obtain ⟨flags, hf, h⟩ := bind_ok h
  obtain ⟨sel, hs, h⟩ := bind_ok h
  cases h
  exact ⟨m, rows, t, flags, sel, notNone_ok.1 hm, hr, notNone_ok.1 ht, attr_ok.1 hf, hs, rfl⟩

theorem storeCatalog_ok {x : Ext F} {cfg : Config F} {w w' : World F} {p : Text} (hp : cfg.pprocessingResultFile = some p)
    (h : Succeeds x cfg .storePreprocessedCatalog w w') {sel : List Int} {es : List (Entry F)} (hs : w.ctx.selectedEqVector = some sel)
    (he : w.ctx.eqCatalog = some es) (hl : sel.length = es.length) : w' = w.write p (.text (writeCatalog x.show_ (kept es sel))) := by
  simp only [Succeeds, runJob, Option.some.injEq] at h
  unfold storePreprocessedCatalogJob at h
  simp only [hp, hs, he, attr, notNone] at h
  obtain ⟨_, h1, h⟩ := bind_ok h
  cases h1
  obtain ⟨p', h2, h⟩ := bind_ok h
  unfold mkWriter at h2
  split at h2
  · cases h2
    obtain ⟨_, h3, h⟩ := bind_ok h
    cases h3
    obtain ⟨_, h3, h⟩ := bind_ok h
    cases h3
    obtain ⟨_, h3, h⟩ := bind_ok h
    rw [zeros_entries es sel hl] at h3
    cases h3
    obtain ⟨_, h3, h⟩ := bind_ok h
    cases h
    rfl
  · cases h2

theorem storeTable_ok {x : Ext F} {cfg : Config F} {w w' : World F} {q : Text} (hq : cfg.completenessTableFile = some q)
    (h : Succeeds x cfg .storeCompletenessTable w w') :
    ∃ t, w.ctx.completenessTable = some t ∧ w' = w.write q (.text (Table.saveTable x.fmt5 t)) := by
  simp only [Succeeds, runJob, Option.some.injEq] at h
  unfold storeCompletenessTableJob at h
  simp only [hq] at h
  obtain ⟨_, h1, h⟩ := bind_ok h
  cases h1
  obtain ⟨_, -, h⟩ := bind_ok h
  obtain ⟨t, ht, h⟩ := bind_ok h
  cases h
  exact ⟨t, notNone_ok.1 ht, rfl⟩

theorem preprocessing_keeps {x : Ext F} {cfg : Config F} {names : List String} {js : List Job} (hn : Named names js) {w w' : World F}
    (h : Chain (Succeeds x cfg) js w w') (hc : w.ctx.curSm = none) :
    w'.ctx.curSm = none ∧ w'.ctx.eqCatalog = w.ctx.eqCatalog ∧ w'.ctx.smDefinitions = w.ctx.smDefinitions ∧
      ∀ q, cfg.pprocessingResultFile ≠ some q → cfg.completenessTableFile ≠ some q → w'.fs q = w.fs q := by
  refine Chain.invariant h (P := fun v => v.ctx.curSm = none ∧ v.ctx.eqCatalog = w.ctx.eqCatalog ∧ v.ctx.smDefinitions = w.ctx.smDefinitions ∧
      ∀ q, cfg.pprocessingResultFile ≠ some q → cfg.completenessTableFile ≠ some q → v.fs q = w.fs q) ?_ ⟨hc, rfl, rfl, fun _ _ _ => rfl⟩
  rintro j hj s s' hs ⟨h1, h2, h3, h4⟩
  obtain ⟨n, hn'⟩ := named_mem hn hj
  obtain ⟨k1, k2⟩ := named_writes hn' hs
  obtain ⟨r1, r2⟩ := named_not_reader hn j hj
  obtain ⟨t1, t2⟩ := touches x cfg j r1 r2 s s' hs
  refine ⟨t1.trans h1, k1.trans h2, ?_, fun q hp hq => (k2 q hp hq).trans (h4 q hp hq)⟩
  rcases t2 with ⟨t2, -⟩ | ⟨i, d, f, hi, -⟩
  · exact t2.trans h3
  · rw [h1] at hi; cases hi

end

/-! ### C31 -/

/-- The files of a run are different files. -/
structure Spec.Separate (cfg : Config ℝ) (p q : Text) : Prop where
  tables : p ≠ q
  resultCatalogue : cfg.resultFile ≠ p
  resultTable : cfg.resultFile ≠ q
  model : ∀ m, cfg.sourceModelFile = some m → m ≠ p ∧ m ≠ q ∧ m ≠ cfg.resultFile

/-- In a list of job names, `GardnerKnopoff` occurs at most as the first declustering job. -/
def Spec.DeclustersOnce (names : List String) : Prop :=
  ∃ a d b, names = a ++ d :: b ∧ (∀ n ∈ a, n ≠ "GardnerKnopoff" ∧ n ≠ "Afteran") ∧ ∀ n ∈ b, n ≠ "GardnerKnopoff"

/-- The numbers of the catalogue survive writing and reading. -/
def Spec.Rereadable (x : Ext ℝ) (cfg : Config ℝ) (fs : Text → Option Content) : Prop :=
  ∀ file es, fs cfg.eqCatalogFile = some (.text file) → readCatalogFile x.env x.ord file = .ok es → RoundTrip x.env x.show_ (Occurs es)

/-- The second run: the stored catalogue, no preprocessing jobs. -/
def Spec.second (cfg : Config ℝ) (p : Text) : Config ℝ := { cfg with eqCatalogFile := p, preprocessingJobs := [] }

theorem named_split {names a b : List String} {d : String} {js : List Job} (hn : Named names js) (he : names = a ++ d :: b) :
    ∃ a' d' b', js = a' ++ d' :: b' ∧ Named a a' ∧ (d, d') ∈ documented ∧ Named b b' := by
  subst he
  induction a generalizing js with
  | nil =>
    rcases hn with _ | ⟨h, ht⟩
    exact ⟨[], _, _, rfl, .nil, h, ht⟩
  | cons n a ih =>
    rcases hn with _ | ⟨h, ht⟩
    obtain ⟨a', d', b', rfl, h1, h2, h3⟩ := ih ht
    exact ⟨_ :: a', d', b', rfl, .cons h h1, h2, h3⟩

theorem named_avoids {names : List String} {js : List Job} (hn : Named names js) {n : String} {j : Job} (hj : (n, j) ∈ documented)
    (h : ∀ m ∈ names, m ≠ n) : ∀ k ∈ js, k ≠ j := by
  intro k hk
  unfold Named at hn
  induction hn with
  | nil => cases hk
  | @cons m l ns js hm _ ih =>
    rcases List.mem_cons.1 hk with rfl | hk
    · rintro rfl
      apply h m (by simp)
      simp only [documented, List.mem_cons, Prod.mk.injEq, List.not_mem_nil, or_false] at hm hj
      rcases hm with hm | hm | hm | hm | hm | hm | hm | hm | hm <;> rcases hj with hj | hj | hj | hj | hj | hj | hj | hj | hj <;>
        (first | exact hm.1.trans hj.1.symm | (have := hm.2.symm.trans hj.2; cases this))
    · exact ih (fun m hm => h m (by simp [hm])) hk

/-- **C31**, the part that holds.  Let a run with preprocessing jobs, with `Recurrence` as processing job and with files for the catalogue and for the table, end
without exception.  Suppose that the numbers of the catalogue and of the final completeness table survive the files (catalogue numbers are reread as
written, the table has at most five decimals), that `GardnerKnopoff` occurs at most as first declustering job, and that either no event of the working
catalogue is removed by the completeness check, or the algorithm is not `Weichert` and later completeness years belong to smaller magnitudes.  Then the
second run, on the stored files without preprocessing jobs, ends without exception with the same sources (so the same recurrence parameters) and the same
result document.  Missing: tables with more decimals, `Weichert` with removed events, tables with increasing magnitudes; see `C31_fails`. -/
theorem C31_equivalent_partial (x : Ext ℝ) (hx : Sorts x) (hfmt : x.fmt5 = Format.fmt5) (hfl : x.nums.float = Format.pyFloat) (cfg : Config ℝ)
    (fs : Text → Option Content) (pos pos' : Nat) (p q : Text) (hp : cfg.pprocessingResultFile = some p) (hp0 : p ≠ [])
    (hq : cfg.completenessTableFile = some q) (hq0 : q ≠ []) (hsep : Separate cfg p q) (hproc : cfg.processingJobs = ["Recurrence"])
    (happ : cfg.applyProcessing = true) (honce : DeclustersOnce cfg.preprocessingJobs) (hread : Rereadable x cfg fs) (w1 : World ℝ)
    (h : main x cfg fs pos = some ⟨none, w1⟩) (t : List (ℝ × ℝ)) (ht : w1.ctx.completenessTable = some t) (h5 : FiveDecimals t)
    (hok : (Decreasing t ∧ ∀ c, cfg.recurrence = some c → c.algorithm ≠ "Weichert") ∨
      ∀ m, w1.ctx.workingCatalog = some m → ∀ e ∈ yearMag m.rows, ¬ Excluded t e) :
    ∃ w2, main x (second cfg p) w1.fs pos' = some ⟨none, w2⟩ ∧ w2.ctx.smDefinitions = w1.ctx.smDefinitions ∧
      w2.fs cfg.resultFile = w1.fs cfg.resultFile := by
  classical
  obtain ⟨pre, procs, we, hpre, hprocs, hstart, hwrite⟩ := main_ok.1 h
  obtain ⟨js, hjs, rfl⟩ := (C16_preprocessing cfg pre).1 hpre
  obtain ⟨a, d, b, hnames, hna, hnb⟩ := honce
  have hne : cfg.preprocessingJobs ≠ [] := by rw [hnames]; simp
  have hcp : Configured cfg.pprocessingResultFile := ⟨p, hp, hp0⟩
  rw [if_pos hne, if_pos hcp] at hstart
  have hprocs' : procs = [.recurrence] := by
    have := (C16_processing cfg procs).1 hprocs
    rw [hproc] at this
    rcases this with _ | ⟨h1, _ | _⟩
    simp only [documented, List.mem_cons, Prod.mk.injEq, List.not_mem_nil, or_false] at h1
    rcases h1 with h1 | h1 | h1 | h1 | h1 | h1 | h1 | h1 | h1 <;> simp at h1
    rw [h1]
  subst hprocs'
  obtain ⟨wd, defs, working, hchain, hdefs, hworking, hloop⟩ := (C19_once_in_order x cfg _ _ _ _ we happ).1 hstart
  rw [Chain.append_iff] at hchain
  obtain ⟨wa, hchain, htail⟩ := hchain
  rw [Chain.append_iff] at hchain
  obtain ⟨w0, hcomp, hnamed⟩ := hchain
  obtain ⟨file, es, inputs, rows, my, mm, hfile, hes, hin, hinne, hrows, hrne, hmy, hmm, rfl⟩ := (compulsory_iff x cfg fs pos w0).1 hcomp
  -- the configured jobs
  obtain ⟨k1, k2, k3, k4⟩ := preprocessing_keeps hjs hnamed rfl
  obtain ⟨a', d', b', rfl, hna', hd', hnb'⟩ := named_split hjs hnames
  have hkept0 : kept rows (List.replicate rows.length 0) = rows := by
    clear * -
    induction rows with
    | nil => rfl
    | cons r rs ih =>
      unfold kept at ih ⊢
      simpa [List.replicate_succ] using ih
  have hdesc0 : FlagsDescribe (prepared fs pos es (inputs.map fun a => { area := a }) rows my mm) rows :=
    ⟨rfl, ⟨_, rfl⟩, _, rfl, by simp, by rw [hkept0]; rfl⟩
  obtain ⟨⟨f1, ⟨t', f2⟩, flags, f3, f4, f5⟩, -⟩ := C30_chained_partial x hx cfg _ a' b' d' hjs
    (fun j hj => ⟨named_avoids hna' (n := "GardnerKnopoff") (by simp [documented]) (fun n hn => (hna n hn).1) j hj,
      named_avoids hna' (n := "Afteran") (by simp [documented]) (fun n hn => (hna n hn).2) j hj⟩)
    (fun j hj => named_avoids hnb' (n := "GardnerKnopoff") (by simp [documented]) hnb j hj) _ _ rows hdesc0 rfl hnamed
  -- selection and storing
  rcases htail with _ | ⟨_, _, _, wb, _, hb1, _ | ⟨_, _, _, wc, _, hb2, _ | ⟨_, _, _, wd', _, hb3, _ | _⟩⟩⟩
  obtain ⟨m, rows', t'', flags', sel, g1, g2, g3, g4, hsel, rfl⟩ := select_ok hb1
  rw [f1] at g1; cases g1
  cases g2
  rw [f2] at g3; cases g3
  rw [f3] at g4; cases g4
  obtain ⟨hsell, hkept⟩ := kept_selected rows t' flags sel f4 hsel
  have hlen : rows.length = es.length := by
    have := (mapM_forall₂ _ _ _ hrows).length_eq
    omega
  have hwc := storeCatalog_ok hp hb2 (sel := sel) (es := es) rfl k2 (by omega)
  subst hwc
  obtain ⟨t3, ht3, rfl⟩ := storeTable_ok hq hb3
  have : t3 = t' := by
    have h' : some t' = some t3 := f2.symm.trans ht3
    cases h'; rfl
  subst this
  -- the loop
  have hwk : working = ⟨kept rows flags, false⟩ := by
    have h' : some working = some ⟨kept rows flags, false⟩ := hworking.symm.trans f5
    cases h'; rfl
  subst hwk
  have hd : defs = inputs.map fun a => { area := a } := by
    have h' : some defs = some (inputs.map fun a => ({ area := a } : Source ℝ)) := hdefs.symm.trans k3
    cases h'; rfl
  subst hd
  have hrows2 := fun P => (congrArg (fun l => yearMag (List.filter P l)) hkept).trans (complete_rows (kept rows flags) t3 P)
  obtain ⟨defs1, doc1, hdefs1, -, hw1⟩ := writeResult_ok hwrite
  -- the table and the working catalogue at the end
  obtain ⟨l1, l2, l3, -⟩ := loop_equal (x := x) (cfg := cfg) (cfg' := cfg) (t := some t3) (fun s m f hm hf => ⟨m, hm, hf⟩) hloop _ rfl ht3 ht3
  have htt : t3 = t := by
    have h' : some t = some t3 := by rw [← ht, hw1]; exact l3
    cases h'; rfl
  subst htt
  have hok' : (FiveDecimals t3 ∧ Decreasing t3 ∧ ∀ c, cfg.recurrence = some c → c.algorithm ≠ "Weichert") ∨
      ∀ e ∈ yearMag (kept rows flags), ¬ Excluded t3 e := by
    rcases hok with ⟨h1, h2⟩ | h1
    · exact .inl ⟨h5, h1, h2⟩
    · exact .inr (h1 ⟨kept rows flags, false⟩ (by rw [hw1]; exact l2.trans hworking))
  have hsrc := fun s m f hm hf => source_equal (x := x) (cfg := cfg) (cfg' := second cfg p) rfl rfl hrows2 hok' (s := s) (m := m) (f := f) hm hf
  -- the first source shows that the stored catalogue and the table are not empty
  obtain ⟨hne2, htne⟩ : kept rows sel ≠ [] ∧ t3 ≠ [] := by
    obtain ⟨a0, as, rfl⟩ := List.exists_cons_of_ne_nil hinne
    rw [List.length_map, List.length_cons, List.range_succ_eq_map] at hloop
    rcases hloop with _ | ⟨_, _, _, _, _, hl, -⟩
    obtain ⟨_, s, m, f, -, -, hm, hf, -⟩ := recurrence_turn.1 hl
    rw [show World.ctx _ = _ from rfl] at hf
    have := hsrc s m f hm (by rw [show some t3 = _ from ht3.symm]; exact hf)
    exact ⟨this.1, this.2.1⟩
  -- the files of the second run
  have hfsw : w1.fs = fun r => if r = cfg.resultFile then some (.xml doc1) else if r = q then some (.text (Table.saveTable x.fmt5 t3)) else
      if r = p then some (.text (writeCatalog x.show_ (kept es sel))) else wa.fs r := by
    rw [hw1]
    unfold World.write
    simp only
    rw [l1]
    rfl
  have hfp : w1.fs p = some (.text (writeCatalog x.show_ (kept es sel))) := by
    rw [hfsw]
    simp only [if_neg hsep.resultCatalogue.symm, if_neg hsep.tables, if_true]
  have hfq : w1.fs q = some (.text (Table.saveTable x.fmt5 t3)) := by
    rw [hfsw]
    simp only [if_neg hsep.resultTable.symm, if_true]
  have hfm : ∀ m, cfg.sourceModelFile = some m → w1.fs m = fs m := by
    intro m hm
    obtain ⟨h1, h2, h3⟩ := hsep.model m hm
    rw [hfsw]
    simp only [if_neg h3, if_neg h2, if_neg h1]
    exact k4 m (by rw [hp]; simpa using h1.symm) (by rw [hq]; simpa using h2.symm)
  -- the stored catalogue
  have hsub : ∀ e ∈ kept es sel, e ∈ es := fun e he => (C26_kept es sel).1.subset he
  obtain ⟨es2, hes2, hagree⟩ := written_accepted x.env x.env x.show_ (kept es sel)
    ((hread file es hfile hes).mono fun y ⟨e, he, hf⟩ => ⟨e, hsub e he, hf⟩) le_rfl x.ord x.ord
    (fun e he => delivered_clean x.env x.ord file es hes e (hsub e he))
  have hmat2 : es2.mapM matrixRow = .ok (kept rows sel) := by
    apply mapM_of_forall₂
    have h1 := mapM_forall₂ _ _ _ (kept_rows hrows sel)
    clear * - h1 hagree
    generalize kept es sel = l, kept rows sel = r at h1 hagree
    induction hagree generalizing r with
    | nil => cases h1; exact .nil
    | cons h _ ih =>
      rcases h1 with _ | ⟨h1, h1'⟩
      exact .cons ((matrixRow_congr h.1).trans h1) (ih _ h1')
  obtain ⟨my2, hmy2⟩ := Np.npMin_exists (l := (kept rows sel).map fun r => r 0) (by simpa using hne2)
  obtain ⟨mm2, hmm2⟩ := Np.npMin_exists (l := (kept rows sel).map fun r => r 5) (by simpa using hne2)
  have hcomp2 := (compulsory_iff x (second cfg p) w1.fs pos' _).2
    ⟨_, es2, inputs, _, my2, mm2, hfp, hes2, InputSources.congr rfl hfm hin, hinne, hmat2, hne2, hmy2, hmm2, rfl⟩
  -- the table
  have htab : runJob x (second cfg p) .retrieveCompletenessTable
      (prepared w1.fs pos' es2 (inputs.map fun a => { area := a }) (kept rows sel) my2 mm2) =
      some (.ok { prepared w1.fs pos' es2 (inputs.map fun a => { area := a }) (kept rows sel) my2 mm2 with
        ctx := { (prepared w1.fs pos' es2 (inputs.map fun a => { area := a }) (kept rows sel) my2 mm2).ctx with completenessTable := some t3 } }) := by
    simp only [runJob, retrieveCompletenessTableJob]
    have e1 : (second cfg p).completenessTableFile = some q := hq
    have e2 : (prepared w1.fs pos' es2 (inputs.map fun a => ({ area := a } : Source ℝ)) (kept rows sel) my2 mm2).fs q =
      some (.text (Table.saveTable Format.fmt5 t3)) := by rw [← hfmt]; exact hfq
    simp only [e1, notNone, e2, hfl, Table.C32_exact x.nan t3 htne h5, bind, Except.bind]
  -- the loop
  obtain ⟨-, -, -, v1, hv1, hv2, -⟩ := loop_equal (x := x) (cfg := cfg) (cfg' := second cfg p) (t := some t3)
    (fun s m f hm hf => (hsrc s m f hm hf).2.2) hloop
    { prepared w1.fs pos' es2 (inputs.map fun a => { area := a }) (kept rows sel) my2 mm2 with
        ctx := { (prepared w1.fs pos' es2 (inputs.map fun a => { area := a }) (kept rows sel) my2 mm2).ctx with completenessTable := some t3 } }
    k3.symm rfl ht3
  obtain ⟨v2, hv3, hv4, hv5⟩ := writeResult_congr (cfg' := second cfg p) hwrite rfl hv2
  refine ⟨v2, main_ok.2 ⟨_, [.recurrence], v1, (C16_preprocessing (second cfg p) _).2 ⟨[], .nil, rfl⟩,
    (C16_processing (second cfg p) _).2 ?_, ?_, hv3⟩, ?_, hv5⟩
  · rw [show (second cfg p).processingJobs = _ from hproc]
    exact .cons (by simp [documented]) .nil
  · refine (C19_once_in_order x (second cfg p) _ _ _ _ _ happ).2 ⟨_, inputs.map fun a => { area := a }, ⟨kept rows sel, false⟩, ?_, rfl, rfl, hv1⟩
    rw [List.append_nil, Chain.append_iff]
    refine ⟨_, hcomp2, ?_⟩
    have h1 : ¬ (second cfg p).preprocessingJobs ≠ [] := by simp [second]
    have h2 : Configured (second cfg p).completenessTableFile := ⟨q, hq, hq0⟩
    rw [if_neg h1, if_pos h2]
    exact .cons _ _ _ _ _ htab (.nil _)
  · rw [hv4, hv2, hw1]
    rfl

end Verif.Workflow
