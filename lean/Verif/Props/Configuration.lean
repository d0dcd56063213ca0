import Verif.Lemmas.ConfigurationKeys

/-!
# C110, C111, C112: unusable result paths, options without influence, missing options
-/

namespace Verif.Workflow

open Verif Verif.EqCatalog Verif.Csv Verif.Nrml Verif.Declustering Verif.Recurrence Verif.MaxMag Spec

section
variable {F : Type} [PyMath F]

/-! ### C110 -/

omit [PyMath F] in
theorem unusable_result {x : Ext F} {c : Config F} (hu : Unusable x c.resultFile) (w v : World F) : writeResult x c w ≠ .ok v := by
  intro h
  unfold writeResult at h
  obtain ⟨p, h1, h⟩ := Nrml.bind_ok h
  obtain ⟨_, -, h⟩ := Nrml.bind_ok h
  obtain ⟨_, -, h⟩ := Nrml.bind_ok h
  obtain ⟨_, h2, h⟩ := Nrml.bind_ok h
  have hp : p = c.resultFile := by
    unfold mkWriter at h1
    split_ifs at h1
    cases h1
    rfl
  rcases hu with ⟨dir, file, he, hf, hd, hl, hx⟩ | hu
  · have := (C87_directory_partial x.exists_ dir file hf hd hl).1 ⟨p, by rw [← he]; exact h1⟩
    rw [hx] at this
    cases this
  · unfold openWrite at h2
    rw [hp, hu] at h2
    cases h2

/-- **C110**, what holds: a run whose result path is unusable never ends normally, and leaves the path alone (unless it is also named as one of the other outputs). -/
theorem C110_raises_partial (x : Ext F) (cfg : Config F) (hu : Unusable x cfg.resultFile) (fs : Text → Option Content) (pos : Nat) (o : Outcome F)
    (h : main x cfg fs pos = some o) : o.raised ≠ none ∧
      (cfg.pprocessingResultFile ≠ some cfg.resultFile → cfg.completenessTableFile ≠ some cfg.resultFile →
        o.world.fs cfg.resultFile = fs cfg.resultFile) := by
  have hr : o.raised ≠ none := by
    intro hr
    obtain ⟨e, w⟩ := o
    simp only at hr
    subst hr
    obtain ⟨_, _, w1, -, -, -, hw⟩ := main_ok.1 h
    exact unusable_result hu _ _ hw
  exact ⟨hr, C95_result_last x cfg fs pos o h hr⟩

theorem no_output {cfg : Config F} (ha : ¬ AsksForOutput cfg) {pre procs : List Job} (h1 : buildPreprocessing cfg = .ok pre)
    (h2 : buildProcessing cfg = .ok procs) (q : Text) : (∀ j ∈ pre, ¬ MayWrite cfg j q) ∧ ∀ j ∈ procs, ¬ MayWrite cfg j q := by
  classical
  have hst : ∀ {names js}, Named names js → (∀ n ∈ names, n ≠ "Store_eq_catalog" ∧ n ≠ "Store_completeness_table") → ∀ j ∈ js, ¬ MayWrite cfg j q := by
    rintro names js hn hs j hj (⟨rfl, -⟩ | ⟨rfl, -⟩)
    · obtain ⟨n, hm, hd⟩ := named_name hn hj
      simp only [documented, List.mem_cons, Prod.mk.injEq, List.not_mem_nil, or_false, reduceCtorEq, and_false, false_or, and_true] at hd
      exact (hs n hm).1 hd
    · obtain ⟨n, hm, hd⟩ := named_name hn hj
      simp only [documented, List.mem_cons, Prod.mk.injEq, List.not_mem_nil, or_false, reduceCtorEq, and_false, false_or, and_true] at hd
      exact (hs n hm).2 hd
  have hnames : ∀ n ∈ cfg.preprocessingJobs ++ cfg.processingJobs, n ≠ "Store_eq_catalog" ∧ n ≠ "Store_completeness_table" := by
    intro n hn
    exact ⟨fun e => ha (.inr ⟨n, hn, .inl e⟩), fun e => ha (.inr ⟨n, hn, .inr e⟩)⟩
  refine ⟨?_, hst ((C16_processing cfg procs).1 h2) fun n hn => hnames n (List.mem_append_right _ hn)⟩
  obtain ⟨js, hjs, rfl⟩ := (C16_preprocessing cfg pre).1 h1
  intro j hj
  rw [List.mem_append, List.mem_append] at hj
  rcases hj with (hj | hj) | hj
  · simp only [List.mem_cons, List.not_mem_nil, or_false] at hj
    rintro (⟨rfl, -⟩ | ⟨rfl, -⟩) <;> rcases hj with hj | hj | hj | hj <;> first | cases hj | (split_ifs at hj)
  · exact hst hjs (fun n hn => hnames n (List.mem_append_left _ hn)) j hj
  · by_cases hp : cfg.preprocessingJobs ≠ []
    · rw [if_pos hp, if_neg (fun hc => ha (.inl ⟨hp, hc⟩))] at hj
      cases hj
    · rw [if_neg hp] at hj
      split_ifs at hj
      · rw [List.mem_singleton] at hj
        subst hj
        rintro (⟨h, -⟩ | ⟨h, -⟩) <;> cases h
      · cases hj

/-- **C110**, what holds: if moreover no intermediate output is asked for, nothing at all is written. -/
theorem C110_nothing_written_partial (x : Ext F) (cfg : Config F) (hu : Unusable x cfg.resultFile) (ha : ¬ AsksForOutput cfg) (fs : Text → Option Content)
    (pos : Nat) (o : Outcome F) (h : main x cfg fs pos = some o) : o.raised ≠ none ∧ o.world.fs = fs := by
  have hr := (C110_raises_partial x cfg hu fs pos o h).1
  refine ⟨hr, funext fun q => ?_⟩
  rw [← rawMain_of] at h
  refine rawMain_frame h q ?_ (.inl hr)
  intro pre procs hb
  obtain ⟨-, h1, -, h2⟩ := rawBuild_ok hb
  rw [RawConfig.of_config] at h1 h2 ⊢
  exact no_output ha h1 h2 q

end

/-! ### The run in which the result path is unusable -/

/-- The surroundings of the example run, without the directory `missing`. -/
noncomputable def x110 : Ext ℝ := { x31 with exists_ := fun d => decide (d ≠ "missing".toList) }

/-- The configuration of the example run, the result to be written in the directory `missing`. -/
noncomputable def config110 : Config ℝ := { config31 with resultFile := "missing/result.xml".toList }

theorem job110 (j : Job) (w : World ℝ) : rawJob x31 (.of config31) j w = rawJob x110 (.of config110) j w := by
  cases j <;> rfl

theorem run110 : ∃ o, main x110 config110 (fs31 "5") 0 = some o ∧ o.world.fs "p.csv".toList ≠ none := by
  obtain ⟨w, h⟩ := run31_exists
  obtain ⟨_, es, _, t, flags, sel, -, -, -, -, -, -, h3, -⟩ := C26_run x31 config31 _ 0 w h (List.cons_ne_nil _ _) "p.csv".toList "t.txt".toList rfl
    (by decide) rfl (by decide) (by decide) (by decide) (fun n hn => .inl (List.mem_singleton.1 hn))
  rw [← rawMain_of] at h
  obtain ⟨pre, procs, w1, hb, hs, hw⟩ := rawMain_ok h
  have hb' : rawBuild (.of config110) = .ok (pre, procs) := hb
  rw [rawStart_congr (x := x31) (r := .of config31) (x' := x110) (r' := .of config110) rfl rfl (fun j _ => job110 j) (fun _ j _ => job110 j)] at hs
  have he : ∀ v, rawWriteResult x110 (.of config110) w1 ≠ .ok v := by
    intro v hv
    obtain ⟨-, -, hv⟩ := rawWriteResult_ok hv
    rw [RawConfig.of_config] at hv
    exact unusable_result (.inl ⟨"missing".toList, "result.xml".toList, by decide, by decide, by decide, by decide, by decide⟩) _ _ hv
  rw [← rawMain_of]
  unfold rawMain
  simp only [hb', hs, andThen]
  obtain ⟨-, -, hw⟩ := rawWriteResult_ok hw
  rw [RawConfig.of_config] at hw
  have hp : w1.fs "p.csv".toList ≠ none := by
    rw [← (writeResult_fs hw).2.2 "p.csv".toList (by decide), h3]
    simp
  cases hc : rawWriteResult x110 (.of config110) w1 with
  | error e => exact ⟨_, rfl, hp⟩
  | ok v => exact absurd hc (he v)

/-- **C110 fails**: the result path is only looked at after everything else is done, so a run whose result cannot be written has written the
preprocessed catalogue before it says so. -/
theorem C110_fails : ¬ ∀ (x : Ext ℝ) (cfg : Config ℝ) (fs : Text → Option Content) (pos : Nat) (o : Outcome ℝ), Unusable x cfg.resultFile →
    main x cfg fs pos = some o → o.raised ≠ none ∧ o.world.fs = fs := by
  intro H
  obtain ⟨o, h1, h2⟩ := run110
  obtain ⟨-, h3⟩ := H x110 config110 _ 0 o
    (.inl ⟨"missing".toList, "result.xml".toList, by decide, by decide, by decide, by decide, by decide⟩) h1
  rw [h3] at h2
  exact h2 (if_neg (by decide))

section
variable {F : Type} [PyMath F]

/-! ### C111 -/

/-- **C111**: the section of a job that is not requested may be missing, incomplete or arbitrary: the run is the same, in its files, its context and its exception. -/
theorem C111_unrequested (x : Ext F) (r r' : RawConfig F) (h : SameRequests r r') (fs : Text → Option Content) (pos : Nat) :
    rawMain x r fs pos = rawMain x r' fs pos := by
  obtain ⟨e1, e2, e3, e4, e5, e6, e7, e8, s1, s2, s3, s4, s5⟩ := h
  have hb : rawBuild r = rawBuild r' := by
    simp only [rawBuild, preprocessingKeys, buildPreprocessing, buildProcessing, RawConfig.config, e2, e3, e4, e7, e8]
    rfl
  have key : ∀ n j, (n, j) ∈ documented → Requested r n → ∀ w, rawJob x r j w = rawJob x r' j w := by
    intro n j hn hr w
    simp only [documented, List.mem_cons, Prod.mk.injEq, List.not_mem_nil, or_false] at hn
    rcases hn with ⟨rfl, rfl⟩ | ⟨rfl, rfl⟩ | ⟨rfl, rfl⟩ | ⟨rfl, rfl⟩ | ⟨rfl, rfl⟩ | ⟨rfl, rfl⟩ | ⟨rfl, rfl⟩ | ⟨rfl, rfl⟩ | ⟨rfl, rfl⟩
    · simp only [rawJob, jobKeys, runJob, gardnerKnopoffJob, RawConfig.config, s1 hr]
    · simp only [rawJob, jobKeys, runJob, afteranJob, RawConfig.config, s2 hr]
    · simp only [rawJob, jobKeys, runJob, steppJob, RawConfig.config, s3 hr]
    · simp only [rawJob, jobKeys, runJob, recurrenceJob, RawConfig.config, s4 hr]
    · simp only [rawJob, jobKeys, runJob, createSelectedEqVectorJob]
    · simp only [rawJob, jobKeys, runJob, storePreprocessedCatalogJob, RawConfig.config, e2]
    · simp only [rawJob, jobKeys, runJob, storeCompletenessTableJob, RawConfig.config, e3]
    · simp only [rawJob, jobKeys, runJob, retrieveCompletenessTableJob, RawConfig.config, e3]
    · simp only [rawJob, jobKeys, runJob, maximumMagnitudeJob, RawConfig.config, s5 hr]
  refine rawMain_congr e4 e6 e5 hb ?_ ?_ fs pos
  · intro pre procs hbo j hj w
    obtain ⟨-, h1, -, -⟩ := rawBuild_ok hbo
    by_cases hd : ∃ n, (n, j) ∈ documented ∧ n ∈ r.config.preprocessingJobs
    · obtain ⟨n, hn, hm⟩ := hd
      exact key n j hn (.inl (listed_config.1 hm)) w
    · have hno : ¬ OnRequest j := by
        intro ho
        have : ∃ n, (n, j) ∈ documented := by
          unfold OnRequest at ho
          rcases ho with rfl | rfl | rfl | rfl | rfl <;> simp [documented]
        obtain ⟨n, hn⟩ := this
        exact hd ⟨n, hn, pre_requested h1 hj ho hn⟩
      cases j with
      | gardnerKnopoff => exact absurd (by simp [OnRequest]) hno
      | afteran => exact absurd (by simp [OnRequest]) hno
      | stepp => exact absurd (by simp [OnRequest]) hno
      | recurrence => exact absurd (by simp [OnRequest]) hno
      | maximumMagnitude => exact absurd (by simp [OnRequest]) hno
      | readEqCatalog => simp only [rawJob, jobKeys, runJob, readEqCatalogJob, RawConfig.config, e1]
      | readSourceModel => simp only [rawJob, jobKeys, runJob, readSourceModelJob, RawConfig.config, e4]
      | createDefaultSourceModel => rfl
      | createCatalogMatrix => rfl
      | createDefaultValues => rfl
      | createSelectedEqVector => rfl
      | storePreprocessedCatalog => simp only [rawJob, jobKeys, runJob, storePreprocessedCatalogJob, RawConfig.config, e2]
      | storeCompletenessTable => simp only [rawJob, jobKeys, runJob, storeCompletenessTableJob, RawConfig.config, e3]
      | retrieveCompletenessTable => simp only [rawJob, jobKeys, runJob, retrieveCompletenessTableJob, RawConfig.config, e3]
  · intro pre procs hbo ha j hj w
    obtain ⟨-, -, -, h2⟩ := rawBuild_ok hbo
    obtain ⟨n, hn, hd⟩ := named_name ((C16_processing _ _).1 h2) hj
    exact key n j hd (.inr ⟨ha, listed_config'.1 hn⟩) w

/-- **C111**, parameters: of the parameters of the recurrence analysis and the maximum magnitude analysis those that only another algorithm uses have no influence. -/
theorem C111_algorithm (x : Ext F) (cfg : Config F) (rec' : Option (RecurrenceConfig F)) (mm' : Option (MaxMagConfig F))
    (h1 : Both SameRecurrence cfg.recurrence rec') (h2 : Both SameMaxMag cfg.maximumMagnitude mm') (fs : Text → Option Content) (pos : Nat) :
    main x cfg fs pos = main x { cfg with recurrence := rec', maximumMagnitude := mm' } fs pos := by
  rw [← rawMain_of, ← rawMain_of]
  have key : ∀ j w, rawJob x (.of cfg) j w = rawJob x (.of { cfg with recurrence := rec', maximumMagnitude := mm' }) j w := by
    intro j w
    cases j <;> first | rfl | skip
    · rw [rawJob_of x _ _ _ (by rintro ⟨⟩), rawJob_of x _ _ _ (by rintro ⟨⟩)]
      simp only [runJob, recurrenceJob]
      cases attr w.ctx.currentFilteredEq with
      | error e => rfl
      | ok m =>
        simp only [bind, Except.bind]
        cases m.cols with
        | error e => rfl
        | ok rows =>
          simp only
          cases hc : cfg.recurrence with
          | none =>
            rw [hc] at h1
            cases rec' with
            | none => rfl
            | some c => exact h1.elim
          | some c =>
            rw [hc] at h1
            cases rec' with
            | none => exact h1.elim
            | some c' =>
              obtain ⟨k1, k2, k3, k4⟩ := h1
              simp only [section_]
              cases notNone w.ctx.completenessTable with
              | error e => rfl
              | ok table =>
                simp only [recurrenceAnalysis, ← k1, ← k2, ← k3]
                by_cases ha : c.algorithm = "Weichert"
                · rw [k4 ha]
                · rw [if_neg ha, if_neg ha]
    · rw [rawJob_of x _ _ _ (by rintro ⟨⟩), rawJob_of x _ _ _ (by rintro ⟨⟩)]
      simp only [runJob, maximumMagnitudeJob]
      cases attr w.ctx.currentFilteredEq with
      | error e => rfl
      | ok m =>
        simp only [bind, Except.bind]
        cases m.cols with
        | error e => rfl
        | ok rows =>
          simp only
          cases hc : cfg.maximumMagnitude with
          | none =>
            rw [hc] at h2
            cases mm' with
            | none => rfl
            | some c => exact h2.elim
          | some c =>
            rw [hc] at h2
            cases mm' with
            | none => exact h2.elim
            | some c' =>
              obtain ⟨k1, k2, k3⟩ := h2
              simp only [section_, analysis, drawn, ← k1]
              by_cases ha : c.algorithm = "Kijko_Npg"
              · obtain ⟨q1, q2, q3, q4⟩ := k2 ha
                have hne : ¬ c.algorithm = "Cumulative_Moment" := by rw [ha]; decide
                rw [if_pos ha, if_pos ha, if_neg hne, if_neg hne, q1, q2, q3, q4]
              · rw [if_neg ha, if_neg ha]
                by_cases hm : c.algorithm = "Cumulative_Moment"
                · rw [k3 hm]
                · rw [if_neg hm, if_neg hm, if_neg hm, if_neg hm]
  exact rawMain_congr (x := x) (r := .of cfg) (r' := .of { cfg with recurrence := rec', maximumMagnitude := mm' }) rfl rfl rfl rfl (fun _ _ _ j _ w => key j w) (fun _ _ _ _ j _ w => key j w) fs pos

/-! ### C112 -/

/-- **C112**, what holds: a run that ends normally had all it needs in the configuration file. -/
theorem C112_raises_partial (x : Ext F) (r : RawConfig F) (fs : Text → Option Content) (pos : Nat) (o : Outcome F) (h : rawMain x r fs pos = some o)
    (hc : ¬ Complete r) : o.raised ≠ none := by
  classical
  intro hr
  obtain ⟨e, w⟩ := o
  simp only at hr
  subst hr
  apply hc
  obtain ⟨pre, procs, hb, h1, h2, h3, p, hp⟩ := rawMain_keys h
  obtain ⟨k1, k2, k3, k4⟩ := rawBuild_ok hb
  obtain ⟨m1, m2, m3, m4⟩ := preprocessingKeys_ok k1
  obtain ⟨js, hjs, hpre⟩ := (C16_preprocessing r.config pre).1 k2
  refine ⟨⟨?_, m1, ⟨p, hp⟩, h2, m2, k3⟩, m3, m4, ?_⟩
  · obtain ⟨v, hv⟩ := h1 .readEqCatalog (by rw [hpre]; simp)
    cases hk : r.eqCatalogFile with
    | missing => simp only [jobKeys, hk] at hv; cases hv
    | null => simp only [jobKeys, hk] at hv; cases hv
    | given q => exact ⟨q, rfl⟩
  · rintro n (hn | ⟨ha, hn⟩)
    · obtain ⟨j, hj, hd⟩ := named_job hjs (listed_config.2 hn)
      obtain ⟨v, hv⟩ := h1 j (by rw [hpre]; simp [hj])
      exact jobKeys_section hd hv
    · obtain ⟨j, hj, hd⟩ := named_job ((C16_processing _ _).1 k4) (listed_config'.2 hn)
      obtain ⟨v, hv⟩ := h3 ha j hj
      exact jobKeys_section hd hv

/-- **C112**, what holds: what is looked up when the pipelines are built, and the name of the catalogue, is missed before anything is written. -/
theorem C112_at_start_partial (x : Ext F) (r : RawConfig F) (hm : MissingAtStart r) (fs : Text → Option Content) (pos : Nat) :
    ∃ e, rawMain x r fs pos = some ⟨some e, ⟨fs, pos, {}⟩⟩ := by
  unfold rawMain
  simp only
  cases hb : rawBuild r with
  | error e => exact ⟨e, rfl⟩
  | ok p =>
    obtain ⟨pre, procs⟩ := p
    obtain ⟨k1, k2, k3, -⟩ := rawBuild_ok hb
    obtain ⟨m1, m2, m3, m4⟩ := preprocessingKeys_ok k1
    rcases hm with hm | hm | hm | ⟨hn, hm⟩ | ⟨hn, hm⟩ | hm
    · exact absurd hm m1
    · exact absurd hm m2
    · exact absurd hm k3
    · exact absurd hm (m3 hn)
    · exact absurd hm (m4 hn)
    · obtain ⟨js, -, rfl⟩ := (C16_preprocessing r.config pre).1 k2
      have : ∃ e, ∀ w : World F, rawJob x r .readEqCatalog w = some (.error e) := by
        cases hk : r.eqCatalogFile with
        | missing => exact ⟨.keyError, fun w => by simp only [rawJob, jobKeys, hk]; rfl⟩
        | null => exact ⟨.typeError, fun w => by simp only [rawJob, jobKeys, hk]; rfl⟩
        | given q => exact absurd hk (hm q)
      obtain ⟨e, he⟩ := this
      refine ⟨e, ?_⟩
      simp only [rawStart, List.cons_append, rawPipeline, he, andThen]

/-- **C112**, what holds: if no intermediate output is asked for, nothing is written by a run that misses something. -/
theorem C112_nothing_written_partial (x : Ext F) (r : RawConfig F) (hc : ¬ Complete r) (ha : ¬ AsksForOutput r.config) (fs : Text → Option Content) (pos : Nat)
    (o : Outcome F) (h : rawMain x r fs pos = some o) : o.raised ≠ none ∧ o.world.fs = fs := by
  have hr := C112_raises_partial x r fs pos o h hc
  refine ⟨hr, funext fun q => rawMain_frame h q ?_ (.inl hr)⟩
  intro pre procs hb
  obtain ⟨-, h1, -, h2⟩ := rawBuild_ok hb
  exact no_output ha h1 h2 q

end

/-! ### The run in which the result file is not named -/

/-- The configuration of the example run without the key `result_file`. -/
noncomputable def raw112 : RawConfig ℝ := { RawConfig.of config31 with resultFile := .missing }

theorem run112 : ∃ w, rawMain x31 raw112 (fs31 "5") 0 = some ⟨some .keyError, w⟩ ∧ w.fs "p.csv".toList ≠ none := by
  obtain ⟨w, h⟩ := run31_exists
  obtain ⟨_, es, _, t, flags, sel, -, -, -, -, -, -, h3, -⟩ := C26_run x31 config31 _ 0 w h (List.cons_ne_nil _ _) "p.csv".toList "t.txt".toList rfl
    (by decide) rfl (by decide) (by decide) (by decide) (fun n hn => .inl (List.mem_singleton.1 hn))
  rw [← rawMain_of] at h
  obtain ⟨pre, procs, w1, hb, hs, hw⟩ := rawMain_ok h
  have hb' : rawBuild raw112 = .ok (pre, procs) := hb
  have hj : ∀ j w, rawJob x31 (.of config31) j w = rawJob x31 raw112 j w := fun j w => by cases j <;> rfl
  rw [rawStart_congr (x := x31) (r := .of config31) (x' := x31) (r' := raw112) rfl rfl (fun j _ => hj j) (fun _ j _ => hj j)] at hs
  obtain ⟨-, -, hw⟩ := rawWriteResult_ok hw
  rw [RawConfig.of_config] at hw
  refine ⟨w1, ?_, ?_⟩
  · unfold rawMain
    simp only [hb', hs, andThen]
    rfl
  · rw [← (writeResult_fs hw).2.2 "p.csv".toList (by decide), h3]
    simp

theorem not_complete112 : ¬ Complete raw112 := by
  rintro ⟨⟨-, -, ⟨p, hp⟩, -, -, -⟩, -, -, -⟩
  cases hp

/-- **C112 fails**: without the key `result_file` the whole run is made and the preprocessed catalogue is written before the missing key is noticed. -/
theorem C112_fails : ¬ ∀ (x : Ext ℝ) (r : RawConfig ℝ) (fs : Text → Option Content) (pos : Nat) (o : Outcome ℝ), ¬ Complete r →
    rawMain x r fs pos = some o → o.raised ≠ none ∧ o.world.fs = fs := by
  intro H
  obtain ⟨w, h1, h2⟩ := run112
  obtain ⟨-, h3⟩ := H x31 raw112 _ 0 _ not_complete112 h1
  simp only at h3
  rw [h3] at h2
  exact h2 (if_neg (by decide))

/-! ### Cases that meet the hypotheses -/

/-- The example run with an arbitrary section `Stepp`; the list of jobs does not name it. -/
example : ∃ w, rawMain x31 { RawConfig.of config31 with stepp := .given ⟨none, some 5, none, none⟩ } (fs31 "5") 0 = some ⟨none, w⟩ := by
  have hr : SameRequests { RawConfig.of config31 with stepp := .given ⟨none, some 5, none, none⟩ } (.of config31) := by
    refine ⟨rfl, rfl, rfl, rfl, rfl, rfl, rfl, rfl, fun _ => rfl, fun _ => rfl, ?_, fun _ => rfl, fun _ => rfl⟩
    rintro (⟨l, hl, hn⟩ | ⟨-, l, hl, hn⟩)
    · cases hl
      exact absurd (List.mem_singleton.1 hn) (by decide)
    · cases hl
      exact absurd (List.mem_singleton.1 hn) (by decide)
  rw [C111_unrequested x31 _ _ hr, rawMain_of]
  exact run31_exists

/-- The example run uses the maximum likelihood method: its time window does not matter. -/
example : ∃ w, main x31 { config31 with recurrence := some ⟨1, "MLE", 4, 77⟩ } (fs31 "5") 0 = some ⟨none, w⟩ := by
  obtain ⟨w, h⟩ := run31_exists
  exact ⟨w, (C111_algorithm x31 config31 (some ⟨1, "MLE", 4, 77⟩) none ⟨rfl, rfl, rfl, fun h => absurd h (by decide)⟩ trivial _ 0).symm.trans h⟩

/-- The example run without the list of processing jobs. -/
example : ∃ e, rawMain x31 { RawConfig.of config31 with processingJobs := .missing } (fs31 "5") 0 = some ⟨some e, ⟨fs31 "5", 0, {}⟩⟩ :=
  C112_at_start_partial x31 _ (.inr (.inr (.inl rfl))) _ 0

/-- A configuration that names the result file but not the directory it is in asks for no output if the preprocessing result file is not configured. -/
example : ¬ AsksForOutput { config110 with pprocessingResultFile := none } ∧ Unusable x110 config110.resultFile := by
  refine ⟨?_, .inl ⟨"missing".toList, "result.xml".toList, by decide, by decide, by decide, by decide, by decide⟩⟩
  rintro (⟨-, t, ht, -⟩ | ⟨n, hn, h⟩)
  · cases ht
  · have hn' : n ∈ ["GardnerKnopoff", "Recurrence"] := hn
    have : n = "GardnerKnopoff" ∨ n = "Recurrence" := by simpa only [List.mem_cons, List.not_mem_nil, or_false] using hn'
    rcases this with rfl | rfl <;> rcases h with h | h <;> exact absurd h (by decide)

end Verif.Workflow
