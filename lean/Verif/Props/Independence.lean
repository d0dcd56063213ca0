import Verif.Props.Equivalence

/-!
# C132, C133: the two analyses of a source do not influence each other
-/

namespace Verif.Workflow

open Verif Verif.EqCatalog Verif.Csv Verif.Nrml Verif.Declustering Verif.Recurrence Verif.MaxMag Spec

section
variable {F : Type} [PyMath F]

/-! ### Pairs of successful runs -/

/-- What is known of two configurations, for a part `K` of the world: the jobs that count change it alike, the others not at all. -/
structure Agree {γ : Type} (x : Ext F) (cfg cfg' : Config F) (rel : Job → Bool) (K : World F → γ) : Prop where
  skip : ∀ n j w w', (n, j) ∈ documented → rel j = false → Succeeds x cfg j w w' → K w' = K w
  skip' : ∀ n j w w', (n, j) ∈ documented → rel j = false → Succeeds x cfg' j w w' → K w' = K w
  step : ∀ n j w v w' v', (n, j) ∈ documented → rel j = true → K w = K v → Succeeds x cfg j w w' → Succeeds x cfg' j v v' → K w' = K v'
  turn : ∀ w v i m, K w = K v → K (w.turn i m) = K (v.turn i m)
  working : ∀ w v, K w = K v → w.ctx.workingCatalog = v.ctx.workingCatalog
  sources : ∀ w v, K w = K v → w.ctx.smDefinitions.map (List.map fun s => s.area.boundary) = v.ctx.smDefinitions.map (List.map fun s => s.area.boundary)
  processing : cfg'.applyProcessing = cfg.applyProcessing
  catalogue : cfg'.eqCatalogFile = cfg.eqCatalogFile
  model : cfg'.sourceModelFile = cfg.sourceModelFile

/-- Jobs that a configuration can name. -/
def Nameable (js : List Job) : Prop := ∀ j ∈ js, ∃ n, (n, j) ∈ documented

theorem chain_agree {γ : Type} {x : Ext F} {cfg cfg' : Config F} {rel : Job → Bool} {K : World F → γ} (hA : Agree x cfg cfg' rel K) {js js' : List Job}
    (hn : Nameable js) (hn' : Nameable js') (hf : js.filter rel = js'.filter rel) {w v w' v' : World F} (h : K w = K v)
    (hc : Chain (Succeeds x cfg) js w w') (hc' : Chain (Succeeds x cfg') js' v v') : K w' = K v' := by
  induction js generalizing js' w v with
  | nil =>
    cases hc
    induction js' generalizing v with
    | nil => cases hc'; exact h
    | cons k js' ih =>
      obtain _ | ⟨_, _, _, v1, _, hk, hc'⟩ := hc'
      obtain ⟨n, hd⟩ := hn' k (by simp)
      cases hr : rel k with
      | true => simp [hr] at hf
      | false =>
        exact ih (fun j hj => hn' j (by simp [hj])) (by simpa [hr] using hf) hc' (h.trans (hA.skip' n k v v1 hd hr hk).symm)
  | cons j js ih =>
    obtain _ | ⟨_, _, _, w1, _, hj, hc⟩ := hc
    obtain ⟨n, hd⟩ := hn j (by simp)
    have hn1 : Nameable js := fun j hj => hn j (by simp [hj])
    cases hr : rel j with
    | false => exact ih hn1 hn' (by simpa [hr] using hf) ((hA.skip n j w w1 hd hr hj).trans h) hc hc'
    | true =>
      induction js' generalizing v with
      | nil => simp [hr] at hf
      | cons k js' ih' =>
        obtain _ | ⟨_, _, _, v1, _, hk, hc'⟩ := hc'
        obtain ⟨n', hd'⟩ := hn' k (by simp)
        have hn1' : Nameable js' := fun j hj => hn' j (by simp [hj])
        cases hr' : rel k with
        | false => exact ih' hn1' (by simpa [hr'] using hf) (h.trans (hA.skip' n' k v v1 hd' hr' hk).symm) hc'
        | true =>
          simp only [List.filter_cons, hr, hr', if_true, List.cons.injEq] at hf
          obtain ⟨rfl, hf⟩ := hf
          exact ih hn1 hn1' hf (hA.step n j w v w1 v1 hd hr h hj hk) hc hc'

omit [PyMath F] in
/-- The filter looks at the boundary of the source only. -/
theorem chosenFilter_boundary (x : Ext F) {cfg cfg' : Config F} (hm : cfg'.sourceModelFile = cfg.sourceModelFile) {s s' : Source F}
    (h : s.area.boundary = s'.area.boundary) (m : Matrix F) : chosenFilter x cfg' s' m = chosenFilter x cfg s m := by
  unfold chosenFilter
  rw [hm]
  split
  · unfold sourceModelFilter; rw [h]
  · rfl

theorem sources_agree {γ : Type} {x : Ext F} {cfg cfg' : Config F} {rel : Job → Bool} {K : World F → γ} (hA : Agree x cfg cfg' rel K) {procs procs' : List Job}
    (hn : Nameable procs) (hn' : Nameable procs') (hf : procs.filter rel = procs'.filter rel) (working : Matrix F) (is : List Nat) {w v w' v' : World F} (h : K w = K v)
    (hc : Chain (ProcessesSource x cfg (chosenFilter x cfg) procs working) is w w')
    (hc' : Chain (ProcessesSource x cfg' (chosenFilter x cfg') procs' working) is v v') : K w' = K v' := by
  induction is generalizing w v with
  | nil => cases hc; cases hc'; exact h
  | cons i is ih =>
    obtain _ | ⟨_, _, _, w1, _, ⟨d, s, m, hd, hs, hm, hj⟩, hc⟩ := hc
    obtain _ | ⟨_, _, _, v1, _, ⟨d', s', m', hd', hs', hm', hj'⟩, hc'⟩ := hc'
    have hb := hA.sources w v h
    rw [hd, hd', Option.map_some, Option.map_some, Option.some.injEq] at hb
    have hb' := congrArg (·[i]?) hb
    simp only [List.getElem?_map, hs, hs', Option.map_some, Option.some.injEq] at hb'
    rw [chosenFilter_boundary x hA.model hb', hm] at hm'
    cases hm'
    exact ih (chain_agree hA hn hn' hf (hA.turn w v i m h) hj hj') hc hc'

theorem InputSources.unique {x : Ext F} {cfg : Config F} {fs : Text → Option Content} {a b : List (AreaSource F)} (h : InputSources x cfg fs a)
    (h' : InputSources x cfg fs b) : a = b := by
  rcases h with ⟨p, doc, hp, hm, hd, hr⟩ | ⟨hm, rfl⟩
  · rcases h' with ⟨p', doc', hp', hm', hd', hr'⟩ | ⟨hm', -⟩
    · rw [hm] at hm'
      cases hm'
      have : doc' = doc := by
        rcases hd with hd | ⟨t, hd, ht⟩
        · rcases hd' with hd' | ⟨t', hd', ht'⟩
          · rw [hd] at hd'; cases hd'; rfl
          · rw [hd] at hd'; cases hd'
        · rcases hd' with hd' | ⟨t', hd', ht'⟩
          · rw [hd] at hd'; cases hd'
          · rw [hd] at hd'; cases hd'; rw [ht] at ht'; cases ht'; rfl
      subst this
      rw [hr] at hr'
      exact Except.ok.inj hr'
    · exact absurd ⟨p, hm, hp⟩ hm'
  · rcases h' with ⟨p', _, hp', hm', _⟩ | ⟨-, rfl⟩
    · exact absurd ⟨p', hm', hp'⟩ hm
    · rfl

theorem named_nameable {names : List String} {js : List Job} (h : Named names js) : Nameable js := fun _ hj => named_mem h hj

/-- Two successful runs agree, before the result is written. -/
theorem run_agree {γ : Type} {x : Ext F} {cfg cfg' : Config F} {rel : Job → Bool} {K : World F → γ} (hA : Agree x cfg cfg' rel K)
    {js js' tail tail' procs procs' : List Job} (hn : Nameable js) (hn' : Nameable js') (ht : Nameable tail) (ht' : Nameable tail') (hp : Nameable procs)
    (hp' : Nameable procs') (hjs : (js ++ tail).filter rel = (js' ++ tail').filter rel) (hprocs : procs.filter rel = procs'.filter rel)
    {fs fs' : Text → Option Content} {pos pos' : Nat} (hc : fs' cfg.eqCatalogFile = fs cfg.eqCatalogFile) (hm : ∀ m, cfg.sourceModelFile = some m → fs' m = fs m)
    (hK : ∀ es d rows my mm, K (prepared fs pos es d rows my mm) = K (prepared fs' pos' es d rows my mm)) {w v : World F}
    (h : start x cfg (chosenFilter x cfg) (compulsoryJobs cfg ++ js ++ tail) procs ⟨fs, pos, {}⟩ = some ⟨none, w⟩)
    (h' : start x cfg' (chosenFilter x cfg') (compulsoryJobs cfg' ++ js' ++ tail') procs' ⟨fs', pos', {}⟩ = some ⟨none, v⟩) : K w = K v := by
  have key : ∀ w0 v0 : World F, Chain (Succeeds x cfg) (compulsoryJobs cfg ++ js ++ tail) ⟨fs, pos, {}⟩ w0 →
      Chain (Succeeds x cfg') (compulsoryJobs cfg' ++ js' ++ tail') ⟨fs', pos', {}⟩ v0 → K w0 = K v0 := by
    intro w0 v0 h1 h2
    rw [List.append_assoc, Chain.append_iff] at h1 h2
    obtain ⟨w1, c1, h1⟩ := h1
    obtain ⟨v1, c2, h2⟩ := h2
    obtain ⟨file, es, inputs, rows, my, mm, hfile, hes, hi, -, hrows, -, hmy, hmm, rfl⟩ := (compulsory_iff x cfg fs pos w1).1 c1
    obtain ⟨file', es', inputs', rows', my', mm', hfile', hes', hi', -, hrows', -, hmy', hmm', rfl⟩ := (compulsory_iff x cfg' fs' pos' v1).1 c2
    rw [hA.catalogue, hc, hfile] at hfile'
    cases hfile'
    rw [hes] at hes'
    cases hes'
    rw [hrows] at hrows'
    cases hrows'
    rw [hmy] at hmy'
    cases hmy'
    rw [hmm] at hmm'
    cases hmm'
    obtain rfl := InputSources.unique (InputSources.congr hA.model hm hi) hi'
    refine chain_agree hA ?_ ?_ hjs (hK _ _ _ _ _) h1 h2
    · intro j hj
      rcases List.mem_append.1 hj with hj | hj
      · exact hn j hj
      · exact ht j hj
    · intro j hj
      rcases List.mem_append.1 hj with hj | hj
      · exact hn' j hj
      · exact ht' j hj
  by_cases hap : cfg.applyProcessing = true
  · obtain ⟨w0, d, wk, c1, hd, hwk, c2⟩ := (C19_once_in_order x cfg _ _ _ _ w hap).1 h
    obtain ⟨v0, d', wk', c1', hd', hwk', c2'⟩ := (C19_once_in_order x cfg' _ _ _ _ v (by rw [hA.processing, hap])).1 h'
    have hk := key w0 v0 c1 c1'
    have e1 := hA.working w0 v0 hk
    rw [hwk, hwk'] at e1
    cases e1
    have e2 := hA.sources w0 v0 hk
    rw [hd, hd', Option.map_some, Option.map_some, Option.some.injEq] at e2
    have e3 : d'.length = d.length := by simpa using (congrArg List.length e2).symm
    rw [e3] at c2'
    exact sources_agree hA hp hp' hprocs wk _ hk c2 c2'
  · have hap : cfg.applyProcessing = false := by simpa using hap
    rw [C20_disabled x cfg _ _ _ _ hap] at h
    rw [C20_disabled x cfg' _ _ _ _ (by rw [hA.processing, hap])] at h'
    exact key w v ((C18_in_order x cfg _ _ _).1 h) ((C18_in_order x cfg' _ _ _).1 h')

/-! ### Names of jobs -/

/-- The same jobs of the kinds `kinds`, in the same order. -/
def Spec.SameJobs (kinds : List String) (names names' : List String) : Prop :=
  names.filter (fun n => decide (n ∈ kinds)) = names'.filter (fun n => decide (n ∈ kinds))

omit [PyMath F] in
theorem named_filter {kinds : List String} {rel : Job → Bool} (hk : ∀ n j, (n, j) ∈ documented → decide (n ∈ kinds) = rel j) {names : List String} {js : List Job}
    (h : Named names js) : Named (names.filter fun n => decide (n ∈ kinds)) (js.filter rel) := by
  unfold Named at h ⊢
  induction h with
  | nil => exact .nil
  | @cons n j ns js hj _ ih =>
    have := hk n j hj
    cases hr : rel j with
    | true => rw [List.filter_cons_of_pos (by rw [this, hr]), List.filter_cons_of_pos hr]; exact .cons hj ih
    | false => rw [List.filter_cons_of_neg (by rw [this, hr]; simp), List.filter_cons_of_neg (by rw [hr]; simp)]; exact ih

omit [PyMath F] in
theorem named_unique {names : List String} {js js' : List Job} (h : Named names js) (h' : Named names js') : js = js' := by
  unfold Named at h h'
  induction h generalizing js' with
  | nil => cases h'; rfl
  | @cons n j ns js hj _ ih =>
    obtain _ | ⟨hj', h'⟩ := h'
    rw [ih h']
    congr 1
    revert hj hj'
    simp only [documented, List.mem_cons, Prod.mk.injEq, List.not_mem_nil, or_false]
    rintro (⟨rfl, rfl⟩ | ⟨rfl, rfl⟩ | ⟨rfl, rfl⟩ | ⟨rfl, rfl⟩ | ⟨rfl, rfl⟩ | ⟨rfl, rfl⟩ | ⟨rfl, rfl⟩ | ⟨rfl, rfl⟩ | ⟨rfl, rfl⟩) <;> simp <;> exact Eq.symm

omit [PyMath F] in
theorem same_filter {kinds : List String} {rel : Job → Bool} (hk : ∀ n j, (n, j) ∈ documented → decide (n ∈ kinds) = rel j) {names names' : List String}
    {js js' : List Job} (h : Named names js) (h' : Named names' js') (hs : SameJobs kinds names names') : js.filter rel = js'.filter rel :=
  named_unique (named_filter hk h) (by rw [hs]; exact named_filter hk h')

omit [PyMath F] in
theorem map_modify {β : Type} {φ : Source F → β} {f : Source F → Source F} (hf : ∀ s s', φ s = φ s' → φ (f s) = φ (f s')) {d d' : List (Source F)}
    (h : d.map φ = d'.map φ) (i : Nat) : (d.modify i f).map φ = (d'.modify i f).map φ := by
  apply List.ext_getElem?
  intro k
  have := congrArg (·[k]?) h
  simp only [List.getElem?_map] at this
  simp only [List.getElem?_map, List.getElem?_modify]
  cases h1 : d[k]? with
  | none =>
    cases h2 : d'[k]? with
    | none => rfl
    | some s' => simp [h1, h2] at this
  | some s =>
    cases h2 : d'[k]? with
    | none => simp [h1, h2] at this
    | some s' =>
      simp only [h1, h2, Option.map_some, Option.some.injEq] at this
      by_cases hik : i = k
      · simp [hik, hf s s' this]
      · simp [hik, this]

omit [PyMath F] in
theorem map_modify_self {β : Type} {φ : Source F → β} {f : Source F → Source F} (hf : ∀ s, φ (f s) = φ s) (d : List (Source F)) (i : Nat) :
    (d.modify i f).map φ = d.map φ := by
  apply List.ext_getElem?
  intro k
  simp only [List.getElem?_map, List.getElem?_modify]
  cases h1 : d[k]? with
  | none => rfl
  | some s =>
    by_cases hik : i = k
    · simp [hik, hf s]
    · simp [hik]

/-- The jobs appended to the preprocessing can be named. -/
theorem tail_nameable (p q r : Prop) [Decidable p] [Decidable q] [Decidable r] :
    Nameable (if p then (if q then [.createSelectedEqVector, .storePreprocessedCatalog, .storeCompletenessTable] else [])
      else if r then [.retrieveCompletenessTable] else []) := by
  intro j hj
  split_ifs at hj <;> simp only [List.mem_cons, List.not_mem_nil, or_false] at hj
  · rcases hj with rfl | rfl | rfl
    · exact ⟨"Create_eq_vector", by simp [documented]⟩
    · exact ⟨"Store_eq_catalog", by simp [documented]⟩
    · exact ⟨"Store_completeness_table", by simp [documented]⟩
  · subst hj
    exact ⟨"Retrieve_completeness_table", by simp [documented]⟩

/-! ### C132 -/

/-- What the maximum magnitude analysis leaves in a source, and the boundary. -/
def maxPart (s : Source F) : AreaBoundary F × F × Option F := (s.area.boundary, s.area.rate.tgr.maxMagnitude, s.maxMagSigma)

/-- What the maximum magnitude analysis depends on and changes. -/
def maxWorld (w : World F) : Option (List (AreaBoundary F × F × Option F)) × Option (Matrix F) × Option (Matrix F) × Option (Matrix F) × Option Nat × Nat :=
  (w.ctx.smDefinitions.map (List.map maxPart), w.ctx.catalogMatrix, w.ctx.workingCatalog, w.ctx.currentFilteredEq, w.ctx.curSm, w.pos)

/-- The jobs that influence the maximum magnitude. -/
def maxJob : Job → Bool
  | .gardnerKnopoff | .afteran | .maximumMagnitude => true
  | _ => false

/-- Configurations with the same catalogue, source model, declustering and maximum magnitude settings. -/
structure Spec.SameMaximum (cfg cfg' : Config F) : Prop where
  catalogue : cfg'.eqCatalogFile = cfg.eqCatalogFile
  model : cfg'.sourceModelFile = cfg.sourceModelFile
  processing : cfg'.applyProcessing = cfg.applyProcessing
  gardnerKnopoff : cfg'.gardnerKnopoff = cfg.gardnerKnopoff
  afteran : cfg'.afteran = cfg.afteran
  maximumMagnitude : cfg'.maximumMagnitude = cfg.maximumMagnitude
  preprocessingJobs : SameJobs ["GardnerKnopoff", "Afteran", "MaximumMagnitude"] cfg.preprocessingJobs cfg'.preprocessingJobs
  processingJobs : SameJobs ["GardnerKnopoff", "Afteran", "MaximumMagnitude"] cfg.processingJobs cfg'.processingJobs

theorem max_skip {x : Ext F} {cfg : Config F} {n : String} {j : Job} {w w' : World F} (hn : (n, j) ∈ documented) (hr : maxJob j = false)
    (h : Succeeds x cfg j w w') : maxWorld w' = maxWorld w := by
  unfold Succeeds at h
  cases j with
  | gardnerKnopoff => cases hr
  | afteran => cases hr
  | maximumMagnitude => cases hr
  | readSourceModel => simp [documented] at hn
  | createDefaultSourceModel => simp [documented] at hn
  | readEqCatalog => simp [documented] at hn
  | createCatalogMatrix => simp [documented] at hn
  | createDefaultValues => simp [documented] at hn
  | recurrence =>
    obtain ⟨i, d, m, f, hi, hd, hl, -, ⟨_, _, c, g, -, -, -, -, rfl⟩, rfl⟩ := recurrenceJob_ok.1 h
    simp only [maxWorld, World.setSource, hd, Option.map_some]
    rw [map_modify_self (φ := maxPart) (f := withRecurrence c.referenceMagnitude g) (fun s => rfl)]
  | stepp =>
    simp only [runJob, Option.some.injEq] at h
    unfold steppJob at h
    obtain ⟨_, -, h⟩ := bind_ok h
    obtain ⟨_, -, h⟩ := bind_ok h
    obtain ⟨_, -, h⟩ := bind_ok h
    obtain ⟨_, -, h⟩ := bind_ok h
    cases h
    rfl
  | createSelectedEqVector =>
    simp only [runJob, Option.some.injEq] at h
    unfold createSelectedEqVectorJob at h
    obtain ⟨_, -, h⟩ := bind_ok h
    obtain ⟨_, -, h⟩ := bind_ok h
    obtain ⟨_, -, h⟩ := bind_ok h
    obtain ⟨_, -, h⟩ := bind_ok h
    obtain ⟨_, -, h⟩ := bind_ok h
    cases h
    rfl
  | storePreprocessedCatalog =>
    simp only [runJob, Option.some.injEq] at h
    unfold storePreprocessedCatalogJob at h
    simp only at h
    split at h
    · obtain ⟨_, h1, h⟩ := bind_ok h
      obtain ⟨p', h2, h⟩ := bind_ok h
      obtain ⟨_, -, h⟩ := bind_ok h
      obtain ⟨_, -, h⟩ := bind_ok h
      obtain ⟨_, -, h⟩ := bind_ok h
      obtain ⟨_, -, h⟩ := bind_ok h
      cases h
      rfl
    · cases h
  | storeCompletenessTable =>
    simp only [runJob, Option.some.injEq] at h
    unfold storeCompletenessTableJob at h
    simp only at h
    split at h
    · obtain ⟨_, h1, h⟩ := bind_ok h
      obtain ⟨_, -, h⟩ := bind_ok h
      obtain ⟨_, -, h⟩ := bind_ok h
      cases h
      rfl
    · cases h
  | retrieveCompletenessTable =>
    simp only [runJob, Option.some.injEq] at h
    unfold retrieveCompletenessTableJob at h
    obtain ⟨_, -, h⟩ := bind_ok h
    split at h
    · cases h
    · cases h
    · obtain ⟨_, -, h⟩ := bind_ok h
      cases h
      rfl

theorem max_agree (x : Ext F) {cfg cfg' : Config F} (hS : SameMaximum cfg cfg') : Agree x cfg cfg' maxJob maxWorld where
  skip := fun n j w w' hn hr h => max_skip hn hr h
  skip' := fun n j w w' hn hr h => max_skip hn hr h
  step := by
    intro n j w v w' v' hn hr hk h h'
    simp only [maxWorld, Prod.mk.injEq] at hk
    obtain ⟨k1, k2, k3, k4, k5, k6⟩ := hk
    unfold Succeeds at h h'
    cases j with
    | gardnerKnopoff =>
      simp only [runJob, Option.some.injEq] at h h'
      unfold gardnerKnopoffJob at h h'
      rw [hS.gardnerKnopoff, ← k3] at h'
      obtain ⟨c, hc, h⟩ := bind_ok h
      obtain ⟨c', hc', h'⟩ := bind_ok h'
      rw [hc] at hc'
      cases hc'
      obtain ⟨c, hc, h⟩ := bind_ok h
      obtain ⟨c', hc', h'⟩ := bind_ok h'
      rw [hc] at hc'
      cases hc'
      obtain ⟨c, hc, h⟩ := bind_ok h
      obtain ⟨c', hc', h'⟩ := bind_ok h'
      rw [hc] at hc'
      cases hc'
      obtain ⟨c, hc, h⟩ := bind_ok h
      obtain ⟨c', hc', h'⟩ := bind_ok h'
      rw [hc] at hc'
      cases hc'
      cases h
      cases h'
      simp only [maxWorld, storeDeclustered, k1, k2, k4, k5, k6]
    | afteran =>
      simp only [runJob, Option.some.injEq] at h h'
      unfold afteranJob at h h'
      rw [hS.afteran, ← k2] at h'
      obtain ⟨c, hc, h⟩ := bind_ok h
      obtain ⟨c', hc', h'⟩ := bind_ok h'
      rw [hc] at hc'
      cases hc'
      obtain ⟨c, hc, h⟩ := bind_ok h
      obtain ⟨c', hc', h'⟩ := bind_ok h'
      rw [hc] at hc'
      cases hc'
      obtain ⟨c, hc, h⟩ := bind_ok h
      obtain ⟨c', hc', h'⟩ := bind_ok h'
      rw [hc] at hc'
      cases hc'
      obtain ⟨c, hc, h⟩ := bind_ok h
      obtain ⟨c', hc', h'⟩ := bind_ok h'
      rw [hc] at hc'
      cases hc'
      cases h
      cases h'
      simp only [maxWorld, storeDeclustered, k1, k2, k4, k5, k6]
    | maximumMagnitude =>
      obtain ⟨i, d, m, f, p, hi, hd, -, hm, ⟨rows, c, r, hrows, hc, ha, rfl, rfl⟩, rfl⟩ := maximumMagnitudeJob_ok.1 h
      obtain ⟨i', d', m', f', p', hi', hd', -, hm', ⟨rows', c', r', hrows', hc', ha', rfl, rfl⟩, rfl⟩ := maximumMagnitudeJob_ok.1 h'
      rw [← k5, hi] at hi'
      cases hi'
      rw [← k4, hm] at hm'
      cases hm'
      rw [hrows] at hrows'
      cases hrows'
      rw [hS.maximumMagnitude, hc] at hc'
      cases hc'
      rw [← k6, ha] at ha'
      cases ha'
      rw [hd, hd', Option.map_some, Option.map_some, Option.some.injEq] at k1
      simp only [maxWorld, World.setSource, Option.map_some, k2, k3, k4, k5, k6]
      rw [map_modify (f := withMaxMag r) (fun s s' h => ?_) k1]
      simp only [maxPart, Prod.mk.injEq] at h ⊢
      exact ⟨h.1, rfl, rfl⟩
    | _ => cases hr
  turn := by
    intro w v i m hk
    simp only [maxWorld, Prod.mk.injEq] at hk
    obtain ⟨k1, k2, k3, k4, k5, k6⟩ := hk
    simp only [maxWorld, World.turn, k1, k2, k3, k6]
  working := by
    intro w v hk
    simp only [maxWorld, Prod.mk.injEq] at hk
    exact hk.2.2.1
  sources := by
    intro w v hk
    simp only [maxWorld, Prod.mk.injEq] at hk
    have := congrArg (Option.map (List.map Prod.fst)) hk.1
    simpa only [Option.map_map, List.map_map, Function.comp_def, maxPart] using this
  processing := hS.processing
  catalogue := hS.catalogue
  model := hS.model

/-- **C132**: two runs that end without exception, of configurations that agree in the catalogue, the source model, the declustering and the settings of the
maximum magnitude analysis, give every source the same maximum magnitude and uncertainty, whatever is configured for the completeness and the recurrence. -/
theorem C132_maximum (x : Ext F) (cfg cfg' : Config F) (hS : SameMaximum cfg cfg') (fs fs' : Text → Option Content) (pos : Nat)
    (hc : fs' cfg.eqCatalogFile = fs cfg.eqCatalogFile) (hm : ∀ m, cfg.sourceModelFile = some m → fs' m = fs m) (w w' : World F)
    (h : main x cfg fs pos = some ⟨none, w⟩) (h' : main x cfg' fs' pos = some ⟨none, w'⟩) :
    ∃ d d', w.ctx.smDefinitions = some d ∧ w'.ctx.smDefinitions = some d' ∧
      List.Forall₂ (fun s s' => s'.area.boundary = s.area.boundary ∧ s'.area.rate.tgr.maxMagnitude = s.area.rate.tgr.maxMagnitude ∧ s'.maxMagSigma = s.maxMagSigma) d d' := by
  classical
  obtain ⟨pre, procs, w1, hpre, hproc, hst, hwr⟩ := main_ok.1 h
  obtain ⟨pre', procs', w1', hpre', hproc', hst', hwr'⟩ := main_ok.1 h'
  obtain ⟨js, hn, rfl⟩ := (C16_preprocessing cfg pre).1 hpre
  obtain ⟨js', hn', rfl⟩ := (C16_preprocessing cfg' pre').1 hpre'
  have hp := (C16_processing cfg procs).1 hproc
  have hp' := (C16_processing cfg' procs').1 hproc'
  have hk : ∀ n j, (n, j) ∈ documented → decide (n ∈ ["GardnerKnopoff", "Afteran", "MaximumMagnitude"]) = maxJob j := by
    intro n j hnj
    simp only [documented, List.mem_cons, Prod.mk.injEq, List.not_mem_nil, or_false] at hnj
    rcases hnj with ⟨rfl, rfl⟩ | ⟨rfl, rfl⟩ | ⟨rfl, rfl⟩ | ⟨rfl, rfl⟩ | ⟨rfl, rfl⟩ | ⟨rfl, rfl⟩ | ⟨rfl, rfl⟩ | ⟨rfl, rfl⟩ | ⟨rfl, rfl⟩ <;> decide
  have htail : ∀ (p q r : Prop) [Decidable p] [Decidable q] [Decidable r],
      (if p then (if q then [.createSelectedEqVector, .storePreprocessedCatalog, .storeCompletenessTable] else [])
        else if r then [.retrieveCompletenessTable] else []).filter maxJob = [] := by
    intro p q r _ _ _
    split_ifs <;> rfl
  have hK := run_agree (max_agree x hS) (named_nameable hn) (named_nameable hn') (tail_nameable _ _ _) (tail_nameable _ _ _) (named_nameable hp) (named_nameable hp')
    (by rw [List.filter_append, List.filter_append, htail, htail, same_filter hk hn hn' hS.preprocessingJobs]) (same_filter hk hp hp' hS.processingJobs) hc hm
    (fun _ _ _ _ _ => rfl) hst hst'
  obtain ⟨d, _, hd, -, rfl⟩ := writeResult_ok hwr
  obtain ⟨d', _, hd', -, rfl⟩ := writeResult_ok hwr'
  refine ⟨d, d', hd, hd', ?_⟩
  simp only [maxWorld, hd, hd', Option.map_some, Prod.mk.injEq, Option.some.injEq] at hK
  have := hK.1
  rw [List.forall₂_iff_get]
  have hl : d.length = d'.length := by simpa using congrArg List.length this
  refine ⟨hl, fun i h1 h2 => ?_⟩
  have := congrArg (·[i]?) this
  simp only [List.getElem?_map, List.getElem?_eq_getElem h1, List.getElem?_eq_getElem h2, Option.map_some, Option.some.injEq, maxPart, Prod.mk.injEq] at this
  exact ⟨this.1.symm, this.2.1.symm, this.2.2.symm⟩

/-! ### C133 -/

/-- A source but for the results of the maximum magnitude analysis. -/
def recPart (s : Source F) : F × F → Source F := fun p => withMaxMag p s

/-- Everything but the results of the maximum magnitude analysis and the position in the random stream. -/
def recWorld (w : World F) : (Text → Option Content) × Option (List (F × F → Source F)) × Context F :=
  (w.fs, w.ctx.smDefinitions.map (List.map recPart), { w.ctx with smDefinitions := none })

/-- The jobs other than the maximum magnitude analysis. -/
def recJob : Job → Bool
  | .maximumMagnitude => false
  | _ => true

/-- Configurations that agree in everything but the maximum magnitude analysis and the name of the result file. -/
structure Spec.SameButMaximum (cfg cfg' : Config F) : Prop where
  catalogue : cfg'.eqCatalogFile = cfg.eqCatalogFile
  stored : cfg'.pprocessingResultFile = cfg.pprocessingResultFile
  table : cfg'.completenessTableFile = cfg.completenessTableFile
  model : cfg'.sourceModelFile = cfg.sourceModelFile
  processing : cfg'.applyProcessing = cfg.applyProcessing
  gardnerKnopoff : cfg'.gardnerKnopoff = cfg.gardnerKnopoff
  afteran : cfg'.afteran = cfg.afteran
  stepp : cfg'.stepp = cfg.stepp
  recurrence : cfg'.recurrence = cfg.recurrence
  preprocessingJobs : cfg'.preprocessingJobs = cfg.preprocessingJobs
  processingJobs : SameJobs ["GardnerKnopoff", "Afteran", "Stepp", "Recurrence", "Create_eq_vector", "Store_eq_catalog", "Store_completeness_table",
    "Retrieve_completeness_table"] cfg.processingJobs cfg'.processingJobs

theorem rec_skip {x : Ext F} {cfg : Config F} {j : Job} {w w' : World F} (hr : recJob j = false) (h : Succeeds x cfg j w w') : recWorld w' = recWorld w := by
  cases j with
  | maximumMagnitude =>
    obtain ⟨i, d, m, f, p, hi, hd, -, -, ⟨_, c, r, -, -, -, rfl, -⟩, rfl⟩ := maximumMagnitudeJob_ok.1 h
    simp only [recWorld, World.setSource, hd, Option.map_some]
    rw [map_modify_self (φ := recPart) (f := withMaxMag r) (fun s => rfl)]
  | _ => cases hr

theorem rec_agree (x : Ext F) {cfg cfg' : Config F} (hS : SameButMaximum cfg cfg') : Agree x cfg cfg' recJob recWorld where
  skip := fun n j w w' hn hr h => rec_skip hr h
  skip' := fun n j w w' hn hr h => rec_skip hr h
  step := by
    intro n j w v w' v' hn hr hk h h'
    simp only [recWorld, Prod.mk.injEq, Context.mk.injEq, true_and] at hk
    obtain ⟨k0, k1, k2, k3, k4, k5, k6, k7, k8, k9, k10⟩ := hk
    unfold Succeeds at h h'
    cases j with
    | maximumMagnitude => cases hr
    | readSourceModel => simp [documented] at hn
    | createDefaultSourceModel => simp [documented] at hn
    | readEqCatalog => simp [documented] at hn
    | createCatalogMatrix => simp [documented] at hn
    | createDefaultValues => simp [documented] at hn
    | gardnerKnopoff =>
      simp only [runJob, Option.some.injEq] at h h'
      unfold gardnerKnopoffJob at h h'
      rw [hS.gardnerKnopoff, ← k4] at h'
      obtain ⟨c, hc, h⟩ := bind_ok h
      obtain ⟨c', hc', h'⟩ := bind_ok h'
      rw [hc] at hc'
      cases hc'
      obtain ⟨c, hc, h⟩ := bind_ok h
      obtain ⟨c', hc', h'⟩ := bind_ok h'
      rw [hc] at hc'
      cases hc'
      obtain ⟨c, hc, h⟩ := bind_ok h
      obtain ⟨c', hc', h'⟩ := bind_ok h'
      rw [hc] at hc'
      cases hc'
      obtain ⟨c, hc, h⟩ := bind_ok h
      obtain ⟨c', hc', h'⟩ := bind_ok h'
      rw [hc] at hc'
      cases hc'
      cases h
      cases h'
      simp only [recWorld, storeDeclustered, k0, k1, k2, k3, k5, k8, k9, k10]
    | afteran =>
      simp only [runJob, Option.some.injEq] at h h'
      unfold afteranJob at h h'
      rw [hS.afteran, ← k3] at h'
      obtain ⟨c, hc, h⟩ := bind_ok h
      obtain ⟨c', hc', h'⟩ := bind_ok h'
      rw [hc] at hc'
      cases hc'
      obtain ⟨c, hc, h⟩ := bind_ok h
      obtain ⟨c', hc', h'⟩ := bind_ok h'
      rw [hc] at hc'
      cases hc'
      obtain ⟨c, hc, h⟩ := bind_ok h
      obtain ⟨c', hc', h'⟩ := bind_ok h'
      rw [hc] at hc'
      cases hc'
      obtain ⟨c, hc, h⟩ := bind_ok h
      obtain ⟨c', hc', h'⟩ := bind_ok h'
      rw [hc] at hc'
      cases hc'
      cases h
      cases h'
      simp only [recWorld, storeDeclustered, k0, k1, k2, k3, k5, k8, k9, k10]
    | stepp =>
      simp only [runJob, Option.some.injEq] at h h'
      unfold steppJob at h h'
      rw [hS.stepp, ← k4] at h'
      obtain ⟨c, hc, h⟩ := bind_ok h
      obtain ⟨c', hc', h'⟩ := bind_ok h'
      rw [hc] at hc'
      cases hc'
      obtain ⟨c, hc, h⟩ := bind_ok h
      obtain ⟨c', hc', h'⟩ := bind_ok h'
      rw [hc] at hc'
      cases hc'
      obtain ⟨c, hc, h⟩ := bind_ok h
      obtain ⟨c', hc', h'⟩ := bind_ok h'
      rw [hc] at hc'
      cases hc'
      obtain ⟨c, hc, h⟩ := bind_ok h
      obtain ⟨c', hc', h'⟩ := bind_ok h'
      rw [hc] at hc'
      cases hc'
      cases h
      cases h'
      simp only [recWorld, k0, k1, k2, k3, k4, k6, k7, k8, k9, k10]
    | createSelectedEqVector =>
      simp only [runJob, Option.some.injEq] at h h'
      unfold createSelectedEqVectorJob at h h'
      rw [← k3, ← k5, ← k6] at h'
      obtain ⟨c, hc, h⟩ := bind_ok h
      obtain ⟨c', hc', h'⟩ := bind_ok h'
      rw [hc] at hc'
      cases hc'
      obtain ⟨c, hc, h⟩ := bind_ok h
      obtain ⟨c', hc', h'⟩ := bind_ok h'
      rw [hc] at hc'
      cases hc'
      obtain ⟨c, hc, h⟩ := bind_ok h
      obtain ⟨c', hc', h'⟩ := bind_ok h'
      rw [hc] at hc'
      cases hc'
      obtain ⟨c, hc, h⟩ := bind_ok h
      obtain ⟨c', hc', h'⟩ := bind_ok h'
      rw [hc] at hc'
      cases hc'
      obtain ⟨c, hc, h⟩ := bind_ok h
      obtain ⟨c', hc', h'⟩ := bind_ok h'
      rw [hc] at hc'
      cases hc'
      cases h
      cases h'
      simp only [recWorld, k0, k1, k2, k3, k4, k5, k6, k7, k9, k10]
    | recurrence =>
      obtain ⟨i, d, m, f, hi, hd, -, hm, hok, rfl⟩ := recurrenceJob_ok.1 h
      obtain ⟨i', d', m', f', hi', hd', -, hm', hok', rfl⟩ := recurrenceJob_ok.1 h'
      rw [← k9, hi] at hi'
      cases hi'
      rw [← k10, hm] at hm'
      cases hm'
      have : RecOk x cfg m w.ctx.completenessTable f' := by
        unfold RecOk at hok' ⊢
        rw [← hS.recurrence, k5]
        exact hok'
      obtain rfl := hok.unique this
      rw [hd, hd', Option.map_some, Option.map_some, Option.some.injEq] at k1
      simp only [recWorld, World.setSource, Option.map_some, k0, k2, k3, k4, k5, k6, k7, k8, k9, k10]
      obtain ⟨_, _, c, g, -, -, -, -, rfl⟩ := hok
      rw [map_modify (φ := recPart) (f := withRecurrence c.referenceMagnitude g) (fun s s' h => ?_) k1]
      funext p
      have hp := congrFun h p
      simp only [recPart] at hp ⊢
      rw [with_comm, with_comm, hp]
    | storePreprocessedCatalog =>
      simp only [runJob, Option.some.injEq] at h h'
      unfold storePreprocessedCatalogJob at h h'
      rw [hS.stored, ← k2, ← k8] at h'
      cases hp : cfg.pprocessingResultFile with
      | none => rw [hp] at h; cases h
      | some path =>
        simp only [hp] at h h'
        obtain ⟨c, hc, h⟩ := bind_ok h
        obtain ⟨c', hc', h'⟩ := bind_ok h'
        rw [hc] at hc'
        cases hc'
        obtain ⟨c, hc, h⟩ := bind_ok h
        obtain ⟨c', hc', h'⟩ := bind_ok h'
        rw [hc] at hc'
        cases hc'
        obtain ⟨c, hc, h⟩ := bind_ok h
        obtain ⟨c', hc', h'⟩ := bind_ok h'
        rw [hc] at hc'
        cases hc'
        obtain ⟨c, hc, h⟩ := bind_ok h
        obtain ⟨c', hc', h'⟩ := bind_ok h'
        rw [hc] at hc'
        cases hc'
        obtain ⟨c, hc, h⟩ := bind_ok h
        obtain ⟨c', hc', h'⟩ := bind_ok h'
        rw [hc] at hc'
        cases hc'
        obtain ⟨c, hc, h⟩ := bind_ok h
        obtain ⟨c', hc', h'⟩ := bind_ok h'
        rw [hc] at hc'
        cases hc'
        cases h
        cases h'
        simp only [recWorld, World.write, k0, k1, k2, k3, k4, k5, k6, k7, k8, k9, k10]
    | storeCompletenessTable =>
      simp only [runJob, Option.some.injEq] at h h'
      unfold storeCompletenessTableJob at h h'
      rw [hS.table, ← k5] at h'
      cases hp : cfg.completenessTableFile with
      | none => rw [hp] at h; cases h
      | some path =>
        simp only [hp] at h h'
        obtain ⟨c, hc, h⟩ := bind_ok h
        obtain ⟨c', hc', h'⟩ := bind_ok h'
        rw [hc] at hc'
        cases hc'
        obtain ⟨c, hc, h⟩ := bind_ok h
        obtain ⟨c', hc', h'⟩ := bind_ok h'
        rw [hc] at hc'
        cases hc'
        obtain ⟨c, hc, h⟩ := bind_ok h
        obtain ⟨c', hc', h'⟩ := bind_ok h'
        rw [hc] at hc'
        cases hc'
        cases h
        cases h'
        simp only [recWorld, World.write, k0, k1, k2, k3, k4, k5, k6, k7, k8, k9, k10]
    | retrieveCompletenessTable =>
      simp only [runJob, Option.some.injEq] at h h'
      unfold retrieveCompletenessTableJob at h h'
      rw [hS.table, ← k0] at h'
      cases hp : cfg.completenessTableFile with
      | none => rw [hp] at h; cases h
      | some path =>
        simp only [hp] at h h'
        obtain ⟨c, hc, h⟩ := bind_ok h
        obtain ⟨c', hc', h'⟩ := bind_ok h'
        rw [hc] at hc'
        cases hc'
        rcases hw : w.fs c with _ | t | t
        · rw [hw] at h; cases h
        · simp only [hw] at h h'
          obtain ⟨c, hc, h⟩ := bind_ok h
          obtain ⟨c', hc', h'⟩ := bind_ok h'
          rw [hc] at hc'
          cases hc'
          cases h
          cases h'
          simp only [recWorld, k0, k1, k2, k3, k4, k6, k7, k8, k9, k10]
        · rw [hw] at h; cases h
  turn := by
    intro w v i m hk
    simp only [recWorld, Prod.mk.injEq, Context.mk.injEq, true_and] at hk
    obtain ⟨k0, k1, k2, k3, k4, k5, k6, k7, k8, k9, k10⟩ := hk
    simp only [recWorld, World.turn, k0, k1, k2, k3, k4, k5, k6, k7, k8]
  working := by
    intro w v hk
    simp only [recWorld, Prod.mk.injEq, Context.mk.injEq, true_and] at hk
    exact hk.2.2.2.2.1
  sources := by
    intro w v hk
    simp only [recWorld, Prod.mk.injEq] at hk
    have := congrArg (Option.map (List.map fun f : F × F → Source F => (f (((0 : ℕ) : F), ((0 : ℕ) : F))).area.boundary)) hk.2.1
    simpa only [Option.map_map, List.map_map, Function.comp_def, recPart, withMaxMag, Source.setTgr] using this
  processing := hS.processing
  catalogue := hS.catalogue
  model := hS.model

/-- Sources that agree in everything but the maximum magnitude and its uncertainty. -/
structure Spec.SameApartFromMaximum (s s' : Source F) : Prop where
  area : SameBut s.area s'.area
  aValue : s'.area.rate.tgr.aValue = s.area.rate.tgr.aValue
  bValue : s'.area.rate.tgr.bValue = s.area.rate.tgr.bValue
  minMagnitude : s'.area.rate.tgr.minMagnitude = s.area.rate.tgr.minMagnitude
  sigA : s'.sigA = s.sigA
  sigB : s'.sigB = s.sigB

omit [PyMath F] in
theorem same_of_recPart {s s' : Source F} (p : F × F) (h : withMaxMag p s = withMaxMag p s') : SameApartFromMaximum s s' := by
  obtain ⟨⟨a1, a2, a3, a4, a5, a6, ⟨⟨b1, b2, b3, b4, b5⟩, b6, b7, b8⟩, a7, a8⟩, sb, sa, sm⟩ := s
  obtain ⟨⟨a1', a2', a3', a4', a5', a6', ⟨⟨b1', b2', b3', b4', b5'⟩, b6', b7', b8'⟩, a7', a8'⟩, sb', sa', sm'⟩ := s'
  simp only [withMaxMag, Source.setTgr, Source.mk.injEq, AreaSource.mk.injEq, RateModel.mk.injEq, Tgr.mk.injEq] at h
  obtain ⟨⟨rfl, rfl, rfl, rfl, rfl, rfl, ⟨⟨rfl, rfl, rfl, -, rfl⟩, rfl, rfl, rfl⟩, rfl, rfl⟩, rfl, rfl, -⟩ := h
  constructor <;> first | rfl | skip
  constructor <;> rfl

/-- **C133**: two runs that end without exception, of configurations that differ in the maximum magnitude analysis alone (its settings, whether and how often it
is run, also the random numbers), give every source the same recurrence parameters, the same completeness table and flags, and write the same files apart from
the result files. -/
theorem C133_recurrence (x : Ext F) (cfg cfg' : Config F) (hS : SameButMaximum cfg cfg') (fs : Text → Option Content) (pos pos' : Nat) (w w' : World F)
    (h : main x cfg fs pos = some ⟨none, w⟩) (h' : main x cfg' fs pos' = some ⟨none, w'⟩) :
    (∃ d d', w.ctx.smDefinitions = some d ∧ w'.ctx.smDefinitions = some d' ∧ List.Forall₂ SameApartFromMaximum d d') ∧
      w'.ctx.completenessTable = w.ctx.completenessTable ∧ w'.ctx.flagVector = w.ctx.flagVector ∧ w'.ctx.selectedEqVector = w.ctx.selectedEqVector ∧
      w'.ctx.workingCatalog = w.ctx.workingCatalog ∧ ∀ p, p ≠ cfg.resultFile → p ≠ cfg'.resultFile → w'.fs p = w.fs p := by
  classical
  obtain ⟨pre, procs, w1, hpre, hproc, hst, hwr⟩ := main_ok.1 h
  obtain ⟨pre', procs', w1', hpre', hproc', hst', hwr'⟩ := main_ok.1 h'
  obtain ⟨js, hn, rfl⟩ := (C16_preprocessing cfg pre).1 hpre
  obtain ⟨js', hn', rfl⟩ := (C16_preprocessing cfg' pre').1 hpre'
  rw [hS.preprocessingJobs] at hn'
  obtain rfl := named_unique hn hn'
  have hp := (C16_processing cfg procs).1 hproc
  have hp' := (C16_processing cfg' procs').1 hproc'
  have hk : ∀ n j, (n, j) ∈ documented → decide (n ∈ ["GardnerKnopoff", "Afteran", "Stepp", "Recurrence", "Create_eq_vector", "Store_eq_catalog",
      "Store_completeness_table", "Retrieve_completeness_table"]) = recJob j := by
    intro n j hnj
    simp only [documented, List.mem_cons, Prod.mk.injEq, List.not_mem_nil, or_false] at hnj
    rcases hnj with ⟨rfl, rfl⟩ | ⟨rfl, rfl⟩ | ⟨rfl, rfl⟩ | ⟨rfl, rfl⟩ | ⟨rfl, rfl⟩ | ⟨rfl, rfl⟩ | ⟨rfl, rfl⟩ | ⟨rfl, rfl⟩ | ⟨rfl, rfl⟩ <;> decide
  have hK := run_agree (pos := pos) (pos' := pos') (rec_agree x hS) (named_nameable hn) (named_nameable hn') (tail_nameable _ _ _) (tail_nameable _ _ _) (named_nameable hp) (named_nameable hp')
    (by rw [hS.preprocessingJobs, hS.stored, hS.table]) (same_filter hk hp hp' hS.processingJobs) rfl (fun _ _ => rfl) (fun _ _ _ _ _ => rfl) hst hst'
  obtain ⟨d, _, hd, -, rfl⟩ := writeResult_ok hwr
  obtain ⟨d', _, hd', -, rfl⟩ := writeResult_ok hwr'
  simp only [recWorld, Prod.mk.injEq, Context.mk.injEq, true_and, hd, hd', Option.map_some, Option.some.injEq] at hK
  obtain ⟨k0, k1, k2, k3, k4, k5, k6, k7, k8, k9, k10⟩ := hK
  refine ⟨⟨d, d', hd, hd', ?_⟩, k5.symm, k6.symm, k8.symm, k4.symm, ?_⟩
  · rw [List.forall₂_iff_get]
    have hl : d.length = d'.length := by simpa using congrArg List.length k1
    refine ⟨hl, fun i h1 h2 => ?_⟩
    have := congrArg (·[i]?) k1
    simp only [List.getElem?_map, List.getElem?_eq_getElem h1, List.getElem?_eq_getElem h2, Option.map_some, Option.some.injEq] at this
    exact same_of_recPart (((0 : ℕ) : F), ((0 : ℕ) : F)) (congrFun this _)
  · intro p h1 h2
    simp only [World.write, if_neg h1, if_neg h2, k0]

end

end Verif.Workflow
