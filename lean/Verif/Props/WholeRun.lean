import Verif.Props.Boundaries
import Verif.Props.Files

/-!
# C141: the result file holds the results of the analyses
-/

namespace Verif.Workflow

open Verif Verif.EqCatalog Verif.Csv Verif.Nrml Verif.Declustering Verif.Recurrence Verif.MaxMag Spec

namespace Spec

section
variable {F : Type} [PyMath F]

/-- The events of a source: those of the working catalogue inside its boundary, or all of them when no source model is given. -/
def OwnEvents (x : Ext F) (cfg : Config F) (s : AreaSource F) (working rows : List (Row F)) : Prop :=
  (Configured cfg.sourceModelFile → rows = working.filter fun r => x.contains s.boundary.posList (r 3) (r 4)) ∧
  (¬ Configured cfg.sourceModelFile → rows = working)

/-- The source `t` is the source `s` with the results of the configured analyses of the events `rows`, and nothing else changed. -/
structure Analysed (x : Ext F) (cfg : Config F) (table : Option (List (F × F))) (rows : List (Row F)) (s t : AreaSource F) : Prop where
  others : SameBut s t
  recurrence : "Recurrence" ∈ cfg.processingJobs → ∃ c tb g, cfg.recurrence = some c ∧ table = some tb ∧
    recurrenceAnalysis (rows.map fun r => (r 0, r 5)) tb c.magnitudeWindow c.algorithm c.referenceMagnitude c.timeWindow x.fuel = .ok (some g) ∧
    t.rate.tgr.aValue = g.a ∧ t.rate.tgr.bValue = g.b ∧ t.rate.tgr.minMagnitude = c.referenceMagnitude
  noRecurrence : "Recurrence" ∉ cfg.processingJobs →
    t.rate.tgr.aValue = s.rate.tgr.aValue ∧ t.rate.tgr.bValue = s.rate.tgr.bValue ∧ t.rate.tgr.minMagnitude = s.rate.tgr.minMagnitude
  maximum : "MaximumMagnitude" ∈ cfg.processingJobs → ∃ c p r, cfg.maximumMagnitude = some c ∧
    analysis (rows.map fun r => ⟨r 0, r 5, r 6⟩) c (fun i k => x.normal (p + i * rows.length + k)) x.fuel = some (.ok r) ∧
    t.rate.tgr.maxMagnitude = r.1
  noMaximum : "MaximumMagnitude" ∉ cfg.processingJobs → t.rate.tgr.maxMagnitude = s.rate.tgr.maxMagnitude

end

end Spec

section
variable {F : Type} [PyMath F]

/-- Joint effect of a list of the two jobs on the current source; the random stream moves from `p` to `p'`. -/
inductive EffG (x : Ext F) (cfg : Config F) (m : Matrix F) (t : Option (List (F × F))) : Nat → List Job → Nat → (Source F → Source F) → Prop
  | nil (p) : EffG x cfg m t p [] p id
  | recurrence (p p' f g js) : RecOk x cfg m t f → EffG x cfg m t p js p' g → EffG x cfg m t p (.recurrence :: js) p' (g ∘ f)
  | maximum (p q p' f g js) : MaxOk x cfg m p f q → EffG x cfg m t q js p' g → EffG x cfg m t p (.maximumMagnitude :: js) p' (g ∘ f)

theorem chain_effG (x : Ext F) (cfg : Config F) (procs : List Job) (hj : ∀ j ∈ procs, j = .recurrence ∨ j = .maximumMagnitude) (i : Nat) (m : Matrix F)
    (d : List (Source F)) (w w' : World F) (hi : w.ctx.curSm = some i) (hm : w.ctx.currentFilteredEq = some m) (hd : w.ctx.smDefinitions = some d)
    (h : Chain (Succeeds x cfg) procs w w') :
    ∃ f p', EffG x cfg m w.ctx.completenessTable w.pos procs p' f ∧ w' = { w.setSource d i f with pos := p' } := by
  induction procs generalizing w d with
  | nil =>
    cases h
    refine ⟨id, _, .nil _, ?_⟩
    simp only [World.setSource, List.modify_id, ← hd]
  | cons j js ih =>
    have mm : ∀ (f g : Source F → Source F), (d.modify i f).modify i g = d.modify i (g ∘ f) := fun f g => List.modify_modify_eq _ _ _ _
    rcases h with _ | ⟨_, _, _, w1, _, h, ht⟩
    rcases hj j (by simp) with rfl | rfl
    · obtain ⟨i', d', m', f, hi', hd', -, hm', hr, rfl⟩ := recurrenceJob_ok.1 h
      rw [hi] at hi'; cases hi'
      rw [hd] at hd'; cases hd'
      rw [hm] at hm'; cases hm'
      obtain ⟨g, p', hg, rfl⟩ := ih (fun j hjs => hj j (by simp [hjs])) (d.modify i f) (w.setSource d i f) hi hm rfl ht
      exact ⟨g ∘ f, p', .recurrence _ _ f g js hr hg, by simp [World.setSource, mm]⟩
    · obtain ⟨i', d', m', f, q, hi', hd', -, hm', hr, rfl⟩ := maximumMagnitudeJob_ok.1 h
      rw [hi] at hi'; cases hi'
      rw [hd] at hd'; cases hd'
      rw [hm] at hm'; cases hm'
      obtain ⟨g, p', hg, rfl⟩ := ih (fun j hjs => hj j (by simp [hjs])) (d.modify i f) { w.setSource d i f with pos := q } hi hm rfl ht
      exact ⟨g ∘ f, p', .maximum _ q _ f g js hr hg, by simp [World.setSource, mm]⟩

/-- What the processing makes of one source. -/
def ResultG (x : Ext F) (cfg : Config F) (filter : Source F → Matrix F → Except PyErr (Matrix F)) (procs : List Job) (working : Matrix F)
    (t : Option (List (F × F))) (s s' : Source F) : Prop :=
  ∃ m f p p', filter s working = .ok m ∧ EffG x cfg m t p procs p' f ∧ s' = f s

theorem process_resultsG (x : Ext F) (cfg : Config F) (filter : Source F → Matrix F → Except PyErr (Matrix F)) (procs : List Job)
    (hj : ∀ j ∈ procs, j = .recurrence ∨ j = .maximumMagnitude) (working : Matrix F) (a b : List (Source F)) (w w' : World F)
    (hd : w.ctx.smDefinitions = some (a ++ b)) (h : Chain (ProcessesSource x cfg filter procs working) (List.range' a.length b.length) w w') :
    ∃ b', w'.ctx.smDefinitions = some (a ++ b') ∧ List.Forall₂ (ResultG x cfg filter procs working w.ctx.completenessTable) b b' := by
  induction b generalizing a w with
  | nil =>
    cases h
    exact ⟨[], hd, .nil⟩
  | cons s b ih =>
    rw [List.length_cons, List.range'_succ] at h
    have hs : (a ++ s :: b)[a.length]? = some s := by simp
    have hmod : ∀ f : Source F → Source F, (a ++ s :: b).modify a.length f = (a ++ [f s]) ++ b := by
      intro f
      clear * -
      induction a with
      | nil => rfl
      | cons c a ih => simpa using ih
    rcases h with _ | ⟨_, _, _, w2, _, ⟨defs, s', m, hd', hs', hf, hc⟩, ht⟩
    rw [hd] at hd'
    cases hd'
    rw [hs] at hs'
    cases hs'
    obtain ⟨f, p', hf', rfl⟩ := chain_effG x cfg procs hj a.length m _ (w.turn a.length m) _ rfl rfl hd hc
    obtain ⟨b', hb', hb⟩ := ih (a ++ [f s]) { (w.turn a.length m).setSource (a ++ s :: b) a.length f with pos := p' }
      (by simp only [World.setSource]; rw [hmod]) (by simpa using ht)
    exact ⟨f s :: b', by rw [hb']; simp, .cons ⟨m, f, _, p', hf, hf', rfl⟩ hb⟩

/-- The numbers left by a list of the two jobs are those of the last of each kind. -/
theorem effG_values {x : Ext F} {cfg : Config F} {m : Matrix F} {t : Option (List (F × F))} {p p' : Nat} {procs : List Job} {f : Source F → Source F}
    (h : EffG x cfg m t p procs p' f) (s : Source F) :
    SameBut s.area (f s).area ∧
    (.recurrence ∈ procs → ∃ f', RecOk x cfg m t f' ∧ (f s).area.rate.tgr.aValue = (f' s).area.rate.tgr.aValue ∧
      (f s).area.rate.tgr.bValue = (f' s).area.rate.tgr.bValue ∧ (f s).area.rate.tgr.minMagnitude = (f' s).area.rate.tgr.minMagnitude) ∧
    (.recurrence ∉ procs → (f s).area.rate.tgr.aValue = s.area.rate.tgr.aValue ∧
      (f s).area.rate.tgr.bValue = s.area.rate.tgr.bValue ∧ (f s).area.rate.tgr.minMagnitude = s.area.rate.tgr.minMagnitude) ∧
    (.maximumMagnitude ∈ procs → ∃ q q' f', MaxOk x cfg m q f' q' ∧ (f s).area.rate.tgr.maxMagnitude = (f' s).area.rate.tgr.maxMagnitude) ∧
    (.maximumMagnitude ∉ procs → (f s).area.rate.tgr.maxMagnitude = s.area.rate.tgr.maxMagnitude) := by
  induction h generalizing s with
  | nil p => exact ⟨⟨rfl, rfl, rfl, rfl, rfl, rfl, rfl, rfl, rfl, rfl, rfl, rfl⟩, by simp, by simp, by simp, by simp⟩
  | recurrence p p' f g js hr hg ih =>
    obtain ⟨⟨k1, k2, k3, k4, k5, k6, k7, k8, k9, k10, k11, k12⟩, h2, h3, h4, h5⟩ := ih (f s)
    have hr' := hr
    obtain ⟨rows, tb, c, gr, -, -, hc, -, rfl⟩ := hr
    refine ⟨⟨k1, k2, k3, k4, k5, k6, k7, k8, k9, k10, k11, k12⟩, fun _ => ?_, by simp, fun h => ?_, fun h => h5 (by simpa using h)⟩
    · by_cases hmem : Job.recurrence ∈ js
      · obtain ⟨f', hf', h⟩ := h2 hmem
        obtain rfl := hr'.unique hf'
        exact ⟨_, hf', h⟩
      · exact ⟨_, hr', h3 hmem⟩
    · obtain ⟨q, q', f', hf', h⟩ := h4 (by simpa using h)
      have hf'' := hf'
      obtain ⟨_, _, r, -, -, -, rfl, -⟩ := hf'
      exact ⟨q, q', _, hf'', h⟩
  | maximum p q p' f g js hr hg ih =>
    obtain ⟨⟨k1, k2, k3, k4, k5, k6, k7, k8, k9, k10, k11, k12⟩, h2, h3, h4, h5⟩ := ih (f s)
    have hr' := hr
    obtain ⟨rows, c, r, -, hc, -, rfl, -⟩ := hr
    refine ⟨⟨k1, k2, k3, k4, k5, k6, k7, k8, k9, k10, k11, k12⟩, fun h => ?_, fun h => h3 (by simpa using h), fun _ => ?_, by simp⟩
    · obtain ⟨f', hf', h⟩ := h2 (by simpa using h)
      have hf'' := hf'
      obtain ⟨_, _, _, _, -, -, -, -, rfl⟩ := hf'
      exact ⟨_, hf'', h⟩
    · by_cases hmem : Job.maximumMagnitude ∈ js
      · obtain ⟨q, q', f', hf', h⟩ := h4 hmem
        have hf'' := hf'
        obtain ⟨_, _, r', -, -, -, rfl, -⟩ := hf'
        exact ⟨q, q', _, hf'', h⟩
      · exact ⟨_, _, _, hr', h5 hmem⟩

omit [PyMath F] in
theorem cols_rows {m : Matrix F} {rows : List (Row F)} (hr : m.cols = .ok rows) : rows = m.rows := by
  unfold Matrix.cols at hr
  split at hr
  · cases hr
  · cases hr; rfl

theorem own_events {x : Ext F} {cfg : Config F} {s : Source F} {working m : Matrix F} (h : chosenFilter x cfg s working = .ok m) :
    OwnEvents x cfg s.area working.rows m.rows := by
  refine ⟨fun hc => ?_, fun hc => ?_⟩
  · rw [← truthy_iff] at hc
    simp only [chosenFilter, hc, if_true, sourceModelFilter] at h
    split at h
    · cases h
    · split at h
      · cases h
      · cases h
        rfl
  · rw [C19_default_source x cfg hc] at h
    cases h
    rfl

/-- The jobs of a preprocessing pipeline leave the sources as they were read. -/
theorem pre_sources {x : Ext F} {cfg : Config F} {js : List Job} (hk : ∀ j ∈ js, j ≠ .readSourceModel ∧ j ≠ .createDefaultSourceModel) {w w' : World F}
    (h : Chain (Succeeds x cfg) js w w') (h0 : w.ctx.curSm = none) : w'.ctx.smDefinitions = w.ctx.smDefinitions ∧ w'.ctx.curSm = none := by
  refine Chain.invariant (P := fun v => v.ctx.smDefinitions = w.ctx.smDefinitions ∧ v.ctx.curSm = none) h ?_ ⟨rfl, h0⟩
  rintro j hj a b hab ⟨h1, h2⟩
  obtain ⟨hc, h⟩ := touches x cfg j (hk j hj).1 (hk j hj).2 a b hab
  rcases h with ⟨h, -, -⟩ | ⟨i, d, f, hcur, -⟩
  · exact ⟨h.trans h1, hc.trans h2⟩
  · rw [h2] at hcur
    cases hcur

/-- **C141**: a run that ends without exception, with processing by the jobs `Recurrence` and `MaximumMagnitude`, first runs the preprocessing pipeline on the input; the result file then holds the
sources of the input model in order, each with the results of the configured analyses of its own events (the events of the working catalogue inside its boundary), and with nothing else changed. -/
theorem C141_results (x : Ext F) (cfg : Config F) (fs : Text → Option Content) (pos : Nat) (w' : World F) (hp : cfg.applyProcessing = true)
    (hjobs : ∀ n ∈ cfg.processingJobs, n = "Recurrence" ∨ n = "MaximumMagnitude") (h : main x cfg fs pos = some ⟨none, w'⟩) :
    ∃ pre w0 working inputs finals doc, buildPreprocessing cfg = .ok pre ∧ Chain (Succeeds x cfg) pre ⟨fs, pos, {}⟩ w0 ∧
      w0.ctx.workingCatalog = some working ∧ InputSources x cfg fs inputs ∧ w'.fs cfg.resultFile = some (.xml doc) ∧ serialize x.nums finals = .ok doc ∧
      List.Forall₂ (fun s t => ∃ rows, OwnEvents x cfg s working.rows rows ∧ Analysed x cfg w0.ctx.completenessTable rows s t) inputs finals := by
  classical
  obtain ⟨pre, procs, w1, hpre, hproc, hst, hwr⟩ := main_ok.1 h
  have hn := (C16_processing cfg procs).1 hproc
  -- the processing jobs are the two
  have hmem : ∀ n j, (n, j) ∈ documented → (n = "Recurrence" ↔ j = .recurrence) ∧ (n = "MaximumMagnitude" ↔ j = .maximumMagnitude) := by
    intro n j hnj
    simp only [documented, List.mem_cons, Prod.mk.injEq, List.not_mem_nil, or_false] at hnj
    rcases hnj with ⟨rfl, rfl⟩ | ⟨rfl, rfl⟩ | ⟨rfl, rfl⟩ | ⟨rfl, rfl⟩ | ⟨rfl, rfl⟩ | ⟨rfl, rfl⟩ | ⟨rfl, rfl⟩ | ⟨rfl, rfl⟩ | ⟨rfl, rfl⟩ <;> decide
  have hin : ∀ {ns : List String} {js : List Job}, Named ns js → ("Recurrence" ∈ ns ↔ .recurrence ∈ js) ∧ ("MaximumMagnitude" ∈ ns ↔ .maximumMagnitude ∈ js) ∧
      ((∀ n ∈ ns, n = "Recurrence" ∨ n = "MaximumMagnitude") → ∀ j ∈ js, j = .recurrence ∨ j = .maximumMagnitude) := by
    intro ns js hns
    induction hns with
    | nil => simp
    | cons hd _ ih =>
      obtain ⟨k1, k2⟩ := hmem _ _ hd
      simp only [List.mem_cons, forall_eq_or_imp]
      refine ⟨?_, ?_, ?_⟩
      · rw [ih.1, eq_comm, k1, eq_comm]
      · rw [ih.2.1, eq_comm, k2, eq_comm]
      · rintro ⟨h1, h2⟩
        exact ⟨h1.imp k1.1 k2.1, ih.2.2 h2⟩
  obtain ⟨hrec, hmax, htwo⟩ := hin hn
  obtain ⟨w0, defs, working, hc0, hd0, hw0, hc⟩ := (C19_once_in_order _ _ _ _ _ _ _ hp).1 hst
  -- the sources before the processing
  obtain ⟨js, hjs, hpre'⟩ := (C16_preprocessing cfg pre).1 hpre
  have hsplit : ∃ tail, pre = compulsoryJobs cfg ++ tail ∧ ∀ j ∈ tail, j ≠ .readSourceModel ∧ j ≠ .createDefaultSourceModel := by
    refine ⟨_, by rw [hpre', List.append_assoc]; rfl, ?_⟩
    intro j hj
    rw [List.mem_append] at hj
    rcases hj with hj | hj
    · exact named_not_reader hjs j hj
    · split_ifs at hj <;> simp only [List.mem_cons, List.not_mem_nil, or_false] at hj
      · rcases hj with rfl | rfl | rfl <;> simp
      · subst hj; simp
  obtain ⟨tail, rfl, htail⟩ := hsplit
  have hc0' := hc0
  rw [Chain.append_iff] at hc0
  obtain ⟨w4, h4, hc0⟩ := hc0
  obtain ⟨file, es, inputs, rows, my, mm, -, -, hinp, -, -, -, -, -, rfl⟩ := (compulsory_iff _ _ _ _ _).1 h4
  have hdefs := (pre_sources htail hc0 rfl).1
  rw [hd0] at hdefs
  have hdefs' : defs = inputs.map fun a => ({ area := a } : Source F) := Option.some.inj hdefs
  rw [List.range_eq_range'] at hc
  obtain ⟨finals, hfin, hall⟩ := process_resultsG x cfg _ procs (htwo hjobs) working [] defs w0 w1 hd0 (by simpa using hc)
  rw [List.nil_append] at hfin
  obtain ⟨doc, hdoc, hres⟩ : ∃ doc, serialize x.nums (finals.map Source.area) = .ok doc ∧ w'.fs cfg.resultFile = some (.xml doc) := by
    unfold writeResult at hwr
    obtain ⟨path, hpath, hwr⟩ := bind_ok hwr
    obtain ⟨d, hd, hwr⟩ := bind_ok hwr
    rw [notNone_ok, hfin] at hd
    cases hd
    obtain ⟨doc, hdoc, hwr⟩ := bind_ok hwr
    obtain ⟨_, -, hwr⟩ := bind_ok hwr
    cases hwr
    refine ⟨doc, hdoc, ?_⟩
    obtain rfl : path = cfg.resultFile := by
      unfold mkWriter at hpath
      split at hpath
      · cases hpath; rfl
      · cases hpath
    simp [World.write]
  refine ⟨_, w0, working, inputs, finals.map Source.area, doc, hpre, hc0', hw0, hinp, hres, hdoc, ?_⟩
  rw [hdefs', List.forall₂_map_left_iff] at hall
  rw [List.forall₂_map_right_iff]
  refine hall.imp ?_
  rintro s t ⟨m, f, p, p', hf, he, rfl⟩
  refine ⟨m.rows, own_events hf, ?_⟩
  obtain ⟨h1, h2, h3, h4, h5⟩ := effG_values he { area := s }
  refine ⟨h1, fun h => ?_, fun h => h3 (by rwa [← hrec]), fun h => ?_, fun h => h5 (by rwa [← hmax])⟩
  · obtain ⟨f', ⟨rows, tb, c, g, hrows, ht, hc, hg, rfl⟩, e1, e2, e3⟩ := h2 (hrec.1 h)
    obtain rfl := cols_rows hrows
    exact ⟨c, tb, g, hc, ht, hg, e1, e2, e3⟩
  · obtain ⟨q, q', f', ⟨rows, c, r, hrows, hc, hg, rfl, -⟩, e⟩ := h4 (hmax.1 h)
    obtain rfl := cols_rows hrows
    exact ⟨c, q, r, hc, hg, e⟩

end

/-- The example run of the declustering and the recurrence: its one source holds the results of the analysis of the whole working catalogue. -/
example : ∃ (w' w0 : World ℝ) (working : Matrix ℝ) (tb : List (ℝ × ℝ)) (g : GR ℝ) (s t : AreaSource ℝ) (doc : Elem), main x31 config31 (fs31 "5") 0 = some ⟨none, w'⟩ ∧
    w0.ctx.workingCatalog = some working ∧ recurrenceAnalysis (working.rows.map fun r => (r 0, r 5)) tb 1 "MLE" 4 5 x31.fuel = .ok (some g) ∧
    t.rate.tgr.bValue = g.b ∧ SameBut s t ∧ serialize x31.nums [t] = .ok doc ∧ w'.fs config31.resultFile = some (.xml doc) := by
  obtain ⟨w', h⟩ := run31_exists
  obtain ⟨pre, w0, working, inputs, finals, doc, -, -, hw, hin, hres, hdoc, hall⟩ := C141_results x31 config31 _ 0 w' rfl
    (fun n hn => .inl (List.mem_singleton.1 hn)) h
  have hc : ¬ Configured config31.sourceModelFile := by
    rintro ⟨t, ht, -⟩
    cases ht
  have hi : inputs = [placeholder] := by
    rcases hin with ⟨t, _, -, ht, -⟩ | ⟨-, h⟩
    · cases ht
    · exact h
  subst hi
  rcases hall with _ | ⟨⟨rows, hown, han⟩, hnil⟩
  cases hnil
  obtain ⟨c, tb, g, h1, -, h2, -, h3, -⟩ := han.recurrence (List.mem_singleton.2 rfl)
  cases h1
  obtain rfl := hown.2 hc
  exact ⟨w', w0, working, tb, g, _, _, doc, h, hw, h2, h3, han.others, hdoc, hres⟩

end Verif.Workflow
