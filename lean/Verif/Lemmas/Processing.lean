import Verif.Props.Workflow

/-!
# What the processing jobs do to the world
-/

namespace Verif.Workflow

open Verif Verif.EqCatalog Verif.Csv Verif.Nrml Verif.Declustering Verif.Recurrence Verif.MaxMag Spec

section
variable {F : Type} [PyMath F]

omit [PyMath F] in
theorem attr_ok {α : Type} {v : Option α} {a : α} : attr v = .ok a ↔ v = some a := by
  cases v <;> simp [attr]

omit [PyMath F] in
theorem notNone_ok {α : Type} {v : Option α} {a : α} : notNone v = .ok a ↔ v = some a := by
  cases v <;> simp [notNone]

omit [PyMath F] in
theorem section_ok {α : Type} {v : Option α} {a : α} : section_ v = .ok a ↔ v = some a := by
  cases v <;> simp [section_]

/-- The world after changing the current source by `f`. -/
def World.setSource (w : World F) (d : List (Source F)) (i : Nat) (f : Source F → Source F) : World F :=
  { w with ctx := { w.ctx with smDefinitions := some (d.modify i f) } }

theorem updateCurrent_ok {w w' : World F} {f : Source F → Source F} :
    updateCurrent w f = .ok w' ↔ ∃ i d, w.ctx.curSm = some i ∧ w.ctx.smDefinitions = some d ∧ i < d.length ∧ w' = w.setSource d i f := by
  unfold updateCurrent
  constructor
  · intro h
    obtain ⟨i, hi, h⟩ := bind_ok h
    obtain ⟨d, hd, h⟩ := bind_ok h
    split at h
    · next hl =>
      cases h
      exact ⟨i, d, attr_ok.1 hi, notNone_ok.1 hd, hl, rfl⟩
    · cases h
  · rintro ⟨i, d, hi, hd, hl, rfl⟩
    rw [attr_ok.2 hi, notNone_ok.2 hd]
    simp only [bind, Except.bind, hl, if_true]
    rfl

/-- The recurrence computation for the events `m` succeeds and changes the source by `f`. -/
def RecOk (x : Ext F) (cfg : Config F) (m : Matrix F) (table : Option (List (F × F))) (f : Source F → Source F) : Prop :=
  ∃ rows t c g, m.cols = .ok rows ∧ table = some t ∧ cfg.recurrence = some c ∧
    recurrenceAnalysis (yearMag rows) t c.magnitudeWindow c.algorithm c.referenceMagnitude c.timeWindow x.fuel = .ok (some g) ∧
    f = withRecurrence c.referenceMagnitude g

/-- The maximum magnitude computation for the events `m`, starting at position `p` of the random stream, succeeds, changes the source by `f` and leaves
the stream at `p'`. -/
def MaxOk (x : Ext F) (cfg : Config F) (m : Matrix F) (p : Nat) (f : Source F → Source F) (p' : Nat) : Prop :=
  ∃ rows c r, m.cols = .ok rows ∧ cfg.maximumMagnitude = some c ∧
    analysis (yearMagSigma rows) c (fun i k => x.normal (p + i * rows.length + k)) x.fuel = some (.ok r) ∧
    f = withMaxMag r ∧ p' = p + drawn c rows.length

theorem recurrenceJob_ok {x : Ext F} {cfg : Config F} {w w' : World F} :
    recurrenceJob x cfg w = some (.ok w') ↔ ∃ i d m f, w.ctx.curSm = some i ∧ w.ctx.smDefinitions = some d ∧ i < d.length ∧
      w.ctx.currentFilteredEq = some m ∧ RecOk x cfg m w.ctx.completenessTable f ∧ w' = w.setSource d i f := by
  unfold recurrenceJob
  constructor
  · intro h
    simp only at h
    split at h
    · cases h
    · next rows table c hargs =>
      obtain ⟨m, hm, hargs⟩ := bind_ok hargs
      obtain ⟨rows', hr, hargs⟩ := bind_ok hargs
      obtain ⟨c', hc, hargs⟩ := bind_ok hargs
      obtain ⟨t', ht, hargs⟩ := bind_ok hargs
      cases hargs
      split at h
      · cases h
      · cases h
      · next g hg =>
        simp only [Option.some.injEq] at h
        obtain ⟨i, d, hi, hd, hl, rfl⟩ := updateCurrent_ok.1 h
        exact ⟨i, d, m, _, hi, hd, hl, attr_ok.1 hm, ⟨_, _, _, g, hr, notNone_ok.1 ht, section_ok.1 hc, hg, rfl⟩, rfl⟩
  · rintro ⟨i, d, m, f, hi, hd, hl, hm, ⟨rows, t, c, g, hr, ht, hc, hg, rfl⟩, rfl⟩
    simp only [hm, hr, ht, hc, hg, attr, notNone, section_, bind, Except.bind]
    rw [Option.some.injEq]
    exact updateCurrent_ok.2 ⟨i, d, hi, hd, hl, rfl⟩

theorem maximumMagnitudeJob_ok {x : Ext F} {cfg : Config F} {w w' : World F} :
    maximumMagnitudeJob x cfg w = some (.ok w') ↔ ∃ i d m f p', w.ctx.curSm = some i ∧ w.ctx.smDefinitions = some d ∧ i < d.length ∧
      w.ctx.currentFilteredEq = some m ∧ MaxOk x cfg m w.pos f p' ∧ w' = { w.setSource d i f with pos := p' } := by
  unfold maximumMagnitudeJob
  constructor
  · intro h
    simp only at h
    split at h
    · cases h
    · next rows c hargs =>
      obtain ⟨m, hm, hargs⟩ := bind_ok hargs
      obtain ⟨rows', hr, hargs⟩ := bind_ok hargs
      obtain ⟨c', hc, hargs⟩ := bind_ok hargs
      cases hargs
      split at h
      · cases h
      · cases h
      · next r hg =>
        simp only [Option.some.injEq] at h
        obtain ⟨i, d, hi, hd, hl, rfl⟩ := updateCurrent_ok.1 h
        exact ⟨i, d, m, _, _, hi, hd, hl, attr_ok.1 hm, ⟨_, _, r, hr, section_ok.1 hc, hg, rfl, rfl⟩, rfl⟩
  · rintro ⟨i, d, m, f, p', hi, hd, hl, hm, ⟨rows, c, r, hr, hc, hg, rfl, rfl⟩, rfl⟩
    simp only [hm, hr, hc, hg, attr, section_, bind, Except.bind]
    rw [Option.some.injEq]
    exact updateCurrent_ok.2 ⟨i, d, hi, hd, hl, rfl⟩

theorem RecOk.unique {x : Ext F} {cfg : Config F} {m : Matrix F} {t : Option (List (F × F))} {f g : Source F → Source F}
    (h : RecOk x cfg m t f) (h' : RecOk x cfg m t g) : f = g := by
  obtain ⟨r, t1, c, gr, hr, ht, hc, hg, rfl⟩ := h
  obtain ⟨r', t1', c', gr', hr', ht', hc', hg', rfl⟩ := h'
  rw [hr] at hr'; cases hr'
  rw [ht] at ht'; cases ht'
  rw [hc] at hc'; cases hc'
  rw [hg] at hg'; cases hg'
  rfl

/-- What a job other than the two source readers does to the list of sources. -/
def Touches (cfg : Config F) (j : Job) (w w' : World F) : Prop :=
  w'.ctx.curSm = w.ctx.curSm ∧
  ((w'.ctx.smDefinitions = w.ctx.smDefinitions ∧ j ≠ .recurrence ∧ j ≠ .maximumMagnitude) ∨
    ∃ i d f, w.ctx.curSm = some i ∧ w.ctx.smDefinitions = some d ∧ i < d.length ∧ w'.ctx.smDefinitions = some (d.modify i f) ∧
      ((j = .recurrence ∧ ∃ c g, cfg.recurrence = some c ∧ f = withRecurrence c.referenceMagnitude g) ∨
        (j = .maximumMagnitude ∧ ∃ r, f = withMaxMag r)))

theorem touches (x : Ext F) (cfg : Config F) (j : Job) (h1 : j ≠ .readSourceModel) (h2 : j ≠ .createDefaultSourceModel) (w w' : World F)
    (h : Succeeds x cfg j w w') : Touches cfg j w w' := by
  unfold Succeeds at h
  cases j with
  | readSourceModel => exact absurd rfl h1
  | createDefaultSourceModel => exact absurd rfl h2
  | recurrence =>
    obtain ⟨i, d, m, f, hi, hd, hl, -, ⟨_, _, c, g, _, _, hc, _, rfl⟩, rfl⟩ := recurrenceJob_ok.1 h
    exact ⟨rfl, .inr ⟨i, d, _, hi, hd, hl, rfl, .inl ⟨rfl, c, g, hc, rfl⟩⟩⟩
  | maximumMagnitude =>
    obtain ⟨i, d, m, f, p', hi, hd, hl, -, ⟨_, _, r, _, _, _, rfl, _⟩, rfl⟩ := maximumMagnitudeJob_ok.1 h
    exact ⟨rfl, .inr ⟨i, d, _, hi, hd, hl, rfl, .inr ⟨rfl, r, rfl⟩⟩⟩
  | readEqCatalog =>
    simp only [runJob, Option.some.injEq] at h
    unfold readEqCatalogJob at h
    split at h
    · cases h
    · cases h
    · obtain ⟨_, -, h⟩ := bind_ok h
      cases h
      exact ⟨rfl, .inl ⟨rfl, by simp, by simp⟩⟩
  | createCatalogMatrix =>
    simp only [runJob, Option.some.injEq] at h
    unfold createCatalogMatrixJob at h
    obtain ⟨_, -, h⟩ := bind_ok h
    obtain ⟨_, -, h⟩ := bind_ok h
    cases h
    exact ⟨rfl, .inl ⟨rfl, by simp, by simp⟩⟩
  | createDefaultValues =>
    simp only [runJob, Option.some.injEq] at h
    unfold createDefaultValuesJob at h
    obtain ⟨_, -, h⟩ := bind_ok h
    obtain ⟨_, -, h⟩ := bind_ok h
    obtain ⟨_, -, h⟩ := bind_ok h
    obtain ⟨_, -, h⟩ := bind_ok h
    cases h
    exact ⟨rfl, .inl ⟨rfl, by simp, by simp⟩⟩
  | gardnerKnopoff =>
    simp only [runJob, Option.some.injEq] at h
    unfold gardnerKnopoffJob at h
    obtain ⟨_, -, h⟩ := bind_ok h
    obtain ⟨_, -, h⟩ := bind_ok h
    obtain ⟨_, -, h⟩ := bind_ok h
    obtain ⟨_, -, h⟩ := bind_ok h
    cases h
    exact ⟨rfl, .inl ⟨rfl, by simp, by simp⟩⟩
  | afteran =>
    simp only [runJob, Option.some.injEq] at h
    unfold afteranJob at h
    obtain ⟨_, -, h⟩ := bind_ok h
    obtain ⟨_, -, h⟩ := bind_ok h
    obtain ⟨_, -, h⟩ := bind_ok h
    obtain ⟨_, -, h⟩ := bind_ok h
    cases h
    exact ⟨rfl, .inl ⟨rfl, by simp, by simp⟩⟩
  | stepp =>
    simp only [runJob, Option.some.injEq] at h
    unfold steppJob at h
    obtain ⟨_, -, h⟩ := bind_ok h
    obtain ⟨_, -, h⟩ := bind_ok h
    obtain ⟨_, -, h⟩ := bind_ok h
    obtain ⟨_, -, h⟩ := bind_ok h
    cases h
    exact ⟨rfl, .inl ⟨rfl, by simp, by simp⟩⟩
  | createSelectedEqVector =>
    simp only [runJob, Option.some.injEq] at h
    unfold createSelectedEqVectorJob at h
    obtain ⟨_, -, h⟩ := bind_ok h
    obtain ⟨_, -, h⟩ := bind_ok h
    obtain ⟨_, -, h⟩ := bind_ok h
    obtain ⟨_, -, h⟩ := bind_ok h
    obtain ⟨_, -, h⟩ := bind_ok h
    cases h
    exact ⟨rfl, .inl ⟨rfl, by simp, by simp⟩⟩
  | storePreprocessedCatalog =>
    simp only [runJob, Option.some.injEq] at h
    unfold storePreprocessedCatalogJob at h
    simp only at h
    split at h
    · obtain ⟨_, -, h⟩ := bind_ok h
      obtain ⟨_, -, h⟩ := bind_ok h
      obtain ⟨_, -, h⟩ := bind_ok h
      obtain ⟨_, -, h⟩ := bind_ok h
      obtain ⟨_, -, h⟩ := bind_ok h
      obtain ⟨_, -, h⟩ := bind_ok h
      cases h
      exact ⟨rfl, .inl ⟨rfl, by simp, by simp⟩⟩
    · cases h
  | storeCompletenessTable =>
    simp only [runJob, Option.some.injEq] at h
    unfold storeCompletenessTableJob at h
    simp only at h
    split at h
    · obtain ⟨_, -, h⟩ := bind_ok h
      obtain ⟨_, -, h⟩ := bind_ok h
      obtain ⟨_, -, h⟩ := bind_ok h
      cases h
      exact ⟨rfl, .inl ⟨rfl, by simp, by simp⟩⟩
    · cases h
  | retrieveCompletenessTable =>
    simp only [runJob, Option.some.injEq] at h
    unfold retrieveCompletenessTableJob at h
    obtain ⟨_, -, h⟩ := bind_ok h
    split at h
    · cases h
    · cases h
    · obtain ⟨_, -, h⟩ := bind_ok h
      cases h
      exact ⟨rfl, .inl ⟨rfl, by simp, by simp⟩⟩

/-- The configurable jobs do not read sources. -/
theorem named_not_reader {names : List String} {js : List Job} (h : Named names js) :
    ∀ j ∈ js, j ≠ .readSourceModel ∧ j ≠ .createDefaultSourceModel := by
  intro j hj
  induction h with
  | nil => cases hj
  | cons hd _ ih =>
    rcases List.mem_cons.1 hj with rfl | hj
    · simp only [documented, List.mem_cons, Prod.mk.injEq, List.not_mem_nil, or_false] at hd
      rcases hd with h | h | h | h | h | h | h | h | h <;> rw [h.2] <;> simp
    · exact ih hj

/-! ### Chains -/

omit [PyMath F] in
theorem Chain.append_iff {α σ : Type} {step : α → σ → σ → Prop} {as bs : List α} {s s'' : σ} :
    Chain step (as ++ bs) s s'' ↔ ∃ s', Chain step as s s' ∧ Chain step bs s' s'' := by
  induction as generalizing s with
  | nil => exact ⟨fun h => ⟨s, .nil _, h⟩, fun ⟨_, h1, h2⟩ => by cases h1; exact h2⟩
  | cons a as ih =>
    constructor
    · rintro (_ | ⟨_, _, _, s1, _, h, ht⟩)
      obtain ⟨s', h1, h2⟩ := ih.1 ht
      exact ⟨s', .cons _ _ _ _ _ h h1, h2⟩
    · rintro ⟨s', _ | ⟨_, _, _, s1, _, h, ht⟩, h2⟩
      exact .cons _ _ _ _ _ h (ih.2 ⟨s', ht, h2⟩)

omit [PyMath F] in
/-- A property kept by every step is kept by the chain. -/
theorem Chain.invariant {α σ : Type} {step : α → σ → σ → Prop} {P : σ → Prop} {as : List α} {s s' : σ}
    (h : Chain step as s s') (hstep : ∀ a ∈ as, ∀ s s', step a s s' → P s → P s') (h0 : P s) : P s' := by
  induction h with
  | nil => exact h0
  | cons a as s s1 s2 hs _ ih =>
    exact ih (fun b hb => hstep b (by simp [hb])) (hstep a (by simp) _ _ hs h0)

end

end Verif.Workflow
