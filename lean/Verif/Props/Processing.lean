import Verif.Lemmas.Processing

/-!
# C21, C22, C23: the processing of the sources
-/

namespace Verif.Workflow

open Verif Verif.EqCatalog Verif.Csv Verif.Nrml Verif.Declustering Verif.Recurrence Verif.MaxMag Spec

section
variable {F : Type} [PyMath F]

/-! ### C21 -/

omit [PyMath F] in
theorem forall₂_modify {R : Source F → Source F → Prop} {f : Source F → Source F} (hf : ∀ s t, R s t → R s (f t)) :
    ∀ {d d' : List (Source F)} (i : Nat), List.Forall₂ R d d' → List.Forall₂ R d (d'.modify i f)
  | _, _, i, .nil => by cases i <;> exact .nil
  | _, _, 0, .cons h t => .cons (hf _ _ h) t
  | _, _, i + 1, .cons h t => .cons h (forall₂_modify hf i t)

/-- The list of sources stands in relation `R`, one by one, to the list `d`. -/
def Related (R : Source F → Source F → Prop) (d : List (Source F)) (w : World F) : Prop :=
  ∃ d', w.ctx.smDefinitions = some d' ∧ List.Forall₂ R d d'

/-- A relation that is not disturbed by what the listed processing jobs write. -/
structure Kept (cfg : Config F) (procs : List Job) (R : Source F → Source F → Prop) : Prop where
  recurrence : .recurrence ∈ procs → ∀ c g, cfg.recurrence = some c → ∀ s t, R s t → R s (withRecurrence c.referenceMagnitude g t)
  maxMag : .maximumMagnitude ∈ procs → ∀ r s t, R s t → R s (withMaxMag r t)

theorem job_related (x : Ext F) (cfg : Config F) (procs : List Job) (hk : ∀ j ∈ procs, j ≠ .readSourceModel ∧ j ≠ .createDefaultSourceModel)
    {R : Source F → Source F → Prop} (hR : Kept cfg procs R) (d : List (Source F)) (j : Job) (hj : j ∈ procs) (w w' : World F)
    (h : Succeeds x cfg j w w') (h0 : Related R d w) : Related R d w' := by
  obtain ⟨-, h⟩ := touches x cfg j (hk j hj).1 (hk j hj).2 w w' h
  obtain ⟨d', hd', hR0⟩ := h0
  rcases h with ⟨h, -, -⟩ | ⟨i, d2, f, -, hd2, -, h, hf⟩
  · exact ⟨d', by rw [h, hd'], hR0⟩
  · rw [hd'] at hd2
    cases hd2
    refine ⟨_, h, forall₂_modify ?_ i hR0⟩
    rcases hf with ⟨rfl, c, g, hc, rfl⟩ | ⟨rfl, r, rfl⟩
    · exact hR.recurrence hj c g hc
    · exact hR.maxMag hj r

theorem sources_related (x : Ext F) (cfg : Config F) (filter : Source F → Matrix F → Except PyErr (Matrix F)) (procs : List Job)
    (hk : ∀ j ∈ procs, j ≠ .readSourceModel ∧ j ≠ .createDefaultSourceModel) (working : Matrix F) {R : Source F → Source F → Prop}
    (hR : Kept cfg procs R) (d : List (Source F)) (is : List Nat) (w w' : World F)
    (h : Chain (ProcessesSource x cfg filter procs working) is w w') (h0 : Related R d w) : Related R d w' := by
  refine Chain.invariant h ?_ h0
  rintro i - s s' ⟨defs, src, m, hd, hs, hf, hc⟩ hrel
  exact Chain.invariant hc (fun j hj a b hab => job_related x cfg procs hk hR d j hj a b hab) hrel

/-- **C21**: processing with any configurable job list leaves the number and the order of the sources, and in each source everything but the four
Gutenberg-Richter numbers and the attached uncertainties. -/
theorem C21_only_parameters (x : Ext F) (cfg : Config F) (filter : Source F → Matrix F → Except PyErr (Matrix F)) (names : List String)
    (procs : List Job) (hn : Named names procs) (working : Matrix F) (is : List Nat) (w w' : World F) (d : List (Source F))
    (hd : w.ctx.smDefinitions = some d) (h : processSources x cfg filter procs working is w = some ⟨none, w'⟩) :
    ∃ d', w'.ctx.smDefinitions = some d' ∧ List.Forall₂ (fun s t => SameBut s.area t.area) d d' := by
  refine sources_related x cfg filter procs (named_not_reader hn) working (R := fun s t => SameBut s.area t.area) ⟨?_, ?_⟩ d is w w'
    ((processSources_ok _ _ _ _ _ _ _ _).1 h) ⟨d, hd, List.forall₂_same.2 fun s _ => ⟨rfl, rfl, rfl, rfl, rfl, rfl, rfl, rfl, rfl, rfl, rfl, rfl⟩⟩
  · rintro - c g - s t ⟨h1, h2, h3, h4, h5, h6, h7, h8, h9, h10, h11, h12⟩
    exact ⟨h1, h2, h3, h4, h5, h6, h7, h8, h9, h10, h11, h12⟩
  · rintro - r s t ⟨h1, h2, h3, h4, h5, h6, h7, h8, h9, h10, h11, h12⟩
    exact ⟨h1, h2, h3, h4, h5, h6, h7, h8, h9, h10, h11, h12⟩

/-- **C21**: without `Recurrence` in the list, the a value, the b value, their uncertainties and the minimum magnitude are unchanged. -/
theorem C21_without_recurrence (x : Ext F) (cfg : Config F) (filter : Source F → Matrix F → Except PyErr (Matrix F)) (names : List String)
    (procs : List Job) (hn : Named names procs) (hr : .recurrence ∉ procs) (working : Matrix F) (is : List Nat) (w w' : World F)
    (d : List (Source F)) (hd : w.ctx.smDefinitions = some d) (h : processSources x cfg filter procs working is w = some ⟨none, w'⟩) :
    ∃ d', w'.ctx.smDefinitions = some d' ∧ List.Forall₂ (fun s t => t.area.rate.tgr.aValue = s.area.rate.tgr.aValue ∧
      t.area.rate.tgr.bValue = s.area.rate.tgr.bValue ∧ t.area.rate.tgr.minMagnitude = s.area.rate.tgr.minMagnitude ∧
      t.sigA = s.sigA ∧ t.sigB = s.sigB) d d' := by
  refine sources_related x cfg filter procs (named_not_reader hn) working ⟨?_, ?_⟩ d is w w'
    ((processSources_ok _ _ _ _ _ _ _ _).1 h) ⟨d, hd, List.forall₂_same.2 fun s _ => ⟨rfl, rfl, rfl, rfl, rfl⟩⟩
  · intro h; exact absurd h hr
  · intro _ r s t h; exact h

/-- **C21**: without `MaximumMagnitude` in the list, the maximum magnitude and its uncertainty are unchanged. -/
theorem C21_without_maximum (x : Ext F) (cfg : Config F) (filter : Source F → Matrix F → Except PyErr (Matrix F)) (names : List String)
    (procs : List Job) (hn : Named names procs) (hr : .maximumMagnitude ∉ procs) (working : Matrix F) (is : List Nat) (w w' : World F)
    (d : List (Source F)) (hd : w.ctx.smDefinitions = some d) (h : processSources x cfg filter procs working is w = some ⟨none, w'⟩) :
    ∃ d', w'.ctx.smDefinitions = some d' ∧ List.Forall₂ (fun s t => t.area.rate.tgr.maxMagnitude = s.area.rate.tgr.maxMagnitude ∧
      t.maxMagSigma = s.maxMagSigma) d d' := by
  refine sources_related x cfg filter procs (named_not_reader hn) working ⟨?_, ?_⟩ d is w w'
    ((processSources_ok _ _ _ _ _ _ _ _).1 h) ⟨d, hd, List.forall₂_same.2 fun s _ => ⟨rfl, rfl⟩⟩
  · intro _ c g _ s t h; exact h
  · intro h; exact absurd h hr

/-- Source number `i` has minimum magnitude `r`. -/
def MinIs (r : F) (i : Nat) (w : World F) : Prop := ∃ d s, w.ctx.smDefinitions = some d ∧ d[i]? = some s ∧ s.area.rate.tgr.minMagnitude = r

theorem job_min (x : Ext F) (cfg : Config F) (c : RecurrenceConfig F) (hc : cfg.recurrence = some c) (j : Job) (h1 : j ≠ .readSourceModel)
    (h2 : j ≠ .createDefaultSourceModel) (i : Nat) (w w' : World F) (h : Succeeds x cfg j w w')
    (h0 : MinIs c.referenceMagnitude i w ∨ (w.ctx.curSm = some i ∧ j = .recurrence)) : MinIs c.referenceMagnitude i w' := by
  obtain ⟨-, h⟩ := touches x cfg j h1 h2 w w' h
  rcases h with ⟨h, hj, -⟩ | ⟨k, d, f, hcur, hd, hl, h, hf⟩
  · rcases h0 with ⟨d, s, hd, hs, hm⟩ | ⟨-, hj'⟩
    · exact ⟨d, s, by rw [h, hd], hs, hm⟩
    · exact absurd hj' hj
  · rcases h0 with ⟨d', s, hd', hs, hm⟩ | ⟨hcur', rfl⟩
    · rw [hd] at hd'
      cases hd'
      by_cases hki : k = i
      · subst hki
        refine ⟨_, f s, h, by simp [List.getElem?_modify, hs], ?_⟩
        rcases hf with ⟨-, c', g, hc', rfl⟩ | ⟨-, r, rfl⟩
        · rw [hc] at hc'
          cases hc'
          rfl
        · exact hm
      · exact ⟨_, s, h, by simp [List.getElem?_modify, hs, hki], hm⟩
    · rw [hcur] at hcur'
      cases hcur'
      refine ⟨_, f d[i], h, by simp [List.getElem?_modify, hl], ?_⟩
      rcases hf with ⟨-, c', g, hc', rfl⟩ | ⟨h, -⟩
      · rw [hc] at hc'
        cases hc'
        rfl
      · cases h

/-- **C21**: with `Recurrence` in the list, the minimum magnitude of every source is the reference magnitude afterwards. -/
theorem C21_minimum_magnitude (x : Ext F) (cfg : Config F) (filter : Source F → Matrix F → Except PyErr (Matrix F)) (names : List String)
    (procs : List Job) (hn : Named names procs) (hr : .recurrence ∈ procs) (working : Matrix F) (w w' : World F) (d : List (Source F))
    (hd : w.ctx.smDefinitions = some d) (c : RecurrenceConfig F) (hc : cfg.recurrence = some c)
    (h : processSources x cfg filter procs working (List.range d.length) w = some ⟨none, w'⟩) :
    ∃ d', w'.ctx.smDefinitions = some d' ∧ d'.length = d.length ∧ ∀ s ∈ d', s.area.rate.tgr.minMagnitude = c.referenceMagnitude := by
  obtain ⟨d', hd', hsame⟩ := C21_only_parameters x cfg filter names procs hn working _ w w' d hd h
  have hk := named_not_reader hn
  refine ⟨d', hd', hsame.length_eq.symm, ?_⟩
  have key : ∀ i < d.length, MinIs c.referenceMagnitude i w' := by
    intro i hi
    obtain ⟨a, b, hab⟩ := List.append_of_mem (List.mem_range.2 hi)
    rw [processSources_ok, hab, Chain.append_iff] at h
    obtain ⟨w1, -, h⟩ := h
    rcases h with _ | ⟨_, _, _, w2, _, ⟨defs, s, m, -, -, -, hch⟩, hrest⟩
    have h2 : MinIs c.referenceMagnitude i w2 := by
      obtain ⟨pa, pb, hp⟩ := List.append_of_mem hr
      have hmem : ∀ j, j ∈ procs ↔ j ∈ pa ∨ j = .recurrence ∨ j ∈ pb := by intro j; rw [hp]; simp
      rw [hp, Chain.append_iff] at hch
      obtain ⟨v1, hc1, hc2⟩ := hch
      rcases hc2 with _ | ⟨_, _, _, v2, _, hj, hc3⟩
      have hcur : v1.ctx.curSm = some i := Chain.invariant (P := fun v => v.ctx.curSm = some i) hc1
        (fun j hj a b hab hcur => by
          have hj' := hk j ((hmem j).2 (.inl hj))
          rw [(touches x cfg j hj'.1 hj'.2 a b hab).1]
          exact hcur) rfl
      have hm : MinIs c.referenceMagnitude i v2 := job_min x cfg c hc _ (by simp) (by simp) i v1 v2 hj (.inr ⟨hcur, rfl⟩)
      exact Chain.invariant hc3 (fun j hj a b hab hm => by
        have hj' := hk j ((hmem j).2 (.inr (.inr hj)))
        exact job_min x cfg c hc j hj'.1 hj'.2 i a b hab (.inl hm)) hm
    refine Chain.invariant hrest ?_ h2
    rintro k - a b ⟨defs, s, m, hd, -, -, hch⟩ hm
    exact Chain.invariant hch (fun j hj a b hab hm => job_min x cfg c hc j (hk j hj).1 (hk j hj).2 i a b hab (.inl hm)) hm
  intro s hs
  obtain ⟨i, hi, rfl⟩ := List.getElem_of_mem hs
  obtain ⟨d2, s2, h1, h2, h3⟩ := key i (by rw [hsame.length_eq]; exact hi)
  rw [hd'] at h1
  cases h1
  rw [List.getElem?_eq_getElem hi] at h2
  cases h2
  exact h3

/-- Non-vacuity of C21: the processing list of config.yml. -/
example : Named ["Recurrence", "MaximumMagnitude"] [.recurrence, .maximumMagnitude] := by
  exact .cons (by decide) (.cons (by decide) .nil)

/-! ### C22 -/

omit [PyMath F] in
theorem with_comm (ref : F) (g : GR F) (r : F × F) (s : Source F) :
    withMaxMag r (withRecurrence ref g s) = withRecurrence ref g (withMaxMag r s) := rfl

omit [PyMath F] in
theorem modify_comm (d : List (Source F)) (i : Nat) (f g : Source F → Source F) (h : ∀ s, f (g s) = g (f s)) :
    (d.modify i f).modify i g = (d.modify i g).modify i f := by
  rw [List.modify_modify_eq, List.modify_modify_eq]
  congr 1
  funext s
  exact (h s).symm

theorem swap_chain (x : Ext F) (cfg : Config F) (w w' : World F) :
    Chain (Succeeds x cfg) [.recurrence, .maximumMagnitude] w w' ↔ Chain (Succeeds x cfg) [.maximumMagnitude, .recurrence] w w' := by
  constructor
  · rintro (_ | ⟨_, _, _, w1, _, h1, _ | ⟨_, _, _, w2, _, h2, _ | _⟩⟩)
    obtain ⟨i, d, m, f, hi, hd, hl, hm, hr, rfl⟩ := recurrenceJob_ok.1 h1
    obtain ⟨i', d', m', f', p', hi', hd', hl', hm', hr', rfl⟩ := maximumMagnitudeJob_ok.1 h2
    rw [show (w.setSource d i f).ctx.curSm = w.ctx.curSm from rfl, hi] at hi'
    cases hi'
    rw [show (w.setSource d i f).ctx.currentFilteredEq = w.ctx.currentFilteredEq from rfl, hm] at hm'
    cases hm'
    cases hd'
    refine .cons _ _ _ { w.setSource d i f' with pos := p' } _ (maximumMagnitudeJob_ok.2 ⟨i, d, m, f', p', hi, hd, hl, hm, hr', rfl⟩)
      (.cons _ _ _ _ _ (recurrenceJob_ok.2 ⟨i, d.modify i f', m, f, hi, rfl, by simpa using hl, hm, hr, ?_⟩) (.nil _))
    obtain ⟨_, _, c, g, _, _, _, _, rfl⟩ := hr
    obtain ⟨_, _, r, _, _, _, rfl, _⟩ := hr'
    simp only [World.setSource]
    rw [modify_comm d i _ _ (fun s => (with_comm _ g r s).symm)]
  · rintro (_ | ⟨_, _, _, w1, _, h1, _ | ⟨_, _, _, w2, _, h2, _ | _⟩⟩)
    obtain ⟨i', d', m', f', p', hi', hd', hl', hm', hr', rfl⟩ := maximumMagnitudeJob_ok.1 h1
    obtain ⟨i, d, m, f, hi, hd, hl, hm, hr, rfl⟩ := recurrenceJob_ok.1 h2
    rw [show ({ w.setSource d' i' f' with pos := p' } : World F).ctx.curSm = w.ctx.curSm from rfl, hi'] at hi
    cases hi
    rw [show ({ w.setSource d' i' f' with pos := p' } : World F).ctx.currentFilteredEq = w.ctx.currentFilteredEq from rfl, hm'] at hm
    cases hm
    cases hd
    refine .cons _ _ _ (w.setSource d' i' f) _ (recurrenceJob_ok.2 ⟨i', d', m', f, hi', hd', hl', hm', hr, rfl⟩)
      (.cons _ _ _ _ _ (maximumMagnitudeJob_ok.2 ⟨i', d'.modify i' f, m', f', p', hi', rfl, by simpa using hl', hm', hr', ?_⟩) (.nil _))
    obtain ⟨_, _, c, g, _, _, _, _, rfl⟩ := hr
    obtain ⟨_, _, r, _, _, _, rfl, _⟩ := hr'
    simp only [World.setSource]
    rw [modify_comm d' i' _ _ (fun s => with_comm _ g r s)]

/-- **C22**: the two jobs next to each other, anywhere in the list of processing jobs, can be swapped: one order ends without exception exactly when the
other does, and both leave the same world (all source parameters included). -/
theorem C22_commute (x : Ext F) (cfg : Config F) (filter : Source F → Matrix F → Except PyErr (Matrix F)) (a b : List Job)
    (working : Matrix F) (is : List Nat) (w w' : World F) :
    processSources x cfg filter (a ++ [.recurrence, .maximumMagnitude] ++ b) working is w = some ⟨none, w'⟩ ↔
      processSources x cfg filter (a ++ [.maximumMagnitude, .recurrence] ++ b) working is w = some ⟨none, w'⟩ := by
  rw [processSources_ok, processSources_ok]
  have : ProcessesSource x cfg filter (a ++ [.recurrence, .maximumMagnitude] ++ b) working =
      ProcessesSource x cfg filter (a ++ [.maximumMagnitude, .recurrence] ++ b) working := by
    funext i v v'
    simp only [ProcessesSource, Chain.append_iff, swap_chain]
  rw [this]

/-- **C22** for the whole run. -/
theorem C22_run (x : Ext F) (cfg : Config F) (filter : Source F → Matrix F → Except PyErr (Matrix F)) (pre : List Job) (w w' : World F) :
    start x cfg filter pre [.recurrence, .maximumMagnitude] w = some ⟨none, w'⟩ ↔
      start x cfg filter pre [.maximumMagnitude, .recurrence] w = some ⟨none, w'⟩ := by
  by_cases hp : cfg.applyProcessing = true
  · unfold start
    simp only [andThen_ok, hp, if_true]
    have h := fun working is v => C22_commute x cfg filter [] [] working is v w'
    simp only [List.nil_append, List.append_nil] at h
    constructor
    · rintro ⟨w1, h1, h2⟩
      refine ⟨w1, h1, ?_⟩
      split at h2
      · exact (h _ _ _).1 h2
      · cases h2
    · rintro ⟨w1, h1, h2⟩
      refine ⟨w1, h1, ?_⟩
      split at h2
      · exact (h _ _ _).2 h2
      · cases h2
  · have hp : cfg.applyProcessing = false := by simpa using hp
    rw [C20_disabled x cfg filter pre _ w hp, C20_disabled x cfg filter pre _ w hp]

/-! ### C23 -/

/-- Joint effect of a list of the two jobs on the current source, when no random numbers are drawn. -/
inductive Eff (x : Ext F) (cfg : Config F) (m : Matrix F) (t : Option (List (F × F))) (p : Nat) : List Job → (Source F → Source F) → Prop
  | nil : Eff x cfg m t p [] id
  | recurrence (f g js) : RecOk x cfg m t f → Eff x cfg m t p js g → Eff x cfg m t p (.recurrence :: js) (g ∘ f)
  | maximum (f g js) : MaxOk x cfg m p f p → Eff x cfg m t p js g → Eff x cfg m t p (.maximumMagnitude :: js) (g ∘ f)

/-- No random number is used. -/
def Deterministic (cfg : Config F) : Prop := ∀ c, cfg.maximumMagnitude = some c → c.algorithm ≠ "Cumulative_Moment"

theorem MaxOk.pos_eq {x : Ext F} {cfg : Config F} (hd : Deterministic cfg) {m : Matrix F} {p p' : Nat} {f : Source F → Source F}
    (h : MaxOk x cfg m p f p') : p' = p := by
  obtain ⟨rows, c, r, -, hc, -, -, rfl⟩ := h
  simp [drawn, hd c hc]

theorem chain_eff (x : Ext F) (cfg : Config F) (hdet : Deterministic cfg) (procs : List Job)
    (hj : ∀ j ∈ procs, j = .recurrence ∨ j = .maximumMagnitude) (i : Nat) (m : Matrix F) (d : List (Source F)) (hl : i < d.length)
    (w w' : World F) (hi : w.ctx.curSm = some i) (hm : w.ctx.currentFilteredEq = some m) (hd : w.ctx.smDefinitions = some d) :
    Chain (Succeeds x cfg) procs w w' ↔ ∃ f, Eff x cfg m w.ctx.completenessTable w.pos procs f ∧ w' = w.setSource d i f := by
  induction procs generalizing w d with
  | nil =>
    constructor
    · rintro ⟨⟩
      refine ⟨id, .nil, ?_⟩
      simp only [World.setSource, List.modify_id, ← hd]
    · rintro ⟨f, ⟨⟩, rfl⟩
      simp only [World.setSource, List.modify_id, ← hd]
      exact .nil _
  | cons j js ih =>
    have ih' := fun (d : List (Source F)) (hl : i < d.length) (w : World F) => ih (fun j hjs => hj j (by simp [hjs])) d hl w
    have mm : ∀ (f g : Source F → Source F), (d.modify i f).modify i g = d.modify i (g ∘ f) := by
      intro f g
      exact List.modify_modify_eq _ _ _ _
    constructor
    · rintro (_ | ⟨_, _, _, w1, _, h, ht⟩)
      rcases hj j (by simp) with rfl | rfl
      · obtain ⟨i', d', m', f, hi', hd', -, hm', hr, rfl⟩ := recurrenceJob_ok.1 h
        rw [hi] at hi'; cases hi'
        rw [hd] at hd'; cases hd'
        rw [hm] at hm'; cases hm'
        obtain ⟨g, hg, rfl⟩ := (ih' (d.modify i f) (by simpa using hl) (w.setSource d i f) hi hm rfl).1 ht
        exact ⟨g ∘ f, .recurrence f g js hr hg, by simp [World.setSource, mm]⟩
      · obtain ⟨i', d', m', f, p', hi', hd', -, hm', hr, rfl⟩ := maximumMagnitudeJob_ok.1 h
        rw [hi] at hi'; cases hi'
        rw [hd] at hd'; cases hd'
        rw [hm] at hm'; cases hm'
        have hp := hr.pos_eq hdet
        subst hp
        obtain ⟨g, hg, rfl⟩ := (ih' (d.modify i f) (by simpa using hl) (w.setSource d i f) hi hm rfl).1 ht
        exact ⟨g ∘ f, .maximum f g js hr hg, by simp [World.setSource, mm]⟩
    · rintro ⟨f, hf, rfl⟩
      cases hf with
      | recurrence f g js hr hg =>
        refine .cons _ _ _ (w.setSource d i f) _ (recurrenceJob_ok.2 ⟨i, d, m, f, hi, hd, hl, hm, hr, rfl⟩) ?_
        exact (ih' (d.modify i f) (by simpa using hl) (w.setSource d i f) hi hm rfl).2 ⟨g, hg, by simp [World.setSource, mm]⟩
      | maximum f g js hr hg =>
        refine .cons _ _ _ (w.setSource d i f) _ (maximumMagnitudeJob_ok.2 ⟨i, d, m, f, w.pos, hi, hd, hl, hm, hr, rfl⟩) ?_
        exact (ih' (d.modify i f) (by simpa using hl) (w.setSource d i f) hi hm rfl).2 ⟨g, hg, by simp [World.setSource, mm]⟩

/-- What the processing makes of one source. -/
def Result (x : Ext F) (cfg : Config F) (filter : Source F → Matrix F → Except PyErr (Matrix F)) (procs : List Job) (working : Matrix F)
    (t : Option (List (F × F))) (p : Nat) (s s' : Source F) : Prop :=
  ∃ m f, filter s working = .ok m ∧ Eff x cfg m t p procs f ∧ s' = f s

/-- The world when the turn of source `i` with the events `m` has come. -/
def World.turn (w : World F) (i : Nat) (m : Matrix F) : World F :=
  { w with ctx := { w.ctx with curSm := some i, currentFilteredEq := some m } }

theorem process_results (x : Ext F) (cfg : Config F) (hdet : Deterministic cfg)
    (filter : Source F → Matrix F → Except PyErr (Matrix F)) (procs : List Job)
    (hj : ∀ j ∈ procs, j = .recurrence ∨ j = .maximumMagnitude) (working : Matrix F) (a b d' : List (Source F)) (w : World F)
    (hd : w.ctx.smDefinitions = some (a ++ b)) :
    (∃ w', Chain (ProcessesSource x cfg filter procs working) (List.range' a.length b.length) w w' ∧ w'.ctx.smDefinitions = some d') ↔
      ∃ b', d' = a ++ b' ∧ List.Forall₂ (Result x cfg filter procs working w.ctx.completenessTable w.pos) b b' := by
  induction b generalizing a w with
  | nil =>
    constructor
    · rintro ⟨w', ⟨⟩, h⟩
      rw [hd] at h
      cases h
      exact ⟨[], rfl, .nil⟩
    · rintro ⟨b', rfl, ⟨⟩⟩
      exact ⟨w, .nil _, hd⟩
  | cons s b ih =>
    rw [List.length_cons, List.range'_succ]
    have hs : (a ++ s :: b)[a.length]? = some s := by simp
    have hl : a.length < (a ++ s :: b).length := by simp
    have hmod : ∀ f : Source F → Source F, (a ++ s :: b).modify a.length f = (a ++ [f s]) ++ b := by
      intro f
      clear * -
      induction a with
      | nil => rfl
      | cons c a ih => simpa using ih
    have hstep : ∀ (w2 : World F), ProcessesSource x cfg filter procs working a.length w w2 ↔
        ∃ m f, filter s working = .ok m ∧ Eff x cfg m w.ctx.completenessTable w.pos procs f ∧
          w2 = (w.turn a.length m).setSource (a ++ s :: b) a.length f := by
      intro w2
      constructor
      · rintro ⟨defs, s', m, hd', hs', hf, hc⟩
        rw [hd] at hd'
        cases hd'
        rw [hs] at hs'
        cases hs'
        obtain ⟨f, hf', rfl⟩ := (chain_eff x cfg hdet procs hj a.length m _ hl (w.turn a.length m) _ rfl rfl hd).1 hc
        exact ⟨m, f, hf, hf', rfl⟩
      · rintro ⟨m, f, hf, hf', rfl⟩
        exact ⟨_, s, m, hd, hs, hf, (chain_eff x cfg hdet procs hj a.length m _ hl (w.turn a.length m) _ rfl rfl hd).2 ⟨f, hf', rfl⟩⟩
    constructor
    · rintro ⟨w', _ | ⟨_, _, _, w2, _, h, ht⟩, hd'⟩
      obtain ⟨m, f, hf, hf', rfl⟩ := (hstep w2).1 h
      obtain ⟨b', rfl, hb⟩ := (ih (a ++ [f s]) ((w.turn a.length m).setSource (a ++ s :: b) a.length f)
        (by simp only [World.setSource]; rw [hmod])).1 ⟨w', by simpa using ht, hd'⟩
      exact ⟨f s :: b', by simp, .cons ⟨m, f, hf, hf', rfl⟩ hb⟩
    · rintro ⟨b', rfl, _ | ⟨⟨m, f, hf, hf', rfl⟩, hb⟩⟩
      next b' =>
      obtain ⟨w', hw, hd'⟩ := (ih (a ++ [f s]) ((w.turn a.length m).setSource (a ++ s :: b) a.length f)
        (by simp only [World.setSource]; rw [hmod])).2 ⟨b', by simp, hb⟩
      refine ⟨w', .cons _ _ _ _ _ ((hstep _).2 ⟨m, f, hf, hf', rfl⟩) (by simpa using hw), ?_⟩
      rw [hd']

/-- Processing the list `d` of sources, all else being as in `w`, ends without exception and leaves the list `d'`. -/
def Processed (x : Ext F) (cfg : Config F) (filter : Source F → Matrix F → Except PyErr (Matrix F)) (procs : List Job) (working : Matrix F)
    (w : World F) (d d' : List (Source F)) : Prop :=
  ∃ w', processSources x cfg filter procs working (List.range d.length) { w with ctx := { w.ctx with smDefinitions := some d } } = some ⟨none, w'⟩ ∧
    w'.ctx.smDefinitions = some d'

theorem processed_iff (x : Ext F) (cfg : Config F) (hdet : Deterministic cfg) (filter : Source F → Matrix F → Except PyErr (Matrix F))
    (procs : List Job) (hj : ∀ j ∈ procs, j = .recurrence ∨ j = .maximumMagnitude) (working : Matrix F) (w : World F) (d d' : List (Source F)) :
    Processed x cfg filter procs working w d d' ↔
      List.Forall₂ (Result x cfg filter procs working w.ctx.completenessTable w.pos) d d' := by
  unfold Processed
  simp only [processSources_ok]
  have := process_results x cfg hdet filter procs hj working [] d d' { w with ctx := { w.ctx with smDefinitions := some d } } rfl
  rw [List.range_eq_range']
  simp only [List.length_nil, List.nil_append] at this
  rw [this]
  exact ⟨fun ⟨b', h1, h2⟩ => by rw [h1]; exact h2, fun h => ⟨d', rfl, h⟩⟩

/-- **C23**, for processing lists made of `Recurrence` and `MaximumMagnitude` without random numbers: the sources come out of the joint run exactly as
each comes out of a run in which it is alone. -/
theorem C23_alone_partial (x : Ext F) (cfg : Config F) (hdet : Deterministic cfg) (filter : Source F → Matrix F → Except PyErr (Matrix F))
    (procs : List Job) (hj : ∀ j ∈ procs, j = .recurrence ∨ j = .maximumMagnitude) (working : Matrix F) (w : World F) (d d' : List (Source F)) :
    Processed x cfg filter procs working w d d' ↔
      List.Forall₂ (fun s s' => Processed x cfg filter procs working w [s] [s']) d d' := by
  rw [processed_iff x cfg hdet filter procs hj]
  simp only [processed_iff x cfg hdet filter procs hj, List.forall₂_cons, List.forall₂_nil_left_iff, and_true]

/-- **C23**: splitting the model. -/
theorem C23_split_partial (x : Ext F) (cfg : Config F) (hdet : Deterministic cfg) (filter : Source F → Matrix F → Except PyErr (Matrix F))
    (procs : List Job) (hj : ∀ j ∈ procs, j = .recurrence ∨ j = .maximumMagnitude) (working : Matrix F) (w : World F)
    (a b d' : List (Source F)) : Processed x cfg filter procs working w (a ++ b) d' ↔
      ∃ a' b', d' = a' ++ b' ∧ Processed x cfg filter procs working w a a' ∧ Processed x cfg filter procs working w b b' := by
  simp only [processed_iff x cfg hdet filter procs hj]
  constructor
  · intro h
    have hl := h.length_eq
    refine ⟨d'.take a.length, d'.drop a.length, (List.take_append_drop _ _).symm, ?_⟩
    have h1 := List.forall₂_take a.length h
    have h2 := List.forall₂_drop a.length h
    simp only [List.take_left', List.drop_left'] at h1 h2
    exact ⟨h1, h2⟩
  · rintro ⟨a', b', rfl, h1, h2⟩
    exact List.rel_append h1 h2

/-- **C23**: the order of the sources makes no difference. -/
theorem C23_order_partial (x : Ext F) (cfg : Config F) (hdet : Deterministic cfg) (filter : Source F → Matrix F → Except PyErr (Matrix F))
    (procs : List Job) (hj : ∀ j ∈ procs, j = .recurrence ∨ j = .maximumMagnitude) (working : Matrix F) (w : World F)
    (d e d' : List (Source F)) (hp : d.Perm e) (h : Processed x cfg filter procs working w d d') :
    ∃ e', d'.Perm e' ∧ Processed x cfg filter procs working w e e' := by
  simp only [processed_iff x cfg hdet filter procs hj] at h ⊢
  obtain ⟨e', h1, h2⟩ := List.perm_comp_forall₂ hp.symm h
  exact ⟨e', h2.symm, h1⟩

end

end Verif.Workflow
