import Verif.Props.Refinement

/-!
# C201: the sources do not influence each other
-/

namespace Verif.Workflow

open Verif Verif.EqCatalog Verif.Csv Verif.Nrml Verif.Declustering Verif.Recurrence Verif.MaxMag Spec

section
variable {F : Type} [PyMath F]

/-- The maximum magnitudes are computed without random numbers. -/
def Spec.NoRandom (cfg : Config F) : Prop := "MaximumMagnitude" ∈ cfg.processingJobs → ∀ c, cfg.maximumMagnitude = some c → c.algorithm ≠ "Cumulative_Moment"

theorem isNumber_unique {v : Val F} {a b : F} (ha : IsNumber v a) (hb : IsNumber v b) : a = b := by
  rcases ha with rfl | ⟨i, rfl, rfl⟩ <;> rcases hb with hb | ⟨j, hb, rfl⟩ <;> cases hb <;> rfl

theorem rowOf_unique {e : Entry F} {r r' : Row F} (h : RowOf e r) (h' : RowOf e r') : r = r' := by
  funext i
  fin_cases i
  exacts [isNumber_unique h.year h'.year, isNumber_unique h.month h'.month, isNumber_unique h.day h'.day, isNumber_unique h.longitude h'.longitude,
    isNumber_unique h.latitude h'.latitude, isNumber_unique h.mw h'.mw, isNumber_unique h.sigmaMw h'.sigmaMw]

theorem rowsOf_unique {es : List (Entry F)} {l l' : List (Row F)} (h : List.Forall₂ RowOf es l) (h' : List.Forall₂ RowOf es l') : l = l' := by
  induction h generalizing l' with
  | nil => cases h'; rfl
  | cons hd _ ih =>
    cases h' with
    | cons hd' ht' => rw [rowOf_unique hd hd', ih ht']

theorem prepares_unique {x : Ext F} {cfg : Config F} {all : List (Row F)} {name : String} {p q q' : Prep F} (h : Prepares x cfg all name p q) (h' : Prepares x cfg all name p q') :
    q = q' := by
  cases h with
  | gardnerKnopoff _ opt fsw r h1 h2 =>
    generalize hn : "GardnerKnopoff" = n at h'
    cases h' with
    | gardnerKnopoff _ opt' fsw' r' h1' h2' =>
      rw [h1] at h1'
      cases h1'
      rw [h2] at h2'
      cases h2'
      rfl
    | afteran => exact absurd hn (by decide)
    | stepp => exact absurd hn (by decide)
  | afteran _ opt tw r h1 h2 =>
    generalize hn : "Afteran" = n at h'
    cases h' with
    | afteran _ opt' fsw' r' h1' h2' =>
      rw [h1] at h1'
      cases h1'
      rw [h2] at h2'
      cases h2'
      rfl
    | gardnerKnopoff => exact absurd hn (by decide)
    | stepp => exact absurd hn (by decide)
  | stepp _ c t h1 h2 =>
    generalize hn : "Stepp" = n at h'
    cases h' with
    | stepp _ c' t' h1' h2' =>
      rw [h1] at h1'
      cases h1'
      rw [h2] at h2'
      cases h2'
      rfl
    | gardnerKnopoff => exact absurd hn (by decide)
    | afteran => exact absurd hn (by decide)

theorem chain_unique {α σ : Type} {step : α → σ → σ → Prop} (hu : ∀ a s t t', step a s t → step a s t' → t = t') {as : List α} {s t t' : σ} (h : Chain step as s t) (h' : Chain step as s t') :
    t = t' := by
  induction h with
  | nil => cases h'; rfl
  | cons a as s s' s'' hs _ ih =>
    cases h' with
    | cons _ _ _ s1 _ hs' ht' =>
      rw [hu _ _ _ _ hs hs'] at ih
      exact ih ht'

theorem analysis_random {ev : List (MEvent F)} {c : MaxMagConfig F} (hc : c.algorithm ≠ "Cumulative_Moment") (f g : ℕ → ℕ → F) (fuel : ℕ) : analysis ev c f fuel = analysis ev c g fuel := by
  simp only [analysis, if_neg hc]

theorem sourceRun_position {x : Ext F} {cfg : Config F} {table : List (F × F)} {rows : List (Row F)} {names : List String} {n m : ℕ} {s t : AreaSource F}
    (hr : "MaximumMagnitude" ∈ names → ∀ c, cfg.maximumMagnitude = some c → c.algorithm ≠ "Cumulative_Moment") (h : SourceRun x cfg table rows names n s m t) :
    m = n ∧ ∀ n', SourceRun x cfg table rows names n' s n' t := by
  induction h with
  | nil n s => exact ⟨rfl, fun n' => .nil n' s⟩
  | recurrence names n s m t c g h1 h2 _ ih =>
    obtain ⟨e, hall⟩ := ih fun hm => hr (List.mem_cons_of_mem _ hm)
    exact ⟨e, fun n' => .recurrence _ _ _ _ _ c g h1 h2 (hall n')⟩
  | maximum names n s m t c r h1 h2 _ ih =>
    obtain ⟨e, hall⟩ := ih fun hm => hr (List.mem_cons_of_mem _ hm)
    have hc := hr List.mem_cons_self c h1
    rw [if_neg hc, Nat.add_zero] at e
    refine ⟨e, fun n' => .maximum _ _ _ _ _ c r h1 ((analysis_random hc _ _ _).trans h2) ?_⟩
    rw [if_neg hc]
    exact hall n'

theorem sourceRun_unique {x : Ext F} {cfg : Config F} {table : List (F × F)} {rows : List (Row F)} {names : List String} {n m m' : ℕ} {s t t' : AreaSource F}
    (h : SourceRun x cfg table rows names n s m t) (h' : SourceRun x cfg table rows names n s m' t') : t = t' := by
  induction h with
  | nil n s => cases h'; rfl
  | recurrence names n s m t c g h1 h2 _ ih =>
    generalize hn : "Recurrence" :: names = l at h'
    cases h' with
    | nil => cases hn
    | recurrence _ _ _ _ _ c' g' h1' h2' h3' =>
      cases hn
      rw [h1] at h1'
      cases h1'
      rw [h2] at h2'
      cases h2'
      exact ih h3'
    | maximum => exact absurd (List.cons.inj hn).1 (by decide)
  | maximum names n s m t c r h1 h2 _ ih =>
    generalize hn : "MaximumMagnitude" :: names = l at h'
    cases h' with
    | nil => cases hn
    | recurrence => exact absurd (List.cons.inj hn).1 (by decide)
    | maximum _ _ _ _ _ c' g' h1' h2' h3' =>
      cases hn
      rw [h1] at h1'
      cases h1'
      rw [h2] at h2'
      cases h2'
      exact ih h3'

omit [PyMath F] in
theorem hasEvents_unique {x : Ext F} {cfg : Config F} {s : AreaSource F} {events rows rows' : List (Row F)} (h : HasEvents x cfg s events rows) (h' : HasEvents x cfg s events rows') : rows = rows' := by
  by_cases hc : Configured cfg.sourceModelFile
  · rw [(h.1 hc).2.2.1, (h'.1 hc).2.2.1]
  · rw [h.2 hc, h'.2 hc]

/-- **C201**: without random numbers the sources are processed exactly as each one of them alone. -/
theorem C201_each (x : Ext F) (cfg : Config F) (p : Prep F) (hr : NoRandom cfg) (n m : ℕ) (ss ts : List (AreaSource F)) :
    SourcesRun x cfg p n ss m ts ↔ m = n ∧ List.Forall₂ (fun s t => ∃ k, SourcesRun x cfg p n [s] k [t]) ss ts := by
  constructor
  · intro h
    induction h with
    | nil => exact ⟨rfl, .nil⟩
    | cons n s m t ss n' ts rows he hs _ ih =>
      obtain ⟨rfl, hall⟩ := sourceRun_position hr hs
      exact ⟨ih.1, .cons ⟨_, .cons _ _ _ _ _ _ _ rows he hs (.nil _)⟩ ih.2⟩
  · rintro ⟨rfl, h⟩
    induction h with
    | nil => exact .nil _
    | cons hd _ ih =>
      obtain ⟨k, hk⟩ := hd
      cases hk with
      | cons _ _ _ _ _ _ _ rows he hs _ =>
        obtain ⟨rfl, hall⟩ := sourceRun_position hr hs
        exact .cons _ _ _ _ _ _ _ rows he hs ih

theorem prepared_unique {x : Ext F} {cfg : Config F} {fs fs' fs1 fs1' : Text → Option Content} {es es' : List (Entry F)} {inputs inputs' : List (AreaSource F)} {all all' : List (Row F)}
    {q q' : Prep F} (hc : fs' cfg.eqCatalogFile = fs cfg.eqCatalogFile) (ht : ∀ path, cfg.completenessTableFile = some path → fs' path = fs path)
    (h : Prepared x cfg fs es inputs all q fs1) (h' : Prepared x cfg fs' es' inputs' all' q' fs1') : q = q' := by
  obtain ⟨file, y, m, p, a1, a2, a3, a4, a5, a6, a7, a8, a9, a10, a11, a12, -, -⟩ := h
  obtain ⟨file', y', m', p', c1, c2, c3, c4, c5, c6, c7, c8, c9, c10, c11, c12, -, -⟩ := h'
  rw [hc, a1] at c1
  cases c1
  rw [a2] at c2
  cases c2
  obtain rfl := rowsOf_unique a5 c5
  rw [a6] at c6
  cases c6
  rw [a7] at c7
  cases c7
  obtain rfl := chain_unique (step := Prepares x cfg all) (fun _ _ _ _ h h' => prepares_unique h h') a8 c8
  obtain ⟨e, f, t⟩ := q
  obtain ⟨e', f', t'⟩ := q'
  simp only at a9 a10 a11 a12 c9 c10 c11 c12
  subst a9 a10 c9 c10
  by_cases hg : cfg.preprocessingJobs = [] ∧ Configured cfg.completenessTableFile
  · obtain ⟨path, txt, e1, e2, e3⟩ := a11 hg
    obtain ⟨path', txt', e1', e2', e3'⟩ := c11 hg
    rw [e1] at e1'
    cases e1'
    rw [ht _ e1, e2] at e2'
    cases e2'
    rw [e3] at e3'
    cases e3'
    rfl
  · rw [a12 hg, c12 hg]

/-- **C201**: let the configuration, the catalogue file and the completeness table file be given and let the maximum magnitudes be computed without random numbers.  One function then gives
the results of all runs that end without exception, whatever the source model: what is written for a source depends neither on the other sources nor on their order or number. -/
theorem C201_run (x : Ext F) (cfg : Config F) (catalogue : Option Content) (table : Text → Option Content)
    (hpre : ∀ n ∈ cfg.preprocessingJobs, n = "GardnerKnopoff" ∨ n = "Afteran" ∨ n = "Stepp")
    (hproc : ∀ n ∈ cfg.processingJobs, n = "Recurrence" ∨ n = "MaximumMagnitude") (hr : NoRandom cfg) :
    ∃ φ : AreaSource F → AreaSource F, ∀ (fs : Text → Option Content) (pos : ℕ) (w : World F),
      fs cfg.eqCatalogFile = catalogue → (∀ path, cfg.completenessTableFile = some path → fs path = table path) → main x cfg fs pos = some ⟨none, w⟩ →
      ∃ inputs doc, InputSources x cfg fs inputs ∧ serialize x.nums (inputs.map φ) = .ok doc ∧ w.fs cfg.resultFile = some (.xml doc) := by
  classical
  cases hp : cfg.applyProcessing with
  | false =>
    refine ⟨id, fun fs pos w h1 h2 h => ?_⟩
    obtain ⟨es, inputs, all, q, fs1, n, finals, doc, ⟨file, y, m, p, -, -, a3, -⟩, -, b2, b3, -, b5⟩ := (C145_run x cfg fs w.fs pos hpre hproc).1 ⟨w, h, rfl⟩
    rw [b2 hp] at b3
    exact ⟨inputs, doc, a3, by rwa [List.map_id], by rw [b5]; simp [put]⟩
  | true =>
    by_cases hany : ∃ (fs : Text → Option Content) (es : List (Entry F)) (inputs : List (AreaSource F)) (all : List (Row F)) (q : Prep F) (fs1 : Text → Option Content),
        fs cfg.eqCatalogFile = catalogue ∧ (∀ path, cfg.completenessTableFile = some path → fs path = table path) ∧ Prepared x cfg fs es inputs all q fs1
    swap
    · refine ⟨id, fun fs pos w h1 h2 h => absurd ?_ hany⟩
      obtain ⟨es, inputs, all, q, fs1, n, finals, doc, a, -⟩ := (C145_run x cfg fs w.fs pos hpre hproc).1 ⟨w, h, rfl⟩
      exact ⟨fs, es, inputs, all, q, fs1, h1, h2, a⟩
    obtain ⟨fs0, es0, inputs0, all0, q, fs10, g1, g2, g⟩ := hany
    refine ⟨fun s => if hex : ∃ t, ∃ k, SourcesRun x cfg q 0 [s] k [t] then hex.choose else s, fun fs pos w h1 h2 h => ?_⟩
    obtain ⟨es, inputs, all, q', fs1, n, finals, doc, a, b1, -, b3, -, b5⟩ := (C145_run x cfg fs w.fs pos hpre hproc).1 ⟨w, h, rfl⟩
    obtain rfl := prepared_unique (h1.trans g1.symm) (fun path hpath => (h2 path hpath).trans (g2 path hpath).symm) g a
    obtain ⟨file, y, m, p, -, -, a3, -⟩ := a
    refine ⟨inputs, doc, a3, ?_, by rw [b5]; simp [put]⟩
    rw [← b3]
    congr 1
    have hrun := b1 hp
    clear b1 b3 b5 a3 g h
    induction hrun with
    | nil => rfl
    | cons n s m t ss n' ts rows he hs _ ih =>
      obtain ⟨rfl, hall⟩ := sourceRun_position hr hs
      have hex : ∃ t, ∃ k, SourcesRun x cfg q 0 [s] k [t] := ⟨t, 0, .cons _ _ _ _ _ _ _ rows he (hall 0) (.nil _)⟩
      rw [List.map_cons, ih, dif_pos hex]
      congr 1
      obtain ⟨k, hk⟩ := hex.choose_spec
      generalize hex.choose = t' at hk ⊢
      cases hk with
      | cons _ _ _ _ _ _ _ rows' he' hs' _ =>
        rw [← hasEvents_unique he he'] at hs'
        exact (sourceRun_unique (hall 0) hs').symm

end

/-- The hypotheses are met by the example run of the declustering and the recurrence. -/
example : ∃ φ : AreaSource ℝ → AreaSource ℝ, ∃ inputs doc, InputSources x31 config31 (fs31 "5") inputs ∧ serialize x31.nums (inputs.map φ) = .ok doc := by
  obtain ⟨w', h⟩ := run31_exists
  obtain ⟨φ, hφ⟩ := C201_run x31 config31 (fs31 "5" config31.eqCatalogFile) (fs31 "5") (fun n hn => .inl (List.mem_singleton.1 hn)) (fun n hn => .inl (List.mem_singleton.1 hn))
    (fun hm => absurd (List.mem_singleton.1 hm) (by decide))
  obtain ⟨inputs, doc, h1, h2, -⟩ := hφ _ _ _ rfl (fun _ _ => rfl) h
  exact ⟨φ, inputs, doc, h1, h2⟩

end Verif.Workflow
