import Verif.Props.Refinement
import Verif.Props.PositiveRates
import Verif.Props.EquivalenceRun
import Verif.Lemmas.OrdinaryCatalog

/-!
# C162: a run with the Weichert recurrence writes ordinary numbers and positive rates
-/

namespace Verif.Workflow

open Verif Verif.EqCatalog Verif.Csv Verif.Nrml Verif.Declustering Verif.Recurrence Verif.MaxMag Spec XNum

namespace Spec

/-- Year and magnitude of an earthquake are ordinary numbers, neither infinite nor NaN. -/
def OrdinaryEntry (e : Entry (XNum ℝ)) : Prop :=
  ((∃ i, e .year = .int i) ∨ ∃ y : ℝ, e .year = .flt (fin y)) ∧ ((∃ i, e .mw = .int i) ∨ ∃ m : ℝ, e .mw = .flt (fin m))

/-- Ordinary Gutenberg-Richter parameters with a positive rate and the reference magnitude `ref`. -/
def Sound (ref : ℝ) (s : AreaSource (XNum ℝ)) : Prop :=
  ∃ a b : ℝ, s.rate.tgr.aValue = fin a ∧ s.rate.tgr.bValue = fin b ∧ s.rate.tgr.minMagnitude = fin ref ∧ 0 < a

end Spec

/-- Year and magnitude of a row are ordinary numbers. -/
def OrdinaryRow (r : Row (XNum ℝ)) : Prop := ∃ y m : ℝ, r 0 = fin y ∧ r 5 = fin m

theorem ordinaryRow_of {e : Entry (XNum ℝ)} {r : Row (XNum ℝ)} (h : RowOf e r) (ho : OrdinaryEntry e) : OrdinaryRow r := by
  have key : ∀ {v : Val (XNum ℝ)} {x : XNum ℝ}, IsNumber v x → ((∃ i, v = .int i) ∨ ∃ y : ℝ, v = .flt (fin y)) → ∃ y : ℝ, x = fin y := by
    rintro v x (rfl | ⟨i, rfl, rfl⟩) hv
    · rcases hv with ⟨i, h⟩ | ⟨y, h⟩
      · cases h
      · cases h; exact ⟨y, rfl⟩
    · exact ⟨i, rfl⟩
  obtain ⟨y, hy⟩ := key h.year ho.1
  obtain ⟨m, hm⟩ := key h.mw ho.2
  exact ⟨y, m, hy, hm⟩

theorem ordinaryRows_of {es : List (Entry (XNum ℝ))} {all : List (Row (XNum ℝ))} (h : List.Forall₂ RowOf es all) (ho : ∀ e ∈ es, OrdinaryEntry e) :
    ∀ r ∈ all, OrdinaryRow r := by
  induction h with
  | nil => simp
  | cons hd _ ih =>
    intro r hr
    rcases List.mem_cons.1 hr with rfl | hr
    · exact ordinaryRow_of hd (ho _ (by simp))
    · exact ih (fun e he => ho e (by simp [he])) r hr

theorem years_fin {rows : List (Row (XNum ℝ))} (h : ∀ r ∈ rows, OrdinaryRow r) :
    ∃ ev : List (ℝ × ℝ), years rows = ev.map fp ∧ ∀ e ∈ ev, ∃ r ∈ rows, r 0 = fin e.1 ∧ r 5 = fin e.2 := by
  induction rows with
  | nil => exact ⟨[], rfl, by simp⟩
  | cons r rows ih =>
    obtain ⟨ev, h1, h2⟩ := ih fun r hr => h r (by simp [hr])
    obtain ⟨y, m, hy, hm⟩ := h r (by simp)
    refine ⟨(y, m) :: ev, ?_, ?_⟩
    · simp only [years, List.map_cons] at h1 ⊢
      rw [h1, hy, hm]; rfl
    · intro e he
      rcases List.mem_cons.1 he with rfl | he
      · exact ⟨r, by simp, hy, hm⟩
      · obtain ⟨r', hr', hh⟩ := h2 e he
        exact ⟨r', by simp [hr'], hh⟩

section
variable {F : Type} [PyMath F]

/-- The declusterings keep rows of the catalogue and the table. -/
theorem prepares_sub {x : Ext F} {cfg : Config F} {all : List (Row F)} {n : String} {p p' : Prep F} (h : Prepares x cfg all n p p') (hp : ∀ r ∈ p.events, r ∈ all) :
    (∀ r ∈ p'.events, r ∈ all) ∧ (n ≠ "Stepp" → p'.table = p.table) := by
  cases h with
  | gardnerKnopoff _ opt fsw r hc hg =>
    refine ⟨fun q hq => ?_, fun _ => rfl⟩
    obtain ⟨t, win, -, -, hr⟩ := gk_ok _ _ _ _ _ _ hg
    rw [hr] at hq
    simp only [unflagged, List.mem_map] at hq
    obtain ⟨j, -, rfl⟩ := hq
    exact hp _ (List.getElem_mem _)
  | afteran _ opt fsw r hc hg =>
    refine ⟨fun q hq => ?_, fun _ => rfl⟩
    obtain ⟨t, win, s, -, -, -, hr⟩ := af_ok _ _ _ _ _ _ hg
    rw [hr] at hq
    simp only [unflagged, List.mem_map] at hq
    obtain ⟨j, -, rfl⟩ := hq
    exact List.getElem_mem _
  | stepp _ c t hc ht => exact ⟨hp, fun h => absurd rfl h⟩

theorem prepares_chain_sub {x : Ext F} {cfg : Config F} {all : List (Row F)} {names : List String} {p p' : Prep F} (h : Chain (Prepares x cfg all) names p p')
    (hp : ∀ r ∈ p.events, r ∈ all) : (∀ r ∈ p'.events, r ∈ all) ∧ ("Stepp" ∉ names → p'.table = p.table) := by
  induction h with
  | nil => exact ⟨hp, fun _ => rfl⟩
  | cons a as s s' s'' h1 h2 ih =>
    obtain ⟨k1, k2⟩ := prepares_sub h1 hp
    obtain ⟨k3, k4⟩ := ih k1
    refine ⟨k3, fun hn => ?_⟩
    rw [k4 fun hc => hn (by simp [hc]), k2 fun hc => hn (by simp [hc])]

theorem chain_append {α σ : Type} {step : α → σ → σ → Prop} {as bs : List α} {s s' : σ} (h : Chain step (as ++ bs) s s') :
    ∃ t, Chain step as s t ∧ Chain step bs t s' := by
  induction as generalizing s with
  | nil => exact ⟨s, .nil _, h⟩
  | cons a as ih =>
    cases h with
    | cons _ _ _ s1 _ h1 h2 =>
      obtain ⟨t, h3, h4⟩ := ih h2
      exact ⟨t, .cons _ _ _ _ _ h1 h3, h4⟩

end

/-- A source with sound results keeps them, and the recurrence gives sound results. -/
theorem sourceRun_sound {x : Ext (XNum ℝ)} {cfg : Config (XNum ℝ)} {table : List (XNum ℝ × XNum ℝ)} {rows : List (Row (XNum ℝ))} {dm dt ref : ℝ}
    (hc : cfg.recurrence = some ⟨fin dm, "Weichert", fin ref, fin dt⟩)
    (hR : ∀ R, recurrenceAnalysis (years rows) table (fin dm) "Weichert" (fin ref) (fin dt) x.fuel = .ok (some R) →
      ∃ b sb a sa : ℝ, R = ⟨fin b, fin sb, fin a, fin sa⟩ ∧ 0 < a ∧ 0 < sa ∧ 0 < sb)
    {names : List String} {n n' : ℕ} {s t : AreaSource (XNum ℝ)} (h : SourceRun x cfg table rows names n s n' t) (hs : "Recurrence" ∈ names ∨ Sound ref s) : Sound ref t := by
  induction h with
  | nil n s => exact hs.resolve_left (by simp)
  | recurrence names n s n' t c g hc' hg _ ih =>
    rw [hc] at hc'
    cases hc'
    obtain ⟨b, sb, a, sa, rfl, h1, -, -⟩ := hR g hg
    exact ih (.inr ⟨a, b, rfl, rfl, rfl, h1⟩)
  | maximum names n s n' t c r hc' hg _ ih =>
    refine ih ?_
    rcases hs with hs | ⟨a, b, h1, h2, h3, h4⟩
    · exact .inl (by simpa using hs)
    · exact .inr ⟨a, b, h1, h2, h3, h4⟩

theorem sourcesRun_sound {x : Ext (XNum ℝ)} {cfg : Config (XNum ℝ)} {p : Prep (XNum ℝ)} {dm dt ref : ℝ}
    (hc : cfg.recurrence = some ⟨fin dm, "Weichert", fin ref, fin dt⟩) (hin : "Recurrence" ∈ cfg.processingJobs)
    (hR : ∀ s rows R, HasEvents x cfg s p.events rows → recurrenceAnalysis (years rows) p.table (fin dm) "Weichert" (fin ref) (fin dt) x.fuel = .ok (some R) →
      ∃ b sb a sa : ℝ, R = ⟨fin b, fin sb, fin a, fin sa⟩ ∧ 0 < a ∧ 0 < sa ∧ 0 < sb)
    {n n' : ℕ} {ss ts : List (AreaSource (XNum ℝ))} (h : SourcesRun x cfg p n ss n' ts) : ∀ t ∈ ts, Sound ref t := by
  induction h with
  | nil => simp
  | cons n s m t ss n' ts rows he hr _ ih =>
    intro q hq
    rcases List.mem_cons.1 hq with rfl | hq
    · exact sourceRun_sound hc (hR s rows · he) hr (.inl hin)
    · exact ih q hq

/-- **C162**: a run with the Weichert recurrence on a catalogue of ordinary numbers, computed with infinities and NaN, that ends without exception writes ordinary Gutenberg-Richter
parameters with a positive rate for every source: with the default completeness table, for the declusterings in any order; with the table of Stepp's test on the declustered
catalogue, if there is no source model. -/
theorem C162_run (x : Ext (XNum ℝ)) (cfg : Config (XNum ℝ)) (fs : Text → Option Content) (pos : ℕ) (w' : World (XNum ℝ)) {dm dt ref : ℝ} (hdm : 0 < dm) (hdt : 0 < dt)
    (hpre : ∀ n ∈ cfg.preprocessingJobs, n = "GardnerKnopoff" ∨ n = "Afteran" ∨ n = "Stepp")
    (hproc : ∀ n ∈ cfg.processingJobs, n = "Recurrence" ∨ n = "MaximumMagnitude") (hin : "Recurrence" ∈ cfg.processingJobs) (hp : cfg.applyProcessing = true)
    (hc : cfg.recurrence = some ⟨fin dm, "Weichert", fin ref, fin dt⟩)
    (hst : ∀ c, cfg.stepp = some c → ∃ sm st tol : ℝ, c.magnitudeWindows = fin sm ∧ c.timeWindow = fin st ∧ c.sensitivity = fin tol ∧ 0 < sm ∧ 0 < st)
    (hcase : ("Stepp" ∉ cfg.preprocessingJobs ∧ ¬ (cfg.preprocessingJobs = [] ∧ Configured cfg.completenessTableFile)) ∨
      (¬ Configured cfg.sourceModelFile ∧ ∃ names, cfg.preprocessingJobs = names ++ ["Stepp"]))
    (hord : ∀ file es, fs cfg.eqCatalogFile = some (.text file) → readCatalogFile x.env x.ord file = .ok es → ∀ e ∈ es, OrdinaryEntry e)
    (h : main x cfg fs pos = some ⟨none, w'⟩) :
    ∃ finals doc, serialize x.nums finals = .ok doc ∧ w'.fs cfg.resultFile = some (.xml doc) ∧ ∀ s ∈ finals, Sound ref s := by
  obtain ⟨es, inputs, all, q, fs1, n, finals, doc, ⟨file, y, m, p, hfile, hes, hinp, -, hrows, hy, hm, hch, he, hfl, -, ht, -, -⟩, hrun, -, hdoc, -, hfs⟩ :=
    (C145_run x cfg fs w'.fs pos hpre hproc).1 ⟨w', h, rfl⟩
  refine ⟨finals, doc, hdoc, by rw [hfs]; simp [put], sourcesRun_sound hc hin ?_ (hrun hp)⟩
  have hall := ordinaryRows_of hrows (hord file es hfile hes)
  intro s rows R hev hR
  have hsub : ∀ r ∈ rows, r ∈ q.events := by
    intro r hr
    by_cases hcf : Configured cfg.sourceModelFile
    · obtain ⟨-, -, rfl, -⟩ := hev.1 hcf
      exact (List.mem_filter.1 hr).1
    · rwa [hev.2 hcf] at hr
  rcases hcase with ⟨hns, hnt⟩ | ⟨hnc, names, hnames⟩
  · obtain ⟨k1, k2⟩ := prepares_chain_sub hch (fun r hr => hr)
    rw [ht hnt, k2 hns] at hR
    obtain ⟨ev, hev1, hev2⟩ := years_fin hall
    obtain ⟨zone, hz1, hz2⟩ := years_fin (rows := rows) fun r hr => hall r (k1 r (by rw [← he]; exact hsub r hr))
    have e0 : all.map (fun r => r 0) = (ev.map Prod.fst).map fin := by
      have := congrArg (List.map Prod.fst) hev1
      simpa [years, List.map_map, Function.comp_def, fp] using this
    have e5 : all.map (fun r => r 5) = (ev.map Prod.snd).map fin := by
      have := congrArg (List.map Prod.snd) hev1
      simpa [years, List.map_map, Function.comp_def, fp] using this
    rw [e0, npMin_fin] at hy
    rw [e5, npMin_fin] at hm
    rcases hy' : Np.npMin (ev.map Prod.fst) with e | y'
    · rw [hy'] at hy; cases hy
    rcases hm' : Np.npMin (ev.map Prod.snd) with e | m'
    · rw [hm'] at hm; cases hm
    rw [hy'] at hy
    rw [hm'] at hm
    cases hy
    cases hm
    rw [hz1] at hR
    have hne := (analysis_prep (table := [(y', m')]) hdm hdt hR).1
    refine C161_rate_partial (table := [(y', m')]) hdm hdt ?_ hR
    intro r hr
    rw [List.mem_singleton] at hr
    subst hr
    obtain ⟨e, hez⟩ := List.exists_mem_of_ne_nil _ hne
    refine ⟨e, hez, lt_of_le_of_lt ?_ (lt_add_one _)⟩
    obtain ⟨r, hr, hr0, -⟩ := hz2 e hez
    have hra : r 0 ∈ all.map fun r => r 0 := List.mem_map.2 ⟨r, k1 r (by rw [← he]; exact hsub r hr), rfl⟩
    rw [e0, hr0, List.mem_map] at hra
    obtain ⟨v, hv, hve⟩ := hra
    cases hve
    exact (Np.npMin_ok hy').2 hv
  · have hne : ¬ (cfg.preprocessingJobs = [] ∧ Configured cfg.completenessTableFile) := by rw [hnames]; simp
    rw [ht hne] at hR
    obtain ⟨t, ht1, ht2⟩ := chain_append (hnames ▸ hch)
    obtain ⟨k1, -⟩ := prepares_chain_sub ht1 (fun r hr => hr)
    rcases ht2 with _ | ⟨_, _, _, p1, _, h1, _ | _⟩
    generalize hn : "Stepp" = name at h1
    cases h1 with
    | gardnerKnopoff => exact absurd hn (by decide)
    | afteran => exact absurd hn (by decide)
    | stepp _ c T hcs hT =>
      rw [hev.2 hnc, he] at hR
      obtain ⟨ev, hev1, -⟩ := years_fin (rows := t.events) fun r hr => hall r (k1 r hr)
      obtain ⟨sm, st, tol, c1, c2, c3, hsm, hst'⟩ := hst c hcs
      rw [hev1, c1, c2, c3] at hT
      simp only [hev1] at hR
      exact C161_stepp hdm hdt hsm hst' hT hR

/-! ### A run -/

/-- An event of the zone `zone161`. -/
def row162 (year mag : String) : List Text :=
  ["1", "AAA", "20000110034913", year, "01", "10", "03", "49", "13", "0.02", "0", "0", "2.43", "1.01", "298",
   "9.3", "0.5", mag, "0", "", "", "", "", "1.7", "0.1"].map String.toList

/-- The catalogue file. -/
def file162 : Text :=
  writeRow (fieldNames.map (fun f => f.name.toList)) ++ writeRow (row162 "1980" "5") ++ writeRow (row162 "1985" "5") ++ writeRow (row162 "1990" "5.5")

/-- Its rows. -/
noncomputable def rows162 : List (Row (XNum ℝ)) :=
  [![fin 1980, fin 1, fin 10, fin 0, fin 0, fin 5, fin 0], ![fin 1985, fin 1, fin 10, fin 0, fin 0, fin 5, fin 0],
   ![fin 1990, fin 1, fin 10, fin 0, fin 0, fin 5.5, fin 0]]

theorem file162_rat : (readCatalogFile (ratEnv 2012) cpythonOrder file162).map (fun es => es.map fun e => fixedColumns.map e) =
    .ok [[.int 1980, .int 1, .int 10, .flt 0, .flt 0, .flt 5, .flt 0], [.int 1985, .int 1, .int 10, .flt 0, .flt 0, .flt 5, .flt 0],
      [.int 1990, .int 1, .int 10, .flt 0, .flt 0, .flt (11 / 2), .flt 0]] := by decide +kernel

/-- The file is loaded, with ordinary numbers. -/
theorem file162_loaded : ∃ es, readCatalogFile (ratEnv 2012).cast.ordinary cpythonOrder file162 = .ok es ∧ List.Forall₂ RowOf es rows162 ∧ ∀ e ∈ es, OrdinaryEntry e := by
  have h := file162_rat
  rw [readCatalogFile_ordinary, readCatalogFile_cast]
  cases hr : readCatalogFile (ratEnv 2012) cpythonOrder file162 with
  | error err => rw [hr] at h; cases h
  | ok es =>
    rw [hr] at h
    simp only [Except.map, Except.ok.injEq] at h
    refine ⟨_, rfl, ?_⟩
    have hl : es.length = 3 := by simpa using congrArg List.length h
    obtain ⟨e1, e2, e3, rfl⟩ := List.length_eq_three.1 hl
    simp only [List.map_cons, List.map_nil, fixedColumns, List.cons.injEq, and_true] at h
    obtain ⟨⟨a1, a2, a3, a4, a5, a6, a7⟩, ⟨b1, b2, b3, b4, b5, b6, b7⟩, ⟨c1, c2, c3, c4, c5, c6, c7⟩⟩ := h
    have hi : ∀ {e : Entry ℚ} {f i x}, e f = .int i → (x : XNum ℝ) = fin (i : ℝ) → IsNumber (e.cast.ordinary f) x := by
      intro e f i x h hx
      refine .inr ⟨i, ?_, hx⟩
      simp only [Entry.ordinary, Entry.cast, h, Val.cast, Val.ordinary]
    have hf : ∀ {e : Entry ℚ} {f} {q : ℚ} {x}, e f = .flt q → (x : XNum ℝ) = fin (q : ℝ) → IsNumber (e.cast.ordinary f) x := by
      intro e f q x h hx
      refine .inl ?_
      simp only [Entry.ordinary, Entry.cast, h, Val.cast, Val.ordinary, hx]
    have ho : ∀ {e : Entry ℚ} {i : ℤ} {q : ℚ}, e .year = .int i → e .mw = .flt q → OrdinaryEntry e.cast.ordinary := by
      intro e i q h1 h2
      refine ⟨.inl ⟨i, ?_⟩, .inr ⟨q, ?_⟩⟩
      · simp only [Entry.ordinary, Entry.cast, h1, Val.cast, Val.ordinary]
      · simp only [Entry.ordinary, Entry.cast, h2, Val.cast, Val.ordinary]
    constructor
    · refine .cons ⟨hi a1 ?_, hi a2 ?_, hi a3 ?_, hf a4 ?_, hf a5 ?_, hf a6 ?_, hf a7 ?_⟩ (.cons ⟨hi b1 ?_, hi b2 ?_, hi b3 ?_, hf b4 ?_, hf b5 ?_, hf b6 ?_, hf b7 ?_⟩
        (.cons ⟨hi c1 ?_, hi c2 ?_, hi c3 ?_, hf c4 ?_, hf c5 ?_, hf c6 ?_, hf c7 ?_⟩ .nil)) <;>
        refine congrArg fin ?_ <;> norm_num
    · intro e he
      simp only [List.map_cons, List.map_nil, List.mem_cons, List.not_mem_nil, or_false] at he
      rcases he with rfl | rfl | rfl
      · exact ho a1 a6
      · exact ho b1 b6
      · exact ho c1 c6

/-- An environment in which every number is printed as `1`. -/
noncomputable def x162 : Ext (XNum ℝ) where
  env := (ratEnv 2012).cast.ordinary
  ord := cpythonOrder
  show_ := ⟨showInt, fun _ => "1".toList⟩
  nums := ⟨fun _ => "1".toList, fun _ => none⟩
  fmt5 := fun _ => "1".toList
  nan := .nan
  parseXml := fun _ => none
  schema := fun _ => true
  exists_ := fun _ => true
  openable := fun _ => true
  argsort := fun _ => Equiv.refl _
  argsortInt := fun _ => Equiv.refl _
  polygonBuilt := fun _ => true
  polygonValid := fun _ => true
  contains := fun _ _ _ => true
  normal := fun _ => 0
  fuel := 1

/-- Stepp's test, if `pre` names it, and the Weichert recurrence. -/
noncomputable def config162 (pre : List String) : Config (XNum ℝ) where
  eqCatalogFile := "catalogue.csv".toList
  pprocessingResultFile := none
  completenessTableFile := none
  sourceModelFile := none
  resultFile := "result.xml".toList
  applyProcessing := true
  preprocessingJobs := pre
  processingJobs := ["Recurrence"]
  gardnerKnopoff := none
  afteran := none
  stepp := some ⟨fin 0.5, fin 10, fin 0.2, true⟩
  recurrence := some ⟨fin dm161, "Weichert", fin 5, fin 1⟩
  maximumMagnitude := none

def fs162 : Text → Option Content := fun p => if p = "catalogue.csv".toList then some (.text file162) else none

theorem fs162_catalogue (pre : List String) : fs162 (config162 pre).eqCatalogFile = some (.text file162) := if_pos rfl

theorem years162 : years rows162 = zone161.map fp := by
  show [(fin 1980, fin 5), (fin 1985, fin 5), (fin 1990, fin 5.5)] = zone161.map fp
  simp only [zone161, List.map_cons, List.map_nil, fp]
  norm_num

theorem run162 {pre : List String} {T : List (XNum ℝ × XNum ℝ)} {R : GR (XNum ℝ)}
    (hpre : ∀ n ∈ pre, n = "GardnerKnopoff" ∨ n = "Afteran" ∨ n = "Stepp")
    (hch : Chain (Prepares x162 (config162 pre) rows162) pre ⟨rows162, List.replicate 3 0, [(fin 1980, fin 5)]⟩ ⟨rows162, List.replicate 3 0, T⟩)
    (hR : recurrenceAnalysis (zone161.map fp) T (fin dm161) "Weichert" (fin 5) (fin 1) 1 = .ok (some R)) :
    ∃ w', main x162 (config162 pre) fs162 0 = some ⟨none, w'⟩ := by
  obtain ⟨es, h1, h2, -⟩ := file162_loaded
  have hnc : ∀ q : Prop, ¬ (q ∧ Configured (none : Option Text)) := by rintro q ⟨-, t, ht, -⟩; cases ht
  suffices h : ∃ fs', Run x162 (config162 pre) fs162 0 fs' by
    obtain ⟨fs', h⟩ := h
    obtain ⟨w', h, -⟩ := (C145_run x162 (config162 pre) fs162 fs' 0 hpre (fun n hn => .inl (List.mem_singleton.1 hn))).2 h
    exact ⟨w', h⟩
  have hmin : Np.npMin (rows162.map fun r => r 0) = .ok (fin (1980 : ℝ)) ∧ Np.npMin (rows162.map fun r => r 5) = .ok (fin (5 : ℝ)) := by
    have e0 : rows162.map (fun r => r 0) = [1980, 1985, (1990 : ℝ)].map fin := rfl
    have e5 : rows162.map (fun r => r 5) = [5, 5, (5.5 : ℝ)].map fin := rfl
    rw [e0, e5, npMin_fin, npMin_fin]
    constructor
    · rw [(Np.npMin_iff (m := (1980 : ℝ))).2 ⟨by simp, by intro v hv; simp at hv; rcases hv with rfl | rfl | rfl <;> norm_num⟩]; rfl
    · rw [(Np.npMin_iff (m := (5 : ℝ))).2 ⟨by simp, by intro v hv; simp at hv; rcases hv with rfl | rfl <;> norm_num⟩]; rfl
  refine ⟨_, es, [placeholder], rows162, ⟨rows162, List.replicate 3 0, T⟩, fs162, 0, _, _,
    ⟨file162, _, _, _, fs162_catalogue _, h1, .inr ⟨?_, rfl⟩, by simp, h2, hmin.1, hmin.2, hch, rfl, rfl, fun h => absurd h (hnc _), fun _ => rfl,
      fun h => absurd h (hnc _), fun _ => rfl⟩,
    fun _ => .cons _ _ _ _ _ _ _ rows162 ⟨fun h => absurd ⟨trivial, h⟩ (hnc True), fun _ => rfl⟩ (.recurrence _ _ _ _ _ _ R rfl ?_ (.nil _ _)) (.nil _),
    fun h => Bool.noConfusion (show true = false from h), rfl, ⟨rfl, rfl⟩, rfl⟩
  · exact fun h => hnc True ⟨trivial, h⟩
  · rw [years162]; exact hR

/-- A run with Stepp's test, and one with the default completeness table. -/
example : ∃ w', main x162 (config162 ["Stepp"]) fs162 0 = some ⟨none, w'⟩ ∧
    ∃ finals doc, serialize x162.nums finals = .ok doc ∧ w'.fs "result.xml".toList = some (.xml doc) ∧ ∀ s ∈ finals, Sound 5 s := by
  obtain ⟨T, R, h1, h2⟩ := stepp161
  obtain ⟨w', h⟩ := run162 (pre := ["Stepp"]) (by simp) (.cons _ _ _ _ _ (.stepp _ _ T rfl (by rw [years162]; exact h1)) (.nil _)) h2
  obtain ⟨es, k1, -, k2⟩ := file162_loaded
  refine ⟨w', h, C162_run x162 (config162 ["Stepp"]) fs162 0 w' (by linarith [dm161_bounds.1]) one_pos ?_ ?_ (List.mem_singleton.2 rfl) rfl rfl ?_
    (.inr ⟨?_, [], rfl⟩) ?_ h⟩
  · intro n hn
    change n ∈ (["Stepp"] : List String) at hn
    simp only [List.mem_cons, List.not_mem_nil, or_false] at hn
    exact .inr (.inr hn)
  · intro n hn
    exact .inl (List.mem_singleton.1 hn)
  · rintro c ⟨⟩
    exact ⟨0.5, 10, 0.2, rfl, rfl, rfl, by norm_num, by norm_num⟩
  · rintro ⟨t, ht, -⟩; cases ht
  · rintro file es' hf he
    rw [fs162_catalogue] at hf
    cases hf
    rw [show x162.env = (ratEnv 2012).cast.ordinary from rfl, show x162.ord = cpythonOrder from rfl, k1] at he
    cases he
    exact k2

example : ∃ w', main x162 (config162 []) fs162 0 = some ⟨none, w'⟩ ∧
    ∃ finals doc, serialize x162.nums finals = .ok doc ∧ w'.fs "result.xml".toList = some (.xml doc) ∧ ∀ s ∈ finals, Sound 5 s := by
  obtain ⟨R, h2⟩ := returns161 (table := [(1980, 5)]) (Y := 1980) (by simp) (by simp) (by simp) (by norm_num)
  obtain ⟨w', h⟩ := run162 (pre := []) (by simp) (.nil _) h2
  obtain ⟨es, k1, -, k2⟩ := file162_loaded
  refine ⟨w', h, C162_run x162 (config162 []) fs162 0 w' (by linarith [dm161_bounds.1]) one_pos ?_ ?_ (List.mem_singleton.2 rfl) rfl rfl ?_
    (.inl ⟨List.not_mem_nil, ?_⟩) ?_ h⟩
  · intro n hn
    cases hn
  · intro n hn
    exact .inl (List.mem_singleton.1 hn)
  · rintro c ⟨⟩
    exact ⟨0.5, 10, 0.2, rfl, rfl, rfl, by norm_num, by norm_num⟩
  · rintro ⟨-, t, ht, -⟩; cases ht
  · rintro file es' hf he
    rw [fs162_catalogue] at hf
    cases hf
    rw [show x162.env = (ratEnv 2012).cast.ordinary from rfl, show x162.ord = cpythonOrder from rfl, k1] at he
    cases he
    exact k2

end Verif.Workflow
