import Verif.Props.SourceIndependence
import Verif.Props.IndependenceExamples
import Verif.Props.Boundaries
import Verif.Props.DoubleRuns

/-!
# C205: only the earthquakes inside a source matter to it
-/

namespace Verif.Workflow

open Verif Verif.Np Verif.EqCatalog Verif.Csv Verif.Nrml Verif.Declustering Verif.Recurrence Verif.Completeness Spec

section
variable {F : Type} [PyMath F]

/-- The earthquakes of a catalogue inside a source, as rows of numbers, in the order of the file. -/
def Spec.Inside (x : Ext F) (s : AreaSource F) (es : List (Entry F)) (rows : List (Row F)) : Prop :=
  ∃ all, List.Forall₂ RowOf es all ∧ rows = all.filter fun r => x.contains s.boundary.posList (r 3) (r 4)

/-- Both catalogues have the same earthquakes inside the source. -/
def Spec.SameInside (x : Ext F) (s : AreaSource F) (es es' : List (Entry F)) : Prop := ∀ rows, Inside x s es rows → Inside x s es' rows

theorem sources_inside {x : Ext F} {cfg : Config F} (hsm : Configured cfg.sourceModelFile) {p p' : Prep F} (ht : p'.table = p.table) {ss ts : List (AreaSource F)}
    (hin : ∀ s ∈ ss, (p'.events.filter fun r => x.contains s.boundary.posList (r 3) (r 4)) = p.events.filter fun r => x.contains s.boundary.posList (r 3) (r 4)) {n m : ℕ}
    (h : SourcesRun x cfg p n ss m ts) : SourcesRun x cfg p' n ss m ts := by
  induction h with
  | nil => exact .nil _
  | cons n s m t ss n1 ts rows hev hs _ ih =>
    obtain ⟨a1, a2, a3, a4⟩ := hev.1 hsm
    exact .cons n s m t ss n1 ts rows ⟨fun _ => ⟨a1, a2, a3.trans (hin s List.mem_cons_self).symm, a4⟩, fun hh => absurd hsm hh⟩ (by rw [ht]; exact hs)
      (ih fun s' hs' => hin s' (List.mem_cons_of_mem _ hs'))

/-- Both catalogues have the same first year and the same smallest magnitude. -/
def Spec.SameStart (es es' : List (Entry F)) : Prop := ∀ all all', List.Forall₂ RowOf es all → List.Forall₂ RowOf es' all' →
  npMin (all'.map fun r => r 0) = npMin (all.map fun r => r 0) ∧ npMin (all'.map fun r => r 5) = npMin (all.map fun r => r 5)

/-- **C205**, what holds: with the completeness table from a file, or with the same first year and smallest magnitude.  Missing: runs with the default completeness table and earthquakes
outside the sources that are earlier or smaller than all others (`C205_fails`). -/
theorem C205_partial (x : Ext F) (cfg : Config F) (hpre : cfg.preprocessingJobs = []) (hsm : Configured cfg.sourceModelFile) (hproc : ∀ n ∈ cfg.processingJobs, n = "Recurrence" ∨ n = "MaximumMagnitude")
    {fs fs' : Text → Option Content} {file file' : Text} (hfile : fs cfg.eqCatalogFile = some (.text file))
    (hfile' : fs' cfg.eqCatalogFile = some (.text file')) (hrest : ∀ q, q ≠ cfg.eqCatalogFile → fs' q = fs q)
    (hm : ∀ q, cfg.sourceModelFile = some q ∨ cfg.completenessTableFile = some q → q ≠ cfg.eqCatalogFile) {es es' : List (Entry F)} (hes : readCatalogFile x.env x.ord file = .ok es)
    (hes' : readCatalogFile x.env x.ord file' = .ok es') (hne : es' ≠ []) (htab : Configured cfg.completenessTableFile ∨ SameStart es es') (hin : ∀ inputs, InputSources x cfg fs inputs → ∀ s ∈ inputs, SameInside x s es es') (pos : ℕ) {w : World F}
    (h : main x cfg fs pos = some ⟨none, w⟩) :
    ∃ w', main x cfg fs' pos = some ⟨none, w'⟩ ∧ ∀ q, q ≠ cfg.eqCatalogFile → w'.fs q = w.fs q := by
  have hmin : ∀ l : List F, l ≠ [] → ∃ m, npMin l = .ok m := by
    intro l hl
    cases l with
    | nil => exact absurd rfl hl
    | cons a l => exact ⟨_, rfl⟩
  have hpren : ∀ n ∈ cfg.preprocessingJobs, n = "GardnerKnopoff" ∨ n = "Afteran" ∨ n = "Stepp" := by simp [hpre]
  obtain ⟨es0, inputs, all, prep, fs1, n, finals, doc, ⟨file0, ym, mm, pr, a1, a2, a3, a4, a5, a6, a7, a8, a9, a10, a11, a12, a13, a14⟩, b1, b2, b3, b4, b5⟩ :=
    (C145_run x cfg fs w.fs pos hpren hproc).1 ⟨w, h, rfl⟩
  rw [hfile] at a1
  cases a1
  rw [hes] at a2
  cases a2
  rw [hpre] at a8
  cases a8
  obtain ⟨s0, hs0⟩ := List.exists_mem_of_ne_nil _ a4
  obtain ⟨all', r1, -⟩ := hin inputs a3 s0 hs0 _ ⟨all, a5, rfl⟩
  have hne' : all' ≠ [] := by
    rintro rfl
    cases r1
    exact hne rfl
  obtain ⟨ym', hy'⟩ := hmin (all'.map fun r => r 0) (by simpa using hne')
  obtain ⟨mm', hm'⟩ := hmin (all'.map fun r => r 5) (by simpa using hne')
  have hns : ¬ (cfg.preprocessingJobs ≠ [] ∧ Configured cfg.pprocessingResultFile) := fun hh => hh.1 hpre
  have hprep : Prepared x cfg fs' es' inputs all' ⟨all', List.replicate all'.length 0, prep.table⟩ fs' := by
    refine ⟨file', ym', mm', ⟨all', List.replicate all'.length 0, [(ym', mm')]⟩, hfile', hes', InputSources.congr rfl (fun m hh => hrest m (hm m (.inl hh))) a3, a4, r1, hy', hm',
      by rw [hpre]; exact .nil _, rfl, rfl, ?_, fun hh => ?_, fun hh => absurd hh hns, fun _ => rfl⟩
    · intro hh
      obtain ⟨path, txt, t1, t2, t3⟩ := a11 hh
      exact ⟨path, txt, t1, by rw [hrest path (hm path (.inr t1))]; exact t2, t3⟩
    · rcases htab with htab | hst
      · exact absurd ⟨hpre, htab⟩ hh
      · obtain ⟨e1, e2⟩ := hst all all' a5 r1
        rw [hy', a6] at e1
        rw [hm', a7] at e2
        rw [Except.ok.inj e1, Except.ok.inj e2]
        exact a12 hh
  have hev : ∀ s ∈ inputs, (all'.filter fun r => x.contains s.boundary.posList (r 3) (r 4)) = prep.events.filter fun r => x.contains s.boundary.posList (r 3) (r 4) := by
    intro s hs
    obtain ⟨all2, q1, q2⟩ := hin inputs a3 s hs _ ⟨all, a5, rfl⟩
    rw [rowsOf_unique r1 q1, a9]
    exact q2.symm
  obtain ⟨w', hw', hfs⟩ := (C145_run x cfg fs' (put fs' cfg.resultFile (.xml doc)) pos hpren hproc).2
    ⟨es', inputs, all', _, fs', n, finals, doc, hprep, fun hh => sources_inside (p := prep) (p' := ⟨all', List.replicate all'.length 0, prep.table⟩) hsm rfl hev (b1 hh), b2, b3, b4, rfl⟩
  refine ⟨w', hw', fun q hq => ?_⟩
  rw [hfs, b5, a14 hns]
  simp only [put]
  split
  · rfl
  · exact hrest q hq

end

/-! ### The default completeness table -/

end Verif.Workflow

namespace Verif.Recurrence

open Verif Verif.Np

/-- The maximum likelihood result for two events and a table with one row. -/
theorem mle205 (m ref : ℝ) (h1 : 5 ≤ m) (h2 : m < 5.1) :
    ∃ b s : ℝ, b = Real.logb 10 (Real.exp 1) ∧ ∀ mc : ℝ, mc ≤ 5.5 → mc - 1e-5 ≤ m → ∃ t : ℝ, bMaxlikeTime [((2000 : ℝ), (6 : ℝ)), (2000, m)] [(2000, mc)] 1 ref =
      .ok ⟨b, s, (10 : ℝ) ^ (Real.logb 10 2 + b * mc - b * ref), t⟩ := by
  obtain ⟨b, s, hb, hpos, -, -⟩ := C58_b_value (h := [((5.5 : ℝ), 1), (6.5, 1)]) (dmag := 1) (mc := 5) (by norm_num)
    ⟨(5.5, 1), by simp, by norm_num, by norm_num⟩
  refine ⟨b, s, ?_, fun mc hc hm => ?_⟩
  · obtain ⟨m1, hm1, e1⟩ := C58_value hb
    obtain rfl : m1 = 5.5 := hm1.unique ⟨⟨by norm_num, 1, by simp⟩, by
      rintro x ⟨-, n, hx⟩
      simp only [List.mem_cons, Prod.mk.injEq, List.not_mem_nil, or_false] at hx
      rcases hx with ⟨rfl, -⟩ | ⟨rfl, -⟩ <;> norm_num⟩
    have f1 : ([((5.5 : ℝ), 1), (6.5, 1)] : List (ℝ × ℕ)).filter (fun r => decide ((5 : ℝ) ≤ r.1)) = [((5.5 : ℝ), 1), (6.5, 1)] := by
      simp only [List.filter_cons, List.filter_nil]; norm_num
    rw [f1] at e1
    rw [e1]
    simp only [List.map_cons, List.map_nil, List.sum_cons, List.sum_nil]
    norm_num
  have hb' : bMaxLikelihood [((5.5 : ℝ), 1), (6.5, 1)] 1 mc = .ok (b, s) := by
    rw [← hb]
    unfold bMaxLikelihood
    have e : ∀ c : ℝ, c ≤ 5.5 → ([((5.5 : ℝ), 1), (6.5, 1)] : List (ℝ × ℕ)).filter (fun r => decide (r.1 ≥ c)) = [((5.5 : ℝ), 1), (6.5, 1)] := by
      intro c hc
      have : c ≤ 6.5 := hc.trans (by norm_num)
      simp [hc, this]
    rw [e mc hc, e 5 (by norm_num)]
  have hg : groupOf [((2000 : ℝ), mc)] 2000 = [mc] := by
    simp only [groupOf, npAbs_real, List.filter_cons, List.filter_nil, sub_self, abs_zero]
    norm_num
  have hsel : periodEvents [((2000 : ℝ), (6 : ℝ)), (2000, m)] 2000 mc = [(2000, 6), (2000, m)] := by
    have e1 : mc - 1e-5 ≤ 6 := by norm_num at hc ⊢; linarith
    simp only [periodEvents, List.filter_cons, List.filter_nil, ge_iff_le, le_refl, e1, hm, decide_true, Bool.and_self, if_true]
  obtain ⟨pd, hpd, hpb, hps, hpn⟩ : ∃ pd, period [((2000 : ℝ), (6 : ℝ)), (2000, m)] 1 ref 2000 [mc] = .ok pd ∧ pd.b = b ∧ pd.sigb = s ∧ pd.n = 2 := by
    unfold period
    simp only [npMin, List.foldl_nil, bind, Except.bind, hsel, List.map_cons, List.map_nil]
    have e := npMax_two (le_refl (2000 : ℝ))
    have e' := npMin_two (le_refl (2000 : ℝ))
    simp only [npMin] at e'
    rw [e]
    simp only [table31 m h1 h2, List.map_cons, List.map_nil, hb', pure, Except.pure, Except.ok.injEq, exists_eq_left']
    exact ⟨trivial, trivial, rfl⟩
  have hrate : pd.rate = (10 : ℝ) ^ (Real.logb 10 2 + b * mc - b * ref) := by
    obtain ⟨mc', ny, hl, hny, hn, -, hr, -⟩ := period_ok hpd
    have : mc' = mc := by simpa using hl.1
    subst this
    have hce : Spec.completeEvents [((2000 : ℝ), (6 : ℝ)), (2000, m)] 2000 mc' = [(2000, 6), (2000, m)] := by
      refine Eq.trans ?_ hsel
      simp only [periodEvents, Spec.completeEvents]
      refine List.filter_congr fun e _ => ?_
      simp [Bool.decide_and]
    rw [hce] at hny
    obtain ⟨y0, y1, ⟨hy0, -⟩, ⟨hy1, -⟩, rfl⟩ := hny
    simp at hy0 hy1
    rw [hr, hpb, hpn, hy0, hy1]
    norm_num
  have hn0 : pd.n ≠ 0 := by omega
  refine ⟨pd.sigrate, ?_⟩
  unfold bMaxlikeTime
  have hper : periods [((2000 : ℝ), (6 : ℝ)), (2000, m)] [(2000, mc)] 1 ref 0 = .ok [pd] := by
    unfold periods
    simp only [List.length_cons, List.length_nil, Nat.zero_add, Nat.lt_one_iff, dite_true, List.getElem_cons_zero, hg, one_ne_zero, dite_false, hpd]
    have : periods [((2000 : ℝ), (6 : ℝ)), (2000, m)] [(2000, mc)] 1 ref 1 = .ok [] := by
      unfold periods
      simp
    rw [this]
    rfl
  rw [hper]
  simp only [bind, Except.bind, List.isEmpty_cons, Bool.false_eq_true, if_false, weighted_one pd _ hn0, hpb, hps, hrate]
  rfl

end Verif.Recurrence

namespace Verif.Workflow

open Verif Verif.Np Verif.EqCatalog Verif.Csv Verif.Nrml Verif.Declustering Verif.Recurrence Verif.Completeness Spec

/-- A catalogue file of earthquakes with the given latitudes and magnitudes. -/
def file205 (rows : List (String × String)) : Text := writeRow (fieldNames.map (fun f => f.name.toList)) ++ writeRows (rows.map fun r => row31 r.1 r.2)

/-- The rows of numbers. -/
noncomputable def rows205 (cols : List (ℚ × ℚ)) : List (Row ℝ) := cols.map fun c => ![2000, 1, 10, 0, (c.1 : ℝ), (c.2 : ℝ), 0]

theorem loaded205 {file : Text} {cols : List (ℚ × ℚ)} (h : (readCatalogFile (ratEnv 2012) cpythonOrder file).map (fun es => es.map fun e => fixedColumns.map e) =
    .ok (cols.map fun c => [.int 2000, .int 1, .int 10, .flt 0, .flt c.1, .flt c.2, .flt 0])) :
    ∃ es, readCatalogFile x31.env x31.ord file = .ok es ∧ List.Forall₂ RowOf es (rows205 cols) := by
  show ∃ es, readCatalogFile (ratEnv 2012).cast cpythonOrder file = .ok es ∧ _
  rw [readCatalogFile_cast]
  cases hr : readCatalogFile (ratEnv 2012) cpythonOrder file with
  | error err => rw [hr] at h; cases h
  | ok es =>
    rw [hr] at h
    simp only [Except.map, Except.ok.injEq] at h
    refine ⟨es.map Entry.cast, rfl, ?_⟩
    clear hr
    induction cols generalizing es with
    | nil =>
      cases es with
      | nil => exact .nil
      | cons => cases h
    | cons c cs ih =>
      cases es with
      | nil => cases h
      | cons e es =>
        rw [List.map_cons, List.map_cons] at h
        obtain ⟨h1, h2⟩ := List.cons.inj h
        refine .cons ?_ (ih es h2)
        simp only [fixedColumns, List.map_cons, List.map_nil, List.cons.injEq, and_true] at h1
        obtain ⟨a1, a2, a3, a4, a5, a6, a7⟩ := h1
        refine ⟨?_, ?_, ?_, ?_, ?_, ?_, ?_⟩ <;> simp only [Entry.cast, a1, a2, a3, a4, a5, a6, a7, Val.cast, IsNumber] <;> simp

theorem filter205 (cols : List (ℚ × ℚ)) : (rows205 cols).filter (fun r => decide (r 4 ≤ 50)) = rows205 (cols.filter fun c => decide (c.1 ≤ 50)) := by
  simp only [rows205, List.filter_map]
  congr 2
  funext c
  have : ((c.1 : ℝ) ≤ 50) ↔ c.1 ≤ 50 := by exact_mod_cast Iff.rfl
  simp [this]

/-- Files and libraries for the example: the earthquakes up to 50 degrees north lie in the source. -/
noncomputable def x205 : Ext ℝ := { x31 with polygonBuilt := fun _ => true, contains := fun _ _ lat => decide (lat ≤ 50) }

/-- Recurrence by maximum likelihood with a source model. -/
noncomputable def cfg205 : Config ℝ := { exConfig (some ['m']) with processingJobs := ["Recurrence"], recurrence := some ⟨1, "MLE", 4, 5⟩ }

def fs205 (doc : Elem) (file : Text) : Text → Option Content := fun q => if q = "catalogue.csv".toList then some (.text file) else if q = ['m'] then some (.xml doc) else none

/-- The source with the results of the recurrence. -/
noncomputable def source205 (s0 : AreaSource ℝ) (b mc : ℝ) : AreaSource ℝ :=
  withTgr s0 { s0.rate.tgr with aValue := (10 : ℝ) ^ (Real.logb 10 2 + b * mc - b * 4), bValue := b, minMagnitude := 4 }

theorem serialized205 (s0 : AreaSource ℝ) (hs : ∃ doc, serialize (pyNums (K := ℝ)) [s0] = .ok doc) (b mc : ℝ) : ∃ doc, serialize (pyNums (K := ℝ)) [source205 s0 b mc] = .ok doc := by
  rw [C83_writer_accepts pyNums_lawful] at hs ⊢
  obtain ⟨h, s1, rest, h1, h2, h3⟩ := hs
  cases h1
  refine ⟨?_, _, [], rfl, h2, h3⟩
  intro s hs
  rw [List.mem_singleton] at hs
  subst hs
  have := h _ List.mem_cons_self
  exact this

/-- A run on a file with the given earthquakes, of which two lie in the source. -/
theorem run205 {doc : Elem} {s0 : AreaSource ℝ} (hdoc : readDoc (pyNums (K := ℝ)) (fun _ => true) doc = .ok [s0]) (hs : ∃ doc, serialize (pyNums (K := ℝ)) [s0] = .ok doc) {file : Text} {cols : List (ℚ × ℚ)}
    (h : (readCatalogFile (ratEnv 2012) cpythonOrder file).map (fun es => es.map fun e => fixedColumns.map e) =
      .ok (cols.map fun c => [.int 2000, .int 1, .int 10, .flt 0, .flt c.1, .flt c.2, .flt 0])) {mc : ℝ} (hmc : mc ≤ 5)
    (hmin : npMin ((rows205 cols).map fun r => r 5) = .ok mc) (hy : npMin ((rows205 cols).map fun r => r 0) = .ok 2000)
    (hin : (rows205 cols).filter (fun r => decide (r 4 ≤ 50)) = rows205 [(0, 6), (40, 5)]) :
    ∃ w doc', main x205 cfg205 (fs205 doc file) 0 = some ⟨none, w⟩ ∧ w.fs "result.xml".toList = some (.xml doc') ∧
      serialize (pyNums (K := ℝ)) [source205 s0 (Real.logb 10 (Real.exp 1)) mc] = .ok doc' := by
  obtain ⟨es, he, hrows⟩ := loaded205 h
  obtain ⟨b, s, rfl, hb⟩ := mle205 5 4 le_rfl (by norm_num)
  obtain ⟨t, hg⟩ := hb mc (by norm_num at hmc ⊢; linarith) (by norm_num at hmc ⊢; linarith)
  obtain ⟨doc', hd'⟩ := serialized205 s0 hs (Real.logb 10 (Real.exp 1)) mc
  have hrec : recurrenceAnalysis (years (rows205 [(0, 6), (40, 5)])) [(2000, mc)] 1 "MLE" 4 5 x205.fuel =
      .ok (some ⟨Real.logb 10 (Real.exp 1), s, (10 : ℝ) ^ (Real.logb 10 2 + Real.logb 10 (Real.exp 1) * mc - Real.logb 10 (Real.exp 1) * 4), t⟩) := by
    simp only [recurrenceAnalysis, show ("MLE" = "Weichert") = False by decide, if_false]
    rw [show years (rows205 [(0, 6), (40, 5)]) = [((2000 : ℝ), (6 : ℝ)), (2000, 5)] by simp [years, rows205], hg]
    rfl
  have hrun : Run x205 cfg205 (fs205 doc file) 0 (put (fs205 doc file) "result.xml".toList (.xml doc')) := by
    refine ⟨es, [s0], rows205 cols, ⟨rows205 cols, List.replicate (rows205 cols).length 0, [(2000, mc)]⟩, fs205 doc file, 0, [source205 s0 (Real.logb 10 (Real.exp 1)) mc], doc',
      ⟨file, 2000, mc, _, rfl, he, .inl ⟨['m'], doc, by decide, rfl, .inl rfl, hdoc⟩, by simp, hrows, hy, hmin, .nil _, rfl, rfl, fun hh => ?_, fun _ => rfl,
        fun hh => absurd rfl hh.1, fun _ => rfl⟩, fun _ => ?_, fun hh => (by cases hh), hd', ⟨rfl, rfl⟩, rfl⟩
    · obtain ⟨_, t, ht, -⟩ := hh
      cases ht
    · refine .cons 0 s0 0 _ [] 0 [] (rows205 [(0, 6), (40, 5)]) ⟨fun _ => ⟨rfl, rfl, hin.symm, fun _ => by simp [rows205]⟩, fun hh => absurd ⟨['m'], rfl, by decide⟩ hh⟩ ?_ (.nil _)
      exact .recurrence [] 0 s0 0 _ _ _ rfl hrec (.nil _ _)
  have hpre : ∀ n ∈ cfg205.preprocessingJobs, n = "GardnerKnopoff" ∨ n = "Afteran" ∨ n = "Stepp" := fun n hn => absurd hn List.not_mem_nil
  have hproc : ∀ n ∈ cfg205.processingJobs, n = "Recurrence" ∨ n = "MaximumMagnitude" := fun n hn => .inl (List.mem_singleton.1 hn)
  obtain ⟨w, hw, hfs⟩ := (C145_run x205 cfg205 _ _ 0 hpre hproc).2 hrun
  exact ⟨w, doc', hw, by rw [hfs]; simp [put], hd'⟩

/-- The written a-value decides the text in the document. -/
theorem document205 {s0 : AreaSource ℝ} {b m1 m2 : ℝ} {doc : Elem} (h1 : serialize (pyNums (K := ℝ)) [source205 s0 b m1] = .ok doc) (h2 : serialize (pyNums (K := ℝ)) [source205 s0 b m2] = .ok doc) :
    Format.rnd12 ((10 : ℝ) ^ (Real.logb 10 2 + b * m1 - b * 4)) = Format.rnd12 ((10 : ℝ) ^ (Real.logb 10 2 + b * m2 - b * 4)) := by
  obtain ⟨_, _, n1, s1, b1, e1, -, -, -, -, f1, d1⟩ := serialize_ok h1
  obtain ⟨_, _, n2, s2, b2, e2, -, -, -, -, f2, d2⟩ := serialize_ok h2
  cases e1
  cases e2
  rcases f1 with _ | ⟨a1, _ | _⟩
  rcases f2 with _ | ⟨a2, _ | _⟩
  obtain ⟨-, id1, srs1, g1, m1', -, -, -, -, rfl⟩ := areaSourceElem_ok pyNums_lawful a1
  obtain ⟨-, id2, srs2, g2, m2', -, -, -, -, rfl⟩ := areaSourceElem_ok pyNums_lawful a2
  rw [d1] at d2
  simp only [docTree, sourceTree, rateTree, tgrTree, Elem.mk.injEq, List.cons.injEq, Option.some.injEq, and_true, true_and] at d2
  have hs : (pyNums (K := ℝ)).str (source205 s0 b m1).rate.tgr.aValue = (pyNums (K := ℝ)).str (source205 s0 b m2).rate.tgr.aValue := by tauto
  have := congrArg (pyNums (K := ℝ)).float hs
  rw [pyNums_lawful.float_str, pyNums_lawful.float_str] at this
  exact Option.some.inj this

theorem rate205 (mc : ℝ) : (10 : ℝ) ^ (Real.logb 10 2 + Real.logb 10 (Real.exp 1) * mc - Real.logb 10 (Real.exp 1) * 4) = 2 * Real.exp (mc - 4) := by
  rw [show Real.logb 10 2 + Real.logb 10 (Real.exp 1) * mc - Real.logb 10 (Real.exp 1) * 4 = Real.logb 10 2 + Real.logb 10 (Real.exp 1) * (mc - 4) by ring,
    Real.rpow_add (by norm_num), Real.rpow_logb (by norm_num) (by norm_num) (by norm_num), Real.rpow_mul (by norm_num), Real.rpow_logb (by norm_num) (by norm_num) (Real.exp_pos 1),
    ← Real.exp_mul, one_mul]

/-- The two earthquakes in the source. -/
def small205 : Text := file205 [("0", "6"), ("40", "5")]
/-- The same with a small earthquake outside the source. -/
def big205 : Text := file205 [("0", "6"), ("40", "5"), ("60", "1")]

theorem small205_rows : (readCatalogFile (ratEnv 2012) cpythonOrder small205).map (fun es => es.map fun e => fixedColumns.map e) =
    .ok (([(0, 6), (40, 5)] : List (ℚ × ℚ)).map fun c => [.int 2000, .int 1, .int 10, .flt 0, .flt c.1, .flt c.2, .flt 0]) := by decide +kernel

theorem big205_rows : (readCatalogFile (ratEnv 2012) cpythonOrder big205).map (fun es => es.map fun e => fixedColumns.map e) =
    .ok (([(0, 6), (40, 5), (60, 1)] : List (ℚ × ℚ)).map fun c => [.int 2000, .int 1, .int 10, .flt 0, .flt c.1, .flt c.2, .flt 0]) := by decide +kernel

/-- **C205** fails: without a completeness table file, a small earthquake outside the source changes the a-value of the source. -/
theorem C205_fails : ¬ ∀ (x : Ext ℝ) (cfg : Config ℝ) (_ : cfg.preprocessingJobs = []) (_ : Configured cfg.sourceModelFile)
    (_ : ∀ n ∈ cfg.processingJobs, n = "Recurrence" ∨ n = "MaximumMagnitude") (fs fs' : Text → Option Content) (file file' : Text) (_ : fs cfg.eqCatalogFile = some (.text file))
    (_ : fs' cfg.eqCatalogFile = some (.text file')) (_ : ∀ q, q ≠ cfg.eqCatalogFile → fs' q = fs q)
    (_ : ∀ q, cfg.sourceModelFile = some q ∨ cfg.completenessTableFile = some q → q ≠ cfg.eqCatalogFile) (es es' : List (Entry ℝ)) (_ : readCatalogFile x.env x.ord file = .ok es)
    (_ : readCatalogFile x.env x.ord file' = .ok es') (_ : es' ≠ []) (_ : ∀ inputs, InputSources x cfg fs inputs → ∀ s ∈ inputs, SameInside x s es es') (pos : ℕ) (w : World ℝ)
    (_ : main x cfg fs pos = some ⟨none, w⟩), ∃ w', main x cfg fs' pos = some ⟨none, w'⟩ ∧ ∀ q, q ≠ cfg.eqCatalogFile → w'.fs q = w.fs q := by
  intro H
  obtain ⟨doc1, hdoc1⟩ := okSourceR_written
  obtain ⟨doc0, hr⟩ := reparse_exists pyNums_lawful _ _ hdoc1
  have hread : readDoc (pyNums (K := ℝ)) (fun _ => true) doc0 = .ok [rndSource Format.rnd12 okSourceR] := by
    refine C83_same_list_partial pyNums_lawful _ [okSourceR] doc1 doc0 hdoc1 hr rfl ?_ ?_ ?_
    · simp only [List.mem_singleton, forall_eq]
      exact ⟨by simp [okSourceR, defaultAreaSource], by simp [okSourceR], by simp [okSourceR]⟩
    · simp
    · simp only [List.mem_singleton, forall_eq]
      exact ⟨by simp [okSourceR, defaultAreaSource, mtk], by simp [okSourceR]⟩
  have hser : ∃ doc, serialize (pyNums (K := ℝ)) [rndSource Format.rnd12 okSourceR] = .ok doc := by
    have h0 : ∃ doc, serialize (pyNums (K := ℝ)) [okSourceR] = .ok doc := ⟨_, hdoc1⟩
    rw [C83_writer_accepts pyNums_lawful] at h0 ⊢
    obtain ⟨h, s1, rest, h1, h2, h3⟩ := h0
    cases h1
    refine ⟨?_, _, [], rfl, h2, h3⟩
    intro s hs
    rw [List.mem_singleton] at hs
    subst hs
    have := h okSourceR List.mem_cons_self
    exact this
  obtain ⟨w1, d1, r1, f1, g1⟩ := run205 hread hser small205_rows (le_refl (5 : ℝ)) (by
      rw [npMin_iff]
      refine ⟨by simp [rows205], fun y hy => ?_⟩
      simp [rows205] at hy
      rcases hy with rfl | rfl <;> norm_num) (by
      rw [npMin_iff]
      simp [rows205]) (by
      rw [filter205]
      exact congrArg rows205 (by decide +kernel))
  obtain ⟨w2, d2, r2, f2, g2⟩ := run205 hread hser big205_rows (by norm_num : (1 : ℝ) ≤ 5) (by
      rw [npMin_iff]
      refine ⟨by simp [rows205], fun y hy => ?_⟩
      simp [rows205] at hy
      rcases hy with rfl | rfl | rfl <;> norm_num) (by
      rw [npMin_iff]
      simp [rows205]) (by
      rw [filter205]
      exact congrArg rows205 (by decide +kernel))
  obtain ⟨es, he, hrows⟩ := loaded205 small205_rows
  obtain ⟨es', he', hrows'⟩ := loaded205 big205_rows
  have hin : ∀ s : AreaSource ℝ, SameInside x205 s es es' := by
    rintro s rows ⟨all, ha, rfl⟩
    refine ⟨_, hrows', ?_⟩
    rw [rowsOf_unique ha hrows]
    show (rows205 _).filter (fun r => decide (r 4 ≤ 50)) = (rows205 _).filter (fun r => decide (r 4 ≤ 50))
    rw [filter205, filter205]
    exact congrArg rows205 (by decide +kernel)
  obtain ⟨w2', q1, q2⟩ := H x205 cfg205 rfl ⟨['m'], rfl, by decide⟩ (fun n hn => .inl (List.mem_singleton.1 hn)) (fs205 doc0 small205) (fs205 doc0 big205) small205 big205 (if_pos rfl) (if_pos rfl)
    (fun q hq => by
      have hq' : ¬ q = "catalogue.csv".toList := hq
      simp only [fs205]
      rw [if_neg hq', if_neg hq']) (by
      rintro q (h | h)
      · cases h
        decide
      · cases h) es es' he he' (by
      rintro rfl
      cases hrows') (fun _ _ s _ => hin s) 0 w1 r1
  rw [r2] at q1
  obtain rfl : w2 = w2' := by
    have := Option.some.inj q1
    injection this
  have := q2 "result.xml".toList (by decide)
  rw [f1, f2] at this
  obtain rfl : d2 = d1 := by
    have := Option.some.inj this
    injection this
  have e := document205 g1 g2
  rw [rate205, rate205] at e
  have k1 := abs_le.1 (Format.rnd12_error (2 * Real.exp (5 - 4)))
  have k2 := abs_le.1 (Format.rnd12_error (2 * Real.exp (1 - 4)))
  rw [abs_of_pos (by positivity)] at k1 k2
  rw [e] at k1
  have h3 : (2 : ℝ) ≤ Real.exp (5 - 4) := by
    have := Real.add_one_le_exp ((5 : ℝ) - 4)
    linarith
  have h4 : Real.exp ((1 : ℝ) - 4) ≤ 1 := Real.exp_le_one_iff.2 (by norm_num)
  have h5 := Real.exp_pos ((1 : ℝ) - 4)
  clear H
  norm_num at k1 k2 h3 h5
  norm_num only at h4
  linarith [k1.1, k2.2]


/-! ### A run in double precision with a completeness table file -/

section
variable {F : Type} [PyMath F]

/-- A row from the columns of an entry with whole years, months and days. -/
def rowOf205 (c : (ℤ × ℤ × ℤ) × (F × F × F × F)) : Row F := ![(c.1.1 : F), (c.1.2.1 : F), (c.1.2.2 : F), c.2.1, c.2.2.1, c.2.2.2.1, c.2.2.2.2]

theorem rows_of_columns {es : List (Entry F)} {cols : List ((ℤ × ℤ × ℤ) × (F × F × F × F))}
    (h : es.map (fun e => fixedColumns.map e) = cols.map fun c => [.int c.1.1, .int c.1.2.1, .int c.1.2.2, .flt c.2.1, .flt c.2.2.1, .flt c.2.2.2.1, .flt c.2.2.2.2]) :
    List.Forall₂ RowOf es (cols.map rowOf205) := by
  induction cols generalizing es with
  | nil =>
    cases es with
    | nil => exact .nil
    | cons => cases h
  | cons c cs ih =>
    cases es with
    | nil => cases h
    | cons e es =>
      rw [List.map_cons, List.map_cons] at h
      obtain ⟨h1, h2⟩ := List.cons.inj h
      refine .cons ?_ (ih h2)
      simp only [fixedColumns, List.map_cons, List.map_nil, List.cons.injEq, and_true] at h1
      obtain ⟨a1, a2, a3, a4, a5, a6, a7⟩ := h1
      refine ⟨?_, ?_, ?_, ?_, ?_, ?_, ?_⟩ <;> simp only [a1, a2, a3, a4, a5, a6, a7, IsNumber] <;> simp [rowOf205]

end

/-- A source model with the default source. -/
def model205 : Elem := match serialize dblNums [@defaultAreaSource Dbl (@instPyMathDbl plainLibm).toPyNum] with
  | .ok d => d
  | .error _ => .mk tROOT [] none []

/-- Only the earthquakes up to 50 degrees north lie in the source. -/
def xDbl205 : Ext Dbl := { x203 with contains := fun _ _ lat => decide (lat.val ≤ 50) }

/-- Recurrence by maximum likelihood with a source model and a completeness table. -/
def cfgDbl205 : Config Dbl := { cfg203 with preprocessingJobs := [], sourceModelFile := some ['m'] }

/-- A row with the given year, latitude and magnitude. -/
def rowDbl205 (year lat mag : String) : List Text := (row193 year mag).set 11 lat.toList

def fileDbl205 (rows : List (List Text)) : Text := writeRow (fieldNames.map (fun f => f.name.toList)) ++ writeRows rows

def fsDbl205 (rows : List (List Text)) : Text → Option Content := fun n =>
  if n = ['c'] then some (.text (fileDbl205 rows)) else if n = ['m'] then some (.xml model205) else if n = ['q'] then some (.text "1980.0,3.3\n1970.0,3.9\n".toList) else none

def in205 : List (List Text) := [rowDbl205 "1980" "40" "4.5", rowDbl205 "1985" "40" "3.3", rowDbl205 "1990" "40" "4.1"]

def out205 : List (List Text) := rowDbl205 "1970" "60" "3.1" :: in205

theorem runDbl205 : ∃ w, @main Dbl (@instPyMathDbl plainLibm) xDbl205 cfgDbl205 (fsDbl205 in205) 0 = some ⟨none, w⟩ := by
  have h : (@main Dbl (@instPyMathDbl plainLibm) xDbl205 cfgDbl205 (fsDbl205 in205) 0).map (fun r => r.raised.isNone) = some true := by decide +kernel
  rcases hr : @main Dbl (@instPyMathDbl plainLibm) xDbl205 cfgDbl205 (fsDbl205 in205) 0 with _ | ⟨_ | e, w⟩ <;> rw [hr] at h
  · cases h
  · exact ⟨w, rfl⟩
  · cases h

/-- The columns of a row. -/
def colsDbl205 (year : ℤ) (lat mag : ℚ) : (ℤ × ℤ × ℤ) × (Dbl × Dbl × Dbl × Dbl) := ((year, 1, 2), (.of (7282 / 1000), .of lat, .of mag, .of (355 / 1000)))

def inCols205 : List ((ℤ × ℤ × ℤ) × (Dbl × Dbl × Dbl × Dbl)) := [colsDbl205 1980 40 (45 / 10), colsDbl205 1985 40 (33 / 10), colsDbl205 1990 40 (41 / 10)]

/-- Non-vacuity of C205: a run in double precision, with and without an earthquake north of the source. -/
example : ∃ w w', @main Dbl (@instPyMathDbl plainLibm) xDbl205 cfgDbl205 (fsDbl205 in205) 0 = some ⟨none, w⟩ ∧
    @main Dbl (@instPyMathDbl plainLibm) xDbl205 cfgDbl205 (fsDbl205 out205) 0 = some ⟨none, w'⟩ ∧ fsDbl205 in205 ['c'] ≠ fsDbl205 out205 ['c'] ∧ w'.fs ['r'] = w.fs ['r'] := by
  let _ := plainLibm
  obtain ⟨w, h⟩ := runDbl205
  have h1 : (readCatalogFile (dblEnv 2012) columnOrder (fileDbl205 in205)).map (fun es => es.map fun e => fixedColumns.map e) =
      .ok (inCols205.map fun c => [.int c.1.1, .int c.1.2.1, .int c.1.2.2, .flt c.2.1, .flt c.2.2.1, .flt c.2.2.2.1, .flt c.2.2.2.2]) := by decide +kernel
  have h2 : (readCatalogFile (dblEnv 2012) columnOrder (fileDbl205 out205)).map (fun es => es.map fun e => fixedColumns.map e) =
      .ok ((colsDbl205 1970 60 (31 / 10) :: inCols205).map fun c => [.int c.1.1, .int c.1.2.1, .int c.1.2.2, .flt c.2.1, .flt c.2.2.1, .flt c.2.2.2.1, .flt c.2.2.2.2]) := by decide +kernel
  cases he : readCatalogFile (dblEnv 2012) columnOrder (fileDbl205 in205) with
  | error e => rw [he] at h1; cases h1
  | ok es =>
    cases he' : readCatalogFile (dblEnv 2012) columnOrder (fileDbl205 out205) with
    | error e => rw [he'] at h2; cases h2
    | ok es' =>
      rw [he] at h1
      rw [he'] at h2
      have r1 := rows_of_columns (Except.ok.inj h1)
      have r2 := rows_of_columns (Except.ok.inj h2)
      obtain ⟨w', h', hq⟩ := C205_partial xDbl205 cfgDbl205 rfl ⟨['m'], rfl, by decide⟩ (fun n hn => .inl (List.mem_singleton.1 hn)) (fs := fsDbl205 in205)
        (fs' := fsDbl205 out205) rfl rfl (fun q hq => by
          have hq : ¬ q = ['c'] := hq
          simp only [fsDbl205, if_neg hq]) (fun q hq => by rcases hq with hq | hq <;> cases hq <;> decide) he he' (by
          rintro rfl
          cases r2) (.inl ⟨['q'], rfl, by decide⟩) (by
          rintro - - s - rows ⟨all, ha, rfl⟩
          refine ⟨_, r2, ?_⟩
          rw [rowsOf_unique ha r1]
          show (inCols205.map rowOf205).filter (fun r => decide ((r 4).val ≤ 50)) = ((colsDbl205 1970 60 (31 / 10) :: inCols205).map rowOf205).filter (fun r => decide ((r 4).val ≤ 50))
          rw [List.map_cons, List.filter_cons_of_neg]
          decide +kernel) 0 h
      exact ⟨w, w', h, h', fun hh => absurd (Content.text.inj (Option.some.inj hh)) (by decide +kernel), hq _ (by decide)⟩

end Verif.Workflow
