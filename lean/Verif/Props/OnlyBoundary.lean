import Verif.Props.OutsideEvents

/-!
# C206: the results of a source depend on its boundary only
-/

namespace Verif.Workflow

open Verif Verif.Np Verif.EqCatalog Verif.Csv Verif.Nrml Verif.Declustering Verif.Recurrence Verif.Completeness Spec

section
variable {F : Type} [PyMath F]

/-- The a-value, the b-value and the minimum magnitude agree. -/
def Spec.SameRates (s t : AreaSource F) : Prop :=
  t.rate.tgr.aValue = s.rate.tgr.aValue ∧ t.rate.tgr.bValue = s.rate.tgr.bValue ∧ t.rate.tgr.minMagnitude = s.rate.tgr.minMagnitude

/-- The maximum magnitudes agree. -/
def Spec.SameLargest (s t : AreaSource F) : Prop := t.rate.tgr.maxMagnitude = s.rate.tgr.maxMagnitude

theorem sourceRun_other {x : Ext F} {cfg : Config F} {table : List (F × F)} {rows : List (Row F)} {names : List String} {n m : ℕ} {s t : AreaSource F}
    (h : SourceRun x cfg table rows names n s m t) (s' : AreaSource F) : ∃ t', SourceRun x cfg table rows names n s' m t' ∧ SameBut s' t' ∧
      ("Recurrence" ∈ names ∨ SameRates s s' → SameRates t t') ∧ ("MaximumMagnitude" ∈ names ∨ SameLargest s s' → SameLargest t t') ∧
      (¬ "Recurrence" ∈ names → SameRates s' t') ∧ (¬ "MaximumMagnitude" ∈ names → SameLargest s' t') := by
  induction h generalizing s' with
  | nil n s => exact ⟨s', .nil _ _, ⟨rfl, rfl, rfl, rfl, rfl, rfl, rfl, rfl, rfl, rfl, rfl, rfl⟩, by simp, by simp, fun _ => ⟨rfl, rfl, rfl⟩, fun _ => rfl⟩
  | recurrence names n s m t c g h1 h2 _ ih =>
    obtain ⟨t', r, b, p, q, u, v⟩ := ih (withTgr s' { s'.rate.tgr with aValue := g.a, bValue := g.b, minMagnitude := c.referenceMagnitude })
    refine ⟨t', .recurrence _ _ _ _ _ c g h1 h2 r, ⟨b.1, b.2, b.3, b.4, b.5, b.6, b.7, b.8, b.9, b.10, b.11, b.12⟩, fun _ => p (.inr ⟨rfl, rfl, rfl⟩), fun hh => q ?_,
      fun hh => absurd List.mem_cons_self hh, fun hh => v fun hm => hh (List.mem_cons_of_mem _ hm)⟩
    rcases hh with hh | hh
    · rcases List.mem_cons.1 hh with hh | hh
      · exact absurd hh (by decide)
      · exact .inl hh
    · exact .inr hh
  | maximum names n s m t c r h1 h2 _ ih =>
    obtain ⟨t', k, b, p, q, u, v⟩ := ih (withTgr s' { s'.rate.tgr with maxMagnitude := r.1 })
    refine ⟨t', .maximum _ _ _ _ _ c r h1 h2 k, ⟨b.1, b.2, b.3, b.4, b.5, b.6, b.7, b.8, b.9, b.10, b.11, b.12⟩, fun hh => p ?_, fun _ => q (.inr rfl),
      fun hh => u fun hm => hh (List.mem_cons_of_mem _ hm), fun hh => absurd List.mem_cons_self hh⟩
    rcases hh with hh | hh
    · rcases List.mem_cons.1 hh with hh | hh
      · exact absurd hh (by decide)
      · exact .inl hh
    · exact .inr hh

/-- What is written for two sources with the same boundary: the computed numbers agree. -/
def Spec.SameComputed (cfg : Config F) (t t' : AreaSource F) : Prop := ("Recurrence" ∈ cfg.processingJobs → SameRates t t') ∧ ("MaximumMagnitude" ∈ cfg.processingJobs → SameLargest t t')

/-- What is written for a source: everything that is not computed is kept. -/
def Spec.KeepsRest (cfg : Config F) (s t : AreaSource F) : Prop :=
  SameBut s t ∧ (¬ "Recurrence" ∈ cfg.processingJobs → SameRates s t) ∧ (¬ "MaximumMagnitude" ∈ cfg.processingJobs → SameLargest s t)

theorem sourcesRun_other {x : Ext F} {cfg : Config F} {p : Prep F} {n m : ℕ} {ss ts ss' : List (AreaSource F)} (h : SourcesRun x cfg p n ss m ts)
    (hb : List.Forall₂ (fun s s' => s'.boundary.posList = s.boundary.posList) ss ss') :
    ∃ ts', SourcesRun x cfg p n ss' m ts' ∧ List.Forall₂ (SameComputed cfg) ts ts' ∧ List.Forall₂ (KeepsRest cfg) ss' ts' := by
  induction h generalizing ss' with
  | nil => cases hb; exact ⟨[], .nil _, .nil, .nil⟩
  | cons n s m t ss n1 ts rows hev hs _ ih =>
    cases hb with
    | cons b0 b1 =>
      rename_i s' ss'
      obtain ⟨ts', r1, r2, r3⟩ := ih b1
      obtain ⟨t', k, b, p1, q1, u, v⟩ := sourceRun_other hs s'
      refine ⟨t' :: ts', .cons n s' m t' ss' n1 ts' rows ?_ k r1, .cons ⟨fun hh => p1 (.inl hh), fun hh => q1 (.inl hh)⟩ r2, .cons ⟨b, u, v⟩ r3⟩
      unfold HasEvents
      rw [b0]
      exact hev

theorem sourcesRun_keeps {x : Ext F} {cfg : Config F} {p : Prep F} {n m : ℕ} {ss ts : List (AreaSource F)} (h : SourcesRun x cfg p n ss m ts) : List.Forall₂ (KeepsRest cfg) ss ts := by
  induction h with
  | nil => exact .nil
  | cons n s m t ss n1 ts rows hev hs _ ih =>
    obtain ⟨t', k, b, -, -, u, v⟩ := sourceRun_other hs s
    obtain rfl := sourceRun_unique hs k
    exact .cons ⟨b, u, v⟩ ih

omit [PyMath F] in
theorem partner {α β : Type} {R : α → β → Prop} {l : List α} {m : List β} (h : List.Forall₂ R l m) {b : β} (hb : b ∈ m) : ∃ a ∈ l, R a b := by
  induction h with
  | nil => cases hb
  | cons h1 _ ih =>
    rcases List.mem_cons.1 hb with rfl | hb
    · exact ⟨_, List.mem_cons_self, h1⟩
    · obtain ⟨a, ha, hr⟩ := ih hb
      exact ⟨a, List.mem_cons_of_mem _ ha, hr⟩

/-- **C206.** Two source models with the same boundaries: if a run with the first one ends without exception, so does the run with the second one, the computed numbers of the sources are the
same, and everything that is not computed is copied from the respective source model. -/
theorem C206_run {rnd : F → F} (x : Ext F) (H : Lawful x.nums rnd) (cfg : Config F) (hpre : ∀ n ∈ cfg.preprocessingJobs, n = "GardnerKnopoff" ∨ n = "Afteran" ∨ n = "Stepp")
    (hproc : ∀ n ∈ cfg.processingJobs, n = "Recurrence" ∨ n = "MaximumMagnitude") (hp : cfg.applyProcessing = true) {fs fs' : Text → Option Content} {model : Text} (hmodel : cfg.sourceModelFile = some model)
    (hcat : model ≠ cfg.eqCatalogFile) (htab : cfg.completenessTableFile ≠ some model) (hrest : ∀ q, q ≠ model → fs' q = fs q) {inputs inputs' : List (AreaSource F)}
    (hi : InputSources x cfg fs inputs) (hi' : InputSources x cfg fs' inputs') (hb : List.Forall₂ (fun s s' => s'.boundary.posList = s.boundary.posList) inputs inputs')
    (hw : ∃ doc, serialize x.nums inputs' = .ok doc) (pos : ℕ) {w : World F} (h : main x cfg fs pos = some ⟨none, w⟩) :
    ∃ w' ts ts' doc doc', main x cfg fs' pos = some ⟨none, w'⟩ ∧ w.fs cfg.resultFile = some (.xml doc) ∧ serialize x.nums ts = .ok doc ∧ w'.fs cfg.resultFile = some (.xml doc') ∧
      serialize x.nums ts' = .ok doc' ∧ List.Forall₂ (SameComputed cfg) ts ts' ∧ List.Forall₂ (KeepsRest cfg) inputs ts ∧ List.Forall₂ (KeepsRest cfg) inputs' ts' ∧
      ∀ q, q ≠ model → q ≠ cfg.resultFile → w'.fs q = w.fs q := by
  obtain ⟨es, inputs0, all, prep, fs1, n, finals, doc, ⟨file, ym, mm, pr, a1, a2, a3, a4, a5, a6, a7, a8, a9, a10, a11, a12, a13, a14⟩, b1, b2, b3, b4, b5⟩ :=
    (C145_run x cfg fs w.fs pos hpre hproc).1 ⟨w, h, rfl⟩
  obtain rfl := InputSources.unique a3 hi
  obtain ⟨ts', r1, r2, r3⟩ := sourcesRun_other (b1 hp) hb
  have k3 := sourcesRun_keeps (b1 hp)
  have hser : ∃ doc', serialize x.nums ts' = .ok doc' := by
    rw [C83_writer_accepts H] at hw ⊢
    obtain ⟨h1, s0, rest, rfl, h2, h3⟩ := hw
    cases r3 with
    | cons c0 c1 =>
      rename_i t0 ts0
      refine ⟨?_, t0, ts0, rfl, by obtain ⟨u, hu, hu'⟩ := h2; exact ⟨u, c0.1.nrmlId.trans hu, hu'⟩, by obtain ⟨u, hu, hu'⟩ := h3; exact ⟨u, c0.1.sourceModelId.trans hu, hu'⟩⟩
      intro t ht
      obtain ⟨s, hs, hst⟩ := partner (List.Forall₂.cons c0 c1) ht
      obtain ⟨g1, g2, g3, g4, g5, g6⟩ := h1 s hs
      obtain ⟨e1, e2, e3, e4, e5, e6, e7, e8, e9, e10, e11, e12⟩ := hst.1
      exact ⟨by obtain ⟨u, hu, hu'⟩ := g1; exact ⟨u, e3.trans hu, hu'⟩, fun u hu => g2 u (e4.symm.trans hu), fun u hu => g3 u (e5.symm.trans hu), by rw [e6]; exact g4, by rw [e7]; exact g5, by rw [e11]; exact g6⟩
  obtain ⟨doc', hd'⟩ := hser
  have hstore : ∃ fs1', Prepared x cfg fs' es inputs' all prep fs1' ∧ ∀ q, q ≠ model → fs1' q = fs1 q := by
    have hnep : inputs' ≠ [] := by
      rintro rfl
      cases hb
      exact a4 rfl
    have hcat' : fs' cfg.eqCatalogFile = some (.text file) := by rw [hrest _ (Ne.symm hcat)]; exact a1
    have htr : cfg.preprocessingJobs = [] ∧ Configured cfg.completenessTableFile → TableRead x cfg fs' prep.table := by
      intro hh
      obtain ⟨path, txt, t1, t2, t3⟩ := a11 hh
      exact ⟨path, txt, t1, by rw [hrest path (by rintro rfl; exact htab t1)]; exact t2, t3⟩
    by_cases hs : cfg.preprocessingJobs ≠ [] ∧ Configured cfg.pprocessingResultFile
    · obtain ⟨path, tpath, sel, s1, s2, s3, s4, s5, s6⟩ := a13 hs
      refine ⟨_, ⟨file, ym, mm, pr, hcat', a2, hi', hnep, a5, a6, a7, a8, a9, a10, htr, a12, fun _ => ⟨path, tpath, sel, s1, s2, s3, s4, s5, rfl⟩, fun hh => absurd hs hh⟩, fun q hq => ?_⟩
      rw [s6]
      simp only [put]
      split
      · rfl
      · split
        · rfl
        · exact hrest q hq
    · exact ⟨fs', ⟨file, ym, mm, pr, hcat', a2, hi', hnep, a5, a6, a7, a8, a9, a10, htr, a12, fun hh => absurd hh hs, fun _ => rfl⟩, fun q hq => by rw [a14 hs]; exact hrest q hq⟩
  obtain ⟨fs1', hprep, hfs1⟩ := hstore
  obtain ⟨w', hw', hfs⟩ := (C145_run x cfg fs' (put fs1' cfg.resultFile (.xml doc')) pos hpre hproc).2
    ⟨es, inputs', all, prep, fs1', n, ts', doc', hprep, fun _ => r1, fun hh => (by rw [hp] at hh; cases hh), hd', b4, rfl⟩
  refine ⟨w', _, ts', doc, doc', hw', by rw [b5]; simp [put], b3, by rw [hfs]; simp [put], hd', r2, k3, r3, fun q hq hr => ?_⟩
  rw [hfs, b5]
  simp only [put, if_neg hr]
  exact hfs1 q hq

end

/-- The default source with another name, other numbers and another depth. -/
def other206 : AreaSource Dbl :=
  let s := @defaultAreaSource Dbl (@instPyMathDbl plainLibm).toPyNum
  { s with name := some "other".toList, hypocentralDepth := .of 7000, rate := ⟨⟨.of 1, .of 2, .of 3, .of 4, s.rate.tgr.typeTgr⟩, .of 10, .of 20, .of 30⟩ }

def model206 : Elem := match serialize dblNums [other206] with
  | .ok d => d
  | .error _ => .mk tROOT [] none []

def fs206 : Text → Option Content := fun n => if n = ['m'] then some (.xml model206) else fsDbl205 in205 n

/-- Non-vacuity of C206: a run in double precision with two source models that have the boundary in common. -/
example : ∃ w w' doc doc', @main Dbl (@instPyMathDbl plainLibm) xDbl205 cfgDbl205 (fsDbl205 in205) 0 = some ⟨none, w⟩ ∧ @main Dbl (@instPyMathDbl plainLibm) xDbl205 cfgDbl205 fs206 0 = some ⟨none, w'⟩ ∧
    w.fs ['r'] = some (.xml doc) ∧ w'.fs ['r'] = some (.xml doc') := by
  let _ := plainLibm
  obtain ⟨w, h⟩ := runDbl205
  have h1 : (readDoc dblNums (fun _ => true) model205).map (fun l => l.map fun s => s.boundary.posList.map fun p => (p.lon, p.lat)) = .ok [[(.of 0, .of 0)]] := by decide +kernel
  have h2 : (readDoc dblNums (fun _ => true) model206).map (fun l => l.map fun s => s.boundary.posList.map fun p => (p.lon, p.lat)) = .ok [[(.of 0, .of 0)]] := by decide +kernel
  have h3 : ((readDoc dblNums (fun _ => true) model206).bind fun l => (serialize dblNums l).map fun _ => ()) = .ok () := by decide +kernel
  cases e1 : readDoc dblNums (fun _ => true) model205 with
  | error e => rw [e1] at h1; cases h1
  | ok inputs =>
    cases e2 : readDoc dblNums (fun _ => true) model206 with
    | error e => rw [e2] at h2; cases h2
    | ok inputs' =>
      rw [e1] at h1
      rw [e2] at h2 h3
      have hw : ∃ doc, serialize dblNums inputs' = .ok doc := by
        cases e3 : serialize dblNums inputs' with
        | ok d => exact ⟨d, rfl⟩
        | error e =>
          have h3 : (serialize dblNums inputs').map (fun _ => ()) = .ok () := h3
          rw [e3] at h3
          cases h3
      have hb : List.Forall₂ (fun s s' : AreaSource Dbl => s'.boundary.posList = s.boundary.posList) inputs inputs' := by
        have k := (Except.ok.inj h1).trans (Except.ok.inj h2).symm
        clear h1 h2 h3 e1 e2 hw
        induction inputs generalizing inputs' with
        | nil =>
          cases inputs' with
          | nil => exact .nil
          | cons => cases k
        | cons s l ih =>
          cases inputs' with
          | nil => cases k
          | cons s' l' =>
            obtain ⟨k1, k2⟩ := List.cons.inj k
            refine .cons ?_ (ih _ k2)
            refine (List.map_injective_iff.2 ?_ k1).symm
            rintro ⟨a, b⟩ ⟨c, d⟩ hh
            obtain ⟨rfl, rfl⟩ := Prod.mk.inj hh
            rfl
      obtain ⟨w', ts, ts', doc, doc', g1, g2, -, g4, -⟩ := C206_run xDbl205 dblNums_lawful cfgDbl205 (by simp [cfgDbl205]) (fun n hn => .inl (List.mem_singleton.1 hn)) rfl (fs := fsDbl205 in205) (fs' := fs206)
        (model := ['m']) rfl (by decide) (by decide) (fun q hq => if_neg hq) (inputs := inputs) (inputs' := inputs') (.inl ⟨['m'], model205, by decide, rfl, .inl rfl, e1⟩)
        (.inl ⟨['m'], model206, by decide, rfl, .inl rfl, e2⟩) hb hw 0 h
      exact ⟨w, w', doc, doc', h, g1, g2, g4⟩

end Verif.Workflow
