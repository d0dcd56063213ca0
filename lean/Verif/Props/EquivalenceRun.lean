import Verif.Props.EquivalenceExamples

/-!
# C31 refuted, and a pair of runs that meets the hypotheses of the partial theorem
-/

namespace Verif.Workflow

open Verif Verif.EqCatalog Verif.Csv Verif.Nrml Verif.Declustering Verif.Recurrence Spec

/-- Statement of C31: a run with preprocessing jobs and `Recurrence` that stores its catalogue and its table, and a second run on the stored files, end with
the same sources and the same result document. -/
def Spec.StoreThenProcess : Prop :=
  ∀ (x : Ext ℝ) (cfg : Config ℝ) (fs : Text → Option Content) (pos pos' : Nat) (p q : Text), Sorts x → x.fmt5 = Format.fmt5 →
    x.nums.float = Format.pyFloat → cfg.pprocessingResultFile = some p → p ≠ [] → cfg.completenessTableFile = some q → q ≠ [] → Separate cfg p q →
    cfg.processingJobs = ["Recurrence"] → cfg.applyProcessing = true → DeclustersOnce cfg.preprocessingJobs → Rereadable x cfg fs →
    ∀ w1 : World ℝ, main x cfg fs pos = some ⟨none, w1⟩ →
      ∃ w2, main x (second cfg p) w1.fs pos' = some ⟨none, w2⟩ ∧ w2.ctx.smDefinitions = w1.ctx.smDefinitions ∧
        w2.fs cfg.resultFile = w1.fs cfg.resultFile

/-! ### The declustering -/

/-- Magnitude 6 and, at 40 degrees on the same day, magnitude `m`. -/
noncomputable def cat31 (m : ℝ) : Fin 2 → Row ℝ := evs ![2000, 2000] ![10, 10] ![0, 40] ![6, m]

def sel31 : Fin 2 → Fin 2 → Bool := ![![true, false], ![false, false]]

theorem run31 (m : ℝ) : gardnerKnopoff (cat31 m) "GardnerKnopoff" 0 Fin.revPerm (Equiv.refl _) = .ok ⟨![0, 0], [cat31 m 0, cat31 m 1], ![0, 0]⟩ := by
  have h := evs_gk ![2000, 2000] ![10, 10] ![0, 40] ![6, m] "GardnerKnopoff" 0 gkWindow gk_opt sel31 (by
    obtain ⟨-, ⟨b1, b2, b3⟩, ⟨c1, c2, c3⟩⟩ := gk_windows_examples
    have h1 := Real.pi_gt_d4
    have h2 := Real.pi_lt_d4
    intro i j hi
    apply bool_eq_of_iff
    rw [evs_windows _ _ _ _ _ _ _ _ (by fin_cases i <;> fin_cases j <;> norm_num)]
    fin_cases i <;> fin_cases j <;> simp [sel31] at hi ⊢ <;> norm_num [abs_of_pos] <;>
      (first | (refine ⟨?_, ?_⟩ <;> linarith) | linarith | (intro _; linarith)))
  simp only at h
  set s := ((List.finRange 2).take (2 - 1)).foldl (genStep sel31 (fun i j => decide
    (0 ≤ 365 * (![(2000 : ℤ), 2000] j - ![2000, 2000] i) + (![(10 : ℤ), 10] j - ![10, 10] i)))) (State.init 2) with hs
  have hv : s.vcl = ![0, 0] := by rw [hs]; decide
  have hf : s.flag = ![0, 0] := by rw [hs]; decide
  rw [hv, hf] at h
  have hu : unflagged (cat31 m) ![0, 0] = [cat31 m 0, cat31 m 1] := by
    simp [unflagged, List.finRange_succ]
  rw [← hu]
  exact h

theorem sort31 (m : ℝ) (hm : m < 5.1) : Tuple.sort (fun j => cat31 m j 5) = Fin.revPerm := by
  have hm6 : m < 6 := by norm_num at hm; linarith
  have hc : (fun j => cat31 m j 5) = ![6, m] := by
    funext j; fin_cases j <;> rfl
  rw [hc]
  refine sort_unique (m := fun j => -(![(6 : ℝ), m] j)) ?_ _ _ ?_ ?_
  · intro a b h
    fin_cases a <;> fin_cases b <;> first | rfl | (simp at h; linarith)
  · intro a b hab
    exact neg_le_neg (Tuple.monotone_sort (![(6 : ℝ), m]) hab)
  · intro a b hab
    fin_cases a <;> fin_cases b <;> first | (simp at hab; done) | (simp [Fin.rev]; done) | (simp [Fin.rev]; linarith)

/-! ### The environment -/

open Classical in
/-- A rational number as a fraction. -/
noncomputable def showReal (r : ℝ) : Text := if h : ∃ q : ℚ, r = q then showRat h.choose else []

/-- The environment: fractions in the stored catalogue. -/
noncomputable def x31 : Ext ℝ := { exExt with env := (ratEnv 2012).cast, show_ := ⟨showInt, showReal⟩ }

theorem x31_sorts : Sorts x31 := exExt_sorts

theorem showReal_cast (q : ℚ) : showReal (q : ℝ) = showRat q := by
  have h : ∃ q' : ℚ, (q : ℝ) = q' := ⟨q, rfl⟩
  unfold showReal
  rw [dif_pos h]
  congr 1
  have := h.choose_spec
  exact_mod_cast this.symm

/-- Rational values with short texts. -/
def Short31 (v : Val ℝ) : Prop := ∃ v' : Val ℚ, v = v'.cast ∧ (cellText ratShow v').length ≤ 131072

theorem roundTrip31 : RoundTrip x31.env x31.show_ Short31 where
  int := by
    rintro i ⟨v, hv, hl⟩
    cases v <;> simp only [Val.cast, Val.int.injEq, reduceCtorEq] at hv
    subst hv
    exact (ratRoundTrip 2012).int _ hl
  flt := by
    rintro x ⟨v, hv, hl⟩
    cases v <;> simp only [Val.cast, Val.flt.injEq, reduceCtorEq] at hv
    rename_i q
    subst hv
    have e : x31.show_ = ⟨showInt, showReal⟩ := rfl
    rw [e]
    dsimp only
    rw [showReal_cast]
    have e' : x31.env.parseFloat = fun t => ((ratEnv 2012).parseFloat t).map (fun q : ℚ => (q : ℝ)) := rfl
    rw [e']
    dsimp only
    rw [show (ratEnv 2012).parseFloat (showRat q) = some q from rat_show q]
    rfl
  empty := by
    show ((ratEnv 2012).parseFloat []).map (fun q : ℚ => (q : ℝ)) = _
    rw [(ratRoundTrip 2012).empty]
    rfl
  intOk := by
    rintro i ⟨v, hv, hl⟩
    cases v <;> simp only [Val.cast, Val.int.injEq, reduceCtorEq] at hv
    subst hv
    exact (ratRoundTrip 2012).intOk _ hl
  fltOk := by
    rintro x ⟨v, hv, hl⟩
    cases v <;> simp only [Val.cast, Val.flt.injEq, reduceCtorEq] at hv
    rename_i q
    subst hv
    have e : x31.show_ = ⟨showInt, showReal⟩ := rfl
    rw [e]
    dsimp only
    rw [showReal_cast]
    exact (ratRoundTrip 2012).fltOk q hl

/-- Two events of the year 2000. -/
def row31 (lat mag : String) : List Text :=
  ["1", "AAA", "20000110034913", "2000", "01", "10", "03", "49", "13", "0.02", "0", lat, "2.43", "1.01", "298",
   "9.3", "0.5", mag, "0", "", "", "", "", "1.7", "0.1"].map String.toList

/-- The catalogue file. -/
def file31 (mag : String) : Text :=
  writeRow (fieldNames.map (fun f => f.name.toList)) ++ writeRow (row31 "0" "6") ++ writeRow (row31 "40" mag)

/-- The file with the text `s` for the second magnitude holds the magnitude `q`. -/
def Holds31 (s : String) (q : ℚ) : Prop :=
  (readCatalogFile (ratEnv 2012) cpythonOrder (file31 s)).map (fun es => es.map fun e => fixedColumns.map e) =
    .ok [[.int 2000, .int 1, .int 10, .flt 0, .flt 0, .flt 6, .flt 0], [.int 2000, .int 1, .int 10, .flt 0, .flt 40, .flt q, .flt 0]] ∧
  (readCatalogFile (ratEnv 2012) cpythonOrder (file31 s)).map
    (fun es => decide (∀ e ∈ es, ∀ f ∈ fieldNames, (cellText ratShow (e f)).length ≤ 131072)) = .ok true

theorem holds_five : Holds31 "5" 5 := by unfold Holds31; decide +kernel
theorem holds_more : Holds31 "5.000004" (5000004 / 1000000) := by unfold Holds31; decide +kernel

theorem loaded31 {s : String} {q : ℚ} (h : Holds31 s q) : ∃ es, readCatalogFile x31.env x31.ord (file31 s) = .ok es ∧
    (∀ v, Occurs es v → Short31 v) ∧ es.mapM matrixRow = .ok [cat31 q 0, cat31 q 1] := by
  show ∃ es, readCatalogFile (ratEnv 2012).cast cpythonOrder (file31 s) = .ok es ∧ _
  rw [readCatalogFile_cast]
  unfold Holds31 at h
  obtain ⟨h, hs⟩ := h
  cases hr : readCatalogFile (ratEnv 2012) cpythonOrder (file31 s) with
  | error err => rw [hr] at h; cases h
  | ok es =>
    rw [hr] at h hs
    simp only [Except.map, Except.ok.injEq, decide_eq_true_eq] at h hs
    refine ⟨es.map Entry.cast, rfl, ?_, ?_⟩
    · rintro v ⟨e, he, f, rfl⟩
      obtain ⟨e0, he0, rfl⟩ := List.mem_map.1 he
      exact ⟨e0 f, rfl, hs e0 he0 f (by cases f <;> decide)⟩
    · have hl : es.length = 2 := by simpa using congrArg List.length h
      obtain ⟨e1, e2, rfl⟩ := List.length_eq_two.1 hl
      simp only [List.map_cons, List.map_nil, fixedColumns, List.cons.injEq, and_true] at h
      obtain ⟨⟨a1, a2, a3, a4, a5, a6, a7⟩, ⟨b1, b2, b3, b4, b5, b6, b7⟩⟩ := h
      simp only [List.map_cons, List.map_nil, List.mapM_cons, List.mapM_nil, matrixRow, fixedColumns, Entry.cast, a1, a2, a3, a4, a5, a6, a7, b1, b2, b3, b4,
        b5, b6, b7, Val.cast, number, bind, Except.bind, pure, Except.pure]
      refine congrArg Except.ok (congrArg₂ List.cons ?_ (congrArg₂ List.cons ?_ rfl))
      · funext k; fin_cases k <;> simp [cat31, evs, ev]
      · funext k; fin_cases k <;> simp [cat31, evs, ev]

/-! ### The first run -/

/-- The configuration of the first run. -/
noncomputable def config31 : Config ℝ where
  eqCatalogFile := "catalogue.csv".toList
  pprocessingResultFile := some "p.csv".toList
  completenessTableFile := some "t.txt".toList
  sourceModelFile := none
  resultFile := "result.xml".toList
  applyProcessing := true
  preprocessingJobs := ["GardnerKnopoff"]
  processingJobs := ["Recurrence"]
  gardnerKnopoff := some ("GardnerKnopoff", 0)
  afteran := none
  stepp := none
  recurrence := some ⟨1, "MLE", 4, 5⟩
  maximumMagnitude := none

/-- The files before the first run. -/
def fs31 (s : String) : Text → Option Content := fun p => if p = "catalogue.csv".toList then some (.text (file31 s)) else none

theorem fs31_catalogue (s : String) : fs31 s config31.eqCatalogFile = some (.text (file31 s)) := by
  unfold fs31
  exact if_pos rfl

theorem separate31 : Separate config31 "p.csv".toList "t.txt".toList where
  tables := by decide
  resultCatalogue := by decide
  resultTable := by decide
  model := by rintro m ⟨⟩

theorem once31 : DeclustersOnce config31.preprocessingJobs := ⟨[], "GardnerKnopoff", [], rfl, by simp, by simp⟩

theorem rereadable31 {s : String} {q : ℚ} (h : Holds31 s q) : Rereadable x31 config31 (fs31 s) := by
  intro file es hf hes
  obtain ⟨es', he, ho, -⟩ := loaded31 h
  have : file = file31 s := by
    rw [fs31_catalogue] at hf
    cases hf; rfl
  subst this
  rw [he] at hes
  cases hes
  exact roundTrip31.mono ho

theorem rows31 (m : ℝ) (h : m < 5.1) : Np.npMin ([cat31 m 0, cat31 m 1].map fun r => r 0) = .ok 2000 ∧
    Np.npMin ([cat31 m 0, cat31 m 1].map fun r => r 5) = .ok m ∧ yearMag [cat31 m 0, cat31 m 1] = [(2000, 6), (2000, m)] := by
  refine ⟨?_, ?_, ?_⟩
  · show Np.npMin [((2000 : ℤ) : ℝ), ((2000 : ℤ) : ℝ)] = _
    rw [npMin_two le_rfl]
    norm_num
  · show Np.npMin [6, m] = _
    exact npMin_two (by norm_num at h; linarith)
  · simp [yearMag, cat31, evs, ev]

theorem select_run {x : Ext ℝ} {cfg : Config ℝ} {w : World ℝ} {rows : List (Row ℝ)} {t : List (ℝ × ℝ)} {flags sel : List Int}
    (h1 : w.ctx.catalogMatrix = some ⟨rows, false⟩) (h2 : w.ctx.completenessTable = some t) (h3 : w.ctx.flagVector = some flags)
    (h4 : Completeness.selectedEqFlagVector (yearMag rows) t flags = .ok sel) :
    Succeeds x cfg .createSelectedEqVector w { w with ctx := { w.ctx with selectedEqVector := some sel } } := by
  simp only [Succeeds, runJob, Option.some.injEq]
  unfold createSelectedEqVectorJob
  rw [notNone_ok.2 h1, notNone_ok.2 h2, attr_ok.2 h3]
  simp only [Matrix.cols, Bool.false_eq_true, if_false, bind, Except.bind, h4]

theorem storeCatalog_run {x : Ext ℝ} {cfg : Config ℝ} {w : World ℝ} {p : Text} (hp : cfg.pprocessingResultFile = some p)
    (he : x.exists_ (dirname p) = true) (ho : x.openable p = true) {sel : List Int} {es : List (Entry ℝ)} (hs : w.ctx.selectedEqVector = some sel)
    (hes : w.ctx.eqCatalog = some es) (hl : sel.length = es.length) :
    Succeeds x cfg .storePreprocessedCatalog w (w.write p (.text (writeCatalog x.show_ (kept es sel)))) := by
  simp only [Succeeds, runJob, Option.some.injEq]
  unfold storePreprocessedCatalogJob
  simp only [hp, mkWriter, he, if_true, attr_ok.2 hs, notNone_ok.2 hes, zeros_entries es sel hl, openWrite, ho, bind, Except.bind]

theorem storeTable_run {x : Ext ℝ} {cfg : Config ℝ} {w : World ℝ} {q : Text} (hq : cfg.completenessTableFile = some q) (ho : x.openable q = true)
    {t : List (ℝ × ℝ)} (ht : w.ctx.completenessTable = some t) :
    Succeeds x cfg .storeCompletenessTable w (w.write q (.text (Table.saveTable x.fmt5 t))) := by
  simp only [Succeeds, runJob, Option.some.injEq]
  unfold storeCompletenessTableJob
  simp only [hq, openWrite, ho, if_true, notNone_ok.2 ht, bind, Except.bind]

theorem writeResult_run {x : Ext ℝ} {cfg : Config ℝ} {w : World ℝ} (he : x.exists_ (dirname cfg.resultFile) = true) (ho : x.openable cfg.resultFile = true)
    {d : List (Source ℝ)} (hd : w.ctx.smDefinitions = some d) {doc : Elem} (h : serialize x.nums (d.map Source.area) = .ok doc) :
    writeResult x cfg w = .ok (w.write cfg.resultFile (.xml doc)) := by
  unfold writeResult
  simp only [mkWriter, he, if_true, notNone_ok.2 hd, h, openWrite, ho, bind, Except.bind]

/-- The Gardner-Knopoff job. -/
theorem gk31 (m : ℝ) (hm : m < 5.1) (w : World ℝ) (hw : w.ctx.workingCatalog = some ⟨[cat31 m 0, cat31 m 1], false⟩) :
    Succeeds x31 config31 .gardnerKnopoff w
      { w with ctx := { w.ctx with vcl := some [0, 0], workingCatalog := some ⟨[cat31 m 0, cat31 m 1], false⟩, flagVector := some [0, 0] } } := by
  have e : ∀ asc : Equiv.Perm (Fin 2), asc = Fin.revPerm → ∀ id1 : Equiv.Perm (Fin 2), id1 = Equiv.refl _ → ∀ c : Fin 2 → Row ℝ, c = cat31 m →
      gardnerKnopoff c "GardnerKnopoff" 0 asc id1 = .ok ⟨![0, 0], [cat31 m 0, cat31 m 1], ![0, 0]⟩ := by
    rintro _ rfl _ rfl _ rfl
    exact run31 m
  have hcat : (fun i : Fin [cat31 m 0, cat31 m 1].length => [cat31 m 0, cat31 m 1][i]) = cat31 m := by
    funext i
    match i with
    | 0 => rfl
    | 1 => rfl
  have hs : Tuple.sort (flipud (Fin.revPerm : Equiv.Perm (Fin 2))) = Equiv.refl _ := by
    have : (⇑(flipud (Fin.revPerm : Equiv.Perm (Fin 2)))) = id := by
      funext i; fin_cases i <;> rfl
    rw [this]
    exact Tuple.sort_eq_refl_iff_monotone.2 monotone_id
  have hk : (fun j : Fin [cat31 m 0, cat31 m 1].length => [cat31 m 0, cat31 m 1][j] 5) = fun j => cat31 m j 5 :=
    funext fun j => congrFun (congrFun hcat j) 5
  have ha : x31.argsort (fun j : Fin [cat31 m 0, cat31 m 1].length => [cat31 m 0, cat31 m 1][j] 5) = Fin.revPerm := by
    rw [hk]; exact sort31 m hm
  refine gardnerKnopoffJob_run (x := x31) (cfg := config31) (w := w) (rows := [cat31 m 0, cat31 m 1])
    (r := (⟨![0, 0], [cat31 m 0, cat31 m 1], ![0, 0]⟩ : Declustering.Result ℝ 2)) rfl hw (e _ ha _ ?_ _ hcat)
  rw [ha]
  exact hs

/-- The sources after a run of the loop with the table `[(2000, mc)]`. -/
noncomputable def source31 (g : GR ℝ) : Source ℝ := withRecurrence 4 g { area := defaultAreaSource }

theorem turn31 {m mc : ℝ} {g : GR ℝ} (cfg : Config ℝ) (hr : cfg.recurrence = some ⟨1, "MLE", 4, 5⟩) (hm : m < 5.1)
    (hg : bMaxlikeTime [((2000 : ℝ), (6 : ℝ)), (2000, m)] [(2000, mc)] 1 4 = .ok g) (w w' : World ℝ)
    (hd : w.ctx.smDefinitions = some [{ area := defaultAreaSource }]) (ht : w.ctx.completenessTable = some [(2000, mc)]) :
    Chain (ProcessesSource x31 cfg nullFilter [.recurrence] ⟨[cat31 m 0, cat31 m 1], false⟩) (List.range 1) w w' ↔
      w' = (w.turn 0 ⟨[cat31 m 0, cat31 m 1], false⟩).setSource [{ area := defaultAreaSource }] 0 (withRecurrence 4 g) := by
  have hev := (rows31 m hm).2.2
  have hrec : ∀ f, RecOk x31 cfg ⟨[cat31 m 0, cat31 m 1], false⟩ (some [(2000, mc)]) f ↔ f = withRecurrence 4 g := by
    intro f
    unfold RecOk
    simp only [Matrix.cols, Bool.false_eq_true, if_false, Except.ok.injEq, Option.some.injEq, hr, exists_and_left, exists_eq_left', hev,
      recurrenceAnalysis, show ("MLE" = "Weichert") = False by decide, hg, bind, Except.bind, pure, Except.pure]
  have hl : ∀ v, ProcessesSource x31 cfg nullFilter [.recurrence] ⟨[cat31 m 0, cat31 m 1], false⟩ 0 w v ↔
      v = (w.turn 0 ⟨[cat31 m 0, cat31 m 1], false⟩).setSource [{ area := defaultAreaSource }] 0 (withRecurrence 4 g) := by
    intro v
    rw [recurrence_turn]
    constructor
    · rintro ⟨d, s, m', f, h1, h2, h3, h4, rfl⟩
      rw [hd] at h1
      cases h1
      cases h3
      rw [ht, hrec] at h4
      subst h4
      rfl
    · rintro rfl
      exact ⟨_, _, _, _, hd, rfl, rfl, by rw [ht]; exact (hrec _).2 rfl, rfl⟩
  constructor
  · rintro (_ | ⟨_, _, _, v, _, h1, _ | _⟩)
    exact (hl _).1 h1
  · intro h
    exact .cons _ _ _ _ _ ((hl _).2 h) (.nil _)

theorem serialized31 (g : GR ℝ) : ∃ doc, serialize (pyNums (K := ℝ)) [(source31 g).area] = .ok doc := by
  rw [C83_writer_accepts pyNums_lawful]
  refine ⟨?_, _, [], rfl, ⟨_, rfl, mtk_storable⟩, ⟨_, rfl, mtk_storable⟩⟩
  intro s hs
  rw [List.mem_singleton] at hs
  subst hs
  refine ⟨⟨_, rfl, mtk_storable⟩, ?_, ?_, ⟨_, rfl, mtk_storable⟩, ⟨_, rfl, mtk_storable⟩, ⟨_, rfl, mtk_storable⟩⟩
  · rintro t ⟨⟩; exact mtk_storable
  · rintro t ⟨⟩; exact mtk_storable

/-- The first run. -/
theorem first31 {s : String} {q : ℚ} (h : Holds31 s q) (h2 : (q : ℝ) < 5.1) {g : GR ℝ}
    (hg : bMaxlikeTime [((2000 : ℝ), (6 : ℝ)), (2000, (q : ℝ))] [(2000, (q : ℝ))] 1 4 = .ok g) :
    ∃ w1 es, main x31 config31 (fs31 s) 0 = some ⟨none, w1⟩ ∧ readCatalogFile x31.env x31.ord (file31 s) = .ok es ∧
      w1.ctx.smDefinitions = some [source31 g] ∧ w1.ctx.completenessTable = some [(2000, (q : ℝ))] ∧
      w1.ctx.workingCatalog = some ⟨[cat31 q 0, cat31 q 1], false⟩ ∧ w1.fs "p.csv".toList = some (.text (writeCatalog x31.show_ es)) ∧
      w1.fs "t.txt".toList = some (.text (Table.saveTable Format.fmt5 [(2000, (q : ℝ))])) := by
  obtain ⟨es, hes, -, hrows⟩ := loaded31 h
  obtain ⟨r1, r2, r3⟩ := rows31 q h2
  have hlen : es.length = 2 := by simpa using (mapM_forall₂ _ _ _ hrows).length_eq
  have hcomp := (compulsory_iff x31 config31 (fs31 s) 0 _).2 ⟨file31 s, es, [defaultAreaSource], _, _, _, fs31_catalogue s, hes,
    .inr ⟨(by rintro ⟨t, h, -⟩; cases h), rfl⟩, by simp, hrows, by simp, r1, r2, rfl⟩
  set w0 := prepared (fs31 s) 0 es ([defaultAreaSource].map fun a => ({ area := a } : Source ℝ)) [cat31 q 0, cat31 q 1] 2000 (q : ℝ) with hw0
  have hgk := gk31 q h2 w0 rfl
  set wa : World ℝ := { w0 with ctx := { w0.ctx with vcl := some [0, 0], workingCatalog := some ⟨[cat31 q 0, cat31 q 1], false⟩, flagVector := some [0, 0] } }
  have hsel : Succeeds x31 config31 .createSelectedEqVector wa { wa with ctx := { wa.ctx with selectedEqVector := some [0, 0] } } := by
    refine select_run rfl rfl rfl ?_
    rw [r3]
    simp [Completeness.selectedEqFlagVector, Completeness.markRow, Completeness.mergeFlag]
  set wb : World ℝ := { wa with ctx := { wa.ctx with selectedEqVector := some [0, 0] } }
  have hk : kept es [0, 0] = es := by
    match es, hlen with
    | [a, b], _ => rfl
  have hst : Succeeds x31 config31 .storePreprocessedCatalog wb (wb.write "p.csv".toList (.text (writeCatalog x31.show_ es))) := by
    have := storeCatalog_run (x := x31) (cfg := config31) (w := wb) (p := "p.csv".toList) rfl rfl rfl (sel := [0, 0]) (es := es) rfl rfl (by rw [hlen]; rfl)
    rwa [hk] at this
  set wc := wb.write "p.csv".toList (.text (writeCatalog x31.show_ es))
  have htb : Succeeds x31 config31 .storeCompletenessTable wc (wc.write "t.txt".toList (.text (Table.saveTable Format.fmt5 [(2000, (q : ℝ))]))) :=
    storeTable_run (x := x31) (cfg := config31) (w := wc) rfl rfl rfl
  set wd := wc.write "t.txt".toList (.text (Table.saveTable Format.fmt5 [(2000, (q : ℝ))]))
  obtain ⟨doc, hdoc⟩ := serialized31 g
  have hloop := (turn31 config31 rfl h2 hg wd _ rfl rfl).2 rfl
  have hwrite := writeResult_run (x := x31) (cfg := config31) rfl rfl (d := [source31 g])
    (w := (wd.turn 0 ⟨[cat31 q 0, cat31 q 1], false⟩).setSource [{ area := defaultAreaSource }] 0 (withRecurrence 4 g)) rfl hdoc
  refine ⟨_, es, main_ok.2 ⟨_, [.recurrence], _, (C16_preprocessing config31 _).2 ⟨[.gardnerKnopoff], .cons (by simp [documented]) .nil, rfl⟩,
    (C16_processing config31 _).2 (.cons (by simp [documented]) .nil),
    (C19_once_in_order x31 config31 _ _ _ _ _ rfl).2 ⟨wd, [{ area := defaultAreaSource }], ⟨[cat31 q 0, cat31 q 1], false⟩, ?_, rfl, rfl, hloop⟩, hwrite⟩, hes, rfl, rfl, rfl, rfl, rfl⟩
  · rw [Chain.append_iff]
    refine ⟨wa, ?_, ?_⟩
    · rw [Chain.append_iff]
      exact ⟨w0, hcomp, .cons _ _ _ _ _ hgk (.nil _)⟩
    · have c1 : config31.preprocessingJobs ≠ [] := List.cons_ne_nil _ _
      have c2 : Configured config31.pprocessingResultFile := ⟨_, rfl, by simp⟩
      rw [if_pos c1, if_pos c2]
      exact .cons _ _ _ _ _ hsel (.cons _ _ _ _ _ hst (.cons _ _ _ _ _ htb (.nil _)))

/-! ### The second run -/

theorem rnd5_more : Format.rnd5 (((5000004 / 1000000 : ℚ) : ℝ)) = 5 := by
  have h1 : ¬ (((5000004 / 1000000 : ℚ) : ℝ)) < 0 := by norm_num
  have h2 : |((5000004 / 1000000 : ℚ) : ℝ)| * 10 ^ 5 = 500000.4 := by
    rw [abs_of_nonneg (not_lt.1 h1)]; norm_num
  have h3 : rintK (500000.4 : ℝ) = 500000 := by
    obtain ⟨u, l⟩ := Format.rintK_bounds (500000.4 : ℝ)
    have u' : (rintK (500000.4 : ℝ) : ℝ) < ((500001 : ℤ) : ℝ) := lt_of_le_of_lt u (by norm_num)
    have l' : ((499999 : ℤ) : ℝ) < (rintK (500000.4 : ℝ) : ℝ) := lt_of_lt_of_le (by norm_num) l
    have u2 : rintK (500000.4 : ℝ) < 500001 := by exact_mod_cast u'
    have l2 : 499999 < rintK (500000.4 : ℝ) := by exact_mod_cast l'
    omega
  unfold Format.rnd5
  rw [if_neg h1, h2, h3]
  norm_num

theorem rnd5_2000 : Format.rnd5 (2000 : ℝ) = 2000 := by
  have := Table.rnd5_exact (K := ℝ) 200000000
  norm_num at this
  exact this

/-- **C31 fails**: with a magnitude of 5.000004 the completeness table is stored as 5.00000, and the second run finds another a value. -/
theorem C31_fails : ¬ StoreThenProcess := by
  intro H
  obtain ⟨b, s, hb, hmle⟩ := mle31 (((5000004 / 1000000 : ℚ) : ℝ)) 4 (by norm_num) (by norm_num)
  obtain ⟨t1, hg1⟩ := hmle (((5000004 / 1000000 : ℚ) : ℝ)) (by norm_num) (by norm_num)
  obtain ⟨t2, hg2⟩ := hmle 5 (by norm_num) (by norm_num)
  have hlt : (((5000004 / 1000000 : ℚ) : ℝ)) < 5.1 := by norm_num
  obtain ⟨w1, es, hmain, hes, hd1, ht1, hw1, hp1, hq1⟩ := first31 holds_more hlt hg1
  obtain ⟨w2, hmain2, hd2, -⟩ := H x31 config31 (fs31 "5.000004") 0 0 "p.csv".toList "t.txt".toList x31_sorts rfl rfl rfl (by decide) rfl (by decide)
    separate31 rfl rfl once31 (rereadable31 holds_more) w1 hmain
  -- the stored catalogue
  obtain ⟨es0, hes0, hocc, hrows⟩ := loaded31 holds_more
  rw [hes] at hes0
  cases hes0
  obtain ⟨es2, hes2, hagree⟩ := written_accepted x31.env x31.env x31.show_ es (roundTrip31.mono hocc) le_rfl x31.ord x31.ord
    (fun e he => delivered_clean x31.env x31.ord _ es hes e he)
  have hmat2 : es2.mapM matrixRow = .ok [cat31 ((5000004 / 1000000 : ℚ) : ℝ) 0, cat31 ((5000004 / 1000000 : ℚ) : ℝ) 1] := by
    apply mapM_of_forall₂
    have h1 := mapM_forall₂ _ _ _ hrows
    clear * - h1 hagree
    generalize [cat31 ((5000004 / 1000000 : ℚ) : ℝ) 0, cat31 ((5000004 / 1000000 : ℚ) : ℝ) 1] = r at h1
    induction hagree generalizing r with
    | nil => cases h1; exact .nil
    | cons h _ ih =>
      rcases h1 with _ | ⟨h1, h1'⟩
      exact .cons ((matrixRow_congr h.1).trans h1) (ih _ h1')
  -- the second run
  obtain ⟨pre, procs, we, hpre, hprocs, hstart, hwrite⟩ := main_ok.1 hmain2
  obtain ⟨js, hjs, rfl⟩ := (C16_preprocessing _ pre).1 hpre
  have hprocs' : procs = [.recurrence] := by
    have := (C16_processing _ procs).1 hprocs
    rw [show (second config31 "p.csv".toList).processingJobs = ["Recurrence"] from rfl] at this
    rcases this with _ | ⟨h1, _ | _⟩
    simp only [documented, List.mem_cons, Prod.mk.injEq, List.not_mem_nil, or_false] at h1
    rcases h1 with h1 | h1 | h1 | h1 | h1 | h1 | h1 | h1 | h1 <;> simp at h1
    rw [h1]
  subst hprocs'
  have hjs' : js = [] := by
    rw [show (second config31 "p.csv".toList).preprocessingJobs = [] from rfl] at hjs
    cases hjs
    rfl
  subst hjs'
  obtain ⟨wd, defs, working, hchain, hdefs, hworking, hloop⟩ := (C19_once_in_order x31 (second config31 "p.csv".toList) _ _ _ _ we rfl).1 hstart
  have c1 : ¬ (second config31 "p.csv".toList).preprocessingJobs ≠ [] := fun h => h rfl
  have c2 : Configured (second config31 "p.csv".toList).completenessTableFile := ⟨_, rfl, by decide⟩
  rw [List.append_nil, if_neg c1, if_pos c2, Chain.append_iff] at hchain
  obtain ⟨w0, hcomp, htail⟩ := hchain
  obtain ⟨file, es', inputs, rows, my, mm, hfile, hes', hin, hinne, hrows', hrne, hmy, hmm, rfl⟩ := (compulsory_iff _ _ _ _ w0).1 hcomp
  rw [show (second config31 "p.csv".toList).eqCatalogFile = "p.csv".toList from rfl, hp1] at hfile
  cases hfile
  rw [hes2] at hes'
  cases hes'
  rw [hmat2] at hrows'
  cases hrows'
  have hinputs : inputs = [defaultAreaSource] := by
    rcases hin with ⟨path, doc, -, h, -⟩ | ⟨-, h⟩
    · cases h
    · exact h
  subst hinputs
  rcases htail with _ | ⟨_, _, _, wd', _, hret, _ | _⟩
  simp only [Succeeds, runJob, retrieveCompletenessTableJob] at hret
  have e1 : (second config31 "p.csv".toList).completenessTableFile = some "t.txt".toList := rfl
  have e2 : x31.nums.float = Format.pyFloat := rfl
  simp only [e1, notNone, prepared, hq1, e2, Table.C32_round_trip x31.nan _ (List.cons_ne_nil _ _), List.map_cons, List.map_nil, rnd5_more, rnd5_2000, bind, Except.bind,
    Option.some.injEq, Except.ok.injEq] at hret
  subst hret
  cases hdefs
  cases hworking
  have hwe := (turn31 (second config31 "p.csv".toList) rfl hlt hg2 _ _ rfl rfl).1 hloop
  subst hwe
  obtain ⟨d3, doc, hd3, -, rfl⟩ := writeResult_ok hwrite
  have hd4 : some [source31 _] = w1.ctx.smDefinitions := hd2
  rw [hd1] at hd4
  simp only [Option.some.injEq, List.cons.injEq, and_true] at hd4
  have ha := congrArg (fun s : Source ℝ => s.area.rate.tgr.aValue) hd4
  simp only [source31, withRecurrence, Source.setTgr] at ha
  have := (Real.rpow_right_inj (by norm_num) (by norm_num)).1 ha
  norm_num at this
  linarith

/-- Non-vacuity of `C31_equivalent_partial`: with a magnitude of 5 the second run gives the same result. -/
example : ∃ w1 w2, main x31 config31 (fs31 "5") 0 = some ⟨none, w1⟩ ∧ main x31 (second config31 "p.csv".toList) w1.fs 7 = some ⟨none, w2⟩ ∧
    w2.ctx.smDefinitions = w1.ctx.smDefinitions ∧ w2.fs "result.xml".toList = w1.fs "result.xml".toList := by
  obtain ⟨b, s, hb, hmle⟩ := mle31 (((5 : ℚ) : ℝ)) 4 (by norm_num) (by norm_num)
  obtain ⟨t1, hg1⟩ := hmle (((5 : ℚ) : ℝ)) (by norm_num) (by norm_num)
  obtain ⟨w1, es, hmain, hes, hd1, ht1, hw1, hp1, hq1⟩ := first31 holds_five (by norm_num) hg1
  obtain ⟨w2, h⟩ := C31_equivalent_partial x31 x31_sorts rfl rfl config31 (fs31 "5") 0 7 "p.csv".toList "t.txt".toList rfl (by decide) rfl (by decide)
    separate31 rfl rfl once31 (rereadable31 holds_five) w1 hmain _ ht1 (by
      intro r hr
      rw [List.mem_singleton] at hr
      subst hr
      exact ⟨⟨200000000, by norm_num⟩, 500000, by norm_num⟩) (.inl ⟨by
      intro r hr r' hr'
      rw [List.mem_singleton] at hr hr'
      subst hr hr'
      intro h; exact absurd h (lt_irrefl _), by
      rintro c ⟨⟩
      decide⟩)
  exact ⟨w1, w2, hmain, h⟩

end Verif.Workflow
