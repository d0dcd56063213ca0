import Verif.Props.DoubleStored
import Verif.Props.DoubleSteppYears
import Verif.Props.SourceIndependence

/-!
# C203: a run in two parts gives the b-values of the run in one, in double precision
-/

namespace Verif.Recurrence

open Verif Verif.Np

theorem mle_no_events {F : Type} [PyMath F] (table : List (F × F)) (dmag ref : F) (r : GR F) : bMaxlikeTime [] table dmag ref ≠ .ok r := by
  intro h
  have hp : ∀ ps, periods ([] : List (F × F)) table dmag ref 0 = .ok ps → ps = [] := by
    intro ps hp
    unfold periods at hp
    split at hp
    · simp only at hp
      split at hp
      · cases hp
      · exfalso
        unfold period periodEvents at hp
        cases hm : npMin (groupOf table table[0].1) with
        | error e => simp [hm, bind, Except.bind] at hp
        | ok mc => simp [hm, bind, Except.bind, npMax] at hp
    · cases hp; rfl
  unfold bMaxlikeTime at h
  cases hps : periods ([] : List (F × F)) table dmag ref 0 with
  | error e => simp [hps, bind, Except.bind] at h
  | ok ps =>
    rw [hp ps hps] at hps
    simp [hps, bind, Except.bind, throw, throwThe, MonadExceptOf.throw] at h

theorem mle_no_table {F : Type} [PyMath F] (ev : List (F × F)) (dmag ref : F) (r : GR F) : bMaxlikeTime ev [] dmag ref ≠ .ok r := by
  intro h
  unfold bMaxlikeTime at h
  have : periods ev ([] : List (F × F)) dmag ref 0 = .ok [] := by
    unfold periods
    rfl
  simp [this, bind, Except.bind, throw, throwThe, MonadExceptOf.throw] at h

end Verif.Recurrence

namespace Verif.Workflow

open Verif Verif.Np Verif.EqCatalog Verif.Csv Verif.Nrml Verif.Declustering Verif.Recurrence Verif.Completeness Spec
open Verif.Table (saveTable loadTable)
open Verif.Format (floatDbl fmtDbl pyFloat)

section
variable {F : Type} [PyMath F]

/-- The events left are the rows whose flag is 0. -/
def Describes (all : List (Row F)) (p : Prep F) : Prop := p.flags.length = all.length ∧ p.events = kept all p.flags

omit [PyMath F] in
theorem kept_zeros {α : Type} (l : List α) : kept l (List.replicate l.length 0) = l := by
  induction l with
  | nil => rfl
  | cons r rs ih =>
    unfold kept at ih ⊢
    simpa [List.replicate_succ] using ih

omit [PyMath F] in
theorem kept_mem {α : Type} {l : List α} {flags : List Int} {a : α} (h : a ∈ kept l flags) : a ∈ l := by
  unfold kept at h
  obtain ⟨b, hb, rfl⟩ := List.mem_map.1 h
  exact (List.of_mem_zip (List.mem_of_mem_filter hb)).1

theorem describes_gk {x : Ext F} (hx : Sorts x) {cfg : Config F} {all : List (Row F)} {p q : Prep F} (hp : p.events = all) (h : Prepares x cfg all "GardnerKnopoff" p q) : Describes all q := by
  obtain ⟨ev, fl, tb⟩ := p
  simp only at hp
  subst hp
  generalize hn : "GardnerKnopoff" = n at h
  cases h with
  | gardnerKnopoff _ opt fsw r h1 h2 =>
    have := (C34_gk_mainshocks _ opt fsw _ _ r (hx.2 _) h2).2
    rw [kept_fin] at this
    exact ⟨by simp, this⟩
  | afteran => exact absurd hn (by decide)
  | stepp => exact absurd hn (by decide)

theorem describes_afteran {x : Ext F} (hx : Sorts x) {cfg : Config F} {all : List (Row F)} {p q : Prep F} (h : Prepares x cfg all "Afteran" p q) : Describes all q := by
  generalize hn : "Afteran" = n at h
  cases h with
  | afteran _ opt tw r h1 h2 =>
    have := (C34_afteran_mainshocks _ opt tw _ _ r (hx.2 _) h2).2
    rw [kept_fin] at this
    exact ⟨by simp, this⟩
  | gardnerKnopoff => exact absurd hn (by decide)
  | stepp => exact absurd hn (by decide)

theorem prepares_stepp {x : Ext F} {cfg : Config F} {all : List (Row F)} {p q : Prep F} {c : SteppConfig F} (hc : cfg.stepp = some c) (h : Prepares x cfg all "Stepp" p q) :
    ∃ t, Completeness.stepp (years p.events) c.magnitudeWindows c.timeWindow c.sensitivity c.incrementLock = .ok t ∧ q = ⟨p.events, p.flags, t⟩ := by
  generalize hn : "Stepp" = n at h
  cases h with
  | stepp _ c' t h1 h2 =>
    rw [hc] at h1
    cases h1
    exact ⟨t, h2, rfl⟩
  | gardnerKnopoff => exact absurd hn (by decide)
  | afteran => exact absurd hn (by decide)

/-- After at most one declustering and Stepp's test. -/
theorem chain_stepp {x : Ext F} (hx : Sorts x) {cfg : Config F} {all : List (Row F)} {y m : F} {p : Prep F} {c : SteppConfig F} (hc : cfg.stepp = some c) {names : List String}
    (hn : names = ["Stepp"] ∨ names = ["GardnerKnopoff", "Stepp"] ∨ names = ["Afteran", "Stepp"])
    (h : Chain (Prepares x cfg all) names ⟨all, List.replicate all.length 0, [(y, m)]⟩ p) :
    Describes all p ∧ Completeness.stepp (years p.events) c.magnitudeWindows c.timeWindow c.sensitivity c.incrementLock = .ok p.table := by
  have last : ∀ s, Describes all s → Chain (Prepares x cfg all) ["Stepp"] s p →
      Describes all p ∧ Completeness.stepp (years p.events) c.magnitudeWindows c.timeWindow c.sensitivity c.incrementLock = .ok p.table := by
    intro s hs h
    cases h with
    | cons _ _ _ s' _ h1 h2 =>
      cases h2
      obtain ⟨t, ht, rfl⟩ := prepares_stepp hc h1
      exact ⟨hs, ht⟩
  rcases hn with rfl | rfl | rfl
  · exact last _ ⟨by simp, (kept_zeros all).symm⟩ h
  · cases h with
    | cons _ _ _ s' _ h1 h2 => exact last _ (describes_gk hx rfl h1) h2
  · cases h with
    | cons _ _ _ s' _ h1 h2 => exact last _ (describes_afteran hx h1) h2

/-- Below the magnitude and before the year of a row of the table. -/
def Incomplete (table : List (F × F)) (r : Row F) : Prop := ∃ c ∈ table, Verif.Spec.RowExcludes c (r 0, r 5)

open scoped Classical in
theorem kept_complete {rows : List (Row F)} {table : List (F × F)} {flags sel : List Int} (hl : flags.length = rows.length)
    (h : selectedEqFlagVector (yearMag rows) table flags = .ok sel) :
    sel.length = rows.length ∧ kept rows sel = (kept rows flags).filter fun r => decide (¬ Incomplete table r) := by
  have hlen : flags.length = (yearMag rows).length := by simpa [yearMag] using hl
  obtain ⟨out, ho, hol, hi⟩ := selected_get (yearMag rows) table flags hlen
  rw [h] at ho
  cases ho
  have hol' : sel.length = rows.length := by simpa [yearMag] using hol
  refine ⟨hol', kept_and rows flags sel _ hl hol' fun i h1 h2 h3 => ?_⟩
  obtain ⟨h01, h1'⟩ := hi i (by simpa [yearMag] using h1) h3
  have e : (yearMag rows)[i]'(by simpa [yearMag] using h1) = (rows[i] 0, rows[i] 5) := by simp [yearMag]
  rw [e] at h1'
  simp only [decide_eq_true_eq]
  have h10 : sel[i] = 0 ↔ ¬ sel[i] = 1 := by
    rcases h01 with h | h <;> rw [h] <;> simp
  rw [h10, h1', not_or, not_not]
  rfl

/-- The same source with another a-value. -/
def Spec.OtherA (s t : AreaSource F) : Prop := ∃ a, t = withTgr s { s.rate.tgr with aValue := a }

omit [PyMath F] in
theorem serialize_other {nt : NumText F} (hstr : ∀ v, xmlOk (nt.str v) = true) {l l' : List (AreaSource F)} (h : List.Forall₂ OtherA l l') {doc : Elem} (hd : serialize nt l = .ok doc) :
    ∃ doc', serialize nt l' = .ok doc' := by
  have one : ∀ s t, OtherA s t → ∀ e, areaSourceElem nt s = .ok e → ∃ e', areaSourceElem nt t = .ok e' := by
    rintro s _ ⟨a, rfl⟩ e he
    have leafOk : ∀ q v, leaf q (some (nt.str v)) = .ok (.mk q [] (some (nt.str v)) []) := by
      intro q v
      simp [leaf, textValue, hstr, bind, Except.bind]
    unfold areaSourceElem at he ⊢
    obtain ⟨id, h1, he⟩ := bind_ok he
    obtain ⟨nm, h2, he⟩ := bind_ok he
    obtain ⟨tr, h3, he⟩ := bind_ok he
    obtain ⟨b, h4, he⟩ := bind_ok he
    obtain ⟨r, h5, he⟩ := bind_ok he
    obtain ⟨d, h6, he⟩ := bind_ok he
    obtain ⟨hd, h7, he⟩ := bind_ok he
    have h5' : ∃ r', writeRateModel nt (withTgr s { s.rate.tgr with aValue := a }).rate = .ok r' := by
      unfold writeRateModel writeTgr at h5 ⊢
      obtain ⟨g, hg, -⟩ := bind_ok h5
      obtain ⟨ty, hty, -⟩ := bind_ok hg
      have hty' : attrValue (withTgr s { s.rate.tgr with aValue := a }).rate.tgr.typeTgr = .ok ty := hty
      simp only [hty', leafOk, bind, Except.bind]
      exact ⟨_, rfl⟩
    obtain ⟨r', h5'⟩ := h5'
    have g1 : attrValue (withTgr s { s.rate.tgr with aValue := a }).areaSourceId = .ok id := h1
    have g2 : leaf tGML_NAME (withTgr s { s.rate.tgr with aValue := a }).name = .ok nm := h2
    have g3 : leaf tTECTONIC_REGION (withTgr s { s.rate.tgr with aValue := a }).tectonicRegion = .ok tr := h3
    have g4 : writeAreaBoundary nt (withTgr s { s.rate.tgr with aValue := a }).boundary = .ok b := h4
    have g6 : writeDepthDistrib nt (withTgr s { s.rate.tgr with aValue := a }).depthDist = .ok d := h6
    simp only [g1, g2, g3, g4, h5', g6, leafOk, bind, Except.bind]
    exact ⟨_, rfl⟩
  have all : ∀ {l l' : List (AreaSource F)}, List.Forall₂ OtherA l l' → ∀ b, l.mapM (areaSourceElem nt) = .ok b → ∃ b', l'.mapM (areaSourceElem nt) = .ok b' := by
    intro l l' h
    induction h with
    | nil => intro b _; exact ⟨[], rfl⟩
    | cons h1 _ ih =>
      intro b hb
      rw [List.mapM_cons] at hb ⊢
      obtain ⟨e, he, hb⟩ := bind_ok hb
      obtain ⟨es, hes, hb⟩ := bind_ok hb
      obtain ⟨e', he'⟩ := one _ _ h1 e he
      obtain ⟨es', hes'⟩ := ih es hes
      exact ⟨e' :: es', by simp [he', hes', bind, Except.bind, pure, Except.pure]⟩
  cases h with
  | nil => cases hd
  | cons h1 h2 =>
    rename_i s t l l'
    obtain ⟨a, rfl⟩ := h1
    unfold serialize at hd ⊢
    simp only at hd ⊢
    obtain ⟨nid, hn, hd⟩ := bind_ok hd
    obtain ⟨sid, hs, hd⟩ := bind_ok hd
    obtain ⟨b, hb, hd⟩ := bind_ok hd
    obtain ⟨b', hb'⟩ := all (.cons ⟨a, rfl⟩ h2) b hb
    have hn' : attrValue (withTgr s { s.rate.tgr with aValue := a }).nrmlId = .ok nid := hn
    have hs' : attrValue (withTgr s { s.rate.tgr with aValue := a }).sourceModelId = .ok sid := hs
    simp only [hn', hs', hb', bind, Except.bind]
    exact ⟨_, rfl⟩

end

section
variable [Libm]

namespace Spec

/-- The magnitude of the row has at most two decimals and lies between -9.9 and 9.9. -/
def ShortMagnitude (cells : List Text) : Prop := ∃ s, ∃ k : ℤ, cells[17]? = some s ∧ pyFloat (K := ℚ) s = some ((k : ℚ) / 100) ∧ |k| ≤ 990

end Spec

open Verif.Dbl

/-- The row has a whole year and a magnitude of two decimals. -/
def Short (r : Row Dbl) : Prop := ∃ e : Dbl × ℤ, |e.2| ≤ 990 ∧ (∃ z : ℤ, |z| ≤ 10 ^ 6 ∧ e.1.val = z) ∧ (r 0, r 5) = Recurrence.Spec.quake e

omit [Libm] in
theorem short_rows {rows : List (Row Dbl)} (h : ∀ r ∈ rows, Short r) :
    ∃ ev : List (Dbl × ℤ), (∀ e ∈ ev, |e.2| ≤ 990) ∧ (∀ e ∈ ev, ∃ z : ℤ, |z| ≤ 10 ^ 6 ∧ e.1.val = z) ∧ yearMag rows = ev.map Recurrence.Spec.quake := by
  induction rows with
  | nil => exact ⟨[], by simp, by simp, rfl⟩
  | cons r rows ih =>
    obtain ⟨ev, h1, h2, h3⟩ := ih fun r hr => h r (List.mem_cons_of_mem _ hr)
    obtain ⟨e, g1, g2, g3⟩ := h r List.mem_cons_self
    refine ⟨e :: ev, ?_, ?_, ?_⟩
    · intro a ha
      rcases List.mem_cons.1 ha with rfl | ha
      exacts [g1, h1 a ha]
    · intro a ha
      rcases List.mem_cons.1 ha with rfl | ha
      exacts [g2, h2 a ha]
    · rw [List.map_cons, ← g3, ← h3]
      rfl

/-- The rows of a table of Stepp's test with whole years. -/
theorem table_rows {ev0 : List (Dbl × ℤ)} (hk0 : ∀ e ∈ ev0, |e.2| ≤ 990) (hw : ∀ e ∈ ev0, ∃ z : ℤ, |z| ≤ 10 ^ 6 ∧ e.1.val = z) {d : ℤ} (d0 : 1 ≤ d) (d1 : d ≤ 100) {dt : ℕ}
    (hdt : 0 < dt) (hdt' : dt ≤ 10 ^ 6) {ttol : Dbl} {iloc : Bool} {table : List (Dbl × Dbl)} (h : stepp (ev0.map Completeness.Spec.quake) (Dbl.of (d / 10)) (dt : Dbl) ttol iloc = .ok table) :
    ∀ r ∈ table, (∃ z : ℤ, r.1.val = z) ∧ |r.2.val| ≤ 10 := by
  intro r hr
  refine ⟨?_, rows_bound hk0 d0 d1 h r hr⟩
  have hw' : ∀ e ∈ ev0.map Completeness.Spec.quake, ∃ z : ℤ, |z| ≤ 10 ^ 6 ∧ e.1.val = z := by
    intro e he
    obtain ⟨e', he', rfl⟩ := List.mem_map.1 he
    exact hw e' he'
  obtain ⟨b, hb, -⟩ := stepp_times h
  obtain ⟨y0, y1, m0, m1, -, -⟩ := steppBins_range hb
  obtain ⟨a1, a2⟩ := npMin_spec m0
  obtain ⟨b1, b2⟩ := npMax_spec m1
  obtain ⟨f0, hf0, rfl⟩ := List.mem_map.1 a1
  obtain ⟨f1, hf1, rfl⟩ := List.mem_map.1 b1
  obtain ⟨z0, -, hz0⟩ := hw' _ hf0
  obtain ⟨z1, -, hz1⟩ := hw' _ hf1
  have hy : Completeness.Spec.Years (ev0.map Completeness.Spec.quake) z0 z1 := by
    refine ⟨⟨⟨f0, hf0, hz0⟩, ?_⟩, ⟨f1, hf1, hz1⟩, ?_⟩
    · rintro z ⟨e, he, hz⟩
      have := a2 _ (List.mem_map_of_mem he)
      rw [hz, hz0] at this
      exact_mod_cast this
    · rintro z ⟨e, he, hz⟩
      have := b2 _ (List.mem_map_of_mem he)
      rw [hz, hz1] at this
      exact_mod_cast this
  obtain ⟨k, hk, -⟩ := C200_years hw' hy hdt hdt' h r hr
  exact ⟨_, hk⟩

/-- The b-value of the events in a region is the same from the stored catalogue and table. -/
theorem b_again {all : List (Row Dbl)} (hall : ∀ r ∈ all, Short r) {flags sel : List Int} (hl : flags.length = all.length) {d : ℤ} (d0 : 1 ≤ d) (d1 : d ≤ 100) {dt : ℕ}
    (hdt : 0 < dt) (hdt' : dt ≤ 10 ^ 6) {ttol : Dbl} {table stored : List (Dbl × Dbl)} (hst : stepp (yearMag (kept all flags)) (Dbl.of (d / 10)) (dt : Dbl) ttol true = .ok table)
    (hsel : selectedEqFlagVector (yearMag all) table flags = .ok sel) {nan : Dbl} (hs : loadTable floatDbl nan (saveTable fmtDbl table) = .ok stored) {q : ℚ} (q0 : 1 / 1000 ≤ q) (q1 : q ≤ 10)
    (ref : Dbl) (P : Row Dbl → Bool) :
    (bMaxlikeTime (yearMag ((kept all sel).filter P)) stored (Dbl.of q) ref).map (fun r => (r.b, r.sigb)) =
      (bMaxlikeTime (yearMag ((kept all flags).filter P)) table (Dbl.of q) ref).map fun r => (r.b, r.sigb) := by
  classical
  obtain ⟨ev0, a1, a2, a3⟩ := short_rows (rows := kept all flags) fun r hr => hall r (kept_mem hr)
  obtain ⟨ev, b1, b2, b3⟩ := short_rows (rows := (kept all flags).filter P) fun r hr => hall r (kept_mem (List.mem_of_mem_filter hr))
  rw [a3] at hst
  obtain ⟨hsl, hk⟩ := kept_complete hl hsel
  have hpos : (0 : Dbl) < (dt : Dbl) := by
    rw [lt_def, val_zero, nat_val (hdt'.trans (by norm_num))]
    exact_mod_cast hdt
  set rows := (kept all flags).filter P with hrows
  have hlen : ev.length = rows.length := by
    have := congrArg List.length b3
    simpa [yearMag] using this.symm
  obtain ⟨out, ho, -, -⟩ := selected_get (yearMag rows) table (List.replicate rows.length 0) (by simp [yearMag])
  obtain ⟨hol, hko⟩ := kept_complete (rows := rows) (by simp) ho
  rw [kept_zeros] at hko
  have e1 : (kept all sel).filter P = kept rows out := by
    rw [hk, hko, hrows, List.filter_filter, List.filter_filter]
    exact List.filter_congr fun r _ => Bool.and_comm _ _
  rw [b3] at ho
  have key := C197_stored (fun e he => (a1 e he).trans (by norm_num)) d0 d1 hpos hst (table_rows a1 a2 d0 d1 hdt hdt' hst) hs (ev := ev) (flag := List.replicate rows.length 0)
    (fun e he => (b1 e he).trans (by norm_num)) (by simp [hlen]) ho q0 q1 ref
  rw [e1, yearMag_kept, b3, kept_map]
  refine key.trans ?_
  rw [← hlen, kept_zeros]

omit [Libm] in
/-- The rows of a catalogue file with short magnitudes. -/
theorem file_rows {y : ℤ} (hy : y ≤ 10 ^ 6) {ord : DictOrder} {file : Text} {es : List (Entry Dbl)} (h : readCatalogFile (dblEnv y) ord file = .ok es) {data : List (List Text)}
    (hd : DataRows file data) (hm : ∀ cells ∈ data, ShortMagnitude cells) {all : List (Row Dbl)} (hr : List.Forall₂ RowOf es all) : ∀ r ∈ all, Short r := by
  obtain ⟨rest, hv', rfl⟩ := hd
  have hes : readEqCatalog (dblEnv y) ord (csvRows rest).1 = .ok es := by
    unfold readCatalogFile at h
    obtain ⟨rest', hv'', h⟩ := Nrml.bind_ok h
    rw [hv'] at hv''
    cases hv''
    obtain ⟨es', hes, h⟩ := Nrml.bind_ok h
    split at h
    · cases h
    · cases h; exact hes
  have h10 := C10_order_preserving _ _ _ _ hes
  clear hes h hv'
  generalize (csvRows rest).1.filter (fun r => r ≠ []) = data at h10 hm
  induction h10 generalizing all with
  | nil =>
    cases hr
    simp
  | cons h1 _ ih =>
    cases hr with
    | cons r1 r2 =>
      intro r hmem
      rcases List.mem_cons.1 hmem with rfl | hmem
      · obtain ⟨s, k, c1, c2, c3⟩ := hm _ List.mem_cons_self
        obtain ⟨q, ⟨⟨s', i, t1, t2, t3⟩, s'', t4, t5⟩, -, t6⟩ := tells_row (h1 0) r1 ⟨s, k, c1, c2, c3.trans (by norm_num)⟩
        rw [c1] at t4
        cases t4
        rw [c2] at t5
        have hq : q.2 = k := by
          have := Option.some.inj t5
          have : (k : ℚ) = q.2 := by linarith
          exact_mod_cast this.symm
        have hrange := (C02_accepted_ranges _ _ _ _ _ (h1 0)).year
        obtain ⟨j, hj, j1, j2⟩ := hrange
        have h0 : r 0 = ((j : ℤ) : Dbl) := by
          rcases r1.year with g | ⟨j', g, gj⟩
          · rw [hj] at g; cases g
          · rw [hj] at g; cases g; exact gj
        have hq1 : q.1 = ((j : ℤ) : Dbl) := by
          rw [← h0]
          exact (congrArg Prod.fst t6).symm
        have hj' : |j| ≤ 10 ^ 6 := abs_le.2 ⟨by omega, j2.trans hy⟩
        exact ⟨q, by rw [hq]; exact c3, ⟨j, hj', by rw [hq1, val_int_exact (hj'.trans (by norm_num))]⟩, t6⟩
      · exact ih r2 (fun c hc => hm c (List.mem_cons_of_mem _ hc)) r hmem

/-- The processing of the sources from the stored catalogue and table. -/
theorem sources_again {x : Ext Dbl} {cfg cfg' : Config Dbl} (hproc : cfg.processingJobs = ["Recurrence"]) (hproc' : cfg'.processingJobs = ["Recurrence"])
    (hsm : cfg'.sourceModelFile = cfg.sourceModelFile) (hrec : cfg'.recurrence = cfg.recurrence) {rc : RecurrenceConfig Dbl} (hrc : cfg.recurrence = some rc) (halg : rc.algorithm ≠ "Weichert") {p p' : Prep Dbl}
    (key : ∀ P : Row Dbl → Bool, (bMaxlikeTime (yearMag (p'.events.filter P)) p'.table rc.magnitudeWindow rc.referenceMagnitude).map (fun r => (r.b, r.sigb)) =
      (bMaxlikeTime (yearMag (p.events.filter P)) p.table rc.magnitudeWindow rc.referenceMagnitude).map fun r => (r.b, r.sigb))
    {n m n' : ℕ} {ss ts : List (AreaSource Dbl)} (h : SourcesRun x cfg p n ss m ts) :
    (ss ≠ [] → p'.events ≠ []) ∧ ∃ ts', SourcesRun x cfg' p' n' ss n' ts' ∧ List.Forall₂ OtherA ts ts' := by
  induction h with
  | nil => exact ⟨by simp, [], .nil _, .nil⟩
  | cons n s m t ss n1 ts rows he hs _ ih =>
    obtain ⟨-, ts', ht, hf⟩ := ih
    rw [hproc] at hs
    generalize hnames : ["Recurrence"] = names at hs
    cases hs with
    | nil => cases hnames
    | maximum => exact absurd (List.cons.inj hnames).1 (by decide)
    | recurrence names _ _ _ _ c g h1 h2 h3 =>
      cases hnames
      cases h3
      rw [hrc] at h1
      cases h1
      have g2 : bMaxlikeTime (years rows) p.table rc.magnitudeWindow rc.referenceMagnitude = .ok g := by
        unfold recurrenceAnalysis at h2
        rw [if_neg halg] at h2
        obtain ⟨r, hr, h2⟩ := Nrml.bind_ok h2
        cases h2
        exact hr
      -- the filter of the source
      obtain ⟨P, hP, hP'⟩ : ∃ P : Row Dbl → Bool, rows = p.events.filter P ∧
          (p'.events.filter P ≠ [] → HasEvents x cfg' s p'.events (p'.events.filter P)) := by
        by_cases hc : Configured cfg.sourceModelFile
        · obtain ⟨a1, a2, a3, -⟩ := he.1 hc
          exact ⟨_, a3, fun hne => ⟨fun _ => ⟨a1, a2, rfl, fun _ => hne⟩, fun hn => absurd (by rw [hsm]; exact hc) hn⟩⟩
        · refine ⟨fun _ => true, by rw [he.2 hc]; simp, fun _ => ⟨fun hn => absurd (by rw [← hsm]; exact hn) hc, fun _ => by simp⟩⟩
      have k := key P
      rw [show yearMag (p.events.filter P) = years rows by rw [hP]; rfl, g2] at k
      cases hb : bMaxlikeTime (yearMag (p'.events.filter P)) p'.table rc.magnitudeWindow rc.referenceMagnitude with
      | error e => rw [hb] at k; cases k
      | ok g' =>
        rw [hb] at k
        have hgb : g'.b = g.b := (Prod.mk.inj (Except.ok.inj k)).1
        have hne : p'.events.filter P ≠ [] := by
          intro h0
          rw [h0] at hb
          exact mle_no_events _ _ _ _ hb
        refine ⟨fun _ h0 => hne (by rw [h0]; rfl), withTgr s { s.rate.tgr with aValue := g'.a, bValue := g'.b, minMagnitude := rc.referenceMagnitude } :: ts',
          .cons n' s n' _ ss n' ts' _ (hP' hne) ?_ ht, .cons ⟨g'.a, ?_⟩ hf⟩
        · rw [hproc']
          refine .recurrence _ _ _ _ _ rc g' (by rw [hrec, hrc]) ?_ (.nil _ _)
          unfold recurrenceAnalysis
          rw [if_neg halg]
          have hb' : bMaxlikeTime (years (p'.events.filter P)) p'.table rc.magnitudeWindow rc.referenceMagnitude = .ok g' := hb
          simp only [hb', bind, Except.bind]
          rfl
        · rw [hgb]
          rfl

omit [Libm] in
theorem sources_table {F : Type} [PyMath F] {x : Ext F} {cfg : Config F} (hproc : cfg.processingJobs = ["Recurrence"]) {rc : RecurrenceConfig F} (hrc : cfg.recurrence = some rc)
    (halg : rc.algorithm ≠ "Weichert") {p : Prep F} {n m : ℕ} {ss ts : List (AreaSource F)} (h : SourcesRun x cfg p n ss m ts) (hne : ss ≠ []) : p.table ≠ [] := by
  cases h with
  | nil => exact absurd rfl hne
  | cons n s m t ss n1 ts rows he hs _ =>
    rw [hproc] at hs
    generalize hnames : ["Recurrence"] = names at hs
    cases hs with
    | nil => cases hnames
    | maximum => exact absurd (List.cons.inj hnames).1 (by decide)
    | recurrence names _ _ _ _ c g h1 h2 h3 =>
      rw [hrc] at h1
      cases h1
      unfold recurrenceAnalysis at h2
      rw [if_neg halg] at h2
      obtain ⟨r, hr, -⟩ := Nrml.bind_ok h2
      intro h0
      rw [h0] at hr
      exact mle_no_table _ _ _ _ hr

/-- **C203.** A run in double precision that removes dependent events with one of the two methods (or not), determines the completeness table with Stepp's test with the increment lock, stores
the catalogue and the table and estimates the recurrence with the maximum likelihood method, and a second run that starts from the two stored files and only estimates the recurrence: if the first one
ends without exception so does the second, and it writes the same sources with exactly the same b-values.  Only the a-values may differ. -/
theorem C203_run (x : Ext Dbl) (hx : Sorts x) {y : ℤ} (hy : y ≤ 10 ^ 6) (henv : x.env = dblEnv y) (hshow : x.show_ = dblShow) (hfmt : x.fmt5 = fmtDbl) (hnums : x.nums = dblNums)
    (cfg : Config Dbl) (fs : Text → Option Content) (pos pos' : ℕ) {p q : Text} (hp : cfg.pprocessingResultFile = some p) (hp0 : p ≠ [])
    (hq : cfg.completenessTableFile = some q) (hq0 : q ≠ []) (hpq : p ≠ q) (hrp : cfg.resultFile ≠ p) (hrq : cfg.resultFile ≠ q)
    (hm : ∀ m, cfg.sourceModelFile = some m → m ≠ p ∧ m ≠ q ∧ m ≠ cfg.resultFile)
    (hpre : cfg.preprocessingJobs = ["Stepp"] ∨ cfg.preprocessingJobs = ["GardnerKnopoff", "Stepp"] ∨ cfg.preprocessingJobs = ["Afteran", "Stepp"])
    (hproc : cfg.processingJobs = ["Recurrence"]) (happ : cfg.applyProcessing = true)
    {sc : SteppConfig Dbl} (hsc : cfg.stepp = some sc) (hlock : sc.incrementLock = true) {d : ℤ} (d0 : 1 ≤ d) (d1 : d ≤ 100) (hd : sc.magnitudeWindows = Dbl.of (d / 10)) {dt : ℕ} (t0 : 0 < dt)
    (t1 : dt ≤ 10 ^ 6) (ht : sc.timeWindow = (dt : Dbl))
    {rc : RecurrenceConfig Dbl} (hrc : cfg.recurrence = some rc) (halg : rc.algorithm ≠ "Weichert") {dmag : ℚ} (q0 : 1 / 1000 ≤ dmag) (q1 : dmag ≤ 10) (hdm : rc.magnitudeWindow = Dbl.of dmag)
    {file : Text} (hfile : fs cfg.eqCatalogFile = some (.text file)) {data : List (List Text)} (hdata : DataRows file data) (hmag : ∀ cells ∈ data, ShortMagnitude cells)
    (hord : ∀ es, readCatalogFile x.env x.ord file = .ok es → ∀ e ∈ es, ∀ f, Csv.Spec.Ordinary (e f)) {w1 : World Dbl} (h : main x cfg fs pos = some ⟨none, w1⟩) :
    ∃ w2 finals finals' doc doc', main x { cfg with eqCatalogFile := p, preprocessingJobs := [] } w1.fs pos' = some ⟨none, w2⟩ ∧
      w1.fs cfg.resultFile = some (.xml doc) ∧ serialize x.nums finals = .ok doc ∧ w2.fs cfg.resultFile = some (.xml doc') ∧ serialize x.nums finals' = .ok doc' ∧
      List.Forall₂ OtherA finals finals' := by
  have hfl : x.nums.float = floatDbl := by rw [hnums]; rfl
  have hstr : ∀ v, xmlOk (x.nums.str v) = true := fun v => by rw [hnums]; exact str_xmlOk dblNums_lawful v
  have hpren : ∀ n ∈ cfg.preprocessingJobs, n = "GardnerKnopoff" ∨ n = "Afteran" ∨ n = "Stepp" := by
    intro n hn
    rcases hpre with e | e | e <;> rw [e] at hn <;> simp only [List.mem_cons, List.not_mem_nil, or_false] at hn <;> tauto
  have hprocn : ∀ n ∈ cfg.processingJobs, n = "Recurrence" ∨ n = "MaximumMagnitude" := by
    intro n hn
    rw [hproc] at hn
    exact .inl (List.mem_singleton.1 hn)
  have hne : cfg.preprocessingJobs ≠ [] := by rcases hpre with e | e | e <;> rw [e] <;> simp
  obtain ⟨es, inputs, all, prep, fs1, n, finals, doc, ⟨file', ym, mm, pr, a1, a2, a3, a4, a5, a6, a7, a8, a9, a10, -, a12, a13, -⟩, b1, -, b3, b4, b5⟩ :=
    (C145_run x cfg fs w1.fs pos hpren hprocn).1 ⟨w1, h, rfl⟩
  rw [hfile] at a1
  cases a1
  have hrd := a2
  rw [henv] at hrd
  have hall := file_rows hy hrd hdata hmag a5
  obtain ⟨⟨f1, f2⟩, hst⟩ := chain_stepp hx hsc hpre a8
  rw [← a9] at f2 hst
  rw [← a10] at f1 f2
  rw [← a12 (fun hh => hne hh.1)] at hst
  obtain ⟨path, tpath, sel, g1, g2, g3, g4, g5, g6⟩ := a13 ⟨hne, p, hp, hp0⟩
  rw [hp] at g1
  cases g1
  rw [hq] at g2
  cases g2
  have hst' : stepp (yearMag (kept all prep.flags)) (Dbl.of (d / 10)) (dt : Dbl) sc.sensitivity true = .ok prep.table := by
    rw [hd, ht, hlock, f2] at hst
    exact hst
  have htne : prep.table ≠ [] := sources_table hproc hrc halg (b1 happ) a4
  -- the stored table
  obtain ⟨ev0, e1, e2, e3⟩ := short_rows (rows := kept all prep.flags) fun r hr => hall r (kept_mem hr)
  have hc : Dbl.of ((d : ℚ) / 10) = Dbl.of (((10 * d : ℤ) : ℚ) / 100) := congrArg Dbl.of (by push_cast; ring)
  have hst2 := hst'
  rw [e3, hc] at hst2
  obtain ⟨lo, stored, -, hs, -⟩ := C179_stored (fun e he => (e1 e he).trans (by norm_num)) (c := 10 * d) (by clear * - d0; omega) (by clear * - d1; omega) hst2 htne x.nan
  -- the stored catalogue
  have hrows : es.mapM matrixRow = .ok all := mapM_of_forall₂ _ _ _ (a5.imp fun e r h => (matrixRow_ok e r).2 h)
  obtain ⟨es2, hes2, hagree⟩ := written_accepted (dblEnv y) (dblEnv y) dblShow (kept es sel) ((dblRoundTrip y).mono fun v ⟨e, hm, f, hf⟩ => hf ▸ hord es a2 e (kept_mem hm) f) le_rfl x.ord x.ord
    (fun e he => delivered_clean (dblEnv y) x.ord file es hrd e (kept_mem he))
  have hrow2 : List.Forall₂ RowOf es2 (kept all sel) := by
    have h1 := mapM_forall₂ _ _ _ (kept_rows hrows sel)
    clear * - h1 hagree
    generalize kept es sel = l, kept all sel = r at h1 hagree
    induction hagree generalizing r with
    | nil => cases h1; exact .nil
    | cons h _ ih =>
      rcases h1 with _ | ⟨h1, h1'⟩
      exact .cons ((matrixRow_ok _ _).1 ((matrixRow_congr h.1).trans h1)) (ih _ h1')
  -- the sources
  let prep2 : Prep Dbl := ⟨kept all sel, List.replicate (kept all sel).length 0, stored⟩
  have key : ∀ P : Row Dbl → Bool, (bMaxlikeTime (yearMag (prep2.events.filter P)) prep2.table rc.magnitudeWindow rc.referenceMagnitude).map (fun r => (r.b, r.sigb)) =
      (bMaxlikeTime (yearMag (prep.events.filter P)) prep.table rc.magnitudeWindow rc.referenceMagnitude).map fun r => (r.b, r.sigb) := by
    intro P
    rw [hdm, f2]
    exact b_again hall f1 d0 d1 t0 t1 hst' g3 hs q0 q1 _ P
  obtain ⟨hev, finals', hrun, hother⟩ := sources_again (cfg' := { cfg with eqCatalogFile := p, preprocessingJobs := [] }) (n' := pos') hproc hproc rfl rfl hrc halg key (b1 happ)
  have hev : kept all sel ≠ [] := hev a4
  obtain ⟨doc', hdoc'⟩ := serialize_other hstr hother b3
  obtain ⟨my, hmy⟩ := Np.npMin_exists (l := (kept all sel).map fun r => r 0) (by simpa using hev)
  obtain ⟨mm2, hmm⟩ := Np.npMin_exists (l := (kept all sel).map fun r => r 5) (by simpa using hev)
  -- the files
  have hfp : w1.fs p = some (.text (writeCatalog dblShow (kept es sel))) := by
    rw [b5, g6, hshow]
    simp [put, hrp.symm, hpq]
  have hfq : w1.fs q = some (.text (saveTable fmtDbl prep.table)) := by
    rw [b5, g6, hfmt]
    simp [put, hrq.symm]
  have hfm : ∀ m, cfg.sourceModelFile = some m → w1.fs m = fs m := by
    intro m hsm
    obtain ⟨m1, m2, m3⟩ := hm m hsm
    rw [b5, g6]
    simp [put, m1, m2, m3]
  have hprep2 : Prepared x { cfg with eqCatalogFile := p, preprocessingJobs := [] } w1.fs es2 inputs (kept all sel) prep2 w1.fs := by
    refine ⟨_, my, mm2, ⟨kept all sel, List.replicate (kept all sel).length 0, [(my, mm2)]⟩, hfp, by rw [henv]; exact hes2, InputSources.congr rfl hfm a3, a4, hrow2, hmy, hmm, .nil _, rfl, rfl,
      fun _ => ⟨q, _, hq, hfq, by rw [hfl]; exact hs⟩, fun hn => absurd ⟨rfl, q, hq, hq0⟩ hn, fun hn => absurd rfl hn.1, fun _ => rfl⟩
  obtain ⟨w2, hw2, hw2fs⟩ := (C145_run x { cfg with eqCatalogFile := p, preprocessingJobs := [] } w1.fs _ pos' (by simp) hprocn).2
    ⟨es2, inputs, kept all sel, prep2, w1.fs, pos', finals', doc', hprep2, fun _ => hrun, fun hn => absurd (happ.symm.trans hn) (by decide), hdoc', b4, rfl⟩
  exact ⟨w2, finals, finals', doc, doc', hw2, by rw [b5]; simp [put], b3, by rw [hw2fs]; simp [put], hdoc', hother⟩

end

/-! ### A run that meets the hypotheses -/

/-- Files and libraries for the example. -/
def x203 : Ext Dbl where
  env := dblEnv 2012
  ord := columnOrder
  show_ := dblShow
  nums := dblNums
  fmt5 := fmtDbl
  nan := Dbl.of 0
  parseXml := fun _ => none
  schema := fun _ => true
  exists_ := fun _ => true
  openable := fun _ => true
  argsort := fun key => Tuple.sort fun i => (key i).val
  argsortInt := fun key => Tuple.sort key
  polygonBuilt := fun _ => true
  polygonValid := fun _ => true
  contains := fun _ _ _ => true
  normal := fun _ => Dbl.of 0
  fuel := 100

/-- Stepp's test with steps of 0.1 and five years, and the maximum likelihood method. -/
def cfg203 : Config Dbl where
  eqCatalogFile := ['c']
  pprocessingResultFile := some ['p']
  completenessTableFile := some ['q']
  sourceModelFile := none
  resultFile := ['r']
  applyProcessing := true
  preprocessingJobs := ["Stepp"]
  processingJobs := ["Recurrence"]
  gardnerKnopoff := none
  afteran := none
  stepp := some ⟨Dbl.of (((1 : ℤ) : ℚ) / 10), @Nat.cast Dbl (@instPyMathDbl plainLibm).toPyNum.toNatCast 5, Dbl.of (2 / 10), true⟩
  recurrence := some ⟨Dbl.of (1 / 10), "MLE", Dbl.of 4, Dbl.of 1⟩
  maximumMagnitude := none

/-- The catalogue of C195. -/
def fs203 : Text → Option Content := fun n => if n = ['c'] then some (.text file195) else none

/-- The run of the example ends without exception. -/
theorem run203 : ∃ w, @main Dbl (@instPyMathDbl plainLibm) x203 cfg203 fs203 0 = some ⟨none, w⟩ := by
  have h : (@main Dbl (@instPyMathDbl plainLibm) x203 cfg203 fs203 0).map (fun r => r.raised.isNone) = some true := by decide +kernel
  rcases hr : @main Dbl (@instPyMathDbl plainLibm) x203 cfg203 fs203 0 with _ | ⟨_ | e, w⟩ <;> rw [hr] at h
  · cases h
  · exact ⟨w, rfl⟩
  · cases h

/-- Non-vacuity: all hypotheses of C203 are met by the run of the example, so that the second run ends without exception too. -/
example : ∃ w1 w2, @main Dbl (@instPyMathDbl plainLibm) x203 cfg203 fs203 0 = some ⟨none, w1⟩ ∧
    @main Dbl (@instPyMathDbl plainLibm) x203 { cfg203 with eqCatalogFile := ['p'], preprocessingJobs := [] } w1.fs 0 = some ⟨none, w2⟩ := by
  let _ := plainLibm
  obtain ⟨w1, h1⟩ := run203
  have hdata : DataRows file195 [row193 "1980" "4.5", row193 "1985" "3.3", row193 "1990" "4.1"] := by
    have h1 : (validateCsvCatalog file195).map (fun rest => (csvRows rest).1.filter fun r => r ≠ []) = .ok [row193 "1980" "4.5", row193 "1985" "3.3", row193 "1990" "4.1"] := by decide +kernel
    cases hv : validateCsvCatalog file195 with
    | error e => rw [hv] at h1; cases h1
    | ok rest =>
      rw [hv] at h1
      exact ⟨rest, hv, (Except.ok.inj h1).symm⟩
  have hmag : ∀ cells ∈ [row193 "1980" "4.5", row193 "1985" "3.3", row193 "1990" "4.1"], ShortMagnitude cells := by
    intro cells hc
    simp only [List.mem_cons, List.not_mem_nil, or_false] at hc
    rcases hc with rfl | rfl | rfl
    · exact ⟨"4.5".toList, 450, by decide, by decide +kernel, by decide⟩
    · exact ⟨"3.3".toList, 330, by decide, by decide +kernel, by decide⟩
    · exact ⟨"4.1".toList, 410, by decide, by decide +kernel, by decide⟩
  have hord : ∀ es, readCatalogFile (dblEnv 2012) columnOrder file195 = .ok es → ∀ e ∈ es, ∀ f, Csv.Spec.Ordinary (e f) := by
    intro es hr e he f
    have h0 : (readCatalogFile (dblEnv 2012) columnOrder file195).map (fun es => decide (∀ e ∈ es, ∀ f ∈ fieldNames, Csv.Spec.Ordinary (e f))) = .ok true := by decide +kernel
    rw [hr] at h0
    simp only [Except.map, Except.ok.injEq, decide_eq_true_eq] at h0
    exact h0 e he f (by cases f <;> decide)
  have hsort : Sorts x203 := by
    refine ⟨fun key a b hab => ?_, fun key a b hab => Tuple.monotone_sort key hab⟩
    rw [Dbl.le_def]
    exact Tuple.monotone_sort (fun i => (key i).val) hab
  obtain ⟨w2, -, -, -, -, h2, -⟩ := C203_run x203 hsort (y := 2012) (by norm_num) rfl rfl rfl rfl cfg203 fs203 0 0 rfl (by decide) rfl (by decide) (by decide) (by decide) (by decide)
    (fun m hm => by cases hm) (.inl rfl) rfl rfl rfl rfl (d := 1) (by norm_num) (by norm_num) rfl (dt := 5) (by norm_num) (by norm_num) rfl rfl (by decide) (dmag := 1 / 10) (by norm_num) (by norm_num) rfl
    (file := file195) rfl hdata hmag hord h1
  exact ⟨w1, w2, h1, h2⟩

end Verif.Workflow
