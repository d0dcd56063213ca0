import Verif.Props.DoubleMleTable
import Verif.Props.DoubleFileRun
import Verif.Props.Equivalence

/-!
# C197: storing the catalogue and the completeness table, and processing them later, in double precision
-/

namespace Verif.Recurrence

open Verif Verif.Np Verif.Dbl Verif.Completeness
open Verif.Table (saveTable loadTable)
open Verif.Format (floatDbl fmtDbl)
open Spec (completeCents LowestTenth)

namespace Spec

/-- Below the magnitude and before the year of a row of the table. -/
def Removed (table : List (Dbl × Dbl)) (e : Dbl × ℤ) : Prop := ∃ c ∈ table, e.1 < c.1 ∧ Dbl.of ((e.2 : ℚ) / 100) < c.2

end Spec

open Spec (Removed)
open Verif.Workflow.Spec (kept)

variable [Libm]

omit [Libm] in
theorem whole_eq {x y : Dbl} (hx : ∃ z : ℤ, x.val = z) (hy : ∃ z : ℤ, y.val = z) (h : npAbs (x - y) < 1e-5) : x = y := by
  obtain ⟨a, ha⟩ := hx
  obtain ⟨b, hb⟩ := hy
  have tiny : ((1e-5 : Dbl)).val < 1 := by decide +kernel
  have one : rnd53 1 = 1 := by decide +kernel
  have mone : rnd53 (-1) = -1 := by decide +kernel
  have habs : ∀ d : Dbl, 1 ≤ |d.val| → ¬ npAbs d < 1e-5 := by
    intro d hd hlt
    have h0 : (((0 : ℕ) : Dbl)).val = 0 := rnd53_zero
    have h1 := lt_def.1 hlt
    unfold npAbs at h1
    split_ifs at h1 with hneg
    · have hn := lt_def.1 hneg
      rw [h0] at hn
      rw [abs_of_neg hn] at hd
      have h2 := rnd53_mono hd
      rw [one] at h2
      have h3 : (-d).val = rnd53 (-d.val) := rfl
      linarith
    · have hn : ¬ d.val < 0 := fun hc => hneg (lt_def.2 (by rw [h0]; exact hc))
      rw [abs_of_nonneg (not_lt.1 hn)] at hd
      linarith
  apply Dbl.ext
  rw [ha, hb]
  rcases lt_trichotomy a b with hab | hab | hab
  · refine absurd h (habs _ ?_)
    rw [val_sub, ha, hb]
    have : ((a : ℚ) - b) ≤ -1 := by
      have : ((a + 1 : ℤ) : ℚ) ≤ b := by exact_mod_cast hab
      push_cast at this; linarith
    have := rnd53_mono this
    rw [mone] at this
    rw [abs_of_neg (by linarith)]; linarith
  · rw [hab]
  · refine absurd h (habs _ ?_)
    rw [val_sub, ha, hb]
    have : (1 : ℚ) ≤ (a : ℚ) - b := by
      have : ((b + 1 : ℤ) : ℚ) ≤ a := by exact_mod_cast hab
      push_cast at this; linarith
    have := rnd53_mono this
    rw [one] at this
    rw [abs_of_pos (by linarith)]; linarith

omit [Libm] in
theorem steppBins_time {F : Type} [PyMath F] {ev : List (F × F)} {dm dt : F} {b : SteppBins F} (hb : steppBins ev dm dt = .ok b) : b.timeRange = arangeAt dt dt := by
  unfold steppBins at hb
  simp only [bind, Except.bind, pure, Except.pure, throw, throwThe, MonadExceptOf.throw] at hb
  repeat' split at hb
  all_goals first | (cases hb; done) | (cases hb; rfl)

omit [Libm] in
theorem lock_times {F : Type} [PyMath F] {ev : List (F × F)} {dm dt ttol : F} {table : List (F × F)} (h : stepp ev dm dt ttol true = .ok table) :
    ∃ (last : F) (t : ℕ → ℕ), (∀ i j, i < j → j < table.length → t i ≤ t j) ∧ ∀ i (hi : i < table.length), table[i].1 = last - arangeAt dt dt (t i) := by
  obtain ⟨b, hb, -, -⟩ := stepp_length h
  rw [stepp_eq hb] at h
  simp only at h
  have hp := (steppTlocs_lock (nt := b.nt) (prev := none)
    (locs := (List.range b.nb).map (fun jj => steppLoc (exceeding (fun ii => b.obs ii jj) b.timeRange b.nt ttol)))).2
  generalize steppTlocs true b.nt none ((List.range b.nb).map (fun jj => steppLoc (exceeding (fun ii => b.obs ii jj) b.timeRange b.nt ttol))) = ts at h hp
  split_ifs at h with hlt
  rw [Except.ok.injEq] at h
  subst h
  refine ⟨b.endTime, fun i => ts[i]?.getD 0, fun i j hij hj => ?_, fun i hi => ?_⟩
  · simp only [List.length_zipWith] at hj
    have h1 := List.pairwise_iff_getElem.mp hp i j (by omega) (by omega) hij
    simp only [List.getElem?_eq_getElem (show i < ts.length by omega), List.getElem?_eq_getElem (show j < ts.length by omega)]
    exact h1
  · simp only [List.length_zipWith] at hi
    simp only [List.getElem_zipWith, steppBins_time hb]
    rw [List.getElem?_eq_getElem (by omega)]
    rfl

/-- With the increment lock the years do not increase along the table, in double precision. -/
theorem lock_years {ev : List (Dbl × Dbl)} {dm dt ttol : Dbl} (hdt : 0 ≤ dt.val) {table : List (Dbl × Dbl)} (h : stepp ev dm dt ttol true = .ok table) :
    ∀ i j (hi : i < table.length) (hj : j < table.length), i ≤ j → table[j].1 ≤ table[i].1 := by
  obtain ⟨last, t, ht, hrow⟩ := lock_times h
  intro i j hi hj hij
  rcases Nat.eq_or_lt_of_le hij with rfl | hij
  · exact le_def.2 le_rfl
  rw [hrow i hi, hrow j hj, le_def, val_sub, val_sub]
  exact rnd53_mono (sub_le_sub_left (arange_mono hdt (ht i j hij hj)) _)

omit [Libm] in
theorem kept_removed {ev : List (Dbl × ℤ)} {table : List (Dbl × Dbl)} {flag out : List Int} (hf : flag.length = ev.length)
    (ho : selectedEqFlagVector (ev.map Completeness.Spec.quake) table flag = .ok out) [DecidablePred (Removed table)] :
    kept ev out = (kept ev flag).filter fun e => decide (¬ Removed table e) := by
  obtain ⟨out', ho', hl, hg⟩ := selected_get (ev.map Completeness.Spec.quake) table flag (by simpa using hf)
  obtain rfl : out = out' := by rw [ho] at ho'; exact Except.ok.inj ho'
  rw [List.length_map] at hl
  have hg' : ∀ i (hi : i < ev.length) (h1 : i < flag.length) (h2 : i < out.length), out[i] = 0 ↔ flag[i] = 0 ∧ ¬ Removed table ev[i] := by
    intro i hi h1 h2
    obtain ⟨g1, g2⟩ := hg i (by simpa using hi) h2
    have : out[i] = 0 ↔ ¬ out[i] = 1 := by rcases g1 with g | g <;> rw [g] <;> decide
    rw [this, g2, not_or, not_not]
    simp only [List.getElem_map, Spec.RowExcludes, Completeness.Spec.quake]
    rfl
  clear hg ho ho'
  induction ev generalizing flag out with
  | nil => simp [kept]
  | cons e ev ih =>
    obtain _ | ⟨f, flag⟩ := flag
    · simp at hf
    obtain _ | ⟨o, out⟩ := out
    · simp at hl
    have ih := ih (flag := flag) (out := out) (by simpa using hf) (by simpa using hl) fun i hi h1 h2 => by
      have := hg' (i + 1) (by simpa using hi) (by simpa using h1) (by simpa using h2)
      simpa using this
    have h0 := hg' 0 (by simp) (by simp) (by simp)
    simp only [List.getElem_cons_zero] at h0
    unfold kept at ih ⊢
    by_cases hf0 : f = 0
    · by_cases hr : Removed table e
      · have : ¬ o = 0 := by rw [h0]; tauto
        simp [hf0, hr, this, ih]
      · have : o = 0 := by rw [h0]; tauto
        simp [hf0, hr, this, ih]
    · have : ¬ o = 0 := by rw [h0]; tauto
      simp [hf0, this, ih]

omit [Libm] in
/-- The method uses of the catalogue only the earthquakes of the periods. -/
theorem bMaxlikeTime_used {F : Type} [PyMath F] {ev ev' table : List (F × F)} (hp : ∀ i (hi : i < table.length) mc, npMin (groupOf table table[i].1) = .ok mc →
      periodEvents ev' table[i].1 mc = periodEvents ev table[i].1 mc) (dmag ref : F) : bMaxlikeTime ev' table dmag ref = bMaxlikeTime ev table dmag ref := by
  have key : ∀ i, periods ev' table dmag ref i = periods ev table dmag ref i := by
    intro i
    induction hn : table.length - i using Nat.strong_induction_on generalizing i with
    | _ n ih =>
      rw [periods, periods]
      by_cases hi : i < table.length
      · simp only [hi, dif_pos]
        by_cases hg : (groupOf table table[i].1).length = 0
        · rw [dif_pos hg, dif_pos hg]
        · rw [dif_neg hg, dif_neg hg]
          have hp' : period ev' dmag ref table[i].1 (groupOf table table[i].1) = period ev dmag ref table[i].1 (groupOf table table[i].1) := by
            unfold period
            cases hm : npMin (groupOf table table[i].1) with
            | error e => rfl
            | ok mc =>
              simp only [bind, Except.bind]
              rw [hp i hi mc hm]
          rw [hp', ih (table.length - (i + (groupOf table table[i].1).length)) (by omega) _ rfl]
      · rw [dif_neg hi, dif_neg hi]
  unfold bMaxlikeTime
  rw [key]

/-- **C197** (the selection). With a completeness table of Stepp's test with the increment lock, the maximum likelihood method in double precision does not see the earthquakes that the
completeness check removes: all its results are the same. -/
theorem C197_selected {ev0 : List (Dbl × ℤ)} (hk0 : ∀ e ∈ ev0, |e.2| ≤ 1000) {d : ℤ} (d0 : 1 ≤ d) (d1 : d ≤ 100) {dt ttol : Dbl} (hdt : 0 < dt) {table : List (Dbl × Dbl)}
    (h : stepp (ev0.map Completeness.Spec.quake) (Dbl.of (d / 10)) dt ttol true = .ok table) (hrow : ∀ r ∈ table, ∃ z : ℤ, r.1.val = z)
    {ev : List (Dbl × ℤ)} (hk : ∀ e ∈ ev, |e.2| ≤ 1000) {flag out : List Int} (hf : flag.length = ev.length)
    (ho : selectedEqFlagVector (ev.map Completeness.Spec.quake) table flag = .ok out) (dmag ref : Dbl) :
    bMaxlikeTime ((kept ev out).map Spec.quake) table dmag ref = bMaxlikeTime ((kept ev flag).map Spec.quake) table dmag ref := by
  classical
  have hsub : ∀ e ∈ kept ev flag, e ∈ ev := by
    intro e he
    simp only [kept, List.mem_map, List.mem_filter] at he
    obtain ⟨p, ⟨hp, -⟩, rfl⟩ := he
    exact (List.of_mem_zip hp).1
  rw [kept_removed hf ho]
  have hk1 : ∀ e ∈ kept ev flag, |e.2| ≤ 1000 := fun e he => hk e (hsub e he)
  generalize kept ev flag = ev1 at hk1 ⊢
  have hc : Dbl.of ((d : ℚ) / 10) = Dbl.of (((10 * d : ℤ) : ℚ) / 100) := by congr 1; push_cast; ring
  have hlock := lock_years (le_of_lt (by have := lt_def.1 hdt; rwa [val_zero] at this)) h
  rw [hc] at h
  obtain ⟨lo, hlow, hsel⟩ := C176_selected hk0 (c := 10 * d) (by omega) (by omega) h
  obtain ⟨lo', hlow', hb⟩ := grid_bounds hk0 (c := 10 * d) (by omega) (by omega) h
  obtain rfl : lo = lo' := hlow.unique hlow'
  refine bMaxlikeTime_used (fun i hi mc hmc => ?_) dmag ref
  obtain ⟨j, hj, hmj, hy, -, s1⟩ := hsel ev1 hk1 i hi mc hmc
  obtain ⟨j', hj', hmj', hy', -, s2⟩ := hsel (ev1.filter fun e => decide (¬ Removed table e)) (fun e he => hk1 e (List.mem_of_mem_filter he)) i hi mc hmc
  have hyear := whole_eq (hrow _ (List.getElem_mem hj)) (hrow _ (List.getElem_mem hi)) hy
  have hjj : lo + j * d = lo + j' * d := by
    have near := fun l (hl : l < table.length) => (hb l hl).1
    have cast : ∀ l : ℕ, (((10 * lo + l * (10 * d) : ℤ)) : ℚ) / 100 = ((lo + l * d : ℤ) : ℚ) / 10 := by intro l; push_cast; ring
    have n1 := near j hj
    have n2 := near j' hj'
    rw [cast] at n1 n2
    rw [← hmj] at n1
    rw [← hmj'] at n2
    exact le_antisymm (tenth_le n1 n2 (le_def.2 le_rfl)) (tenth_le n2 n1 (le_def.2 le_rfl))
  have hjj' : 10 * lo + (j' : ℤ) * (10 * d) = 10 * lo + j * (10 * d) := by linarith
  rw [s1, s2, hjj']
  congr 1
  unfold completeCents
  rw [List.filter_filter]
  apply List.filter_congr
  intro e he
  by_cases hp : table[i].1 ≤ e.1 ∧ 10 * lo + (j : ℤ) * (10 * d) ≤ e.2
  · have hne : ¬ Removed table e := by
      rintro ⟨c, hcm, g1, g2⟩
      obtain ⟨l, hl, rfl⟩ := List.getElem_of_mem hcm
      have hlj : l < j := by
        by_contra hn
        have := hlock j l hj hl (not_lt.1 hn)
        rw [hyear] at this
        have a1 := le_def.1 this
        have a2 := le_def.1 hp.1
        have a3 := lt_def.1 g1
        linarith
      have b1 := (abs_le.1 (hb l hl).1).2
      have e1 := (abs_le.1 (of_near (a := (e.2 : ℚ) / 100) (B := 10) (by
        rw [abs_div, abs_of_pos (by norm_num : (0 : ℚ) < 100), div_le_iff₀ (by norm_num), ← Int.cast_abs]
        exact_mod_cast hk1 e he))).1
      have a3 := lt_def.1 g2
      have hz : 10 * lo + (l : ℤ) * (10 * d) + 10 ≤ e.2 := by
        have : ((l : ℤ) + 1) * d ≤ j * d := by
          apply mul_le_mul_of_nonneg_right _ (by omega)
          exact_mod_cast hlj
        linarith [hp.2]
      have hzq : ((10 * lo + (l : ℤ) * (10 * d) : ℤ) : ℚ) + 10 ≤ e.2 := by exact_mod_cast hz
      generalize ((10 * lo + (l : ℤ) * (10 * d) : ℤ) : ℚ) = X at *
      norm_num at b1 e1
      linarith
    simp [hne]
  · rw [decide_eq_false hp, Bool.false_and]

/-- **C197.** Storing and processing later, in double precision: the earthquakes that pass the completeness check, processed with the stored and retrieved completeness table, give exactly the
b-value and exactly the error of it that all earthquakes of the declustered catalogue give with the table in memory, or the same error. -/
theorem C197_stored {ev0 : List (Dbl × ℤ)} (hk0 : ∀ e ∈ ev0, |e.2| ≤ 1000) {d : ℤ} (d0 : 1 ≤ d) (d1 : d ≤ 100) {dt ttol : Dbl} (hdt : 0 < dt) {table stored : List (Dbl × Dbl)}
    (h : stepp (ev0.map Completeness.Spec.quake) (Dbl.of (d / 10)) dt ttol true = .ok table) (hrow : ∀ r ∈ table, (∃ z : ℤ, r.1.val = z) ∧ |r.2.val| ≤ 10) {nan : Dbl}
    (hs : loadTable floatDbl nan (saveTable fmtDbl table) = .ok stored)
    {ev : List (Dbl × ℤ)} (hk : ∀ e ∈ ev, |e.2| ≤ 1000) {flag out : List Int} (hf : flag.length = ev.length)
    (ho : selectedEqFlagVector (ev.map Completeness.Spec.quake) table flag = .ok out) {q : ℚ} (q0 : 1 / 1000 ≤ q) (q1 : q ≤ 10) (ref : Dbl) :
    (bMaxlikeTime ((kept ev out).map Spec.quake) stored (Dbl.of q) ref).map (fun r => (r.b, r.sigb)) =
      (bMaxlikeTime ((kept ev flag).map Spec.quake) table (Dbl.of q) ref).map fun r => (r.b, r.sigb) := by
  rw [← C197_selected hk0 d0 d1 hdt h (fun r hr => (hrow r hr).1) hk hf ho]
  refine C194_stored hk0 d0 d1 h hrow hs ?_ q0 q1 ref
  intro e he
  simp only [kept, List.mem_map, List.mem_filter] at he
  obtain ⟨p, ⟨hp, -⟩, rfl⟩ := he
  exact hk _ (List.of_mem_zip hp).1

omit [Libm] in
theorem flags_example (L : Libm) : selectedEqFlagVector ([((1985.0 : Dbl), (330 : ℤ)), (1985.0, 334), (2000.0, 340)].map Completeness.Spec.quake)
    ((List.range 4).map fun i => (Dbl.of 1990, @arangeAt Dbl (@instPyMathDbl L).toPyNum (Dbl.of 3) (Dbl.of (1 / 10)) i)) [0, 0, 0] = .ok [1, 0, 0] := by
  have h : selectedEqFlagVector ([((1985.0 : Dbl), (330 : ℤ)), (1985.0, 334), (2000.0, 340)].map Completeness.Spec.quake)
    ((List.range 4).map fun i => (Dbl.of 1990, @arangeAt Dbl (@instPyMathDbl noLibm).toPyNum (Dbl.of 3) (Dbl.of (1 / 10)) i)) [0, 0, 0] = .ok [1, 0, 0] := by decide +kernel
  exact h

/-- Non-vacuity: with the table of a small catalogue, whose row for the magnitude 3.3 is 3.3000000000000003, the completeness check removes an earthquake of magnitude 3.3. -/
example : ∃ (table stored : List (Dbl × Dbl)) (out : List Int), stepp ([((1985.0 : Dbl), (334 : ℤ)), (1985.0, 300), (2000.0, 340)].map Completeness.Spec.quake) (Dbl.of (((1 : ℤ) : ℚ) / 10)) 10.0 0.2 true = .ok table ∧
    (∀ r ∈ table, (∃ z : ℤ, r.1.val = z) ∧ |r.2.val| ≤ 10) ∧ loadTable floatDbl 0 (saveTable fmtDbl table) = .ok stored ∧
    selectedEqFlagVector ([((1985.0 : Dbl), (330 : ℤ)), (1985.0, 334), (2000.0, 340)].map Completeness.Spec.quake) table [0, 0, 0] = .ok out ∧ out = [1, 0, 0] ∧ (0 : Dbl) < 10.0 := by
  refine ⟨_, _, _, ?_, ?_, stored_example, flags_example _, rfl, by decide +kernel⟩
  · rw [show (((1 : ℤ) : ℚ) / 10) = (((10 : ℤ) : ℚ) / 100) by norm_num]
    exact short_table
  · intro r hr
    obtain ⟨i, hi, rfl⟩ := List.mem_map.1 hr
    refine ⟨⟨1990, show (Dbl.of 1990).val = ((1990 : ℤ) : ℚ) by decide +kernel⟩, ?_⟩
    revert i
    decide +kernel

end Verif.Recurrence

namespace Verif.Workflow

open Verif Verif.Np Verif.Dbl Verif.Csv Verif.EqCatalog Verif.Nrml Verif.Recurrence Verif.Completeness Verif.Declustering Spec
open Verif.Table (saveTable loadTable)
open Verif.Format (floatDbl fmtDbl)

theorem yearMag_kept {F : Type} (rows : List (Row F)) (flag : List Int) : yearMag (kept rows flag) = kept (yearMag rows) flag := by
  induction rows generalizing flag with
  | nil => rfl
  | cons r rows ih =>
    obtain _ | ⟨f, flag⟩ := flag
    · simp [kept, yearMag]
    have := ih flag
    unfold kept yearMag at this ⊢
    by_cases hf : f = 0 <;> simp [hf, this]

theorem kept_map {α β : Type} (g : α → β) (l : List α) (flag : List Int) : kept (l.map g) flag = (kept l flag).map g := by
  induction l generalizing flag with
  | nil => rfl
  | cons r rows ih =>
    obtain _ | ⟨f, flag⟩ := flag
    · simp [kept]
    have := ih flag
    unfold kept at this ⊢
    by_cases hf : f = 0 <;> simp [hf, this]

/-- **C197** (the jobs). Let the magnitudes of an accepted file have at most two decimals and let the completeness table be one of Stepp's test with the increment lock.  The jobs that select the complete earthquakes and store them and
the table write two files; a later run reads from them a catalogue and a table with which the maximum likelihood method in double precision gives exactly the b-value, and exactly the error of
it, that the declustered catalogue gives in the first run, or the same error. -/
theorem C197_files [Libm] {y y' : ℤ} (hy : y ≤ y') (ord ord' : DictOrder) {file : Text} {es : List (Entry Dbl)} (h : readCatalogFile (dblEnv y) ord file = .ok es) (hv : ∀ e ∈ es, ∀ f, Csv.Spec.Ordinary (e f))
    {data : List (List Text)} (hd : DataRows file data) (htwo : ∀ cells ∈ data, TwoDecimals cells) {w0 w1 : World Dbl} (hw0 : w0.ctx.eqCatalog = some es) (hjob : createCatalogMatrixJob w0 = .ok w1)
    {ev0 : List (Dbl × ℤ)} (hk0 : ∀ e ∈ ev0, |e.2| ≤ 1000) {d : ℤ} (d0 : 1 ≤ d) (d1 : d ≤ 100) {dt ttol : Dbl} (hdt : 0 < dt) {table : List (Dbl × Dbl)}
    (hstepp : stepp (ev0.map Completeness.Spec.quake) (Dbl.of (d / 10)) dt ttol true = .ok table) (hne : table ≠ []) (hrow : ∀ r ∈ table, (∃ z : ℤ, r.1.val = z) ∧ |r.2.val| ≤ 10)
    {w : World Dbl} (we : w.ctx.eqCatalog = some es) (wm : w.ctx.catalogMatrix = w1.ctx.catalogMatrix) (wt : w.ctx.completenessTable = some table) {flag : List Int} (wf : w.ctx.flagVector = some flag)
    (hf : flag.length = es.length) {x : Ext Dbl} (hshow : x.show_ = dblShow) (hfmt : x.fmt5 = fmtDbl) {cfg : Config Dbl} {p q : Text} (hp : cfg.pprocessingResultFile = some p) (hq : cfg.completenessTableFile = some q) (hpq : p ≠ q)
    {w2 w3 w4 : World Dbl} (j1 : createSelectedEqVectorJob w = .ok w2) (j2 : storePreprocessedCatalogJob x cfg w2 = .ok w3) (j3 : storeCompletenessTableJob x cfg w3 = .ok w4) (nan : Dbl)
    {dmag : ℚ} (q0 : 1 / 1000 ≤ dmag) (q1 : dmag ≤ 10) (ref : Dbl) :
    ∃ ctext ttext es' rows' stored m, w4.fs p = some (.text ctext) ∧ w4.fs q = some (.text ttext) ∧ readCatalogFile (dblEnv y') ord' ctext = .ok es' ∧ es'.mapM matrixRow = .ok rows' ∧
      loadTable floatDbl nan ttext = .ok stored ∧ w1.ctx.catalogMatrix = some m ∧
      (bMaxlikeTime (yearMag rows') stored (Dbl.of dmag) ref).map (fun r => (r.b, r.sigb)) = (bMaxlikeTime (yearMag (kept m.rows flag)) table (Dbl.of dmag) ref).map fun r => (r.b, r.sigb) := by
  obtain ⟨rows, hr, hjob'⟩ := C14_matrix (dblEnv y) ord file es h w0 hw0
  rw [hjob] at hjob'
  have hw1 := Except.ok.inj hjob'
  have hmat : w1.ctx.catalogMatrix = some ⟨rows, es.isEmpty⟩ := by rw [hw1]
  obtain ⟨rest, hv', rfl⟩ := hd
  have hes : readEqCatalog (dblEnv y) ord (csvRows rest).1 = .ok es := by
    unfold readCatalogFile at h
    obtain ⟨rest', hv'', h⟩ := Nrml.bind_ok h
    rw [hv'] at hv''
    cases hv''
    obtain ⟨es', hes, h⟩ := Nrml.bind_ok h
    split at h
    · cases h
    · cases h; exact hes
  obtain ⟨ev, e1, e2, e3⟩ := tells_rows (C10_order_preserving _ _ _ _ hes) hr htwo
  have hrows : es.mapM matrixRow = .ok rows := by
    apply mapM_of_forall₂
    exact hr.imp fun e r h => (matrixRow_ok e r).2 h
  have hlen : es.length = rows.length := hr.length_eq
  have hlev : ev.length = rows.length := by
    have := congrArg List.length e3
    simpa [yearMag] using this.symm
  -- the jobs
  obtain ⟨m, hm, j1⟩ := Nrml.bind_ok j1
  obtain rfl : m = ⟨rows, es.isEmpty⟩ := by
    rw [wm, hmat] at hm
    exact (Except.ok.inj hm).symm
  obtain ⟨rows1, hrows1, j1⟩ := Nrml.bind_ok j1
  obtain rfl : rows = rows1 := by
    unfold Matrix.cols at hrows1
    split at hrows1
    · cases hrows1
    · exact Except.ok.inj hrows1
  obtain ⟨t1, ht1, j1⟩ := Nrml.bind_ok j1
  obtain rfl : table = t1 := by rw [wt] at ht1; exact Except.ok.inj ht1
  obtain ⟨f1, hf1, j1⟩ := Nrml.bind_ok j1
  obtain rfl : flag = f1 := by rw [wf] at hf1; exact Except.ok.inj hf1
  obtain ⟨sel, hsel, j1⟩ := Nrml.bind_ok j1
  rw [e3] at hsel
  have hsl : sel.length = es.length := by
    obtain ⟨out', ho', hl, -⟩ := selected_get (ev.map Recurrence.Spec.quake) table flag (by rw [List.length_map]; omega)
    rw [hsel] at ho'
    rw [Except.ok.inj ho', hl, List.length_map]; omega
  have j1 := Except.ok.inj j1
  unfold storePreprocessedCatalogJob at j2
  rw [hp] at j2
  obtain ⟨p1, hp1, j2⟩ := Nrml.bind_ok j2
  obtain rfl := Except.ok.inj hp1
  obtain ⟨p2, hp2, j2⟩ := Nrml.bind_ok j2
  obtain rfl : p = p2 := by
    unfold Nrml.mkWriter at hp2
    split at hp2
    · exact Except.ok.inj hp2
    · cases hp2
  obtain ⟨s1, hs1, j2⟩ := Nrml.bind_ok j2
  obtain rfl : sel = s1 := by rw [← j1] at hs1; exact Except.ok.inj hs1
  obtain ⟨es1, hes1, j2⟩ := Nrml.bind_ok j2
  obtain rfl : es = es1 := by rw [← j1] at hes1; change notNone w.ctx.eqCatalog = _ at hes1; rw [we] at hes1; exact Except.ok.inj hes1
  obtain ⟨en, hen, j2⟩ := Nrml.bind_ok j2
  rw [zeros_entries es sel hsl] at hen
  obtain rfl := Except.ok.inj hen
  obtain ⟨-, -, j2⟩ := Nrml.bind_ok j2
  have j2 := Except.ok.inj j2
  unfold storeCompletenessTableJob at j3
  rw [hq] at j3
  obtain ⟨p3, hp3, j3⟩ := Nrml.bind_ok j3
  obtain rfl := Except.ok.inj hp3
  obtain ⟨-, -, j3⟩ := Nrml.bind_ok j3
  obtain ⟨t2, ht2, j3⟩ := Nrml.bind_ok j3
  obtain rfl : table = t2 := by
    rw [← j2, ← j1] at ht2
    change notNone w.ctx.completenessTable = _ at ht2
    rw [wt] at ht2
    exact Except.ok.inj ht2
  have j3 := Except.ok.inj j3
  -- the stored catalogue
  have hsub : ∀ e ∈ kept es sel, e ∈ es := fun e he => (C26_kept es sel).1.subset he
  obtain ⟨es2, hes2, hagree⟩ := written_accepted (dblEnv y) (dblEnv y') dblShow (kept es sel) ((dblRoundTrip y').mono fun v ⟨e, hm, f, hf⟩ => hf ▸ hv e (hsub e hm) f) hy ord ord'
    (fun e he => delivered_clean (dblEnv y) ord file es h e (hsub e he))
  have hmat2 : es2.mapM matrixRow = .ok (kept rows sel) := by
    apply mapM_of_forall₂
    have h1 := mapM_forall₂ _ _ _ (kept_rows hrows sel)
    clear * - h1 hagree
    generalize kept es sel = l, kept rows sel = r at h1 hagree
    induction hagree generalizing r with
    | nil => cases h1; exact .nil
    | cons h _ ih =>
      rcases h1 with _ | ⟨h1, h1'⟩
      exact .cons ((matrixRow_congr h.1).trans h1) (ih _ h1')
  have hc : Dbl.of ((d : ℚ) / 10) = Dbl.of (((10 * d : ℤ) : ℚ) / 100) := congrArg Dbl.of (by push_cast; ring)
  have hst := hstepp
  rw [hc] at hst
  obtain ⟨lo, stored, -, hs, -⟩ := C179_stored hk0 (c := 10 * d) (by clear * - d0; omega) (by clear * - d1; omega) hst hne nan
  refine ⟨_, _, es2, kept rows sel, stored, _, ?_, ?_, hes2, hmat2, hs, hmat, ?_⟩
  · rw [← j3, ← j2]
    simp only [World.write, if_neg hpq, if_true, hshow]
  · rw [← j3]
    simp only [World.write, if_true, hfmt]
  · rw [yearMag_kept, yearMag_kept, e3, kept_map, kept_map]
    exact C197_stored hk0 d0 d1 hdt hstepp hrow hs e2 (by omega) hsel q0 q1 ref

/-- Non-vacuity: the file of C195 is loaded, and its values can be written and read. -/
example : ∃ es, readCatalogFile (dblEnv 2012) columnOrder file195 = .ok es ∧ es ≠ [] ∧ ∀ e ∈ es, ∀ f, Csv.Spec.Ordinary (e f) := by
  have h0 : (readCatalogFile (dblEnv 2012) columnOrder file195).map (fun es => (decide (es.length = 3), decide (∀ e ∈ es, ∀ f ∈ fieldNames, Csv.Spec.Ordinary (e f)))) = .ok (true, true) := by decide +kernel
  rcases hr : readCatalogFile (dblEnv 2012) columnOrder file195 with _ | es <;> rw [hr] at h0
  · cases h0
  · simp only [Except.map, Except.ok.injEq, Prod.mk.injEq, decide_eq_true_eq] at h0
    exact ⟨es, rfl, by rintro rfl; simp at h0, fun e he f => h0.2 e he f (by cases f <;> decide)⟩

end Verif.Workflow
