import Verif.Props.DoubleFile
import Verif.Props.DoubleBValue

/-!
# C195: from the file to the b-value, in double precision
-/

namespace Verif.Workflow

open Verif Verif.EqCatalog Verif.Csv Verif.Dbl Verif.Format Verif.Np
open Verif.Declustering (Row)
open Verif.Recurrence (recurrenceAnalysis bMaxlikeTime)
open Verif.Recurrence.Spec (quake)
open Spec

namespace Spec

/-- The magnitude of the row has at most one decimal and lies between -10 and 10. -/
def OneDecimal (cells : List Text) : Prop := ∃ s, ∃ k : ℤ, cells[17]? = some s ∧ pyFloat (K := ℚ) s = some ((k : ℚ) / 10) ∧ |k| ≤ 100

end Spec

theorem two_of_one {cells : List Text} (h : OneDecimal cells) : TwoDecimals cells := by
  obtain ⟨s, k, h1, h2, h3⟩ := h
  refine ⟨s, 10 * k, h1, ?_, ?_⟩
  · rw [h2]; congr 1; push_cast; ring
  · rw [abs_mul]; norm_num; omega

theorem tells_tenth {cells : List Text} {q : Dbl × ℤ} (h : OneDecimal cells) (ht : Tells cells q) : ∃ k : ℤ, q.2 = 10 * k ∧ |k| ≤ 100 := by
  obtain ⟨s, k, h1, h2, h3⟩ := h
  obtain ⟨-, s', g1, g2⟩ := ht
  rw [h1] at g1
  cases g1
  rw [h2] at g2
  refine ⟨k, ?_, h3⟩
  have := Option.some.inj g2
  have e : (q.2 : ℚ) = ((10 * k : ℤ) : ℚ) := by push_cast; linarith
  exact_mod_cast e

theorem tells_of_mem {data : List (List Text)} {ev : List (Dbl × ℤ)} (h : List.Forall₂ Tells data ev) {e : Dbl × ℤ} (he : e ∈ ev) : ∃ cells ∈ data, Tells cells e := by
  induction h with
  | nil => cases he
  | cons h1 _ ih =>
    rcases List.mem_cons.1 he with rfl | he
    · exact ⟨_, List.mem_cons_self, h1⟩
    · obtain ⟨c, hc, ht⟩ := ih he
      exact ⟨c, List.mem_cons_of_mem _ hc, ht⟩

theorem update_ok {F : Type} {w : World F} {f : Source F → Source F} {i : ℕ} {defs : List (Source F)} (h1 : w.ctx.curSm = some i) (h2 : w.ctx.smDefinitions = some defs) (h3 : i < defs.length) :
    updateCurrent w f = .ok { w with ctx := { w.ctx with smDefinitions := some (defs.modify i f) } } := by
  simp only [updateCurrent, attr, notNone, h1, h2, Recurrence.bind_ok, if_pos h3]

/-- **C195.** Let the magnitudes of an accepted catalogue file with at least one row have at most one decimal.  Then the jobs that
build the catalogue matrix and the default completeness table succeed in double precision.  If the whole catalogue is then given to the
recurrence job with a maximum likelihood algorithm, that job succeeds too and writes to the current source, whatever it is, a b-value that
is positive and not above `2 log10(e) / width` by more than two millionths of it. -/
theorem C195_file [Libm] (hL : 0 < Recurrence.Spec.logE) (y : ℤ) (ord : DictOrder) {file : Text} {es : List (Entry Dbl)} (h : readCatalogFile (dblEnv y) ord file = .ok es) {w : World Dbl}
    (hw : w.ctx.eqCatalog = some es) {data : List (List Text)} (hd : DataRows file data) (hne : data ≠ []) (hlen : data.length ≤ 10 ^ 10) (ht : ∀ cells ∈ data, OneDecimal cells)
    (x : Ext Dbl) {cfg : Config Dbl} {c : RecurrenceConfig Dbl} (hcfg : cfg.recurrence = some c) (ha : c.algorithm ≠ "Weichert") {q : ℚ} (hq : c.magnitudeWindow = Dbl.of q) (q0 : 1 / 100 ≤ q) (q1 : q ≤ 10) :
    ∃ w1 w2, createCatalogMatrixJob w = .ok w1 ∧ createDefaultValuesJob w1 = .ok w2 ∧ (∃ m, w2.ctx.workingCatalog = some m ∧ m.rows.length = data.length) ∧
      ∀ w3 : World Dbl, w3.ctx.currentFilteredEq = w2.ctx.workingCatalog → w3.ctx.completenessTable = w2.ctx.completenessTable →
        ∀ i defs, w3.ctx.curSm = some i → w3.ctx.smDefinitions = some defs → i < defs.length →
        ∃ w4 defs', recurrenceJob x cfg w3 = some (.ok w4) ∧ w4.ctx.smDefinitions = some defs' ∧ defs'.length = defs.length ∧
          ∀ s, defs'[i]? = some s → 0 < s.area.rate.tgr.bValue.val ∧ s.area.rate.tgr.bValue.val ≤ 2 * Recurrence.Spec.logE / (Dbl.of q).val * (1 + 2 / 10 ^ 6) := by
  obtain ⟨rows, hr, hjob⟩ := C14_matrix (dblEnv y) ord file es h w hw
  obtain ⟨rest, hv, rfl⟩ := hd
  have hes : readEqCatalog (dblEnv y) ord (csvRows rest).1 = .ok es := by
    unfold readCatalogFile at h
    obtain ⟨rest', hv', h⟩ := Nrml.bind_ok h
    rw [hv] at hv'
    cases hv'
    obtain ⟨es', hes, h⟩ := Nrml.bind_ok h
    split at h
    · cases h
    · cases h; exact hes
  have F := C10_order_preserving _ _ _ _ hes
  obtain ⟨ev, e1, e2, e3⟩ := tells_rows F hr fun c hc => two_of_one (ht c hc)
  have hev : ev ≠ [] := by
    rintro rfl
    exact hne (List.length_eq_zero_iff.1 (e1.length_eq.trans rfl))
  have hrows : rows.length = ev.length := by
    have := congrArg List.length e3
    rwa [yearMag, List.length_map, List.length_map] at this
  have hes0 : es.isEmpty = false := by
    cases es with
    | nil => exact absurd (List.length_eq_zero_iff.1 (e1.length_eq.symm.trans (F.length_eq.trans rfl))) hev
    | cons a l => rfl
  have c0 : rows.map (fun r => r 0) = ev.map fun e => e.1 := by
    have := congrArg (List.map Prod.fst) e3
    rwa [yearMag, List.map_map, List.map_map] at this
  have c5 : rows.map (fun r => r 5) = ev.map fun e => (quake e).2 := by
    have := congrArg (List.map Prod.snd) e3
    rwa [yearMag, List.map_map, List.map_map] at this
  obtain ⟨minY, y1⟩ := npMin_exists (l := ev.map fun e => e.1) (by simpa using hev)
  obtain ⟨minM, m1⟩ := npMin_exists (l := ev.map fun e => (quake e).2) (by simpa using hev)
  obtain ⟨-, y2⟩ := npMin_spec y1
  obtain ⟨m2, -⟩ := npMin_spec m1
  obtain ⟨e, he, m3⟩ := List.mem_map.1 m2
  obtain ⟨cells, hcell, hte⟩ := tells_of_mem e1 he
  obtain ⟨k, hk1, hk2⟩ := tells_tenth (ht cells hcell) hte
  obtain ⟨g, g1, g2, g3⟩ := Recurrence.C190_run hL e2 (by rw [← e1.length_eq]; exact hlen) q0 q1 (table := [(minY, minM)]) (by simp) (by simp) (by
    intro r hr
    obtain rfl := List.mem_singleton.1 hr
    refine ⟨k, hk2, ?_, e, he, ?_, by omega⟩
    · have := of_near (a := (k : ℚ) / 10) (B := 10) (by
        rw [abs_div, abs_of_pos (by norm_num : (0 : ℚ) < 10), div_le_iff₀ (by norm_num)]
        have : ((|k| : ℤ) : ℚ) ≤ 100 := by exact_mod_cast hk2
        rw [Int.cast_abs] at this
        linarith)
      have em : minM = Dbl.of ((k : ℚ) / 10) := by
        rw [← m3]
        show Dbl.of ((e.2 : ℚ) / 100) = _
        rw [hk1]; congr 1; push_cast; ring
      rw [em]
      exact this.trans (by norm_num)
    · exact le_def.2 (y2 e.1 (List.mem_map.2 ⟨e, he, rfl⟩))) c.referenceMagnitude
  have hcols : (⟨rows, es.isEmpty⟩ : Matrix Dbl).cols = .ok rows := by
    rw [Matrix.cols, hes0]; rfl
  have hdef : ∀ w1 : World Dbl, w1.ctx.workingCatalog = some ⟨rows, es.isEmpty⟩ → ∃ w2, createDefaultValuesJob w1 = .ok w2 ∧ w2.ctx.workingCatalog = some ⟨rows, es.isEmpty⟩ ∧
      w2.ctx.completenessTable = some [(minY, minM)] := by
    intro w1 hw1
    refine ⟨{ w1 with ctx := { w1.ctx with flagVector := some (List.replicate rows.length 0), completenessTable := some [(minY, minM)] } }, ?_, hw1, rfl⟩
    rw [createDefaultValuesJob, hw1, notNone, Recurrence.bind_ok, hcols, Recurrence.bind_ok, c0, y1, Recurrence.bind_ok, c5, m1, Recurrence.bind_ok]
  obtain ⟨w2, d1, d2, d3⟩ := hdef { w with ctx := { w.ctx with catalogMatrix := some ⟨rows, es.isEmpty⟩, workingCatalog := some ⟨rows, es.isEmpty⟩ } } rfl
  refine ⟨_, w2, hjob, d1, ⟨_, d2, hrows.trans e1.length_eq.symm⟩, ?_⟩
  intro w3 f1 f2 i defs f3 f4 f5
  refine ⟨{ w3 with ctx := { w3.ctx with smDefinitions := some (defs.modify i (withRecurrence c.referenceMagnitude g)) } }, _, ?_, rfl, by rw [List.length_modify], ?_⟩
  · have hrec : recurrenceAnalysis (yearMag rows) [(minY, minM)] c.magnitudeWindow c.algorithm c.referenceMagnitude c.timeWindow x.fuel = .ok (some g) := by
      rw [recurrenceAnalysis, if_neg ha, e3, hq, g1, Recurrence.bind_ok]
      rfl
    have hargs : (do
        let m ← attr w3.ctx.currentFilteredEq
        let rows ← m.cols
        let c ← section_ cfg.recurrence
        let table ← notNone w3.ctx.completenessTable
        .ok (rows, table, c) : Except PyErr (List (Row Dbl) × List (Dbl × Dbl) × RecurrenceConfig Dbl)) = .ok (rows, [(minY, minM)], c) := by
      rw [f1, d2, f2, d3, hcfg]
      simp only [attr, notNone, section_, Recurrence.bind_ok, hcols]
    rw [recurrenceJob]
    simp only [hargs, hrec]
    rw [update_ok f3 f4 f5]
  · intro s hs
    rw [List.getElem?_modify, List.getElem?_eq_getElem f5] at hs
    simp only [if_true, Option.map_eq_map, Option.map_some, Option.some.injEq] at hs
    rw [← hs]
    exact ⟨g2, g3⟩

/-- A catalogue of three earthquakes. -/
def file195 : Text := writeRow (fieldNames.map (fun f => f.name.toList)) ++ writeRow (row193 "1980" "4.5") ++ writeRow (row193 "1985" "3.3") ++ writeRow (row193 "1990" "4.1")

/-- The file is accepted, has three rows, its magnitudes have at most one decimal, and `log10(e)` is positive. -/
example : 0 < @Recurrence.Spec.logE Recurrence.plainLibm ∧ (readCatalogFile (dblEnv 2012) columnOrder file195).isOk = true ∧ ∃ data, DataRows file195 data ∧ data.length = 3 ∧ ∀ cells ∈ data, OneDecimal cells := by
  refine ⟨by rw [Recurrence.plainLibm_logE]; norm_num, by decide +kernel, [row193 "1980" "4.5", row193 "1985" "3.3", row193 "1990" "4.1"], ?_, rfl, ?_⟩
  · have h1 : (validateCsvCatalog file195).map (fun rest => (csvRows rest).1.filter fun r => r ≠ []) = .ok [row193 "1980" "4.5", row193 "1985" "3.3", row193 "1990" "4.1"] := by decide +kernel
    cases hv : validateCsvCatalog file195 with
    | error e => rw [hv] at h1; cases h1
    | ok rest =>
      rw [hv] at h1
      exact ⟨rest, hv, (Except.ok.inj h1).symm⟩
  · intro cells hc
    simp only [List.mem_cons, List.not_mem_nil, or_false] at hc
    rcases hc with rfl | rfl | rfl
    · exact ⟨"4.5".toList, 45, by decide, by decide +kernel, by decide⟩
    · exact ⟨"3.3".toList, 33, by decide, by decide +kernel, by decide⟩
    · exact ⟨"4.1".toList, 41, by decide, by decide +kernel, by decide⟩

end Verif.Workflow
