import Verif.Props.Workflow
import Verif.Props.KeptValues
import Verif.Props.DoubleBins
import Verif.Props.DoubleText

/-!
# C193: from the file to the recurrence table, in double precision
-/

namespace Verif.Workflow

open Verif Verif.EqCatalog Verif.Csv Verif.Dbl Verif.Format
open Verif.Declustering (Row)
open Verif.Recurrence (recurrenceTable RecRow)
open Verif.Recurrence.Spec (quake LowestTenth between Near)

variable [Libm]

namespace Spec

/-- The rows of the file below the header, without the blank lines. -/
def DataRows (file : Text) (data : List (List Text)) : Prop :=
  ∃ rest, validateCsvCatalog file = .ok rest ∧ data = (csvRows rest).1.filter fun r => r ≠ []

/-- The row has the year and, in hundredths, the magnitude of the earthquake `q`. -/
def Tells (cells : List Text) (q : Dbl × ℤ) : Prop :=
  (∃ s i, cells[3]? = some s ∧ Text.pyInt s = some i ∧ q.1 = ((i : ℤ) : Dbl)) ∧ ∃ s, cells[17]? = some s ∧ pyFloat (K := ℚ) s = some ((q.2 : ℚ) / 100)

/-- The magnitude of the row has at most two decimals and lies between -10 and 10. -/
def TwoDecimals (cells : List Text) : Prop := ∃ s, ∃ k : ℤ, cells[17]? = some s ∧ pyFloat (K := ℚ) s = some ((k : ℚ) / 100) ∧ |k| ≤ 1000

end Spec

open Spec

omit [Libm] in
theorem tells_row {y : ℤ} {ord : DictOrder} {n : ℕ} {cells : List Text} {e : Entry Dbl} {r : Row Dbl} (h : readRow (dblEnv y) ord n cells = .ok e) (hr : RowOf e r) (ht : TwoDecimals cells) :
    ∃ q : Dbl × ℤ, Tells cells q ∧ |q.2| ≤ 1000 ∧ (r 0, r 5) = quake q := by
  have K := C165_kept_partial _ _ _ _ _ h
  obtain ⟨s, k, hs, hx, hk⟩ := ht
  obtain ⟨s', i, hs', hi, hy⟩ := K.whole (3, .year) (by decide)
  have hm := K.number (17, .mw) (by decide) (Dbl.of ((k : ℚ) / 100)) ⟨s, hs, by show floatDbl s = _; rw [floatDbl, hx]; rfl⟩
  refine ⟨(((i : ℤ) : Dbl), k), ⟨⟨s', i, hs', hi, rfl⟩, s, hs, hx⟩, hk, ?_⟩
  have h0 : r 0 = ((i : ℤ) : Dbl) := by
    rcases hr.year with g | ⟨j, g, gj⟩
    · rw [hy] at g; cases g
    · rw [hy] at g; cases g; exact gj
  have h5 : r 5 = Dbl.of ((k : ℚ) / 100) := by
    rcases hr.mw with g | ⟨j, g, gj⟩
    · rw [hm] at g; exact (Val.flt.inj g).symm
    · rw [hm] at g; cases g
  rw [h0, h5]
  rfl

omit [Libm] in
theorem tells_rows {y : ℤ} {ord : DictOrder} : ∀ {data : List (List Text)} {es : List (Entry Dbl)} {rows : List (Row Dbl)}, List.Forall₂ (fun r e => ∀ n, readRow (dblEnv y) ord n r = .ok e) data es →
    List.Forall₂ RowOf es rows → (∀ cells ∈ data, TwoDecimals cells) →
    ∃ ev : List (Dbl × ℤ), List.Forall₂ Tells data ev ∧ (∀ q ∈ ev, |q.2| ≤ 1000) ∧ yearMag rows = ev.map quake := by
  intro data es rows h
  induction h generalizing rows with
  | nil =>
    intro hr _
    cases hr
    exact ⟨[], .nil, by simp, rfl⟩
  | cons h1 h2 ih =>
    intro hr ht
    cases hr with
    | cons r1 r2 =>
      obtain ⟨q, a1, a2, a3⟩ := tells_row (h1 0) r1 (ht _ List.mem_cons_self)
      obtain ⟨ev, b1, b2, b3⟩ := ih r2 fun c hc => ht c (List.mem_cons_of_mem _ hc)
      refine ⟨q :: ev, .cons a1 b1, ?_, ?_⟩
      · intro p hp
        rcases List.mem_cons.1 hp with rfl | hp
        exacts [a2, b2 p hp]
      · rw [yearMag, List.map_cons, List.map_cons, a3]
        exact congrArg _ b3

/-- **C193.** If the magnitudes of an accepted file have at most two decimals, the catalogue matrix computed in double precision
holds the earthquakes of the file, row by row, and the recurrence table computed from it counts each row of the file exactly once,
in the bin of the decimal in the file unless that is within 0.00000001 of an edge. -/
theorem C193_file (y : ℤ) (ord : DictOrder) {file : Text} {es : List (Entry Dbl)} (h : readCatalogFile (dblEnv y) ord file = .ok es) {w : World Dbl} (hw : w.ctx.eqCatalog = some es)
    {data : List (List Text)} (hd : DataRows file data) (hne : data ≠ []) (ht : ∀ cells ∈ data, TwoDecimals cells) {q : ℚ} (h1 : 1 / 1000 ≤ q) (h2 : q ≤ 10) :
    ∃ w' m ev table K, createCatalogMatrixJob w = .ok w' ∧ w'.ctx.workingCatalog = some m ∧ List.Forall₂ Tells data ev ∧ yearMag m.rows = ev.map quake ∧
      recurrenceTable (yearMag m.rows) (Dbl.of q) = .ok table ∧ (table.map RecRow.nObs).sum = data.length ∧ LowestTenth ev K ∧
      ∀ i (hi : i < table.length), (i ≠ 0 → ¬ Near ev (K / 10 + i * q)) → ¬ Near ev (K / 10 + (i + 1) * q) → table[i].nObs = between ev (K / 10 + i * q) (K / 10 + (i + 1) * q) := by
  obtain ⟨rows, hr, hjob⟩ := C14_matrix (dblEnv y) ord file es h w hw
  obtain ⟨rest, hv, rfl⟩ := hd
  have hes : readEqCatalog (dblEnv y) ord (csvRows rest).1 = .ok es := by
    unfold readCatalogFile at h
    obtain ⟨rest', hv', h⟩ := Nrml.bind_ok h
    rw [hv] at hv'
    cases hv'
    obtain ⟨es', hes, h⟩ := Nrml.bind_ok h
    split at h
    · cases h
    · cases h; exact hes
  obtain ⟨ev, e1, e2, e3⟩ := tells_rows (C10_order_preserving _ _ _ _ hes) hr ht
  have hev : ev ≠ [] := by
    rintro rfl
    cases hf : (csvRows rest).1.filter fun r => r ≠ [] with
    | nil => exact hne hf
    | cons a l => rw [hf] at e1; cases e1
  obtain ⟨t1, g1, g2⟩ := Recurrence.C163_total_partial hev e2 h1 h2
  obtain ⟨t2, K, k1, k2, k3⟩ := Recurrence.C164_bin_partial hev e2 h1 h2
  rw [g1] at k1
  cases k1
  refine ⟨_, ⟨rows, es.isEmpty⟩, ev, t1, K, hjob, rfl, e1, e3, ?_, ?_, k2, k3⟩
  · show recurrenceTable (yearMag rows) _ = _
    rw [e3]; exact g1
  · rw [g2, e1.length_eq]

/-- A row with given year and magnitude. -/
def row193 (year mag : String) : List Text := (exRow.set 3 year.toList).set 17 mag.toList

/-- A catalogue of three earthquakes. -/
def file193 : Text := writeRow (fieldNames.map (fun f => f.name.toList)) ++ writeRow (row193 "1980" "3.0") ++ writeRow (row193 "1985" "3.35") ++ writeRow (row193 "1990" "4.1")

omit [Libm] in
/-- The file is accepted, has three rows, and its magnitudes have at most two decimals. -/
example : (readCatalogFile (dblEnv 2012) columnOrder file193).isOk = true ∧ ∃ data, DataRows file193 data ∧ data.length = 3 ∧ ∀ cells ∈ data, TwoDecimals cells := by
  refine ⟨by decide +kernel, [row193 "1980" "3.0", row193 "1985" "3.35", row193 "1990" "4.1"], ?_, rfl, ?_⟩
  · have h1 : (validateCsvCatalog file193).map (fun rest => (csvRows rest).1.filter fun r => r ≠ []) = .ok [row193 "1980" "3.0", row193 "1985" "3.35", row193 "1990" "4.1"] := by decide +kernel
    cases hv : validateCsvCatalog file193 with
    | error e => rw [hv] at h1; cases h1
    | ok rest =>
      rw [hv] at h1
      exact ⟨rest, hv, (Except.ok.inj h1).symm⟩
  · intro cells hc
    simp only [List.mem_cons, List.not_mem_nil, or_false] at hc
    rcases hc with rfl | rfl | rfl
    · exact ⟨"3.0".toList, 300, by decide, by decide +kernel, by decide⟩
    · exact ⟨"3.35".toList, 335, by decide, by decide +kernel, by decide⟩
    · exact ⟨"4.1".toList, 410, by decide, by decide +kernel, by decide⟩

end Verif.Workflow
