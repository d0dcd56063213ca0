import Verif.Model.Recurrence
import Verif.Spec.Recurrence
import Verif.Lemmas.Numpy
import Mathlib.Analysis.SpecialFunctions.ExpDeriv
import Mathlib.Analysis.SpecialFunctions.Log.Deriv
import Mathlib.Analysis.Calculus.Deriv.MeanValue

/-! # Lemmas about the recurrence model -/

namespace Verif.Recurrence

open Verif Verif.Np

/-! ### Sums -/

theorem list_sum_nonneg {l : List ℝ} (h : ∀ x ∈ l, 0 ≤ x) : 0 ≤ l.sum := List.sum_nonneg h

theorem list_sum_pos {l : List ℝ} (h : ∀ x ∈ l, 0 ≤ x) (hp : ∃ x ∈ l, 0 < x) : 0 < l.sum := by
  induction l with
  | nil => simp at hp
  | cons a l ih =>
    rw [List.sum_cons]
    obtain ⟨x, hx, hpos⟩ := hp
    rcases List.mem_cons.mp hx with rfl | hx
    · exact add_pos_of_pos_of_nonneg hpos (list_sum_nonneg fun y hy => h y (List.mem_cons_of_mem _ hy))
    · exact add_pos_of_nonneg_of_pos (h a (by simp)) (ih (fun y hy => h y (List.mem_cons_of_mem _ hy)) ⟨x, hx, hpos⟩)

theorem sum_map_add {α : Type} (l : List α) (f g : α → ℝ) : (l.map fun x => f x + g x).sum = (l.map f).sum + (l.map g).sum := by
  induction l with
  | nil => simp
  | cons a l ih => simp only [List.map_cons, List.sum_cons, ih]; ring

theorem sum_map_mul {α : Type} (l : List α) (c : ℝ) (f : α → ℝ) : (l.map fun x => c * f x).sum = c * (l.map f).sum := by
  induction l with
  | nil => simp
  | cons a l ih => simp only [List.map_cons, List.sum_cons, ih]; ring

theorem sum_map_mono {α : Type} {l : List α} {f g : α → ℝ} (h : ∀ x ∈ l, f x ≤ g x) : (l.map f).sum ≤ (l.map g).sum := by
  induction l with
  | nil => simp
  | cons a l ih =>
    simp only [List.map_cons, List.sum_cons]
    exact add_le_add (h a (by simp)) (ih fun x hx => h x (List.mem_cons_of_mem _ hx))

/-- A weighted mean lies between bounds of the values. -/
theorem mean_ge {α : Type} {l : List α} {f w : α → ℝ} {c : ℝ} (hw : ∀ x ∈ l, 0 ≤ w x) (hs : 0 < (l.map w).sum) (h : ∀ x ∈ l, c ≤ f x) :
    c ≤ (l.map fun x => f x * w x).sum / (l.map w).sum := by
  rw [le_div_iff₀ hs, ← sum_map_mul]
  exact sum_map_mono fun x hx => mul_le_mul_of_nonneg_right (h x hx) (hw x hx)

theorem mean_le {α : Type} {l : List α} {f w : α → ℝ} {c : ℝ} (hw : ∀ x ∈ l, 0 ≤ w x) (hs : 0 < (l.map w).sum) (h : ∀ x ∈ l, f x ≤ c) :
    (l.map fun x => f x * w x).sum / (l.map w).sum ≤ c := by
  rw [div_le_iff₀ hs, ← sum_map_mul]
  exact sum_map_mono fun x hx => mul_le_mul_of_nonneg_right (h x hx) (hw x hx)

theorem exists_max {α : Type} {l : List α} (h : l ≠ []) (f : α → ℝ) : ∃ x ∈ l, ∀ y ∈ l, f y ≤ f x := by
  induction l with
  | nil => exact absurd rfl h
  | cons a l ih =>
    by_cases hl : l = []
    · subst hl; exact ⟨a, by simp, by simp⟩
    · obtain ⟨x, hx, hmax⟩ := ih hl
      rcases le_total (f x) (f a) with hle | hle
      · refine ⟨a, by simp, fun y hy => ?_⟩
        rcases List.mem_cons.mp hy with rfl | hy
        exacts [le_rfl, (hmax y hy).trans hle]
      · refine ⟨x, List.mem_cons_of_mem _ hx, fun y hy => ?_⟩
        rcases List.mem_cons.mp hy with rfl | hy
        exacts [hle, hmax y hy]

theorem exists_min {α : Type} {l : List α} (h : l ≠ []) (f : α → ℝ) : ∃ x ∈ l, ∀ y ∈ l, f x ≤ f y := by
  obtain ⟨x, hx, hm⟩ := exists_max h (fun y => -f y)
  exact ⟨x, hx, fun y hy => neg_le_neg_iff.mp (hm y hy)⟩

/-! ### Histogram -/

theorem inBin_mono_sum (e : ℕ → ℝ) (he : Monotone e) (l : List ℝ) (k : ℕ) (hlt : ∀ x ∈ l, x < e k) :
    ((List.range k).map fun j => l.countP (inBin e k j)).sum = l.countP fun x => decide (e 0 ≤ x) := by
  have h1 : ∀ j ∈ List.range k, l.countP (inBin e k j) = l.countP fun x => decide (e j ≤ x ∧ x < e (j + 1)) := by
    intro j hj
    refine List.countP_congr fun x hx => ?_
    simp only [inBin]
    split_ifs with hh
    · have := hlt x hx
      rw [← hh] at this
      simp [this, this.le]
    · simp
  rw [List.map_congr_left h1]
  have h2 := countP_bins e he l k
  rw [← List.sum_toFinset _ List.nodup_range, List.toFinset_range, h2]
  refine List.countP_congr fun x hx => ?_
  simp [hlt x hx]

/-! ### `recurrence_table` -/

theorem bind_ok {ε α β : Type} (a : α) (f : α → Except ε β) : (Except.ok a >>= f) = f a := rfl

/-- What `recurrence_table` returns. -/
theorem recurrenceTable_spec {ev : List (ℝ × ℝ)} {dmag : ℝ} (hev : ev ≠ []) (hd : 0 < dmag) :
    ∃ (rows : List (RecRow ℝ)) (low ny : ℝ), recurrenceTable ev dmag = .ok rows ∧ Spec.IsNumYears ev ny ∧
      (∀ e ∈ ev, low ≤ e.2) ∧ (∃ e ∈ ev, low = (⌊10 * e.2⌋ : ℝ) / 10) ∧ (∀ e ∈ ev, e.2 < low + rows.length * dmag) ∧ 0 < rows.length ∧
      ∀ (i : ℕ) (hi : i < rows.length), rows[i].mval = low + (i + 1 / 2) * dmag ∧
        rows[i].nObs = Spec.magCount ev (low + i * dmag) (low + (i + 1) * dmag) ∧
        rows[i].nCum = ((rows.drop i).map RecRow.nObs).sum ∧
        rows[i].nObsAnnual = rows[i].nObs / ny ∧ rows[i].nCumAnnual = rows[i].nCum / ny := by
  have hne : ev.map Prod.fst ≠ [] := by simpa using hev
  have hme1 : (ev.map Prod.snd).map (fun m => (⌈10 * m⌉ : ℝ) / 10) ≠ [] := by simpa using hev
  have hme2 : (ev.map Prod.snd).map (fun m => (⌊10 * m⌋ : ℝ) / 10) ≠ [] := by simpa using hev
  obtain ⟨y1, hy1⟩ := npMax_exists hne
  obtain ⟨y0, hy0⟩ := npMin_exists hne
  obtain ⟨up, hup⟩ := npMax_exists hme1
  obtain ⟨low, hlow⟩ := npMin_exists hme2
  have hy1' := npMax_ok hy1
  have hy0' := npMin_ok hy0
  have hup' := npMax_ok hup
  have hlow' := npMin_ok hlow
  have e2 : {y | y ∈ ev.map Prod.fst} = {x | ∃ e ∈ ev, e.1 = x} := by
    ext x; simp
  rw [e2] at hy0' hy1'
  have hl : ∀ e ∈ ev, low ≤ e.2 := by
    intro e he
    have h1 : low ≤ (⌊10 * e.2⌋ : ℝ) / 10 := hlow'.2 (by simp only [List.mem_map, Set.mem_setOf_eq]; exact ⟨e.2, ⟨e, he, rfl⟩, rfl⟩)
    have := Int.floor_le (10 * e.2)
    linarith
  have hu : ∀ e ∈ ev, e.2 ≤ up := by
    intro e he
    have h1 : (⌈10 * e.2⌉ : ℝ) / 10 ≤ up := hup'.2 (by simp only [List.mem_map, Set.mem_setOf_eq]; exact ⟨e.2, ⟨e, he, rfl⟩, rfl⟩)
    have := Int.le_ceil (10 * e.2)
    linarith
  have hlf : ∃ e ∈ ev, low = (⌊10 * e.2⌋ : ℝ) / 10 := by
    have := hlow'.1
    simp only [List.mem_map, Set.mem_setOf_eq] at this
    obtain ⟨m, ⟨e, he, rfl⟩, h⟩ := this
    exact ⟨e, he, h.symm⟩
  have hlu : low ≤ up := by
    obtain ⟨e, he⟩ := List.exists_mem_of_ne_nil _ hev
    exact (hl e he).trans (hu e he)
  set len := arangeLen low (up + 2 * dmag) dmag with hlen
  have hlast : up + 2 * dmag ≤ low + len * dmag := by
    by_contra hc
    have := (lt_arangeLen (start := low) (stop := up + 2 * dmag) hd (i := len)).mpr (not_le.mp hc)
    exact absurd this (lt_irrefl _)
  have hlen2 : 1 < len := by
    rw [hlen, lt_arangeLen hd]
    push_cast
    linarith
  have hlen0 : ¬ len = 0 := by omega
  have hcast : ((len - 1 : ℕ) : ℝ) = (len : ℝ) - 1 := by
    rw [Nat.cast_sub (by omega)]; simp
  have hmono : Monotone (arangeAt low dmag) := by
    intro i j hij
    rw [arangeAt_real, arangeAt_real]
    have : (i : ℝ) ≤ j := by exact_mod_cast hij
    nlinarith
  have hlt : ∀ x ∈ ev.map Prod.snd, x < arangeAt low dmag (len - 1) := by
    intro x hx
    simp only [List.mem_map] at hx
    obtain ⟨e, he, rfl⟩ := hx
    rw [arangeAt_real, hcast]
    have := hu e he
    nlinarith
  refine ⟨(List.range (len - 1)).map fun i =>
      { mval := arangeAt low dmag i + dmag / 2.0, nObs := (histogram (arangeAt low dmag) (len - 1) (ev.map Prod.snd)).getD i 0
        nCum := ((histogram (arangeAt low dmag) (len - 1) (ev.map Prod.snd)).drop i).sum
        nObsAnnual := ((histogram (arangeAt low dmag) (len - 1) (ev.map Prod.snd)).getD i 0 : ℝ) / (y1 - y0 + 1.0)
        nCumAnnual := (((histogram (arangeAt low dmag) (len - 1) (ev.map Prod.snd)).drop i).sum : ℝ) / (y1 - y0 + 1.0) },
    low, y1 - y0 + 1, ?_, ⟨y0, y1, hy0', hy1', rfl⟩, hl, hlf, ?_, ?_, ?_⟩
  · unfold recurrenceTable
    simp only [ceilZ_real, floorZ_real, decEq_real, hd.ne', decide_false, Bool.false_eq_true, if_false]
    have hup2 := hup
    have hlow2 := hlow
    rw [show (10 : ℝ) = 10.0 by norm_num] at hup2 hlow2
    simp only [hy1, hy0, hup2, hlow2, bind, Except.bind, Nat.cast_ofNat]
    rw [if_neg hlen0, if_neg fun h => absurd h.2 (not_lt.2 hd.le)]
    rfl
  · intro e he
    have := hlt e.2 (List.mem_map.mpr ⟨e, he, rfl⟩)
    simpa [arangeAt_real] using this
  · simp; omega
  · intro i hi
    have hi' : i < len - 1 := by simpa using hi
    have hg : (histogram (arangeAt low dmag) (len - 1) (ev.map Prod.snd)).getD i 0 =
        Spec.magCount ev (low + i * dmag) (low + (i + 1) * dmag) := by
      rw [List.getD_eq_getElem?_getD, List.getElem?_eq_getElem (by simpa [histogram] using hi'), Option.getD_some]
      simp only [histogram, List.getElem_map, List.getElem_range, List.countP_map, Spec.magCount]
      refine List.countP_congr fun e he => ?_
      simp only [Function.comp, inBin, arangeAt_real]
      split_ifs with hh
      · have := hlt e.2 (List.mem_map.mpr ⟨e, he, rfl⟩)
        rw [← hh, arangeAt_real] at this
        push_cast at this ⊢
        simp [this, this.le]
      · push_cast
        simp
    simp only [List.getElem_map, List.getElem_range]
    refine ⟨?_, hg, ?_, ?_, ?_⟩
    · rw [arangeAt_real]; norm_num; ring
    · rw [List.map_drop, List.map_map]
      congr 2
      refine List.ext_getElem (by simp [histogram]) fun j h1 h2 => ?_
      simp only [List.getElem_map, List.getElem_range, Function.comp]
      rw [List.getD_eq_getElem?_getD, List.getElem?_eq_getElem h1, Option.getD_some]
    · norm_num
    · norm_num

end Verif.Recurrence
