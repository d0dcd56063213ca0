import Verif.Model.Numpy
import Mathlib.Order.Bounds.Basic
import Mathlib.Tactic.Linarith
import Mathlib.Tactic.Ring
import Mathlib.Tactic.FieldSimp
import Mathlib.Tactic.Positivity
import Mathlib.Algebra.BigOperators.Group.Finset.Basic
import Mathlib.Algebra.BigOperators.Group.List.Lemmas

/-! # Lemmas about the numpy functions at `ℝ` -/

namespace Verif.Np

open Verif

@[simp] theorem minimum_real (a y : ℝ) : minimum a y = if y < a then y else a := by
  unfold minimum
  by_cases h : y < a
  · rw [if_neg (by simp [h]), if_pos h]
  · rw [if_pos (.inl (not_lt.1 h)), if_neg h]

@[simp] theorem maximum_real (a y : ℝ) : maximum a y = if a < y then y else a := by
  unfold maximum
  by_cases h : a < y
  · rw [if_neg (by simp [h]), if_pos h]
  · rw [if_pos (.inl (not_lt.1 h)), if_neg h]

theorem minimum_fun : (minimum : ℝ → ℝ → ℝ) = fun a y => if y < a then y else a := funext₂ minimum_real

theorem maximum_fun : (maximum : ℝ → ℝ → ℝ) = fun a y => if a < y then y else a := funext₂ maximum_real

theorem foldl_min_spec (l : List ℝ) (x : ℝ) :
    IsLeast {y | y ∈ x :: l} (l.foldl (fun a y => if y < a then y else a) x) := by
  induction l generalizing x with
  | nil => simp [IsLeast, lowerBounds]
  | cons z l ih =>
    simp only [List.foldl_cons]
    obtain ⟨h1, h2⟩ := ih (if z < x then z else x)
    refine ⟨?_, ?_⟩
    · have h1' := h1
      simp only [List.mem_cons, Set.mem_setOf_eq] at h1' ⊢
      rcases h1' with h | h
      · rw [h]; split_ifs <;> simp
      · exact Or.inr (Or.inr h)
    · intro y hy
      simp only [List.mem_cons, Set.mem_setOf_eq] at hy
      have hb := h2 (show (if z < x then z else x) ∈ {y | y ∈ (if z < x then z else x) :: l} by simp)
      rcases hy with h | h | h
      · subst h; refine le_trans hb ?_; split_ifs with hh; exacts [hh.le, le_rfl]
      · subst h; refine le_trans hb ?_; split_ifs with hh; exacts [le_rfl, not_lt.mp hh]
      · exact h2 (by simp [h])

theorem foldl_max_spec (l : List ℝ) (x : ℝ) :
    IsGreatest {y | y ∈ x :: l} (l.foldl (fun a y => if a < y then y else a) x) := by
  induction l generalizing x with
  | nil => simp [IsGreatest, upperBounds]
  | cons z l ih =>
    simp only [List.foldl_cons]
    obtain ⟨h1, h2⟩ := ih (if x < z then z else x)
    refine ⟨?_, ?_⟩
    · have h1' := h1
      simp only [List.mem_cons, Set.mem_setOf_eq] at h1' ⊢
      rcases h1' with h | h
      · rw [h]; split_ifs <;> simp
      · exact Or.inr (Or.inr h)
    · intro y hy
      simp only [List.mem_cons, Set.mem_setOf_eq] at hy
      have hb := h2 (show (if x < z then z else x) ∈ {y | y ∈ (if x < z then z else x) :: l} by simp)
      rcases hy with h | h | h
      · subst h; refine le_trans ?_ hb; split_ifs with hh; exacts [hh.le, le_rfl]
      · subst h; refine le_trans ?_ hb; split_ifs with hh; exacts [le_rfl, not_lt.mp hh]
      · exact h2 (by simp [h])

theorem npMin_ok {l : List ℝ} {m : ℝ} (h : npMin l = .ok m) : IsLeast {y | y ∈ l} m := by
  cases l with
  | nil => simp [npMin] at h
  | cons x l => simp only [npMin, minimum_fun, Except.ok.injEq] at h; subst h; exact foldl_min_spec l x

theorem npMax_ok {l : List ℝ} {m : ℝ} (h : npMax l = .ok m) : IsGreatest {y | y ∈ l} m := by
  cases l with
  | nil => simp [npMax] at h
  | cons x l => simp only [npMax, maximum_fun, Except.ok.injEq] at h; subst h; exact foldl_max_spec l x

theorem npMin_iff {l : List ℝ} {m : ℝ} : npMin l = .ok m ↔ IsLeast {y | y ∈ l} m := by
  refine ⟨npMin_ok, fun h => ?_⟩
  cases l with
  | nil => simp [IsLeast] at h
  | cons x l => simp only [npMin, minimum_fun, Except.ok.injEq]; exact (foldl_min_spec l x).unique h

theorem npMax_iff {l : List ℝ} {m : ℝ} : npMax l = .ok m ↔ IsGreatest {y | y ∈ l} m := by
  refine ⟨npMax_ok, fun h => ?_⟩
  cases l with
  | nil => simp [IsGreatest] at h
  | cons x l => simp only [npMax, maximum_fun, Except.ok.injEq]; exact (foldl_max_spec l x).unique h

theorem npMin_exists {F : Type} [PyNum F] {l : List F} (h : l ≠ []) : ∃ m, npMin l = .ok m := by
  cases l with
  | nil => exact absurd rfl h
  | cons x l => exact ⟨_, rfl⟩

theorem npMax_exists {F : Type} [PyNum F] {l : List F} (h : l ≠ []) : ∃ m, npMax l = .ok m := by
  cases l with
  | nil => exact absurd rfl h
  | cons x l => exact ⟨_, rfl⟩

theorem npAbs_real (x : ℝ) : npAbs x = |x| := by
  simp only [npAbs, Nat.cast_zero]
  split_ifs with h
  · rw [abs_of_neg h]
  · rw [abs_of_nonneg (not_lt.mp h)]

theorem npSum_real (l : List ℝ) : npSum l = l.sum := by
  have : ∀ (l : List ℝ) (a : ℝ), l.foldl (· + ·) a = a + l.sum := by
    intro l
    induction l with
    | nil => simp
    | cons x l ih => intro a; rw [List.foldl_cons, ih, List.sum_cons, add_assoc]
  rw [npSum, this, zero_add]

/-! ### `arange` -/

theorem arangeAt_real (start step : ℝ) (i : ℕ) : arangeAt start step i = start + i * step := by
  simp only [arangeAt]; ring

theorem lt_arangeLen {start stop step : ℝ} (hs : 0 < step) {i : ℕ} :
    i < arangeLen start stop step ↔ start + i * step < stop := by
  simp only [arangeLen, ceilZ_real]
  rw [Int.lt_toNat, Int.lt_ceil, lt_div_iff₀ hs, Int.cast_natCast]
  constructor <;> intro h <;> linarith

theorem arange_ok {start stop step : ℝ} (hs : 0 < step) :
    arange start stop step = .ok ((List.range (arangeLen start stop step)).map (fun i : ℕ => start + (i : ℝ) * step)) := by
  simp only [arange, decEq_real, decide_eq_true_eq, hs.ne', if_false, Except.ok.injEq]
  refine List.map_congr_left fun i _ => arangeAt_real _ _ _

/-! ### Counting in bins -/

/-- Adjacent half-open bins partition their union. -/
theorem countP_bins (e : ℕ → ℝ) (he : Monotone e) (l : List ℝ) (k : ℕ) :
    ∑ j ∈ Finset.range k, l.countP (fun x => decide (e j ≤ x ∧ x < e (j + 1))) =
      l.countP (fun x => decide (e 0 ≤ x ∧ x < e k)) := by
  induction k with
  | zero =>
    simp only [Finset.range_zero, Finset.sum_empty]
    symm
    rw [List.countP_eq_zero]
    intro x _
    simp only [decide_eq_true_eq, not_and, not_lt, imp_self]
  | succ k ih =>
    rw [Finset.sum_range_succ, ih]
    clear ih
    have h0 := he (Nat.zero_le k)
    have h1 := he (Nat.le_succ k)
    induction l with
    | nil => simp
    | cons x l ih =>
      simp only [List.countP_cons, decide_eq_true_eq]
      by_cases ha : e 0 ≤ x <;> by_cases hb : x < e k <;> by_cases hc : e k ≤ x <;> by_cases hd : x < e (k + 1) <;>
        simp only [ha, hb, hc, hd, and_true, and_false, true_and, false_and, if_true, if_false] <;>
        first | omega | (exfalso; simp only [Nat.succ_eq_add_one] at h1; linarith)

end Verif.Np
