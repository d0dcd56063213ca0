import Verif.Lemmas.Numpy
import Verif.Lemmas.Recurrence
import Verif.Lemmas.Weichert
import Verif.Lemmas.Completeness
import Verif.Lemmas.Cells

/-! # How the numpy functions react to reordering, repetition and translation of their argument -/

namespace Verif.Np

open Verif

theorem npMin_congr {l l' : List ℝ} (h : ∀ y, y ∈ l ↔ y ∈ l') : npMin l = npMin l' := by
  cases l with
  | nil =>
    cases l' with
    | nil => rfl
    | cons x l' => exact absurd ((h x).mpr (List.mem_cons_self)) (by simp)
  | cons x l =>
    obtain ⟨m, hm⟩ := npMin_exists (List.cons_ne_nil x l)
    rw [hm]
    symm
    rw [npMin_iff] at hm ⊢
    simpa only [h] using hm

theorem npMax_congr {l l' : List ℝ} (h : ∀ y, y ∈ l ↔ y ∈ l') : npMax l = npMax l' := by
  cases l with
  | nil =>
    cases l' with
    | nil => rfl
    | cons x l' => exact absurd ((h x).mpr (List.mem_cons_self)) (by simp)
  | cons x l =>
    obtain ⟨m, hm⟩ := npMax_exists (List.cons_ne_nil x l)
    rw [hm]
    symm
    rw [npMax_iff] at hm ⊢
    simpa only [h] using hm

theorem foldl_min_add (l : List ℝ) (x c : ℝ) : (l.map (· + c)).foldl (fun a y => if y < a then y else a) (x + c) =
    l.foldl (fun a y => if y < a then y else a) x + c := by
  induction l generalizing x with
  | nil => rfl
  | cons y l ih =>
    simp only [List.map_cons, List.foldl_cons, add_lt_add_iff_right]
    rw [← ih]
    congr 1
    split_ifs <;> rfl

theorem foldl_max_add (l : List ℝ) (x c : ℝ) : (l.map (· + c)).foldl (fun a y => if a < y then y else a) (x + c) =
    l.foldl (fun a y => if a < y then y else a) x + c := by
  induction l generalizing x with
  | nil => rfl
  | cons y l ih =>
    simp only [List.map_cons, List.foldl_cons, add_lt_add_iff_right]
    rw [← ih]
    congr 1
    split_ifs <;> rfl

theorem npMin_add (l : List ℝ) (c : ℝ) : npMin (l.map (· + c)) = (npMin l).map (· + c) := by
  cases l with
  | nil => rfl
  | cons x l => simp only [npMin, minimum_fun, List.map_cons, foldl_min_add, Except.map]

theorem npMax_add (l : List ℝ) (c : ℝ) : npMax (l.map (· + c)) = (npMax l).map (· + c) := by
  cases l with
  | nil => rfl
  | cons x l => simp only [npMax, maximum_fun, List.map_cons, foldl_max_add, Except.map]

theorem arangeLen_add (a b s c : ℝ) : arangeLen (a + c) (b + c) s = arangeLen a b s := by
  simp only [arangeLen, add_sub_add_right_eq_sub]

theorem arangeAt_add (a s c : ℝ) (i : ℕ) : arangeAt (a + c) s i = arangeAt a s i + c := by
  simp only [arangeAt_real]; ring

theorem inBin_add {e e' : ℕ → ℝ} {c : ℝ} (he : ∀ i, e' i = e i + c) (nb j : ℕ) (x : ℝ) : inBin e' nb j (x + c) = inBin e nb j x := by
  simp only [inBin, he, add_le_add_iff_right, add_lt_add_iff_right]

theorem mem_map_congr {α β : Type} {l l' : List α} (h : ∀ e, e ∈ l ↔ e ∈ l') (f : α → β) (y : β) : y ∈ l.map f ↔ y ∈ l'.map f := by
  simp only [List.mem_map, h]

end Verif.Np

/-! ### Every event the same number of times -/

namespace Verif.Recurrence

open Verif Verif.Np

/-- `l'` has the elements of `l`, each `k` times as often. -/
def Times {α : Type} (k : ℕ) (l l' : List α) : Prop := l'.Perm (l.flatMap (List.replicate k))

section
variable {α β : Type} {k : ℕ} {l l' : List α}

theorem Times.mem (h : Times k l l') (hk : 0 < k) (e : α) : e ∈ l' ↔ e ∈ l := by
  rw [List.Perm.mem_iff h]
  simp only [List.mem_flatMap, List.mem_replicate]
  exact ⟨fun ⟨a, ha, _, he⟩ => he ▸ ha, fun he => ⟨e, he, hk.ne', rfl⟩⟩

theorem Times.countP (h : Times k l l') (p : α → Bool) : l'.countP p = k * l.countP p := by
  rw [List.Perm.countP_eq p h]
  clear h
  induction l with
  | nil => simp
  | cons x l ih =>
    simp only [List.flatMap_cons, List.countP_append, ih, List.countP_replicate, List.countP_cons]
    split_ifs <;> ring

theorem Times.length (h : Times k l l') : l'.length = k * l.length := by
  have := h.countP (fun _ => true)
  simpa using this

theorem Times.filter (h : Times k l l') (p : α → Bool) : Times k (l.filter p) (l'.filter p) := by
  refine (List.Perm.filter p h).trans (List.Perm.of_eq ?_)
  clear h
  induction l with
  | nil => simp
  | cons x l ih =>
    simp only [List.flatMap_cons, List.filter_append, ih, List.filter_cons, List.filter_replicate]
    split_ifs <;> simp

theorem Times.map (h : Times k l l') (f : α → β) : Times k (l.map f) (l'.map f) := by
  refine (List.Perm.map f h).trans (List.Perm.of_eq ?_)
  clear h
  induction l with
  | nil => simp
  | cons x l ih => simp [List.map_flatMap, List.map_replicate, List.flatMap_map]

theorem Times.one (h : l'.Perm l) : Times 1 l l' := by
  have : ∀ l : List α, l.flatMap (List.replicate 1) = l := by
    intro l
    induction l with
    | nil => rfl
    | cons x l ih => rw [List.flatMap_cons, ih]; rfl
  rwa [Times, this]

end

end Verif.Recurrence
