import Verif.Props.Completeness

/-!
# C130: flag vectors of another length than the catalogue
-/

namespace Verif.Completeness

open Verif Verif.Np

/-- **C130**, what holds: with two or more events (or none) a flag vector of another length is refused unless it has exactly one entry. -/
theorem C130_refused_partial {F : Type} [PyNum F] (ev table : List (F × F)) (flag : List Int) (h : flag.length ≠ ev.length) (h1 : flag.length ≠ 1) (h2 : ev.length ≠ 1) :
    selectedEqFlagVector ev table flag = .error .valueError := by
  have hl := mark_fold_length ev table (List.replicate ev.length 0) (by simp)
  unfold selectedEqFlagVector
  simp only [if_neg h]
  generalize table.foldl (markRow ev) (List.replicate ev.length 0) = t at hl
  rcases flag with _ | ⟨f, _ | ⟨g, fs⟩⟩
  · rcases t with _ | ⟨a, _ | ⟨b, t⟩⟩
    · rfl
    · simp at hl; omega
    · rfl
  · simp at h1
  · rcases t with _ | ⟨a, _ | ⟨b, t⟩⟩
    · rfl
    · simp at hl; omega
    · rfl

/-- **C130**: a vector with one entry is taken as the flag of every event. -/
theorem C130_one_flag {F : Type} [PyNum F] (ev table : List (F × F)) (f : Int) :
    selectedEqFlagVector ev table [f] = selectedEqFlagVector ev table (List.replicate ev.length f) := by
  have hl := mark_fold_length ev table (List.replicate ev.length 0) (by simp)
  unfold selectedEqFlagVector
  simp only [List.length_cons, List.length_nil, zero_add, List.length_replicate, if_true]
  generalize table.foldl (markRow ev) (List.replicate ev.length 0) = t at hl
  split_ifs with h
  · rw [← h]; rfl
  · congr 1
    rw [← hl]
    clear hl h
    induction t with
    | nil => rfl
    | cons a t ih => simp only [List.map_cons, List.length_cons, List.replicate_succ, List.zipWith_cons_cons, ih]

/-- **C130**: for a single event every length is accepted as long as the entries after the first are zero and, if there are any, the event is complete; without flags the event is kept even if
it is incomplete; otherwise an index beyond the catalogue is reported. -/
theorem C130_one_event {F : Type} [PyNum F] (e : F × F) (table : List (F × F)) :
    selectedEqFlagVector [e] table [] = .ok [0] ∧
      ∀ (f : Int) (fs : List Int), fs ≠ [] →
        ((∀ g ∈ fs, g = 0) ∧ (∀ c ∈ table, ¬ (e.1 < c.1 ∧ e.2 < c.2)) → selectedEqFlagVector [e] table (f :: fs) = .ok [if f = 0 then 0 else 1]) ∧
        (¬ ((∀ g ∈ fs, g = 0) ∧ ∀ c ∈ table, ¬ (e.1 < c.1 ∧ e.2 < c.2)) → selectedEqFlagVector [e] table (f :: fs) = .error .indexError) := by
  have hl := mark_fold_length [e] table (List.replicate [e].length 0) (by simp)
  obtain ⟨out, ho, hlo, hg⟩ := C27_selection [e] table [0] rfl
  have hg0 := hg 0 (by simp) (by rw [hlo]; simp)
  unfold selectedEqFlagVector at ho ⊢
  simp only at ho ⊢
  generalize table.foldl (markRow [e]) (List.replicate [e].length 0) = t at hl ho
  obtain ⟨a, rfl⟩ : ∃ a, t = [a] := List.length_eq_one_iff.mp hl
  simp only [List.length_cons, List.length_nil, if_true, List.zipWith_cons_cons, List.zipWith_nil_right, Except.ok.injEq] at ho
  subst ho
  have ha : a ≠ 0 ↔ ∃ c ∈ table, e.1 < c.1 ∧ e.2 < c.2 := by
    have := hg0.2
    simp only [List.getElem_cons_zero, ne_eq, not_true_eq_false, false_or] at this
    rw [← this]
    simp [mergeFlag]
  refine ⟨by simp, fun f fs hfs => ?_⟩
  have hne : ¬ (f :: fs).length = [e].length := by
    simp only [List.length_cons, List.length_nil]
    have := List.length_pos_iff.mpr hfs
    omega
  rcases fs with _ | ⟨g, fs⟩
  · exact absurd rfl hfs
  simp only [if_neg hne]
  have hall : (g :: fs).all (fun x => decide (mergeFlag a x = 0)) = true ↔ (∀ x ∈ g :: fs, x = 0) ∧ a = 0 := by
    rw [List.all_eq_true]
    simp only [mergeFlag]
    constructor
    · intro h
      have h' : ∀ x ∈ g :: fs, a = 0 ∧ x = 0 := fun x hx => by
        have := h x hx
        by_cases h1 : a = 0 <;> by_cases h2 : x = 0 <;> simp_all
      exact ⟨fun x hx => (h' x hx).2, (h' g (by simp)).1⟩
    · rintro ⟨h, rfl⟩ x hx
      simp [h x hx]
  have hc : (∀ c ∈ table, ¬ (e.1 < c.1 ∧ e.2 < c.2)) ↔ a = 0 := by
    rw [← not_iff_not, ← ne_eq a, ha]; push Not; rfl
  rw [hc]
  constructor
  · intro h
    rw [if_pos (hall.mpr h)]
    obtain ⟨_, rfl⟩ := h
    by_cases hf : f = 0 <;> simp [mergeFlag, hf]
  · intro h
    rw [if_neg (fun hh => h (hall.mp hh))]

/-- **C130 fails**: one flag for two events is accepted and removes both. -/
theorem C130_refused_fails : ¬ ∀ (ev table : List (ℚ × ℚ)) (flag : List Int), flag.length ≠ ev.length → ∃ err, selectedEqFlagVector ev table flag = .error err := by
  intro hall
  obtain ⟨err, h⟩ := hall [(1990, 5), (1995, 6)] [(1980, 4)] [1] (by simp)
  rw [C130_one_flag] at h
  obtain ⟨out, ho, -⟩ := C27_selection [((1990 : ℚ), (5 : ℚ)), (1995, 6)] [(1980, 4)] [1, 1] rfl
  rw [show List.replicate [((1990 : ℚ), (5 : ℚ)), (1995, 6)].length (1 : Int) = [1, 1] from rfl, ho] at h
  cases h

/-- The cases: three flags for two events; one for two; three for one. -/
example : selectedEqFlagVector [((1990 : ℚ), (5 : ℚ)), (1995, 6)] [(1980, 4)] [0, 0, 1] = .error .valueError :=
  C130_refused_partial _ _ _ (by simp) (by simp) (by simp)

example : selectedEqFlagVector [((1990 : ℚ), (5 : ℚ)), (1995, 6)] [(1992, 5.5)] [0] = .ok [1, 0] := by decide +kernel

example : selectedEqFlagVector [((1990 : ℚ), (5 : ℚ))] [(1980, 4)] [1, 0, 0] = .ok [1] ∧ selectedEqFlagVector [((1990 : ℚ), (5 : ℚ))] [(1980, 4)] [1, 0, 1] = .error .indexError := by
  constructor <;> decide +kernel

end Verif.Completeness
