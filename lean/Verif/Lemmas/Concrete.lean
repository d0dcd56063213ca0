import Verif.Props.Windows

/-!
# Concrete catalogues

Events on days of January at longitude 0, for counterexamples and for showing that hypotheses can be met.
-/

namespace Verif.Declustering

open Verif Verif.CatUtil Spec

/-- A row of a catalogue matrix: an event on a day of January at longitude 0. -/
noncomputable def ev (year day : ℤ) (lat mag : ℝ) : Row ℝ := ![year, 1, day, 0, lat, mag, 0]

/-- Time of such an event. -/
theorem ev_time (year day : ℤ) (lat mag : ℝ) :
    decimalYear (ev year day lat mag 0) (ev year day lat mag 1) (ev year day lat mag 2) = .ok (year + ((day : ℝ) - 1) / 365) := by
  obtain ⟨k, hk, hx⟩ := decimalYear_date year 1 day (by norm_num) (by norm_num)
  simp [marker] at hk
  subst hk
  show decimalYear (year : ℝ) 1 day = _
  push_cast at hx
  rw [hx]
  norm_num

/-- A catalogue of such events. -/
noncomputable def evs {n : Nat} (year day : Fin n → ℤ) (lat mag : Fin n → ℝ) : Fin n → Row ℝ :=
  fun j => ev (year j) (day j) (lat j) (mag j)

/-- Their times. -/
noncomputable def evTimes {n : Nat} (year day : Fin n → ℤ) : Fin n → ℝ := fun j => year j + ((day j : ℝ) - 1) / 365

theorem evs_times {n : Nat} (year day : Fin n → ℤ) (lat mag : Fin n → ℝ) : Times (evs year day lat mag) (evTimes year day) :=
  fun j => ev_time (year j) (day j) (lat j) (mag j)

theorem evs_dist {n : Nat} (year day : Fin n → ℤ) (lat mag : Fin n → ℝ) (i j : Fin n) (h : |lat j - lat i| ≤ 180) :
    eventDist (evs year day lat mag) i j = 6371.227 * (Real.pi / 180 * |lat j - lat i|) := by
  show haversine (0 : ℝ) (lat j) 0 (lat i) _ = _
  exact haversine_meridian 0 _ _ 6371.227 h

theorem evs_windows {n : Nat} (year day : Fin n → ℤ) (lat mag : Fin n → ℝ) (win : ℝ → ℝ × ℝ) (fs : ℝ) (i j : Fin n)
    (h : |lat j - lat i| ≤ 180) :
    Sel (evs year day lat mag) (evTimes year day) win fs i j = true ↔
      -(win (mag i)).2 * fs ≤ ((year j - year i : ℤ) : ℝ) + ((day j - day i : ℤ) : ℝ) / 365 ∧
      ((year j - year i : ℤ) : ℝ) + ((day j - day i : ℤ) : ℝ) / 365 ≤ (win (mag i)).2 ∧
      6371.227 * (Real.pi / 180 * |lat j - lat i|) ≤ (win (mag i)).1 := by
  have ht : (year j + ((day j : ℝ) - 1) / 365) - (year i + ((day i : ℝ) - 1) / 365) =
      ((year j - year i : ℤ) : ℝ) + ((day j - day i : ℤ) : ℝ) / 365 := by push_cast; ring
  rw [sel_iff]
  unfold InWindows
  rw [evs_dist _ _ _ _ _ _ h]
  simp only [evTimes]
  rw [ht]
  exact Iff.rfl

theorem evs_late {n : Nat} (year day : Fin n → ℤ) (i j : Fin n) :
    Late (evTimes year day) i j = decide (0 ≤ 365 * (year j - year i) + (day j - day i)) := by
  unfold Late
  rw [decide_eq_decide]
  simp only [evTimes]
  have ht : (year j + ((day j : ℝ) - 1) / 365) - (year i + ((day i : ℝ) - 1) / 365) =
      ((365 * (year j - year i) + (day j - day i) : ℤ) : ℝ) / 365 := by push_cast; ring
  rw [ht, ge_iff_le]
  constructor
  · intro h
    have h2 : (0 : ℝ) ≤ ((365 * (year j - year i) + (day j - day i) : ℤ) : ℝ) := by
      by_contra hc
      rw [not_le] at hc
      have := div_neg_of_neg_of_pos hc (by norm_num : (0:ℝ) < 365)
      norm_num at h
      linarith
    exact_mod_cast h2
  · intro h
    have : (0 : ℝ) ≤ ((365 * (year j - year i) + (day j - day i) : ℤ) : ℝ) := by exact_mod_cast h
    have := div_nonneg this (by norm_num : (0:ℝ) ≤ 365)
    norm_num
    exact_mod_cast this

/-- A Gardner–Knopoff run on such a catalogue, listed in descending order of magnitude. -/
theorem evs_gk {n : Nat} (year day : Fin n → ℤ) (lat mag : Fin n → ℝ) (opt : String) (fs : ℝ) (win : ℝ → ℝ × ℝ)
    (hw : timeDistWindow opt = .ok win) (M : Fin n → Fin n → Bool)
    (hM : ∀ i j, i.val + 1 < n → Sel (evs year day lat mag) (evTimes year day) win fs i j = M i j) :
    (let s := ((List.finRange n).take (n - 1)).foldl
        (genStep M (fun i j => decide (0 ≤ 365 * (year j - year i) + (day j - day i)))) (State.init n)
     gardnerKnopoff (evs year day lat mag) opt fs Fin.revPerm (Equiv.refl _) =
      .ok ⟨s.vcl, unflagged (evs year day lat mag) s.flag, s.flag⟩) :=
  gk_table _ opt fs _ win ((decimalYears_times _ _).mpr (evs_times year day lat mag)) hw M _ hM (evs_late year day)

theorem argsort_rev {n : Nat} (key : Fin n → ℝ) (h : ∀ a b : Fin n, a ≤ b → key b ≤ key a) : IsArgsort key Fin.revPerm := by
  intro a b hab
  exact h _ _ (Fin.rev_le_rev.mpr hab)

theorem argsort_flip_rev {n : Nat} : IsArgsort (flipud (Fin.revPerm : Equiv.Perm (Fin n))) (Equiv.refl _) := by
  intro a b hab
  simpa [flipud] using hab

/-- Windows used in the examples. -/
theorem gk_windows_examples :
    (60.06 ≤ (gkWindow (7 : ℝ)).1 ∧ 1 ≤ (gkWindow (7 : ℝ)).2) ∧
    (0 ≤ (gkWindow (6 : ℝ)).1 ∧ (gkWindow (6 : ℝ)).1 < 60 ∧ 1 ≤ (gkWindow (6 : ℝ)).2) ∧
    (0 ≤ (gkWindow (5 : ℝ)).1 ∧ (gkWindow (5 : ℝ)).1 < 60 ∧ 0.1 ≤ (gkWindow (5 : ℝ)).2) := by
  simp only [gk_space, gk_time]
  refine ⟨⟨?_, ?_⟩, ⟨by positivity, ?_, ?_⟩, ⟨by positivity, ?_, ?_⟩⟩
  · exact le_ten_rpow _ _ 9 5 (by norm_num) (by norm_num) (by norm_num) (by norm_num)
  · rw [if_neg (by norm_num), le_div_iff₀ (by norm_num)]
    exact le_ten_rpow _ _ 8 3 (by norm_num) (by norm_num) (by norm_num) (by norm_num)
  · exact ten_rpow_lt _ _ 7 4 (by norm_num) (by norm_num) (by norm_num) (by norm_num)
  · rw [if_pos (by norm_num), le_div_iff₀ (by norm_num)]
    exact le_ten_rpow _ _ 8 3 (by norm_num) (by norm_num) (by norm_num) (by norm_num)
  · exact ten_rpow_lt _ _ 7 4 (by norm_num) (by norm_num) (by norm_num) (by norm_num)
  · rw [if_pos (by norm_num), le_div_iff₀ (by norm_num)]
    exact le_ten_rpow _ _ 2 1 (by norm_num) (by norm_num) (by norm_num) (by norm_num)

end Verif.Declustering
