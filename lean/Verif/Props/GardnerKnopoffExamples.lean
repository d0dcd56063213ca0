import Verif.Lemmas.Concrete

/-!
# C37 and C39 refuted, and concrete runs meeting the hypotheses of the Gardner–Knopoff theorems
-/

namespace Verif.Declustering

open Verif Verif.CatUtil Spec

theorem bool_eq_of_iff {a b : Bool} (h : a = true ↔ b = true) : a = b := by
  cases a <;> cases b <;> simp_all

theorem gk_opt : timeDistWindow (F := ℝ) "GardnerKnopoff" = .ok gkWindow := by simp [timeDistWindow]

/-- Magnitude 7 on 10 January 2000, magnitude 6 at the same place on the 5th, magnitude 5 on the 20th 60 km away. -/
noncomputable def cat37 : Fin 3 → Row ℝ := evs ![2000, 2000, 2000] ![10, 5, 20] ![0, 0, 0.54] ![7, 6, 5]

/-- Which of the events (columns) lie in the windows of the first two (rows), without foreshock window. -/
def sel37 : Fin 3 → Fin 3 → Bool := ![![true, false, true], ![true, true, false], ![false, false, false]]

theorem run37 : gardnerKnopoff cat37 "GardnerKnopoff" 0 Fin.revPerm (Equiv.refl _) =
    .ok ⟨![2, 2, 1], [cat37 1], ![1, 0, 1]⟩ := by
  have h := evs_gk ![2000, 2000, 2000] ![10, 5, 20] ![0, 0, 0.54] ![7, 6, 5] "GardnerKnopoff" 0 gkWindow gk_opt sel37 (by
    obtain ⟨⟨a1, a2⟩, ⟨b1, b2, b3⟩, -⟩ := gk_windows_examples
    have h1 := Real.pi_gt_d4
    have h2 := Real.pi_lt_d4
    intro i j hi
    apply bool_eq_of_iff
    rw [evs_windows _ _ _ _ _ _ _ _ (by fin_cases i <;> fin_cases j <;> norm_num)]
    fin_cases i <;> fin_cases j <;> simp [sel37] at hi ⊢ <;> norm_num [abs_of_pos] <;>
      (first | (refine ⟨?_, ?_⟩ <;> linarith) | (intro _; linarith)))
  simp only at h
  set s := ((List.finRange 3).take (3 - 1)).foldl (genStep sel37 (fun i j => decide
    (0 ≤ 365 * (![(2000 : ℤ), 2000, 2000] j - ![2000, 2000, 2000] i) + (![(10 : ℤ), 5, 20] j - ![10, 5, 20] i)))) (State.init 3) with hs
  have hv : s.vcl = ![2, 2, 1] := by rw [hs]; decide
  have hf : s.flag = ![1, 0, 1] := by rw [hs]; decide
  rw [hv, hf] at h
  have hu : unflagged cat37 ![1, 0, 1] = [cat37 1] := by
    simp [unflagged, List.finRange_succ]
  rw [← hu]
  exact h

theorem cat37_desc (a b : Fin 3) (h : a ≤ b) : cat37 b 5 ≤ cat37 a 5 := by
  revert h
  fin_cases a <;> fin_cases b <;> simp [cat37, evs, ev] <;> norm_num

/-- **C37 is false of the code**: the two events of cluster 1 can lose their main event to a later cluster. -/
theorem C37_one_kept_fails :
    ¬ ∀ (n : Nat) (cat : Fin n → Row ℝ) (opt : String) (fs : ℝ) (asc id1 : Equiv.Perm (Fin n)) (r : Result ℝ n),
      IsArgsort (fun j => cat j 5) asc → IsArgsort (flipud asc) id1 → gardnerKnopoff cat opt fs asc id1 = .ok r →
      ∀ c, 0 < c → (∃ j, r.vcl j = c) → ∃! j, r.vcl j = c ∧ r.flag j = 0 := by
  intro hall
  obtain ⟨j, ⟨h1, h2⟩, -⟩ := hall 3 cat37 "GardnerKnopoff" 0 Fin.revPerm (Equiv.refl _) _ (argsort_rev _ cat37_desc)
    argsort_flip_rev run37 1 (by norm_num) ⟨2, rfl⟩
  fin_cases j <;> simp at h1 h2

/-- **C39 is false of the code**: a smaller foreshock takes the largest event as its aftershock. -/
theorem C39_largest_survives_fails :
    ¬ ∀ (n : Nat) (cat : Fin n → Row ℝ) (opt : String) (fs : ℝ) (asc id1 : Equiv.Perm (Fin n)) (r : Result ℝ n),
      IsArgsort (fun j => cat j 5) asc → IsArgsort (flipud asc) id1 → gardnerKnopoff cat opt fs asc id1 = .ok r →
      ∀ e, (∀ j, j ≠ e → cat j 5 < cat e 5) → cat e ∈ r.vmain := by
  intro hall
  have h := hall 3 cat37 "GardnerKnopoff" 0 Fin.revPerm (Equiv.refl _) _ (argsort_rev _ cat37_desc)
    argsort_flip_rev run37 0 (by
      intro j hj
      fin_cases j <;> simp [cat37, evs, ev] at hj ⊢ <;> norm_num)
  simp only [List.mem_singleton] at h
  have := congrFun h 5
  simp [cat37, evs, ev] at this

/-! ### The hypotheses of the theorems can be met -/

/-- C34, C35, C36, C37 (partial), C38: `run37` is a run with two overlapping clusters, a kept, an earlier and later removed event. -/
example : ∃ r, gardnerKnopoff cat37 "GardnerKnopoff" 0 Fin.revPerm (Equiv.refl _) = .ok r ∧
    IsArgsort (flipud (Fin.revPerm : Equiv.Perm (Fin 3))) (Equiv.refl _) ∧ r.flag 0 = 1 ∧ r.vcl 0 = 2 ∧ r.vcl 2 = 1 :=
  ⟨_, run37, argsort_flip_rev, rfl, rfl, rfl⟩

/-- C40: a catalogue with equal magnitudes whose smallest magnitude occurs once. -/
example : ∀ j k, (∀ l, evs ![2000, 2000, 2000] ![1, 2, 3] ![0, 1, 40] ![6, 6, 5] j 5 ≤ evs ![2000, 2000, 2000] ![1, 2, 3] ![0, 1, 40] ![6, 6, 5] l 5) →
    (∀ l, evs ![2000, 2000, 2000] ![1, 2, 3] ![0, 1, 40] ![6, 6, 5] k 5 ≤ evs ![2000, 2000, 2000] ![1, 2, 3] ![0, 1, 40] ![6, 6, 5] l 5) → j = k := by
  have key : ∀ j, (∀ l, evs ![2000, 2000, 2000] ![1, 2, 3] ![0, 1, 40] ![6, 6, 5] j 5 ≤ evs ![2000, 2000, 2000] ![1, 2, 3] ![0, 1, 40] ![6, 6, 5] l 5) → j = 2 := by
    intro j hj
    have := hj 2
    fin_cases j <;> simp [evs, ev] at this ⊢ <;> norm_num at this
  exact fun j k hj hk => (key j hj).trans (key k hk).symm

/-- C40, C41: its magnitudes are distinct. -/
example : Function.Injective (fun j => cat37 j 5) := by
  intro a b h
  fin_cases a <;> fin_cases b <;> simp [cat37, evs, ev] at h ⊢

/-- C39 (partial): with the Uhrhammer windows and a full foreshock window the largest event of the same catalogue survives. -/
example : ∃ r, gardnerKnopoff cat37 "Uhrhammer" 1 Fin.revPerm (Equiv.refl _) = .ok r ∧ cat37 0 ∈ r.vmain := by
  obtain ⟨r, hr⟩ := (C34_gk_succeeds cat37 "Uhrhammer" 1 Fin.revPerm (Equiv.refl _)).mpr ⟨by simp, _, evs_times _ _ _ _⟩
  refine ⟨r, hr, C39_symmetric_windows_partial cat37 "Uhrhammer" _ _ r (argsort_rev _ cat37_desc) argsort_flip_rev hr 0 ?_ ?_ ?_⟩
  · intro j hj
    fin_cases j <;> simp [cat37, evs, ev] at hj ⊢ <;> norm_num
  · intro j
    fin_cases j <;> simp [cat37, evs, ev]
  · intro h; exact absurd h (by decide)

/-- C46: two events 40 degrees apart. -/
example : ∀ t win, Times (evs ![2000, 2000] ![1, 2] ![0, 40] ![6, 5]) t → timeDistWindow "GardnerKnopoff" = .ok win →
    ∀ i j, InWindows (evs ![2000, 2000] ![1, 2] ![0, 40] ![6, 5]) t win 1 i j → i = j := by
  intro t win _ hw i j ⟨_, _, h3⟩
  rw [gk_opt] at hw
  cases hw
  obtain ⟨-, ⟨b1, b2, b3⟩, ⟨c1, c2, c3⟩⟩ := gk_windows_examples
  have hp := Real.pi_gt_d4
  rw [evs_dist _ _ _ _ _ _ (by fin_cases i <;> fin_cases j <;> norm_num)] at h3
  fin_cases i <;> fin_cases j <;> simp [evs, ev] at h3 ⊢ <;> nlinarith

end Verif.Declustering
