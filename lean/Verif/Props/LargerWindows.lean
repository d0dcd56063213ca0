import Verif.Props.Regions
import Verif.Props.KeptPairs

/-!
# Property C126: larger windows remove no fewer events
-/

namespace Verif.Declustering

open Verif Verif.CatUtil Spec

section
variable {n : Nat}

/-- A removed event lies in the windows of another event. -/
theorem removed_in_windows {cat : Fin n → Row ℝ} {opt : String} {fs : ℝ} {asc id1 : Equiv.Perm (Fin n)} {r : Result ℝ n} {t : Fin n → ℝ}
    {win : ℝ → ℝ × ℝ} (h1 : IsArgsort (flipud asc) id1) (h : gardnerKnopoff cat opt fs asc id1 = .ok r) (ht : Times cat t)
    (hw : timeDistWindow opt = .ok win) {j : Fin n} (hj : r.flag j ≠ 0) : ∃ i, i ≠ j ∧ InWindows cat t win fs i j := by
  obtain ⟨t', win', ht', hw', hc⟩ := C36_gk_windows cat opt fs asc id1 r h1 h
  obtain rfl := times_unique cat _ _ ht ht'
  obtain rfl : win = win' := Except.ok.inj (hw.symm.trans hw')
  obtain ⟨i, hi⟩ := hc _ ((C35_gk_flag_cluster cat opt fs asc id1 r h1 h j).2.1 hj) ⟨j, rfl⟩
  obtain ⟨a, b, -⟩ := hi j rfl
  refine ⟨i, ?_, a⟩
  rintro rfl
  exact hj (b.mpr rfl)

/-- The windows of the second run contain those of the first. -/
def Spec.WindowsWithin (cat : Fin n → Row ℝ) (win win' : ℝ → ℝ × ℝ) (fs fs' : ℝ) : Prop :=
  ∀ t, Times cat t → ∀ i j, InWindows cat t win fs i j → InWindows cat t win' fs' i j

/-- **C126, part that holds**: events removed with the smaller windows are removed with the larger ones if, for the larger windows, no event
lies in the windows of a smaller one and the windows of an event in the windows of another add no event.  Missing: other catalogues, where
an event that removes others may itself be removed (`C126_fails`). -/
theorem C126_removed_partial (cat : Fin n → Row ℝ) {opt opt' : String} {fs fs' : ℝ} {win win' : ℝ → ℝ × ℝ} {asc id1 asc' id1' : Equiv.Perm (Fin n)}
    {r r' : Result ℝ n} (h1 : IsArgsort (flipud asc) id1) (h0' : IsArgsort (fun j => cat j 5) asc') (h1' : IsArgsort (flipud asc') id1')
    (hw : timeDistWindow opt = .ok win) (hw' : timeDistWindow opt' = .ok win')
    (h : gardnerKnopoff cat opt fs asc id1 = .ok r) (h' : gardnerKnopoff cat opt' fs' asc' id1' = .ok r')
    (hsub : Spec.WindowsWithin cat win win' fs fs')
    (hlarge : ∀ t, Times cat t → ∀ i j, i ≠ j → InWindows cat t win' fs' i j → cat j 5 < cat i 5)
    (htrans : ∀ t, Times cat t → ∀ i j k, InWindows cat t win' fs' i j → InWindows cat t win' fs' j k → InWindows cat t win' fs' i k)
    (j : Fin n) (hj : r.flag j ≠ 0) : r'.flag j ≠ 0 := by
  obtain ⟨t, win2, ht, hw2, hkeep⟩ := C115_gk_no_kept_pair cat opt' fs' asc' id1' r' h0' h1' h'
  obtain rfl : win' = win2 := Except.ok.inj (hw'.symm.trans hw2)
  -- an event in the windows of another one is in those of a kept one
  have climb : ∀ (m : ℕ) (i : Fin n), i ≠ j → InWindows cat t win' fs' i j → (Finset.univ.filter fun k => cat i 5 < cat k 5).card ≤ m →
      r'.flag j ≠ 0 := by
    intro m
    induction m with
    | zero =>
      intro i hij hin hm
      by_cases hi : r'.flag i = 0
      · exact hkeep i j hi (hlarge t ht i j hij hin) hin
      · obtain ⟨k, hki, hk⟩ := removed_in_windows h1' h' ht hw' hi
        have hlt := hlarge t ht k i hki hk
        have : k ∈ Finset.univ.filter fun k => cat i 5 < cat k 5 := by simpa using hlt
        rw [Nat.le_zero, Finset.card_eq_zero] at hm
        rw [hm] at this
        simp at this
    | succ m ih =>
      intro i hij hin hm
      by_cases hi : r'.flag i = 0
      · exact hkeep i j hi (hlarge t ht i j hij hin) hin
      · obtain ⟨k, hki, hk⟩ := removed_in_windows h1' h' ht hw' hi
        have hlt := hlarge t ht k i hki hk
        have hji := hlarge t ht i j hij hin
        refine ih k (by rintro rfl; exact lt_asymm hlt hji) (htrans t ht k i j hk hin) ?_
        have hss : (Finset.univ.filter fun l => cat k 5 < cat l 5) ⊂ Finset.univ.filter fun l => cat i 5 < cat l 5 := by
          rw [Finset.ssubset_iff_of_subset]
          · exact ⟨k, by simpa using hlt, by simp⟩
          · intro l hl
            simp only [Finset.mem_filter, Finset.mem_univ, true_and] at hl ⊢
            exact hlt.trans hl
        have := Finset.card_lt_card hss
        omega
  obtain ⟨i, hij, hin⟩ := removed_in_windows h1 h ht hw hj
  exact climb _ i hij (hsub t ht i j hin) le_rfl

/-- A larger foreshock fraction gives larger windows. -/
theorem windows_within {cat : Fin n → Row ℝ} {opt : String} {win : ℝ → ℝ × ℝ} (hw : timeDistWindow opt = .ok win) {fs fs' : ℝ} (h : fs ≤ fs') :
    Spec.WindowsWithin cat win win fs fs' := by
  rintro t - i j ⟨a, b, c⟩
  refine ⟨?_, b, c⟩
  have := (C47_windows_positive opt win hw (cat i 5)).2
  have : (win (cat i 5)).2 * fs ≤ (win (cat i 5)).2 * fs' := mul_le_mul_of_nonneg_left h this.le
  linarith

end

/-! ### A larger foreshock window can rescue the main shock -/

/-- Declustering `cat122` with foreshock windows as long as the aftershock windows. -/
theorem run126 : ∃ r, gardnerKnopoff cat122 "GardnerKnopoff" 1 Fin.revPerm (Equiv.refl _) = .ok r ∧ r.flag = ![0, -1, 0] := by
  have h := evs_gk ![2000, 2000, 2000] ![29, 1, 1] ![0, 0, 40] ![6, 5, 4] "GardnerKnopoff" 1 gkWindow gk_opt
    ![![true, true, false], ![true, true, false], ![false, false, false]] (by
    obtain ⟨⟨a1, a2, a3, a4⟩, ⟨b1, b2, b3⟩, -⟩ := windows122
    have h1 := Real.pi_gt_d4
    intro i j hi
    apply bool_eq_of_iff
    rw [evs_windows _ _ _ _ _ _ _ _ (by fin_cases i <;> fin_cases j <;> norm_num)]
    fin_cases i <;> fin_cases j <;> simp at hi ⊢ <;> norm_num at * <;>
      (first | (refine ⟨?_, ?_, ?_⟩ <;> linarith) | (refine ⟨?_, ?_⟩ <;> linarith) | (intros; linarith)))
  simp only at h
  set s := ((List.finRange 3).take (3 - 1)).foldl (genStep ![![true, true, false], ![true, true, false], ![false, false, false]] (fun i j => decide
    (0 ≤ 365 * (![(2000 : ℤ), 2000, 2000] j - ![2000, 2000, 2000] i) + (![(29 : ℤ), 1, 1] j - ![29, 1, 1] i)))) (State.init 3) with hs
  have hf : s.flag = ![0, -1, 0] := by rw [hs]; decide
  exact ⟨_, h, hf⟩

/-- **C126 is false**: with the foreshock fraction 0.05 the magnitude 5 event removes the magnitude 6 event four weeks later; with the fraction
1 it is removed itself, and the magnitude 6 event is kept. -/
theorem C126_fails : ¬ ∀ (n : Nat) (cat : Fin n → Row ℝ) (opt opt' : String) (fs fs' : ℝ) (win win' : ℝ → ℝ × ℝ) (asc id1 asc' id1' : Equiv.Perm (Fin n))
    (r r' : Result ℝ n), Function.Injective (fun j => cat j 5) → IsArgsort (fun j => cat j 5) asc → IsArgsort (flipud asc) id1 →
    IsArgsort (fun j => cat j 5) asc' → IsArgsort (flipud asc') id1' → timeDistWindow opt = .ok win → timeDistWindow opt' = .ok win' → 0 ≤ fs → fs ≤ 1 → 0 ≤ fs' →
    fs' ≤ 1 → Spec.WindowsWithin cat win win' fs fs' → gardnerKnopoff cat opt fs asc id1 = .ok r → gardnerKnopoff cat opt' fs' asc' id1' = .ok r' →
    ∀ j, r.flag j ≠ 0 → r'.flag j ≠ 0 := by
  intro H
  obtain ⟨r, hr, hf⟩ := run122
  obtain ⟨r', hr', hf'⟩ := run126
  have h := H 3 cat122 _ _ 0.05 1 gkWindow gkWindow _ _ _ _ r r' cat122_injective (argsort_rev _ cat122_desc) argsort_flip_rev
    (argsort_rev _ cat122_desc) argsort_flip_rev gk_opt gk_opt (by norm_num) (by norm_num) (by norm_num) (by norm_num)
    (windows_within gk_opt (by norm_num)) hr hr' 0
  rw [hf, hf'] at h
  simp at h

/-- A main shock with two aftershocks, of 1, 11 and 20 January. -/
noncomputable def cat126 : Fin 3 → Row ℝ := evs ![2000, 2000, 2000] ![1, 11, 20] ![0, 0, 0] ![6, 5, 4]

theorem in126 (t : Fin 3 → ℝ) (ht : Times cat126 t) (i j : Fin 3) : InWindows cat126 t gkWindow 0.05 i j ↔ i ≤ j := by
  obtain rfl := times_unique _ _ _ (evs_times ![2000, 2000, 2000] ![1, 11, 20] ![0, 0, 0] ![6, 5, 4]) ht
  obtain ⟨⟨a1, a2, a3, a4⟩, ⟨b1, b2, b3⟩, -⟩ := windows122
  have b4 : (gkWindow (5 : ℝ)).2 < 0.5 := by
    rw [gk_time]
    have := ten_rpow_lt 182.5 (0.5409 * 5 - 0.547) 22 10 (by norm_num) (by norm_num) (by norm_num) (by norm_num)
    norm_num at this ⊢
    linarith
  have c1 : 0 ≤ (gkWindow (4 : ℝ)).1 := by rw [gk_space]; positivity
  have c2 : (gkWindow (4 : ℝ)).2 < 0.3 := by
    rw [gk_time]
    have := ten_rpow_lt 109.5 (0.5409 * 4 - 0.547) 2 1 (by norm_num) (by norm_num) (by norm_num) (by norm_num)
    norm_num at this ⊢
    linarith
  have c3 : 0 ≤ (gkWindow (4 : ℝ)).2 := (C47_windows_positive _ _ gk_opt 4).2.le
  have e := evs_windows ![2000, 2000, 2000] ![1, 11, 20] ![0, 0, 0] ![6, 5, 4] gkWindow 0.05 i j (by fin_cases i <;> fin_cases j <;> norm_num)
  rw [sel_iff] at e
  rw [show cat126 = evs ![2000, 2000, 2000] ![1, 11, 20] ![0, 0, 0] ![6, 5, 4] from rfl, e]
  fin_cases i <;> fin_cases j <;> simp <;> norm_num at * <;>
    (first | (refine ⟨?_, ?_, ?_⟩ <;> linarith) | (refine ⟨?_, ?_⟩ <;> linarith) | (intros; linarith))

/-- The hypotheses of `C126_removed_partial` hold for `cat126` and the foreshock fractions 0 and 0.05. -/
example (r r' : Result ℝ 3) (h : gardnerKnopoff cat126 "GardnerKnopoff" 0 Fin.revPerm (Equiv.refl _) = .ok r)
    (h' : gardnerKnopoff cat126 "GardnerKnopoff" 0.05 Fin.revPerm (Equiv.refl _) = .ok r') (j : Fin 3) (hj : r.flag j ≠ 0) : r'.flag j ≠ 0 := by
  have hdesc : ∀ a b : Fin 3, a ≤ b → cat126 b 5 ≤ cat126 a 5 := by
    intro a b h
    revert h
    fin_cases a <;> fin_cases b <;> simp [cat126, evs, ev] <;> norm_num
  refine C126_removed_partial cat126 argsort_flip_rev (argsort_rev _ hdesc) argsort_flip_rev gk_opt gk_opt h h'
    (windows_within gk_opt (by norm_num)) ?_ ?_ j hj
  · intro t ht i j hij hin
    rw [in126 t ht] at hin
    revert hij hin
    fin_cases i <;> fin_cases j <;> simp [cat126, evs, ev] <;> norm_num
  · intro t ht i j k h1 h2
    rw [in126 t ht] at h1 h2 ⊢
    exact h1.trans h2

end Verif.Declustering
