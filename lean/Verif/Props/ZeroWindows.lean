import Verif.Props.AfteranExamples

/-! # C107: time windows of zero -/

namespace Verif.Declustering

open Verif Verif.CatUtil Spec

variable {n : Nat}

/-- **C107** (Gardner and Knopoff): with a foreshock time window of zero no event is flagged as a foreshock, and no event of a cluster is earlier
than the kept event of the cluster. -/
theorem C107_no_foreshocks (cat : Fin n → Row ℝ) (opt : String) (asc id1 : Equiv.Perm (Fin n)) (r : Result ℝ n)
    (h1 : IsArgsort (flipud asc) id1) (h : gardnerKnopoff cat opt 0 asc id1 = .ok r) :
    (∀ j, r.flag j ≠ -1) ∧
      ∃ t, Times cat t ∧ ∀ i j, 0 < r.vcl i → r.vcl j = r.vcl i → r.flag i = 0 → t i ≤ t j := by
  obtain ⟨t, win, ht, -, hall⟩ := C36_gk_windows cat opt 0 asc id1 r h1 h
  refine ⟨?_, t, ht, ?_⟩
  · intro j hj
    have hc := C35_gk_flag_cluster cat opt 0 asc id1 r h1 h j
    obtain ⟨i, hi⟩ := hall (r.vcl j) (hc.2.1 (by rw [hj]; decide)) ⟨j, rfl⟩
    obtain ⟨⟨hw, -, -⟩, -, hf, -⟩ := hi j rfl
    have := (hf.mp hj).2
    norm_num at this hw
    linarith
  · intro i j hpos hji hi0
    obtain ⟨i', hi'⟩ := hall (r.vcl i) hpos ⟨i, rfl⟩
    obtain rfl : i = i' := (hi' i rfl).2.1.mp hi0
    obtain ⟨⟨hw, -, -⟩, -⟩ := hi' j hji
    norm_num at hw
    exact hw

/-- **C107** (Afteran): with a time window of zero only events at the time of the kept event of their cluster are removed. -/
theorem C107_simultaneous (cat : Fin n → Row ℝ) (opt : String) (asc id1 : Equiv.Perm (Fin n)) (r : Result ℝ n)
    (h1 : IsArgsort (flipud asc) id1) (h : afteran cat opt 0 asc id1 = .ok r) :
    ∃ t, Times cat t ∧ ∀ j, r.flag j ≠ 0 → ∃ i, r.vcl i = r.vcl j ∧ r.flag i = 0 ∧ t i = t j := by
  obtain ⟨t, ht, hall⟩ := C44_afteran_chain cat opt 0 asc id1 r h1 h
  refine ⟨t, ht, fun j hj => ?_⟩
  have hf := (C34_afteran_mainshocks cat opt 0 asc id1 r h1 h).1 j
  rcases hf with hf | hf | hf
  · obtain ⟨e, he, h0, hch⟩ := (hall j).2 hf
    refine ⟨e, he, h0, ?_⟩
    generalize hC : (fun a => r.vcl a = r.vcl j) = C at hch
    clear hC he hf hj
    induction hch with
    | refl => rfl
    | tail _ hs ih =>
      obtain ⟨-, -, a, b⟩ := hs
      norm_num at b
      linarith
  · exact absurd hf hj
  · obtain ⟨e, he, h0, hch⟩ := (hall j).1 hf
    refine ⟨e, he, h0, ?_⟩
    generalize hC : (fun a => r.vcl a = r.vcl j) = C at hch
    clear hC he hf hj
    induction hch with
    | refl => rfl
    | tail _ hs ih =>
      obtain ⟨-, -, a, b⟩ := hs
      norm_num at b
      linarith

/-- **C107** (Afteran): with a negative time window nothing is removed. -/
theorem C107_negative (cat : Fin n → Row ℝ) (opt : String) (w : ℝ) (hw : w < 0) (asc id1 : Equiv.Perm (Fin n)) (r : Result ℝ n)
    (h1 : IsArgsort (flipud asc) id1) (h : afteran cat opt w asc id1 = .ok r) :
    (∀ j, r.vcl j = 0 ∧ r.flag j = 0) ∧ r.vmain = (List.finRange n).map cat :=
  C46_afteran_isolated_partial cat opt w asc id1 r h1 h fun t win _ _ => Or.inl fun i j hij => by
    have := abs_nonneg (t i - t j)
    exact absurd (this.trans hij) (not_le.mpr (div_neg_of_neg_of_pos hw (by norm_num)))

/-- Non-vacuity: `run37` has foreshock time window 0 and removes events; Afteran with time window 0 removes the smaller of two events of the same
day and place. -/
example : (∃ r, gardnerKnopoff cat37 "GardnerKnopoff" 0 Fin.revPerm (Equiv.refl _) = .ok r ∧ r.flag 2 = 1) ∧
    ∃ r, afteran (evs ![2000, 2000] ![1, 1] ![0, 0] ![7, 6]) "GardnerKnopoff" 0 Fin.revPerm (Equiv.refl _) = .ok r ∧ r.flag 1 = 1 := by
  refine ⟨⟨_, run37, rfl⟩, ?_⟩
  have hD : ∀ i j : Fin 2, (fun _ _ => true : Fin 2 → Fin 2 → Bool) i j = true ↔
      6371.227 * (Real.pi / 180 * |![(0 : ℝ), 0] j - ![0, 0] i|) ≤ (gkWindow (![(7 : ℝ), 6] i)).1 := by
    intro i j
    obtain ⟨⟨a1, a2⟩, ⟨b1, b2, b3⟩, -⟩ := gk_windows_examples
    fin_cases i <;> fin_cases j <;> simp <;> linarith
  have h := evs_af ![2000, 2000] ![1, 1] ![0, 0] ![7, 6] "GardnerKnopoff" 0 gkWindow gk_opt (fun _ _ => true)
    (by intro i j; fin_cases i <;> fin_cases j <;> simp) hD ![1, 1] ![0, 1] (by decide)
  simp only [Int.cast_zero] at h
  exact ⟨_, h, rfl⟩

end Verif.Declustering
