import Verif.Props.Equivalence

/-!
# C31 refuted; a concrete pair of runs
-/

namespace Verif.Recurrence

open Verif Verif.Np

theorem npMax_two {a b : ℝ} (h : b ≤ a) : npMax [a, b] = .ok a := by
  rw [npMax_iff]
  refine ⟨by simp, ?_⟩
  intro y hy
  simp only [Set.mem_ofPred_eq, List.mem_cons, List.not_mem_nil, or_false] at hy
  rcases hy with rfl | rfl
  · exact le_rfl
  · exact h

theorem npMin_two {a b : ℝ} (h : b ≤ a) : npMin [a, b] = .ok b := by
  rw [npMin_iff]
  refine ⟨by simp, ?_⟩
  intro y hy
  simp only [Set.mem_ofPred_eq, List.mem_cons, List.not_mem_nil, or_false] at hy
  rcases hy with rfl | rfl
  · exact h
  · exact le_rfl

/-- The recurrence table of an event of magnitude 6 and one of a magnitude in [5, 5.1). -/
theorem table31 (m : ℝ) (h1 : 5 ≤ m) (h2 : m < 5.1) :
    recurrenceTable [((2000 : ℝ), (6 : ℝ)), (2000, m)] 1 = .ok [⟨5.5, 1, 2, 1, 2⟩, ⟨6.5, 1, 1, 1, 1⟩] := by
  have hc6 : PyNum.ceilZ ((10.0 : ℝ) * 6) = 60 := by
    show ⌈(10.0 : ℝ) * 6⌉ = 60
    rw [show (10.0 : ℝ) * 6 = ((60 : ℤ) : ℝ) by norm_num, Int.ceil_intCast]
  have hf6 : PyNum.floorZ ((10.0 : ℝ) * 6) = 60 := by
    show ⌊(10.0 : ℝ) * 6⌋ = 60
    rw [show (10.0 : ℝ) * 6 = ((60 : ℤ) : ℝ) by norm_num, Int.floor_intCast]
  have hfm : PyNum.floorZ ((10.0 : ℝ) * m) = 50 := by
    show ⌊(10.0 : ℝ) * m⌋ = 50
    rw [Int.floor_eq_iff]
    norm_num at h2 ⊢
    constructor <;> linarith
  have hcm : ((PyNum.ceilZ ((10.0 : ℝ) * m) : ℤ) : ℝ) / 10.0 ≤ ((60 : ℤ) : ℝ) / 10.0 := by
    have : PyNum.ceilZ ((10.0 : ℝ) * m) ≤ 60 := by
      show ⌈(10.0 : ℝ) * m⌉ ≤ 60
      rw [Int.ceil_le]
      norm_num at h2 ⊢
      linarith
    have h : ((PyNum.ceilZ ((10.0 : ℝ) * m) : ℤ) : ℝ) ≤ ((60 : ℤ) : ℝ) := by exact_mod_cast this
    gcongr
  have hlen : arangeLen (((50 : ℤ) : ℝ) / 10.0) (((60 : ℤ) : ℝ) / 10.0 + (((2 : ℕ) : ℝ) * 1)) 1 = 3 := by
    unfold arangeLen
    show (⌈_⌉).toNat = 3
    rw [show ((((60 : ℤ) : ℝ) / 10.0 + (((2 : ℕ) : ℝ) * 1)) - ((50 : ℤ) : ℝ) / 10.0) / 1 = ((3 : ℤ) : ℝ) by norm_num, Int.ceil_intCast]
    rfl
  have hd : PyNum.decEq (1 : ℝ) 0 = false := by
    show decide ((1 : ℝ) = 0) = false
    simp
  have ha : ∀ i, arangeAt (((50 : ℤ) : ℝ) / 10.0) (1 : ℝ) i = 5 + i := by
    intro i
    rw [arangeAt_real]
    norm_num
  have hh : histogram (arangeAt (((50 : ℤ) : ℝ) / 10.0) (1 : ℝ)) 2 [6, m] = [1, 1] := by
    unfold histogram inBin
    simp only [ha, List.range_succ, List.range_zero, List.nil_append, List.cons_append, List.map_cons, List.map_nil, List.countP_cons, List.countP_nil]
    have e1 : (5 : ℝ) ≤ m := h1
    have e2 : m < 6 := by norm_num at h2; linarith
    have e3 : ¬ (6 : ℝ) ≤ m := not_le.2 e2
    norm_num [e1, e2, e3]
  unfold recurrenceTable
  simp only [List.map_cons, List.map_nil]
  rw [npMax_two le_rfl, npMin_two le_rfl, hc6, hf6, hfm, npMax_two hcm, npMin_two (by norm_num)]
  simp only [bind, Except.bind, hd, Bool.false_eq_true, if_false, hlen, show (3 : ℕ) ≠ 0 by decide, show 3 - 1 = 2 from rfl, hh, ha, List.range_succ,
    List.range_zero, List.nil_append, List.cons_append, List.map_cons, List.map_nil, pure, Except.pure]
  norm_num

theorem weighted_one (p : Period ℝ) (f : Period ℝ → ℝ) (h : p.n ≠ 0) : weighted [p] f = f p := by
  have : (p.n : ℝ) ≠ 0 := by exact_mod_cast h
  simp [weighted, npSum, div_self this]

/-- The maximum likelihood result for these events and a table with one row. -/
theorem mle31 (m ref : ℝ) (h1 : 5 ≤ m) (h2 : m < 5.1) :
    ∃ b s : ℝ, 0 < b ∧ ∀ mc : ℝ, mc ≤ 5.5 → mc - 1e-5 ≤ m → ∃ t : ℝ, bMaxlikeTime [((2000 : ℝ), (6 : ℝ)), (2000, m)] [(2000, mc)] 1 ref =
      .ok ⟨b, s, (10 : ℝ) ^ (Real.logb 10 2 + b * mc - b * ref), t⟩ := by
  obtain ⟨b, s, hb, hpos, -, -⟩ := C58_b_value (h := [((5.5 : ℝ), 1), (6.5, 1)]) (dmag := 1) (mc := 5) (by norm_num)
    ⟨(5.5, 1), by simp, by norm_num, by norm_num⟩
  refine ⟨b, s, hpos, fun mc hc hm => ?_⟩
  have hb' : bMaxLikelihood [((5.5 : ℝ), 1), (6.5, 1)] 1 mc = .ok (b, s) := by
    rw [← hb]
    unfold bMaxLikelihood
    have e : ∀ c : ℝ, c ≤ 5.5 → ([((5.5 : ℝ), 1), (6.5, 1)] : List (ℝ × ℕ)).filter (fun r => decide (r.1 ≥ c)) = [((5.5 : ℝ), 1), (6.5, 1)] := by
      intro c hc
      have : c ≤ 6.5 := hc.trans (by norm_num)
      simp [hc, this]
    rw [e mc hc, e 5 (by norm_num)]
  have hg : groupOf [((2000 : ℝ), mc)] 2000 = [mc] := by
    simp only [groupOf, npAbs_real, List.filter_cons, List.filter_nil, sub_self, abs_zero]
    norm_num
  have hsel : periodEvents [((2000 : ℝ), (6 : ℝ)), (2000, m)] 2000 mc = [(2000, 6), (2000, m)] := by
    have e1 : mc - 1e-5 ≤ 6 := by norm_num at hc ⊢; linarith
    simp only [periodEvents, List.filter_cons, List.filter_nil, ge_iff_le, le_refl, e1, hm, decide_true, Bool.and_self, if_true]
  obtain ⟨pd, hpd, hpb, hps, hpn⟩ : ∃ pd, period [((2000 : ℝ), (6 : ℝ)), (2000, m)] 1 ref 2000 [mc] = .ok pd ∧ pd.b = b ∧ pd.sigb = s ∧ pd.n = 2 := by
    unfold period
    simp only [npMin, List.foldl_nil, bind, Except.bind, hsel, List.map_cons, List.map_nil]
    have e := npMax_two (le_refl (2000 : ℝ))
    have e' := npMin_two (le_refl (2000 : ℝ))
    simp only [npMin] at e'
    rw [e]
    simp only [table31 m h1 h2, List.map_cons, List.map_nil, hb', pure, Except.pure, Except.ok.injEq, exists_eq_left']
    exact ⟨trivial, trivial, rfl⟩
  have hrate : pd.rate = (10 : ℝ) ^ (Real.logb 10 2 + b * mc - b * ref) := by
    obtain ⟨mc', ny, hl, hny, hn, -, hr, -⟩ := period_ok hpd
    have : mc' = mc := by simpa using hl.1
    subst this
    have hce : Spec.completeEvents [((2000 : ℝ), (6 : ℝ)), (2000, m)] 2000 mc' = [(2000, 6), (2000, m)] := by
      refine Eq.trans ?_ hsel
      simp only [periodEvents, Spec.completeEvents]
      refine List.filter_congr fun e _ => ?_
      simp [Bool.decide_and]
    rw [hce] at hny
    obtain ⟨y0, y1, ⟨hy0, -⟩, ⟨hy1, -⟩, rfl⟩ := hny
    simp at hy0 hy1
    rw [hr, hpb, hpn, hy0, hy1]
    norm_num
  have hn0 : pd.n ≠ 0 := by omega
  refine ⟨pd.sigrate, ?_⟩
  unfold bMaxlikeTime
  have hper : periods [((2000 : ℝ), (6 : ℝ)), (2000, m)] [(2000, mc)] 1 ref 0 = .ok [pd] := by
    unfold periods
    simp only [List.length_cons, List.length_nil, Nat.zero_add, Nat.lt_one_iff, dite_true, List.getElem_cons_zero, hg, one_ne_zero, dite_false, hpd]
    have : periods [((2000 : ℝ), (6 : ℝ)), (2000, m)] [(2000, mc)] 1 ref 1 = .ok [] := by
      unfold periods
      simp
    rw [this]
    rfl
  rw [hper]
  simp only [bind, Except.bind, List.isEmpty_cons, Bool.false_eq_true, if_false, weighted_one pd _ hn0, hpb, hps, hrate]
  rfl

end Verif.Recurrence
