import Verif.Props.Completeness

/-! # C56: a catalogue on which the claim fails, and witnesses for the hypotheses of C51-C56 -/

namespace Verif.Completeness

open Verif Verif.Np

/-- Four events of 2000-2003; two bins of width 1 from 4.0. -/
noncomputable def cat56 : List (ℝ × ℝ) := [(2003, 4.05), (2000, 4.05), (2002, 5.05), (2001, 5.05)]

theorem mag2_405 : Spec.mag2 4.05 = 4.05 := by
  have : (100 : ℝ) * 4.05 = ((405 : ℤ) : ℝ) := by norm_num
  simp only [Spec.mag2, rintK, this, Int.floor_intCast, sub_self]
  norm_num

theorem mag2_505 : Spec.mag2 5.05 = 5.05 := by
  have : (100 : ℝ) * 5.05 = ((505 : ℤ) : ℝ) := by norm_num
  simp only [Spec.mag2, rintK, this, Int.floor_intCast, sub_self]
  norm_num

theorem binning56 : Spec.Binning cat56 4 5.1 2000 2003 := by
  refine ⟨⟨4.05, ⟨⟨(2003, 4.05), by simp [cat56], mag2_405⟩, ?_⟩, ?_⟩, ⟨5.05, ⟨⟨(2002, 5.05), by simp [cat56], mag2_505⟩, ?_⟩, ?_⟩,
    ⟨⟨(2000, 4.05), by simp [cat56], rfl⟩, ?_⟩, ⟨⟨(2003, 4.05), by simp [cat56], rfl⟩, ?_⟩⟩
  · rintro x ⟨e, he, rfl⟩
    simp only [cat56, List.mem_cons, List.not_mem_nil, or_false] at he
    rcases he with rfl | rfl | rfl | rfl <;> simp only [mag2_405, mag2_505] <;> norm_num
  · have : ⌊(10 : ℝ) * 4.05⌋ = 40 := by rw [Int.floor_eq_iff]; norm_num
    rw [this]; norm_num
  · rintro x ⟨e, he, rfl⟩
    simp only [cat56, List.mem_cons, List.not_mem_nil, or_false] at he
    rcases he with rfl | rfl | rfl | rfl <;> simp only [mag2_405, mag2_505] <;> norm_num
  · have : ⌈(10 : ℝ) * 5.05⌉ = 51 := by rw [Int.ceil_eq_iff]; norm_num
    rw [this]; norm_num
  · rintro x ⟨e, he, rfl⟩
    simp only [cat56, List.mem_cons, List.not_mem_nil, or_false] at he
    rcases he with rfl | rfl | rfl | rfl <;> norm_num
  · rintro x ⟨e, he, rfl⟩
    simp only [cat56, List.mem_cons, List.not_mem_nil, or_false] at he
    rcases he with rfl | rfl | rfl | rfl <;> norm_num

/-- Counts of the lower bin for 1, 2, 3, 4 years. -/
theorem counts56_low (k : ℕ) : binCounts cat56 4 1 1 2003 2 0 k = if k < 2 then 1 else 2 := by
  simp only [binCounts, Spec.eventsIn, cat56, List.countP_cons, List.countP_nil, mag2_405, mag2_505]
  rcases k with _ | _ | k
  · norm_num
  · norm_num
  · have : (0 : ℝ) ≤ k := Nat.cast_nonneg k
    have h1 : (2003 : ℝ) - ((k : ℝ) + 1 + 1 + 1) * 1 ≤ 2003 := by linarith
    have h2 : (2003 : ℝ) - ((k : ℝ) + 1 + 1 + 1) * 1 ≤ 2000 := by linarith
    have h3 : ¬ (k + 1 + 1 < 2) := by omega
    push_cast
    simp only [h1, h2, h3, decide_eq_true_eq, true_and]
    norm_num

/-- Counts of the upper bin. -/
theorem counts56_high (k : ℕ) : binCounts cat56 4 1 1 2003 2 1 k = if k < 1 then 1 else 2 := by
  simp only [binCounts, Spec.eventsAbove, cat56, List.countP_cons, List.countP_nil, mag2_405, mag2_505]
  rcases k with _ | k
  · norm_num
  · have : (0 : ℝ) ≤ k := Nat.cast_nonneg k
    have h1 : (2003 : ℝ) - ((k : ℝ) + 1 + 1) * 1 ≤ 2001 := by linarith
    have h2 : (2003 : ℝ) - ((k : ℝ) + 1 + 1) * 1 ≤ 2002 := by linarith
    have h3 : ¬ (k + 1 < 1) := by omega
    push_cast
    simp only [h1, h2, h3, decide_eq_true_eq, true_and]
    norm_num

/-- Slope for positive counts and moderate durations: half the slope of the counts, minus one. -/
theorem slope_eq {n : ℕ → ℕ} {k : ℕ} (h0 : 1 ≤ n k) (h1 : 1 ≤ n (k + 1)) (hk : k < 1000) :
    Spec.slope n 1 k = 1 / 2 * ((Real.log (n (k + 1)) - Real.log (n k)) / (Real.log (k + 2) - Real.log (k + 1))) - 1 := by
  have hs : ∀ (c : ℕ) (T : ℝ), 1 ≤ c → 0 < T → T < 2000 → Spec.sigma c T = Real.sqrt c / T := by
    intro c T hc hT hT2
    rw [Spec.sigma, Real.sqrt_div' _ hT.le, div_div, Real.mul_self_sqrt hT.le]
    refine max_eq_right ?_
    have hc' : (1 : ℝ) ≤ c := by exact_mod_cast hc
    have h1 : 1 ≤ Real.sqrt c := by rw [Real.one_le_sqrt]; exact hc'
    rw [le_div_iff₀ hT]
    refine le_trans ?_ h1
    nlinarith
  have hk' : (k : ℝ) < 1000 := by exact_mod_cast hk
  have hk0 : (0 : ℝ) ≤ k := Nat.cast_nonneg k
  have p1 : (0 : ℝ) < k + 1 := by linarith
  have p2 : (0 : ℝ) < k + 2 := by linarith
  have c0 : (0 : ℝ) < n k := by exact_mod_cast h0
  have c1 : (0 : ℝ) < n (k + 1) := by exact_mod_cast h1
  have hlog : ∀ (c : ℕ) (T : ℝ), (0 : ℝ) < c → 0 < T → Real.log (Real.sqrt c / T) = 1 / 2 * Real.log c - Real.log T := by
    intro c T hc hT
    rw [Real.log_div (Real.sqrt_pos.mpr hc).ne' hT.ne', Real.log_sqrt hc.le]
    ring
  have hd : Real.log ((k : ℝ) + 2) - Real.log (k + 1) ≠ 0 :=
    (sub_pos.mpr (Real.log_lt_log p1 (by linarith))).ne'
  have h10 : Real.log 10 ≠ 0 := (Real.log_pos (by norm_num)).ne'
  simp only [Spec.slope, mul_one]
  rw [hs _ _ h1 p2 (by linarith), hs _ _ h0 p1 (by linarith)]
  simp only [Real.logb]
  rw [hlog _ _ c1 p2, hlog _ _ c0 p1]
  rw [← sub_div, ← sub_div, div_div_div_cancel_right₀ h10]
  field_simp
  ring

theorem log2_pos : 0 < Real.log 2 := Real.log_pos (by norm_num)

theorem change56_low1 : Spec.slopeChange (binCounts cat56 4 1 1 2003 2 0) 1 1 =
    1 / 2 * (Real.log 2 / (Real.log 3 - Real.log 2)) := by
  rw [Spec.slopeChange, slope_eq (by rw [counts56_low]; norm_num) (by rw [counts56_low]; norm_num) (by norm_num),
    slope_eq (by rw [counts56_low]; norm_num) (by rw [counts56_low]; norm_num) (by norm_num)]
  simp only [counts56_low]
  have h : 0 < Real.log 3 - Real.log 2 := sub_pos.mpr (Real.log_lt_log (by norm_num) (by norm_num))
  have := log2_pos
  have h2 : 0 < Real.log 2 / (Real.log 3 - Real.log 2) := div_pos this h
  norm_num
  rw [abs_of_neg (by linarith)]
  ring

theorem change56_high0 : Spec.slopeChange (binCounts cat56 4 1 1 2003 2 1) 1 0 = 1 / 2 := by
  rw [Spec.slopeChange, slope_eq (by rw [counts56_high]; norm_num) (by rw [counts56_high]; norm_num) (by norm_num),
    slope_eq (by rw [counts56_high]; norm_num) (by rw [counts56_high]; norm_num) (by norm_num)]
  simp only [counts56_high]
  have := log2_pos
  norm_num

theorem change56_high1 : Spec.slopeChange (binCounts cat56 4 1 1 2003 2 1) 1 1 = 0 := by
  rw [Spec.slopeChange, slope_eq (by rw [counts56_high]; norm_num) (by rw [counts56_high]; norm_num) (by norm_num),
    slope_eq (by rw [counts56_high]; norm_num) (by rw [counts56_high]; norm_num) (by norm_num)]
  simp only [counts56_high]
  norm_num

/-- The run of the code on `cat56`: both bins report two years. -/
theorem run56 : stepp cat56 1 1 0.2 false = .ok [(2001, 4), (2001, 5)] := by
  obtain ⟨b, low, high, y0, y1, hb, hbin, hmb, htr, hend, hnb, hnt, hobs⟩ :=
    steppBins_spec (ev := cat56) (dm := 1) (dt := 1) (by simp [cat56]) (by norm_num) (by norm_num)
  obtain ⟨rfl, rfl, rfl, rfl⟩ := binning_unique binning56 hbin
  have h2 : b.nb = 2 := by
    have a := hnb 1
    have c := hnb 2
    norm_num at a c
    omega
  have h4 : b.nt = 4 := by
    have a := hnt 3
    have c := hnt 4
    norm_num at a c
    omega
  have hc0 : (fun ii => b.obs ii 0) = binCounts cat56 4 1 1 2003 2 0 := by
    funext ii; rw [hobs, h2, binCounts]
  have hc1 : (fun ii => b.obs ii 1) = binCounts cat56 4 1 1 2003 2 1 := by
    funext ii; rw [hobs, h2, binCounts]
  have hlt : (0.2 : ℝ) < 1 / 2 * (Real.log 2 / (Real.log 3 - Real.log 2)) := by
    have h : 0 < Real.log 3 - Real.log 2 := sub_pos.mpr (Real.log_lt_log (by norm_num) (by norm_num))
    have h' : Real.log 3 - Real.log 2 < Real.log 2 := by
      rw [← Real.log_div (by norm_num) (by norm_num)]
      exact Real.log_lt_log (by norm_num) (by norm_num)
    have : 1 < Real.log 2 / (Real.log 3 - Real.log 2) := by rw [lt_div_iff₀ h]; linarith
    linarith
  have l0 : steppLoc (exceeding (fun ii => b.obs ii 0) b.timeRange b.nt 0.2) = some 1 := by
    have hl : (exceeding (fun ii => b.obs ii 0) b.timeRange b.nt 0.2).getLast? = some 1 := by
      rw [exceeding_real (by norm_num) htr, hc0, h4, getLast?_filter_range]
      refine ⟨by norm_num, ?_, fun k' h1 h2 => by omega⟩
      rw [change56_low1]
      simpa using hlt
    rw [steppLoc, if_pos, hl]
    rw [List.any_eq_true]
    exact ⟨1, List.mem_of_getLast? hl, by decide⟩
  have l1 : steppLoc (exceeding (fun ii => b.obs ii 1) b.timeRange b.nt 0.2) = none := by
    rw [exceeding_real (by norm_num) htr, hc1, h4]
    have : (List.range (4 - 2)).filter (fun k => decide ((0.2 : ℝ) < Spec.slopeChange (binCounts cat56 4 1 1 2003 2 1) 1 k)) = [0] := by
      simp only [show List.range (4 - 2) = [0, 1] by rfl, List.filter_cons, List.filter_nil, change56_high0, change56_high1]
      norm_num
    rw [this]
    rfl
  rw [stepp_eq hb]
  rw [h4] at l0 l1
  simp only [h2, show List.range 2 = [0, 1] by rfl, List.map_cons, List.map_nil, l0, l1, h4, hend]
  have : steppTlocs false 4 none [some 1, none] = [1, 1] := by rfl
  rw [this, if_pos (by decide)]
  simp only [List.zipWith_cons_cons, List.zipWith_nil_left, htr, hmb]
  norm_num

/-- **C56 is false**: in the upper bin of `cat56` the first location (one year) is the only one whose change of slope (0.5) exceeds 0.2, but the
code reports the two years of the lower bin, because `np.any` of the index 0 is false. -/
theorem C56_last_location_fails :
    ¬ ∀ (ev : List (ℝ × ℝ)) (dm dt ttol : ℝ) (table : List (ℝ × ℝ)), ev ≠ [] → 0 < dm → 0 < dt → 0 < ttol →
      stepp ev dm dt ttol false = .ok table → DurationsAtLastLocation ev dm dt ttol table := by
  intro H
  have h := H _ _ _ _ _ (by simp [cat56]) (by norm_num) (by norm_num) (by norm_num) run56 4 5.1 2000 2003 binning56 4
    (fun k => by
      constructor
      · intro hk
        have : (k : ℝ) ≤ 3 := by exact_mod_cast Nat.le_of_lt_succ hk
        linarith
      · intro hk
        have : (k : ℝ) < 4 := by linarith
        exact_mod_cast this) 1 (by simp)
  have h0 := h.1 0 ⟨by norm_num, by simp only [List.length_cons, List.length_nil]; rw [change56_high0]; norm_num, fun k' h1 h2 => by
    obtain rfl : k' = 1 := by omega
    simp only [List.length_cons, List.length_nil]
    rw [change56_high1]; norm_num⟩
  norm_num at h0

/-- The hypotheses of C51-C53, C55 and the conclusion of C54 are met by `cat56`: success, two rows. -/
example : ∃ table, stepp cat56 1 1 0.2 false = .ok table ∧ table.length = 2 := ⟨_, run56, rfl⟩

/-- Two events in one bin. -/
noncomputable def cat56b : List (ℝ × ℝ) := [(2003, 4.05), (2000, 4.05)]

theorem binning56b : Spec.Binning cat56b 4 4.1 2000 2003 := by
  refine ⟨⟨4.05, ⟨⟨(2003, 4.05), by simp [cat56b], mag2_405⟩, ?_⟩, ?_⟩, ⟨4.05, ⟨⟨(2003, 4.05), by simp [cat56b], mag2_405⟩, ?_⟩, ?_⟩,
    ⟨⟨(2000, 4.05), by simp [cat56b], rfl⟩, ?_⟩, ⟨⟨(2003, 4.05), by simp [cat56b], rfl⟩, ?_⟩⟩
  · rintro x ⟨e, he, rfl⟩
    simp only [cat56b, List.mem_cons, List.not_mem_nil, or_false] at he
    rcases he with rfl | rfl <;> simp only [mag2_405] <;> norm_num
  · have : ⌊(10 : ℝ) * 4.05⌋ = 40 := by rw [Int.floor_eq_iff]; norm_num
    rw [this]; norm_num
  · rintro x ⟨e, he, rfl⟩
    simp only [cat56b, List.mem_cons, List.not_mem_nil, or_false] at he
    rcases he with rfl | rfl <;> simp only [mag2_405] <;> norm_num
  · have : ⌈(10 : ℝ) * 4.05⌉ = 41 := by rw [Int.ceil_eq_iff]; norm_num
    rw [this]; norm_num
  · rintro x ⟨e, he, rfl⟩
    simp only [cat56b, List.mem_cons, List.not_mem_nil, or_false] at he
    rcases he with rfl | rfl <;> norm_num
  · rintro x ⟨e, he, rfl⟩
    simp only [cat56b, List.mem_cons, List.not_mem_nil, or_false] at he
    rcases he with rfl | rfl <;> norm_num

theorem counts56b (k : ℕ) : binCounts cat56b 4 1 1 2003 1 0 k = if k < 2 then 1 else 2 := by
  simp only [binCounts, Spec.eventsAbove, cat56b, List.countP_cons, List.countP_nil, mag2_405]
  rcases k with _ | _ | k
  · norm_num
  · norm_num
  · have : (0 : ℝ) ≤ k := Nat.cast_nonneg k
    have h1 : (2003 : ℝ) - ((k : ℝ) + 1 + 1 + 1) * 1 ≤ 2003 := by linarith
    have h2 : (2003 : ℝ) - ((k : ℝ) + 1 + 1 + 1) * 1 ≤ 2000 := by linarith
    have h3 : ¬ (k + 1 + 1 < 2) := by omega
    push_cast
    simp only [h1, h2, h3, decide_eq_true_eq, true_and]
    norm_num

/-- The hypotheses of `C56_last_location_partial` hold for `cat56b`, whose only bin has a last location (two years). -/
example : ∃ table, stepp cat56b 1 1 0.2 false = .ok table ∧ table.length = 1 ∧
    (∀ low high y0 y1 : ℝ, Spec.Binning cat56b low high y0 y1 → ∀ nt : ℕ, (∀ k : ℕ, k < nt ↔ ((k : ℝ) + 1) * 1 < y1 - y0 + 2) →
      ∀ j < table.length, ¬ Spec.IsLastLocation (binCounts cat56b low 1 1 y1 table.length j) 1 0.2 (nt - 2) 0) ∧
    Spec.IsLastLocation (binCounts cat56b 4 1 1 2003 table.length 0) 1 0.2 2 1 := by
  have hne : cat56b ≠ [] := by simp [cat56b]
  obtain ⟨low, high, y0, y1, hbin, hs⟩ := C55_succeeds (ttol := 0.2) (iloc := false) hne (dm := 1) (dt := 1) (by norm_num) (by norm_num)
  obtain ⟨rfl, rfl, rfl, rfl⟩ := binning_unique binning56b hbin
  obtain ⟨table, ht⟩ := hs.mpr (Or.inl (by norm_num))
  obtain ⟨low, high, y0, y1, hbin2, _, h1, h2⟩ := C51_magnitudes hne (by norm_num) (by norm_num) ht
  obtain ⟨rfl, rfl, rfl, rfl⟩ := binning_unique binning56b hbin2
  have hlen : table.length = 1 := by
    have a : 0 < table.length := by
      by_contra hc
      have : table.length = 0 := by omega
      rw [this] at h1
      norm_num at h1
    have b : ¬ 1 < table.length := by
      intro hc
      have := h2 1 hc
      norm_num at this
    omega
  have hch : (0.2 : ℝ) < Spec.slopeChange (binCounts cat56b 4 1 1 2003 1 0) 1 1 := by
    rw [Spec.slopeChange, slope_eq (by rw [counts56b]; norm_num) (by rw [counts56b]; norm_num) (by norm_num),
      slope_eq (by rw [counts56b]; norm_num) (by rw [counts56b]; norm_num) (by norm_num)]
    simp only [counts56b]
    have h : 0 < Real.log 3 - Real.log 2 := sub_pos.mpr (Real.log_lt_log (by norm_num) (by norm_num))
    have h' : Real.log 3 - Real.log 2 < Real.log 2 := by
      rw [← Real.log_div (by norm_num) (by norm_num)]
      exact Real.log_lt_log (by norm_num) (by norm_num)
    have : 1 < Real.log 2 / (Real.log 3 - Real.log 2) := by rw [lt_div_iff₀ h]; linarith
    norm_num
    rw [abs_of_neg (by linarith)]
    linarith
  refine ⟨table, ht, hlen, ?_, ?_⟩
  · intro low high y0 y1 hbin3 nt hnt j hj
    obtain ⟨rfl, rfl, rfl, rfl⟩ := binning_unique binning56b hbin3
    rw [hlen] at hj ⊢
    obtain rfl : j = 0 := by omega
    rintro ⟨_, _, h3⟩
    have h4 : 3 < nt := (hnt 3).mpr (by norm_num)
    exact absurd (h3 1 (by norm_num) (by omega)) (not_le.mpr hch)
  · rw [hlen]
    exact ⟨by norm_num, hch, fun k' a b => by omega⟩

end Verif.Completeness
