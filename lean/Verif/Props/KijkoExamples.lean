import Verif.Props.Kijko

/-! # C70 and C71: counterexamples and what holds -/

namespace Verif.MaxMag

open Verif Verif.Np

/-! ### C71 -/

/-- Standard deviation (`np.std`, not corrected for the sample size). -/
noncomputable def std (l : List ℝ) : ℝ := Real.sqrt ((l.map fun x => (x - l.sum / l.length) ^ 2).sum / l.length)

/-- Rounding to two decimals. -/
noncomputable def round2 (x : ℝ) : ℝ := (rintK (100 * x) : ℝ) / 100

theorem abs_round2 (x : ℝ) : |round2 x - x| ≤ 1 / 200 := by
  have h : |(rintK (100 * x) : ℝ) - 100 * x| ≤ 1 / 2 := by
    have h1 := Int.floor_le (100 * x)
    have h2 := Int.lt_floor_add_one (100 * x)
    simp only [rintK]
    split_ifs with a b c <;> push_cast <;> rw [abs_le] <;> constructor <;> linarith
  rw [round2, abs_le] at *
  constructor <;> linarith [h.1, h.2]

/-- **C71**, what holds: the smoothing factor is `0.9 * IQR/1.34 * n^(-1/5)` rounded to two decimals, which is the value of Silverman when the standard deviation is not smaller than IQR/1.34.
Missing: smaller standard deviations (`C71_silverman_fails`). -/
theorem C71_silverman_partial {mag : List ℝ} {q0 q1 h : ℝ} (h0 : mquantile mag 0.25 = .ok q0) (h1 : mquantile mag 0.75 = .ok q1) (hok : hSmooth mag = .ok h) :
    h = round2 (0.9 * ((q1 - q0) / 1.34) * (mag.length : ℝ) ^ (-1 / 5 : ℝ)) ∧
      ((q1 - q0) / 1.34 ≤ std mag → h = round2 (0.9 * min (std mag) ((q1 - q0) / 1.34) * (mag.length : ℝ) ^ (-1 / 5 : ℝ))) := by
  unfold hSmooth at hok
  simp only [h0, h1, bind, Except.bind, pure, Except.pure, Except.ok.injEq, rintZ_real, rpow_real] at hok
  have : h = round2 (0.9 * ((q1 - q0) / 1.34) * (mag.length : ℝ) ^ (-1 / 5 : ℝ)) := by
    rw [← hok, round2, show (-(1.0 : ℝ) / 5.0) = -1 / 5 by norm_num, show (100.0 : ℝ) = 100 by norm_num]
  refine ⟨this, fun hle => ?_⟩
  rw [min_eq_right hle]
  exact this

theorem quartiles71 : mquantile [(5 : ℝ), 5, 6, 6] 0.25 = .ok 5 ∧ mquantile [(5 : ℝ), 5, 6, 6] 0.75 = .ok 6 := by
  have hs : npSort [(5 : ℝ), 5, 6, 6] = [5, 5, 6, 6] := npSort_of_sorted (by norm_num)
  constructor
  · unfold mquantile
    simp only [hs]
    have e1 : clip (((4 : ℕ) : ℝ) * 0.25 + (0.4 + 0.25 * (((1 : ℕ) : ℝ) - 0.4 - 0.4))) ((1 : ℕ) : ℝ) ((4 - 1 : ℕ) : ℝ) = 1.45 := by
      simp only [clip]; norm_num
    simp only [List.length_cons, List.length_nil, zero_add, Nat.reduceAdd, e1, floorZ_real]
    have e2 : ⌊(1.45 : ℝ)⌋ = 1 := by rw [Int.floor_eq_iff]; norm_num
    rw [e2]
    simp
    norm_num
    ring
  · unfold mquantile
    simp only [hs]
    have e1 : clip (((4 : ℕ) : ℝ) * 0.75 + (0.4 + 0.75 * (((1 : ℕ) : ℝ) - 0.4 - 0.4))) ((1 : ℕ) : ℝ) ((4 - 1 : ℕ) : ℝ) = 3 := by
      simp only [clip]; norm_num
    simp only [List.length_cons, List.length_nil, zero_add, Nat.reduceAdd, e1, floorZ_real]
    have e2 : ⌊(3 : ℝ)⌋ = 3 := by norm_num
    rw [e2]
    simp
    norm_num
    ring

/-- **C71 fails**: for the magnitudes 5, 5, 6, 6 (standard deviation 0.5, IQR/1.34 = 0.746) the standard deviation is ignored. -/
theorem C71_silverman_fails : ¬ ∀ (mag : List ℝ) (q0 q1 h : ℝ), mquantile mag 0.25 = .ok q0 → mquantile mag 0.75 = .ok q1 → hSmooth mag = .ok h →
    h = round2 (0.9 * min (std mag) ((q1 - q0) / 1.34) * (mag.length : ℝ) ^ (-1 / 5 : ℝ)) := by
  intro hall
  obtain ⟨h0, h1⟩ := quartiles71
  obtain ⟨h, hok⟩ : ∃ h, hSmooth [(5 : ℝ), 5, 6, 6] = .ok h := by
    unfold hSmooth
    simp only [h0, h1, bind, Except.bind, pure, Except.pure]
    exact ⟨_, rfl⟩
  have hA := (C71_silverman_partial h0 h1 hok).1
  have hB := hall _ _ _ _ h0 h1 hok
  have hstd : std [(5 : ℝ), 5, 6, 6] = 1 / 2 := by
    simp only [std, List.map_cons, List.map_nil, List.sum_cons, List.sum_nil, List.length_cons, List.length_nil]
    norm_num
    rw [show (4 : ℝ) = 2 * 2 by norm_num, Real.sqrt_mul_self (by norm_num)]
    norm_num
  rw [hstd] at hB
  have ht : (0.7 : ℝ) ≤ (([(5 : ℝ), 5, 6, 6].length : ℕ) : ℝ) ^ (-1 / 5 : ℝ) := by
    simp only [List.length_cons, List.length_nil, zero_add, Nat.reduceAdd]
    have : (0.7 : ℝ) = ((0.7 : ℝ) ^ (5 : ℝ)) ^ (1 / 5 : ℝ) := by rw [← Real.rpow_mul (by norm_num)]; norm_num
    rw [this, show (-1 / 5 : ℝ) = -(1 / 5) by norm_num, Real.rpow_neg (by norm_num), ← Real.inv_rpow (by norm_num)]
    refine Real.rpow_le_rpow (by positivity) ?_ (by norm_num)
    norm_num
  have ht1 : (([(5 : ℝ), 5, 6, 6].length : ℕ) : ℝ) ^ (-1 / 5 : ℝ) ≤ 1 := by
    refine Real.rpow_le_one_of_one_le_of_nonpos (by norm_num) (by norm_num)
  have hm : min (1 / 2 : ℝ) ((6 - 5) / 1.34) = 1 / 2 := by norm_num
  rw [hm] at hB
  have a := abs_round2 (0.9 * ((6 - 5) / 1.34) * (([(5 : ℝ), 5, 6, 6].length : ℕ) : ℝ) ^ (-1 / 5 : ℝ))
  have b := abs_round2 (0.9 * (1 / 2) * (([(5 : ℝ), 5, 6, 6].length : ℕ) : ℝ) ^ (-1 / 5 : ℝ))
  rw [← hA] at a
  rw [← hB] at b
  generalize (([(5 : ℝ), 5, 6, 6].length : ℕ) : ℝ) ^ (-1 / 5 : ℝ) = t at *
  rw [abs_le] at a b
  norm_num at a b ht
  linarith [a.1, b.2]

/-! ### C70 -/

/-- Eleven magnitudes. -/
noncomputable def mag70 : List ℝ := [6.0, 6.08, 6.08, 6.08, 6.08, 6.1, 6.1, 6.1, 6.1, 6.3, 6.3]

theorem sorted70 : mag70.Pairwise (· ≤ ·) := by
  simp only [mag70, List.pairwise_cons, List.mem_cons, List.not_mem_nil, or_false, forall_eq_or_imp, forall_eq, List.Pairwise.nil]
  norm_num

theorem smooth70 : hSmooth mag70 = .ok 0.01 := by
  have hs : npSort mag70 = mag70 := npSort_of_sorted sorted70
  have q0 : mquantile mag70 0.25 = .ok 6.08 := by
    unfold mquantile
    rw [hs]
    simp only [mag70]
    have e1 : clip (((11 : ℕ) : ℝ) * 0.25 + (0.4 + 0.25 * (((1 : ℕ) : ℝ) - 0.4 - 0.4))) ((1 : ℕ) : ℝ) ((11 - 1 : ℕ) : ℝ) = 3.2 := by
      simp only [clip]; norm_num
    simp only [List.length_cons, List.length_nil, zero_add, Nat.reduceAdd, e1, floorZ_real]
    have e2 : ⌊(3.2 : ℝ)⌋ = 3 := by rw [Int.floor_eq_iff]; norm_num
    rw [e2]
    simp
    norm_num
    ring
  have q1 : mquantile mag70 0.75 = .ok 6.1 := by
    unfold mquantile
    rw [hs]
    simp only [mag70]
    have e1 : clip (((11 : ℕ) : ℝ) * 0.75 + (0.4 + 0.75 * (((1 : ℕ) : ℝ) - 0.4 - 0.4))) ((1 : ℕ) : ℝ) ((11 - 1 : ℕ) : ℝ) = 8.8 := by
      simp only [clip]; norm_num
    simp only [List.length_cons, List.length_nil, zero_add, Nat.reduceAdd, e1, floorZ_real]
    have e2 : ⌊(8.8 : ℝ)⌋ = 8 := by rw [Int.floor_eq_iff]; norm_num
    rw [e2]
    simp
    norm_num
    ring
  obtain ⟨h, hok⟩ : ∃ h, hSmooth mag70 = .ok h := by
    unfold hSmooth
    simp only [q0, q1, bind, Except.bind, pure, Except.pure]
    exact ⟨_, rfl⟩
  have hA := (C71_silverman_partial q0 q1 hok).1
  rw [hok, hA]
  have hl : mag70.length = 11 := rfl
  have ht : (0.5 : ℝ) ≤ ((mag70.length : ℕ) : ℝ) ^ (-1 / 5 : ℝ) := by
    rw [hl]
    have : (0.5 : ℝ) = ((0.5 : ℝ) ^ (5 : ℝ)) ^ (1 / 5 : ℝ) := by rw [← Real.rpow_mul (by norm_num)]; norm_num
    rw [this, show (-1 / 5 : ℝ) = -(1 / 5) by norm_num, Real.rpow_neg (by norm_num), ← Real.inv_rpow (by norm_num)]
    refine Real.rpow_le_rpow (by positivity) ?_ (by norm_num)
    norm_num
  have ht1 : ((mag70.length : ℕ) : ℝ) ^ (-1 / 5 : ℝ) ≤ 1 := by
    rw [hl]
    refine Real.rpow_le_one_of_one_le_of_nonpos (by norm_num) (by norm_num)
  generalize ((mag70.length : ℕ) : ℝ) ^ (-1 / 5 : ℝ) = t at *
  congr 1
  rw [round2]
  have : rintK (100 * (0.9 * ((6.1 - 6.08) / 1.34) * t)) = 1 := by
    simp only [rintK]
    by_cases h1 : 100 * (0.9 * ((6.1 - 6.08) / 1.34) * t) < 1
    · have hf : ⌊100 * (0.9 * ((6.1 - 6.08) / 1.34) * t)⌋ = 0 := by
        rw [Int.floor_eq_iff]
        refine ⟨?_, by push_cast; linarith⟩
        norm_num at ht ⊢
        linarith
      rw [hf]
      have h2 : 1 / 2 < 100 * (0.9 * ((6.1 - 6.08) / 1.34) * t) := by
        norm_num at ht ⊢
        linarith
      push_cast
      rw [if_neg (by linarith), if_pos (by linarith)]
    · have hf : ⌊100 * (0.9 * ((6.1 - 6.08) / 1.34) * t)⌋ = 1 := by
        rw [Int.floor_eq_iff]
        refine ⟨by push_cast; linarith, ?_⟩
        norm_num at ht1 ⊢
        linarith
      rw [hf]
      have h2 : 100 * (0.9 * ((6.1 - 6.08) / 1.34) * t) < 3 / 2 := by
        norm_num at ht1 ⊢
        linarith
      push_cast
      rw [if_pos (by linarith)]
  rw [this]
  norm_num

/-- The middle one of three sample points between 6 and 6.3. -/
noncomputable def mid70 : ℝ := Real.log (Real.exp 6 + 1 * ((Real.exp 6.3 - Real.exp 6) / 2))

theorem mid70_bounds : 6.15 < mid70 ∧ mid70 < 6.2 := by
  have e6 := Real.exp_pos 6
  have h3 : Real.exp 6.3 = Real.exp 6 * Real.exp 0.3 := by rw [← Real.exp_add]; norm_num
  have harg : Real.exp 6 + 1 * ((Real.exp 6.3 - Real.exp 6) / 2) = Real.exp 6 * ((1 + Real.exp 0.3) / 2) := by rw [h3]; ring
  have hq : 0 < (1 + Real.exp 0.3) / 2 := by have := Real.exp_pos 0.3; linarith
  rw [mid70, harg]
  constructor
  · rw [Real.lt_log_iff_exp_lt (by positivity), show (6.15 : ℝ) = 6 + 0.15 by norm_num, Real.exp_add]
    refine mul_lt_mul_of_pos_left ?_ e6
    have h1 : Real.exp 0.3 = Real.exp 0.15 * Real.exp 0.15 := by rw [← Real.exp_add]; norm_num
    have h2 : 1 < Real.exp 0.15 := Real.one_lt_exp_iff.mpr (by norm_num)
    rw [h1]
    nlinarith [mul_pos (sub_pos.mpr h2) (sub_pos.mpr h2)]
  · rw [Real.log_lt_iff_lt_exp (by positivity), show (6.2 : ℝ) = 6 + 0.2 by norm_num, Real.exp_add]
    refine mul_lt_mul_of_pos_left ?_ e6
    have h1 : 1 + (0.2 : ℝ) + 0.2 ^ 2 / 2 ≤ Real.exp 0.2 := Real.quadratic_le_exp_of_nonneg (by norm_num)
    have h2 : Real.exp 0.3 ≤ 1 / (1 - 0.3) := by
      have := Real.one_sub_le_exp_neg 0.3
      rw [Real.exp_neg] at this
      rw [le_div_iff₀ (by norm_num)]
      have hp := Real.exp_pos 0.3
      calc Real.exp 0.3 * (1 - 0.3) ≤ Real.exp 0.3 * (Real.exp 0.3)⁻¹ := by gcongr
        _ = 1 := mul_inv_cancel₀ hp.ne'
    norm_num at h1 h2 ⊢
    linarith

theorem cdf70 {m : ℝ} (h1 : m = 6 ∨ m = mid70 ∨ m = 6.3) :
    cdfFunc mag70 0.01 11 6 6.3 m = if m = 6 then 0 else if m = mid70 then -1 else 1 := by
  obtain ⟨hb1, hb2⟩ := mid70_bounds
  rw [cdfFunc_real, show (11 : ℝ) = ((11 : ℕ) : ℝ) by norm_num, Real.rpow_natCast]
  have hz : ∀ x : ℝ, H ((x - x) / 0.01) = 1 / 2 := by intro x; rw [sub_self, zero_div, H_zero]
  have hgt : ∀ x y : ℝ, x - y > 0.05 → H ((x - y) / 0.01) = 1 := by
    intro x y hxy
    refine H_gt ?_
    rw [lt_div_iff₀ (by norm_num)]; norm_num at hxy ⊢; linarith
  have hlt : ∀ x y : ℝ, y - x > 0.05 → H ((x - y) / 0.01) = 1 := by
    intro x y hxy
    refine H_lt ?_
    rw [div_lt_iff₀ (by norm_num)]; norm_num at hxy ⊢; linarith
  have z1 : H ((6 - 6.0) / 0.01) = 1 / 2 := by rw [show (6.0 : ℝ) = 6 by norm_num, hz]
  have z2 : H ((6.3 - 6.3) / 0.01) = 1 / 2 := hz _
  have b1 : H ((6 - 6.08) / 0.01) = 1 := hlt _ _ (by norm_num)
  have b2 : H ((6 - 6.1) / 0.01) = 1 := hlt _ _ (by norm_num)
  have b3 : H ((6 - 6.3) / 0.01) = 1 := hlt _ _ (by norm_num)
  have c1 : H ((6.3 - 6.0) / 0.01) = 1 := hgt _ _ (by norm_num)
  have c2 : H ((6.3 - 6.08) / 0.01) = 1 := hgt _ _ (by norm_num)
  have c3 : H ((6.3 - 6.1) / 0.01) = 1 := hgt _ _ (by norm_num)
  have d1 : H ((mid70 - 6.0) / 0.01) = 1 := hgt _ _ (by norm_num at hb1 ⊢; linarith)
  have d2 : H ((mid70 - 6.08) / 0.01) = 1 := hgt _ _ (by norm_num at hb1 ⊢; linarith)
  have d3 : H ((mid70 - 6.1) / 0.01) = 1 := hgt _ _ (by norm_num at hb1 ⊢; linarith)
  have d4 : H ((mid70 - 6.3) / 0.01) = 1 := hlt _ _ (by norm_num at hb2 ⊢; linarith)
  simp only [mag70, List.map_cons, List.map_nil, List.sum_cons, List.sum_nil]
  rcases h1 with rfl | rfl | rfl
  · rw [if_pos rfl]
    simp only [sub_self]
    norm_num
  · rw [if_neg (by intro h; rw [h] at hb1; norm_num at hb1), if_pos rfl]
    simp only [z1, z2, b1, b2, b3, c1, c2, c3, d1, d2, d3, d4]
    norm_num
  · rw [if_neg (by norm_num), if_neg (by intro h; rw [← h] at hb2; norm_num at hb2)]
    simp only [z1, z2, b1, b2, b3, c1, c2, c3]
    norm_num

theorem int70 : intFunc [6, mid70, 6.3] mag70 0.01 11 = .ok (-(mid70 - 6) / 2) := by
  obtain ⟨hb1, hb2⟩ := mid70_bounds
  have b1 : 6 ≤ mid70 := by norm_num at hb1; linarith
  have b2 : mid70 ≤ 6.3 := by norm_num at hb2 ⊢; linarith
  have hmin : npMin [6, mid70, 6.3] = .ok 6 := npMin_iff.mpr ⟨by simp, by
    intro x hx; simp only [Set.mem_ofPred_eq, List.mem_cons, List.not_mem_nil, or_false] at hx; rcases hx with rfl | rfl | rfl <;> [exact le_rfl; exact b1; norm_num]⟩
  have hmax : npMax [6, mid70, 6.3] = .ok 6.3 := npMax_iff.mpr ⟨by simp, by
    intro x hx; simp only [Set.mem_ofPred_eq, List.mem_cons, List.not_mem_nil, or_false] at hx; rcases hx with rfl | rfl | rfl <;> [norm_num; exact b2; exact le_rfl]⟩
  unfold intFunc
  simp only [hmin, hmax, bind, Except.bind, pure, Except.pure, trapTail]
  rw [cdf70 (Or.inl rfl), cdf70 (Or.inr (Or.inl rfl)), cdf70 (Or.inr (Or.inr rfl))]
  rw [if_pos rfl, if_neg (by intro h; rw [h] at hb1; norm_num at hb1), if_pos rfl, if_neg (by norm_num), if_neg (by intro h; rw [← h] at hb2; norm_num at hb2)]
  congr 1
  norm_num
  ring

theorem spaced70 : expSpaced 6 6.3 ((3 : ℕ) : ℝ) = [6, mid70, 6.3] := by
  rw [expSpaced_eq (by norm_num)]
  have : List.range 3 = [0, 1, 2] := rfl
  rw [this]
  simp only [List.map_cons, List.map_nil, Nat.cast_zero, Nat.cast_one, zero_mul, add_zero, Real.log_exp]
  have e1 : ((3 : ℕ) : ℝ) - 1 = 2 := by norm_num
  rw [e1]
  have e2 : Real.exp 6 + ((2 : ℕ) : ℝ) * ((Real.exp 6.3 - Real.exp 6) / 2) = Real.exp 6.3 := by push_cast; ring
  rw [e2, Real.log_exp]
  rfl

/-- The estimate for `mag70` with three sample points and tolerance 0.1: between 6.2 and 6.23. -/
theorem kijko70 : kijko mag70 (List.replicate 11 0.1) 100 ((3 : ℕ) : ℝ) 0.1 1000 1001 = some (.ok (6.3 + -(mid70 - 6) / 2, Real.sqrt (0.1 * 0.1 + -(mid70 - 6) / 2 * (-(mid70 - 6) / 2)))) := by
  obtain ⟨hb1, hb2⟩ := mid70_bounds
  have hmax : npMax mag70 = .ok 6.3 := npMax_iff.mpr ⟨by simp [mag70], by
    intro x hx; simp only [mag70, Set.mem_ofPred_eq, List.mem_cons, List.not_mem_nil, or_false] at hx
    rcases hx with rfl | rfl | rfl | rfl | rfl | rfl | rfl | rfl | rfl | rfl | rfl <;> norm_num⟩
  have hmin : npMin mag70 = .ok 6 := npMin_iff.mpr ⟨by simp only [mag70, Set.mem_ofPred_eq]; rw [show (6.0 : ℝ) = 6 by norm_num]; simp, by
    intro x hx; simp only [mag70, Set.mem_ofPred_eq, List.mem_cons, List.not_mem_nil, or_false] at hx
    rcases hx with rfl | rfl | rfl | rfl | rfl | rfl | rfl | rfl | rfl | rfl | rfl <;> norm_num⟩
  have hlar : largest mag70 100 = (mag70, 11) := by
    rw [largest, if_pos (by simp [mag70])]
    simp [mag70]
  have hsig : (List.replicate 11 (0.1 : ℝ))[argmax mag70]? = some 0.1 := by
    have := argmax_lt (l := mag70) (by simp [mag70])
    rw [List.getElem?_replicate, if_pos (by simpa [mag70] using this)]
  have hloop : kijkoLoop (fun mmax => intFunc (expSpaced 6 mmax ((3 : ℕ) : ℝ)) mag70 0.01 11) 6.3 0.1 1000 1001 6.3 0 =
      some (.ok (6.3 + -(mid70 - 6) / 2, -(mid70 - 6) / 2)) := by
    rw [kijkoLoop]
    simp only [spaced70, int70]
    rw [if_neg (by norm_num : ¬ (0 + 1 > 1000)), if_neg]
    rw [npAbs_real, abs_of_neg] <;> norm_num at hb1 hb2 ⊢ <;> linarith
  unfold kijko
  simp only [hmax, hsig, hlar, hmin, smooth70]
  rw [if_pos (by norm_num), hloop]
  rfl

/-- **C70 fails**: for eleven magnitudes between 6.0 and 6.3, three sample points and a tolerance of 0.1 the estimate is below the observed maximum. -/
theorem C70_not_below_observed_fails : ¬ ∀ (mag sig : List ℝ) (neq n maxIter fuel : ℕ) (tol m s : ℝ), 2 ≤ n → 0 < tol → sig.length = mag.length →
    kijko mag sig neq (n : ℝ) tol maxIter fuel = some (.ok (m, s)) → ∀ g ∈ mag, g ≤ m := by
  intro hall
  have := hall mag70 (List.replicate 11 0.1) 100 3 1000 1001 0.1 _ _ (by norm_num) (by norm_num) (by simp [mag70]) kijko70 6.3 (by simp [mag70])
  obtain ⟨hb1, _⟩ := mid70_bounds
  norm_num at hb1
  linarith

end Verif.MaxMag
