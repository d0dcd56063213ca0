import Verif.Lemmas.Kijko
import Mathlib.Analysis.Complex.ExponentialBounds

/-! # C67-C71: the estimator of Kijko -/

namespace Verif.MaxMag

open Verif Verif.Np

/-! ### C67 -/

/-- **C67**: `n` points, the first equal to the lower and the last to the upper bound, non-decreasing, increasing if `lower < upper`; their exponentials are equally spaced. -/
theorem C67_spaced_points {l u : ℝ} {n : ℕ} (hn : 2 ≤ n) :
    (expSpaced l u (n : ℝ)).length = n ∧ (expSpaced l u (n : ℝ)).head? = some l ∧ (expSpaced l u (n : ℝ)).getLast? = some u ∧
      (l ≤ u → (expSpaced l u (n : ℝ)).Pairwise (· ≤ ·)) ∧ (l < u → (expSpaced l u (n : ℝ)).Pairwise (· < ·)) ∧
      ∀ (i : ℕ) (h : i + 1 < (expSpaced l u (n : ℝ)).length),
        Real.exp (expSpaced l u (n : ℝ))[i + 1] - Real.exp (expSpaced l u (n : ℝ))[i] = (Real.exp u - Real.exp l) / (n - 1) := by
  simp only [expSpaced_eq hn]
  obtain ⟨m, rfl⟩ : ∃ m, n = m + 2 := ⟨n - 2, by omega⟩
  have hm : ((m + 2 : ℕ) : ℝ) - 1 = m + 1 := by push_cast; ring
  have hm0 : (0 : ℝ) < m + 1 := by positivity
  simp only [hm]
  have hpos : ∀ i : ℕ, i ≤ m + 1 → 0 < Real.exp l + i * ((Real.exp u - Real.exp l) / (m + 1)) := by
    intro i hi
    have h1 : (i : ℝ) / (m + 1) ≤ 1 := by
      rw [div_le_one hm0]; exact_mod_cast hi
    have h0 : 0 ≤ (i : ℝ) / (m + 1) := by positivity
    have : Real.exp l + i * ((Real.exp u - Real.exp l) / (m + 1)) = (1 - i / (m + 1)) * Real.exp l + i / (m + 1) * Real.exp u := by
      field_simp; ring
    rw [this]
    have hl := Real.exp_pos l
    have hu := Real.exp_pos u
    rcases h1.lt_or_eq with h | h
    · have := mul_pos (sub_pos.mpr h) hl
      have := mul_nonneg h0 hu.le
      linarith
    · rw [h]; linarith
  refine ⟨by simp, ?_, ?_, ?_, ?_, ?_⟩
  · simp [List.head?_range]
  · rw [List.range_succ]
    simp only [List.map_append, List.map_cons, List.map_nil, List.getLast?_append, List.getLast?_singleton, Option.some_or]
    push_cast
    rw [mul_div_cancel₀ _ hm0.ne', add_sub_cancel, Real.log_exp]
  · intro hlu
    have he := Real.exp_le_exp.mpr hlu
    rw [List.pairwise_map]
    refine List.pairwise_lt_range.imp_of_mem ?_
    intro i j hi hj hij
    rw [List.mem_range] at hi hj
    refine Real.log_le_log (hpos i (by omega)) ?_
    have : (i : ℝ) ≤ j := by exact_mod_cast hij.le
    have h0 : 0 ≤ (Real.exp u - Real.exp l) / (m + 1) := div_nonneg (by linarith) hm0.le
    nlinarith
  · intro hlu
    have he := Real.exp_lt_exp.mpr hlu
    rw [List.pairwise_map]
    refine List.pairwise_lt_range.imp_of_mem ?_
    intro i j hi hj hij
    rw [List.mem_range] at hi hj
    refine Real.log_lt_log (hpos i (by omega)) ?_
    have : (i : ℝ) < j := by exact_mod_cast hij
    have h0 : 0 < (Real.exp u - Real.exp l) / (m + 1) := div_pos (by linarith) hm0
    nlinarith
  · intro i hi
    simp only [List.length_map, List.length_range] at hi
    simp only [List.getElem_map, List.getElem_range]
    rw [Real.exp_log (hpos _ (by omega)), Real.exp_log (hpos _ (by omega))]
    push_cast
    ring

example : (expSpaced (4 : ℝ) 7 ((51 : ℕ) : ℝ)).getLast? = some 7 := (C67_spaced_points (by norm_num)).2.2.1

/-! ### C68 -/

/-- **C68**, what holds: for non-decreasing sample points, a positive smoothing factor and magnitudes at most five smoothing factors above the first point, the
integral is between 0 and the length of the range.  Missing: magnitudes further above (`C68_integral_fails`). -/
theorem C68_integral_partial {mval mag : List ℝ} {h n d : ℝ} (hh : 0 < h) (hn : 0 ≤ n) (hs : mval.Pairwise (· ≤ ·)) (htail : ∀ x ∈ mval, ∀ g ∈ mag, g - x ≤ 5 * h)
    (hd : intFunc mval mag h n = .ok d) : ∃ mmin mmax, IsLeast {m | m ∈ mval} mmin ∧ IsGreatest {m | m ∈ mval} mmax ∧ 0 ≤ d ∧ d ≤ mmax - mmin := by
  have hne : mval ≠ [] := by rintro rfl; simp [intFunc, npMin, bind, Except.bind] at hd
  obtain ⟨mmin, hmin⟩ := npMin_exists hne
  obtain ⟨mmax, hmax⟩ := npMax_exists hne
  have h1 := npMin_ok hmin
  have h2 := npMax_ok hmax
  exact ⟨mmin, mmax, h1, h2, intFunc_bounds hmin hmax hs (fun y hy => cdfFunc_mem hh hn (htail mmin h1.1) (h1.2 hy) (h2.2 hy)) hd⟩

/-- Two sample points and a magnitude between them. -/
example : ∃ d, intFunc [(5 : ℝ), 6] [5.5] 0.5 1 = .ok d ∧ 0 ≤ d ∧ d ≤ 6 - 5 := by
  obtain ⟨d, hd⟩ : ∃ d, intFunc [(5 : ℝ), 6] [5.5] 0.5 1 = .ok d := ⟨_, rfl⟩
  obtain ⟨a, b, ha, hb, h⟩ := C68_integral_partial (by norm_num) (by norm_num) (by norm_num) (by norm_num) hd
  obtain rfl : a = 5 := ha.unique ⟨by simp, by intro x hx; simp at hx; rcases hx with rfl | rfl <;> norm_num⟩
  obtain rfl : b = 6 := hb.unique ⟨by simp, by intro x hx; simp at hx; rcases hx with rfl | rfl <;> norm_num⟩
  exact ⟨d, hd, h⟩

/-- **C68 fails**: one magnitude ten smoothing factors above the first of three sample points gives an integral larger than the range. -/
theorem C68_integral_fails : ¬ ∀ (mval mag : List ℝ) (h n d : ℝ), 0 < h → 0 < n → mval.Pairwise (· ≤ ·) → intFunc mval mag h n = .ok d →
    ∀ mmin mmax, IsLeast {m | m ∈ mval} mmin → IsGreatest {m | m ∈ mval} mmax → 0 ≤ d ∧ d ≤ mmax - mmin := by
  intro hall
  have hmin : npMin [(0 : ℝ), 6, 10] = .ok 0 := npMin_iff.mpr ⟨by simp, by intro x hx; simp at hx; rcases hx with rfl | rfl | rfl <;> norm_num⟩
  have hmax : npMax [(0 : ℝ), 6, 10] = .ok 10 := npMax_iff.mpr ⟨by simp, by intro x hx; simp at hx; rcases hx with rfl | rfl | rfl <;> norm_num⟩
  obtain ⟨d, hd⟩ : ∃ d, intFunc [(0 : ℝ), 6, 10] [10] 1 1 = .ok d := ⟨_, rfl⟩
  have key := (hall [0, 6, 10] [10] 1 1 d one_pos one_pos (by norm_num) hd 0 10 (npMin_ok hmin) (npMax_ok hmax)).2
  unfold intFunc at hd
  simp only [hmin, hmax, bind, Except.bind, pure, Except.pure, Except.ok.injEq, trapTail, cdfFunc_real, List.map_cons, List.map_nil, List.sum_cons, List.sum_nil, Real.rpow_one] at hd
  have e1 : H ((0 - 10) / 1) = 1 := H_lt (by norm_num)
  have e2 : H ((10 - 10) / 1) = 1 / 2 := by rw [show ((10 : ℝ) - 10) / 1 = 0 by norm_num, H_zero]
  have e3 : H ((6 - 10) / 1) = (P 4 ^ 4)⁻¹ / 2 := by rw [show ((6 : ℝ) - 10) / 1 = -4 by norm_num, H_neg (by norm_num) (by norm_num)]; norm_num
  have e4 : (P 4 ^ 4)⁻¹ ≤ 1 / 16 := by
    have : (2 : ℝ) ≤ P 4 := by simp only [P]; norm_num
    calc (P 4 ^ 4)⁻¹ ≤ ((2 : ℝ) ^ 4)⁻¹ := inv_anti₀ (by norm_num) (pow_le_pow_left₀ (by norm_num) this 4)
      _ = 1 / 16 := by norm_num
  rw [e1, e2, e3] at hd
  norm_num at hd
  linarith

/-! ### C69 -/

theorem kijkoLoop_returns {F : Type} [PyMath F] (delta : F → Except PyErr F) (obsmax tol : F) (maxIter : ℕ) (htol : ¬ tol < (0.5 : F) * tol) (fuel : ℕ) (mmax : F) (j : ℕ)
    (h : maxIter < fuel + j) (hf : 0 < fuel) : ∃ r, kijkoLoop delta obsmax tol maxIter fuel mmax j = some r := by
  induction fuel generalizing mmax j with
  | zero => omega
  | succ fuel ih =>
    rw [kijkoLoop]
    rcases delta mmax with e | d
    · exact ⟨_, rfl⟩
    simp only
    by_cases h1 : j + 1 > maxIter
    · simp only [h1, if_true, htol, if_false]
      exact ⟨_, rfl⟩
    · simp only [h1, if_false]
      split_ifs
      · exact ih _ _ (by omega) (by omega)
      · exact ⟨_, rfl⟩

theorem kijkoLoop_fuel {F : Type} [PyMath F] (delta : F → Except PyErr F) (obsmax tol : F) (maxIter : ℕ) (fuel : ℕ) (mmax : F) (j : ℕ) {r : Except PyErr (F × F)}
    (h : kijkoLoop delta obsmax tol maxIter fuel mmax j = some r) (fuel' : ℕ) (hf : fuel ≤ fuel') : kijkoLoop delta obsmax tol maxIter fuel' mmax j = some r := by
  induction fuel generalizing mmax j fuel' with
  | zero => simp [kijkoLoop] at h
  | succ fuel ih =>
    obtain ⟨k, rfl⟩ : ∃ k, fuel' = k + 1 := ⟨fuel' - 1, by omega⟩
    rw [kijkoLoop] at h ⊢
    rcases hd : delta mmax with e | d
    · simpa [hd] using h
    simp only [hd] at h ⊢
    split_ifs at h ⊢ with h1 h2
    · exact ih _ _ h _ (by omega)
    · exact h
    · exact ih _ _ h _ (by omega)
    · exact h

/-- **C69**: whatever the integral evaluates to and in any arithmetic in which half the tolerance is not larger than the tolerance (every non-negative double; NaN), the
estimator stops after at most `maximum_iterations + 1` iterations. -/
theorem C69_terminates {F : Type} [PyMath F] (mag sig : List F) (neq : ℕ) (nsamp tol : F) (maxIter : ℕ) (htol : ¬ tol < (0.5 : F) * tol) :
    ∃ r, ∀ fuel, maxIter + 1 ≤ fuel → kijko mag sig neq nsamp tol maxIter fuel = some r := by
  unfold kijko
  rcases npMax mag with e | obsmax
  · exact ⟨_, fun _ _ => rfl⟩
  simp only
  rcases sig[argmax mag]? with _ | s
  · exact ⟨_, fun _ _ => rfl⟩
  simp only
  rcases npMin (largest mag neq).1 with e | mmin
  · exact ⟨_, fun _ _ => rfl⟩
  rcases hSmooth (largest mag neq).1 with e | h
  · exact ⟨_, fun _ _ => rfl⟩
  simp only
  by_cases ht : tol < (1e8 : F)
  · simp only [ht, if_true]
    obtain ⟨r, hr⟩ := kijkoLoop_returns (fun mmax => intFunc (expSpaced mmin mmax nsamp) (largest mag neq).1 h (largest mag neq).2) obsmax tol maxIter htol (maxIter + 1) obsmax 0
      (by omega) (by omega)
    have hr' := fun fuel hf => kijkoLoop_fuel _ _ _ _ _ _ _ hr fuel hf
    rcases r with e | ⟨a, b⟩
    · exact ⟨.error e, fun fuel hf => by rw [hr' fuel hf]⟩
    · exact ⟨.ok (a, PyMath.sqrt (s * s + b * b)), fun fuel hf => by rw [hr' fuel hf]⟩
  · simp only [ht, if_false]
    exact ⟨_, fun _ _ => rfl⟩

/-- **C69** for a non-negative tolerance in exact arithmetic. -/
theorem C69_terminates_real (mag sig : List ℝ) (neq : ℕ) (nsamp tol : ℝ) (maxIter : ℕ) (htol : 0 ≤ tol) :
    ∃ r, ∀ fuel, maxIter + 1 ≤ fuel → kijko mag sig neq nsamp tol maxIter fuel = some r :=
  C69_terminates mag sig neq nsamp tol maxIter (by norm_num; linarith)

/-- The hypothesis of C69 is needed: with a negative tolerance the loop never ends unless the integral fails. -/
theorem kijkoLoop_negative (delta : ℝ → Except PyErr ℝ) (obsmax tol : ℝ) (maxIter : ℕ) (htol : tol < 0) (hd : ∀ m, ∃ d, delta m = .ok d) (fuel : ℕ) (mmax : ℝ) (j : ℕ) :
    kijkoLoop delta obsmax tol maxIter fuel mmax j = none := by
  induction fuel generalizing mmax j with
  | zero => rfl
  | succ fuel ih =>
    rw [kijkoLoop]
    obtain ⟨d, hd⟩ := hd mmax
    simp only [hd, npAbs_real]
    have h1 : tol < 0.5 * tol := by norm_num; linarith
    have h2 : tol < |obsmax + d - mmax| := lt_of_lt_of_le htol (abs_nonneg _)
    split_ifs <;> exact ih _ _

/-! ### C70 -/

/-- The loop keeps an invariant of the estimate. -/
theorem kijkoLoop_inv {delta : ℝ → Except PyErr ℝ} {obsmax tol : ℝ} {maxIter : ℕ} (I : ℝ → Prop) (hI : ∀ m d, I m → delta m = .ok d → I (obsmax + d)) (fuel : ℕ) (mmax : ℝ) (j : ℕ)
    (h0 : I mmax) {m d : ℝ} (h : kijkoLoop delta obsmax tol maxIter fuel mmax j = some (.ok (m, d))) : I m ∧ m = obsmax + d := by
  induction fuel generalizing mmax j with
  | zero => simp [kijkoLoop] at h
  | succ fuel ih =>
    rw [kijkoLoop] at h
    rcases hd : delta mmax with e | d'
    · simp [hd] at h
    simp only [hd] at h
    have hm := hI _ _ h0 hd
    split_ifs at h with h1 h2
    · exact ih _ _ hm h
    · simp only [Option.some.injEq, Except.ok.injEq, Prod.mk.injEq] at h
      obtain ⟨rfl, rfl⟩ := h; exact ⟨hm, rfl⟩
    · exact ih _ _ hm h
    · simp only [Option.some.injEq, Except.ok.injEq, Prod.mk.injEq] at h
      obtain ⟨rfl, rfl⟩ := h; exact ⟨hm, rfl⟩

theorem kijko_ok {mag sig : List ℝ} {neq maxIter fuel : ℕ} {nsamp tol m s : ℝ} (h : kijko mag sig neq nsamp tol maxIter fuel = some (.ok (m, s))) :
    ∃ obsmax obssig mmin hf d, npMax mag = .ok obsmax ∧ sig[argmax mag]? = some obssig ∧ npMin (largest mag neq).1 = .ok mmin ∧ hSmooth (largest mag neq).1 = .ok hf ∧
      kijkoLoop (fun mmax => intFunc (expSpaced mmin mmax nsamp) (largest mag neq).1 hf (largest mag neq).2) obsmax tol maxIter fuel obsmax 0 = some (.ok (m, d)) ∧
      s = Real.sqrt (obssig * obssig + d * d) := by
  unfold kijko at h
  rcases h1 : npMax mag with e | obsmax
  · simp [h1] at h
  simp only [h1] at h
  rcases h2 : sig[argmax mag]? with _ | obssig
  · simp [h2] at h
  simp only [h2] at h
  rcases h3 : npMin (largest mag neq).1 with e | mmin
  · simp [h3] at h
  rcases h4 : hSmooth (largest mag neq).1 with e | hf
  · simp [h3, h4] at h
  simp only [h3, h4] at h
  split_ifs at h with ht
  · rcases h5 : kijkoLoop (fun mmax => intFunc (expSpaced mmin mmax nsamp) (largest mag neq).1 hf (largest mag neq).2) obsmax tol maxIter fuel obsmax 0 with _ | (e | ⟨m', d⟩)
    · simp [h5] at h
    · simp [h5] at h
    · simp only [h5, Option.some.injEq, Except.ok.injEq, Prod.mk.injEq, sqrt_real] at h
      obtain ⟨rfl, rfl⟩ := h
      exact ⟨obsmax, obssig, mmin, hf, d, rfl, rfl, rfl, rfl, h5, rfl⟩
  · simp at h

theorem largest_subset (mag : List ℝ) (neq : ℕ) : ∀ g ∈ (largest mag neq).1, g ∈ mag := by
  intro g hg
  unfold largest at hg
  split_ifs at hg
  · exact hg
  · exact (npSort_perm mag).subset hg
  · exact (npSort_perm mag).subset (List.mem_of_mem_drop hg)

/-- **C70**, what holds: the uncertainty is never below that of the largest event; and if the smoothing factor is positive and the events used lie within five smoothing factors of each other, the estimate is
at least the largest observed magnitude.  Missing: the second part for other catalogues (`C70_not_below_observed_fails`). -/
theorem C70_not_below_observed_partial {mag sig : List ℝ} {neq maxIter fuel n : ℕ} {tol m s : ℝ} (hn : 2 ≤ n)
    (h : kijko mag sig neq (n : ℝ) tol maxIter fuel = some (.ok (m, s))) :
    (∃ k, ∃ hk : k < mag.length, (∀ g ∈ mag, g ≤ mag[k]) ∧ ∃ σ, sig[k]? = some σ ∧ |σ| ≤ s) ∧
      (∀ hf, hSmooth (largest mag neq).1 = .ok hf → 0 < hf → (∀ g ∈ mag, ∀ g' ∈ (largest mag neq).1, g - g' ≤ 5 * hf) → ∀ g ∈ mag, g ≤ m) := by
  obtain ⟨obsmax, obssig, mmin, hf, d, h1, h2, h3, h4, h5, rfl⟩ := kijko_ok h
  have hne : mag ≠ [] := by rintro rfl; simp [npMax] at h1
  obtain ⟨hk, hmax⟩ := argmax_spec hne
  refine ⟨⟨argmax mag, hk, hmax, obssig, h2, ?_⟩, ?_⟩
  · rw [← Real.sqrt_mul_self_eq_abs]
    exact Real.sqrt_le_sqrt (by nlinarith [mul_self_nonneg d])
  · intro hf' hhf hpos htail g hg
    obtain rfl : hf = hf' := by rw [h4] at hhf; exact Except.ok.inj hhf
    have ho := npMax_ok h1
    have hmn := npMin_ok h3
    have hmo : mmin ≤ obsmax := ho.2 (largest_subset mag neq _ hmn.1)
    have hnn : 0 ≤ (largest mag neq).2 := by
      unfold largest; split_ifs <;> exact Nat.cast_nonneg _
    have inv := kijkoLoop_inv (fun x => obsmax ≤ x) ?_ fuel obsmax 0 le_rfl h5
    · exact (ho.2 hg).trans inv.1
    · intro x d hx hd
      obtain ⟨_, hhead, _, hsort, _⟩ := C67_spaced_points (l := mmin) (u := x) hn
      have hs := hsort (hmo.trans hx)
      have hmm : ∀ y ∈ expSpaced mmin x (n : ℝ), mmin ≤ y := by
        rcases he : expSpaced mmin x (n : ℝ) with _ | ⟨a, l⟩
        · simp
        · rw [he] at hhead hs
          simp only [List.head?_cons, Option.some.injEq] at hhead
          subst hhead
          intro y hy
          rcases List.mem_cons.mp hy with rfl | hy
          · exact le_rfl
          · exact (List.pairwise_cons.mp hs).1 y hy
      obtain ⟨a, b, _, _, hd0, _⟩ := C68_integral_partial hpos hnn hs (fun y hy g hg' => by
        have := htail g (largest_subset mag neq g hg') mmin hmn.1
        have := hmm y hy
        linarith) hd
      linarith

end Verif.MaxMag
