import Verif.Props.Hastings
import Mathlib.Analysis.SpecialFunctions.Integrals.Basic

/-! # C66: how far the function is from the normal distribution -/

namespace Verif.MaxMag

open Verif Verif.Np MeasureTheory ProbabilityTheory

/-! ### Bounds of the normal distribution function -/

theorem normal_neg (x : ℝ) : normalCdf (-x) = 1 - normalCdf x := by
  have hna : NullSingletonClass (gaussianReal 0 1) := nullSingletonClass_gaussianReal (by norm_num)
  have h1 : (gaussianReal 0 1).real (Set.Iic (-x)) = (gaussianReal 0 1).real (Set.Ici x) := by
    have := gaussianReal_map_neg (μ := 0) (v := 1)
    rw [neg_zero] at this
    conv_lhs => rw [← this]
    rw [map_measureReal_apply (by fun_prop) measurableSet_Iic]
    congr 1
    ext y; simp
  have h2 : (gaussianReal 0 1).real (Set.Ici x) = (gaussianReal 0 1).real (Set.Ioi x) := measureReal_congr Ioi_ae_eq_Ici.symm
  have h3 : (gaussianReal 0 1).real (Set.Iic x) + (gaussianReal 0 1).real (Set.Ioi x) = 1 := by
    have := probReal_add_probReal_compl (μ := gaussianReal 0 1) (s := Set.Iic x) measurableSet_Iic
    rwa [Set.compl_Iic] at this
  rw [normalCdf, normalCdf, cdf_eq_real, cdf_eq_real]
  linarith

theorem normal_mono {x y : ℝ} (h : x ≤ y) : normalCdf x ≤ normalCdf y := monotone_cdf _ h

theorem normal_le_one (x : ℝ) : normalCdf x ≤ 1 := cdf_le_one _ x

theorem normal_integral {x : ℝ} (hx : 0 ≤ x) : normalCdf x = 1 / 2 + ∫ t in (0 : ℝ)..x, gaussianPDFReal 0 1 t := by
  have h0 := normal_half
  rw [normalCdf, cdf_eq_real] at h0 ⊢
  have hsplit : (gaussianReal 0 1).real (Set.Iic x) = (gaussianReal 0 1).real (Set.Iic 0) + (gaussianReal 0 1).real (Set.Ioc 0 x) := by
    rw [← measureReal_union]
    · rw [Set.Iic_union_Ioc_eq_Iic hx]
    · rw [Set.disjoint_left]; intro y hy hy'; exact absurd hy'.1 (not_lt.mpr hy)
    · exact measurableSet_Ioc
  rw [hsplit, h0, measureReal_def, gaussianReal_apply_eq_integral 0 (by norm_num), ENNReal.toReal_ofReal (by
    refine setIntegral_nonneg measurableSet_Ioc fun x _ => gaussianPDFReal_nonneg _ _ _), intervalIntegral.integral_of_le hx]

theorem pdf_eq (t : ℝ) : gaussianPDFReal 0 1 t = (Real.sqrt (2 * Real.pi))⁻¹ * Real.exp (-(t ^ 2 / 2)) := by
  rw [gaussianPDFReal_def]
  simp only [NNReal.coe_one, mul_one, sub_zero, neg_div]

theorem factor_bounds : 0.398 ≤ (Real.sqrt (2 * Real.pi))⁻¹ ∧ (Real.sqrt (2 * Real.pi))⁻¹ ≤ 0.3991 := by
  have h1 := Real.pi_gt_d2
  have h2 := Real.pi_lt_d2
  have hs0 : 0 < Real.sqrt (2 * Real.pi) := Real.sqrt_pos.mpr (by linarith)
  constructor
  · rw [le_inv_comm₀ (by norm_num) hs0, Real.sqrt_le_left (by norm_num)]
    norm_num at h2 ⊢
    linarith
  · rw [inv_le_comm₀ hs0 (by norm_num)]
    refine Real.le_sqrt_of_sq_le ?_
    norm_num at h1 ⊢
    linarith

theorem exp_neg_le {s : ℝ} (hs : 0 ≤ s) : Real.exp (-s) ≤ 1 - s + s ^ 2 / 2 - s ^ 3 / 6 + s ^ 4 / 24 := by
  have h := Real.sum_le_exp_of_nonneg hs 5
  simp only [Finset.sum_range_succ, Finset.sum_range_zero, Nat.factorial] at h
  have hpos : (0 : ℝ) < 1 + s + s ^ 2 / 2 + s ^ 3 / 6 + s ^ 4 / 24 := by positivity
  have h' : 1 + s + s ^ 2 / 2 + s ^ 3 / 6 + s ^ 4 / 24 ≤ Real.exp s := by
    refine le_trans (le_of_eq ?_) h
    norm_num
  rw [Real.exp_neg]
  refine (inv_anti₀ hpos h').trans ?_
  rw [inv_le_iff_one_le_mul₀ hpos]
  have h6 : 0 ≤ s ^ 6 := by positivity
  have h8 : 0 ≤ s ^ 8 := by positivity
  nlinarith

theorem normal_ge {x : ℝ} (hx : 0 ≤ x) : 1 / 2 + 0.398 * (x - x ^ 3 / 6) ≤ normalCdf x := by
  rw [normal_integral hx]
  have hi : ∫ t in (0 : ℝ)..x, 0.398 * (1 - t ^ 2 / 2) = 0.398 * (x - x ^ 3 / 6) := by
    rw [intervalIntegral.integral_eq_sub_of_hasDerivAt (f := fun x => 0.398 * (x - x ^ 3 / 6))]
    · norm_num
    · intro t _
      have h1 := hasDerivAt_id t
      have h3 := (hasDerivAt_pow 3 t).div_const 6
      refine ((h1.sub h3).const_mul 0.398).congr_deriv ?_
      norm_num
      ring
    · exact (by fun_prop : Continuous _).intervalIntegrable _ _
  rw [← hi]
  have := intervalIntegral.integral_mono_on hx (f := fun t => 0.398 * (1 - t ^ 2 / 2)) ((by fun_prop : Continuous _).intervalIntegrable _ _)
    ((integrable_gaussianPDFReal 0 1).intervalIntegrable) (by
      intro t _
      rw [pdf_eq]
      have h1 : 1 - t ^ 2 / 2 ≤ Real.exp (-(t ^ 2 / 2)) := by linarith [Real.add_one_le_exp (-(t ^ 2 / 2))]
      have h2 := factor_bounds.1
      have h3 := Real.exp_pos (-(t ^ 2 / 2))
      nlinarith)
  linarith

theorem normal_le {x : ℝ} (hx : 0 ≤ x) : normalCdf x ≤ 1 / 2 + 0.3991 * (x - x ^ 3 / 6 + x ^ 5 / 40 - x ^ 7 / 336 + x ^ 9 / 3456) := by
  rw [normal_integral hx]
  have hi : ∫ t in (0 : ℝ)..x, 0.3991 * (1 - t ^ 2 / 2 + (t ^ 2 / 2) ^ 2 / 2 - (t ^ 2 / 2) ^ 3 / 6 + (t ^ 2 / 2) ^ 4 / 24) =
      0.3991 * (x - x ^ 3 / 6 + x ^ 5 / 40 - x ^ 7 / 336 + x ^ 9 / 3456) := by
    rw [intervalIntegral.integral_eq_sub_of_hasDerivAt (f := fun x => 0.3991 * (x - x ^ 3 / 6 + x ^ 5 / 40 - x ^ 7 / 336 + x ^ 9 / 3456))]
    · norm_num
    · intro t _
      have h1 := hasDerivAt_id t
      have h3 := (hasDerivAt_pow 3 t).div_const 6
      have h5 := (hasDerivAt_pow 5 t).div_const 40
      have h7 := (hasDerivAt_pow 7 t).div_const 336
      have h9 := (hasDerivAt_pow 9 t).div_const 3456
      refine (((((h1.sub h3).add h5).sub h7).add h9).const_mul 0.3991).congr_deriv ?_
      norm_num
      ring
    · exact (by fun_prop : Continuous _).intervalIntegrable _ _
  rw [← hi]
  have := intervalIntegral.integral_mono_on hx ((integrable_gaussianPDFReal 0 1).intervalIntegrable) (g := fun t =>
    0.3991 * (1 - t ^ 2 / 2 + (t ^ 2 / 2) ^ 2 / 2 - (t ^ 2 / 2) ^ 3 / 6 + (t ^ 2 / 2) ^ 4 / 24)) ((by fun_prop : Continuous _).intervalIntegrable _ _) (by
      intro t _
      rw [pdf_eq]
      exact mul_le_mul factor_bounds.2 (exp_neg_le (by positivity)) (Real.exp_nonneg _) (by norm_num))
  linarith

theorem normal_tail {x : ℝ} (hx : 0 ≤ x) : 1 - normalCdf x ≤ Real.exp (-(x ^ 2 / 2)) := by
  rw [normalCdf, cdf_eq_real]
  have hc := measure_ge_le_exp_mul_mgf (μ := gaussianReal 0 1) (X := fun x => x) (t := x) x hx (integrable_exp_mul_gaussianReal x)
  rw [mgf_fun_id_gaussianReal] at hc
  have h1 : 1 - (gaussianReal 0 1).real (Set.Iic x) = (gaussianReal 0 1).real (Set.Ioi x) := by
    have := probReal_add_probReal_compl (μ := gaussianReal 0 1) (s := Set.Iic x) measurableSet_Iic
    rw [Set.compl_Iic] at this
    linarith
  rw [h1]
  have h2 : (gaussianReal 0 1).real (Set.Ioi x) ≤ (gaussianReal 0 1).real {ω | x ≤ ω} := by
    refine measureReal_mono ?_ (measure_ne_top _ _)
    intro y hy
    exact (Set.mem_Ioi.mp hy).le
  refine h2.trans (hc.trans (le_of_eq ?_))
  rw [← Real.exp_add]
  congr 1
  simp only [NNReal.coe_one]
  ring

/-! ### The error -/

theorem H_le {a x b v : ℝ} (h0 : 0 ≤ b) (h5 : b ≤ 5) (hx : x ≤ b) (ha : a ≤ x) (ha0 : 0 ≤ a) (hv : 1 - (P b ^ 4)⁻¹ / 2 ≤ v) : H x ≤ v := by
  refine (H_mono (by simp; linarith) (by simp; linarith) hx).trans ?_
  rwa [H_pos h0 h5]

theorem H_ge {a x v : ℝ} (ha0 : 0 ≤ a) (h5 : a ≤ 5) (ha : a ≤ x) (hv : v ≤ 1 - (P a ^ 4)⁻¹ / 2) : v ≤ H x := by
  refine le_trans ?_ (H_mono (by simp; linarith) (by simp; linarith) ha)
  rwa [H_pos ha0 h5]

theorem H_le_normal {x : ℝ} (h0 : 0 ≤ x) (h5 : x ≤ 5) : H x ≤ normalCdf x := by
  rcases le_total x (1 / 2) with h | h
  · refine le_trans ?_ (normal_ge h0)
    rw [H_pos h0 h5]
    have hp : P x ≤ 1 + 0.196854 * x := by
      simp only [P]
      nlinarith [mul_nonneg h0 h0, mul_nonneg (mul_nonneg h0 h0) h0]
    have h1 := one_le_P h0
    have h4 : P x ^ 4 ≤ (1 + 0.196854 * x) ^ 4 := pow_le_pow_left₀ (by linarith) hp 4
    have hinv := inv_anti₀ (by positivity) h4
    have : 1 - 0.796 * (x - x ^ 3 / 6) ≤ ((1 + 0.196854 * x) ^ 4)⁻¹ := by
      have hq : 0 < (1 + 0.196854 * x) ^ 4 := by positivity
      rw [← one_div, le_div_iff₀ hq]
      have hx2 := mul_nonneg h0 h0
      have hx3 := mul_nonneg hx2 h0
      have hx4 := mul_nonneg hx3 h0
      have hx6 := mul_nonneg hx3 hx3
      have e : (1 - 0.796 * (x - x ^ 3 / 6)) * (1 + 0.196854 * x) ^ 4 =
        1 - 0.008584 * x - (0.796 * 0.787416 - 6 * 0.196854 ^ 2) * (x * x) - (0.796 * 6 * 0.196854 ^ 2 - 4 * 0.196854 ^ 3 - 0.796 / 6) * (x * x * x)
          - (0.796 * 4 * 0.196854 ^ 3 - 0.196854 ^ 4 - 0.796 / 6 * 0.787416) * (x * x * x * x)
          - (0.796 * 0.196854 ^ 4 - 0.796 / 6 * 6 * 0.196854 ^ 2) * (x * x * x * x * x) + 0.796 / 6 * 4 * 0.196854 ^ 3 * (x * x * x * (x * x * x))
          + 0.796 / 6 * 0.196854 ^ 4 * (x * x * x * (x * x * x) * x) := by ring
      rw [e]
      have b3 : x * x * x ≤ x * x / 2 := by nlinarith
      have b4 : x * x * x * x ≤ x * x / 4 := by nlinarith
      have b5 : x * x * x * x * x ≤ x * x / 8 := by nlinarith
      have b6 : x * x * x * (x * x * x) ≤ x * x / 16 := by nlinarith
      have b7 : x * x * x * (x * x * x) * x ≤ x * x / 32 := by nlinarith
      norm_num
      nlinarith
    norm_num at this ⊢
    linarith
  rcases le_total x 1.3 with h' | h'
  · have := (normal_ge (x := 1 / 2) (by norm_num)).trans (normal_mono h)
    refine (H_le (a := 1 / 2) (b := 1.3) (v := 0.69) (by norm_num) (by norm_num) h' h (by norm_num) (by simp only [P]; norm_num)).trans (le_trans (by norm_num) this)
  rcases le_total x 2 with h2 | h2
  · have := (normal_ge (x := 1.3) (by norm_num)).trans (normal_mono h')
    refine (H_le (a := 1 / 2) (b := 2) (v := 0.85) (by norm_num) (by norm_num) h2 h (by norm_num) (by simp only [P]; norm_num)).trans (le_trans (by norm_num) this)
  have ht := normal_tail h0
  rw [H_pos h0 h5]
  have key : 2 * P x ^ 4 ≤ Real.exp (x ^ 2 / 2) := by
    have hy : 0 ≤ x ^ 2 / 8 := by positivity
    have he := Real.sum_le_exp_of_nonneg hy 5
    simp only [Finset.sum_range_succ, Finset.sum_range_zero, Nat.factorial] at he
    have h3 : 1.19 * P x ≤ Real.exp (x ^ 2 / 8) := by
      refine le_trans ?_ he
      simp only [P]
      norm_num
      have hu : x ≤ (x ^ 2 + 4) / 4 := by nlinarith [sq_nonneg (x - 2)]
      have hu4 : 4 ≤ x ^ 2 := by nlinarith
      have hu25 : x ^ 2 ≤ 25 := by nlinarith
      have hx3 : x ^ 3 ≤ 5 * x ^ 2 := by nlinarith
      generalize hz : x ^ 2 = u at *
      have e4 : x ^ 4 = u ^ 2 := by rw [← hz]; ring
      rw [e4]
      nlinarith [sq_nonneg (u - 4), sq_nonneg (u - 10), sq_nonneg (u - 20), mul_nonneg (sub_nonneg.mpr hu4) (sub_nonneg.mpr hu25), mul_nonneg (sub_nonneg.mpr hu4) (sq_nonneg (u - 15))]
    have h4 := pow_le_pow_left₀ (by have := one_le_P h0; positivity) h3 4
    rw [← Real.exp_nat_mul, show ((4 : ℕ) : ℝ) * (x ^ 2 / 8) = x ^ 2 / 2 by push_cast; ring] at h4
    refine le_trans ?_ h4
    have : 0 ≤ P x ^ 4 := by positivity
    rw [mul_pow]
    norm_num
    nlinarith
  have h1 := one_le_P h0
  have hp : 0 < 2 * P x ^ 4 := by positivity
  have := inv_anti₀ hp key
  rw [← Real.exp_neg, mul_inv] at this
  linarith

theorem normal_le_H {x : ℝ} (h0 : 0 ≤ x) : normalCdf x ≤ H x + 0.25 := by
  have step : ∀ a b v : ℝ, 0 ≤ a → a ≤ b → b ≤ 5 → v ≤ 1 - (P a ^ 4)⁻¹ / 2 →
      1 / 2 + 0.3991 * (b - b ^ 3 / 6 + b ^ 5 / 40 - b ^ 7 / 336 + b ^ 9 / 3456) ≤ v + 0.25 → a ≤ x → x ≤ b → normalCdf x ≤ H x + 0.25 := by
    intro a b v ha hab hb hv hn h1 h2
    have e1 := (normal_mono h2).trans (normal_le (ha.trans hab))
    have e2 := H_ge ha (hab.trans hb) h1 hv
    linarith
  rcases le_total x 0.6 with h | h1
  · exact step 0 0.6 0.5 (by norm_num) (by norm_num) (by norm_num) (by rw [P_zero]; norm_num) (by norm_num) h0 h
  rcases le_total x 1.1 with h | h2
  · exact step 0.6 1.1 0.631 (by norm_num) (by norm_num) (by norm_num) (by simp only [P]; norm_num) (by norm_num) h1 h
  rcases le_total x 1.35 with h | h3
  · exact step 1.1 1.35 0.666 (by norm_num) (by norm_num) (by norm_num) (by simp only [P]; norm_num) (by norm_num) h2 h
  rcases le_total x 1.48 with h | h4
  · exact step 1.35 1.48 0.6839 (by norm_num) (by norm_num) (by norm_num) (by simp only [P]; norm_num) (by norm_num) h3 h
  rcases le_total x 1.58 with h | h5
  · exact step 1.48 1.58 0.697 (by norm_num) (by norm_num) (by norm_num) (by simp only [P]; norm_num) (by norm_num) h4 h
  rcases le_total x 1.68 with h | h6
  · exact step 1.58 1.68 0.71 (by norm_num) (by norm_num) (by norm_num) (by simp only [P]; norm_num) (by norm_num) h5 h
  rcases le_total x 1.82 with h | h7
  · exact step 1.68 1.82 0.726 (by norm_num) (by norm_num) (by norm_num) (by simp only [P]; norm_num) (by norm_num) h6 h
  have := H_ge (x := x) (a := 1.82) (v := 0.75) (by norm_num) (by norm_num) h7 (by simp only [P]; norm_num)
  have := normal_le_one x
  norm_num at *
  linarith

/-- **C66**, what holds for every mean and standard deviation: from five standard deviations below the mean on the value is within 0.25 of the normal
distribution function; between the mean and five standard deviations above it is not larger, between five standard deviations below and the mean not
smaller.  Missing: the documented accuracy, which is false by a factor of several hundred (`C66_far_fails`), and the values below. -/
theorem C66_bound_partial {b s : ℝ} (hs : 0 < s) (x : ℝ) :
    (b - 5 * s ≤ x → |gaussCdf x b s - normalCdf ((x - b) / s)| ≤ 0.25) ∧
      (b ≤ x → x ≤ b + 5 * s → gaussCdf x b s ≤ normalCdf ((x - b) / s)) ∧
      (b - 5 * s ≤ x → x ≤ b → normalCdf ((x - b) / s) ≤ gaussCdf x b s) := by
  rw [gaussCdf_real]
  have k1 : b - 5 * s ≤ x ↔ -5 ≤ (x - b) / s := by rw [le_div_iff₀ hs]; constructor <;> intro h <;> linarith
  have k2 : x ≤ b + 5 * s ↔ (x - b) / s ≤ 5 := by rw [div_le_iff₀ hs]; constructor <;> intro h <;> linarith
  have k3 : b ≤ x ↔ 0 ≤ (x - b) / s := by rw [le_div_iff₀ hs]; constructor <;> intro h <;> linarith
  have k4 : x ≤ b ↔ (x - b) / s ≤ 0 := by rw [div_le_iff₀ hs]; constructor <;> intro h <;> linarith
  rw [k1, k2, k3, k4]
  generalize (x - b) / s = z
  have neg : -5 ≤ z → z ≤ 0 → normalCdf z ≤ H z ∧ H z ≤ normalCdf z + 0.25 := by
    intro h1 h2
    have e := H_symm (z := z) (abs_le.mpr ⟨h1, by linarith⟩)
    have e' := normal_neg z
    have a := H_le_normal (x := -z) (by linarith) (by linarith)
    have c := normal_le_H (x := -z) (by linarith)
    constructor <;> linarith
  refine ⟨fun h => ?_, fun h1 h2 => H_le_normal h1 h2, fun h1 h2 => (neg h1 h2).1⟩
  rw [abs_le]
  rcases le_total z 0 with h2 | h2
  · obtain ⟨a, c⟩ := neg h h2
    norm_num at c ⊢
    constructor <;> linarith
  · have c := normal_le_H h2
    rcases le_or_gt z 5 with h5 | h5
    · have a := H_le_normal h2 h5
      norm_num at c ⊢
      constructor <;> linarith
    · have a := C66_accuracy_partial.2 z h5
      rw [gaussCdf_real, sub_zero, div_one, abs_le] at a
      norm_num at a ⊢
      constructor <;> linarith [a.1, a.2]

/-- **C66 fails by far**: the error at 1.3 standard deviations is larger than 0.18. -/
theorem C66_far_fails : ¬ ∀ x : ℝ, |x| ≤ 5 → |gaussCdf x 0 1 - normalCdf x| ≤ 0.18 := by
  intro h
  have h1 := h 1.3 (by norm_num)
  have h2 := normal_ge (x := 1.3) (by norm_num)
  have h3 : H 1.3 ≤ 0.69 := H_le (a := 1.3) (b := 1.3) (by norm_num) (by norm_num) le_rfl le_rfl (by norm_num) (by simp only [P]; norm_num)
  rw [gaussCdf_real, sub_zero, div_one, abs_le] at h1
  norm_num at h1 h2 h3
  linarith [h1.1]

/-- A mean and a standard deviation, and points in all three ranges. -/
example : (0 : ℝ) < 0.2 ∧ (5 : ℝ) - 5 * 0.2 ≤ 4.1 ∧ (4.1 : ℝ) ≤ 5 ∧ (5 : ℝ) ≤ 5.9 ∧ (5.9 : ℝ) ≤ 5 + 5 * 0.2 := by norm_num

end Verif.MaxMag
