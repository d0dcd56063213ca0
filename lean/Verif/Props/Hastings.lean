import Verif.Lemmas.Hastings
import Mathlib.Probability.Distributions.Gaussian.Real
import Mathlib.Probability.CDF
import Mathlib.Probability.Moments.Basic
import Mathlib.Analysis.Real.Pi.Bounds
import Mathlib.Analysis.Complex.ExponentialBounds

/-! # C65 and C66: the Hastings approximation of the normal distribution -/

namespace Verif.MaxMag

open Verif Verif.Np MeasureTheory ProbabilityTheory

/-- **C65**, what holds: `gauss_cdf_hastings` is 1/2 at the mean, lies in [0, 1] everywhere, is symmetric within five standard deviations of the mean and non-decreasing from five standard
deviations below the mean on.  Missing: symmetry and monotonicity below that point, where it is 1 instead of 0 (`C65_distribution_fails`). -/
theorem C65_distribution_partial {b s : ℝ} (hs : 0 < s) :
    gaussCdf b b s = 1 / 2 ∧ (∀ x, 0 ≤ gaussCdf x b s ∧ gaussCdf x b s ≤ 1) ∧
      (∀ d, |d| ≤ 5 * s → gaussCdf (b + d) b s + gaussCdf (b - d) b s = 1) ∧
      (∀ x y, b - 5 * s ≤ x → x ≤ y → gaussCdf x b s ≤ gaussCdf y b s) ∧ (∀ x, x < b - 5 * s → gaussCdf x b s = 1) := by
  simp only [gaussCdf_real]
  refine ⟨by simp [H_zero], fun x => H_mem _, fun d hd => ?_, fun x y hx hxy => ?_, fun x hx => ?_⟩
  · have : (b - d - b) / s = -((b + d - b) / s) := by ring
    rw [this]
    refine H_symm ?_
    rw [show (b + d - b) / s = d / s by ring, abs_div, abs_of_pos hs, div_le_iff₀ hs]
    exact hd
  · have h1 : -5 ≤ (x - b) / s := by rw [le_div_iff₀ hs]; linarith
    have h2 : (x - b) / s ≤ (y - b) / s := by gcongr
    exact H_mono h1 (h1.trans h2) h2
  · refine H_lt ?_
    rw [div_lt_iff₀ hs]; linarith

/-- **C65 fails**: neither symmetric nor non-decreasing. -/
theorem C65_distribution_fails :
    (¬ ∀ x y : ℝ, x ≤ y → gaussCdf x 0 1 ≤ gaussCdf y 0 1) ∧ ¬ ∀ d : ℝ, gaussCdf d 0 1 + gaussCdf (-d) 0 1 = 1 := by
  simp only [gaussCdf_real]
  constructor
  · intro h
    have := h (-6) 0 (by norm_num)
    rw [H_lt (by norm_num), show ((0 : ℝ) - 0) / 1 = 0 by norm_num, H_zero] at this
    norm_num at this
  · intro h
    have := h 6
    rw [H_gt (by norm_num), H_lt (by norm_num)] at this
    norm_num at this

/-- The normal distribution function. -/
noncomputable def normalCdf (x : ℝ) : ℝ := cdf (gaussianReal 0 1) x

theorem normal_half : normalCdf 0 = 1 / 2 := by
  have hna : NullSingletonClass (gaussianReal 0 1) := nullSingletonClass_gaussianReal (by norm_num)
  have h1 : (gaussianReal 0 1).real (Set.Iic 0) = (gaussianReal 0 1).real (Set.Ici 0) := by
    have := gaussianReal_map_neg (μ := 0) (v := 1)
    rw [neg_zero] at this
    conv_lhs => rw [← this]
    rw [map_measureReal_apply (by fun_prop) measurableSet_Iic]
    congr 1
    ext x; simp
  have h2 : (gaussianReal 0 1).real (Set.Ici 0) = (gaussianReal 0 1).real (Set.Ioi 0) := by
    refine measureReal_congr ?_
    exact Ioi_ae_eq_Ici.symm
  have h3 : (gaussianReal 0 1).real (Set.Iic 0) + (gaussianReal 0 1).real (Set.Ioi 0) = 1 := by
    have := probReal_add_probReal_compl (μ := gaussianReal 0 1) (s := Set.Iic (0 : ℝ)) measurableSet_Iic
    rwa [Set.compl_Iic] at this
  rw [normalCdf, cdf_eq_real]
  linarith

theorem normal_one : 0.67 ≤ normalCdf 1 := by
  have hfin : IsFiniteMeasure (gaussianReal 0 1) := inferInstance
  have h0 := normal_half
  rw [normalCdf, cdf_eq_real] at h0 ⊢
  have hsplit : (gaussianReal 0 1).real (Set.Iic 1) = (gaussianReal 0 1).real (Set.Iic 0) + (gaussianReal 0 1).real (Set.Ioc 0 1) := by
    rw [← measureReal_union]
    · rw [Set.Iic_union_Ioc_eq_Iic (by norm_num)]
    · rw [Set.disjoint_left]; intro x hx hx'; exact absurd hx'.1 (not_lt.mpr hx)
    · exact measurableSet_Ioc
  have hpdf : ∀ x ∈ Set.Ioc (0 : ℝ) 1, (0.19 : ℝ) ≤ gaussianPDFReal 0 1 x := by
    rintro x ⟨hx0, hx1⟩
    rw [gaussianPDFReal_def]
    have hpi : Real.pi < 3.15 := Real.pi_lt_d2
    have hsq : Real.sqrt (2 * Real.pi * (1 : NNReal)) ≤ 2.51 := by
      rw [Real.sqrt_le_left (by norm_num)]
      simp only [NNReal.coe_one, mul_one]
      norm_num
      linarith
    have hs0 : 0 < Real.sqrt (2 * Real.pi * (1 : NNReal)) := by
      apply Real.sqrt_pos.mpr
      have := Real.pi_pos
      simp only [NNReal.coe_one, mul_one]
      linarith
    have he : (0.5 : ℝ) ≤ Real.exp (-(x - 0) ^ 2 / (2 * (1 : NNReal))) := by
      refine le_trans ?_ (Real.add_one_le_exp _)
      simp only [NNReal.coe_one, mul_one, sub_zero]
      norm_num
      nlinarith
    calc (0.19 : ℝ) ≤ (2.51)⁻¹ * 0.5 := by norm_num
      _ ≤ _ := by
        refine mul_le_mul ?_ he (by norm_num) (by positivity)
        exact inv_anti₀ hs0 hsq
  have hint : (0.19 : ℝ) ≤ (gaussianReal 0 1).real (Set.Ioc 0 1) := by
    rw [measureReal_def, gaussianReal_apply_eq_integral 0 (by norm_num), ENNReal.toReal_ofReal (by
      refine setIntegral_nonneg measurableSet_Ioc fun x _ => gaussianPDFReal_nonneg _ _ _)]
    have := setIntegral_mono_on (μ := volume) (s := Set.Ioc (0 : ℝ) 1) (f := fun _ => (0.19 : ℝ)) (g := gaussianPDFReal 0 1)
      (by simp) (integrable_gaussianPDFReal 0 1).integrableOn measurableSet_Ioc hpdf
    simpa using this
  rw [hsplit, h0]
  norm_num at hint ⊢
  linarith

/-- **C66 fails** well inside the range of the formula: at one standard deviation the value is 0.660 while the normal distribution function is above 0.67 (it is 0.841);
the coefficient 0.115194 has the wrong sign. -/
theorem C66_accuracy_fails : ¬ ∀ x : ℝ, |x| ≤ 5 → |gaussCdf x 0 1 - normalCdf x| ≤ 0.00025 := by
  intro h
  have h1 := h 1 (by norm_num)
  have h2 := normal_one
  rw [gaussCdf_real, show ((1 : ℝ) - 0) / 1 = 1 by norm_num, H_pos (by norm_num) (by norm_num)] at h1
  have h3 : P 1 = 1.101531 := by simp only [P]; norm_num
  rw [h3, abs_le] at h1
  norm_num at h1 h2
  linarith [h1.1]

/-- **C66**, what holds: the value is exact at the mean and accurate above five standard deviations.  Missing: everything in between and below. -/
theorem C66_accuracy_partial : gaussCdf 0 0 1 = normalCdf 0 ∧ ∀ x : ℝ, 5 < x → |gaussCdf x 0 1 - normalCdf x| ≤ 0.00025 := by
  constructor
  · rw [gaussCdf_real, normal_half]; simp [H_zero]
  · intro x hx
    rw [gaussCdf_real, show ((x : ℝ) - 0) / 1 = x by ring, H_gt hx, normalCdf, cdf_eq_real]
    have hc := measure_ge_le_exp_mul_mgf (μ := gaussianReal 0 1) (X := fun x => x) (t := 5) x (by norm_num) (integrable_exp_mul_gaussianReal 5)
    rw [mgf_fun_id_gaussianReal] at hc
    have h1 : 1 - (gaussianReal 0 1).real (Set.Iic x) = (gaussianReal 0 1).real (Set.Ioi x) := by
      have := probReal_add_probReal_compl (μ := gaussianReal 0 1) (s := Set.Iic x) measurableSet_Iic
      rw [Set.compl_Iic] at this
      linarith
    rw [h1, abs_of_nonneg measureReal_nonneg]
    have h2 : (gaussianReal 0 1).real (Set.Ioi x) ≤ (gaussianReal 0 1).real {ω | x ≤ ω} := by
      refine measureReal_mono ?_ (measure_ne_top _ _)
      intro y hy
      exact (Set.mem_Ioi.mp hy).le
    refine h2.trans (hc.trans ?_)
    rw [← Real.exp_add]
    have h3 : -5 * x + (0 * 5 + ((1 : NNReal) : ℝ) * 5 ^ 2 / 2) ≤ -12 := by
      simp only [NNReal.coe_one]
      linarith
    refine (Real.exp_le_exp.mpr h3).trans ?_
    rw [Real.exp_neg]
    have h4 : (2.7 : ℝ) ≤ Real.exp 1 := by linarith [Real.exp_one_gt_d9]
    have h5 : Real.exp 12 = Real.exp 1 ^ 12 := by rw [← Real.exp_nat_mul]; norm_num
    rw [h5]
    calc (Real.exp 1 ^ 12)⁻¹ ≤ ((2.7 : ℝ) ^ 12)⁻¹ := inv_anti₀ (by norm_num) (pow_le_pow_left₀ (by norm_num) h4 12)
      _ ≤ _ := by norm_num

end Verif.MaxMag
