import Verif.Model.MaximumMagnitude
import Verif.Lemmas.Numpy
import Mathlib.Tactic.LinearCombination

/-! # `gauss_cdf_hastings` in exact arithmetic -/

namespace Verif.MaxMag

open Verif Verif.Np

/-- The polynomial with natural powers. -/
noncomputable def P (x : ℝ) : ℝ := 1 + 0.196854 * x - 0.115194 * x ^ 2 + 0.000344 * x ^ 3 + 0.019527 * x ^ 4

theorem hastingsPoly_real (x : ℝ) : hastingsPoly x = P x := by
  simp only [hastingsPoly, rpow_real, P]
  rw [show (3.0 : ℝ) = ((3 : ℕ) : ℝ) by norm_num, show (4.0 : ℝ) = ((4 : ℕ) : ℝ) by norm_num, Real.rpow_natCast, Real.rpow_natCast, show (1.0 : ℝ) = 1 by norm_num]
  ring

theorem P_zero : P 0 = 1 := by simp [P]

theorem P_strictMono : StrictMonoOn P (Set.Ici 0) := by
  intro a ha b hb hab
  have ha' : 0 ≤ a := ha
  have hb' : 0 ≤ b := hb
  have hs : 0 ≤ a + b := by linarith
  have h1 : P b - P a = (b - a) * (0.196854 - 0.115194 * (a + b) + 0.000344 * (a ^ 2 + a * b + b ^ 2) + 0.019527 * ((a + b) * (a ^ 2 + b ^ 2))) := by
    simp only [P]; ring
  have h2 : (a + b) ^ 3 ≤ 2 * ((a + b) * (a ^ 2 + b ^ 2)) := by nlinarith [mul_nonneg hs (sq_nonneg (a - b))]
  have h3 : 12 * (a + b) - 16 ≤ (a + b) ^ 3 := by nlinarith [mul_nonneg (sq_nonneg (a + b - 2)) (by linarith : 0 ≤ a + b + 4)]
  have h4 : 0 < 0.196854 - 0.115194 * (a + b) + 0.000344 * (a ^ 2 + a * b + b ^ 2) + 0.019527 * ((a + b) * (a ^ 2 + b ^ 2)) := by
    have h5 : 0 ≤ a ^ 2 + a * b + b ^ 2 := by positivity
    norm_num
    nlinarith
  have h6 := mul_pos (sub_pos.mpr hab) h4
  linarith

theorem one_le_P {x : ℝ} (hx : 0 ≤ x) : 1 ≤ P x := by
  rw [← P_zero]
  exact P_strictMono.monotoneOn (by simp) hx hx

/-- Value in exact arithmetic. -/
noncomputable def H (z : ℝ) : ℝ :=
  if z < -5 then 1 else if z < 0 then (P (-z) ^ 4)⁻¹ / 2 else if z ≤ 5 then 1 - (P z ^ 4)⁻¹ / 2 else 1

theorem gaussCdf_real (x b s : ℝ) : gaussCdf x b s = H ((x - b) / s) := by
  have hP : ∀ y : ℝ, 0 ≤ y → (P y) ^ (-(4.0 : ℝ)) = (P y ^ 4)⁻¹ := by
    intro y hy
    have := one_le_P hy
    rw [Real.rpow_neg (by linarith), show (4.0 : ℝ) = ((4 : ℕ) : ℝ) by norm_num, Real.rpow_natCast]
  simp only [gaussCdf, hastingsPoly_real, npAbs_real, rpow_real]
  generalize (x - b) / s = z
  rw [hP _ (abs_nonneg z)]
  simp only [H]
  norm_num
  by_cases h1 : z < -5
  · simp only [h1, if_true, show z < 0 by linarith, show ¬ (5 < z) by linarith, if_false]; norm_num
  · by_cases h2 : z < 0
    · simp only [h1, h2, if_true, show ¬ (5 < z) by linarith, if_false]
      rw [abs_of_neg h2]; ring
    · push Not at h2
      by_cases h3 : z ≤ 5
      · simp only [h1, h3, show ¬ z < 0 by linarith, if_false, if_true, not_lt.mpr h3]
        rw [abs_of_nonneg h2]; ring
      · simp only [h1, h3, show ¬ z < 0 by linarith, if_false, if_true, not_le.mp h3]

theorem Pinv_pos {x : ℝ} (hx : 0 ≤ x) : 0 < (P x ^ 4)⁻¹ ∧ (P x ^ 4)⁻¹ ≤ 1 := by
  have h := one_le_P hx
  have h4 : 1 ≤ P x ^ 4 := one_le_pow₀ h
  exact ⟨by positivity, inv_le_one_of_one_le₀ h4⟩

theorem Pinv_lt {x y : ℝ} (hx : 0 ≤ x) (hxy : x < y) : (P y ^ 4)⁻¹ < (P x ^ 4)⁻¹ := by
  have h := P_strictMono hx (show (0 : ℝ) ≤ y by linarith) hxy
  have h1 := one_le_P hx
  refine inv_strictAnti₀ (by positivity) (pow_lt_pow_left₀ h (by linarith) (by norm_num))

theorem H_zero : H 0 = 1 / 2 := by
  simp only [H, P_zero]; norm_num

theorem H_gt {z : ℝ} (h : 5 < z) : H z = 1 := by
  simp only [H, show ¬ z < -5 by linarith, show ¬ z < 0 by linarith, show ¬ z ≤ 5 by linarith, if_false]

theorem H_lt {z : ℝ} (h : z < -5) : H z = 1 := by
  simp only [H, h, if_true]

theorem H_pos {z : ℝ} (h0 : 0 ≤ z) (h5 : z ≤ 5) : H z = 1 - (P z ^ 4)⁻¹ / 2 := by
  simp only [H, show ¬ z < -5 by linarith, show ¬ z < 0 by linarith, h5, if_false, if_true]

theorem H_neg {z : ℝ} (h0 : z ≤ 0) (h5 : -5 ≤ z) : H z = (P (-z) ^ 4)⁻¹ / 2 := by
  rcases h0.lt_or_eq with h | rfl
  · simp only [H, show ¬ z < -5 by linarith, h, if_false, if_true]
  · rw [H_zero]; simp [P_zero]

theorem H_mem (z : ℝ) : 0 ≤ H z ∧ H z ≤ 1 := by
  rcases lt_or_ge z (-5) with h | h
  · rw [H_lt h]; norm_num
  rcases le_total z 0 with h0 | h0
  · rw [H_neg h0 h]
    have := Pinv_pos (x := -z) (by linarith)
    constructor <;> linarith
  rcases le_or_gt z 5 with h5 | h5
  · rw [H_pos h0 h5]
    have := Pinv_pos h0
    constructor <;> linarith
  · rw [H_gt h5]; norm_num

theorem H_lt_one {z : ℝ} (h : -5 ≤ z) (h5 : z ≤ 5) : 0 < H z ∧ H z < 1 := by
  rcases le_total z 0 with h0 | h0
  · rw [H_neg h0 h]
    have := Pinv_pos (x := -z) (by linarith)
    constructor <;> linarith
  · rw [H_pos h0 h5]
    have := Pinv_pos h0
    constructor <;> linarith

theorem H_symm {z : ℝ} (h : |z| ≤ 5) : H z + H (-z) = 1 := by
  rw [abs_le] at h
  rcases le_total z 0 with h0 | h0
  · rw [H_neg h0 h.1, H_pos (by linarith) (by linarith)]; ring
  · rw [H_pos h0 h.2, H_neg (by linarith) (by linarith)]; rw [neg_neg]; ring

theorem H_strictMono : StrictMonoOn H (Set.Icc (-5) 5) := by
  rintro a ⟨a1, a2⟩ b ⟨b1, b2⟩ hab
  rcases le_total b 0 with hb | hb
  · rw [H_neg hb b1, H_neg (by linarith) a1]
    have := Pinv_lt (x := -b) (y := -a) (by linarith) (by linarith)
    linarith
  rcases le_total a 0 with ha | ha
  · rcases eq_or_lt_of_le ha with rfl | ha'
    · rw [H_zero, H_pos hb b2]
      have := Pinv_lt le_rfl hab
      rw [P_zero] at this
      norm_num at this
      linarith
    · rw [H_neg ha a1, H_pos hb b2]
      have h1 := (Pinv_pos hb).2
      have h2 := Pinv_lt (x := 0) (y := -a) le_rfl (by linarith)
      rw [P_zero] at h2
      norm_num at h2
      linarith
  · rw [H_pos ha a2, H_pos hb b2]
    have := Pinv_lt ha hab
    linarith

theorem H_mono : MonotoneOn H (Set.Ici (-5)) := by
  intro a ha b hb hab
  rcases le_or_gt b 5 with h | h
  · exact H_strictMono.monotoneOn ⟨ha, by linarith⟩ ⟨hb, h⟩ hab
  · rw [H_gt h]; exact (H_mem a).2

end Verif.MaxMag
