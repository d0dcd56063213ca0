import Verif.Model.CatalogueUtilities
import Verif.Spec.CatalogueUtilities
import Mathlib.Geometry.Euclidean.Angle.Unoriented.TriangleInequality

/-!
# Helper lemmas on positions on the sphere
-/

namespace Verif.CatUtil

open Verif Spec InnerProductGeometry

theorem inner_spherePoint (lon1 lat1 lon2 lat2 : ℝ) :
    inner ℝ (spherePoint lon1 lat1) (spherePoint lon2 lat2) =
      Real.sin (Real.pi / 180 * lat1) * Real.sin (Real.pi / 180 * lat2) +
      Real.cos (Real.pi / 180 * lat1) * Real.cos (Real.pi / 180 * lat2) *
        Real.cos (Real.pi / 180 * lon1 - Real.pi / 180 * lon2) := by
  simp only [spherePoint, PiLp.inner_apply, Fin.sum_univ_three, Real.cos_sub, RCLike.inner_apply, conj_trivial]
  simp
  ring

theorem norm_spherePoint (lon lat : ℝ) : ‖spherePoint lon lat‖ = 1 := by
  have h : ‖spherePoint lon lat‖ ^ 2 = 1 := by
    rw [← real_inner_self_eq_norm_sq, inner_spherePoint, sub_self, Real.cos_zero, mul_one]
    nlinarith [Real.sin_sq_add_cos_sq (Real.pi / 180 * lat)]
  have h0 := norm_nonneg (spherePoint lon lat)
  nlinarith

/-- The argument of the square roots in `haversine`. -/
noncomputable def aval (lon1 lat1 lon2 lat2 : ℝ) : ℝ :=
  let c := Real.pi / 180
  Real.sin ((c * lat1 - c * lat2) / 2) * Real.sin ((c * lat1 - c * lat2) / 2) +
    Real.cos (c * lat1) * Real.cos (c * lat2) * (Real.sin ((c * lon1 - c * lon2) / 2) * Real.sin ((c * lon1 - c * lon2) / 2))

theorem aval_eq (lon1 lat1 lon2 lat2 : ℝ) :
    aval lon1 lat1 lon2 lat2 = (1 - inner ℝ (spherePoint lon1 lat1) (spherePoint lon2 lat2)) / 2 := by
  have hh : ∀ x : ℝ, Real.sin (x / 2) * Real.sin (x / 2) = (1 - Real.cos x) / 2 := by
    intro x
    have h1 := Real.cos_two_mul (x / 2)
    have h2 := Real.sin_sq_add_cos_sq (x / 2)
    rw [show 2 * (x / 2) = x by ring] at h1
    nlinarith
  simp only [aval]
  rw [hh, hh, inner_spherePoint, Real.cos_sub (Real.pi / 180 * lat1)]
  ring

theorem inner_bounds (p q : ℝ × ℝ) :
    -1 ≤ inner ℝ (spherePoint p.1 p.2) (spherePoint q.1 q.2) ∧ inner ℝ (spherePoint p.1 p.2) (spherePoint q.1 q.2) ≤ 1 := by
  have h := abs_real_inner_le_norm (spherePoint p.1 p.2) (spherePoint q.1 q.2)
  rw [norm_spherePoint, norm_spherePoint, mul_one] at h
  exact abs_le.mp h

theorem two_arg (a : ℝ) (h0 : 0 ≤ a) (h1 : a ≤ 1) :
    2 * Complex.arg ⟨Real.sqrt (1 - a), Real.sqrt a⟩ = Real.arccos (1 - 2 * a) := by
  set θ := Real.arccos (1 - 2 * a) / 2 with hθ
  have t0 : 0 ≤ θ := by have := Real.arccos_nonneg (1 - 2 * a); linarith
  have t1 : θ ≤ Real.pi / 2 := by have := Real.arccos_le_pi (1 - 2 * a); linarith
  have hc2 : Real.cos (2 * θ) = 1 - 2 * a := by
    rw [hθ, show 2 * (Real.arccos (1 - 2 * a) / 2) = Real.arccos (1 - 2 * a) by ring]
    exact Real.cos_arccos (by linarith) (by linarith)
  have hcn : 0 ≤ Real.cos θ := Real.cos_nonneg_of_mem_Icc ⟨by linarith, t1⟩
  have hsn : 0 ≤ Real.sin θ := Real.sin_nonneg_of_nonneg_of_le_pi t0 (by linarith [Real.pi_pos])
  have hc : Real.sqrt (1 - a) = Real.cos θ := by
    rw [Real.sqrt_eq_iff_mul_self_eq (by linarith) hcn]
    have := Real.cos_two_mul θ
    nlinarith
  have hs : Real.sqrt a = Real.sin θ := by
    rw [Real.sqrt_eq_iff_mul_self_eq h0 hsn]
    have := Real.cos_two_mul θ
    have h2 := Real.sin_sq_add_cos_sq θ
    nlinarith
  have harg : Complex.arg ⟨Real.sqrt (1 - a), Real.sqrt a⟩ = θ := by
    rw [hc, hs]
    have : (⟨Real.cos θ, Real.sin θ⟩ : ℂ) = Complex.cos θ + Complex.sin θ * Complex.I := by
      apply Complex.ext <;> simp [Complex.cos_ofReal_re, Complex.sin_ofReal_re, Complex.cos_ofReal_im, Complex.sin_ofReal_im]
    rw [this]
    exact Complex.arg_cos_add_sin_mul_I ⟨by linarith [Real.pi_pos], by linarith [Real.pi_pos]⟩
  rw [harg, hθ]; ring

/-- `haversine` is the radius times the angle between the two directions. -/
theorem haversine_eq_angle (lon1 lat1 lon2 lat2 r : ℝ) :
    haversine lon1 lat1 lon2 lat2 r = r * angle (spherePoint lon1 lat1) (spherePoint lon2 lat2) := by
  have hA := aval_eq lon1 lat1 lon2 lat2
  obtain ⟨b1, b2⟩ := inner_bounds (lon1, lat1) (lon2, lat2)
  have hm : haversine lon1 lat1 lon2 lat2 r =
      2 * r * Complex.arg ⟨Real.sqrt (1 - aval lon1 lat1 lon2 lat2), Real.sqrt (aval lon1 lat1 lon2 lat2)⟩ := by
    simp only [haversine, aval, pi_real, sin_real, cos_real, sqrt_real, atan2_real, Nat.cast_ofNat, Nat.cast_one]
  rw [hm, mul_assoc, mul_comm r, ← mul_assoc, two_arg _ (by rw [hA]; linarith) (by rw [hA]; linarith), mul_comm, hA]
  simp only [angle, norm_spherePoint, mul_one, div_one]
  congr 2; ring

/-- On a meridian the distance is the radius times the difference of latitude. -/
theorem haversine_meridian (lon lat1 lat2 r : ℝ) (h : |lat1 - lat2| ≤ 180) :
    haversine lon lat1 lon lat2 r = r * (Real.pi / 180 * |lat1 - lat2|) := by
  rw [haversine_eq_angle]
  congr 1
  simp only [angle, norm_spherePoint, mul_one, div_one, inner_spherePoint, sub_self, Real.cos_zero]
  rw [show Real.sin (Real.pi / 180 * lat1) * Real.sin (Real.pi / 180 * lat2) +
      Real.cos (Real.pi / 180 * lat1) * Real.cos (Real.pi / 180 * lat2) = Real.cos (Real.pi / 180 * |lat1 - lat2|) by
    rw [← abs_of_pos (show (0:ℝ) < Real.pi / 180 by positivity), ← abs_mul, Real.cos_abs,
      abs_of_pos (show (0:ℝ) < Real.pi / 180 by positivity), mul_sub, Real.cos_sub]
    ring]
  apply Real.arccos_cos (by positivity)
  have := Real.pi_pos
  nlinarith

/-- Euclid-division reading of floors of quotients of integers. -/
theorem floor_div_int (a : ℤ) (n : ℕ) : ⌊(a : ℝ) / (n : ℝ)⌋ = a / (n : ℤ) := by
  rw [Int.floor_div_natCast, Int.floor_intCast]

end Verif.CatUtil
