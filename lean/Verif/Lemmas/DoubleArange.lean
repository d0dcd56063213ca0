import Verif.Lemmas.Double

/-!
# `np.arange` in double precision
-/

namespace Verif.Dbl

open Verif Verif.Np

/-- The number of elements is the quotient rounded up, up to a small error of the quotient. -/
theorem arangeLen_near {S T : Dbl} {s t q : ℚ} (hS : |S.val - s| ≤ 1 / 10 ^ 11) (hT : |T.val - t| ≤ 1 / 10 ^ 11) (hst : s ≤ t) (hts : t - s ≤ 30000) (hq : 1 / 1000 ≤ q) :
    ∃ X : ℚ, arangeLen S T (of q) = ⌈X⌉.toNat ∧ |X - (t - s) / q| ≤ 1 / 10 ^ 6 := by
  have eD : |(of q).val - q| ≤ q / 2 ^ 53 := by
    have := rnd53_error q
    rwa [abs_of_pos (a := q) (by linarith)] at this
  set D := of q
  obtain ⟨d1, d2⟩ := abs_le.1 eD
  have hq0 : 0 < q := by linarith
  have hu : q / 2 ^ 53 ≤ q / 2 := div_le_div_of_nonneg_left hq0.le (by norm_num) (by norm_num)
  have hD0 : 0 < D.val := by linarith
  have hD1 : 1 / 2000 ≤ D.val := by linarith
  have eN : |(T - S).val - (t - s)| ≤ 1 / 10 ^ 10 := by
    rw [val_sub]
    refine (rnd_near (ε := 2 / 10 ^ 11) (B := 30000) ?_ ?_ (by norm_num)).trans (by norm_num)
    · rw [show T.val - S.val - (t - s) = (T.val - t) - (S.val - s) by ring]
      exact (abs_sub _ _).trans ((add_le_add hT hS).trans (by norm_num))
    · rw [abs_of_nonneg (by linarith)]; exact hts
  set N := (T - S).val
  have hr : 0 ≤ (t - s) / q := div_nonneg (by linarith) hq0.le
  have hr2 : (t - s) / q ≤ 30000000 := by rw [div_le_iff₀ hq0]; linarith
  have e1 : |N / D.val - (t - s) / q| ≤ 3 / 10 ^ 7 := by
    have e : N / D.val - (t - s) / q = (N - (t - s)) / D.val - (t - s) / q * ((D.val - q) / D.val) := by
      field_simp; ring
    rw [e]
    refine (abs_sub _ _).trans ?_
    have a1 : |(N - (t - s)) / D.val| ≤ 2 / 10 ^ 7 := by
      rw [abs_div, abs_of_pos hD0, div_le_iff₀ hD0]
      linarith
    have a2 : |(D.val - q) / D.val| ≤ 2 / 2 ^ 53 := by
      rw [abs_div, abs_of_pos hD0, div_le_iff₀ hD0]
      refine eD.trans ?_
      rw [div_mul_eq_mul_div]
      exact div_le_div_of_nonneg_right (by linarith) (by norm_num)
    have a3 : |(t - s) / q * ((D.val - q) / D.val)| ≤ 30000000 * (2 / 2 ^ 53) := by
      rw [abs_mul, abs_of_nonneg hr]
      exact mul_le_mul hr2 a2 (abs_nonneg _) (by norm_num)
    refine (add_le_add a1 a3).trans (by norm_num)
  refine ⟨((T - S) / D).val, rfl, ?_⟩
  rw [val_div]
  refine (rnd_near (ε := 3 / 10 ^ 7) (B := 30000000) e1 (by rw [abs_of_nonneg hr]; exact hr2) (by norm_num)).trans (by norm_num)

end Verif.Dbl
