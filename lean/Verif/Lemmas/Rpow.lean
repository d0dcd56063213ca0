import Verif.Py.Num

/-!
# Numeric bounds on powers of ten and π
-/

namespace Verif

theorem le_ten_rpow (x e : ℝ) (p q : ℕ) (hq : 0 < q) (hx : 0 ≤ x) (he : (p : ℝ) ≤ q * e) (h : x ^ q ≤ 10 ^ p) :
    x ≤ (10 : ℝ) ^ e := by
  have h10 : (0 : ℝ) ≤ 10 := by norm_num
  have hpow : ((10 : ℝ) ^ e) ^ q = (10 : ℝ) ^ (q * e) := by
    rw [← Real.rpow_natCast, ← Real.rpow_mul h10, mul_comm]
  by_contra hc
  rw [not_le] at hc
  have h1 : ((10 : ℝ) ^ e) ^ q < x ^ q := pow_lt_pow_left₀ hc (Real.rpow_nonneg h10 _) hq.ne'
  rw [hpow] at h1
  have h2 : (10 : ℝ) ^ (p : ℝ) ≤ (10 : ℝ) ^ (q * e) := Real.rpow_le_rpow_of_exponent_le (by norm_num) he
  rw [Real.rpow_natCast] at h2
  linarith

theorem ten_rpow_lt (x e : ℝ) (p q : ℕ) (hq : 0 < q) (hx : 0 ≤ x) (he : q * e ≤ (p : ℝ)) (h : (10 : ℝ) ^ p < x ^ q) :
    (10 : ℝ) ^ e < x := by
  have h10 : (0 : ℝ) ≤ 10 := by norm_num
  have hpow : ((10 : ℝ) ^ e) ^ q = (10 : ℝ) ^ (q * e) := by
    rw [← Real.rpow_natCast, ← Real.rpow_mul h10, mul_comm]
  by_contra hc
  rw [not_lt] at hc
  have h1 : x ^ q ≤ ((10 : ℝ) ^ e) ^ q := pow_le_pow_left₀ hx hc q
  rw [hpow] at h1
  have h2 : (10 : ℝ) ^ (q * e) ≤ (10 : ℝ) ^ (p : ℝ) := Real.rpow_le_rpow_of_exponent_le (by norm_num) he
  rw [Real.rpow_natCast] at h2
  linarith

end Verif
