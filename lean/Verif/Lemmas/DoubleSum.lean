import Verif.Lemmas.Double

/-!
# Sums, products and quotients in double precision
-/

namespace Verif.Dbl

open Verif Verif.Np

/-- A running sum. -/
theorem foldl_near (l : List Dbl) : ∀ (a : Dbl) (S A : ℚ) (k : ℕ), |a.val - S| ≤ k * A / 2 ^ 52 → |S| ≤ A → k + l.length ≤ 2 ^ 52 →
    |(l.foldl (· + ·) a).val - (S + (l.map Dbl.val).sum)| ≤ (k + l.length : ℕ) * (A + (l.map fun x => |x.val|).sum) / 2 ^ 52 := by
  induction l with
  | nil => intro a S A k h1 _ _; simpa using h1
  | cons x l ih =>
    intro a S A k h1 h2 h3
    rw [List.length_cons] at h3
    have hA : 0 ≤ A := (abs_nonneg _).trans h2
    have hx := abs_nonneg x.val
    have hk : (k : ℚ) ≤ 2 ^ 52 := by exact_mod_cast (by omega : k ≤ 2 ^ 52)
    have hk0 : (0 : ℚ) ≤ k := by positivity
    have hka : (k : ℚ) * A / 2 ^ 52 ≤ A := by
      rw [div_le_iff₀ (by norm_num), mul_comm]
      exact mul_le_mul_of_nonneg_left hk hA
    have e1 : |(a + x).val - (S + x.val)| ≤ ((k + 1 : ℕ) : ℚ) * (A + |x.val|) / 2 ^ 52 := by
      rw [val_add]
      have h4 := rnd53_error (a.val + x.val)
      have h5 : |a.val + x.val| ≤ A + (A + |x.val|) := by
        have : a.val + x.val = (a.val - S) + (S + x.val) := by ring
        rw [this]
        refine (abs_add_le _ _).trans (add_le_add (h1.trans hka) ?_)
        exact (abs_add_le _ _).trans (add_le_add h2 le_rfl)
      have h6 : |rnd53 (a.val + x.val) - (S + x.val)| ≤ |rnd53 (a.val + x.val) - (a.val + x.val)| + |a.val - S| := by
        have : rnd53 (a.val + x.val) - (S + x.val) = (rnd53 (a.val + x.val) - (a.val + x.val)) + (a.val - S) := by ring
        rw [this]; exact abs_add_le _ _
      have h7 : |a.val + x.val| / 2 ^ 53 ≤ (2 * (A + |x.val|)) / 2 ^ 53 := div_le_div_of_nonneg_right (by linarith) (by norm_num)
      have h8 : (k : ℚ) * A / 2 ^ 52 ≤ k * (A + |x.val|) / 2 ^ 52 := div_le_div_of_nonneg_right (mul_le_mul_of_nonneg_left (by linarith) hk0) (by norm_num)
      have h9 : ((k + 1 : ℕ) : ℚ) * (A + |x.val|) / 2 ^ 52 = k * (A + |x.val|) / 2 ^ 52 + (2 * (A + |x.val|)) / 2 ^ 53 := by push_cast; ring
      linarith
    have h := ih (a + x) (S + x.val) (A + |x.val|) (k + 1) e1 ((abs_add_le _ _).trans (add_le_add h2 le_rfl)) (by omega)
    rw [List.foldl_cons, List.map_cons, List.sum_cons, List.map_cons, List.sum_cons, List.length_cons, ← add_assoc S, ← add_assoc A, show k + (l.length + 1) = k + 1 + l.length by omega]
    exact h

/-- The error of a sum is relative to the sum of the absolute values. -/
theorem sum_near {l : List Dbl} (h : l.length ≤ 2 ^ 52) : |(npSum l).val - (l.map Dbl.val).sum| ≤ l.length * (l.map fun x => |x.val|).sum / 2 ^ 52 := by
  have := foldl_near l 0 0 0 0 (by simp [val_zero]) (by simp) (by omega)
  simpa [npSum] using this

theorem foldl_nat (l : List ℕ) : ∀ k : ℕ, k + l.sum ≤ 2 ^ 53 → (((l.map fun n : ℕ => (n : Dbl)).foldl (· + ·) (k : Dbl))).val = ((k + l.sum : ℕ) : ℚ) := by
  induction l with
  | nil => intro k h; simpa using val_nat_exact (by simpa using h)
  | cons x l ih =>
    intro k h
    rw [List.sum_cons] at h
    have e : (k : Dbl) + (x : Dbl) = ((k + x : ℕ) : Dbl) := by
      apply Dbl.ext
      rw [val_add, val_nat_exact (by omega), val_nat_exact (by omega), val_nat]
      push_cast; rfl
    rw [List.map_cons, List.foldl_cons, e, ih (k + x) (by omega), List.sum_cons, add_assoc]

/-- Numbers are added exactly. -/
theorem sum_nat {l : List ℕ} (h : l.sum ≤ 2 ^ 53) : (npSum (l.map fun n : ℕ => (n : Dbl))).val = (l.sum : ℚ) := by
  have := foldl_nat l 0 (by simpa using h)
  rw [npSum]
  have z : (0 : Dbl) = ((0 : ℕ) : Dbl) := Dbl.ext (by rw [val_zero, val_nat_exact (by norm_num)]; norm_num)
  rw [z, this, zero_add]

end Verif.Dbl
