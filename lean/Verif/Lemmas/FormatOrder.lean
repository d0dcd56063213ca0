import Verif.Lemmas.Format

/-!
# Printing keeps the order of numbers
-/

namespace Verif.Format

open Verif Verif.EqCatalog

variable {K : Type} [Field K] [LinearOrder K] [IsStrictOrderedRing K] [FloorRing K]

theorem val12_eq (x : K) (hx : 0 < x) :
    val12 x = (rintK (x * (10 : K) ^ (11 - Int.log 10 x)) : K) * (10 : K) ^ (Int.log 10 x - 11) := by
  obtain ⟨h1, h2⟩ := sig12_raw x hx
  simp only [val12, sig12]
  generalize rintK (x * (10 : K) ^ (11 - Int.log 10 x)) = z at h1 h2
  have hz : ((z.toNat : ℕ) : K) = (z : K) := by
    have : ((z.toNat : ℕ) : ℤ) = z := by omega
    exact_mod_cast congrArg (Int.cast (R := K)) this
  split_ifs with h
  · have hz' : (z : K) = 10 ^ 12 := by
      rw [← hz, h]; push_cast; norm_num
    dsimp only
    rw [hz', show Int.log 10 x + 1 - 11 = 1 + (Int.log 10 x - 11) by ring, zpow_add₀ (by norm_num)]
    push_cast
    ring
  · dsimp only
    rw [hz]

theorem val12_mono {x y : K} (hx : 0 < x) (h : x ≤ y) : val12 x ≤ val12 y := by
  have hy : 0 < y := lt_of_lt_of_le hx h
  rcases (Int.log_mono_right (b := 10) hx h).lt_or_eq with hl | hl
  · obtain ⟨-, h2⟩ := sig12_raw x hx
    obtain ⟨h1, -⟩ := sig12_raw y hy
    rw [val12_eq x hx, val12_eq y hy]
    have k2 : (rintK (x * (10 : K) ^ (11 - Int.log 10 x)) : K) ≤ (10 : K) ^ (12 : ℕ) := by exact_mod_cast h2
    have k1 : (10 : K) ^ (11 : ℕ) ≤ (rintK (y * (10 : K) ^ (11 - Int.log 10 y)) : K) := by exact_mod_cast h1
    calc _ ≤ (10 : K) ^ (12 : ℕ) * (10 : K) ^ (Int.log 10 x - 11) := mul_le_mul_of_nonneg_right k2 (by positivity)
      _ = (10 : K) ^ (Int.log 10 x + 1) := by
        rw [← zpow_natCast, ← zpow_add₀ (by norm_num)]
        congr 1
        push_cast; ring
      _ ≤ (10 : K) ^ (Int.log 10 y) := zpow_le_zpow_right₀ (by norm_num) (by omega)
      _ = (10 : K) ^ (11 : ℕ) * (10 : K) ^ (Int.log 10 y - 11) := by
        rw [← zpow_natCast, ← zpow_add₀ (by norm_num)]
        congr 1
        push_cast; ring
      _ ≤ _ := mul_le_mul_of_nonneg_right k1 (by positivity)
  · rw [val12_eq x hx, val12_eq y hy, hl]
    apply mul_le_mul_of_nonneg_right _ (by positivity)
    have := rintK_mono (mul_le_mul_of_nonneg_right h (show (0 : K) ≤ (10 : K) ^ (11 - Int.log 10 y) by positivity))
    exact_mod_cast this

/-- A larger number is not printed as a smaller one. -/
theorem rnd12_mono {x y : K} (h : x ≤ y) : rnd12 x ≤ rnd12 y := by
  rcases lt_trichotomy x 0 with hx | rfl | hx
  · rw [rnd12_neg x hx]
    have := val12_pos (-x) (by linarith)
    rcases lt_trichotomy y 0 with hy | rfl | hy
    · rw [rnd12_neg y hy]
      exact neg_le_neg (val12_mono (by linarith) (by linarith))
    · rw [rnd12_zero]; linarith
    · rw [rnd12_pos y hy]
      have := val12_pos y hy
      linarith
  · rw [rnd12_zero]
    rcases h.lt_or_eq with hy | rfl
    · rw [rnd12_pos y hy]; exact (val12_pos y hy).le
    · rw [rnd12_zero]
  · rw [rnd12_pos x hx, rnd12_pos y (lt_of_lt_of_le hx h)]
    exact val12_mono hx h

/-- Numbers of at most twelve digits are printed exactly. -/
theorem rnd12_exact (n : ℕ) (e : ℤ) (h1 : 10 ^ 11 ≤ n) (h2 : n < 10 ^ 12) :
    rnd12 ((n : K) * (10 : K) ^ (e - 11)) = (n : K) * (10 : K) ^ (e - 11) := by
  have hn : (0 : K) < n := by
    have : 0 < n := by omega
    exact_mod_cast this
  rw [rnd12_pos _ (by positivity), val12, sig12_exact n e h1 h2]

theorem rnd12_neg_eq (x : K) : rnd12 (-x) = -rnd12 x := by
  rcases lt_trichotomy x 0 with hx | rfl | hx
  · rw [rnd12_neg x hx, rnd12_pos (-x) (by linarith), neg_neg]
  · rw [neg_zero, rnd12_zero, neg_zero]
  · rw [rnd12_pos x hx, rnd12_neg (-x) (by linarith), neg_neg]

theorem rnd12_360 : rnd12 ((360 : ℕ) : K) = ((360 : ℕ) : K) := by
  have := rnd12_exact (K := K) 360000000000 2 (by norm_num) (by norm_num)
  norm_num at this ⊢
  exact this

theorem rnd12_180 : rnd12 ((180 : ℕ) : K) = ((180 : ℕ) : K) := by
  have := rnd12_exact (K := K) 180000000000 2 (by norm_num) (by norm_num)
  norm_num at this ⊢
  exact this

theorem rnd12_90 : rnd12 ((90 : ℕ) : K) = ((90 : ℕ) : K) := by
  have := rnd12_exact (K := K) 900000000000 1 (by norm_num) (by norm_num)
  norm_num at this ⊢
  exact this

end Verif.Format
