import Verif.Py.Double
import Verif.Lemmas.Recurrence

/-!
# Lemmas about double precision arithmetic
-/

namespace Verif.Dbl

open Verif Verif.Np

theorem val_of (x : ℚ) : (of x).val = rnd53 x := rfl
theorem val_add (x y : Dbl) : (x + y).val = rnd53 (x.val + y.val) := rfl
theorem val_sub (x y : Dbl) : (x - y).val = rnd53 (x.val - y.val) := rfl
theorem val_mul (x y : Dbl) : (x * y).val = rnd53 (x.val * y.val) := rfl
theorem val_div (x y : Dbl) : (x / y).val = rnd53 (x.val / y.val) := rfl
theorem val_nat (n : ℕ) : (n : Dbl).val = rnd53 n := rfl
theorem val_int (n : ℤ) : (n : Dbl).val = rnd53 n := rfl
theorem val_zero : (0 : Dbl).val = 0 := rnd53_zero
theorem le_def {x y : Dbl} : x ≤ y ↔ x.val ≤ y.val := Iff.rfl
theorem lt_def {x y : Dbl} : x < y ↔ x.val < y.val := Iff.rfl
theorem decEq_def {x y : Dbl} : PyNum.decEq x y = decide (x.val = y.val) := rfl
theorem floorZ_def (x : Dbl) : PyNum.floorZ x = ⌊x.val⌋ := rfl
theorem ceilZ_def (x : Dbl) : PyNum.ceilZ x = ⌈x.val⌉ := rfl

theorem val_nat_exact {n : ℕ} (h : n ≤ 2 ^ 53) : (n : Dbl).val = n := by
  rw [val_nat]
  have := rnd53_int (n := (n : ℤ)) (by rw [Nat.abs_cast]; exact_mod_cast h)
  exact_mod_cast this

theorem val_int_exact {n : ℤ} (h : |n| ≤ 2 ^ 53) : (n : Dbl).val = n := by rw [val_int, rnd53_int h]

theorem val_ten : ((10.0 : Dbl)).val = 10 := by
  show rnd53 (10.0 : ℚ) = 10
  have := rnd53_int (n := 10) (by norm_num)
  rw [show (10.0 : ℚ) = ((10 : ℤ) : ℚ) by norm_num, this]
  norm_num

/-- Rounding a number near `a`. -/
theorem rnd_near {x a ε B : ℚ} (h : |x - a| ≤ ε) (hB : |a| ≤ B) (hε : ε ≤ 1) : |rnd53 x - a| ≤ ε + (B + 1) / 2 ^ 53 := by
  have h1 := rnd53_error x
  have h2 : |x| ≤ B + 1 := by
    have : |x| ≤ |x - a| + |a| := by
      have := abs_add_le (x - a) a
      rwa [sub_add_cancel] at this
    linarith
  have h3 : |rnd53 x - a| ≤ |rnd53 x - x| + |x - a| := by
    have := abs_add_le (rnd53 x - x) (x - a)
    rwa [sub_add_sub_cancel] at this
  have h4 : |x| / 2 ^ 53 ≤ (B + 1) / 2 ^ 53 := div_le_div_of_nonneg_right h2 (by norm_num)
  linarith

theorem of_near {a B : ℚ} (hB : |a| ≤ B) : |(of a).val - a| ≤ (B + 1) / 2 ^ 53 := by
  have := rnd_near (x := a) (a := a) (ε := 0) (by simp) hB (by norm_num)
  simpa [val_of] using this

theorem minimum_def (a y : Dbl) : minimum a y = if a.val ≤ y.val then a else y := by
  unfold minimum
  have : PyNum.decEq a a = true := by simp [decEq_def]
  simp [this, le_def]

theorem maximum_def (a y : Dbl) : maximum a y = if y.val ≤ a.val then a else y := by
  unfold maximum
  have : PyNum.decEq a a = true := by simp [decEq_def]
  simp [this, le_def]

theorem npMin_spec {l : List Dbl} {m : Dbl} (h : npMin l = .ok m) : m ∈ l ∧ ∀ x ∈ l, m.val ≤ x.val := by
  cases l with
  | nil => simp [npMin] at h
  | cons x l =>
    simp only [npMin, Except.ok.injEq] at h
    subst h
    have key : ∀ (l : List Dbl) (x : Dbl), (l.foldl minimum x = x ∨ l.foldl minimum x ∈ l) ∧ (l.foldl minimum x).val ≤ x.val ∧ ∀ y ∈ l, (l.foldl minimum x).val ≤ y.val := by
      intro l
      induction l with
      | nil => intro x; simp
      | cons y l ih =>
        intro x
        rw [List.foldl_cons]
        obtain ⟨h1, h2, h3⟩ := ih (minimum x y)
        have hm : (minimum x y = x ∨ minimum x y = y) ∧ (minimum x y).val ≤ x.val ∧ (minimum x y).val ≤ y.val := by
          rw [minimum_def]
          split_ifs with h
          · exact ⟨.inl rfl, le_refl _, h⟩
          · exact ⟨.inr rfl, (not_le.1 h).le, le_refl _⟩
        refine ⟨?_, h2.trans hm.2.1, ?_⟩
        · rcases h1 with h1 | h1
          · rcases hm.1 with h | h
            · left; rw [h1, h]
            · right; rw [h1, h]; simp
          · right; simp [h1]
        · intro z hz
          rcases List.mem_cons.1 hz with rfl | hz
          · exact h2.trans hm.2.2
          · exact h3 z hz
    obtain ⟨h1, h2, h3⟩ := key l x
    refine ⟨by rcases h1 with h | h <;> simp [h], ?_⟩
    intro y hy
    rcases List.mem_cons.1 hy with rfl | hy
    · exact h2
    · exact h3 y hy

theorem npMax_spec {l : List Dbl} {m : Dbl} (h : npMax l = .ok m) : m ∈ l ∧ ∀ x ∈ l, x.val ≤ m.val := by
  cases l with
  | nil => simp [npMax] at h
  | cons x l =>
    simp only [npMax, Except.ok.injEq] at h
    subst h
    have key : ∀ (l : List Dbl) (x : Dbl), (l.foldl maximum x = x ∨ l.foldl maximum x ∈ l) ∧ x.val ≤ (l.foldl maximum x).val ∧ ∀ y ∈ l, y.val ≤ (l.foldl maximum x).val := by
      intro l
      induction l with
      | nil => intro x; simp
      | cons y l ih =>
        intro x
        rw [List.foldl_cons]
        obtain ⟨h1, h2, h3⟩ := ih (maximum x y)
        have hm : (maximum x y = x ∨ maximum x y = y) ∧ x.val ≤ (maximum x y).val ∧ y.val ≤ (maximum x y).val := by
          rw [maximum_def]
          split_ifs with h
          · exact ⟨.inl rfl, le_refl _, h⟩
          · exact ⟨.inr rfl, (not_le.1 h).le, le_refl _⟩
        refine ⟨?_, hm.2.1.trans h2, ?_⟩
        · rcases h1 with h1 | h1
          · rcases hm.1 with h | h
            · left; rw [h1, h]
            · right; rw [h1, h]; simp
          · right; simp [h1]
        · intro z hz
          rcases List.mem_cons.1 hz with rfl | hz
          · exact hm.2.2.trans h2
          · exact h3 z hz
    obtain ⟨h1, h2, h3⟩ := key l x
    refine ⟨by rcases h1 with h | h <;> simp [h], ?_⟩
    intro y hy
    rcases List.mem_cons.1 hy with rfl | hy
    · exact h2
    · exact h3 y hy

/-! ### Magnitudes with two decimals -/

/-- Multiples of 0.1 are recognised. -/
theorem tenths_check : ∀ n ∈ List.range 201, ((10.0 : Dbl) * of (((10 * ((n : ℤ) - 100) : ℤ) : ℚ) / 100)).val = (((n : ℤ) - 100 : ℤ) : ℚ) := by
  decide +kernel

/-- Rounding down and up to tenths is right for every magnitude between -10 and 10 with two decimals. -/
theorem tenths {k : ℤ} (hk : |k| ≤ 1000) : PyNum.floorZ ((10.0 : Dbl) * of (k / 100)) = k / 10 ∧ PyNum.ceilZ ((10.0 : Dbl) * of (k / 100)) = -((-k) / 10) := by
  obtain ⟨h1, h2⟩ := abs_le.1 hk
  rw [floorZ_def, ceilZ_def]
  by_cases h0 : k % 10 = 0
  · obtain ⟨n, rfl⟩ : ∃ n, k = 10 * n := ⟨k / 10, by omega⟩
    have h := tenths_check (n + 100).toNat (by rw [List.mem_range]; omega)
    have e : (((n + 100).toNat : ℤ)) - 100 = n := by omega
    rw [e] at h
    rw [h, Int.floor_intCast, Int.ceil_intCast]
    omega
  · have e1 : |(of ((k : ℚ) / 100)).val - k / 100| ≤ 11 / 2 ^ 53 := by
      refine (of_near (B := 10) ?_).trans (by norm_num)
      rw [abs_div, abs_of_pos (by norm_num : (0 : ℚ) < 100), div_le_iff₀ (by norm_num), ← Int.cast_abs]
      exact_mod_cast hk
    have e2 : |((10.0 : Dbl) * of ((k : ℚ) / 100)).val - k / 10| ≤ 1 / 100 := by
      rw [val_mul, val_ten]
      refine (rnd_near (ε := 110 / 2 ^ 53) (B := 100) ?_ ?_ (by norm_num)).trans (by norm_num)
      · rw [show (10 : ℚ) * (of ((k : ℚ) / 100)).val - k / 10 = 10 * ((of ((k : ℚ) / 100)).val - k / 100) by ring, abs_mul, abs_of_pos (by norm_num : (0 : ℚ) < 10)]
        linarith
      · rw [abs_div, abs_of_pos (by norm_num : (0 : ℚ) < 10), div_le_iff₀ (by norm_num), ← Int.cast_abs]
        exact_mod_cast hk
    obtain ⟨a1, a2⟩ := abs_le.1 e2
    have hr : (k : ℚ) = 10 * ((k / 10 : ℤ) : ℚ) + ((k % 10 : ℤ) : ℚ) := by exact_mod_cast (Int.mul_ediv_add_emod k 10).symm
    have r1 : (1 : ℚ) ≤ ((k % 10 : ℤ) : ℚ) := by exact_mod_cast (by omega : (1 : ℤ) ≤ k % 10)
    have r2 : ((k % 10 : ℤ) : ℚ) ≤ 9 := by exact_mod_cast (by omega : k % 10 ≤ 9)
    have hc : -((-k) / 10) = k / 10 + 1 := by omega
    rw [hc]
    constructor
    · rw [Int.floor_eq_iff]
      constructor <;> linarith
    · rw [Int.ceil_eq_iff]
      push_cast
      constructor <;> linarith

theorem tenth_val {K : ℤ} (hK : |K| ≤ 2 ^ 53) : ((K : Dbl) / (10.0 : Dbl)) = of (K / 10) := by
  apply ext
  rw [val_div, val_int_exact hK, val_ten, val_of]

/-! ### The elements of `np.arange` -/

theorem arange_zero (L D : Dbl) : arangeAt L D 0 = L := by
  apply ext
  unfold arangeAt
  rw [val_add, val_mul, val_nat]
  simp [rnd53_zero, L.ok]

/-- The elements do not decrease. -/
theorem arange_mono {L D : Dbl} (hD : 0 ≤ D.val) {i j : ℕ} (h : i ≤ j) : (arangeAt L D i).val ≤ (arangeAt L D j).val := by
  have hd : 0 ≤ ((L + D) - L).val := by
    rw [val_sub]
    have h1 : L.val ≤ (L + D).val := by
      rw [val_add]
      have := rnd53_mono (show L.val ≤ L.val + D.val by linarith)
      rwa [L.ok] at this
    have := rnd53_mono (show 0 ≤ (L + D).val - L.val by linarith)
    rwa [rnd53_zero] at this
  unfold arangeAt
  rw [val_add, val_add]
  refine rnd53_mono (add_le_add (le_refl _) ?_)
  rw [val_mul, val_mul]
  refine rnd53_mono (mul_le_mul_of_nonneg_right ?_ hd)
  rw [val_nat, val_nat]
  exact rnd53_mono (by exact_mod_cast h)

/-- The elements are close to those of exact arithmetic. -/
theorem arange_near {K : ℤ} (hK : |K| ≤ 100) {q : ℚ} (h1 : 1 / 1000 ≤ q) (h2 : q ≤ 10) {i : ℕ} (hi : i * q ≤ 100) :
    |(arangeAt (of (K / 10)) (of q) i).val - (K / 10 + i * q)| ≤ 1 / 10 ^ 9 := by
  have hK' : |(K : ℚ) / 10| ≤ 10 := by
    rw [abs_div, abs_of_pos (by norm_num : (0 : ℚ) < 10), div_le_iff₀ (by norm_num)]
    have : ((|K| : ℤ) : ℚ) ≤ 100 := by exact_mod_cast hK
    rw [Int.cast_abs] at this
    linarith
  have hq : |q| ≤ 10 := abs_le.2 ⟨by linarith, h2⟩
  have hi0 : (0 : ℚ) ≤ i := by positivity
  have hi' : (i : ℚ) ≤ 100000 := by nlinarith
  have hin : i ≤ 2 ^ 53 := by
    have : i ≤ 100000 := by exact_mod_cast hi'
    omega
  set L := of ((K : ℚ) / 10) with hL
  set D := of q with hD
  have eL := of_near hK'
  have eD := of_near hq
  rw [← hL] at eL
  rw [← hD] at eD
  have eS : |(L + D).val - (K / 10 + q)| ≤ 43 / 2 ^ 53 := by
    have := rnd_near (x := L.val + D.val) (a := K / 10 + q) (ε := 22 / 2 ^ 53) (B := 20) ?_ ?_ (by norm_num)
    · rw [val_add]; refine this.trans (by norm_num)
    · have := abs_add_le (L.val - K / 10) (D.val - q)
      rw [show L.val + D.val - (K / 10 + q) = (L.val - K / 10) + (D.val - q) by ring]
      refine this.trans ?_
      have := add_le_add eL eD
      refine this.trans (by norm_num)
    · exact (abs_add_le _ _).trans (by linarith)
  have ed : |((L + D) - L).val - q| ≤ 65 / 2 ^ 53 := by
    have := rnd_near (x := (L + D).val - L.val) (a := q) (ε := 54 / 2 ^ 53) (B := 10) ?_ hq (by norm_num)
    · rw [val_sub]; refine this.trans (by norm_num)
    · have := abs_sub ((L + D).val - (K / 10 + q)) (L.val - K / 10)
      rw [show (L + D).val - L.val - q = ((L + D).val - (K / 10 + q)) - (L.val - K / 10) by ring]
      refine this.trans ?_
      have := add_le_add eS eL
      refine this.trans (by norm_num)
  have hprod : |(i : ℚ) * q| ≤ 100 := by
    rw [abs_of_nonneg (by positivity)]
    exact hi
  have ep : |((i : Dbl) * ((L + D) - L)).val - i * q| ≤ 6500000 / 2 ^ 53 + 101 / 2 ^ 53 := by
    rw [val_mul, val_nat_exact hin]
    have := rnd_near (x := (i : ℚ) * ((L + D) - L).val) (a := i * q) (ε := 6500000 / 2 ^ 53) (B := 100) ?_ hprod (by norm_num)
    · refine this.trans (by norm_num)
    · rw [← mul_sub, abs_mul, abs_of_nonneg hi0]
      calc (i : ℚ) * |((L + D) - L).val - q| ≤ 100000 * (65 / 2 ^ 53) := mul_le_mul hi' ed (abs_nonneg _) (by norm_num)
        _ = _ := by norm_num
  have := rnd_near (x := L.val + ((i : Dbl) * ((L + D) - L)).val) (a := K / 10 + i * q) (ε := 6500112 / 2 ^ 53) (B := 110) ?_ ?_ (by norm_num)
  · unfold arangeAt
    rw [val_add]
    exact this.trans (by norm_num)
  · have := abs_add_le (L.val - K / 10) (((i : Dbl) * ((L + D) - L)).val - i * q)
    rw [show L.val + ((i : Dbl) * ((L + D) - L)).val - (K / 10 + i * q) = (L.val - K / 10) + (((i : Dbl) * ((L + D) - L)).val - i * q) by ring]
    refine this.trans ?_
    have := add_le_add eL ep
    refine this.trans (by norm_num)
  · exact (abs_add_le _ _).trans (by linarith)

/-! ### Bins -/

theorem inBin_cast (edge : ℕ → Dbl) (nb j : ℕ) (x : Dbl) : inBin edge nb j x = inBin (fun j => ((edge j).val : ℝ)) nb j (x.val : ℝ) := by
  have h1 : ∀ a b : Dbl, decide (a ≤ b) = decide (((a.val : ℚ) : ℝ) ≤ (b.val : ℝ)) := fun a b => by
    rw [decide_eq_decide, le_def, Rat.cast_le]
  have h2 : ∀ a b : Dbl, decide (a < b) = decide (((a.val : ℚ) : ℝ) < (b.val : ℝ)) := fun a b => by
    rw [decide_eq_decide, lt_def, Rat.cast_lt]
  unfold inBin
  simp only [h1, h2]

end Verif.Dbl
