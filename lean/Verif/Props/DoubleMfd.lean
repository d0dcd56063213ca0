import Verif.Lemmas.DoubleArange
import Verif.Model.Fault

/-!
# C168: the number of occurrence rates of a fault in double precision
-/

namespace Verif.Fault

open Verif Verif.Dbl Verif.Np

namespace Spec

/-- The number of bins of width `q` that it takes to get from `mn` to `mx`. -/
def bins (mn mx q : ℚ) : ℕ := ⌈(mx - mn) / q⌉.toNat

/-- The range is (up to a millionth of a bin) a whole number of bins. -/
def Even (mn mx q : ℚ) : Prop := ∃ z : ℤ, |(mx - mn) / q - z| ≤ 1 / 10 ^ 6

end Spec

open Spec

/-- When there are rates, and how many. -/
theorem mfd_length {F : Type} [PyMath F] {msr : F → Option F → Except PyErr F} {slip a : F} {reg : Region F} {f : SimpleFault F} {b mn bw mx : F} {rake : Option F} {scal : F × F} {rates : List F}
    (h : getMfd msr slip a reg f b mn bw (some mx) rake scal = .ok rates) : rates.length = arangeLen (mn - bw / 2.0) (mx + (1.5 : F) * bw) bw - 2 := by
  unfold getMfd at h
  simp only [bind, Except.bind, resolveMax, throw, throwThe, MonadExceptOf.throw, pure, Except.pure] at h
  split_ifs at h
  rcases hd : firstValue reg.dlr with _ | d <;> rw [hd] at h <;> [cases h; skip]
  rcases hs : firstValue reg.smod with _ | s <;> rw [hs] at h <;> [cases h; skip]
  simp only [arange] at h
  split_ifs at h
  simp only [Except.ok.injEq] at h
  rw [← h]
  simp

theorem two_val : ((2.0 : Dbl)).val = 2 := by
  show rnd53 (2.0 : ℚ) = 2
  rw [show (2.0 : ℚ) = ((2 : ℤ) : ℚ) by norm_num, rnd53_int (by norm_num)]
  norm_num

theorem threehalf_val : ((1.5 : Dbl)).val = 3 / 2 := by decide +kernel

/-- The ends of the magnitude range. -/
theorem mfd_ends {mn mx q : ℚ} (h1 : |mn| ≤ 100) (h2 : |mx| ≤ 100) (q0 : 1 / 1000 ≤ q) (q1 : q ≤ 100) :
    |(Dbl.of mn - Dbl.of q / (2.0 : Dbl)).val - (mn - q / 2)| ≤ 1 / 10 ^ 11 ∧ |(Dbl.of mx + (1.5 : Dbl) * Dbl.of q).val - (mx + 3 / 2 * q)| ≤ 1 / 10 ^ 11 := by
  have hq : |q| ≤ 100 := abs_le.2 ⟨by linarith, q1⟩
  have e1 := of_near h1
  have e2 := of_near h2
  have e3 := of_near hq
  obtain ⟨b1, b1'⟩ := abs_le.1 h1
  obtain ⟨b2, b2'⟩ := abs_le.1 h2
  constructor
  · have e4 : |(Dbl.of q / (2.0 : Dbl)).val - q / 2| ≤ 300 / 2 ^ 53 := by
      rw [val_div, two_val]
      refine (rnd_near (ε := 101 / 2 ^ 53) (B := 100) ?_ ?_ (by norm_num)).trans (by norm_num)
      · rw [← sub_div, abs_div, abs_of_pos (by norm_num : (0 : ℚ) < 2)]
        have := abs_nonneg ((Dbl.of q).val - q)
        linarith
      · rw [abs_of_nonneg (by linarith)]; linarith
    rw [val_sub]
    refine (rnd_near (ε := 401 / 2 ^ 53) (B := 200) ?_ ?_ (by norm_num)).trans (by norm_num)
    · rw [show (Dbl.of mn).val - (Dbl.of q / (2.0 : Dbl)).val - (mn - q / 2) = ((Dbl.of mn).val - mn) - ((Dbl.of q / (2.0 : Dbl)).val - q / 2) by ring]
      exact (abs_sub _ _).trans ((add_le_add e1 e4).trans (by norm_num))
    · rw [abs_le]; constructor <;> linarith
  · have e4 : |((1.5 : Dbl) * Dbl.of q).val - 3 / 2 * q| ≤ 400 / 2 ^ 53 := by
      rw [val_mul, threehalf_val]
      refine (rnd_near (ε := 152 / 2 ^ 53) (B := 150) ?_ ?_ (by norm_num)).trans (by norm_num)
      · rw [← mul_sub, abs_mul, abs_of_pos (by norm_num : (0 : ℚ) < 3 / 2)]
        linarith
      · rw [abs_of_nonneg (by linarith)]; linarith
    rw [val_add]
    refine (rnd_near (ε := 501 / 2 ^ 53) (B := 250) ?_ ?_ (by norm_num)).trans (by norm_num)
    · rw [show (Dbl.of mx).val + ((1.5 : Dbl) * Dbl.of q).val - (mx + 3 / 2 * q) = ((Dbl.of mx).val - mx) + (((1.5 : Dbl) * Dbl.of q).val - 3 / 2 * q) by ring]
      exact (abs_add_le _ _).trans ((add_le_add e2 e4).trans (by norm_num))
    · rw [abs_le]; constructor <;> linarith

theorem thirteen_edges : arangeLen (Dbl.of 4 - Dbl.of 0.1 / (2.0 : Dbl)) (Dbl.of 5 + (1.5 : Dbl) * Dbl.of 0.1) (Dbl.of 0.1) = 13 := by decide +kernel

variable [Libm]

/-- **C168, what holds**: in double precision there is one rate for each bin, or one more; there is exactly one for each bin unless the magnitude range is a whole number of bins. -/
theorem C168_number_partial {msr : Dbl → Option Dbl → Except PyErr Dbl} {slip a : Dbl} {reg : Region Dbl} {f : SimpleFault Dbl} {b : Dbl} {mn mx q : ℚ} {rake : Option Dbl} {scal : Dbl × Dbl}
    {rates : List Dbl} (h1 : |mn| ≤ 100) (h2 : |mx| ≤ 100) (hm : mn ≤ mx) (q0 : 1 / 1000 ≤ q) (q1 : q ≤ 100)
    (h : getMfd msr slip a reg f b (Dbl.of mn) (Dbl.of q) (some (Dbl.of mx)) rake scal = .ok rates) :
    (∀ n : ℕ, mx - mn = n * q → rates.length = n ∨ rates.length = n + 1) ∧ (¬ Spec.Even mn mx q → rates.length = bins mn mx q) := by
  obtain ⟨b1, b1'⟩ := abs_le.1 h1
  obtain ⟨b2, b2'⟩ := abs_le.1 h2
  have hq0 : 0 < q := by linarith
  obtain ⟨eS, eT⟩ := mfd_ends h1 h2 q0 q1
  obtain ⟨X, hX, he⟩ := arangeLen_near (q := q) eS eT (by linarith) (by linarith) q0
  have hl := mfd_length h
  rw [hX] at hl
  have e : (mx + 3 / 2 * q - (mn - q / 2)) / q = (mx - mn) / q + 2 := by field_simp; ring
  rw [e] at he
  have hr : 0 ≤ (mx - mn) / q := div_nonneg (by linarith) hq0.le
  obtain ⟨x1, x2⟩ := abs_le.1 he
  have c1 := Int.le_ceil X
  have c2 := Int.ceil_lt_add_one X
  constructor
  · intro n hn
    have hnq : (mx - mn) / q = n := by rw [hn]; field_simp
    rw [hnq] at x1 x2
    have k1 : ((n : ℤ) + 1 : ℤ) < ⌈X⌉ := by
      have : (((n : ℤ) + 1 : ℤ) : ℚ) < ⌈X⌉ := by push_cast; linarith
      exact_mod_cast this
    have k2 : ⌈X⌉ < (n : ℤ) + 4 := by
      have : (⌈X⌉ : ℚ) < ((n : ℤ) + 4 : ℤ) := by push_cast; linarith
      exact_mod_cast this
    omega
  · intro hne
    have hc : ⌈X⌉ = ⌈(mx - mn) / q⌉ + 2 := by
      rw [Int.ceil_eq_iff]
      set r := (mx - mn) / q
      have d1 := Int.le_ceil r
      have d2 := Int.ceil_lt_add_one r
      have f1 : 1 / 10 ^ 6 < |r - (⌈r⌉ : ℤ)| := by
        by_contra hcon
        exact hne ⟨_, not_lt.1 hcon⟩
      have f2 : 1 / 10 ^ 6 < |r - ((⌈r⌉ - 1 : ℤ) : ℚ)| := by
        by_contra hcon
        exact hne ⟨_, not_lt.1 hcon⟩
      rw [abs_of_nonpos (by linarith)] at f1
      push_cast at f2 ⊢
      rw [abs_of_nonneg (by linarith)] at f2
      constructor <;> linarith
    have := Int.ceil_nonneg hr
    unfold bins
    omega

/-- **C168 is false**: from magnitude 4 to 5 there are eleven rates for ten bins of 0.1. -/
theorem C168_fails : ¬ ∀ (msr : Dbl → Option Dbl → Except PyErr Dbl) (slip a : Dbl) (reg : Region Dbl) (f : SimpleFault Dbl) (b : Dbl) (mn mx q : ℚ) (rake : Option Dbl) (scal : Dbl × Dbl)
    (rates : List Dbl), |mn| ≤ 100 → |mx| ≤ 100 → mn ≤ mx → 1 / 1000 ≤ q → q ≤ 100 →
    getMfd msr slip a reg f b (Dbl.of mn) (Dbl.of q) (some (Dbl.of mx)) rake scal = .ok rates → rates.length = bins mn mx q := by
  intro H
  obtain ⟨rates, h⟩ : ∃ rates, getMfd (fun _ _ => .error .typeError) (Dbl.of 1) (Dbl.of 0) ⟨"001", single "WC1994", single (Dbl.of 30), single (Dbl.of 1)⟩ ⟨[], .of 0, .of 10, .of 90⟩ (Dbl.of 1)
      (Dbl.of 4) (Dbl.of 0.1) (some (Dbl.of 5)) none (.of 16, .of 1.5) = .ok rates := by
    unfold getMfd
    rw [if_neg (not_not.2 (show ((0 : ℕ) : Dbl) < Dbl.of 1 by decide +kernel)),
      if_neg (not_not.2 (show (0.0 : Dbl) ≤ Dbl.of 0 ∧ Dbl.of 0 < (1.0 : Dbl) from ⟨by decide +kernel, by decide +kernel⟩))]
    have hne : PyNum.decEq (Dbl.of 0.1) 0 = false := by decide +kernel
    simp [bind, Except.bind, resolveMax, firstValue, single, WDict.getVals, pure, Except.pure, arange, hne]
  have hl := mfd_length h
  have := H _ _ _ _ _ _ _ _ _ _ _ rates (by norm_num) (by norm_num) (by norm_num) (by norm_num) (by norm_num) h
  rw [hl, thirteen_edges] at this
  norm_num [bins] at this
  exact absurd this (by decide)

/-- Non-vacuity: from 4 to 5.05 there are eleven bins of 0.1 and eleven rates. -/
example {msr : Dbl → Option Dbl → Except PyErr Dbl} {slip a : Dbl} {reg : Region Dbl} {f : SimpleFault Dbl} {b : Dbl} {rake : Option Dbl} {scal : Dbl × Dbl}
    {rates : List Dbl} (h : getMfd msr slip a reg f b (Dbl.of 4) (Dbl.of 0.1) (some (Dbl.of 5.05)) rake scal = .ok rates) : rates.length = 11 := by
  rw [(C168_number_partial (by norm_num) (by norm_num) (by norm_num) (by norm_num) (by norm_num) h).2 ?_]
  · norm_num [bins]
    rfl
  · rintro ⟨z, hz⟩
    norm_num at hz
    obtain ⟨h1, h2⟩ := abs_le.1 hz
    have a1 : (10 : ℚ) < z := by linarith
    have a2 : (z : ℚ) < 11 := by linarith
    have a1' : (10 : ℤ) < z := by exact_mod_cast a1
    have a2' : z < (11 : ℤ) := by exact_mod_cast a2
    omega

end Verif.Fault
