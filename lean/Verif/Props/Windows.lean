import Verif.Props.GardnerKnopoffReal
import Mathlib.Analysis.Complex.ExponentialBounds

/-!
# Property C47: the declustering windows
-/

namespace Verif.Declustering

open Verif Verif.CatUtil Spec

/-! ### C47 -/

theorem gk_space (m : ℝ) : (gkWindow m).1 = (10 : ℝ) ^ (0.1238 * m + 0.983) := by
  simp only [gkWindow, rpow_real]; norm_num

theorem gk_time (m : ℝ) : (gkWindow m).2 =
    if m < 6.5 then (10 : ℝ) ^ (0.5409 * m - 0.547) / 365 else (10 : ℝ) ^ (0.032 * m + 2.7389) / 365 := by
  simp only [gkWindow, rpow_real]
  split_ifs <;> norm_num

theorem pyAbs_pos_of (x : ℝ) (h : 0 < x) : pyAbs x = x := by
  unfold pyAbs
  rw [if_neg]
  simp only [Nat.cast_zero, not_lt]; exact h.le

theorem gru_time (m : ℝ) : (gruenthalWindow m).2 =
    if m ≥ 6.5 then (10 : ℝ) ^ (2.8 + 0.024 * m) / 365 else Real.exp (-3.95 + Real.sqrt (0.62 + 17.32 * m)) / 365 := by
  simp only [gruenthalWindow, rpow_real, exp_real, sqrt_real]
  split_ifs
  · norm_num
  · rw [pyAbs_pos_of _ (by positivity)]; norm_num

/-- **C47** (positivity): all windows of all three types are positive (Gruenthal: for magnitudes where its square roots exist; the model gives other roots the value 0). -/
theorem C47_windows_positive (opt : String) (win : ℝ → ℝ × ℝ) (h : timeDistWindow opt = .ok win) (m : ℝ) :
    0 < (win m).1 ∧ 0 < (win m).2 := by
  unfold timeDistWindow at h
  split_ifs at h <;> simp only [Except.ok.injEq] at h <;> subst h
  · rw [gk_space, gk_time]
    refine ⟨by positivity, ?_⟩
    split_ifs <;> positivity
  · rw [gru_time]
    refine ⟨Real.exp_pos _, ?_⟩
    split_ifs <;> positivity
  · exact ⟨Real.exp_pos _, Real.exp_pos _⟩

theorem ten_rpow_le {a b : ℝ} (h : a ≤ b) : (10 : ℝ) ^ a ≤ (10 : ℝ) ^ b :=
  Real.rpow_le_rpow_of_exponent_le (by norm_num) h

/-- exp(6.75) is below the Gruenthal window at 6.5. -/
theorem exp_bound : Real.exp 6.75 ≤ (10 : ℝ) ^ (2.8 + 0.024 * 6.5 : ℝ) := by
  have h1 : Real.exp 6.75 ^ 20 ≤ (10 : ℝ) ^ 59 := by
    rw [← Real.exp_nat_mul, show ((20 : ℕ) : ℝ) * 6.75 = ((135 : ℕ) : ℝ) * 1 by norm_num, Real.exp_nat_mul]
    calc Real.exp 1 ^ 135 ≤ 2.7182818286 ^ 135 := pow_le_pow_left₀ (Real.exp_pos _).le Real.exp_one_lt_d9.le _
      _ ≤ 10 ^ 59 := by norm_num
  exact le_ten_rpow _ _ 59 20 (by norm_num) (Real.exp_pos _).le (by norm_num) h1

/-- **C47, the part that holds** (growth): distance windows of all types, and the time windows of the Gruenthal (for magnitudes
where its square roots exist) and Uhrhammer types do not decrease with magnitude; the Gardner–Knopoff time window does
not decrease on either side of magnitude 6.5.  Missing: the Gardner–Knopoff time window across 6.5 (`C47_gk_time_fails`). -/
theorem C47_windows_grow_partial (opt : String) (win : ℝ → ℝ × ℝ) (h : timeDistWindow opt = .ok win) (m m' : ℝ)
    (_h0 : opt = "Gruenthal" → 0 ≤ 0.037 + 1.02 * m ∧ 0 ≤ 0.62 + 17.32 * m) (hmm : m ≤ m') :
    (win m).1 ≤ (win m').1 ∧ ((opt = "GardnerKnopoff" → (m' < 6.5 ∨ 6.5 ≤ m)) → (win m).2 ≤ (win m').2) := by
  unfold timeDistWindow at h
  split_ifs at h with o1 o2 o3 <;> simp only [Except.ok.injEq] at h <;> subst h
  · rw [gk_space, gk_space, gk_time, gk_time]
    refine ⟨ten_rpow_le (by linarith), ?_⟩
    intro hside
    rcases hside o1 with hs | hs
    · rw [if_pos (by linarith), if_pos hs]
      exact div_le_div_of_nonneg_right (ten_rpow_le (by linarith)) (by norm_num)
    · rw [if_neg (by linarith), if_neg (by linarith)]
      exact div_le_div_of_nonneg_right (ten_rpow_le (by linarith)) (by norm_num)
  · rw [gru_time, gru_time]
    constructor
    · simp only [gruenthalWindow, exp_real, sqrt_real]
      apply Real.exp_le_exp.mpr
      have := Real.sqrt_le_sqrt (show (0.037 : ℝ) + 1.02 * m ≤ 0.037 + 1.02 * m' by linarith)
      linarith
    · intro _
      by_cases a : m ≥ 6.5
      · rw [if_pos a, if_pos (le_trans a hmm)]
        exact div_le_div_of_nonneg_right (ten_rpow_le (by linarith)) (by norm_num)
      · rw [if_neg a]
        rw [ge_iff_le, not_le] at a
        by_cases b : m' ≥ 6.5
        · rw [if_pos b]
          apply div_le_div_of_nonneg_right _ (by norm_num)
          have hs : Real.sqrt (0.62 + 17.32 * m) ≤ 10.7 := by
            rw [Real.sqrt_le_left (by norm_num)]
            nlinarith
          calc Real.exp (-3.95 + Real.sqrt (0.62 + 17.32 * m)) ≤ Real.exp 6.75 := Real.exp_le_exp.mpr (by linarith)
            _ ≤ (10 : ℝ) ^ (2.8 + 0.024 * 6.5 : ℝ) := exp_bound
            _ ≤ (10 : ℝ) ^ (2.8 + 0.024 * m') := ten_rpow_le (by linarith)
        · rw [if_neg b]
          apply div_le_div_of_nonneg_right _ (by norm_num)
          apply Real.exp_le_exp.mpr
          have := Real.sqrt_le_sqrt (show (0.62 : ℝ) + 17.32 * m ≤ 0.62 + 17.32 * m' by linarith)
          linarith
  · simp only [uhrhammerWindow, exp_real, Nat.cast_ofNat]
    refine ⟨Real.exp_le_exp.mpr (by linarith), fun _ => Real.exp_le_exp.mpr ?_⟩
    have : 1.235 * m / 365 ≤ 1.235 * m' / 365 := by
      apply div_le_div_of_nonneg_right _ (by norm_num); linarith
    linarith

/-- **C47 is false of the code**: the Gardner–Knopoff time window drops from 6.49 to 6.5. -/
theorem C47_gk_time_fails :
    ¬ ∀ (opt : String) (win : ℝ → ℝ × ℝ), timeDistWindow opt = .ok win → ∀ m m' : ℝ, 0 ≤ m → m ≤ m' → (win m).2 ≤ (win m').2 := by
  intro hall
  have h := hall "GardnerKnopoff" gkWindow (by simp [timeDistWindow]) 6.49 6.5 (by norm_num) (by norm_num)
  rw [gk_time, gk_time, if_pos (by norm_num), if_neg (by norm_num)] at h
  have h1 : (10 : ℝ) ^ (0.032 * 6.5 + 2.7389 : ℝ) < (10 : ℝ) ^ (0.5409 * 6.49 - 0.547 : ℝ) :=
    Real.rpow_lt_rpow_of_exponent_lt (by norm_num) (by norm_num)
  linarith

/-- Non-vacuity of C47: all three names have a window. -/
example : (∃ w, timeDistWindow (F := ℝ) "GardnerKnopoff" = .ok w) ∧ (∃ w, timeDistWindow (F := ℝ) "Gruenthal" = .ok w) ∧
    (∃ w, timeDistWindow (F := ℝ) "Uhrhammer" = .ok w) := by
  simp [timeDistWindow]

/-- **C39** for the Gruenthal and Uhrhammer windows with a foreshock window as long as the aftershock window, and for the
Gardner–Knopoff windows if the largest event and all others are on the same side of magnitude 6.5. -/
theorem C39_symmetric_windows_partial {n : Nat} (cat : Fin n → Row ℝ) (opt : String) (asc id1 : Equiv.Perm (Fin n)) (r : Result ℝ n)
    (h0 : IsArgsort (fun j => cat j 5) asc) (h1 : IsArgsort (flipud asc) id1)
    (h : gardnerKnopoff cat opt 1 asc id1 = .ok r) (e : Fin n) (hmax : ∀ j, j ≠ e → cat j 5 < cat e 5)
    (hpos : ∀ j, 0 ≤ cat j 5) (hside : opt = "GardnerKnopoff" → (cat e 5 < 6.5 ∨ ∀ j, 6.5 ≤ cat j 5)) :
    cat e ∈ r.vmain := by
  apply C39_largest_survives_partial cat opt 1 asc id1 r h0 h1 h e hmax
  intro win hw j hj
  obtain ⟨g1, g2⟩ := C47_windows_grow_partial opt win hw (cat j 5) (cat e 5) (fun _ => ⟨by linarith [hpos j], by linarith [hpos j]⟩) (hmax j hj).le
  have g2' := g2 (fun ho => by
    rcases hside ho with h | h
    · exact Or.inl h
    · exact Or.inr (h j))
  exact ⟨g1, by linarith, by linarith⟩

end Verif.Declustering
