import Verif.Props.Windows

/-!
# C134: the windows are those of the literature

`Window.calc` refers to Van Stiphout et al. (2010) for the windows.  Their table gives distances in kilometres and times in days;
the declustering algorithms work with kilometres and years.
-/

namespace Verif.Declustering

open Verif Verif.CatUtil Spec

/-- The published windows: distance in kilometres and time in days, by type and magnitude. -/
structure Spec.PublishedWindow (opt : String) (m km days : ℝ) : Prop where
  gardnerKnopoff : opt = "GardnerKnopoff" → km = 10 ^ (0.1238 * m + 0.983) ∧
    (6.5 ≤ m → days = 10 ^ (0.032 * m + 2.7389)) ∧ (m < 6.5 → days = 10 ^ (0.5409 * m - 0.547))
  gruenthal : opt = "Gruenthal" → km = Real.exp (1.77 + Real.sqrt (0.037 + 1.02 * m)) ∧
    (6.5 ≤ m → days = 10 ^ (2.8 + 0.024 * m)) ∧ (m < 6.5 → days = |Real.exp (-3.95 + Real.sqrt (0.62 + 17.32 * m))|)
  uhrhammer : opt = "Uhrhammer" → km = Real.exp (-1.024 + 0.804 * m) ∧ days = Real.exp (-2.87 + 1.235 * m)

/-- **C134, the part that holds**: the Gardner–Knopoff and Gruenthal windows are the published ones, with 365 days to the year, and so is
the Uhrhammer distance window.  Missing: the Uhrhammer time window (`C134_published_fails`, `C134_uhrhammer_time`). -/
theorem C134_published_partial (opt : String) (win : ℝ → ℝ × ℝ) (h : timeDistWindow opt = .ok win) (m km days : ℝ)
    (hp : Spec.PublishedWindow opt m km days) :
    (win m).1 = km ∧ (opt ≠ "Uhrhammer" → (win m).2 = days / 365) := by
  unfold timeDistWindow at h
  split_ifs at h with o1 o2 o3 <;> simp only [Except.ok.injEq] at h <;> subst h
  · obtain ⟨h1, h2, h3⟩ := hp.gardnerKnopoff o1
    rw [gk_space, gk_time, h1]
    refine ⟨rfl, fun _ => ?_⟩
    split_ifs with c
    · rw [h3 c]
    · rw [h2 (not_lt.mp c)]
  · obtain ⟨h1, h2, h3⟩ := hp.gruenthal o2
    rw [gru_time, h1]
    refine ⟨by simp only [gruenthalWindow, exp_real, sqrt_real], fun _ => ?_⟩
    split_ifs with c
    · rw [h2 c]
    · rw [h3 (not_le.mp c), abs_of_pos (Real.exp_pos _)]
  · exact ⟨by rw [(hp.uhrhammer o3).1]; simp only [uhrhammerWindow, exp_real], fun hn => absurd o3 hn⟩

/-- The Uhrhammer time window of the code, in years, is the published window in days of an event of 1/365 of the magnitude. -/
theorem C134_uhrhammer_time (win : ℝ → ℝ × ℝ) (h : timeDistWindow "Uhrhammer" = .ok win) (m km days : ℝ)
    (hp : Spec.PublishedWindow "Uhrhammer" (m / 365) km days) : (win m).2 = days := by
  simp [timeDistWindow] at h
  subst h
  rw [(hp.uhrhammer rfl).2]
  simp only [uhrhammerWindow, exp_real, Nat.cast_ofNat]
  congr 1; ring

theorem exp_neg_287 : (0.056 : ℝ) < Real.exp (-2.87) ∧ Real.exp (-2.87) < 0.057 := by
  have e1 := Real.exp_one_gt_d9
  have e2 := Real.exp_one_lt_d9
  constructor
  · by_contra hc
    have hp : 1 ≤ Real.exp (-2.87) ^ 8 * Real.exp 1 ^ 23 := by
      rw [← Real.exp_nat_mul, ← Real.exp_nat_mul, ← Real.exp_add]
      exact Real.one_le_exp (by norm_num)
    have a : Real.exp (-2.87) ^ 8 ≤ 0.056 ^ 8 := pow_le_pow_left₀ (Real.exp_pos _).le (not_lt.mp hc) _
    have b : Real.exp 1 ^ 23 ≤ 2.7182818286 ^ 23 := pow_le_pow_left₀ (Real.exp_pos _).le e2.le _
    have c := hp.trans (mul_le_mul a b (by positivity) (by positivity))
    norm_num at c
  · by_contra hc
    have hp : Real.exp (-2.87) ^ 15 * Real.exp 1 ^ 43 ≤ 1 := by
      rw [← Real.exp_nat_mul, ← Real.exp_nat_mul, ← Real.exp_add]
      exact Real.exp_le_one_iff.mpr (by norm_num)
    have a : (0.057 : ℝ) ^ 15 ≤ Real.exp (-2.87) ^ 15 := pow_le_pow_left₀ (by norm_num) (not_lt.mp hc) _
    have b : (2.7182818283 : ℝ) ^ 43 ≤ Real.exp 1 ^ 43 := pow_le_pow_left₀ (by norm_num) e1.le _
    have c := (mul_le_mul a b (by positivity) (by positivity)).trans hp
    norm_num at c

/-- For magnitudes from 0 to 10 the Uhrhammer time window of the code is about three weeks (20.4 to 21.8 days), whatever the magnitude. -/
theorem C134_uhrhammer_constant (win : ℝ → ℝ × ℝ) (h : timeDistWindow "Uhrhammer" = .ok win) (m : ℝ) (h0 : 0 ≤ m) (h1 : m ≤ 10) :
    20.4 < (win m).2 * 365 ∧ (win m).2 * 365 < 21.8 := by
  simp [timeDistWindow] at h
  subst h
  simp only [uhrhammerWindow, exp_real, Nat.cast_ofNat]
  have hm : 0 ≤ 1.235 * m / 365 := by positivity
  have hM : 1.235 * m / 365 ≤ 0.034 := by
    rw [div_le_iff₀ (by norm_num)]; norm_num; linarith
  obtain ⟨a, b⟩ := exp_neg_287
  have l : Real.exp (-2.87) ≤ Real.exp (-2.87 + 1.235 * m / 365) := Real.exp_le_exp.mpr (by linarith)
  have u : Real.exp (-2.87 + 1.235 * m / 365) ≤ Real.exp (-2.87) * Real.exp 0.034 := by
    rw [← Real.exp_add]; exact Real.exp_le_exp.mpr (by linarith)
  have v : Real.exp 0.034 ≤ 1 / (1 - 0.034) := by
    have := Real.add_one_le_exp (-0.034 : ℝ)
    rw [Real.exp_neg] at this
    have hx := Real.exp_pos (0.034 : ℝ)
    rw [le_div_iff₀ (by norm_num)]
    have := mul_le_mul_of_nonneg_left this hx.le
    rw [mul_inv_cancel₀ hx.ne'] at this
    linarith
  constructor
  · nlinarith
  · have : Real.exp (-2.87 + 1.235 * m / 365) < 0.0592 := by
      have := mul_le_mul b.le v (Real.exp_pos _).le (by norm_num)
      have e : (0.057 : ℝ) * (1 / (1 - 0.034)) < 0.0592 := by norm_num
      linarith
    nlinarith

/-- **C134 is false of the code**: the published Uhrhammer time window of an event of magnitude 7 is longer than 140 days, the code
uses one shorter than 22. -/
theorem C134_published_fails :
    ¬ ∀ (opt : String) (win : ℝ → ℝ × ℝ), timeDistWindow opt = .ok win → ∀ m km days : ℝ, Spec.PublishedWindow opt m km days →
      (win m).1 = km ∧ (win m).2 = days / 365 := by
  intro hall
  have hw : timeDistWindow (F := ℝ) "Uhrhammer" = .ok uhrhammerWindow := by simp [timeDistWindow]
  have h := (hall "Uhrhammer" _ hw 7 (Real.exp (-1.024 + 0.804 * 7)) (Real.exp (-2.87 + 1.235 * 7))
    ⟨by simp, by simp, fun _ => ⟨rfl, rfl⟩⟩).2
  have hc := (C134_uhrhammer_constant _ hw 7 (by norm_num) (by norm_num)).2
  rw [h] at hc
  have h5 : Real.exp 1 ^ 5 ≤ Real.exp (-2.87 + 1.235 * 7) := by
    rw [← Real.exp_nat_mul]; exact Real.exp_le_exp.mpr (by norm_num)
  have h6 : (2.7 : ℝ) ^ 5 ≤ Real.exp 1 ^ 5 := pow_le_pow_left₀ (by norm_num) (by linarith [Real.exp_one_gt_d9]) _
  have h7 : (143 : ℝ) ≤ 2.7 ^ 5 := by norm_num
  rw [div_mul_cancel₀ _ (by norm_num)] at hc
  linarith

/-- Non-vacuity of C134: every type has a published window at magnitude 4.7. -/
example : ∃ km days, Spec.PublishedWindow "Gruenthal" 4.7 km days :=
  ⟨_, _, ⟨by simp, fun _ => ⟨rfl, fun h => absurd h (by norm_num), fun _ => rfl⟩, by simp⟩⟩

example : ∃ km days, Spec.PublishedWindow "GardnerKnopoff" 4.7 km days :=
  ⟨_, _, ⟨fun _ => ⟨rfl, fun h => absurd h (by norm_num), fun _ => rfl⟩, by simp, by simp⟩⟩

example : ∃ km days, Spec.PublishedWindow "Uhrhammer" (4.7 / 365) km days := ⟨_, _, ⟨by simp, by simp, fun _ => ⟨rfl, rfl⟩⟩⟩

end Verif.Declustering
