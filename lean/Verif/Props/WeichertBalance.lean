import Verif.Props.ReferenceMagnitude
import Mathlib.Analysis.Calculus.MeanValue

/-!
# Property C120: the Weichert result reproduces the catalogue
-/

namespace Verif.Recurrence

open Verif Verif.Np

/-- Number of events that a Gutenberg-Richter relation with `rate` events a year in the range of the bins predicts for the periods of the bins. -/
noncomputable def Spec.expectedNumber (w : List (WBin ℝ)) (rate b : ℝ) : ℝ :=
  (w.map fun x => x.t * (rate * ((10 : ℝ) ^ (-b * x.m) / (w.map fun y => (10 : ℝ) ^ (-b * y.m)).sum))).sum

/-- Mean magnitude of the events that it predicts. -/
noncomputable def Spec.expectedMean (w : List (WBin ℝ)) (b : ℝ) : ℝ :=
  (w.map fun x => x.t * (10 : ℝ) ^ (-b * x.m) * x.m).sum / (w.map fun x => x.t * (10 : ℝ) ^ (-b * x.m)).sum

/-! ### The number of events -/

theorem sum_exp_step {w : List (WBin ℝ)} {lo hi β δ : ℝ} (hb : ∀ x ∈ w, lo ≤ x.m ∧ x.m ≤ hi) (f : WBin ℝ → ℝ) (hf : ∀ x ∈ w, 0 ≤ f x) (hδ : 0 ≤ δ) :
    Real.exp (-δ * hi) * (w.map fun x => f x * Real.exp (-β * x.m)).sum ≤ (w.map fun x => f x * Real.exp (-(β + δ) * x.m)).sum ∧
    (w.map fun x => f x * Real.exp (-(β + δ) * x.m)).sum ≤ Real.exp (-δ * lo) * (w.map fun x => f x * Real.exp (-β * x.m)).sum := by
  have e : ∀ x : WBin ℝ, f x * Real.exp (-(β + δ) * x.m) = f x * Real.exp (-β * x.m) * Real.exp (-δ * x.m) := by
    intro x; rw [mul_assoc, ← Real.exp_add]; congr 2; ring
  rw [← sum_map_mul, ← sum_map_mul]
  constructor <;> refine sum_map_mono fun x hx => ?_
  · rw [e, mul_comm]
    refine mul_le_mul_of_nonneg_left (Real.exp_le_exp.mpr ?_) (mul_nonneg (hf x hx) (Real.exp_pos _).le)
    nlinarith [(hb x hx).2]
  · rw [e, mul_comm (Real.exp _)]
    refine mul_le_mul_of_nonneg_left (Real.exp_le_exp.mpr ?_) (mul_nonneg (hf x hx) (Real.exp_pos _).le)
    nlinarith [(hb x hx).1]

/-- Mean period of the bins, weighted with the exponential distribution of the magnitudes. -/
noncomputable def meanPeriod (w : List (WBin ℝ)) (β : ℝ) : ℝ :=
  (w.map fun x => x.t * Real.exp (-β * x.m)).sum / (w.map fun x => 1 * Real.exp (-β * x.m)).sum

theorem sum_exp_pos {w : List (WBin ℝ)} (hw : w ≠ []) (f : WBin ℝ → ℝ) (hf : ∀ x ∈ w, 0 < f x) (β : ℝ) :
    0 < (w.map fun x => f x * Real.exp (-β * x.m)).sum := by
  obtain ⟨x, hx⟩ := List.exists_mem_of_ne_nil w hw
  refine list_sum_pos ?_ ⟨_, List.mem_map.mpr ⟨x, hx, rfl⟩, mul_pos (hf x hx) (Real.exp_pos _)⟩
  intro y hy
  obtain ⟨x, hx, rfl⟩ := List.mem_map.mp hy
  exact (mul_pos (hf x hx) (Real.exp_pos _)).le

theorem meanPeriod_step {w : List (WBin ℝ)} {lo hi β δ : ℝ} (hw : w ≠ []) (ht : ∀ x ∈ w, 0 < x.t) (hb : ∀ x ∈ w, lo ≤ x.m ∧ x.m ≤ hi) (hδ : 0 ≤ δ) :
    meanPeriod w β ≤ Real.exp (δ * (hi - lo)) * meanPeriod w (β + δ) ∧ meanPeriod w (β + δ) ≤ Real.exp (δ * (hi - lo)) * meanPeriod w β := by
  obtain ⟨a1, a2⟩ := sum_exp_step (β := β) hb (fun x => x.t) (fun x hx => (ht x hx).le) hδ
  obtain ⟨b1, b2⟩ := sum_exp_step (β := β) hb (fun _ => 1) (fun _ _ => zero_le_one) hδ
  have p1 := sum_exp_pos hw (fun x => x.t) ht β
  have p2 := sum_exp_pos hw (fun x => x.t) ht (β + δ)
  have p3 := sum_exp_pos hw (fun _ => 1) (fun _ _ => zero_lt_one) β
  have p4 := sum_exp_pos hw (fun _ => 1) (fun _ _ => zero_lt_one) (β + δ)
  have ee : Real.exp (δ * (hi - lo)) * Real.exp (-δ * hi) = Real.exp (-δ * lo) := by rw [← Real.exp_add]; congr 1; ring
  have el := Real.exp_pos (-δ * lo)
  have eh := Real.exp_pos (-δ * hi)
  have er := Real.exp_pos (δ * (hi - lo))
  simp only [meanPeriod]
  generalize (w.map fun x => x.t * Real.exp (-β * x.m)).sum = A at *
  generalize (w.map fun x => x.t * Real.exp (-(β + δ) * x.m)).sum = A' at *
  generalize (w.map fun x => 1 * Real.exp (-β * x.m)).sum = B at *
  generalize (w.map fun x => 1 * Real.exp (-(β + δ) * x.m)).sum = B' at *
  generalize Real.exp (-δ * lo) = l at *
  generalize Real.exp (-δ * hi) = h at *
  generalize Real.exp (δ * (hi - lo)) = k at *
  subst ee
  constructor
  · rw [← mul_div_assoc, div_le_div_iff₀ p3 p4]
    calc A * B' ≤ A * (k * h * B) := mul_le_mul_of_nonneg_left b2 p1.le
      _ = k * (h * A) * B := by ring
      _ ≤ k * A' * B := by gcongr
  · rw [← mul_div_assoc, div_le_div_iff₀ p4 p3]
    calc A' * B ≤ (k * h * A) * B := mul_le_mul_of_nonneg_right a2 p3.le
      _ = k * A * (h * B) := by ring
      _ ≤ k * A * B' := by gcongr

theorem meanPeriod_near {w : List (WBin ℝ)} {lo hi β β' ε : ℝ} (hw : w ≠ []) (ht : ∀ x ∈ w, 0 < x.t) (hb : ∀ x ∈ w, lo ≤ x.m ∧ x.m ≤ hi)
    (hε : |β' - β| ≤ ε) :
    meanPeriod w β ≤ Real.exp (ε * (hi - lo)) * meanPeriod w β' ∧ meanPeriod w β' ≤ Real.exp (ε * (hi - lo)) * meanPeriod w β := by
  have hlh : lo ≤ hi := by
    obtain ⟨x, hx⟩ := List.exists_mem_of_ne_nil w hw
    exact (hb x hx).1.trans (hb x hx).2
  have pos : ∀ β, 0 < meanPeriod w β := fun β => div_pos (sum_exp_pos hw _ ht β) (sum_exp_pos hw _ (fun _ _ => zero_lt_one) β)
  rcases le_total β β' with h | h
  · obtain ⟨h1, h2⟩ := meanPeriod_step (β := β) (δ := β' - β) hw ht hb (by linarith)
    rw [abs_of_nonneg (by linarith)] at hε
    have : Real.exp ((β' - β) * (hi - lo)) ≤ Real.exp (ε * (hi - lo)) := Real.exp_le_exp.mpr (by nlinarith)
    rw [add_sub_cancel] at h1 h2
    exact ⟨h1.trans (mul_le_mul_of_nonneg_right this (pos _).le), h2.trans (mul_le_mul_of_nonneg_right this (pos _).le)⟩
  · obtain ⟨h1, h2⟩ := meanPeriod_step (β := β') (δ := β - β') hw ht hb (by linarith)
    rw [abs_of_nonpos (by linarith)] at hε
    have : Real.exp ((β - β') * (hi - lo)) ≤ Real.exp (ε * (hi - lo)) := Real.exp_le_exp.mpr (by nlinarith)
    rw [add_sub_cancel] at h1 h2
    exact ⟨h2.trans (mul_le_mul_of_nonneg_right this (pos _).le), h1.trans (mul_le_mul_of_nonneg_right this (pos _).le)⟩

theorem expectedNumber_eq (w : List (WBin ℝ)) (rate b : ℝ) : Spec.expectedNumber w rate b = rate * meanPeriod w (b * Real.log 10) := by
  have e : ∀ x : WBin ℝ, (10 : ℝ) ^ (-b * x.m) = Real.exp (-(b * Real.log 10) * x.m) := by
    intro x; rw [Real.rpow_def_of_pos (by norm_num)]; congr 1; ring
  simp only [Spec.expectedNumber, meanPeriod, e, one_mul]
  rw [← mul_div_assoc, ← sum_map_mul, div_eq_mul_inv, mul_comm _ (_)⁻¹, ← sum_map_mul]
  refine congrArg List.sum (List.map_congr_left fun x _ => ?_)
  rw [div_eq_mul_inv]; ring

/-! ### The mean magnitude -/

/-- The variance of values in an interval is at most a quarter of the square of its length. -/
theorem d2_ge {w : List (WBin ℝ)} {lo hi : ℝ} (hw : w ≠ []) (ht : ∀ x ∈ w, 0 < x.t) (hb : ∀ x ∈ w, lo ≤ x.m ∧ x.m ≤ hi) (β : ℝ) :
    -(total w * ((hi - lo) ^ 2 / 4)) ≤ d2ldb2 w β := by
  have h0 := moment0_pos ht hw β
  have hN : 0 ≤ total w := total_nonneg w
  have hs : 0 ≤ (hi + lo) * moment w 1 β - hi * lo * moment w 0 β - moment w 2 β := by
    have : (hi + lo) * moment w 1 β - hi * lo * moment w 0 β - moment w 2 β =
        (w.map fun x => (x.t * Real.exp (-β * x.m)) * ((hi - x.m) * (x.m - lo))).sum := by
      simp only [moment]
      clear hw ht hb h0 hN
      induction w with
      | nil => simp
      | cons x l ih =>
        simp only [List.map_cons, List.sum_cons]
        rw [← ih]; ring
    rw [this]
    refine list_sum_nonneg ?_
    intro y hy
    obtain ⟨x, hx, rfl⟩ := List.mem_map.mp hy
    have := hb x hx
    exact mul_nonneg (mul_nonneg (ht x hx).le (Real.exp_pos _).le) (mul_nonneg (by linarith) (by linarith))
  rw [d2ldb2_real, ← mul_neg]
  refine mul_le_mul_of_nonneg_left ?_ hN
  have e2 : moment w 2 β / moment w 0 β ≤ (hi + lo) * (moment w 1 β / moment w 0 β) - hi * lo := by
    rw [div_le_iff₀ h0]
    have : ((hi + lo) * (moment w 1 β / moment w 0 β) - hi * lo) * moment w 0 β = (hi + lo) * moment w 1 β - hi * lo * moment w 0 β := by
      field_simp
    linarith
  nlinarith [sq_nonneg (moment w 1 β / moment w 0 β - (hi + lo) / 2)]

/-- After a Newton step the derivative is at most the step times the bound of the second derivative. -/
theorem dldb_after {w : List (WBin ℝ)} {C β : ℝ} (hder : ∀ b, HasDerivAt (dldb w) (d2ldb2 w b) b) (hneg : ∀ b, d2ldb2 w b < 0)
    (hC : ∀ b, -C ≤ d2ldb2 w b) : |dldb w (newton w β)| ≤ C * |newton w β - β| := by
  have hd : dldb w β = -(d2ldb2 w β) * (newton w β - β) := by
    have := (hneg β).ne
    rw [newton]; field_simp; ring
  obtain ⟨ξ, hξ⟩ : ∃ ξ, dldb w (newton w β) - dldb w β = d2ldb2 w ξ * (newton w β - β) := by
    rcases lt_trichotomy β (newton w β) with h | h | h
    · obtain ⟨ξ, -, hξ⟩ := exists_hasDerivAt_eq_slope (dldb w) (d2ldb2 w) h (fun x _ => (hder x).continuousAt.continuousWithinAt) (fun x _ => hder x)
      refine ⟨ξ, ?_⟩
      rw [hξ]; field_simp [sub_ne_zero.mpr h.ne']
    · exact ⟨0, by rw [← h]; simp⟩
    · obtain ⟨ξ, -, hξ⟩ := exists_hasDerivAt_eq_slope (dldb w) (d2ldb2 w) h (fun x _ => (hder x).continuousAt.continuousWithinAt) (fun x _ => hder x)
      refine ⟨ξ, ?_⟩
      rw [hξ, div_mul_eq_mul_div, eq_div_iff (sub_ne_zero.mpr h.ne')]; ring
  have e : dldb w (newton w β) = (d2ldb2 w ξ - d2ldb2 w β) * (newton w β - β) := by rw [sub_mul, ← hξ, hd]; ring
  rw [e, abs_mul]
  refine mul_le_mul_of_nonneg_right (abs_le.mpr ⟨?_, ?_⟩) (abs_nonneg _)
  · linarith [hC ξ, hneg β]
  · linarith [hC β, hneg ξ]

theorem expectedMean_eq (w : List (WBin ℝ)) (b : ℝ) : Spec.expectedMean w b = moment w 1 (b * Real.log 10) / moment w 0 (b * Real.log 10) := by
  have e : ∀ x : WBin ℝ, (10 : ℝ) ^ (-b * x.m) = Real.exp (-(b * Real.log 10) * x.m) := by
    intro x; rw [Real.rpow_def_of_pos (by norm_num)]; congr 1; ring
  simp only [Spec.expectedMean, moment, e, pow_one, pow_zero, mul_one]
  congr 2
  exact List.map_congr_left fun x _ => by ring

/-! ### The property -/

/-- **C120**: let `N > 0` events be kept by the completeness table, with `k` magnitude bins of width `dm`.  The returned relation, extrapolated
from the reference magnitude to the lower edge of the bins (at the reference magnitude 0 the code returns that rate), predicts `N` events in the
completeness periods up to the factor `exp(±1e-5 (k - 1) dm)`, and their mean magnitude is that of the kept events (as bin centres) up to
`1e-5 ((k - 1) dm)² / 4`. -/
theorem C120_balance {ev table : List (ℝ × ℝ)} {dm dt ref : ℝ} {fuel : ℕ} {r : GR ℝ} (hev : ev ≠ []) (hdm : 0 < dm) (hdt : 0 < dt)
    (htab : ∀ r ∈ table, ∃ e ∈ ev, r.1 < e.1 + 1) (h : recurrenceAnalysis ev table dm "Weichert" ref dt fuel = .ok (some r)) :
    ∃ (w : List (WBin ℝ)) (m0 rate N ε : ℝ), weichertPrep ev table dm dt = .ok w ∧ IsLeast {m | ∃ e ∈ ev, Spec.mag1 e.2 = m} m0 ∧
      N = (w.map fun x => (x.n : ℝ)).sum ∧ ε = 1e-5 * ((w.length - 1) * dm) ∧
      rate = (if ref = 0 then r.a else r.a * (10 : ℝ) ^ (r.b * (ref - m0))) ∧
      (0 < N → N * Real.exp (-ε) ≤ Spec.expectedNumber w rate r.b ∧ Spec.expectedNumber w rate r.b ≤ N * Real.exp ε ∧
        |Spec.expectedMean w r.b - (w.map fun x => (x.n : ℝ) * x.m).sum / N| ≤ ε * ((w.length - 1) * dm) / 4) := by
  obtain ⟨x0, x1, rest, β, hw, hs, rfl, -⟩ := weichert_reference (ref' := ref) h
  obtain ⟨y0, y1, m0, hy0, hy1, hm0, hlen, _, hidx, hbin⟩ := weichertPrep_spec hev hdm hdt hw
  obtain ⟨-, ht⟩ := prep_spaced hev hdm hdt hw htab
  have hx0 : x0.m = m0 + 1 / 2 * dm := by have := (hbin 0 (by simp)).1; simpa using this
  have hx1 : x1.m = m0 + 3 / 2 * dm := by have := (hbin 1 (by simp)).1; simp at this; rw [this]; ring
  refine ⟨_, m0, _, _, _, hw, hm0, rfl, rfl, rfl, fun hN => ?_⟩
  set w := x0 :: x1 :: rest with hwd
  have hne : w ≠ [] := by simp [hwd]
  have hsum : 0 < (w.map WBin.n).sum := by
    by_contra hc
    have h0 : (w.map WBin.n).sum = 0 := by omega
    rw [List.sum_eq_zero_iff] at h0
    have : (w.map fun x => (x.n : ℝ)).sum = 0 := by
      refine List.sum_eq_zero fun y hy => ?_
      obtain ⟨x, hx, rfl⟩ := List.mem_map.mp hy
      exact_mod_cast h0 _ (List.mem_map.mpr ⟨x, hx, rfl⟩)
    exact hN.ne' this
  have hcc := C61_prepared hev hdm hdt hw htab (by simp [hwd]) hsum
  have hb : ∀ x ∈ w, m0 + 1 / 2 * dm ≤ x.m ∧ x.m ≤ m0 + 1 / 2 * dm + (w.length - 1) * dm := by
    intro x hx
    obtain ⟨i, hi, rfl⟩ := List.getElem_of_mem hx
    rw [(hbin i hi).1]
    have : (i : ℝ) + 1 ≤ w.length := by exact_mod_cast hi
    constructor
    · nlinarith [Nat.cast_nonneg (α := ℝ) i]
    · nlinarith
  have hR : m0 + 1 / 2 * dm + (w.length - 1) * dm - (m0 + 1 / 2 * dm) = (w.length - 1) * dm := by ring
  have hl10 : Real.log 10 ≠ 0 := (Real.log_pos (by norm_num)).ne'
  have hbb : (wResult w x0.m (x1.m - x0.m) ref β).b * Real.log 10 = newton w β := by rw [wResult_b]; field_simp
  have hp : ∀ β, 0 < meanPeriod w β := fun β => div_pos (sum_exp_pos hne _ ht β) (sum_exp_pos hne _ (fun _ _ => zero_lt_one) β)
  have hrate : (if ref = 0 then (wResult w x0.m (x1.m - x0.m) ref β).a else (wResult w x0.m (x1.m - x0.m) ref β).a *
      (10 : ℝ) ^ ((wResult w x0.m (x1.m - x0.m) ref β).b * (ref - m0))) = total w / meanPeriod w β := by
    have hf : (wSums w β).nkount * ((wSums w β).sumexp / (wSums w β).sumtex) = total w / meanPeriod w β := by
      simp only [wSums, npSum_real, exp_real, total, meanPeriod, one_mul]
      rw [div_div_eq_mul_div, mul_div_assoc]
    split_ifs with hr
    · simp only [wResult, decEq_real, hr, decide_true, if_true]
      exact hf
    · have : (10 : ℝ) ^ ((wResult w x0.m (x1.m - x0.m) ref β).b * (ref - m0)) = Real.exp (newton w β * (ref - m0)) := by
        rw [Real.rpow_def_of_pos (by norm_num), ← hbb]; congr 1; ring
      rw [this]
      simp only [wResult, decEq_real, hr, decide_false, Bool.false_eq_true, if_false, exp_real]
      rw [hf, mul_assoc, ← Real.exp_add, show (2.0 : ℝ) = 2 by norm_num, hx0, hx1]
      rw [show -newton w β * (ref - (m0 + 1 / 2 * dm - (m0 + 3 / 2 * dm - (m0 + 1 / 2 * dm)) / 2)) + newton w β * (ref - m0) = 0 by ring]
      simp
  rw [hrate, expectedNumber_eq, hbb, expectedMean_eq, hbb]
  obtain ⟨n1, n2⟩ := meanPeriod_near hne ht hb hs
  rw [hR] at n1 n2
  have htot : total w = (w.map fun x => (x.n : ℝ)).sum := rfl
  rw [← htot] at hN ⊢
  refine ⟨?_, ?_, ?_⟩
  · rw [div_mul_eq_mul_div, le_div_iff₀ (hp β), mul_assoc]
    refine mul_le_mul_of_nonneg_left ?_ hN.le
    rw [Real.exp_neg, inv_mul_le_iff₀ (Real.exp_pos _)]
    exact n1
  · rw [div_mul_eq_mul_div, div_le_iff₀ (hp β), mul_assoc]
    exact mul_le_mul_of_nonneg_left n2 hN.le
  · have hC := fun b => d2_ge (w := w) hne ht hb b
    rw [hR] at hC
    have ha := dldb_after (β := β) (fun b => (hcc b).2.1) (fun b => (hcc b).2.2.1) hC
    have e : moment w 1 (newton w β) / moment w 0 (newton w β) - (w.map fun x => (x.n : ℝ) * x.m).sum / total w = dldb w (newton w β) / total w := by
      rw [dldb_real, magSum]; field_simp
    rw [e, abs_div, abs_of_pos hN, div_le_iff₀ hN]
    refine ha.trans ?_
    have hq : 0 ≤ total w * ((((w.length : ℝ) - 1) * dm) ^ 2 / 4) := by positivity
    calc _ ≤ total w * ((((w.length : ℝ) - 1) * dm) ^ 2 / 4) * 1e-5 := mul_le_mul_of_nonneg_left hs hq
      _ = _ := by ring

/-- The premises are met by `ev63b`: three kept events in two bins. -/
example : ∃ fuel r, recurrenceAnalysis ev63b table63b 0.1 "Weichert" 4 1 fuel = .ok (some r) ∧ (∀ r ∈ table63b, ∃ e ∈ ev63b, r.1 < e.1 + 1) ∧
    ∃ w, weichertPrep ev63b table63b 0.1 1 = .ok w ∧ 0 < (w.map fun x => (x.n : ℝ)).sum := by
  obtain ⟨w, fuel, r, hw, hr⟩ := returns63b
  refine ⟨fuel, r, by simp only [recurrenceAnalysis, if_true, hw, bind_ok, hr], ?_, w, hw, ?_⟩
  · intro r hr
    refine ⟨(2000, 4.0), by simp [ev63b], ?_⟩
    simp only [table63b, List.mem_singleton] at hr
    subst hr; norm_num
  · obtain rfl := prep63b hw
    norm_num

end Verif.Recurrence
