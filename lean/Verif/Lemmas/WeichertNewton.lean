import Verif.Lemmas.Weichert
import Mathlib.Analysis.Calculus.MeanValue
import Mathlib.Algebra.Order.BigOperators.Group.Finset
import Mathlib.Tactic.Linarith

/-! # Weichert: the likelihood equation is convex where the expected counts decrease with magnitude -/

namespace Verif.Recurrence

open Verif Verif.Np Finset

/-! ### Third central moment of a decreasing distribution -/

theorem abel (u f : ℕ → ℝ) (n : ℕ) :
    ∑ i ∈ range n, u i * f i = ∑ j ∈ range n, (u j - u (j + 1)) * ∑ i ∈ range (j + 1), f i + u n * ∑ i ∈ range n, f i := by
  induction n with
  | zero => simp
  | succ n ih =>
    rw [sum_range_succ, ih, sum_range_succ (fun j => (u j - u (j + 1)) * ∑ i ∈ range (j + 1), f i)]
    have := sum_range_succ f n
    rw [this]
    ring

theorem pow_sums (j : ℕ) :
    (∑ i ∈ range (j + 1), (i : ℝ) ^ 0 = j + 1) ∧ (∑ i ∈ range (j + 1), (i : ℝ) ^ 1 = (j + 1) * (j / 2)) ∧
      (∑ i ∈ range (j + 1), (i : ℝ) ^ 2 = (j + 1) * (j * (2 * j + 1) / 6)) ∧ (∑ i ∈ range (j + 1), (i : ℝ) ^ 3 = (j + 1) * (j ^ 2 * (j + 1) / 4)) := by
  induction j with
  | zero => simp
  | succ j ih =>
    obtain ⟨h0, h1, h2, h3⟩ := ih
    rw [sum_range_succ, h0, sum_range_succ (fun i : ℕ => (i : ℝ) ^ 1), h1, sum_range_succ (fun i : ℕ => (i : ℝ) ^ 2), h2, sum_range_succ (fun i : ℕ => (i : ℝ) ^ 3), h3]
    push_cast
    refine ⟨?_, ?_, ?_, ?_⟩ <;> ring

/-- A distribution on `0, 1, ..., n-1` with non-increasing weights has a non-negative third central moment. -/
theorem skew_nonneg {n : ℕ} {u : ℕ → ℝ} (hu : ∀ i < n, u (i + 1) ≤ u i) (h0 : u n = 0) {S : ℕ → ℝ} (hS : ∀ k, S k = ∑ i ∈ range n, u i * (i : ℝ) ^ k) :
    0 ≤ S 3 * S 0 ^ 2 - 3 * S 1 * S 2 * S 0 + 2 * S 1 ^ 3 := by
  let q : ℕ → ℝ := fun j => (u j - u (j + 1)) * (j + 1)
  have hq : ∀ j ∈ range n, 0 ≤ q j := fun j hj => mul_nonneg (sub_nonneg.2 (hu j (mem_range.1 hj))) (by positivity)
  let Q : ℕ → ℝ := fun k => ∑ j ∈ range n, q j * (j : ℝ) ^ k
  have e0 : S 0 = Q 0 := by
    rw [hS, abel, h0, zero_mul, add_zero]
    refine sum_congr rfl fun j _ => ?_
    rw [(pow_sums j).1]; ring
  have e1 : S 1 = Q 1 / 2 := by
    rw [hS, abel, h0, zero_mul, add_zero, sum_div]
    refine sum_congr rfl fun j _ => ?_
    rw [(pow_sums j).2.1]; ring
  have e2 : S 2 = Q 2 / 3 + Q 1 / 6 := by
    rw [hS, abel, h0, zero_mul, add_zero, sum_div, sum_div, ← sum_add_distrib]
    refine sum_congr rfl fun j _ => ?_
    rw [(pow_sums j).2.2.1]; ring
  have e3 : S 3 = Q 3 / 4 + Q 2 / 4 := by
    rw [hS, abel, h0, zero_mul, add_zero, sum_div, sum_div, ← sum_add_distrib]
    refine sum_congr rfl fun j _ => ?_
    rw [(pow_sums j).2.2.2]; ring
  have p0 : 0 ≤ Q 0 := sum_nonneg fun j hj => mul_nonneg (hq j hj) (by positivity)
  have a1 : 0 ≤ Q 3 * Q 0 ^ 2 - 2 * Q 1 * Q 0 * Q 2 + Q 1 ^ 3 := by
    have : Q 3 * Q 0 ^ 2 - 2 * Q 1 * Q 0 * Q 2 + Q 1 ^ 2 * Q 1 = ∑ j ∈ range n, q j * (j * (j * Q 0 - Q 1) ^ 2) := by
      conv_lhs => rw [show Q 3 = ∑ j ∈ range n, q j * (j : ℝ) ^ 3 from rfl, show Q 2 = ∑ j ∈ range n, q j * (j : ℝ) ^ 2 from rfl]
      rw [sum_mul, mul_sum, ← sum_sub_distrib]
      conv_lhs => rw [show Q 1 ^ 2 * Q 1 = ∑ j ∈ range n, Q 1 ^ 2 * (q j * (j : ℝ) ^ 1) from by rw [← mul_sum]]
      rw [← sum_add_distrib]
      exact sum_congr rfl fun j _ => by ring
    have h2 : 0 ≤ ∑ j ∈ range n, q j * (j * (j * Q 0 - Q 1) ^ 2) := sum_nonneg fun j hj => mul_nonneg (hq j hj) (by positivity)
    nlinarith
  have a2 : 0 ≤ Q 0 * (Q 2 * Q 0 - Q 1 ^ 2) := by
    have : Q 0 * (Q 2 * Q 0 - Q 1 ^ 2) = ∑ j ∈ range n, q j * (j * Q 0 - Q 1) ^ 2 := by
      have t : ∑ j ∈ range n, q j * (j * Q 0 - Q 1) ^ 2 = Q 0 ^ 2 * Q 2 + (-2 * Q 0 * Q 1) * Q 1 + Q 1 ^ 2 * Q 0 := by
        conv_rhs => rw [show Q 0 ^ 2 * Q 2 = ∑ j ∈ range n, Q 0 ^ 2 * (q j * (j : ℝ) ^ 2) from by rw [← mul_sum],
          show (-2 * Q 0 * Q 1) * Q 1 = ∑ j ∈ range n, (-2 * Q 0 * Q 1) * (q j * (j : ℝ) ^ 1) from by rw [← mul_sum],
          show Q 1 ^ 2 * Q 0 = ∑ j ∈ range n, Q 1 ^ 2 * (q j * (j : ℝ) ^ 0) from by rw [← mul_sum]]
        rw [← sum_add_distrib, ← sum_add_distrib]
        exact sum_congr rfl fun j _ => by ring
      rw [t]; ring
    rw [this]
    exact sum_nonneg fun j hj => mul_nonneg (hq j hj) (by positivity)
  rw [e0, e1, e2, e3]
  have : (Q 3 / 4 + Q 2 / 4) * Q 0 ^ 2 - 3 * (Q 1 / 2) * (Q 2 / 3 + Q 1 / 6) * Q 0 + 2 * (Q 1 / 2) ^ 3 =
      1 / 4 * ((Q 3 * Q 0 ^ 2 - 2 * Q 1 * Q 0 * Q 2 + Q 1 ^ 3) + Q 0 * (Q 2 * Q 0 - Q 1 ^ 2)) := by ring
  rw [this]
  linarith

/-! ### Equally spaced bins -/

/-- Consecutive bins of width `d` starting at the central magnitude `a`. -/
def Spaced (w : List (WBin ℝ)) (a d : ℝ) : Prop := ∀ i (hi : i < w.length), w[i].m = a + i * d

/-- From one bin to the next the period grows at most by the factor `exp(l d)`, so that `t exp(-l m)` does not increase with magnitude. -/
def Growth (w : List (WBin ℝ)) (l d : ℝ) : Prop := ∀ i (hi : i + 1 < w.length), w[i + 1].t ≤ w[i].t * Real.exp (l * d)

/-- Expected count of bin `i` up to a factor. -/
noncomputable def weightAt (w : List (WBin ℝ)) (β : ℝ) (i : ℕ) : ℝ := if h : i < w.length then w[i].t * Real.exp (-β * w[i].m) else 0

theorem moment_range (w : List (WBin ℝ)) {a d : ℝ} (hs : Spaced w a d) (k : ℕ) (β : ℝ) :
    moment w k β = ∑ i ∈ range w.length, weightAt w β i * (a + i * d) ^ k := by
  have h : (w.map fun x => x.t * x.m ^ k * Real.exp (-β * x.m)) = List.ofFn fun i : Fin w.length => weightAt w β i * (a + (i : ℕ) * d) ^ k := by
    refine List.ext_getElem (by simp) fun i h1 h2 => ?_
    have hi : i < w.length := by simpa using h1
    simp only [List.getElem_map, List.getElem_ofFn, weightAt, dif_pos hi, hs i hi]
    ring
  rw [moment, h, List.sum_ofFn, Finset.sum_range]

theorem weightAt_antitone {w : List (WBin ℝ)} {a d l β : ℝ} (hs : Spaced w a d) (hd : 0 ≤ d) (hg : Growth w l d) (ht : ∀ x ∈ w, 0 < x.t) (hl : l ≤ β) {i : ℕ}
    (hi : i < w.length) : weightAt w β (i + 1) ≤ weightAt w β i := by
  unfold weightAt
  rw [dif_pos hi]
  have h0 := ht _ (List.getElem_mem hi)
  split_ifs with h
  · have h1 := hg i h
    rw [hs i hi, hs (i + 1) h]
    have e : Real.exp (-β * (a + ((i + 1 : ℕ) : ℝ) * d)) = Real.exp (-(β * d)) * Real.exp (-β * (a + i * d)) := by
      rw [← Real.exp_add]; congr 1; push_cast; ring
    rw [e, ← mul_assoc]
    refine mul_le_mul_of_nonneg_right ?_ (Real.exp_pos _).le
    rw [Real.exp_neg, ← div_eq_mul_inv, div_le_iff₀ (Real.exp_pos _)]
    refine h1.trans (mul_le_mul_of_nonneg_left ?_ h0.le)
    exact Real.exp_le_exp.2 (mul_le_mul_of_nonneg_right hl hd)
  · positivity

/-- Third central moment of the bins (times the cube of the sum of weights). -/
theorem third_nonneg {w : List (WBin ℝ)} {a d l β : ℝ} (hs : Spaced w a d) (hd : 0 ≤ d) (hg : Growth w l d) (ht : ∀ x ∈ w, 0 < x.t) (hl : l ≤ β) :
    0 ≤ moment w 3 β * moment w 0 β ^ 2 - 3 * moment w 1 β * moment w 2 β * moment w 0 β + 2 * moment w 1 β ^ 3 := by
  let S : ℕ → ℝ := fun k => ∑ i ∈ range w.length, weightAt w β i * (i : ℝ) ^ k
  have key := skew_nonneg (n := w.length) (u := weightAt w β) (fun i hi => weightAt_antitone hs hd hg ht hl hi) (by simp [weightAt]) (S := S) (fun k => rfl)
  have m0 : moment w 0 β = S 0 := by rw [moment_range w hs]; exact sum_congr rfl fun i _ => by simp
  have m1 : moment w 1 β = a * S 0 + d * S 1 := by
    rw [moment_range w hs, mul_sum, mul_sum, ← sum_add_distrib]; exact sum_congr rfl fun i _ => by ring
  have m2 : moment w 2 β = a ^ 2 * S 0 + 2 * a * d * S 1 + d ^ 2 * S 2 := by
    rw [moment_range w hs, mul_sum, mul_sum, mul_sum, ← sum_add_distrib, ← sum_add_distrib]; exact sum_congr rfl fun i _ => by ring
  have m3 : moment w 3 β = a ^ 3 * S 0 + 3 * a ^ 2 * d * S 1 + 3 * a * d ^ 2 * S 2 + d ^ 3 * S 3 := by
    rw [moment_range w hs, mul_sum, mul_sum, mul_sum, mul_sum, ← sum_add_distrib, ← sum_add_distrib, ← sum_add_distrib]; exact sum_congr rfl fun i _ => by ring
  rw [m0, m1, m2, m3]
  have : (a ^ 3 * S 0 + 3 * a ^ 2 * d * S 1 + 3 * a * d ^ 2 * S 2 + d ^ 3 * S 3) * S 0 ^ 2 -
      3 * (a * S 0 + d * S 1) * (a ^ 2 * S 0 + 2 * a * d * S 1 + d ^ 2 * S 2) * S 0 + 2 * (a * S 0 + d * S 1) ^ 3 =
      d ^ 3 * (S 3 * S 0 ^ 2 - 3 * S 1 * S 2 * S 0 + 2 * S 1 ^ 3) := by ring
  rw [this]
  positivity

/-- Derivative of the second derivative. -/
theorem d2_deriv {w : List (WBin ℝ)} (ht : ∀ x ∈ w, 0 < x.t) (hw : w ≠ []) (β : ℝ) :
    HasDerivAt (d2ldb2 w) (total w * ((moment w 3 β * moment w 0 β ^ 2 - 3 * moment w 1 β * moment w 2 β * moment w 0 β + 2 * moment w 1 β ^ 3) / moment w 0 β ^ 3)) β := by
  have h0 := moment0_pos ht hw β
  have hq := (moment_deriv w 1 β).div (moment_deriv w 0 β) h0.ne'
  have h := ((hq.mul hq).sub ((moment_deriv w 2 β).div (moment_deriv w 0 β) h0.ne')).const_mul (total w)
  refine (h.congr_deriv ?_).congr_of_eventuallyEq ?_
  · congr 1
    simp only [Pi.div_apply]
    field_simp
    ring
  · exact Filter.Eventually.of_forall fun b => by simp only [d2ldb2_real]; rfl

theorem total_nonneg (w : List (WBin ℝ)) : 0 ≤ total w := by
  refine List.sum_nonneg ?_
  intro y hy
  obtain ⟨z, _, rfl⟩ := List.mem_map.1 hy
  exact Nat.cast_nonneg _

theorem d2_monotone {w : List (WBin ℝ)} {a d l : ℝ} (hs : Spaced w a d) (hd : 0 ≤ d) (hg : Growth w l d) (ht : ∀ x ∈ w, 0 < x.t) (hw : w ≠ []) :
    MonotoneOn (d2ldb2 w) (Set.Ici l) := by
  refine monotoneOn_of_deriv_nonneg (convex_Ici l) (fun β _ => (d2_deriv ht hw β).continuousAt.continuousWithinAt)
    (fun β _ => (d2_deriv ht hw β).differentiableAt.differentiableWithinAt) fun β hβ => ?_
  rw [(d2_deriv ht hw β).deriv]
  rw [interior_Ici] at hβ
  have h0 := moment0_pos ht hw β
  exact mul_nonneg (total_nonneg w) (div_nonneg (third_nonneg hs hd hg ht (le_of_lt hβ)) (by positivity))

/-- The tangent of the likelihood equation lies below it. -/
theorem tangent_le {w : List (WBin ℝ)} {a d l : ℝ} (hs : Spaced w a d) (hd : 0 ≤ d) (hg : Growth w l d) (ht : ∀ x ∈ w, 0 < x.t) (hw : w ≠ []) {x y : ℝ} (hx : l ≤ x) (hy : l ≤ y) :
    dldb w x + d2ldb2 w x * (y - x) ≤ dldb w y := by
  have hm := d2_monotone hs hd hg ht hw
  have hc : ∀ u v, ContinuousOn (dldb w) (Set.Icc u v) := fun u v β _ => (dldb_deriv ht hw β).continuousAt.continuousWithinAt
  rcases lt_trichotomy x y with h | rfl | h
  · obtain ⟨c, ⟨c1, c2⟩, hc'⟩ := exists_hasDerivAt_eq_slope (dldb w) (d2ldb2 w) h (hc x y) fun β _ => dldb_deriv ht hw β
    have := hm hx (hx.trans c1.le : l ≤ c) c1.le
    rw [hc', le_div_iff₀ (by linarith)] at this
    linarith
  · simp
  · obtain ⟨c, ⟨c1, c2⟩, hc'⟩ := exists_hasDerivAt_eq_slope (dldb w) (d2ldb2 w) h (hc y x) fun β _ => dldb_deriv ht hw β
    have := hm (hy.trans c1.le : l ≤ c) hx c2.le
    rw [hc', div_le_iff₀ (by linarith)] at this
    linarith

/-- The likelihood equation becomes negative for large `β` if an event lies above the lowest bin. -/
theorem exists_dldb_neg {w : List (WBin ℝ)} {a d : ℝ} (hs : Spaced w a d) (hd : 0 < d) (ht : ∀ x ∈ w, 0 < x.t)
    (hn : ∃ i, ∃ h : i < w.length, 0 < i ∧ 0 < w[i].n) : ∃ B, dldb w B < 0 := by
  obtain ⟨i, hi, i0, hni⟩ := hn
  have hw : w ≠ [] := by rintro rfl; simp at hi
  have hl : 0 < w.length := List.length_pos_iff.2 hw
  have hN : 0 < total w := total_pos ⟨w[i], List.getElem_mem hi, hni⟩
  -- the excess of the observed sum
  have hE : 0 < magSum w - a * total w := by
    have e : magSum w - a * total w = (w.map fun x => (x.n : ℝ) * (x.m - a)).sum := by
      rw [magSum, total, sub_eq_add_neg, ← neg_mul, ← sum_map_mul, ← sum_map_add]
      congr 1
      exact List.map_congr_left fun x _ => by ring
    rw [e]
    refine list_sum_pos ?_ ⟨_, List.mem_map.2 ⟨w[i], List.getElem_mem hi, rfl⟩, ?_⟩
    · intro y hy
      obtain ⟨x, hx, rfl⟩ := List.mem_map.1 hy
      obtain ⟨j, hj, rfl⟩ := List.getElem_of_mem hx
      rw [hs j hj]
      have : (0 : ℝ) ≤ j * d := by positivity
      exact mul_nonneg (Nat.cast_nonneg _) (by linarith)
    · rw [hs i hi]
      have h1 : (0 : ℝ) < w[i].n := by exact_mod_cast hni
      have h2 : (0 : ℝ) < (i : ℝ) := by exact_mod_cast i0
      have : (0 : ℝ) < i * d := by positivity
      exact mul_pos h1 (by linarith)
  set T : ℝ := (w.map fun x => x.t).sum with hT
  have ht0 := ht _ (List.getElem_mem hl)
  have hTp : 0 < T := list_sum_pos (by intro y hy; obtain ⟨x, hx, rfl⟩ := List.mem_map.1 hy; exact (ht x hx).le) ⟨_, List.mem_map.2 ⟨w[0], List.getElem_mem hl, rfl⟩, ht0⟩
  -- bound of the mean excess
  have bound : ∀ β, 0 < β → moment w 1 β - a * moment w 0 β ≤ T / β * Real.exp (-β * a) := by
    intro β hβ
    have e : moment w 1 β - a * moment w 0 β = (w.map fun x => x.t * (x.m - a) * Real.exp (-β * x.m)).sum := by
      rw [moment, moment, sub_eq_add_neg, ← neg_mul, ← sum_map_mul, ← sum_map_add]
      congr 1
      exact List.map_congr_left fun x _ => by ring
    have e2 : T / β * Real.exp (-β * a) = (w.map fun x => (1 / β * Real.exp (-β * a)) * x.t).sum := by
      rw [sum_map_mul, hT]; ring
    rw [e, e2]
    refine List.sum_le_sum fun x hx => ?_
    have e3 : Real.exp (-β * x.m) = Real.exp (-β * a) * Real.exp (-(β * (x.m - a))) := by rw [← Real.exp_add]; congr 1; ring
    have h3 : (x.m - a) * Real.exp (-(β * (x.m - a))) ≤ 1 / β := by
      rw [Real.exp_neg, ← div_eq_mul_inv, div_le_div_iff₀ (Real.exp_pos _) hβ]
      have := Real.add_one_le_exp (β * (x.m - a))
      nlinarith
    rw [e3]
    have hx0 := ht x hx
    calc x.t * (x.m - a) * (Real.exp (-β * a) * Real.exp (-(β * (x.m - a)))) = (x.t * Real.exp (-β * a)) * ((x.m - a) * Real.exp (-(β * (x.m - a)))) := by ring
      _ ≤ (x.t * Real.exp (-β * a)) * (1 / β) := mul_le_mul_of_nonneg_left h3 (by positivity)
      _ = _ := by ring
  have low : ∀ β, w[0].t * Real.exp (-β * a) ≤ moment w 0 β := by
    intro β
    have hm := hs 0 hl
    simp only [Nat.cast_zero, zero_mul, add_zero] at hm
    rw [moment]
    have hmem : w[0].t * w[0].m ^ 0 * Real.exp (-β * w[0].m) ∈ w.map fun x => x.t * x.m ^ 0 * Real.exp (-β * x.m) := List.mem_map.2 ⟨w[0], List.getElem_mem hl, rfl⟩
    have := List.single_le_sum (l := w.map fun x => x.t * x.m ^ 0 * Real.exp (-β * x.m)) (by
      intro y hy
      obtain ⟨x, hx, rfl⟩ := List.mem_map.1 hy
      have := ht x hx
      positivity) _ hmem
    rwa [hm, pow_zero, mul_one] at this
  refine ⟨(T + T) * total w / (w[0].t * (magSum w - a * total w)), ?_⟩
  set E := magSum w - a * total w with hEdef
  set B := (T + T) * total w / (w[0].t * E) with hB
  have hBp : 0 < B := by positivity
  have h0 := moment0_pos ht hw B
  rw [dldb_real]
  have e : moment w 1 B / moment w 0 B * total w - magSum w = (moment w 1 B - a * moment w 0 B) / moment w 0 B * total w - E := by
    rw [hEdef]; field_simp; ring
  rw [e]
  have h1 : (moment w 1 B - a * moment w 0 B) / moment w 0 B ≤ T / B / w[0].t := by
    rw [div_le_div_iff₀ h0 ht0]
    have hb := bound B hBp
    have hlw := low B
    have hTB : 0 < T / B := by positivity
    calc (moment w 1 B - a * moment w 0 B) * w[0].t ≤ T / B * Real.exp (-B * a) * w[0].t := mul_le_mul_of_nonneg_right hb ht0.le
      _ = T / B * (w[0].t * Real.exp (-B * a)) := by ring
      _ ≤ T / B * moment w 0 B := mul_le_mul_of_nonneg_left hlw hTB.le
  have h2 : T / B / w[0].t * total w = E / 2 := by
    rw [hB]; field_simp; ring
  have h3 := mul_le_mul_of_nonneg_right h1 hN.le
  linarith

/-- Newton's method stops if its first step does not leave the region where the expected counts decrease with magnitude. -/
theorem newton_stops {w : List (WBin ℝ)} {a d l β0 ε : ℝ} (hs : Spaced w a d) (hd : 0 < d) (hg : Growth w l d) (ht : ∀ x ∈ w, 0 < x.t)
    (hn : ∃ i, ∃ h : i < w.length, 0 < i ∧ 0 < w[i].n) (h0 : l ≤ β0) (h1 : l ≤ newton w β0) (hε : 0 < ε) :
    ∃ k, |newton w ((newton w)^[k] β0) - (newton w)^[k] β0| ≤ ε := by
  obtain ⟨i, hi, i0, hni⟩ := id hn
  have hw : w ≠ [] := by rintro rfl; simp at hi
  have hd' : ∃ x ∈ w, ∃ y ∈ w, x.m ≠ y.m := by
    refine ⟨w[0], List.getElem_mem (by omega), w[i], List.getElem_mem hi, ?_⟩
    rw [hs 0 (by omega), hs i hi]
    have h2 : (0 : ℝ) < (i : ℝ) := by exact_mod_cast i0
    have : (0 : ℝ) < i * d := by positivity
    simp only [Nat.cast_zero, zero_mul, add_zero]
    linarith
  have hneg := d2_neg ht hd' ⟨w[i], List.getElem_mem hi, hni⟩
  have hanti := dldb_strictAnti ht hd' ⟨w[i], List.getElem_mem hi, hni⟩
  obtain ⟨B, hB⟩ := exists_dldb_neg hs hd ht hn
  by_contra hcon
  push Not at hcon
  -- a step from the region into the region ends where the equation is not negative
  have step : ∀ β, l ≤ β → l ≤ newton w β → 0 ≤ dldb w (newton w β) := by
    intro β hβ hβ'
    have := tangent_le hs hd.le hg ht hw hβ hβ'
    have e : dldb w β + d2ldb2 w β * (newton w β - β) = 0 := by
      have := (hneg β).ne
      rw [newton]; field_simp; ring
    linarith
  have up : ∀ β, 0 ≤ dldb w β → β ≤ newton w β := by
    intro β hβ
    have := div_nonpos_of_nonneg_of_nonpos hβ (hneg β).le
    rw [newton]; linarith
  have inv : ∀ k : ℕ, l ≤ (newton w)^[k + 1] β0 ∧ 0 ≤ dldb w ((newton w)^[k + 1] β0) ∧ newton w β0 + k * ε ≤ (newton w)^[k + 1] β0 := by
    intro k
    induction k with
    | zero => exact ⟨h1, step β0 h0 h1, by simp⟩
    | succ k ih =>
      obtain ⟨ha, hb, hc⟩ := ih
      have hu := up _ hb
      have hstep := hcon (k + 1)
      rw [abs_of_nonneg (by linarith)] at hstep
      rw [Function.iterate_succ_apply' (newton w) (k + 1) β0]
      refine ⟨ha.trans hu, step _ ha (ha.trans hu), ?_⟩
      push_cast
      linarith
  obtain ⟨k, hk⟩ := exists_nat_gt ((B - newton w β0) / ε)
  rw [div_lt_iff₀ hε] at hk
  obtain ⟨_, hb, hc⟩ := inv k
  have : B < (newton w)^[k + 1] β0 := by linarith
  have := hanti this
  linarith

end Verif.Recurrence
