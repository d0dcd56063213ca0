import Verif.Props.CumulativeMoment

/-! # C124: the cumulative moment estimate and the largest earthquake -/

namespace Verif.MaxMag

open Verif Verif.Np Verif.Recurrence

/-- Mean moment per year, from the year of the first event to that of the last. -/
def Spec.IsMeanMoment (cat : List (ℤ × ℝ)) (a : ℝ) : Prop :=
  ∃ y0 y1 : ℤ, IsLeast {y | y ∈ cat.map Prod.fst} y0 ∧ IsGreatest {y | y ∈ cat.map Prod.fst} y1 ∧ a = Spec.total cat / ((y1 : ℝ) - y0 + 1)

theorem moment_pos (m : ℝ) : 0 < Spec.moment m := by unfold Spec.moment; positivity

theorem yearly_nonneg (cat : List (ℤ × ℝ)) (t : ℤ) : 0 ≤ Spec.yearly cat t := by
  refine list_sum_nonneg fun x hx => ?_
  obtain ⟨e, -, rfl⟩ := List.mem_map.mp hx
  exact (moment_pos _).le

theorem total_nonneg (cat : List (ℤ × ℝ)) : 0 ≤ Spec.total cat := by
  refine list_sum_nonneg fun x hx => ?_
  obtain ⟨e, -, rfl⟩ := List.mem_map.mp hx
  exact (moment_pos _).le

/-- The excess lies between the largest yearly moment above the mean and the total without one mean year. -/
theorem excess_bounds {cat : List (ℤ × ℝ)} (hne : cat ≠ []) : ∃ a d, Spec.IsMeanMoment cat a ∧ moDiff (events cat) = .ok d ∧
    (∀ y, Spec.yearly cat y - a ≤ d) ∧ d ≤ Spec.total cat - a := by
  obtain ⟨y0, y1, mr, d, hi, lo, h0, h1, -, -, -, hd, hG, hL, rfl, hd0⟩ := C72_moment_accounting hne
  have hle : y0 ≤ y1 := h1.2 h0.1
  set n := (y1 - y0 + 1).toNat with hn
  have hn1 : 1 ≤ n := by omega
  have hnr : (n : ℝ) = (y1 : ℝ) - y0 + 1 := by
    have : (n : ℤ) = y1 - y0 + 1 := by omega
    exact_mod_cast congrArg (Int.cast : ℤ → ℝ) this
  have hnpos : (0 : ℝ) < n := by exact_mod_cast hn1
  have hT := total_nonneg cat
  have ha : 0 ≤ Spec.total cat / n := by positivity
  have hall : ∑ i ∈ Finset.range n, Spec.yearly cat (y0 + i) = Spec.total cat :=
    sum_yearly (fun e he => h0.2 (List.mem_map_of_mem he)) (fun e he => h1.2 (List.mem_map_of_mem he))
  have hend : Spec.deviation cat y0 n n = 0 := by
    rw [Spec.deviation, hall]; field_simp; ring
  have hsucc : ∀ k, Spec.deviation cat y0 n (k + 1) = Spec.deviation cat y0 n k + Spec.yearly cat (y0 + k) - Spec.total cat / n := by
    intro k
    simp only [Spec.deviation, Finset.sum_range_succ]
    push_cast
    ring
  refine ⟨Spec.total cat / n, _, ⟨y0, y1, h0, h1, by rw [hnr]⟩, hd, fun y => ?_, ?_⟩
  · by_cases hy : y0 ≤ y ∧ y ≤ y1
    · obtain ⟨k, rfl⟩ : ∃ k : ℕ, y = y0 + k := ⟨(y - y0).toNat, by omega⟩
      have hk : k < n := by omega
      have e1 := hG.2 ⟨k + 1, by omega, by omega, rfl⟩
      rw [hsucc] at e1
      rcases Nat.eq_zero_or_pos k with rfl | hk0
      · have e2 := hL.2 ⟨n, hn1, le_rfl, rfl⟩
        rw [hend] at e2
        have : Spec.deviation cat y0 n 0 = 0 := by simp [Spec.deviation]
        linarith
      · have e2 := hL.2 ⟨k, hk0, hk.le, rfl⟩
        linarith
    · have : Spec.yearly cat y = 0 := by
        rw [Spec.yearly, List.filter_eq_nil_iff.mpr]
        · rfl
        · intro e he
          have a1 := h0.2 (List.mem_map_of_mem he)
          have a2 := h1.2 (List.mem_map_of_mem he)
          simp only [decide_eq_true_eq]
          rintro rfl
          exact hy ⟨a1, a2⟩
      linarith
  · obtain ⟨k, hk1, hk2, rfl⟩ := hG.1
    obtain ⟨j, hj1, hj2, rfl⟩ := hL.1
    have hmono : ∀ i j : ℕ, i ≤ j → j ≤ n → 0 ≤ ∑ i ∈ Finset.range j, Spec.yearly cat (y0 + i) - ∑ l ∈ Finset.range i, Spec.yearly cat (y0 + l) ∧
        ∑ i ∈ Finset.range j, Spec.yearly cat (y0 + i) - ∑ l ∈ Finset.range i, Spec.yearly cat (y0 + l) ≤ Spec.total cat := by
      intro i j hij hjn
      have m := fun {a b : ℕ} (h : a ≤ b) => Finset.sum_le_sum_of_subset_of_nonneg (Finset.range_mono h)
        (fun l _ _ => yearly_nonneg cat (y0 + (l : ℤ)))
      have m1 := m hij
      have m2 := m hjn
      have m3 : 0 ≤ ∑ l ∈ Finset.range i, Spec.yearly cat (y0 + l) := Finset.sum_nonneg fun l _ => yearly_nonneg cat _
      rw [hall] at m2
      constructor <;> linarith
    have hTa : Spec.total cat = n * (Spec.total cat / n) := by field_simp
    simp only [Spec.deviation]
    rcases lt_trichotomy j k with h | h | h
    · have := (hmono j k h.le hk2).2
      have hjk : (j : ℝ) + 1 ≤ k := by exact_mod_cast h
      nlinarith
    · subst h
      have : (1 : ℝ) ≤ n := by exact_mod_cast hn1
      nlinarith
    · have := (hmono k j h.le hj2).1
      have hjk : (j : ℝ) - k ≤ n - 1 := by
        have : (j : ℝ) ≤ n := by exact_mod_cast hj2
        have : (1 : ℝ) ≤ k := by exact_mod_cast hk1
        linarith
      nlinarith

theorem mean_unique {cat : List (ℤ × ℝ)} {a a' : ℝ} (h : Spec.IsMeanMoment cat a) (h' : Spec.IsMeanMoment cat a') : a = a' := by
  obtain ⟨y0, y1, h0, h1, rfl⟩ := h
  obtain ⟨z0, z1, g0, g1, rfl⟩ := h'
  rw [h0.unique g0, h1.unique g1]

/-- **C124, part that holds**: if the yearly moments are not all the same, the moment of the estimated magnitude is at least the moment of every year
minus the mean, and at most the total moment minus the mean.  So the estimate is not below an earthquake whose year released its moment and the mean
moment on top.  Missing: the other earthquakes, see `C124_fails`. -/
theorem C124_bounds_partial {cat : List (ℤ × ℝ)} {a m : ℝ} (ha : Spec.IsMeanMoment cat a) (hy : ∃ y, a < Spec.yearly cat y)
    (h : cumulativeMoment (events cat) = .ok m) :
    (∀ y, Spec.yearly cat y - a ≤ Spec.moment m) ∧ Spec.moment m ≤ Spec.total cat - a ∧
      ∀ e ∈ cat, Spec.moment e.2 + a ≤ Spec.yearly cat e.1 → e.2 ≤ m := by
  have hne : cat ≠ [] := by
    rintro rfl
    obtain ⟨y0, y1, h0, -⟩ := ha
    exact absurd h0.1 (by simp)
  obtain ⟨a', d, ha', hd, hlow, hup⟩ := excess_bounds hne
  obtain rfl := mean_unique ha ha'
  obtain ⟨y, hy⟩ := hy
  have hd0 : 0 < d := by linarith [hlow y]
  have hm : Spec.moment m = d := by
    simp only [cumulativeMoment, hd, bind, Except.bind, pure, Except.pure, Except.ok.injEq, log10_real] at h
    rw [Spec.moment, ← h, show (9.05 : ℝ) + 1.5 * (2.0 / 3.0 * (Real.logb 10 d - 9.05)) = Real.logb 10 d by norm_num; ring, Real.rpow_logb (by norm_num) (by norm_num) hd0]
  rw [hm]
  refine ⟨hlow, hup, fun e _ h' => ?_⟩
  have h1 : Spec.moment e.2 ≤ Spec.moment m := by rw [hm]; linarith [hlow e.1]
  rw [Spec.moment, Spec.moment, Real.rpow_le_rpow_left_iff (by norm_num)] at h1
  norm_num at h1
  linarith

/-- Two years, one with a magnitude 6 event, the other with a magnitude 5 one. -/
noncomputable def cat124 : List (ℤ × ℝ) := [(2000, 6), (2001, 5)]

theorem mean124 : Spec.IsMeanMoment cat124 ((Spec.moment 6 + Spec.moment 5) / 2) := by
  refine ⟨2000, 2001, by constructor <;> simp [cat124, lowerBounds], by constructor <;> simp [cat124, upperBounds], ?_⟩
  simp only [Spec.total, cat124, List.map_cons, List.map_nil, List.sum_cons, List.sum_nil]
  norm_num

theorem moment56 : Spec.moment 5 < Spec.moment 6 := by
  rw [Spec.moment, Spec.moment, Real.rpow_lt_rpow_left_iff (by norm_num)]
  norm_num

theorem yearly124 : Spec.yearly cat124 2000 = Spec.moment 6 := by
  simp [Spec.yearly, cat124]

/-- **C124 is false**: the estimate for a year with a magnitude 6 event followed by one with a magnitude 5 event is less than 6. -/
theorem C124_fails : ¬ ∀ (cat : List (ℤ × ℝ)) (a m : ℝ), Spec.IsMeanMoment cat a → (∃ y, a < Spec.yearly cat y) →
    cumulativeMoment (events cat) = .ok m → ∀ e ∈ cat, e.2 ≤ m := by
  intro H
  obtain ⟨a, d, -, hd, -⟩ := excess_bounds (cat := cat124) (by simp [cat124])
  have h : cumulativeMoment (events cat124) = .ok ((2.0 / 3.0) * (Real.logb 10 d - 9.05)) := by
    simp only [cumulativeMoment, hd, bind, Except.bind, pure, Except.pure, log10_real]
  have hy : ∃ y, (Spec.moment 6 + Spec.moment 5) / 2 < Spec.yearly cat124 y := ⟨2000, by rw [yearly124]; linarith [moment56]⟩
  have h6 := H cat124 _ _ mean124 hy h (2000, 6) (by simp [cat124])
  obtain ⟨-, hup, -⟩ := C124_bounds_partial mean124 hy h
  have ht : Spec.total cat124 = Spec.moment 6 + Spec.moment 5 := by simp [Spec.total, cat124]
  have h7 : Spec.moment 6 ≤ Spec.moment ((2.0 / 3.0) * (Real.logb 10 d - 9.05)) := by
    rw [Spec.moment, Spec.moment, Real.rpow_le_rpow_left_iff (by norm_num)]
    simp only at h6
    norm_num at h6 ⊢
    linarith
  rw [ht] at hup
  linarith [moment56]

/-- The hypotheses of the theorem and of its last part: two magnitude 6 events in 2000 and a magnitude 5 one in 2010. -/
example : ∃ a m, Spec.IsMeanMoment [(2000, 6), (2000, 6), (2010, 5)] a ∧ (∃ y, a < Spec.yearly [(2000, 6), (2000, 6), (2010, 5)] y) ∧
    cumulativeMoment (events [(2000, 6), (2000, 6), (2010, 5)]) = .ok m ∧ Spec.moment 6 + a ≤ Spec.yearly [(2000, 6), (2000, 6), (2010, 5)] 2000 := by
  obtain ⟨-, d, -, hd, -⟩ := excess_bounds (cat := [(2000, 6), (2000, 6), (2010, 5)]) (by simp)
  have hy : Spec.yearly [(2000, 6), (2000, 6), (2010, 5)] 2000 = Spec.moment 6 + Spec.moment 6 := by
    simp [Spec.yearly]
  have h5 := moment_pos 5
  refine ⟨(Spec.moment 6 + Spec.moment 6 + Spec.moment 5) / 11, (2.0 / 3.0) * (Real.logb 10 d - 9.05), ⟨2000, 2010, ?_, ?_, ?_⟩, ⟨2000, ?_⟩, ?_, ?_⟩
  · constructor <;> simp [lowerBounds]
  · constructor <;> simp [upperBounds]
  · simp only [Spec.total, List.map_cons, List.map_nil, List.sum_cons, List.sum_nil]
    norm_num
    ring
  · rw [hy]; linarith [moment56]
  · simp only [cumulativeMoment, hd, bind, Except.bind, pure, Except.pure, log10_real]
  · rw [hy]; linarith [moment56]

end Verif.MaxMag
