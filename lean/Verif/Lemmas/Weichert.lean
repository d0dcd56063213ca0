import Verif.Lemmas.Recurrence

/-! # Weichert: the likelihood and its derivatives -/

namespace Verif.Recurrence

open Verif Verif.Np

/-- `Σ t m^k exp(-β m)`. -/
noncomputable def moment (w : List (WBin ℝ)) (k : ℕ) (β : ℝ) : ℝ := (w.map fun x => x.t * x.m ^ k * Real.exp (-β * x.m)).sum

/-- Number of events. -/
noncomputable def total (w : List (WBin ℝ)) : ℝ := (w.map fun x => (x.n : ℝ)).sum

/-- Sum of magnitudes. -/
noncomputable def magSum (w : List (WBin ℝ)) : ℝ := (w.map fun x => (x.n : ℝ) * x.m).sum

theorem wSums_real (w : List (WBin ℝ)) (β : ℝ) :
    (wSums w β).snm = magSum w ∧ (wSums w β).nkount = total w ∧ (wSums w β).sumtex = moment w 0 β ∧
      (wSums w β).stmex = moment w 1 β ∧ (wSums w β).stm2x = moment w 2 β := by
  simp only [wSums, npSum_real, magSum, total, moment, exp_real, pow_zero, mul_one, pow_one, true_and]
  refine ⟨?_, ?_⟩
  · congr 1
    refine List.map_congr_left fun x _ => by ring
  · congr 1
    refine List.map_congr_left fun x _ => by ring

theorem dldb_real (w : List (WBin ℝ)) (β : ℝ) : dldb w β = moment w 1 β / moment w 0 β * total w - magSum w := by
  obtain ⟨h1, h2, h3, h4, h5⟩ := wSums_real w β
  simp only [dldb, h1, h2, h3, h4]

theorem d2ldb2_real (w : List (WBin ℝ)) (β : ℝ) :
    d2ldb2 w β = total w * ((moment w 1 β / moment w 0 β) * (moment w 1 β / moment w 0 β) - moment w 2 β / moment w 0 β) := by
  obtain ⟨h1, h2, h3, h4, h5⟩ := wSums_real w β
  simp only [d2ldb2, h2, h3, h4, h5]

theorem moment_deriv (w : List (WBin ℝ)) (k : ℕ) (β : ℝ) : HasDerivAt (moment w k) (-moment w (k + 1) β) β := by
  induction w with
  | nil =>
    have h : moment [] k = fun _ => 0 := by funext b; simp [moment]
    rw [h]
    refine (hasDerivAt_const β (0 : ℝ)).congr_deriv ?_
    simp [moment]
  | cons x w ih =>
    have hx : HasDerivAt (fun β : ℝ => x.t * x.m ^ k * Real.exp (-β * x.m)) (x.t * x.m ^ k * (Real.exp (-β * x.m) * (-1 * x.m))) β := by
      have h1 : HasDerivAt (fun β : ℝ => -β * x.m) (-1 * x.m) β := ((hasDerivAt_id β).neg).mul_const x.m
      exact (h1.exp).const_mul _
    have := hx.add ih
    refine (this.congr_deriv ?_).congr_of_eventuallyEq ?_
    · simp only [moment, List.map_cons, List.sum_cons]; ring
    · refine Filter.Eventually.of_forall fun b => ?_
      simp only [moment, List.map_cons, List.sum_cons, Pi.add_apply]

theorem moment0_pos {w : List (WBin ℝ)} (ht : ∀ x ∈ w, 0 < x.t) (hw : w ≠ []) (β : ℝ) : 0 < moment w 0 β := by
  refine list_sum_pos ?_ ?_
  · intro y hy
    simp only [List.mem_map] at hy
    obtain ⟨x, hx, rfl⟩ := hy
    have := ht x hx
    positivity
  · obtain ⟨x, hx⟩ := List.exists_mem_of_ne_nil w hw
    refine ⟨_, List.mem_map.mpr ⟨x, hx, rfl⟩, ?_⟩
    have := ht x hx
    positivity

/-- Strict Cauchy-Schwarz: the variance of the magnitudes is positive. -/
theorem moment_cs {w : List (WBin ℝ)} (ht : ∀ x ∈ w, 0 < x.t) (hd : ∃ x ∈ w, ∃ y ∈ w, x.m ≠ y.m) (β : ℝ) :
    moment w 1 β * moment w 1 β < moment w 2 β * moment w 0 β := by
  obtain ⟨x, hx, y, hy, hne⟩ := hd
  have h0 := moment0_pos ht (List.ne_nil_of_mem hx) β
  set μ := moment w 1 β / moment w 0 β with hμ
  have hvar : 0 < (w.map fun x => x.t * Real.exp (-β * x.m) * (x.m - μ) ^ 2).sum := by
    refine list_sum_pos ?_ ?_
    · intro z hz
      simp only [List.mem_map] at hz
      obtain ⟨x, hx, rfl⟩ := hz
      have := ht x hx
      positivity
    · by_cases h : x.m = μ
      · have hy' : y.m - μ ≠ 0 := by
          intro hz
          apply hne
          linarith
        refine ⟨_, List.mem_map.mpr ⟨y, hy, rfl⟩, ?_⟩
        have := ht y hy
        have := sq_pos_of_ne_zero hy'
        positivity
      · have hx' : x.m - μ ≠ 0 := sub_ne_zero.mpr h
        refine ⟨_, List.mem_map.mpr ⟨x, hx, rfl⟩, ?_⟩
        have := ht x hx
        have := sq_pos_of_ne_zero hx'
        positivity
  have hexp : (w.map fun x => x.t * Real.exp (-β * x.m) * (x.m - μ) ^ 2).sum =
      moment w 2 β + ((-2 * μ) * moment w 1 β + μ ^ 2 * moment w 0 β) := by
    rw [moment, moment, moment, ← sum_map_mul, ← sum_map_mul, ← sum_map_add, ← sum_map_add]
    congr 1
    refine List.map_congr_left fun x _ => by ring
  rw [hexp] at hvar
  have h1 : moment w 1 β = μ * moment w 0 β := by rw [hμ]; field_simp
  rw [h1] at hvar ⊢
  nlinarith

theorem total_pos {w : List (WBin ℝ)} (hn : ∃ x ∈ w, 0 < x.n) : 0 < total w := by
  obtain ⟨x, hx, hp⟩ := hn
  refine list_sum_pos ?_ ⟨_, List.mem_map.mpr ⟨x, hx, rfl⟩, by exact_mod_cast hp⟩
  intro y hy
  simp only [List.mem_map] at hy
  obtain ⟨z, _, rfl⟩ := hy
  exact Nat.cast_nonneg _

theorem d2_neg {w : List (WBin ℝ)} (ht : ∀ x ∈ w, 0 < x.t) (hd : ∃ x ∈ w, ∃ y ∈ w, x.m ≠ y.m) (hn : ∃ x ∈ w, 0 < x.n) (β : ℝ) :
    d2ldb2 w β < 0 := by
  have h0 : 0 < moment w 0 β := by
    obtain ⟨x, hx, _⟩ := hd
    exact moment0_pos ht (List.ne_nil_of_mem hx) β
  have hcs := moment_cs ht hd β
  have hN := total_pos hn
  rw [d2ldb2_real]
  refine mul_neg_of_pos_of_neg hN ?_
  rw [div_mul_div_comm, sub_neg, div_lt_div_iff₀ (by positivity) h0]
  nlinarith

theorem dldb_deriv {w : List (WBin ℝ)} (ht : ∀ x ∈ w, 0 < x.t) (hw : w ≠ []) (β : ℝ) : HasDerivAt (dldb w) (d2ldb2 w β) β := by
  have h0 := moment0_pos ht hw β
  have h := ((moment_deriv w 1 β).div (moment_deriv w 0 β) h0.ne').mul_const (total w) |>.sub_const (magSum w)
  refine (h.congr_deriv ?_).congr_of_eventuallyEq ?_
  · rw [d2ldb2_real]
    field_simp
    ring
  · exact Filter.Eventually.of_forall fun b => by simp only [dldb_real, Pi.div_apply]

/-- The bins as triples. -/
def triples (w : List (WBin ℝ)) : List (ℝ × ℝ × ℕ) := w.map fun x => (x.t, x.m, x.n)

theorem logLik_eq (w : List (WBin ℝ)) (β : ℝ) : Spec.logLik (triples w) β = -β * magSum w - total w * Real.log (moment w 0 β) := by
  simp only [Spec.logLik, triples, List.map_map, magSum, total, moment, pow_zero, mul_one]
  rfl

theorem logLik_deriv {w : List (WBin ℝ)} (ht : ∀ x ∈ w, 0 < x.t) (hw : w ≠ []) (β : ℝ) :
    HasDerivAt (Spec.logLik (triples w)) (dldb w β) β := by
  have h0 := moment0_pos ht hw β
  have h := (((hasDerivAt_id β).neg).mul_const (magSum w)).sub (((moment_deriv w 0 β).log h0.ne').const_mul (total w))
  refine (h.congr_deriv ?_).congr_of_eventuallyEq ?_
  · rw [dldb_real]
    field_simp
    ring
  · exact Filter.Eventually.of_forall fun b => by simp only [logLik_eq, Pi.sub_apply]; rfl

theorem dldb_strictAnti {w : List (WBin ℝ)} (ht : ∀ x ∈ w, 0 < x.t) (hd : ∃ x ∈ w, ∃ y ∈ w, x.m ≠ y.m) (hn : ∃ x ∈ w, 0 < x.n) :
    StrictAnti (dldb w) := by
  have hw : w ≠ [] := by obtain ⟨x, hx, _⟩ := hd; exact List.ne_nil_of_mem hx
  refine strictAnti_of_deriv_neg fun β => ?_
  rw [(dldb_deriv ht hw β).deriv]
  exact d2_neg ht hd hn β

/-! ### The loop -/

theorem weichertLoop_some {F : Type} [PyMath F] {w : List (WBin F)} {m0 dM mrate itstab : F} {fuel : ℕ} {beta : F} {r : GR F}
    (h : weichertLoop w m0 dM mrate itstab fuel beta = some r) :
    ∃ k < fuel, npAbs (newton w ((newton w)^[k] beta) - (newton w)^[k] beta) ≤ itstab ∧
      (∀ j < k, ¬ npAbs (newton w ((newton w)^[j] beta) - (newton w)^[j] beta) ≤ itstab) ∧
      r = wResult w m0 dM mrate ((newton w)^[k] beta) := by
  induction fuel generalizing beta with
  | zero => simp [weichertLoop] at h
  | succ fuel ih =>
    simp only [weichertLoop] at h
    split_ifs at h with hc
    · refine ⟨0, by omega, hc, by simp, ?_⟩
      exact (Option.some.inj h).symm
    · obtain ⟨k, hk, h1, h2, h3⟩ := ih h
      refine ⟨k + 1, by omega, h1, ?_, h3⟩
      intro j hj
      rcases j with _ | j
      · exact hc
      · exact h2 j (by omega)

theorem weichertLoop_none {F : Type} [PyMath F] {w : List (WBin F)} {m0 dM mrate itstab : F} {fuel : ℕ} {beta : F}
    (h : ∀ k, ¬ npAbs (newton w ((newton w)^[k] beta) - (newton w)^[k] beta) ≤ itstab) :
    weichertLoop w m0 dM mrate itstab fuel beta = none := by
  cases hr : weichertLoop w m0 dM mrate itstab fuel beta with
  | none => rfl
  | some r =>
    obtain ⟨k, _, h1, _⟩ := weichertLoop_some hr
    exact absurd h1 (h k)

theorem weichertLoop_returns {F : Type} [PyMath F] {w : List (WBin F)} {m0 dM mrate itstab : F} {beta : F} {k : ℕ}
    (h : npAbs (newton w ((newton w)^[k] beta) - (newton w)^[k] beta) ≤ itstab) :
    ∃ r, weichertLoop w m0 dM mrate itstab (k + 1) beta = some r := by
  induction k generalizing beta with
  | zero =>
    have h' : npAbs (newton w beta - beta) ≤ itstab := h
    exact ⟨_, by simp only [weichertLoop]; rw [if_pos h']⟩
  | succ k ih =>
    rw [weichertLoop]
    split_ifs with hc
    · exact ⟨_, rfl⟩
    · exact ih h

end Verif.Recurrence
