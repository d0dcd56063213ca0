import Verif.Lemmas.Hastings
import Verif.Lemmas.Recurrence

/-! # Lemmas on the Kijko estimator in exact arithmetic -/

namespace Verif.MaxMag

open Verif Verif.Np

/-! ### `exp_spaced_points` -/

theorem expSpaced_eq {l u : ℝ} {n : ℕ} (hn : 2 ≤ n) :
    expSpaced l u (n : ℝ) = (List.range n).map fun i : ℕ => Real.log (Real.exp l + i * ((Real.exp u - Real.exp l) / (n - 1))) := by
  obtain ⟨m, rfl⟩ : ∃ m, n = m + 2 := ⟨n - 2, by omega⟩
  have hlen : arangeLen (0.0 : ℝ) (((m + 2 : ℕ) : ℝ) - 1.0) 1.0 = m + 1 := by
    have h1 : ∀ i, i < arangeLen (0.0 : ℝ) (((m + 2 : ℕ) : ℝ) - 1.0) 1.0 ↔ i < m + 1 := by
      intro i
      rw [lt_arangeLen (by norm_num)]
      push_cast
      rw [← Nat.cast_lt (α := ℝ)]
      push_cast
      norm_num
      constructor <;> intro h <;> linarith
    have h2 := h1 (m + 1)
    have h3 := h1 m
    omega
  unfold expSpaced
  simp only [hlen, arangeAt_real, exp_real]
  rw [show List.range (m + 2) = List.range (m + 1) ++ [m + 1] from List.range_succ, List.map_append, List.map_append, List.map_map]
  congr 1
  · refine List.map_congr_left fun i _ => ?_
    simp only [Function.comp, log_real]
    norm_num
  · simp only [List.map_cons, List.map_nil, log_real]
    push_cast
    have : (m : ℝ) + 2 - 1 ≠ 0 := by have : (0 : ℝ) ≤ m := Nat.cast_nonneg m; linarith
    congr 2
    field_simp
    ring

/-! ### The integral -/

theorem trapTail_bounds {f : ℝ → ℝ} (x : ℝ) (l : List ℝ) (acc prev : ℝ) (hs : (prev :: x :: l).Pairwise (· ≤ ·)) (hf : ∀ y ∈ x :: l, 0 ≤ f y ∧ f y ≤ 1) :
    acc ≤ trapTail f acc prev (x :: l) ∧ trapTail f acc prev (x :: l) ≤ acc + ((x :: l).getLast (by simp) - (x + prev) / 2) := by
  induction l generalizing x acc prev with
  | nil =>
    have h1 : prev ≤ x := by simpa using hs
    obtain ⟨f0, f1⟩ := hf x (by simp)
    simp only [trapTail, List.getLast_singleton]
    norm_num
    constructor
    · exact mul_nonneg (by positivity) (by linarith)
    · nlinarith
  | cons y l ih =>
    have h1 : prev ≤ x := (List.pairwise_cons.mp hs).1 x (by simp)
    have hs' := (List.pairwise_cons.mp hs).2
    have h2 : x ≤ y := (List.pairwise_cons.mp hs').1 y (by simp)
    obtain ⟨f0, f1⟩ := hf x (by simp)
    obtain ⟨a, b⟩ := ih y (acc + (0.5 * f x * (y - prev))) x hs' (fun z hz => hf z (by simp [hz]))
    rw [trapTail, List.getLast_cons (by simp)]
    have h3 : 0 ≤ 0.5 * f x * (y - prev) := mul_nonneg (by positivity) (by linarith)
    have h4 : 0.5 * f x * (y - prev) ≤ (y - prev) / 2 := by norm_num; nlinarith
    constructor
    · linarith
    · refine b.trans ?_
      linarith

/-- Non-decreasing sample points and a function between 0 and 1. -/
theorem intFunc_bounds {mval mag : List ℝ} {h n : ℝ} {d mmin mmax : ℝ} (hmin : npMin mval = .ok mmin) (hmax : npMax mval = .ok mmax) (hs : mval.Pairwise (· ≤ ·))
    (hf : ∀ y ∈ mval, 0 ≤ cdfFunc mag h n mmin mmax y ∧ cdfFunc mag h n mmin mmax y ≤ 1) (hd : intFunc mval mag h n = .ok d) :
    0 ≤ d ∧ d ≤ mmax - mmin := by
  unfold intFunc at hd
  simp only [hmin, hmax, bind, Except.bind] at hd
  match mval, hs, hf, hd with
  | x :: y :: l, hs, hf, hd =>
    simp only [pure, Except.pure, Except.ok.injEq] at hd
    subst hd
    have h2 : x ≤ y := (List.pairwise_cons.mp hs).1 y (by simp)
    obtain ⟨f0, f1⟩ := hf x (by simp)
    obtain ⟨a, b⟩ := trapTail_bounds y l (0.5 * cdfFunc mag h n mmin mmax x * (y - x)) x hs (fun z hz => hf z (by simp [hz]))
    have h3 : 0 ≤ 0.5 * cdfFunc mag h n mmin mmax x * (y - x) := mul_nonneg (by positivity) (by linarith)
    have h4 : 0.5 * cdfFunc mag h n mmin mmax x * (y - x) ≤ (y - x) / 2 := by norm_num; nlinarith
    refine ⟨h3.trans a, b.trans ?_⟩
    have h5 : mmin ≤ x := (npMin_ok hmin).2 (by simp)
    have h6 : x ≤ mmin := by
      have := (npMin_ok hmin).1
      rw [Set.mem_ofPred_eq] at this
      rcases List.mem_cons.mp this with h | h
      · exact h.ge
      · exact (List.pairwise_cons.mp hs).1 _ h
    have h7 : (y :: l).getLast (by simp) ≤ mmax := (npMax_ok hmax).2 (List.mem_cons_of_mem _ (List.getLast_mem (by simp)))
    linarith
  | [], _, _, hd => simp [npMin] at hmin
  | [x], _, _, hd => simp [throw, throwThe, MonadExceptOf.throw] at hd

theorem cdfFunc_real (mag : List ℝ) (h n mmin mmax m : ℝ) : cdfFunc mag h n mmin mmax m =
    ((mag.map fun g => H ((m - g) / h) - H ((mmin - g) / h)).sum / (mag.map fun g => H ((mmax - g) / h) - H ((mmin - g) / h)).sum) ^ n := by
  simp only [cdfFunc, npSum_real, gaussCdf_real, rpow_real]
  norm_num

/-- With all events at most five smoothing factors above the lower end, the sampled function lies between 0 and 1. -/
theorem cdfFunc_mem {mag : List ℝ} {h n mmin mmax m : ℝ} (hh : 0 < h) (hn : 0 ≤ n) (htail : ∀ g ∈ mag, g - mmin ≤ 5 * h) (h1 : mmin ≤ m) (h2 : m ≤ mmax) :
    0 ≤ cdfFunc mag h n mmin mmax m ∧ cdfFunc mag h n mmin mmax m ≤ 1 := by
  rw [cdfFunc_real]
  have hl : ∀ g ∈ mag, -5 ≤ (mmin - g) / h := by
    intro g hg
    rw [le_div_iff₀ hh]
    linarith [htail g hg]
  have ha : ∀ g ∈ mag, 0 ≤ H ((m - g) / h) - H ((mmin - g) / h) := by
    intro g hg
    have hle : (mmin - g) / h ≤ (m - g) / h := by gcongr
    have := H_mono (hl g hg) ((hl g hg).trans hle) hle
    linarith
  have hb : ∀ g ∈ mag, H ((m - g) / h) - H ((mmin - g) / h) ≤ H ((mmax - g) / h) - H ((mmin - g) / h) := by
    intro g hg
    have hle : (mmin - g) / h ≤ (m - g) / h := by gcongr
    have hle2 : (m - g) / h ≤ (mmax - g) / h := by gcongr
    have := H_mono ((hl g hg).trans hle) (((hl g hg).trans hle).trans hle2) hle2
    linarith
  have hA : 0 ≤ (mag.map fun g => H ((m - g) / h) - H ((mmin - g) / h)).sum := by
    refine List.sum_nonneg fun x hx => ?_
    obtain ⟨g, hg, rfl⟩ := List.mem_map.mp hx
    exact ha g hg
  have hB : (mag.map fun g => H ((m - g) / h) - H ((mmin - g) / h)).sum ≤ (mag.map fun g => H ((mmax - g) / h) - H ((mmin - g) / h)).sum :=
    List.sum_le_sum hb
  have hq0 : 0 ≤ (mag.map fun g => H ((m - g) / h) - H ((mmin - g) / h)).sum / (mag.map fun g => H ((mmax - g) / h) - H ((mmin - g) / h)).sum :=
    div_nonneg hA (hA.trans hB)
  have hq1 : (mag.map fun g => H ((m - g) / h) - H ((mmin - g) / h)).sum / (mag.map fun g => H ((mmax - g) / h) - H ((mmin - g) / h)).sum ≤ 1 :=
    div_le_one_of_le₀ hB (hA.trans hB)
  exact ⟨Real.rpow_nonneg hq0 n, Real.rpow_le_one hq0 hq1 hn⟩

/-! ### Sorting -/

theorem insertSorted_perm {F : Type} [PyMath F] (x : F) (l : List F) : (insertSorted x l).Perm (x :: l) := by
  induction l with
  | nil => exact List.Perm.refl _
  | cons y l ih =>
    simp only [insertSorted]
    split_ifs
    · exact List.Perm.refl _
    · exact (List.Perm.cons y ih).trans (List.Perm.swap x y l)

theorem npSort_perm {F : Type} [PyMath F] (l : List F) : (npSort l).Perm l := by
  induction l with
  | nil => exact List.Perm.refl _
  | cons x l ih => exact (insertSorted_perm x _).trans (List.Perm.cons x ih)

theorem insertSorted_sorted (x : ℝ) (l : List ℝ) (h : l.Pairwise (· ≤ ·)) : (insertSorted x l).Pairwise (· ≤ ·) := by
  induction l with
  | nil => simp [insertSorted]
  | cons y l ih =>
    simp only [insertSorted]
    obtain ⟨h1, h2⟩ := List.pairwise_cons.mp h
    split_ifs with hxy
    · refine List.pairwise_cons.mpr ⟨fun z hz => ?_, h⟩
      rcases List.mem_cons.mp hz with rfl | hz
      · exact hxy
      · exact hxy.trans (h1 z hz)
    · refine List.pairwise_cons.mpr ⟨fun z hz => ?_, ih h2⟩
      rcases List.mem_cons.mp ((insertSorted_perm x l).subset hz) with rfl | hz
      · exact (not_le.mp hxy).le
      · exact h1 z hz

theorem npSort_sorted (l : List ℝ) : (npSort l).Pairwise (· ≤ ·) := by
  induction l with
  | nil => simp [npSort]
  | cons x l ih => exact insertSorted_sorted x _ ih

theorem npSort_of_sorted {l : List ℝ} (h : l.Pairwise (· ≤ ·)) : npSort l = l :=
  (npSort_perm l).eq_of_pairwise (fun _ _ _ _ => le_antisymm) (npSort_sorted l) h

theorem argmaxGo_lt {F : Type} [PyMath F] (l : List F) (best : F) (bi i : ℕ) (h : bi < i) : argmaxGo best bi i l < i + l.length := by
  induction l generalizing best bi i with
  | nil => simpa [argmaxGo] using h
  | cons x l ih =>
    simp only [argmaxGo, List.length_cons]
    split_ifs
    · have := ih x i (i + 1) (by omega); omega
    · have := ih best bi (i + 1) (by omega); omega

theorem argmax_lt {F : Type} [PyMath F] {l : List F} (h : l ≠ []) : argmax l < l.length := by
  match l, h with
  | x :: l, _ =>
    have := argmaxGo_lt l x 0 1 (by omega)
    simp only [argmax, List.length_cons]
    omega

/-- `argmax` points to a largest element. -/
theorem argmaxGo_spec (l : List ℝ) (best : ℝ) (bi i : ℕ) :
    (argmaxGo best bi i l = bi ∧ ∀ y ∈ l, y ≤ best) ∨ ∃ k, ∃ hk : k < l.length, argmaxGo best bi i l = i + k ∧ best < l[k] ∧ ∀ y ∈ l, y ≤ l[k] := by
  induction l generalizing best bi i with
  | nil => left; simp [argmaxGo]
  | cons x l ih =>
    simp only [argmaxGo]
    split_ifs with hx
    · right
      rcases ih x i (i + 1) with ⟨h1, h2⟩ | ⟨k, hk, h1, h2, h3⟩
      · exact ⟨0, by simp, by simpa using h1, hx, fun y hy => by rcases List.mem_cons.mp hy with rfl | hy <;> [exact le_rfl; exact h2 y hy]⟩
      · refine ⟨k + 1, by simpa using hk, by rw [h1]; ring, hx.trans h2, fun y hy => ?_⟩
        rcases List.mem_cons.mp hy with rfl | hy
        · exact h2.le
        · exact h3 y hy
    · rcases ih best bi (i + 1) with ⟨h1, h2⟩ | ⟨k, hk, h1, h2, h3⟩
      · left
        exact ⟨h1, fun y hy => by rcases List.mem_cons.mp hy with rfl | hy <;> [exact not_lt.mp hx; exact h2 y hy]⟩
      · right
        refine ⟨k + 1, by simpa using hk, by rw [h1]; ring, h2, fun y hy => ?_⟩
        rcases List.mem_cons.mp hy with rfl | hy
        · exact (not_lt.mp hx).trans h2.le
        · exact h3 y hy

theorem argmax_spec {l : List ℝ} (h : l ≠ []) : ∃ hk : argmax l < l.length, ∀ y ∈ l, y ≤ l[argmax l] := by
  refine ⟨argmax_lt h, ?_⟩
  match l, h with
  | x :: l, _ =>
    rcases argmaxGo_spec l x 0 1 with ⟨h1, h2⟩ | ⟨k, hk, h1, h2, h3⟩
    · intro y hy
      simp only [argmax, h1, List.getElem_cons_zero]
      rcases List.mem_cons.mp hy with rfl | hy <;> [exact le_rfl; exact h2 y hy]
    · intro y hy
      have h4 : argmax (x :: l) = k + 1 := by simp only [argmax, h1]; ring
      simp only [h4, List.getElem_cons_succ]
      rcases List.mem_cons.mp hy with rfl | hy <;> [exact h2.le; exact h3 y hy]

end Verif.MaxMag
