import Verif.Props.KijkoExamples
import Verif.Props.RecurrenceWeichert

/-! # C72, C73, C74 and the maximum magnitude part of C33 -/

namespace Verif.MaxMag

open Verif Verif.Np Verif.Recurrence

/-! ### Specification -/

/-- Seismic moment of an event of magnitude `m`. -/
noncomputable def Spec.moment (m : ℝ) : ℝ := 10 ^ (9.05 + 1.5 * m)

/-- Moment released in year `t`; a catalogue with integer years. -/
noncomputable def Spec.yearly (cat : List (ℤ × ℝ)) (t : ℤ) : ℝ := ((cat.filter fun e => e.1 = t).map fun e => Spec.moment e.2).sum

/-- Total moment. -/
noncomputable def Spec.total (cat : List (ℤ × ℝ)) : ℝ := (cat.map fun e => Spec.moment e.2).sum

/-- Deviation of the moment released in the first `k` of `n` years from the mean trend. -/
noncomputable def Spec.deviation (cat : List (ℤ × ℝ)) (y0 : ℤ) (n k : ℕ) : ℝ :=
  ∑ i ∈ Finset.range k, Spec.yearly cat (y0 + i) - k * (Spec.total cat / n)

/-- The catalogue as given to the program. -/
def events (cat : List (ℤ × ℝ)) : List (ℝ × ℝ) := cat.map fun e => ((e.1 : ℝ), e.2)

/-! ### Cumulative sums -/

theorem cumsumGo_length (l : List ℝ) (a : ℝ) : (cumsumGo a l).length = l.length := by
  induction l generalizing a with
  | nil => rfl
  | cons x l ih => simp [cumsumGo, ih]

theorem cumsumGo_get (l : List ℝ) (a : ℝ) (i : ℕ) (h : i < (cumsumGo a l).length) : (cumsumGo a l)[i] = a + (l.take (i + 1)).sum := by
  induction l generalizing a i with
  | nil => simp [cumsumGo] at h
  | cons x l ih =>
    cases i with
    | zero => simp [cumsumGo]
    | succ i =>
      simp only [cumsumGo, List.getElem_cons_succ, List.take_succ_cons, List.sum_cons]
      rw [ih]
      ring

theorem cumsum_length (l : List ℝ) : (cumsum l).length = l.length := cumsumGo_length l 0

theorem cumsum_get (l : List ℝ) (i : ℕ) (h : i < (cumsum l).length) : (cumsum l)[i] = (l.take (i + 1)).sum := by
  simp only [cumsum]
  rw [cumsumGo_get, zero_add]

/-! ### The yearly moments -/

theorem moRate_events {cat : List (ℤ × ℝ)} {y0 y1 : ℤ} (h0 : IsLeast {y | y ∈ cat.map Prod.fst} y0) (h1 : IsGreatest {y | y ∈ cat.map Prod.fst} y1) :
    moRate (events cat) = .ok ((List.range (y1 - y0 + 1).toNat).map fun i : ℕ => Spec.yearly cat (y0 + i)) := by
  have hm0 : npMin ((events cat).map Prod.fst) = .ok (y0 : ℝ) := by
    rw [npMin_iff]
    constructor
    · obtain ⟨e, he, hy⟩ := List.mem_map.mp h0.1
      simp only [Set.mem_ofPred_eq, events, List.map_map, List.mem_map, Function.comp]
      exact ⟨e, he, by rw [hy]⟩
    · intro y hy
      simp only [Set.mem_ofPred_eq, events, List.map_map, List.mem_map, Function.comp] at hy
      obtain ⟨e, he, rfl⟩ := hy
      exact_mod_cast h0.2 (List.mem_map_of_mem he)
  have hm1 : npMax ((events cat).map Prod.fst) = .ok (y1 : ℝ) := by
    rw [npMax_iff]
    constructor
    · obtain ⟨e, he, hy⟩ := List.mem_map.mp h1.1
      simp only [Set.mem_ofPred_eq, events, List.map_map, List.mem_map, Function.comp]
      exact ⟨e, he, by rw [hy]⟩
    · intro y hy
      simp only [Set.mem_ofPred_eq, events, List.map_map, List.mem_map, Function.comp] at hy
      obtain ⟨e, he, rfl⟩ := hy
      exact_mod_cast h1.2 (List.mem_map_of_mem he)
  have hlen : arangeLen (y0 : ℝ) ((y1 : ℝ) + ((1 : ℕ) : ℝ)) ((1 : ℕ) : ℝ) = (y1 - y0 + 1).toNat := by
    have : ∀ i : ℕ, i < arangeLen (y0 : ℝ) ((y1 : ℝ) + ((1 : ℕ) : ℝ)) ((1 : ℕ) : ℝ) ↔ i < (y1 - y0 + 1).toNat := by
      intro i
      rw [lt_arangeLen (by norm_num), Int.lt_toNat]
      push_cast
      rw [mul_one]
      have : ((y0 : ℝ) + (i : ℝ) < (y1 : ℝ) + 1) ↔ (y0 + (i : ℤ) < y1 + 1) := by exact_mod_cast Iff.rfl
      rw [this]
      omega
    have a := this (arangeLen (y0 : ℝ) ((y1 : ℝ) + ((1 : ℕ) : ℝ)) ((1 : ℕ) : ℝ))
    have b := this (y1 - y0 + 1).toNat
    simp only [lt_irrefl, false_iff, iff_false, not_lt] at a b
    omega
  unfold moRate
  simp only [hm0, hm1, bind, Except.bind, pure, Except.pure]
  rw [arange_ok (by norm_num), hlen]
  simp only [List.map_map, Except.ok.injEq]
  refine List.map_congr_left fun i _ => ?_
  simp only [Function.comp, Spec.yearly, npSum_real, events, List.filter_map, List.map_map, rpow_real]
  have hf : (fun e : ℤ × ℝ => decide (npAbs ((e.1 : ℝ) - ((y0 : ℝ) + (i : ℝ) * ((1 : ℕ) : ℝ))) < 1e-5)) = fun e => decide (e.1 = y0 + (i : ℤ)) := by
    funext e
    rw [npAbs_real, decide_eq_decide]
    constructor
    · intro h
      have h2 : |((e.1 - (y0 + (i : ℤ)) : ℤ) : ℝ)| < 1 := by
        push_cast at h ⊢
        rw [mul_one] at h
        refine lt_trans h (by norm_num)
      have h3 : |e.1 - (y0 + (i : ℤ))| < 1 := by exact_mod_cast h2
      rw [abs_lt] at h3
      omega
    · intro h
      rw [h]
      push_cast
      norm_num
  have hg : ∀ e : ℤ × ℝ, (10.0 : ℝ) ^ ((9.05 : ℝ) + 1.5 * e.2) = Spec.moment e.2 := by intro e; rw [Spec.moment]; norm_num
  rw [show ((fun e : ℝ × ℝ => decide (npAbs (e.1 - ((y0 : ℝ) + (i : ℝ) * ((1 : ℕ) : ℝ))) < 1e-5)) ∘ fun e : ℤ × ℝ => ((e.1 : ℝ), e.2)) =
    fun e => decide (e.1 = y0 + (i : ℤ)) from hf]
  congr 1
  refine List.map_congr_left fun e _ => ?_
  exact hg e

theorem sum_yearly {cat : List (ℤ × ℝ)} {y0 y1 : ℤ} (h0 : ∀ e ∈ cat, y0 ≤ e.1) (h1 : ∀ e ∈ cat, e.1 ≤ y1) :
    ∑ i ∈ Finset.range (y1 - y0 + 1).toNat, Spec.yearly cat (y0 + i) = Spec.total cat := by
  induction cat with
  | nil => simp [Spec.yearly, Spec.total]
  | cons e cat ih =>
    have hy : ∀ t, Spec.yearly (e :: cat) t = (if e.1 = t then Spec.moment e.2 else 0) + Spec.yearly cat t := by
      intro t
      simp only [Spec.yearly, List.filter_cons, decide_eq_true_eq]
      split_ifs <;> simp
    simp only [hy, Finset.sum_add_distrib]
    rw [ih (fun x hx => h0 x (by simp [hx])) (fun x hx => h1 x (by simp [hx]))]
    have ha := h0 e (by simp)
    have hb := h1 e (by simp)
    rw [Finset.sum_eq_single (e.1 - y0).toNat]
    · rw [if_pos (by omega)]
      simp [Spec.total]
    · intro b _ hne
      rw [if_neg (by omega)]
    · intro hn
      simp only [Finset.mem_range, not_lt] at hn
      omega

theorem take_range_sum (n k : ℕ) (f : ℕ → ℝ) (h : k ≤ n) : (((List.range n).map f).take k).sum = ∑ i ∈ Finset.range k, f i := by
  rw [← List.map_take, List.take_range, min_eq_left h, ← List.sum_toFinset _ List.nodup_range, List.toFinset_range]

/-- **C72**: for a catalogue with integer years the program attributes to each year of the catalogue its moment, these add up to the total moment, and the excess is the range (largest minus smallest
value) of the deviation of the cumulated moment from its mean trend. -/
theorem C72_moment_accounting {cat : List (ℤ × ℝ)} (hne : cat ≠ []) :
    ∃ (y0 y1 : ℤ) (mr : List ℝ) (d hi lo : ℝ), IsLeast {y | y ∈ cat.map Prod.fst} y0 ∧ IsGreatest {y | y ∈ cat.map Prod.fst} y1 ∧
      moRate (events cat) = .ok mr ∧ mr = (List.range (y1 - y0 + 1).toNat).map (fun i : ℕ => Spec.yearly cat (y0 + i)) ∧ mr.sum = Spec.total cat ∧
      moDiff (events cat) = .ok d ∧
      IsGreatest {x | ∃ k, 1 ≤ k ∧ k ≤ (y1 - y0 + 1).toNat ∧ Spec.deviation cat y0 (y1 - y0 + 1).toNat k = x} hi ∧
      IsLeast {x | ∃ k, 1 ≤ k ∧ k ≤ (y1 - y0 + 1).toNat ∧ Spec.deviation cat y0 (y1 - y0 + 1).toNat k = x} lo ∧
      d = hi - lo ∧ 0 ≤ d := by
  obtain ⟨e0, he0, hmin⟩ := exists_min hne fun e => (e.1 : ℝ)
  obtain ⟨e1, he1, hmax⟩ := exists_max hne fun e => (e.1 : ℝ)
  have h0 : IsLeast {y | y ∈ cat.map Prod.fst} e0.1 := ⟨List.mem_map_of_mem he0, by
    intro y hy; obtain ⟨e, he, rfl⟩ := List.mem_map.mp hy; exact_mod_cast hmin e he⟩
  have h1 : IsGreatest {y | y ∈ cat.map Prod.fst} e1.1 := ⟨List.mem_map_of_mem he1, by
    intro y hy; obtain ⟨e, he, rfl⟩ := List.mem_map.mp hy; exact_mod_cast hmax e he⟩
  generalize e0.1 = y0 at h0
  generalize e1.1 = y1 at h1
  have hle : y0 ≤ y1 := h1.2 h0.1
  have hr := moRate_events h0 h1
  have hsum : ∑ i ∈ Finset.range (y1 - y0 + 1).toNat, Spec.yearly cat (y0 + i) = Spec.total cat :=
    sum_yearly (fun e he => h0.2 (List.mem_map_of_mem he)) (fun e he => h1.2 (List.mem_map_of_mem he))
  obtain ⟨n, hn⟩ : ∃ n, n = (y1 - y0 + 1).toNat := ⟨_, rfl⟩
  have hn1 : 1 ≤ n := by omega
  rw [← hn] at hr hsum
  obtain ⟨mr, hmr⟩ : ∃ mr, mr = (List.range n).map fun i : ℕ => Spec.yearly cat (y0 + i) := ⟨_, rfl⟩
  rw [← hmr] at hr
  have hlen : mr.length = n := by rw [hmr]; simp
  have htot : mr.sum = Spec.total cat := by
    rw [← hsum, ← take_range_sum n n _ le_rfl, hmr, List.take_of_length_le (by simp)]
  obtain ⟨dev, hdev⟩ : ∃ dev, dev = List.zipWith (· - ·) (cumsum mr) (cumsum (List.replicate mr.length (npSum mr / (mr.length : ℝ)))) := ⟨_, rfl⟩
  have hdl : dev.length = n := by rw [hdev]; simp [cumsum_length, hlen]
  have hdg : ∀ i (h : i < dev.length), dev[i] = Spec.deviation cat y0 n (i + 1) := by
    intro i h
    have hin : i < n := by rw [← hdl]; exact h
    simp only [hdev]
    rw [List.getElem_zipWith, cumsum_get, cumsum_get, npSum_real, htot, hlen]
    rw [Spec.deviation, List.take_replicate, List.sum_replicate, min_eq_left (by omega), nsmul_eq_mul, hmr, take_range_sum _ _ _ (by omega)]
  have hset : {x | x ∈ dev} = {x | ∃ k, 1 ≤ k ∧ k ≤ n ∧ Spec.deviation cat y0 n k = x} := by
    ext x
    simp only [Set.mem_ofPred_eq]
    rw [List.mem_iff_getElem]
    constructor
    · rintro ⟨i, h, rfl⟩
      exact ⟨i + 1, by omega, by omega, (hdg i h).symm⟩
    · rintro ⟨k, hk1, hk2, rfl⟩
      refine ⟨k - 1, by omega, ?_⟩
      rw [hdg, Nat.sub_add_cancel hk1]
  have hdne : dev ≠ [] := by intro h; rw [h] at hdl; simp at hdl; omega
  obtain ⟨hi, hhi⟩ := npMax_exists hdne
  obtain ⟨lo, hlo⟩ := npMin_exists hdne
  have hG := npMax_ok hhi
  have hL := npMin_ok hlo
  rw [hset] at hG hL
  have hlast : Spec.deviation cat y0 n n = 0 := by
    have : (n : ℝ) ≠ 0 := by exact_mod_cast (by omega : n ≠ 0)
    rw [Spec.deviation, hsum]
    field_simp
    ring
  have hhi0 : 0 ≤ hi := hG.2 ⟨n, hn1, le_rfl, hlast⟩
  have hlo0 : lo ≤ 0 := hL.2 ⟨n, hn1, le_rfl, hlast⟩
  refine ⟨y0, y1, mr, hi - lo, hi, lo, h0, h1, hr, by rw [← hn]; exact hmr, htot, ?_, by rw [← hn]; exact hG, by rw [← hn]; exact hL, rfl, by linarith⟩
  unfold moDiff
  simp only [hr, bind, Except.bind, pure, Except.pure, ← hdev, hhi, hlo, npAbs_real]
  rw [abs_of_nonneg hhi0, abs_of_nonpos hlo0]
  rfl

/-- **C72**: the order of the events does not matter. -/
theorem C72_order_independent {ev ev' : List (ℝ × ℝ)} (h : ev.Perm ev') : moRate ev = moRate ev' ∧ moDiff ev = moDiff ev' ∧ cumulativeMoment ev = cumulativeMoment ev' := by
  have hm : ∀ m, npMin (ev.map Prod.fst) = .ok m ↔ npMin (ev'.map Prod.fst) = .ok m := by
    intro m
    rw [npMin_iff, npMin_iff]
    have : {y | y ∈ ev.map Prod.fst} = {y | y ∈ ev'.map Prod.fst} := by ext y; exact (h.map Prod.fst).mem_iff
    rw [this]
  have hM : ∀ m, npMax (ev.map Prod.fst) = .ok m ↔ npMax (ev'.map Prod.fst) = .ok m := by
    intro m
    rw [npMax_iff, npMax_iff]
    have : {y | y ∈ ev.map Prod.fst} = {y | y ∈ ev'.map Prod.fst} := by ext y; exact (h.map Prod.fst).mem_iff
    rw [this]
  have hr : moRate ev = moRate ev' := by
    by_cases hne : ev = []
    · subst hne
      rw [h.nil_eq.symm]
    obtain ⟨a, ha⟩ := npMin_exists (l := ev.map Prod.fst) (by simpa using hne)
    obtain ⟨b, hb⟩ := npMax_exists (l := ev.map Prod.fst) (by simpa using hne)
    unfold moRate
    simp only [ha, hb, (hm a).mp ha, (hM b).mp hb, bind, Except.bind, pure, Except.pure]
    rcases arange a (b + ((1 : ℕ) : ℝ)) ((1 : ℕ) : ℝ) with e | yr
    · rfl
    · simp only [npSum_real, Except.ok.injEq]
      refine List.map_congr_left fun t _ => ?_
      exact ((h.filter _).map _).sum_eq
  have hd : moDiff ev = moDiff ev' := by unfold moDiff; rw [hr]
  exact ⟨hr, hd, by unfold cumulativeMoment; rw [hd]⟩

/-- **C72**: the excess of a catalogue confined to one year is zero. -/
theorem C72_single_year {cat : List (ℤ × ℝ)} {y : ℤ} (hne : cat ≠ []) (h : ∀ e ∈ cat, e.1 = y) : moDiff (events cat) = .ok 0 := by
  obtain ⟨y0, y1, mr, d, hi, lo, h0, h1, _, _, _, hd, hG, hL, rfl, _⟩ := C72_moment_accounting hne
  obtain ⟨e0, he0, rfl⟩ := List.mem_map.mp h0.1
  obtain ⟨e1, he1, rfl⟩ := List.mem_map.mp h1.1
  rw [h e0 he0, h e1 he1] at hG hL
  obtain ⟨k, hk1, hk2, hk⟩ := hG.1
  obtain ⟨k', hk1', hk2', hk'⟩ := hL.1
  obtain rfl : k = k' := by omega
  rw [hd, ← hk, ← hk', sub_self]

/-- The hypotheses are met: two years with one event of magnitude 5 each and one year without; the excess is positive. -/
example : moRate (events [(2000, 5), (2002, 5)]) = .ok [Spec.moment 5, 0, Spec.moment 5] := by
  rw [moRate_events (y0 := 2000) (y1 := 2002) (by constructor <;> simp [lowerBounds]) (by constructor <;> simp [upperBounds])]
  have : (2002 - 2000 + 1 : ℤ).toNat = 3 := rfl
  rw [this]
  simp [List.range_succ, Spec.yearly, List.filter_cons]

/-! ### C73 -/

/-- **C73**: if all magnitude uncertainties are zero the bootstrap returns the plain estimate with zero uncertainty, whatever the random numbers. -/
theorem C73_exact_without_errors {ev : List (MEvent ℝ)} {nboot : ℕ} (hn : 2 ≤ nboot) (rnd : ℕ → ℕ → ℝ) (h0 : ∀ e ∈ ev, e.sigma = 0) :
    cumMoUncertainty ev nboot rnd = (cumulativeMoment (ev.map fun e => (e.year, e.mag))).map fun m => (m, 0) := by
  have hp : ∀ r, perturbed ev r = ev.map fun e => (e.year, e.mag) := by
    intro r
    refine List.ext_getElem (by simp [perturbed]) ?_
    intro i h1 h2
    simp only [perturbed, List.getElem_mapIdx, List.getElem_map]
    rw [h0 _ (List.getElem_mem _), zero_mul, add_zero]
  have hconst : ∀ n, (List.range n).mapM (fun i => cumulativeMoment (perturbed ev (rnd i))) =
      (if n = 0 then .ok [] else (cumulativeMoment (ev.map fun e => (e.year, e.mag))).map fun m => List.replicate n m) := by
    intro n
    simp only [hp]
    generalize cumulativeMoment (ev.map fun e => (e.year, e.mag)) = c
    have : ∀ l : List ℕ, l.mapM (fun _ => c) = if l = [] then .ok [] else c.map fun m => List.replicate l.length m := by
      intro l
      induction l with
      | nil => rfl
      | cons a l ih =>
        rw [List.mapM_cons, ih]
        cases c with
        | error e => rfl
        | ok m =>
          by_cases hl : l = []
          · subst hl; rfl
          · simp only [if_neg hl, bind, Except.bind, pure, Except.pure, Except.map]
            rfl
    rw [this]
    simp
  unfold cumMoUncertainty
  rw [hconst, if_neg (by omega)]
  generalize cumulativeMoment (ev.map fun e => (e.year, e.mag)) = c
  rcases c with e | m
  · rfl
  simp only [Except.map, bind, Except.bind, pure, Except.pure, Except.ok.injEq, Prod.mk.injEq]
  have hn0 : (nboot : ℝ) ≠ 0 := by exact_mod_cast (by omega : nboot ≠ 0)
  have hmean : npMean (List.replicate nboot m) = m := by
    rw [npMean, npSum_real, List.sum_replicate, List.length_replicate, nsmul_eq_mul]
    field_simp
  refine ⟨hmean, ?_⟩
  rw [npStd, hmean, List.map_replicate, npSum_real, List.sum_replicate, sub_self, mul_zero, nsmul_zero, zero_div, sqrt_real, Real.sqrt_zero]

/-- The hypotheses are met, and with an uncertainty the result does depend on the random numbers: the perturbed magnitudes differ. -/
example : (∀ e ∈ [(⟨2000, 5, 0⟩ : MEvent ℝ)], e.sigma = 0) ∧ perturbed [(⟨2000, 5, 0.1⟩ : MEvent ℝ)] (fun _ => 1) ≠ [(2000, 5)] := by
  refine ⟨by simp, ?_⟩
  simp [perturbed]
  norm_num

/-! ### C33 -/

/-- **C33** (maximum magnitude step): the result depends on the random generator only if the algorithm is `Cumulative_Moment`. -/
theorem C33_reproducible {F : Type} [PyMath F] (ev : List (MEvent F)) (cfg : MaxMagConfig F) (rnd rnd' : ℕ → ℕ → F) (fuel : ℕ) (h : cfg.algorithm ≠ "Cumulative_Moment") :
    analysis ev cfg rnd fuel = analysis ev cfg rnd' fuel := by
  simp only [analysis, h, if_false]

/-! ### C74 -/

/-- **C74 fails** (maximum magnitude): with any other algorithm name the step does not raise but returns a maximum magnitude of 0. -/
theorem C74_unknown_algorithm_fails {F : Type} [PyMath F] (ev : List (MEvent F)) (cfg : MaxMagConfig F) (rnd : ℕ → ℕ → F) (fuel : ℕ)
    (h1 : cfg.algorithm ≠ "Kijko_Npg") (h2 : cfg.algorithm ≠ "Cumulative_Moment") :
    ¬ ∃ e, analysis ev cfg rnd fuel = some (.error e) := by
  simp only [analysis, h1, h2, if_false]
  rintro ⟨e, h⟩
  exact absurd h (by simp)

/-- What an unknown name gives: maximum magnitude 0 with uncertainty 0, below every observed magnitude. -/
theorem C74_unknown_algorithm_result (ev : List (MEvent ℝ)) (cfg : MaxMagConfig ℝ) (rnd : ℕ → ℕ → ℝ) (fuel : ℕ)
    (h1 : cfg.algorithm ≠ "Kijko_Npg") (h2 : cfg.algorithm ≠ "Cumulative_Moment") : analysis ev cfg rnd fuel = some (.ok (0, 0)) := by
  simp only [analysis, h1, h2, if_false, Nat.cast_zero]

/-- **C74 fails** (recurrence): an algorithm name other than `Weichert` and `MLE` is not refused, it gives the result of `MLE`. -/
theorem C74_unknown_recurrence_fails {F : Type} [PyMath F] (ev table : List (F × F)) (dmag refMag dt : F) (fuel : ℕ) (name : String) (h : name ≠ "Weichert") :
    recurrenceAnalysis ev table dmag name refMag dt fuel = recurrenceAnalysis ev table dmag "MLE" refMag dt fuel := by
  simp [recurrenceAnalysis, h]

/-- **C74**, what holds: the two documented names of the maximum magnitude step select the two algorithms. Missing: refusal of other names. -/
theorem C74_known_algorithm_partial {F : Type} [PyMath F] (ev : List (MEvent F)) (cfg : MaxMagConfig F) (rnd : ℕ → ℕ → F) (fuel : ℕ) :
    (cfg.algorithm = "Kijko_Npg" → analysis ev cfg rnd fuel = kijko (ev.map MEvent.mag) (ev.map MEvent.sigma) cfg.neq cfg.nsamp cfg.tolerance cfg.maxIterations fuel) ∧
    (cfg.algorithm = "Cumulative_Moment" → analysis ev cfg rnd fuel = some (cumMoUncertainty ev cfg.nboot rnd)) := by
  constructor <;> intro h <;> simp [analysis, h]

end Verif.MaxMag
