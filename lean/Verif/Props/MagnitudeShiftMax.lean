import Verif.Props.KijkoOrder
import Verif.Props.CumulativeMoment
import Verif.Props.MagnitudeShift

/-! # C106: the origin of the magnitude scale and the maximum magnitude -/

namespace Verif.MaxMag

open Verif Verif.Np Verif.Recurrence

/-! ### Kijko -/

theorem npSort_larger (c : ℝ) (l : List ℝ) : npSort (l.map (· + c)) = (npSort l).map (· + c) := by
  have hi : ∀ (x : ℝ) (m : List ℝ), insertSorted (x + c) (m.map (· + c)) = (insertSorted x m).map (· + c) := by
    intro x m
    induction m with
    | nil => rfl
    | cons y m ih =>
      simp only [List.map_cons, insertSorted, add_le_add_iff_right]
      split_ifs
      · rfl
      · rw [ih]; rfl
  induction l with
  | nil => rfl
  | cons x l ih =>
    have e : ∀ (y : ℝ) (m : List ℝ), npSort (y :: m) = insertSorted y (npSort m) := fun _ _ => rfl
    rw [List.map_cons, e, e, ih, hi]

theorem mquantile_larger (c : ℝ) (l : List ℝ) (p : ℝ) : mquantile (l.map (· + c)) p = (mquantile l p).map (· + c) := by
  unfold mquantile
  rw [npSort_larger]
  match npSort l with
  | [] => rfl
  | [a] => rfl
  | a :: b :: s =>
    simp only [List.map_cons, List.length_cons, List.length_map, Except.map, Except.ok.injEq]
    generalize hx : clip (((s.length + 1 + 1 : ℕ) : ℝ) * p + (0.4 + p * (((1 : ℕ) : ℝ) - 0.4 - 0.4))) ((1 : ℕ) : ℝ) ((s.length + 1 + 1 - 1 : ℕ) : ℝ) = x
    have hx1 : 1 ≤ x ∧ x ≤ s.length + 1 := by
      have h0 : (0 : ℝ) ≤ s.length := Nat.cast_nonneg _
      have e : ((s.length + 1 + 1 - 1 : ℕ) : ℝ) = s.length + 1 := by
        rw [Nat.add_sub_cancel]; push_cast; ring
      rw [e] at hx
      simp only [clip, Nat.cast_one] at hx
      split_ifs at hx with h1 h2
      · subst hx; constructor <;> linarith
      · subst hx; constructor <;> linarith
      · subst hx
        exact ⟨not_lt.mp h1, not_lt.mp h2⟩
    rw [floorZ_real]
    have hk1 : 1 ≤ ⌊x⌋ := Int.le_floor.mpr (by exact_mod_cast hx1.1)
    have hk2 : ⌊x⌋ ≤ s.length + 1 := by
      have : (⌊x⌋ : ℝ) ≤ s.length + 1 := le_trans (Int.floor_le x) hx1.2
      exact_mod_cast this
    have g : ∀ i, i < s.length + 2 → ((a + c) :: (b + c) :: s.map (· + c)).getD i 0 = (a :: b :: s).getD i 0 + c := by
      intro i hi
      have : ((a + c) :: (b + c) :: s.map (· + c)) = (a :: b :: s).map (· + c) := rfl
      rw [this, List.getD_eq_getElem?_getD, List.getD_eq_getElem?_getD, List.getElem?_map, List.getElem?_eq_getElem (by simp only [List.length_cons]; omega)]
      rfl
    rw [g _ (by omega), g _ (by omega)]
    rw [show (1.0 : ℝ) = 1 by norm_num]
    ring

theorem hSmooth_larger (c : ℝ) (l : List ℝ) : hSmooth (l.map (· + c)) = hSmooth l := by
  simp only [hSmooth, mquantile_larger, List.length_map]
  cases mquantile l 0.25 with
  | error e => rfl
  | ok a =>
  cases mquantile l 0.75 with
  | error e => rfl
  | ok b => simp only [Except.map, bind_ok, add_sub_add_right_eq_sub]

theorem cdfFunc_larger (c : ℝ) (mag : List ℝ) (h n a b m : ℝ) : cdfFunc (mag.map (· + c)) h n (a + c) (b + c) (m + c) = cdfFunc mag h n a b m := by
  simp only [cdfFunc, List.map_map, Function.comp_def, add_sub_add_right_eq_sub]

theorem trapTail_larger (c : ℝ) {f g : ℝ → ℝ} (hf : ∀ x, g (x + c) = f x) (l : List ℝ) (acc prev : ℝ) :
    trapTail g acc (prev + c) (l.map (· + c)) = trapTail f acc prev l := by
  match l with
  | [] => rfl
  | [x] => simp only [List.map_cons, List.map_nil, trapTail, hf, add_sub_add_right_eq_sub]
  | x :: y :: l =>
    have := trapTail_larger c hf (y :: l) (acc + ((0.5 : ℝ) * f x * (y - prev))) x
    simp only [List.map_cons, trapTail, hf, add_sub_add_right_eq_sub] at this ⊢
    exact this

theorem intFunc_larger (c : ℝ) (mval mag : List ℝ) (h n : ℝ) : intFunc (mval.map (· + c)) (mag.map (· + c)) h n = intFunc mval mag h n := by
  match mval with
  | [] => rfl
  | [x] => simp only [intFunc, npMin, npMax, List.map_cons, List.map_nil, List.foldl_nil, bind_ok]
  | x :: y :: l =>
    simp only [intFunc, npMin_add, npMax_add]
    cases npMin (x :: y :: l) with
    | error e => simp only [Except.map, bind, Except.bind]
    | ok a =>
    cases npMax (x :: y :: l) with
    | error e => simp only [Except.map, bind, Except.bind]
    | ok b =>
    simp only [Except.map, bind_ok, List.map_cons, cdfFunc_larger, add_sub_add_right_eq_sub]
    have := trapTail_larger c (cdfFunc_larger c mag h n a b) (y :: l) ((0.5 : ℝ) * cdfFunc mag h n a b x * (y - x)) x
    rw [List.map_cons] at this
    exact congrArg Except.ok this

theorem expSpaced_larger (c lo up nsamp : ℝ) : expSpaced (lo + c) (up + c) nsamp = (expSpaced lo up nsamp).map (· + c) := by
  simp only [expSpaced, exp_real, log_real, List.map_append, List.map_map, List.map_cons, List.map_nil, Real.log_exp]
  congr 1
  refine List.map_congr_left fun i hi => ?_
  simp only [Function.comp, arangeAt_real]
  have hi' := List.mem_range.mp hi
  rw [lt_arangeLen (by norm_num)] at hi'
  norm_num at hi' ⊢
  have hn : 0 < nsamp - 1 := lt_of_le_of_lt (Nat.cast_nonneg i) hi'
  have e : Real.exp (lo + c) + i * ((Real.exp (up + c) - Real.exp (lo + c)) / (nsamp - 1)) =
      (Real.exp lo + i * ((Real.exp up - Real.exp lo) / (nsamp - 1))) * Real.exp c := by
    rw [Real.exp_add, Real.exp_add]
    ring
  have hpos : 0 < Real.exp lo + i * ((Real.exp up - Real.exp lo) / (nsamp - 1)) := by
    have e2 : Real.exp lo + i * ((Real.exp up - Real.exp lo) / (nsamp - 1)) = ((nsamp - 1 - i) * Real.exp lo + i * Real.exp up) / (nsamp - 1) := by
      field_simp
      ring
    rw [e2]
    refine div_pos ?_ hn
    have h1 : 0 < (nsamp - 1 - i) * Real.exp lo := mul_pos (by linarith) (Real.exp_pos _)
    have h2 : 0 ≤ (i : ℝ) * Real.exp up := mul_nonneg (Nat.cast_nonneg _) (Real.exp_pos _).le
    linarith
  rw [e, Real.log_mul hpos.ne' (Real.exp_pos _).ne', Real.log_exp]

theorem kijkoLoop_larger (c : ℝ) {delta delta' : ℝ → Except PyErr ℝ} (hd : ∀ m, delta' (m + c) = delta m) (obsmax tol : ℝ) (maxIter fuel : ℕ) (mmax : ℝ) (j : ℕ) :
    kijkoLoop delta' (obsmax + c) tol maxIter fuel (mmax + c) j =
      (kijkoLoop delta obsmax tol maxIter fuel mmax j).map fun r => r.map fun q => (q.1 + c, q.2) := by
  induction fuel generalizing mmax j with
  | zero => rfl
  | succ fuel ih =>
    simp only [kijkoLoop, hd]
    cases delta mmax with
    | error e => rfl
    | ok d =>
      simp only [add_right_comm obsmax c d, add_sub_add_right_eq_sub, ih]
      split_ifs <;> rfl

theorem argmax_larger (c : ℝ) (l : List ℝ) : argmax (l.map (· + c)) = argmax l := by
  have h : ∀ (l : List ℝ) (best : ℝ) (bi i : ℕ), argmaxGo (best + c) bi i (l.map (· + c)) = argmaxGo best bi i l := by
    intro l
    induction l with
    | nil => intros; rfl
    | cons x l ih =>
      intro best bi i
      simp only [List.map_cons, argmaxGo, add_lt_add_iff_right, ih]
  cases l with
  | nil => rfl
  | cons x l => exact h l x 0 1

theorem largest_larger (c : ℝ) (mag : List ℝ) (neq : ℕ) :
    largest (mag.map (· + c)) neq = ((largest mag neq).1.map (· + c), (largest mag neq).2) := by
  simp only [largest, List.length_map, npSort_larger]
  split_ifs <;> simp only [List.map_drop]

/-- **C106** (Kijko): if all magnitudes are larger by `c`, the maximum magnitude is larger by `c` and its error is the same (the same
exception, if there is one). -/
theorem C106_kijko (c : ℝ) (mag sig : List ℝ) (neq : ℕ) (nsamp tol : ℝ) (maxIter fuel : ℕ) :
    kijko (mag.map (· + c)) sig neq nsamp tol maxIter fuel =
      (kijko mag sig neq nsamp tol maxIter fuel).map fun r => r.map fun q => (q.1 + c, q.2) := by
  simp only [kijko, npMax_add, argmax_larger, largest_larger, npMin_add, hSmooth_larger]
  cases npMax mag with
  | error e => rfl
  | ok obsmax =>
  simp only [Except.map]
  cases sig[argmax mag]? with
  | none => rfl
  | some obssig =>
  simp only
  generalize (largest mag neq).1 = mg
  generalize (largest mag neq).2 = n
  cases npMin mg with
  | error e => rfl
  | ok mmin =>
  cases hSmooth mg with
  | error e => rfl
  | ok h =>
  simp only
  by_cases ht : tol < 1e8
  · simp only [if_pos ht]
    have hd : ∀ m, (fun mmax => intFunc (expSpaced (mmin + c) mmax nsamp) (mg.map (· + c)) h n) (m + c) =
        (fun mmax => intFunc (expSpaced mmin mmax nsamp) mg h n) m := by
      intro m
      simp only [expSpaced_larger, intFunc_larger]
    rw [kijkoLoop_larger c hd obsmax tol maxIter fuel obsmax 0]
    cases kijkoLoop (fun mmax => intFunc (expSpaced mmin mmax nsamp) mg h n) obsmax tol maxIter fuel obsmax 0 with
    | none => rfl
    | some r =>
      cases r with
      | error e => rfl
      | ok q => rfl
  · simp only [if_neg ht]
    rfl

/-! ### Cumulative moment -/

theorem cumsum_mul (K : ℝ) (l : List ℝ) : cumsum (l.map (K * ·)) = (cumsum l).map (K * ·) := by
  have h : ∀ (l : List ℝ) (a : ℝ), cumsumGo (K * a) (l.map (K * ·)) = (cumsumGo a l).map (K * ·) := by
    intro l
    induction l with
    | nil => intro a; rfl
    | cons x l ih =>
      intro a
      simp only [List.map_cons, cumsumGo, ← mul_add, ih]
  have := h l 0
  rwa [mul_zero] at this

theorem npMax_mul {K : ℝ} (hK : 0 < K) (l : List ℝ) : npMax (l.map (K * ·)) = (npMax l).map (K * ·) := by
  by_cases hne : l = []
  · subst hne; rfl
  obtain ⟨m, hm⟩ := npMax_exists hne
  obtain ⟨h1, h2⟩ := npMax_iff.mp hm
  rw [hm]
  refine npMax_iff.mpr ⟨List.mem_map_of_mem h1, ?_⟩
  intro x hx
  obtain ⟨y, hy, rfl⟩ := List.mem_map.mp hx
  exact mul_le_mul_of_nonneg_left (h2 hy) hK.le

theorem npMin_mul {K : ℝ} (hK : 0 < K) (l : List ℝ) : npMin (l.map (K * ·)) = (npMin l).map (K * ·) := by
  by_cases hne : l = []
  · subst hne; rfl
  obtain ⟨m, hm⟩ := npMin_exists hne
  obtain ⟨h1, h2⟩ := npMin_iff.mp hm
  rw [hm]
  refine npMin_iff.mpr ⟨List.mem_map_of_mem h1, ?_⟩
  intro x hx
  obtain ⟨y, hy, rfl⟩ := List.mem_map.mp hx
  exact mul_le_mul_of_nonneg_left (h2 hy) hK.le

theorem moRate_larger (c : ℝ) (ev : List (ℝ × ℝ)) : moRate (Spec.larger c ev) = (moRate ev).map (List.map ((10 : ℝ) ^ (1.5 * c) * ·)) := by
  simp only [moRate, Completeness.larger_fst]
  cases npMin (ev.map Prod.fst) <;> [rfl; skip]
  cases npMax (ev.map Prod.fst) <;> [rfl; skip]
  simp only [bind_ok]
  rename_i a b
  cases arange a (b + ((1 : ℕ) : ℝ)) ((1 : ℕ) : ℝ) with
  | error e => rfl
  | ok yr =>
  simp only [bind_ok, pure, Except.pure, Except.map, Except.ok.injEq, List.map_map]
  refine List.map_congr_left fun t _ => ?_
  simp only [Function.comp_apply, npSum_real, ← sum_map_mul, Spec.larger, List.filter_map, List.map_map]
  congr 1
  refine List.map_congr_left fun e _ => ?_
  simp only [Function.comp_apply, rpow_real]
  rw [show (10.0 : ℝ) = 10 by norm_num, ← Real.rpow_add (by norm_num)]
  congr 1
  ring

theorem moDiff_larger (c : ℝ) (ev : List (ℝ × ℝ)) : moDiff (Spec.larger c ev) = (moDiff ev).map ((10 : ℝ) ^ (1.5 * c) * ·) := by
  simp only [moDiff, moRate_larger]
  cases moRate ev with
  | error e => rfl
  | ok mr =>
  have hK : (0 : ℝ) < 10 ^ (1.5 * c) := Real.rpow_pos_of_pos (by norm_num) _
  revert hK
  generalize (10 : ℝ) ^ (1.5 * c) = K
  intro hK
  simp only [Except.map, bind_ok, List.length_map]
  have e1 : npSum (mr.map (K * ·)) / (mr.length : ℝ) = K * (npSum mr / mr.length) := by
    rw [npSum_real, npSum_real, show mr.map (K * ·) = mr.map (fun x => K * (fun y => y) x) from rfl, sum_map_mul, List.map_id', mul_div_assoc]
  have e2 : List.replicate mr.length (K * (npSum mr / (mr.length : ℝ))) = (List.replicate mr.length (npSum mr / (mr.length : ℝ))).map (K * ·) := by
    rw [List.map_replicate]
  rw [e1, e2, cumsum_mul, cumsum_mul]
  have e3 : ∀ a b : List ℝ, List.zipWith (· - ·) (a.map (K * ·)) (b.map (K * ·)) = (List.zipWith (· - ·) a b).map (K * ·) := by
    intro a b
    rw [List.map_zipWith, List.zipWith_map]
    congr 1
    funext x y
    exact (mul_sub K x y).symm
  rw [e3, npMax_mul hK, npMin_mul hK]
  generalize List.zipWith (· - ·) (cumsum mr) (cumsum (List.replicate mr.length (npSum mr / (mr.length : ℝ)))) = dev
  cases npMax dev with
  | error e => rfl
  | ok hi =>
  cases npMin dev with
  | error e => rfl
  | ok lo =>
  simp only [Except.map, bind_ok, pure, Except.pure, npAbs_real, abs_mul, abs_of_pos hK, mul_add]

theorem cumulativeMoment_larger (c : ℝ) {ev : List (ℝ × ℝ)} (h : ∀ d, moDiff ev = .ok d → d ≠ 0) :
    cumulativeMoment (Spec.larger c ev) = (cumulativeMoment ev).map (· + c) := by
  simp only [cumulativeMoment, moDiff_larger]
  cases hd : moDiff ev with
  | error e => rfl
  | ok d =>
  have h0 := h d hd
  simp only [Except.map, bind_ok, pure, Except.pure, Except.ok.injEq, log10_real]
  rw [Real.logb_mul (Real.rpow_pos_of_pos (by norm_num) _).ne' h0, Real.logb_rpow (by norm_num) (by norm_num)]
  generalize Real.logb 10 d = x
  norm_num
  ring

theorem npMean_larger (c : ℝ) {l : List ℝ} (h : l ≠ []) : npMean (l.map (· + c)) = npMean l + c := by
  have hl : (l.length : ℝ) ≠ 0 := by
    have := List.length_pos_iff.mpr h
    exact_mod_cast this.ne'
  simp only [npMean, npSum_real, List.length_map]
  have : (l.map (· + c)).sum = l.sum + l.length * c := by
    rw [show (l.map (· + c)) = l.map fun x => (fun y => y) x + (fun _ => c) x from rfl, sum_map_add]
    simp
  rw [this]
  field_simp

theorem npStd_larger (c : ℝ) {l : List ℝ} (h : l ≠ []) (ddof : ℕ) : npStd (l.map (· + c)) ddof = npStd l ddof := by
  simp only [npStd, npMean_larger c h, List.length_map, List.map_map, Function.comp_def, add_sub_add_right_eq_sub]

/-- The catalogue with all magnitudes larger by `c`. -/
def Spec.largerEvents (c : ℝ) (ev : List (MEvent ℝ)) : List (MEvent ℝ) := ev.map fun e => ⟨e.year, e.mag + c, e.sigma⟩

theorem perturbed_larger (c : ℝ) (ev : List (MEvent ℝ)) (rnd : ℕ → ℝ) : perturbed (Spec.largerEvents c ev) rnd = Verif.Spec.larger c (perturbed ev rnd) := by
  refine List.ext_getElem (by simp [perturbed, Spec.largerEvents, Verif.Spec.larger]) fun i h1 h2 => ?_
  simp only [perturbed, Spec.largerEvents, Verif.Spec.larger, List.getElem_mapIdx, List.getElem_map]
  rw [add_right_comm]

/-- **C106** (cumulative moment): if all magnitudes are larger by `c`, the maximum magnitude is larger by `c` and its error is the same, with the same
random numbers.  The excess moment must not be zero in any sample (its logarithm is then undefined). -/
theorem C106_cumulative_moment (c : ℝ) {ev : List (MEvent ℝ)} {nboot : ℕ} {rnd : ℕ → ℕ → ℝ} (hn : 0 < nboot)
    (h : ∀ i < nboot, ∀ d, moDiff (perturbed ev (rnd i)) = .ok d → d ≠ 0) :
    cumMoUncertainty (Spec.largerEvents c ev) nboot rnd = (cumMoUncertainty ev nboot rnd).map fun q => (q.1 + c, q.2) := by
  simp only [cumMoUncertainty, perturbed_larger]
  have e : (List.range nboot).mapM (fun i => cumulativeMoment (Verif.Spec.larger c (perturbed ev (rnd i)))) =
      ((List.range nboot).mapM (fun i => cumulativeMoment (perturbed ev (rnd i)))).map (List.map (· + c)) := by
    have : ∀ l : List ℕ, (∀ i ∈ l, i < nboot) → l.mapM (fun i => cumulativeMoment (Verif.Spec.larger c (perturbed ev (rnd i)))) =
      (l.mapM (fun i => cumulativeMoment (perturbed ev (rnd i)))).map (List.map (· + c)) := by
      intro l
      induction l with
      | nil => intro _; rfl
      | cons i l ih =>
        intro hl
        rw [List.mapM_cons, List.mapM_cons, cumulativeMoment_larger c (h i (hl i (by simp))), ih fun j hj => hl j (by simp [hj])]
        cases cumulativeMoment (perturbed ev (rnd i)) with
        | error e => rfl
        | ok x =>
          cases List.mapM (fun i => cumulativeMoment (perturbed ev (rnd i))) l <;> rfl
    exact this _ fun i hi => List.mem_range.mp hi
  rw [e]
  cases hs : (List.range nboot).mapM (fun i => cumulativeMoment (perturbed ev (rnd i))) with
  | error e => rfl
  | ok s =>
    have hne : s ≠ [] := by
      rintro rfl
      obtain ⟨n, rfl⟩ : ∃ n, nboot = n + 1 := ⟨nboot - 1, by omega⟩
      rw [List.range_succ_eq_map, List.mapM_cons] at hs
      cases h0 : cumulativeMoment (perturbed ev (rnd 0)) with
      | error e => rw [h0] at hs; cases hs
      | ok x =>
        simp only [h0, bind_ok] at hs
        generalize List.mapM (fun i => cumulativeMoment (perturbed ev (rnd i))) (List.map Nat.succ (List.range n)) = r at hs
        cases r <;> cases hs
    simp only [Except.map, bind_ok, pure, Except.pure, npMean_larger c hne, npStd_larger c hne]

/-- **C106** (maximum magnitude step): for the two algorithms, the estimate moves with the origin of the magnitude scale and its error
does not change. -/
theorem C106_maximum_magnitude (c : ℝ) {ev : List (MEvent ℝ)} {cfg : MaxMagConfig ℝ} {rnd : ℕ → ℕ → ℝ} (fuel : ℕ)
    (hk : cfg.algorithm = "Kijko_Npg" ∨ cfg.algorithm = "Cumulative_Moment") (hn : 0 < cfg.nboot)
    (h : ∀ i < cfg.nboot, ∀ d, moDiff (perturbed ev (rnd i)) = .ok d → d ≠ 0) :
    analysis (Spec.largerEvents c ev) cfg rnd fuel = (analysis ev cfg rnd fuel).map fun r => r.map fun q => (q.1 + c, q.2) := by
  have e1 : (Spec.largerEvents c ev).map MEvent.mag = (ev.map MEvent.mag).map (· + c) := by simp [Spec.largerEvents]
  have e2 : (Spec.largerEvents c ev).map MEvent.sigma = ev.map MEvent.sigma := by simp [Spec.largerEvents]
  simp only [analysis]
  split_ifs with h1 h2
  · rw [e1, e2, C106_kijko]
  · rw [C106_cumulative_moment c hn h]; rfl
  · exact absurd hk (by simp [h1, h2])

/-- Non-vacuity: a run of Kijko that returns, and a catalogue whose excess moment is not zero (events of magnitude 5 in 2000 and 2002, none in
2001). -/
example : (∃ m s, kijko mag70 (List.replicate 11 (0.1 : ℝ)) 100 ((3 : ℕ) : ℝ) 0.1 1000 1001 = some (.ok (m, s))) ∧
    ∀ d : ℝ, moDiff (perturbed [⟨2000, 5, 0⟩, ⟨2002, 5, 0⟩] fun _ => 0) = .ok d → d ≠ 0 := by
  refine ⟨⟨_, _, kijko70⟩, ?_⟩
  intro d hd
  have e : perturbed [(⟨2000, 5, 0⟩ : MEvent ℝ), ⟨2002, 5, 0⟩] (fun _ => 0) = events [(2000, 5), (2002, 5)] := by
    simp [perturbed, events]
  rw [e] at hd
  obtain ⟨y0, y1, mr, d', hi, lo, h0, h1, -, -, -, hd', hG, hL, rfl, -⟩ := C72_moment_accounting (cat := [(2000, 5), (2002, 5)]) (by simp)
  rw [hd'] at hd
  cases hd
  obtain rfl : y0 = 2000 := h0.unique (by constructor <;> simp [lowerBounds])
  obtain rfl : y1 = 2002 := h1.unique (by constructor <;> simp [upperBounds])
  have hp : 0 < Spec.moment 5 := Real.rpow_pos_of_pos (by norm_num) _
  have hb := hG.2 ⟨1, le_rfl, by decide, rfl⟩
  have hc := hL.2 ⟨3, by norm_num, by decide, rfl⟩
  have v1 : Spec.deviation [(2000, (5 : ℝ)), (2002, 5)] 2000 (2002 - 2000 + 1 : ℤ).toNat 1 = Spec.moment 5 / 3 := by
    rw [show (2002 - 2000 + 1 : ℤ).toNat = 3 from rfl]
    simp [Spec.deviation, Spec.yearly, Spec.total, List.filter_cons]
    ring
  have v3 : Spec.deviation [(2000, (5 : ℝ)), (2002, 5)] 2000 (2002 - 2000 + 1 : ℤ).toNat 3 = 0 := by
    rw [show (2002 - 2000 + 1 : ℤ).toNat = 3 from rfl]
    simp [Spec.deviation, Spec.yearly, Spec.total, List.filter_cons, Finset.sum_range_succ]
    ring
  rw [v1] at hb
  rw [v3] at hc
  intro h
  linarith

end Verif.MaxMag
