import Verif.Props.KijkoValues
import Verif.Props.CumulativeBounds
import Verif.Props.Outcomes

/-!
# C156, C73: the cumulative moment estimate computed with infinities and NaN
-/

namespace Verif.MaxMag

open Verif Verif.Np XNum Verif.Recurrence

/-! ### Specification -/

/-- Every year from the first to the last of the catalogue released the same moment. -/
def Spec.Steady (cat : List (ℤ × ℝ)) : Prop :=
  ∀ a ∈ cat, ∀ b ∈ cat, ∀ t u : ℤ, a.1 ≤ t → t ≤ b.1 → a.1 ≤ u → u ≤ b.1 → Spec.yearly cat t = Spec.yearly cat u

/-- An event with ordinary numbers, as given to the program. -/
def fm (e : MEvent ℝ) : MEvent (XNum ℝ) := ⟨fin e.year, fin e.mag, fin e.sigma⟩

/-! ### The parts of the estimator on ordinary numbers -/

theorem moRate_fin (ev : List (ℝ × ℝ)) : moRate (ev.map fp) = (moRate ev).map (List.map fin) := by
  have e1 : (ev.map fp).map Prod.fst = (ev.map Prod.fst).map fin := by simp [fp, Function.comp_def]
  rcases eq_or_ne ev [] with rfl | hne
  · rfl
  obtain ⟨y0, h0⟩ := npMin_exists (l := ev.map Prod.fst) (by simpa using hne)
  obtain ⟨y1, h1⟩ := npMax_exists (l := ev.map Prod.fst) (by simpa using hne)
  unfold moRate
  simp only [e1, npMin_fin, npMax_fin, h0, h1, Except.map, Recurrence.bind_ok]
  unfold arange
  simp only [fin_nat, fin_add, fin_zero, fin_eq, decEq_real, arangeLen_fin _ _ _ (show ((1 : ℕ) : ℝ) ≠ 0 by norm_num)]
  simp only [show ¬ (((1 : ℕ) : ℝ) = 0) by norm_num, decide_false, Bool.false_eq_true, if_false, Recurrence.bind_ok, pure, Except.pure, List.map_map]
  congr 1
  refine List.map_congr_left fun i _ => ?_
  simp only [Function.comp_apply, arangeAt_fin, npSum_real, List.filter_map, List.map_map]
  rw [← npSum_fin, List.map_map]
  congr 1
  have hf : (fun e : XNum ℝ × XNum ℝ => decide (npAbs (e.1 - fin (arangeAt y0 ((1 : ℕ) : ℝ) i)) < 1e-5)) ∘ fp =
      fun e : ℝ × ℝ => decide (npAbs (e.1 - arangeAt y0 ((1 : ℕ) : ℝ) i) < 1e-5) := by
    funext e
    simp only [Function.comp_apply, fp, fin_sub, npAbs_fin, npAbs_real, fin_sci, fin_lt]
  rw [hf]
  refine List.map_congr_left fun e _ => ?_
  simp only [Function.comp_apply, fp, fin_sci, fin_mul, fin_add, fin_pow _ _ (show (0 : ℝ) < 10.0 by norm_num), rpow_real]

theorem cumsumGo_fin (l : List ℝ) (a : ℝ) : cumsumGo (fin a) (l.map fin) = (cumsumGo a l).map fin := by
  induction l generalizing a with
  | nil => rfl
  | cons x l ih => rw [List.map_cons, cumsumGo, cumsumGo, fin_add, ih]; rfl

theorem zipSub_fin (a b : List ℝ) : List.zipWith (· - ·) (a.map fin) (b.map fin) = (List.zipWith (· - ·) a b).map fin := by
  induction a generalizing b with
  | nil => rfl
  | cons x a ih =>
    cases b with
    | nil => rfl
    | cons y b => rw [List.map_cons, List.map_cons, List.zipWith_cons_cons, List.zipWith_cons_cons, fin_sub, ih]; rfl

theorem moDiff_fin (ev : List (ℝ × ℝ)) : moDiff (ev.map fp) = (moDiff ev).map fin := by
  unfold moDiff
  rw [moRate_fin]
  rcases moRate ev with e | mr
  · rfl
  rcases eq_or_ne mr [] with rfl | hne
  · rfl
  have hl : (mr.length : ℝ) ≠ 0 := by simpa using hne
  simp only [Except.map, Recurrence.bind_ok, List.length_map, npSum_fin, npSum_real, fin_nat, fin_div _ _ hl]
  rw [show List.replicate mr.length (fin (mr.sum / (mr.length : ℝ))) = (List.replicate mr.length (mr.sum / (mr.length : ℝ))).map fin by simp]
  unfold cumsum
  rw [fin_zero, cumsumGo_fin, cumsumGo_fin, zipSub_fin, npMax_fin, npMin_fin]
  generalize List.zipWith _ _ _ = dev
  rcases npMax dev with e | a
  · rfl
  rcases npMin dev with e | b
  · rfl
  simp only [Except.map, Recurrence.bind_ok, npAbs_fin, npAbs_real, fin_add, pure, Except.pure]

theorem moDiff_nonneg {ev : List (ℝ × ℝ)} {d : ℝ} (h : moDiff ev = .ok d) : 0 ≤ d := by
  unfold moDiff at h
  obtain ⟨mr, _, h⟩ := Nrml.bind_ok h
  obtain ⟨a, _, h⟩ := Nrml.bind_ok h
  obtain ⟨b, _, h⟩ := Nrml.bind_ok h
  obtain rfl := Except.ok.inj h
  rw [npAbs_real, npAbs_real]
  positivity

/-- The estimate of a catalogue whose yearly moments differ. -/
theorem cumulativeMoment_fin {ev : List (ℝ × ℝ)} (h : ∀ d, moDiff ev = .ok d → 0 < d) : cumulativeMoment (ev.map fp) = (cumulativeMoment ev).map fin := by
  unfold cumulativeMoment
  rw [moDiff_fin]
  rcases hd : moDiff ev with e | d
  · rfl
  simp only [Except.map, Recurrence.bind_ok, fin_log10 _ (h d hd), fin_sci, fin_sub, fin_mul, fin_div _ _ (show (3.0 : ℝ) ≠ 0 by norm_num), pure, Except.pure]
  rfl

/-- The estimate of a catalogue without excess. -/
theorem cumulativeMoment_inf {ev : List (ℝ × ℝ)} (h : moDiff ev = .ok 0) : cumulativeMoment (ev.map fp) = .ok (inf true) := by
  unfold cumulativeMoment
  rw [moDiff_fin, h]
  have hl : PyMath.log10 (fin 0 : XNum ℝ) = inf true := by
    show (if (0 : ℝ) < 0 then nan else if (0 : ℝ) = 0 then inf true else fin (Real.logb 10 0)) = _
    rw [if_neg (lt_irrefl _), if_pos rfl]
  simp only [Except.map, Recurrence.bind_ok, pure, Except.pure, hl, fin_sci, fin_div _ _ (show (3.0 : ℝ) ≠ 0 by norm_num)]
  rw [show (inf true : XNum ℝ) - fin 9.05 = inf true from rfl]
  congr 1
  show scaled true ((2.0 : ℝ) / 3.0) = inf true
  unfold scaled
  rw [if_neg (by norm_num), show decide ((2.0 : ℝ) / 3.0 < 0) = false from decide_eq_false (by norm_num)]
  rfl

/-- There is no excess exactly if every year released the same moment. -/
theorem excess_zero_iff {cat : List (ℤ × ℝ)} (hne : cat ≠ []) : ∃ d, moDiff (events cat) = .ok d ∧ 0 ≤ d ∧ (d = 0 ↔ Spec.Steady cat) := by
  obtain ⟨y0, y1, mr, d, hi, lo, h0, h1, _, hmr, htot, hd, hG, hL, hdd, hdn⟩ := C72_moment_accounting hne
  refine ⟨d, hd, hdn, ?_⟩
  have hle : y0 ≤ y1 := h1.2 h0.1
  obtain ⟨n, hn⟩ : ∃ n, n = (y1 - y0 + 1).toNat := ⟨_, rfl⟩
  have hn1 : 1 ≤ n := by omega
  rw [← hn] at hG hL hmr
  have hn0 : (n : ℝ) ≠ 0 := by exact_mod_cast (by omega : n ≠ 0)
  have hsum : ∑ i ∈ Finset.range n, Spec.yearly cat (y0 + i) = Spec.total cat := by
    rw [← htot, hmr, ← take_range_sum n n _ le_rfl, List.take_of_length_le (by simp)]
  obtain ⟨a, ha, hay⟩ := List.mem_map.mp h0.1
  obtain ⟨b, hb, hby⟩ := List.mem_map.mp h1.1
  constructor
  · rintro rfl
    have hhl : hi = lo := by linarith
    have hall : ∀ k, 1 ≤ k → k ≤ n → Spec.deviation cat y0 n k = hi := by
      intro k hk1 hk2
      have a1 := hG.2 ⟨k, hk1, hk2, rfl⟩
      have a2 := hL.2 ⟨k, hk1, hk2, rfl⟩
      rw [← hhl] at a2
      exact le_antisymm a1 a2
    have hlast : Spec.deviation cat y0 n n = 0 := by
      rw [Spec.deviation, hsum]
      field_simp
      ring
    have hz : ∀ k, k ≤ n → Spec.deviation cat y0 n k = 0 := by
      intro k hk
      rcases Nat.eq_zero_or_pos k with rfl | hk1
      · simp [Spec.deviation]
      · rw [hall k hk1 hk, ← hall n hn1 le_rfl, hlast]
    have hy : ∀ i < n, Spec.yearly cat (y0 + i) = Spec.total cat / n := by
      intro i hi
      have h1 := hz i hi.le
      have h2 := hz (i + 1) hi
      rw [Spec.deviation] at h1 h2
      rw [Finset.sum_range_succ] at h2
      push_cast at h2
      linarith
    intro a' ha' b' hb' t u h1' h2' h3' h4'
    have hy' : ∀ t, a'.1 ≤ t → t ≤ b'.1 → Spec.yearly cat t = Spec.total cat / n := by
      intro t h1' h2'
      have hta : y0 ≤ t := (h0.2 (List.mem_map_of_mem ha')).trans h1'
      have htb : t ≤ y1 := h2'.trans (h1.2 (List.mem_map_of_mem hb'))
      rw [← hy (t - y0).toNat (by omega)]
      congr 1
      omega
    rw [hy' t h1' h2', hy' u h3' h4']
  · intro hst
    have hy : ∀ i < n, Spec.yearly cat (y0 + i) = Spec.yearly cat y0 := fun i hi =>
      hst a ha b hb _ _ (by omega) (by omega) (by omega) (by omega)
    have htot' : Spec.total cat = n * Spec.yearly cat y0 := by
      rw [← hsum, Finset.sum_congr rfl fun i hi => hy i (Finset.mem_range.mp hi)]
      simp
    have hz : ∀ k, k ≤ n → Spec.deviation cat y0 n k = 0 := by
      intro k hk
      rw [Spec.deviation, htot', Finset.sum_congr rfl fun i hi => hy i (lt_of_lt_of_le (Finset.mem_range.mp hi) hk)]
      simp only [Finset.sum_const, Finset.card_range, nsmul_eq_mul]
      field_simp
      ring
    obtain ⟨k, _, hk, rfl⟩ := hG.1
    obtain ⟨k', _, hk', rfl⟩ := hL.1
    rw [hdd, hz k hk, hz k' hk', sub_self]

/-! ### C156: the estimate -/

/-- **C156**: for a catalogue with integer years the estimate of `cumulative_moment` is an ordinary number, the one of exact arithmetic, if some two years between the first and the last
released different moments; otherwise it is minus infinity. -/
theorem C156_estimate {cat : List (ℤ × ℝ)} (hne : cat ≠ []) :
    (¬ Spec.Steady cat → ∃ m, cumulativeMoment (events cat) = .ok m ∧ cumulativeMoment ((events cat).map fp) = .ok (fin m)) ∧
      (Spec.Steady cat → cumulativeMoment ((events cat).map fp) = .ok (inf true)) := by
  obtain ⟨d, hd, hdn, hiff⟩ := excess_zero_iff hne
  constructor
  · intro hs
    have hpos : 0 < d := lt_of_le_of_ne hdn fun h => hs (hiff.mp h.symm)
    refine ⟨((2.0 : ℝ) / 3.0) * (Real.logb 10 d - 9.05), ?_, ?_⟩
    · unfold cumulativeMoment
      rw [hd]
      rfl
    · rw [cumulativeMoment_fin (fun d' hd' => by rw [hd] at hd'; obtain rfl := Except.ok.inj hd'; exact hpos)]
      unfold cumulativeMoment
      rw [hd]
      rfl
  · intro hs
    rw [hiff.mpr hs] at hd
    exact cumulativeMoment_inf hd

/-- Events of one year are steady. -/
theorem steady_one_year {cat : List (ℤ × ℝ)} {y : ℤ} (h : ∀ e ∈ cat, e.1 = y) : Spec.Steady cat := by
  intro a ha b hb t u h1 h2 h3 h4
  rw [h a ha] at h1 h3
  rw [h b hb] at h2 h4
  obtain rfl : t = u := by omega
  rfl

/-- Two years with events of magnitude 5 and 6: a number. -/
example : ∃ m : ℝ, cumulativeMoment ((events [(2000, 5), (2001, 6)]).map fp) = .ok (fin m) := by
  obtain ⟨m, _, h⟩ := (C156_estimate (cat := [(2000, 5), (2001, 6)]) (by simp)).1 (by
    intro hs
    have := hs (2000, 5) (by simp) (2001, 6) (by simp) 2000 2001 (by simp) (by simp) (by simp) (by simp)
    simp only [Spec.yearly, List.filter_cons, Spec.moment] at this
    norm_num at this
    exact absurd this (ne_of_lt (Real.rpow_lt_rpow_of_exponent_lt (by norm_num) (by norm_num))))
  exact ⟨m, h⟩

/-- Two years with an event of magnitude 5 each: minus infinity. -/
example : cumulativeMoment ((events [(2000, 5), (2001, 5)]).map fp) = .ok (inf true) := by
  refine (C156_estimate (by simp)).2 ?_
  intro a ha b hb t u h1 h2 h3 h4
  have hy : ∀ t : ℤ, 2000 ≤ t → t ≤ 2001 → Spec.yearly [(2000, 5), (2001, 5)] t = Spec.moment 5 := by
    intro t h1 h2
    obtain rfl | rfl : t = 2000 ∨ t = 2001 := by omega
    · simp [Spec.yearly]
    · simp [Spec.yearly]
  simp only [List.mem_cons, List.not_mem_nil, or_false] at ha hb
  have ha' : 2000 ≤ a.1 := by rcases ha with rfl | rfl <;> simp
  have hb' : b.1 ≤ 2001 := by rcases hb with rfl | rfl <;> simp
  rw [hy t (by omega) (by omega), hy u (by omega) (by omega)]

/-! ### The bootstrap -/

theorem perturbed_fin (ev : List (MEvent ℝ)) (rnd : ℕ → ℝ) : perturbed (ev.map fm) (fun k => fin (rnd k)) = (perturbed ev rnd).map fp := by
  unfold perturbed
  refine List.ext_getElem (by simp) fun i h1 h2 => ?_
  simp only [List.getElem_mapIdx, List.getElem_map, fm, fp, fin_mul, fin_add]

theorem npMean_fin {l : List ℝ} (h : l ≠ []) : npMean (l.map fin) = fin (npMean l) := by
  unfold npMean
  rw [npSum_fin, npSum_real, List.length_map, fin_nat, fin_div _ _ (by simpa using h)]

theorem npStd_fin {l : List ℝ} (h : 2 ≤ l.length) : npStd (l.map fin) 1 = fin (npStd l 1) := by
  have hne : l ≠ [] := by rintro rfl; simp at h
  have hl : (0 : ℝ) < (l.length : ℝ) - ((1 : ℕ) : ℝ) := by
    have : (2 : ℝ) ≤ l.length := by exact_mod_cast h
    push_cast
    linarith
  unfold npStd
  have hm : (l.map fin).map (fun x => (x - npMean (l.map fin)) * (x - npMean (l.map fin))) = (l.map fun x => (x - npMean l) * (x - npMean l)).map fin := by
    rw [List.map_map, List.map_map]
    refine List.map_congr_left fun x _ => ?_
    simp only [Function.comp_apply, npMean_fin hne, fin_sub, fin_mul]
  rw [hm, npSum_fin, npSum_real, List.length_map, fin_nat, fin_nat, fin_sub, fin_div _ _ hl.ne', fin_sqrt _ (div_nonneg ?_ hl.le)]
  · rfl
  · refine List.sum_nonneg fun y hy => ?_
    obtain ⟨x, _, rfl⟩ := List.mem_map.mp hy
    exact mul_self_nonneg _

/-- **C156**, what holds of the bootstrap: with two or more samples, none of them without excess, `cum_mo_uncertainty` computes with ordinary numbers only.  Missing: one sample
(`C156_one_sample`), samples without excess (`C156_one_year`). -/
theorem C156_numbers_partial {ev : List (MEvent ℝ)} {nboot : ℕ} (hn : 2 ≤ nboot) {rnd : ℕ → ℕ → ℝ} (h : ∀ i < nboot, ∀ d, moDiff (perturbed ev (rnd i)) = .ok d → 0 < d) :
    cumMoUncertainty (ev.map fm) nboot (fun i k => fin (rnd i k)) = (cumMoUncertainty ev nboot rnd).map fp2 := by
  unfold cumMoUncertainty
  have hm : (List.range nboot).mapM (fun i => cumulativeMoment (perturbed (ev.map fm) fun k => fin (rnd i k))) =
      ((List.range nboot).mapM fun i => cumulativeMoment (perturbed ev (rnd i))).map (List.map fin) := by
    have : ∀ l : List ℕ, (∀ i ∈ l, i < nboot) → l.mapM (fun i => cumulativeMoment (perturbed (ev.map fm) fun k => fin (rnd i k))) =
        (l.mapM fun i => cumulativeMoment (perturbed ev (rnd i))).map (List.map fin) := by
      intro l hl
      induction l with
      | nil => rfl
      | cons i l ih =>
        rw [List.mapM_cons, List.mapM_cons, ih fun j hj => hl j (List.mem_cons_of_mem _ hj), perturbed_fin, cumulativeMoment_fin (h i (hl i (by simp)))]
        rcases cumulativeMoment (perturbed ev (rnd i)) with e | m
        · rfl
        rcases l.mapM fun i => cumulativeMoment (perturbed ev (rnd i)) with e | s
        · rfl
        rfl
    exact this _ fun i hi => List.mem_range.mp hi
  rw [hm]
  rcases hs : (List.range nboot).mapM fun i => cumulativeMoment (perturbed ev (rnd i)) with e | s
  · rfl
  have hlen : s.length = nboot := by simpa using (Nrml.mapM_forall₂ _ _ _ hs).length_eq.symm
  simp only [Except.map, Recurrence.bind_ok, pure, Except.pure, npMean_fin (show s ≠ [] by rintro rfl; simp at hlen; omega), npStd_fin (hlen ▸ hn)]

theorem perturbed_years {ev : List (MEvent ℝ)} {y : ℤ} (h : ∀ e ∈ ev, e.year = y) (rnd : ℕ → ℝ) :
    ∃ cat : List (ℤ × ℝ), perturbed ev rnd = events cat ∧ cat.length = ev.length ∧ ∀ e ∈ cat, e.1 = y := by
  refine ⟨ev.mapIdx fun k e => (y, e.mag + e.sigma * rnd k), ?_, by simp, ?_⟩
  · unfold perturbed events
    refine List.ext_getElem (by simp) fun i h1 h2 => ?_
    simp only [List.getElem_mapIdx, List.getElem_map]
    rw [h _ (List.getElem_mem _)]
  · intro e he
    rw [List.mem_mapIdx] at he
    obtain ⟨i, hi, rfl⟩ := he
    rfl

theorem perturbed_excess {ev : List (MEvent ℝ)} (hne : ev ≠ []) {y : ℤ} (h : ∀ e ∈ ev, e.year = y) (rnd : ℕ → ℝ) : moDiff (perturbed ev rnd) = .ok 0 := by
  obtain ⟨cat, hc, hl, hy⟩ := perturbed_years h rnd
  rw [hc]
  refine C72_single_year ?_ hy
  rintro rfl
  exact hne (List.length_eq_zero_iff.mp hl.symm)

theorem mapM_const {α β : Type} {f : α → Except PyErr β} {c : β} (l : List α) (h : ∀ x ∈ l, f x = .ok c) : l.mapM f = .ok (List.replicate l.length c) := by
  induction l with
  | nil => rfl
  | cons x l ih =>
    rw [List.mapM_cons, h x (by simp), ih fun y hy => h y (List.mem_cons_of_mem _ hy)]
    rfl

theorem npSum_inf (n : ℕ) : npSum (List.replicate (n + 1) (inf true : XNum ℝ)) = inf true := by
  unfold npSum
  rw [List.replicate_succ, List.foldl_cons, show (0 : XNum ℝ) + inf true = inf true from rfl]
  induction n with
  | zero => rfl
  | succ n ih => rw [List.replicate_succ, List.foldl_cons, show (inf true : XNum ℝ) + inf true = inf true from rfl, ih]

theorem npMean_inf (n : ℕ) : npMean (List.replicate (n + 1) (inf true : XNum ℝ)) = inf true := by
  unfold npMean
  rw [npSum_inf, List.length_replicate, fin_nat]
  show (if ((n + 1 : ℕ) : ℝ) < 0 then inf (!true) else inf true) = inf true
  rw [if_neg (not_lt.mpr (Nat.cast_nonneg _))]

/-- **C156**: for a catalogue whose events are all of one year the bootstrap gives minus infinity with the uncertainty NaN, whatever the magnitudes, their uncertainties, the number of
samples and the random numbers. -/
theorem C156_one_year {ev : List (MEvent ℝ)} (hne : ev ≠ []) {y : ℤ} (h : ∀ e ∈ ev, e.year = y) {nboot : ℕ} (hn : 1 ≤ nboot) (rnd : ℕ → ℕ → ℝ) :
    cumMoUncertainty (ev.map fm) nboot (fun i k => fin (rnd i k)) = .ok (inf true, nan) := by
  obtain ⟨n, rfl⟩ : ∃ n, nboot = n + 1 := ⟨nboot - 1, by omega⟩
  unfold cumMoUncertainty
  rw [mapM_const (c := inf true) _ fun i _ => by rw [perturbed_fin]; exact cumulativeMoment_inf (perturbed_excess hne h (rnd i))]
  have hm := npMean_inf n
  rw [List.length_range, Recurrence.bind_ok]
  simp only [pure, Except.pure, npStd, hm]
  congr 2
  rw [npSum_nan (List.mem_map.mpr ⟨inf true, by simp, rfl⟩)]
  show PyMath.sqrt (XNum.div nan _) = nan
  generalize (((List.replicate (n + 1) (inf true : XNum ℝ)).length : ℕ) : XNum ℝ) - _ = z
  cases z <;> rfl

/-- **C156**: with one bootstrap sample the uncertainty is NaN, for every catalogue. -/
theorem C156_one_sample {ev : List (MEvent ℝ)} (hne : ev ≠ []) (rnd : ℕ → ℕ → ℝ) :
    ∃ m, cumMoUncertainty (ev.map fm) 1 (fun i k => fin (rnd i k)) = .ok (m, nan) := by
  have hp : perturbed ev (rnd 0) ≠ [] := by
    intro h
    have := congrArg List.length h
    simp only [perturbed, List.length_mapIdx, List.length_nil] at this
    exact hne (List.length_eq_zero_iff.mp this)
  obtain ⟨d, hd⟩ : ∃ d, moDiff (perturbed ev (rnd 0)) = .ok d := by
    obtain ⟨m, hm⟩ := (cumulativeMoment_any (perturbed ev (rnd 0))).2 hp
    unfold cumulativeMoment at hm
    rcases hd : moDiff (perturbed ev (rnd 0)) with e | d
    · rw [hd] at hm; cases hm
    · exact ⟨d, rfl⟩
  have hc : ∃ c, (c = inf true ∨ ∃ x, c = fin x) ∧ cumulativeMoment (perturbed (ev.map fm) fun k => fin (rnd 0 k)) = .ok c := by
    rw [perturbed_fin]
    rcases eq_or_ne d 0 with rfl | h0
    · exact ⟨_, .inl rfl, cumulativeMoment_inf hd⟩
    · have hd0 : 0 ≤ d := moDiff_nonneg hd
      obtain ⟨m, hm⟩ := (cumulativeMoment_any (perturbed ev (rnd 0))).2 hp
      refine ⟨fin m, .inr ⟨m, rfl⟩, ?_⟩
      rw [cumulativeMoment_fin (fun d' hd' => by rw [hd] at hd'; obtain rfl := Except.ok.inj hd'; exact lt_of_le_of_ne hd0 h0.symm), hm]
      rfl
  obtain ⟨c, hc, hok⟩ := hc
  refine ⟨npMean [c], ?_⟩
  unfold cumMoUncertainty
  rw [show List.range 1 = [0] from rfl, mapM_const (c := c) [0] (by simpa using hok), Recurrence.bind_ok]
  simp only [pure, Except.pure]
  congr 2
  have hden : ((([c].length : ℕ) : XNum ℝ) - ((1 : ℕ) : XNum ℝ)) = fin 0 := by
    rw [fin_nat, fin_nat, fin_sub]
    simp
  show npStd [c] 1 = nan
  unfold npStd
  rw [hden]
  rcases hc with rfl | ⟨x, rfl⟩
  · rw [show npMean [(inf true : XNum ℝ)] = inf true from npMean_inf 0]
    rfl
  · rw [show [fin x] = [x].map fin from rfl, npMean_fin (by simp)]
    have : npMean [x] = x := by simp [npMean, npSum_real]
    rw [this]
    simp only [List.map_cons, List.map_nil, fin_sub, fin_mul, sub_self, mul_zero]
    rw [show [(fin 0 : XNum ℝ)] = [0].map fin from rfl, npSum_fin]
    show PyMath.sqrt (if (0 : ℝ) = 0 then scaled false _ else _) = nan
    rw [if_pos rfl]
    unfold scaled
    rw [if_pos (by simp)]
    rfl

/-- **C156 fails**: neither the estimate nor its uncertainty need be ordinary numbers. -/
theorem C156_numbers_fails : ¬ ∀ (ev : List (MEvent ℝ)) (nboot : ℕ) (rnd : ℕ → ℕ → ℝ) (m s : XNum ℝ), 2 ≤ nboot →
    cumMoUncertainty (ev.map fm) nboot (fun i k => fin (rnd i k)) = .ok (m, s) → (∃ m', m = fin m') ∨ ∃ s', s = fin s' := by
  intro h
  rcases h [⟨2000, 5, 0.1⟩, ⟨2000, 6, 0.1⟩] 1000 (fun _ _ => 0.3) _ _ (by norm_num) (C156_one_year (y := 2000) (by simp) (by norm_num) (by norm_num) _) with ⟨_, h⟩ | ⟨_, h⟩ <;> cases h

/-! ### C73 -/

/-- **C73**, what holds with infinities and NaN: if the magnitudes have no uncertainty and two years released different moments, the bootstrap returns the plain estimate with zero
uncertainty.  Missing: catalogues whose years all released the same moment (`C73_exact_fails`). -/
theorem C73_exact_partial {ev : List (MEvent ℝ)} {cat : List (ℤ × ℝ)} (hne : cat ≠ []) (hcat : (ev.map fun e => (e.year, e.mag)) = events cat) (hs : ¬ Spec.Steady cat)
    (h0 : ∀ e ∈ ev, e.sigma = 0) {nboot : ℕ} (hn : 2 ≤ nboot) (rnd : ℕ → ℕ → ℝ) :
    ∃ m, cumulativeMoment ((events cat).map fp) = .ok (fin m) ∧ cumMoUncertainty (ev.map fm) nboot (fun i k => fin (rnd i k)) = .ok (fin m, fin 0) := by
  obtain ⟨m, hm, hf⟩ := (C156_estimate hne).1 hs
  obtain ⟨d, hd, hdn, hiff⟩ := excess_zero_iff hne
  have hp : ∀ r, perturbed ev r = events cat := by
    intro r
    rw [← hcat]
    refine List.ext_getElem (by simp [perturbed]) ?_
    intro i h1 h2
    simp only [perturbed, List.getElem_mapIdx, List.getElem_map]
    rw [h0 _ (List.getElem_mem _), zero_mul, add_zero]
  refine ⟨m, hf, ?_⟩
  rw [C156_numbers_partial hn, C73_exact_without_errors hn rnd h0, hcat, hm]
  · rfl
  · intro i _ d' hd'
    rw [hp, hd] at hd'
    obtain rfl := Except.ok.inj hd'
    exact lt_of_le_of_ne hdn fun h => hs (hiff.mp h.symm)

/-- **C73 fails**: for two events of the same year without uncertainties the uncertainty returned is NaN. -/
theorem C73_exact_fails : ¬ ∀ (ev : List (MEvent ℝ)) (nboot : ℕ) (rnd : ℕ → ℕ → ℝ), ev ≠ [] → (∀ e ∈ ev, e.sigma = 0) → 2 ≤ nboot →
    ∃ m, cumMoUncertainty (ev.map fm) nboot (fun i k => fin (rnd i k)) = .ok (m, fin 0) := by
  intro h
  obtain ⟨m, hm⟩ := h [⟨2000, 5, 0⟩, ⟨2000, 6, 0⟩] 1000 (fun _ _ => 0.3) (by simp) (by simp) (by norm_num)
  rw [C156_one_year (y := 2000) (by simp) (by norm_num) (by norm_num)] at hm
  simp at hm

end Verif.MaxMag
