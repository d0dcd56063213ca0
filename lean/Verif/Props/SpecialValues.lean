import Verif.Props.NotANumber
import Verif.Props.Outcomes

/-!
# C144: the maximum likelihood recurrence computed with infinities and NaN
-/

namespace Verif.Recurrence

open Verif Verif.Np XNum

/-! ### Operations on ordinary numbers -/

section
variable (x y : ℝ)

theorem fin_add : (fin x + fin y : XNum ℝ) = fin (x + y) := rfl
theorem fin_sub : (fin x - fin y : XNum ℝ) = fin (x - y) := by rw [sub_eq_add_neg]; rfl
theorem fin_mul : (fin x * fin y : XNum ℝ) = fin (x * y) := rfl
theorem fin_neg : (-fin x : XNum ℝ) = fin (-x) := rfl
theorem fin_div (h : y ≠ 0) : (fin x / fin y : XNum ℝ) = fin (x / y) := if_neg h
theorem fin_nat (n : ℕ) : ((n : ℕ) : XNum ℝ) = fin (n : ℝ) := rfl
theorem fin_int (n : ℤ) : ((n : ℤ) : XNum ℝ) = fin (n : ℝ) := rfl
theorem fin_zero : (0 : XNum ℝ) = fin 0 := rfl
theorem fin_sci (m : ℕ) (s : Bool) (e : ℕ) : (OfScientific.ofScientific m s e : XNum ℝ) = fin (OfScientific.ofScientific m s e) := by
  show fin (((OfScientific.ofScientific m s e : ℚ) : ℝ)) = _
  congr 1
theorem fin_eq : PyNum.decEq (fin x : XNum ℝ) (fin y) = decide (x = y) := rfl
theorem fin_floor : PyNum.floorZ (fin x : XNum ℝ) = ⌊x⌋ := rfl
theorem fin_ceil : PyNum.ceilZ (fin x : XNum ℝ) = ⌈x⌉ := rfl
theorem fin_exp : PyMath.exp (fin x : XNum ℝ) = fin (Real.exp x) := rfl
theorem fin_log10 (h : 0 < x) : PyMath.log10 (fin x : XNum ℝ) = fin (Real.logb 10 x) := by
  show (if x < 0 then nan else if x = 0 then inf true else fin (Real.logb 10 x)) = _
  rw [if_neg h.not_gt, if_neg h.ne']
theorem fin_sqrt (h : 0 ≤ x) : PyMath.sqrt (fin x : XNum ℝ) = fin (Real.sqrt x) := if_neg h.not_gt
open Classical in
theorem fin_pow (h : 0 < x) : PyMath.rpow (fin x : XNum ℝ) (fin y) = fin (x ^ y) := by
  show (if y = 0 then fin 1 else if x = 0 then (if y < 0 then inf false else fin 0) else if x < 0 ∧ ¬ (∃ n : ℤ, y = n) then nan else fin (x ^ y)) = _
  by_cases hy : y = 0
  · rw [if_pos hy, hy, Real.rpow_zero]
  · rw [if_neg hy, if_neg h.ne', if_neg (by simp [h.le])]

end

theorem npMin_fin (l : List ℝ) : npMin (l.map fin) = (npMin l).map fin := by
  rcases l with _ | ⟨x, l⟩
  · rfl
  · show Except.ok _ = Except.ok _
    congr 1
    induction l generalizing x with
    | nil => rfl
    | cons y l ih =>
      rw [List.map_cons, List.foldl_cons, List.foldl_cons, ← ih]
      congr 1
      unfold minimum
      simp only [fin_le, fin_eq, decEq_real]
      split_ifs <;> rfl

theorem npMax_fin (l : List ℝ) : npMax (l.map fin) = (npMax l).map fin := by
  rcases l with _ | ⟨x, l⟩
  · rfl
  · show Except.ok _ = Except.ok _
    congr 1
    induction l generalizing x with
    | nil => rfl
    | cons y l ih =>
      rw [List.map_cons, List.foldl_cons, List.foldl_cons, ← ih]
      congr 1
      unfold maximum
      simp only [fin_le, fin_eq, decEq_real]
      split_ifs <;> rfl

theorem npSum_fin (l : List ℝ) : npSum (l.map fin) = fin l.sum := by
  rw [← npSum_real]
  unfold npSum
  rw [fin_zero]
  generalize (0 : ℝ) = z
  induction l generalizing z with
  | nil => rfl
  | cons y l ih =>
    rw [List.map_cons, List.foldl_cons, List.foldl_cons, fin_add, ih]

theorem npAbs_fin (x : ℝ) : npAbs (fin x) = fin |x| := by
  rw [← npAbs_real]
  unfold npAbs
  simp only [fin_nat, fin_lt, fin_neg]
  split_ifs <;> rfl

/-- An event with ordinary numbers. -/
def fp (e : ℝ × ℝ) : XNum ℝ × XNum ℝ := (fin e.1, fin e.2)

/-- A row of ordinary numbers. -/
noncomputable def frow (r : RecRow ℝ) : RecRow (XNum ℝ) := ⟨fin r.mval, r.nObs, r.nCum, fin r.nObsAnnual, fin r.nCumAnnual⟩

theorem inBin_fin (edge : ℕ → ℝ) (nb j : ℕ) (x : ℝ) : inBin (fun i => fin (edge i)) nb j (fin x) = inBin edge nb j x := by
  unfold inBin
  simp only [fin_le, fin_lt]

theorem histogram_fin (edge : ℕ → ℝ) (nb : ℕ) (l : List ℝ) : histogram (fun i => fin (edge i)) nb (l.map fin) = histogram edge nb l := by
  unfold histogram
  refine List.map_congr_left fun j _ => ?_
  rw [List.countP_map]
  exact List.countP_congr fun x _ => by rw [Function.comp_apply, inBin_fin]

theorem arangeAt_fin (a s : ℝ) (i : ℕ) : arangeAt (fin a) (fin s) i = fin (arangeAt a s i) := by
  unfold arangeAt
  simp only [fin_nat, fin_add, fin_sub, fin_mul]

theorem arangeLen_fin (a b s : ℝ) (hs : s ≠ 0) : arangeLen (fin a) (fin b) (fin s) = arangeLen a b s := by
  unfold arangeLen
  rw [fin_sub, fin_div _ _ hs, fin_ceil]
  rfl

theorem recurrenceTable_fin (ev : List (ℝ × ℝ)) (dmag : ℝ) (hd : 0 < dmag) :
    recurrenceTable (ev.map fp) (fin dmag) = (recurrenceTable ev dmag).map (List.map frow) := by
  rcases List.eq_nil_or_concat ev with rfl | ⟨_, _, hcon⟩
  · rfl
  have hne : ev ≠ [] := by rw [hcon]; simp
  clear hcon
  obtain ⟨y1, hy1⟩ := npMax_exists (l := ev.map Prod.fst) (by simpa using hne)
  obtain ⟨y0, hy0⟩ := npMin_exists (l := ev.map Prod.fst) (by simpa using hne)
  obtain ⟨up, hup⟩ := npMax_exists (l := (ev.map Prod.snd).map fun m => ((PyNum.ceilZ ((10.0 : ℝ) * m) : ℤ) : ℝ) / 10.0) (by simpa using hne)
  obtain ⟨low, hlow⟩ := npMin_exists (l := (ev.map Prod.snd).map fun m => ((PyNum.floorZ ((10.0 : ℝ) * m) : ℤ) : ℝ) / 10.0) (by simpa using hne)
  have e1 : (ev.map fp).map Prod.fst = (ev.map Prod.fst).map fin := by simp [fp, Function.comp_def]
  have e2 : (ev.map fp).map Prod.snd = (ev.map Prod.snd).map fin := by simp [fp, Function.comp_def]
  have h10 : (10.0 : ℝ) ≠ 0 := by norm_num
  have e3 : ((ev.map Prod.snd).map fin).map (fun m : XNum ℝ => ((PyNum.ceilZ ((10.0 : XNum ℝ) * m) : ℤ) : XNum ℝ) / 10.0) =
      ((ev.map Prod.snd).map fun m => ((PyNum.ceilZ ((10.0 : ℝ) * m) : ℤ) : ℝ) / 10.0).map fin := by
    simp only [List.map_map]
    refine List.map_congr_left fun m _ => ?_
    simp only [Function.comp_apply, fin_sci, fin_mul, fin_ceil, fin_int, fin_div _ _ h10, ceilZ_real]
  have e4 : ((ev.map Prod.snd).map fin).map (fun m : XNum ℝ => ((PyNum.floorZ ((10.0 : XNum ℝ) * m) : ℤ) : XNum ℝ) / 10.0) =
      ((ev.map Prod.snd).map fun m => ((PyNum.floorZ ((10.0 : ℝ) * m) : ℤ) : ℝ) / 10.0).map fin := by
    simp only [List.map_map]
    refine List.map_congr_left fun m _ => ?_
    simp only [Function.comp_apply, fin_sci, fin_mul, fin_floor, fin_int, fin_div _ _ h10, floorZ_real]
  have hnum : y1 - y0 + 1.0 ≠ 0 := by
    have := (npMin_ok hy0).2 (npMax_ok hy1).1
    norm_num
    linarith
  unfold recurrenceTable
  simp only [e1, e2, e3, e4, npMax_fin, npMin_fin, hy1, hy0, hup, hlow, Except.map, Recurrence.bind_ok]
  simp only [fin_zero, fin_eq, decEq_real, hd.ne', decide_false, Bool.false_eq_true, if_false, fin_nat, fin_mul, fin_add, fin_sub, fin_sci,
    arangeLen_fin _ _ _ hd.ne', fin_lt, hd.not_gt, and_false]
  have hat : arangeAt (fin low) (fin dmag) = fun i => fin (arangeAt low dmag i) := funext (arangeAt_fin low dmag)
  have h2 : (2.0 : ℝ) ≠ 0 := by norm_num
  simp only [hat, histogram_fin, fin_div _ _ hnum, fin_div _ _ h2, fin_add]
  split_ifs
  · rfl
  · simp only [pure, Except.pure, List.map_map]
    rfl

/-- The bins of `b_max_likelihood` as ordinary numbers. -/
def fbin (r : ℝ × ℕ) : XNum ℝ × ℕ := (fin r.1, r.2)

theorem fbin_filter (h : List (ℝ × ℕ)) (mc : ℝ) :
    (h.map fbin).filter (fun r => decide (r.1 ≥ fin mc)) = (h.filter fun r => decide (r.1 ≥ mc)).map fbin := by
  rw [List.filter_map]
  congr 1

theorem bMaxLikelihood_fin {h : List (ℝ × ℕ)} {dmag mc b s : ℝ} (hd : 0 < dmag) (hex : ∃ r ∈ h, mc ≤ r.1 ∧ 0 < r.2)
    (hok : bMaxLikelihood h dmag mc = .ok (b, s)) : ∃ s', bMaxLikelihood (h.map fbin) (fin dmag) (fin mc) = .ok (fin b, s') := by
  unfold bMaxLikelihood at hok ⊢
  rw [fbin_filter]
  set g := h.filter fun r => decide (r.1 ≥ mc) with hg
  obtain ⟨r, hr, hmc, hn⟩ := hex
  have hrg : r ∈ g := by rw [hg, List.mem_filter]; exact ⟨hr, by simpa using hmc⟩
  rcases hm : npMin (g.map Prod.fst) with e | m
  · simp [hm, bind, Except.bind] at hok
  have e1 : (g.map fbin).map Prod.fst = (g.map Prod.fst).map fin := by simp [fbin, Function.comp_def]
  have e2 : (g.map fbin).map (fun r => ((r.2 : ℕ) : XNum ℝ)) = (g.map fun r => (r.2 : ℝ)).map fin := by simp [fbin, Function.comp_def, fin_nat]
  have e3 : (g.map fbin).map (fun r => r.1 * ((r.2 : ℕ) : XNum ℝ)) = (g.map fun r => r.1 * (r.2 : ℝ)).map fin := by
    simp [fbin, Function.comp_def, fin_nat, fin_mul]
  have hmin := npMin_ok hm
  have hneq : 0 < (g.map fun r => (r.2 : ℝ)).sum := by
    have h1 : (r.2 : ℝ) ≤ (g.map fun r => (r.2 : ℝ)).sum :=
      List.single_le_sum (by rintro x hx; obtain ⟨y, -, rfl⟩ := List.mem_map.1 hx; positivity) _ (List.mem_map.2 ⟨r, hrg, rfl⟩)
    have : (0 : ℝ) < r.2 := by exact_mod_cast hn
    linarith
  have hs : m * (g.map fun r => (r.2 : ℝ)).sum ≤ (g.map fun r => r.1 * (r.2 : ℝ)).sum := by
    rw [← List.sum_map_mul_left]
    refine List.sum_le_sum fun x hx => ?_
    exact mul_le_mul_of_nonneg_right (hmin.2 (List.mem_map.2 ⟨x, hx, rfl⟩)) (by positivity)
  have hden : (g.map fun r => r.1 * (r.2 : ℝ)).sum / (g.map fun r => (r.2 : ℝ)).sum - m + dmag / 2.0 ≠ 0 := by
    have h1 : m ≤ (g.map fun r => r.1 * (r.2 : ℝ)).sum / (g.map fun r => (r.2 : ℝ)).sum := by rwa [le_div_iff₀ hneq]
    have h2 : 0 < dmag / 2.0 := by positivity
    linarith
  simp only [e1, e2, e3, hm, npMin_fin, Except.map, Recurrence.bind_ok, npSum_fin, npSum_real, exp_real, log10_real, pure, Except.pure, Except.ok.injEq, Prod.mk.injEq] at hok ⊢
  have h2 : (2.0 : ℝ) ≠ 0 := by norm_num
  refine ⟨_, ?_, rfl⟩
  rw [fin_div _ _ hneq.ne', fin_sub, fin_sci, fin_sci, fin_div _ _ h2, fin_add, fin_exp, fin_log10 _ (Real.exp_pos _), fin_div _ _ hden, hok.1]

/-- No event in the bins: numpy divides 0 by 0. -/
theorem bMaxLikelihood_nan {h : List (ℝ × ℕ)} {dmag mc : ℝ} (hne : ∃ r ∈ h, mc ≤ r.1) (h0 : ∀ r ∈ h, mc ≤ r.1 → r.2 = 0) :
    ∃ s, bMaxLikelihood (h.map fbin) (fin dmag) (fin mc) = .ok (nan, s) := by
  unfold bMaxLikelihood
  rw [fbin_filter]
  set g := h.filter fun r => decide (r.1 ≥ mc) with hg
  obtain ⟨r, hr, hmc⟩ := hne
  have hrg : r ∈ g := by rw [hg, List.mem_filter]; exact ⟨hr, by simpa using hmc⟩
  obtain ⟨m, hm⟩ := npMin_exists (l := g.map Prod.fst) (by simpa using List.ne_nil_of_mem hrg)
  have hz : ∀ r ∈ g, r.2 = 0 := by
    intro x hx
    rw [hg, List.mem_filter] at hx
    exact h0 x hx.1 (by simpa using hx.2)
  have e1 : (g.map fbin).map Prod.fst = (g.map Prod.fst).map fin := by simp [fbin, Function.comp_def]
  have e2 : (g.map fbin).map (fun r => ((r.2 : ℕ) : XNum ℝ)) = (g.map fun _ => (0 : ℝ)).map fin := by
    rw [List.map_map, List.map_map]
    exact List.map_congr_left fun x hx => by simp [fbin, fin_nat, hz x hx]
  have e3 : (g.map fbin).map (fun r => r.1 * ((r.2 : ℕ) : XNum ℝ)) = (g.map fun _ => (0 : ℝ)).map fin := by
    rw [List.map_map, List.map_map]
    exact List.map_congr_left fun x hx => by simp [fbin, fin_nat, hz x hx, fin_mul]
  simp only [e1, e2, e3, hm, npMin_fin, Except.map, Recurrence.bind_ok, npSum_fin, pure, Except.pure, Except.ok.injEq, Prod.mk.injEq]
  refine ⟨_, ?_, rfl⟩
  have : (g.map fun _ => (0 : ℝ)).sum = 0 := by simp
  rw [this]
  have hnan : (fin 0 / fin 0 : XNum ℝ) = nan := by
    show (if (0 : ℝ) = 0 then scaled false (0 : ℝ) else _) = _
    simp [scaled]
  have h2 : (2.0 : ℝ) ≠ 0 := by norm_num
  rw [hnan, fin_sci, fin_sci, fin_div _ _ h2, fin_exp, fin_log10 _ (Real.exp_pos _)]
  rfl

theorem periodEvents_fin (ev : List (ℝ × ℝ)) (c mc : ℝ) : periodEvents (ev.map fp) (fin c) (fin mc) = (periodEvents ev c mc).map fp := by
  unfold periodEvents
  rw [List.filter_map]
  congr 1

theorem groupOf_fin (table : List (ℝ × ℝ)) (c : ℝ) : groupOf (table.map fp) (fin c) = (groupOf table c).map fin := by
  unfold groupOf
  rw [List.filter_map, List.map_map, List.map_map]
  congr 1
  refine List.filter_congr fun e _ => ?_
  simp only [Function.comp_apply, fp, fin_sci, fin_sub, npAbs_fin, npAbs_real]
  rfl

/-- A bin at or above the completeness magnitude holds an event exactly when some event is used. -/
theorem rows_used {E : List (ℝ × ℝ)} {dmag mc low : ℝ} {rows : List (RecRow ℝ)} (hE : E ≠ []) (hd : 0 < dmag) (hr : recurrenceTable E dmag = .ok rows)
    (hl : Spec.Lowest E low) : (∃ r ∈ rows, mc ≤ r.mval ∧ 0 < r.nObs) ↔ Spec.used E low dmag mc ≠ [] := by
  obtain ⟨rows', low', ny', hr', _, hlow, ⟨e0, he0, hle⟩, hup, hpos, hrow⟩ := recurrenceTable_spec hE hd
  rw [hr] at hr'
  obtain rfl : rows = rows' := by simpa using hr'
  obtain rfl : low' = low := by
    have hl' : Spec.Lowest E low' := ?_
    · exact hl'.unique hl
    refine ⟨⟨e0, he0, hle⟩, ?_⟩
    rintro _ ⟨e, he, rfl⟩
    have h1 := hlow e he
    rw [hle] at h1 ⊢
    have h2 : ⌊10 * e0.2⌋ ≤ ⌊10 * e.2⌋ := by
      rw [Int.le_floor]
      linarith
    have h3 : (⌊10 * e0.2⌋ : ℝ) ≤ (⌊10 * e.2⌋ : ℝ) := by exact_mod_cast h2
    linarith
  have hcentre : ∀ e : ℝ × ℝ, ∀ i : ℕ, low' + i * dmag ≤ e.2 → e.2 < low' + (i + 1) * dmag → Spec.centre low' dmag e.2 = low' + (i + 1 / 2) * dmag := by
    intro e i h1 h2
    have : ⌊(e.2 - low') / dmag⌋ = (i : ℤ) := by
      rw [Int.floor_eq_iff, le_div_iff₀ hd, div_lt_iff₀ hd]
      push_cast
      constructor <;> linarith
    rw [Spec.centre, this]
    push_cast
    ring
  constructor
  · rintro ⟨r, hr, h1, h2⟩
    obtain ⟨i, hi, rfl⟩ := List.getElem_of_mem hr
    obtain ⟨hm, hn, -⟩ := hrow i hi
    rw [hn, Spec.magCount, List.countP_pos_iff] at h2
    obtain ⟨e, he, h2⟩ := h2
    simp only [decide_eq_true_eq] at h2
    refine List.ne_nil_of_mem (a := e) ?_
    rw [Spec.used, List.mem_filter]
    refine ⟨he, decide_eq_true ?_⟩
    rwa [hcentre e i h2.1 h2.2, ← hm]
  · intro h
    obtain ⟨e, he⟩ := List.exists_mem_of_ne_nil _ h
    rw [Spec.used, List.mem_filter] at he
    obtain ⟨he, h1⟩ := he
    have h1 := of_decide_eq_true h1
    have hq : 0 ≤ (e.2 - low') / dmag := div_nonneg (by linarith [hlow e he]) hd.le
    have a := Nat.floor_le hq
    have b := Nat.lt_floor_add_one ((e.2 - low') / dmag)
    rw [le_div_iff₀ hd] at a
    rw [div_lt_iff₀ hd] at b
    have hi : ⌊(e.2 - low') / dmag⌋₊ < rows.length := by
      have := hup e he
      have h3 : ((⌊(e.2 - low') / dmag⌋₊ : ℕ) : ℝ) * dmag < rows.length * dmag := by linarith
      exact_mod_cast lt_of_mul_lt_mul_right h3 hd.le
    refine ⟨rows[⌊(e.2 - low') / dmag⌋₊], List.getElem_mem hi, ?_, ?_⟩
    · rw [(hrow _ hi).1]
      rwa [hcentre e _ (by linarith) (by linarith)] at h1
    · rw [(hrow _ hi).2.1, Spec.magCount, List.countP_pos_iff]
      exact ⟨e, he, decide_eq_true ⟨by linarith, by linarith⟩⟩

/-- One period with infinities and NaN: if no event is used, the results are NaN; otherwise they are those of exact arithmetic. -/
theorem period_fin {ev : List (ℝ × ℝ)} {dmag ref c : ℝ} {g : List ℝ} {p : Period ℝ} (hd : 0 < dmag) (h : period ev dmag ref c g = .ok p) :
    ∃ q mc low, period (ev.map fp) (fin dmag) (fin ref) (fin c) (g.map fin) = .ok q ∧ q.n = p.n ∧ IsLeast {m | m ∈ g} mc ∧
      Spec.Lowest (Spec.completeEvents ev c mc) low ∧
      (Spec.used (Spec.completeEvents ev c mc) low dmag mc ≠ [] → q.b = fin p.b ∧ q.rate = fin p.rate) ∧
      (Spec.used (Spec.completeEvents ev c mc) low dmag mc = [] → q.b = nan ∧ q.rate = nan) := by
  obtain ⟨mc', low, k, hmc', hlow, -⟩ := period_used hd h
  have hfil : ∀ mc, periodEvents ev c mc = Spec.completeEvents ev c mc := periodEvents_eq ev c
  unfold period at h
  simp only [bind, Except.bind] at h
  rcases hg : npMin g with e | mc
  · simp [hg] at h
  obtain rfl := hmc'.unique (npMin_ok hg)
  simp only [hg] at h
  rcases hM : npMax ((periodEvents ev c mc').map Prod.fst) with e | y1
  · simp [hM] at h
  simp only [hM] at h
  rcases hm : npMin ((periodEvents ev c mc').map Prod.fst) with e | y0
  · simp [hm] at h
  simp only [hm] at h
  rcases ht : recurrenceTable (periodEvents ev c mc') dmag with e | rows
  · simp [ht] at h
  simp only [ht] at h
  rcases hb : bMaxLikelihood (rows.map fun r => (r.mval, r.nObs)) dmag mc' with e | ⟨b, s⟩
  · simp [hb] at h
  simp only [hb, pure, Except.pure, Except.ok.injEq] at h
  subst h
  have hsel : periodEvents ev c mc' ≠ [] := by
    rintro h0
    rw [h0] at hM
    cases hM
  have hlen : 0 < (periodEvents ev c mc').length := List.length_pos_of_ne_nil hsel
  have hny : 0 < y1 - y0 + ((1 : ℕ) : ℝ) := by
    have := (npMin_ok hm).2 (npMax_ok hM).1
    push_cast
    linarith
  have e1 : ((periodEvents ev c mc').map fp).map Prod.fst = ((periodEvents ev c mc').map Prod.fst).map fin := by simp [fp, Function.comp_def]
  have e2 : (rows.map frow).map (fun r => (r.mval, r.nObs)) = (rows.map fun r => (r.mval, r.nObs)).map fbin := by
    simp [frow, fbin, Function.comp_def]
  have hlr : 0 < ((periodEvents ev c mc').length : ℝ) / (y1 - y0 + ((1 : ℕ) : ℝ)) := by positivity
  have h10 : (0 : ℝ) < 10.0 := by norm_num
  have hused := rows_used (mc := mc') (by rw [← hfil]; exact hsel) hd (by rw [← hfil]; exact ht) hlow
  have run : ∀ b' s', bMaxLikelihood ((rows.map fun r => (r.mval, r.nObs)).map fbin) (fin dmag) (fin mc') = .ok (b', s') →
      ∃ q, period (ev.map fp) (fin dmag) (fin ref) (fin c) (g.map fin) = .ok q ∧ q.n = (periodEvents ev c mc').length ∧ q.b = b' ∧
        q.rate = PyMath.rpow (fin 10.0) (fin (Real.logb 10 ((periodEvents ev c mc').length / (y1 - y0 + ((1 : ℕ) : ℝ)))) + b' * fin mc' - b' * fin ref) := by
    intro b' s' hb'
    unfold period
    simp only [npMin_fin, npMax_fin, hg, Except.map, Recurrence.bind_ok, periodEvents_fin, e1, hM, hm, recurrenceTable_fin _ _ hd, ht, e2, hb', pure, Except.pure]
    refine ⟨_, rfl, by simp, rfl, ?_⟩
    simp only [List.length_map, fin_nat, fin_sub, fin_add, fin_div _ _ hny.ne', fin_log10 _ hlr, fin_sci]
  by_cases hu : Spec.used (Spec.completeEvents ev c mc') low dmag mc' = []
  · obtain ⟨s', hs'⟩ := bMaxLikelihood_nan (h := rows.map fun r => (r.mval, r.nObs)) (dmag := dmag) (mc := mc') (by
      obtain ⟨m, hm, -⟩ := C58_value hb
      obtain ⟨h1, n, h2⟩ := hm.1
      exact ⟨_, h2, h1⟩) (by
      intro r hr h1
      by_contra h0
      obtain ⟨r', hr', rfl⟩ := List.mem_map.1 hr
      exact hused.1 ⟨r', hr', h1, Nat.pos_of_ne_zero h0⟩ hu)
    obtain ⟨q, hq, hn, hqb, hqr⟩ := run _ _ hs'
    refine ⟨q, mc', low, hq, hn, hmc', hlow, fun h => absurd hu h, fun _ => ⟨hqb, ?_⟩⟩
    rw [hqr]
    show (if (10.0 : ℝ) = 1 then fin 1 else nan) = nan
    rw [if_neg (by norm_num)]
  · obtain ⟨r, hr, h1, h2⟩ := hused.2 hu
    obtain ⟨s', hs'⟩ := bMaxLikelihood_fin hd ⟨_, List.mem_map.2 ⟨r, hr, rfl⟩, h1, h2⟩ hb
    obtain ⟨q, hq, hn, hqb, hqr⟩ := run _ _ hs'
    refine ⟨q, mc', low, hq, hn, hmc', hlow, fun _ => ⟨hqb, ?_⟩, fun h => absurd h hu⟩
    rw [hqr, fin_mul, fin_mul, fin_add, fin_sub, fin_pow _ _ h10]
    rfl

theorem periods_fin {ev table : List (ℝ × ℝ)} {dmag ref : ℝ} {i : ℕ} {ps : List (Period ℝ)} (hd : 0 < dmag)
    (he : ∀ c ∈ table, ∃ e ∈ ev, c.1 ≤ e.1 ∧ c.2 + dmag / 2 ≤ e.2) (h : periods ev table dmag ref i = .ok ps) :
    ∃ qs, periods (ev.map fp) (table.map fp) (fin dmag) (fin ref) i = .ok qs ∧
      List.Forall₂ (fun q p => q.n = p.n ∧ q.b = fin p.b ∧ q.rate = fin p.rate) qs ps := by
  revert ps
  refine periods.induct table (fun i => ∀ {ps : List (Period ℝ)}, periods ev table dmag ref i = .ok ps →
    ∃ qs, periods (ev.map fp) (table.map fp) (fin dmag) (fin ref) i = .ok qs ∧
      List.Forall₂ (fun q p => q.n = p.n ∧ q.b = fin p.b ∧ q.rate = fin p.rate) qs ps) ?_ ?_ ?_ i
  · intro i hi g hg ps h
    rw [periods] at h
    simp only [hi, dif_pos] at h
    rw [dif_pos hg] at h
    simp at h
  · intro i hi g hg ih ps h
    rw [periods] at h
    simp only [hi, dif_pos] at h
    rw [dif_neg hg] at h
    simp only [bind, Except.bind] at h
    rcases hp : period ev dmag ref table[i].1 (groupOf table table[i].1) with e | p
    · simp [hp] at h
    simp only [hp] at h
    rcases hps : periods ev table dmag ref (i + (groupOf table table[i].1).length) with e | ps'
    · simp [hps] at h
    simp only [hps, pure, Except.pure, Except.ok.injEq] at h
    subst h
    obtain ⟨qs, hqs, hall⟩ := ih hps
    obtain ⟨q, mc, low, hq, hn, hmc, -, hfin, -⟩ := period_fin hd hp
    have hi' : i < (table.map fp).length := by simpa using hi
    have hgrp : groupOf (table.map fp) (table.map fp)[i].1 = (groupOf table table[i].1).map fin := by
      rw [List.getElem_map]
      exact groupOf_fin table _
    refine ⟨q :: qs, ?_, .cons ⟨hn, hfin ?_⟩ hall⟩
    · rw [periods]
      simp only [hi', dif_pos]
      rw [dif_neg (by rw [hgrp, List.length_map]; exact hg)]
      rw [hgrp]
      rw [show i + ((groupOf table table[i].1).map fin).length = i + (groupOf table table[i].1).length by simp, hqs]
      have : (table.map fp)[i].1 = fin table[i].1 := by rw [List.getElem_map]; rfl
      rw [this, hq]
      rfl
    · obtain ⟨e, hev, h1, h2⟩ := he _ (List.getElem_mem hi)
      have hm := hmc.2 (groupOf_mem (List.getElem_mem hi))
      refine List.ne_nil_of_mem (used_of_le hd (e := e) ?_ (by linarith))
      rw [Spec.completeEvents, List.mem_filter]
      refine ⟨hev, decide_eq_true ⟨h1, ?_⟩⟩
      have : (0 : ℝ) < 1e-5 := by norm_num
      linarith
  · intro i hi ps h
    rw [periods] at h
    simp only [hi, dif_neg, not_false_eq_true, Except.ok.injEq] at h
    subst h
    refine ⟨[], ?_, .nil⟩
    rw [periods]
    simp [hi]

theorem weighted_fin {ps : List (Period ℝ)} {qs : List (Period (XNum ℝ))} {f : Period ℝ → ℝ} {f' : Period (XNum ℝ) → XNum ℝ}
    (h : List.Forall₂ (fun q p => q.n = p.n ∧ f' q = fin (f p)) qs ps) (hpos : (ps.map fun p => (p.n : ℝ)).sum ≠ 0) :
    weighted qs f' = fin (weighted ps f) := by
  unfold weighted
  have e1 : qs.map (fun p => ((p.n : ℕ) : XNum ℝ)) = (ps.map fun p => (p.n : ℝ)).map fin := by
    clear hpos
    induction h with
    | nil => rfl
    | cons h _ ih => rw [List.map_cons, ih, h.1, fin_nat]; rfl
  simp only [e1, npSum_fin, npSum_real]
  generalize (ps.map fun p => (p.n : ℝ)).sum = t at hpos
  have e2 : qs.map (fun p => (((p.n : ℕ) : XNum ℝ) / fin t) * f' p) = (ps.map fun p => ((p.n : ℝ) / t) * f p).map fin := by
    clear e1
    induction h with
    | nil => rfl
    | cons h _ ih => rw [List.map_cons, ih, h.1, h.2, fin_nat, fin_div _ _ hpos, fin_mul]; rfl
  rw [e2, npSum_fin]

/-- **C144** (what holds): if some event of each period lies half a magnitude interval above its completeness magnitude, the b-value and the rate computed with infinities and NaN are
the numbers of exact arithmetic. -/
theorem C144_number_partial {ev table : List (ℝ × ℝ)} {dmag ref : ℝ} {r : GR ℝ} (hd : 0 < dmag)
    (he : ∀ c ∈ table, ∃ e ∈ ev, c.1 ≤ e.1 ∧ c.2 + dmag / 2 ≤ e.2) (h : bMaxlikeTime ev table dmag ref = .ok r) :
    ∃ R, bMaxlikeTime (ev.map fp) (table.map fp) (fin dmag) (fin ref) = .ok R ∧ R.b = fin r.b ∧ R.a = fin r.a ∧ 0 < r.b ∧ 0 < r.a := by
  have htab : table ≠ [] := by
    rintro rfl
    rw [(C138_maxlike ev [] dmag ref).1 rfl] at h
    cases h
  obtain ⟨r', hr', hb0, ha0⟩ := C125_periods_partial (ref := ref) hd htab he
  obtain rfl : r = r' := by
    rw [h] at hr'
    simpa using hr'
  obtain ⟨ps, hps, hne, hn, -⟩ := C59_average h
  obtain ⟨qs, hqs, hall⟩ := periods_fin hd he hps
  have hpos : (ps.map fun p => (p.n : ℝ)).sum ≠ 0 := by
    obtain ⟨p, hp⟩ := List.exists_mem_of_ne_nil ps hne
    refine (list_sum_pos ?_ ⟨_, List.mem_map.mpr ⟨p, hp, rfl⟩, by exact_mod_cast hn p hp⟩).ne'
    intro x hx
    simp only [List.mem_map] at hx
    obtain ⟨y, _, rfl⟩ := hx
    exact Nat.cast_nonneg _
  have hqne : qs ≠ [] := by
    rintro rfl
    cases hall
    exact hne rfl
  have hr : r.b = weighted ps Period.b ∧ r.a = weighted ps Period.rate := by
    unfold bMaxlikeTime at h
    rw [hps, Recurrence.bind_ok, if_neg (by simpa using hne)] at h
    cases h
    exact ⟨rfl, rfl⟩
  refine ⟨_, by
    unfold bMaxlikeTime
    rw [hqs, Recurrence.bind_ok, if_neg (by simpa using hqne)]
    rfl, ?_, ?_, hb0, ha0⟩
  · rw [hr.1]
    exact weighted_fin (hall.imp fun _ _ h => ⟨h.1, h.2.1⟩) hpos
  · rw [hr.2]
    exact weighted_fin (hall.imp fun _ _ h => ⟨h.1, h.2.2⟩) hpos

/-- **C144** fails in this way: if no complete event is used, the b-value and the rate are NaN. -/
theorem C144_nan {ev : List (ℝ × ℝ)} {dmag ref y mc low : ℝ} (hd : 2e-5 ≤ dmag) (hE : Spec.completeEvents ev y mc ≠ [])
    (hl : Spec.Lowest (Spec.completeEvents ev y mc) low) (hu : Spec.used (Spec.completeEvents ev y mc) low dmag mc = []) :
    ∃ R, bMaxlikeTime (ev.map fp) [(fin y, fin mc)] (fin dmag) (fin ref) = .ok R ∧ R.b = nan ∧ R.a = nan := by
  have hd0 : 0 < dmag := lt_of_lt_of_le (by norm_num) hd
  have hmin : npMin [mc] = .ok mc := rfl
  obtain ⟨p, hp⟩ := (period_any (ev := ev) (dmag := dmag) (ref := ref) (c := y) hmin).2.2.2.2 hE hd
  obtain ⟨q, mc', low', hq, hn, hmc, hl', -, hnan⟩ := period_fin hd0 hp
  obtain rfl : mc' = mc := by simpa using hmc.1
  obtain rfl := hl'.unique hl
  obtain ⟨h1, h2⟩ := hnan hu
  have hg : groupOf [(fin y, fin mc')] (fin y) = [fin mc'] := by
    have := groupOf_fin [(y, mc')] y
    rw [show groupOf [(y, mc')] y = [mc'] by
      unfold groupOf
      rw [List.filter_eq_self.2]
      · rfl
      · intro e he
        obtain rfl := List.mem_singleton.1 he
        simp only [sub_self, npAbs_real, abs_zero, decide_eq_true_eq]
        norm_num] at this
    exact this
  have hps : periods (ev.map fp) [(fin y, fin mc')] (fin dmag) (fin ref) 0 = .ok [q] := by
    rw [periods]
    simp only [List.length_cons, List.length_nil, zero_add, Nat.lt_one_iff, dif_pos, List.getElem_cons_zero]
    rw [dif_neg (by rw [hg]; simp), hg]
    rw [show period (ev.map fp) (fin dmag) (fin ref) (fin y) [fin mc'] = .ok q from hq, Recurrence.bind_ok, periods]
    simp
  have hw : ∀ f : Period (XNum ℝ) → XNum ℝ, f q = nan → weighted [q] f = nan := by
    intro f hf
    unfold weighted
    simp only [List.map_cons, List.map_nil, hf]
    have hm : ∀ x : XNum ℝ, x * nan = nan := fun x => by rcases x with _ | _ | _ <;> rfl
    rw [hm]
    rfl
  exact ⟨_, by
    unfold bMaxlikeTime
    rw [hps]
    rfl, hw _ h1, hw _ h2⟩

/-- Property C144: with the default completeness table the b-value is an ordinary number. -/
theorem C144_fails : ¬ ∀ (ev : List (ℝ × ℝ)) (dmag ref y mc : ℝ) (R : GR (XNum ℝ)), 2e-5 ≤ dmag → IsLeast {m | ∃ e ∈ ev, e.1 = m} y →
    IsLeast {m | ∃ e ∈ ev, e.2 = m} mc → bMaxlikeTime (ev.map fp) [(fin y, fin mc)] (fin dmag) (fin ref) = .ok R → ∃ b, R.b = fin b := by
  intro H
  have hE : Spec.completeEvents [((2000 : ℝ), (4.08 : ℝ))] 2000 4.08 = [(2000, 4.08)] := by
    rw [Spec.completeEvents, List.filter_eq_self]
    simp only [List.mem_cons, List.not_mem_nil, or_false, forall_eq, decide_eq_true_eq]
    norm_num
  have hl : Spec.Lowest [((2000 : ℝ), (4.08 : ℝ))] 4 := by
    have f1 : ⌊(10 : ℝ) * 4.08⌋ = 40 := by rw [Int.floor_eq_iff]; norm_num
    refine ⟨⟨_, List.mem_cons_self, ?_⟩, ?_⟩
    · simp only [f1]; norm_num
    · rintro _ ⟨e, he, rfl⟩
      obtain rfl := List.mem_singleton.1 he
      simp only [f1]; norm_num
  have hu : Spec.used [((2000 : ℝ), (4.08 : ℝ))] 4 0.1 4.08 = [] := by
    rw [Spec.used, List.filter_cons, centre142.1]
    norm_num
  obtain ⟨R, hR, hb, -⟩ := C144_nan (ev := [((2000 : ℝ), (4.08 : ℝ))]) (dmag := 0.1) (ref := 0) (y := 2000) (mc := 4.08) (low := 4) (by norm_num)
    (by rw [hE]; simp) (by rw [hE]; exact hl) (by rw [hE]; exact hu)
  obtain ⟨b, hb'⟩ := H [((2000 : ℝ), (4.08 : ℝ))] 0.1 0 2000 4.08 R (by norm_num) ⟨⟨_, List.mem_cons_self, rfl⟩, by
      rintro _ ⟨e, he, rfl⟩
      obtain rfl := List.mem_singleton.1 he
      exact le_rfl⟩ ⟨⟨_, List.mem_cons_self, rfl⟩, by
      rintro _ ⟨e, he, rfl⟩
      obtain rfl := List.mem_singleton.1 he
      exact le_rfl⟩ hR
  rw [hb] at hb'
  cases hb'

/-- A NaN among the magnitudes is the default completeness magnitude, and no event is complete: the analysis fails. -/
theorem C143_default_table {ev : List (XNum ℝ × XNum ℝ)} {mc dmag ref : XNum ℝ} {y : ℝ} (hnan : nan ∈ ev.map Prod.snd) (hmc : npMin (ev.map Prod.snd) = .ok mc) :
    mc = nan ∧ bMaxlikeTime ev [(fin y, mc)] dmag ref = .error .valueError := by
  have hm : mc = nan := (npMin_nan hmc).2 hnan
  subst hm
  refine ⟨rfl, ?_⟩
  have hg : groupOf [(fin y, nan)] (fin y) = [nan] := by
    unfold groupOf
    have : npAbs (fin y - fin y) < (1e-5 : XNum ℝ) := by
      rw [fin_sub, npAbs_fin, fin_sci, fin_lt]
      norm_num
    simp [this]
  have hsel : periodEvents ev (fin y) nan = [] := by
    unfold periodEvents
    rw [List.filter_eq_nil_iff]
    intro e _
    have : (nan : XNum ℝ) - 1e-5 = nan := rfl
    rw [this]
    simp
  have hp : period ev dmag ref (fin y) [nan] = .error .valueError := by
    unfold period
    rw [show npMin [(nan : XNum ℝ)] = .ok nan from rfl, Recurrence.bind_ok]
    simp only [hsel]
    rfl
  unfold bMaxlikeTime
  rw [periods]
  simp only [List.length_cons, List.length_nil, zero_add, Nat.lt_one_iff, dif_pos, List.getElem_cons_zero]
  rw [dif_neg (by rw [hg]; simp), hg, hp]
  rfl

-- Two events in the years 2000 and 2001, the second one 0.92 above the completeness magnitude: the result is a number.
example : ∃ R b, bMaxlikeTime ([((2000 : ℝ), (4.08 : ℝ)), (2001, 5)].map fp) [(fin 2000, fin 4.08)] (fin 0.1) (fin 0) = .ok R ∧ R.b = fin b ∧ 0 < b := by
  have he : ∀ c ∈ [((2000 : ℝ), (4.08 : ℝ))], ∃ e ∈ [((2000 : ℝ), (4.08 : ℝ)), (2001, 5)], c.1 ≤ e.1 ∧ c.2 + 0.1 / 2 ≤ e.2 := by
    intro c hc
    obtain rfl := List.mem_singleton.1 hc
    exact ⟨(2001, 5), by simp, by norm_num, by norm_num⟩
  obtain ⟨r, hr, -⟩ := C125_periods_partial (ref := 0) (by norm_num : (0 : ℝ) < 0.1) (by simp) he
  obtain ⟨R, hR, hb, -, h0, -⟩ := C144_number_partial (by norm_num) he hr
  exact ⟨R, r.b, hR, hb, h0⟩

-- A catalogue of the magnitudes 5 and nan.
example : ∃ mc, npMin ([((fin 2000 : XNum ℝ), (fin 5 : XNum ℝ)), (fin 2001, nan)].map Prod.snd) = .ok mc ∧ mc = nan := by
  refine ⟨_, rfl, ?_⟩
  exact (npMin_nan (l := [(fin 5 : XNum ℝ), nan]) rfl).2 (by simp)

end Verif.Recurrence
