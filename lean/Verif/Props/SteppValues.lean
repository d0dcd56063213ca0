import Verif.Props.WeichertValues
import Verif.Props.CompletenessExamples

/-!
# C157: Stepp's test computed with infinities and NaN
-/

namespace Verif.Completeness

open Verif Verif.Np XNum Verif.Recurrence

theorem around2_fin (x : ℝ) : around2 (fin x) = fin (around2 x) := by
  unfold around2
  rw [fin_sci, fin_mul]
  show ((_ : ℤ) : XNum ℝ) / fin _ = _
  rw [fin_int, fin_div _ _ (by norm_num)]
  rfl

theorem steppCount_fin (ev : List (ℝ × ℝ)) (mbin : ℕ → ℝ) (nb : ℕ) (lower : ℝ) (jj : ℕ) :
    steppCount (ev.map fp) (fun j => fin (mbin j)) nb (fin lower) jj = steppCount ev mbin nb lower jj := by
  unfold steppCount
  rw [List.countP_map]
  refine List.countP_congr fun e _ => ?_
  simp only [Function.comp_apply, fp, ge_iff_le, fin_le, fin_lt]

theorem siglam_pos (count : ℕ → ℕ) (T : ℕ → ℝ) (k : ℕ) : 0 < siglam count T k := by
  unfold siglam
  simp only
  split_ifs with h
  · norm_num
  · exact lt_of_lt_of_le (by norm_num) (not_lt.mp h)

theorem siglam_fin (count : ℕ → ℕ) {T : ℕ → ℝ} {k : ℕ} (h : 0 < T k) : siglam count (fun j => fin (T j)) k = fin (siglam count T k) := by
  unfold siglam
  have h0 : 0 ≤ (count k : ℝ) / T k / T k := by positivity
  simp only [fin_nat, fin_div _ _ h.ne', fin_sqrt _ h0, fin_sci, fin_lt, sqrt_real]
  split_ifs <;> rfl

theorem dlogT_fin {T : ℕ → ℝ} {k : ℕ} (h : 0 < T k) (h' : 0 < T (k + 1)) : dlogT (fun j => fin (T j)) k = fin (dlogT T k) := by
  unfold dlogT
  rw [fin_log10 _ h, fin_log10 _ h', fin_sub]
  rfl

theorem dlogT_ne_zero {T : ℕ → ℝ} {k : ℕ} (h : 0 < T k) (h' : T k < T (k + 1)) : dlogT T k ≠ 0 :=
  (sub_pos.mpr (Real.logb_lt_logb (by norm_num) h h')).ne'

theorem timeDiff_fin {T : ℕ → ℝ} {k : ℕ} (h : 0 < T k) (h' : T k < T (k + 1)) : timeDiff (fun j => fin (T j)) k = fin (timeDiff T k) := by
  have h1 := h.trans h'
  have s0 : (0 : ℝ) < 1.0 / Real.sqrt (T k) := div_pos (by norm_num) (Real.sqrt_pos.2 h)
  have s1 : (0 : ℝ) < 1.0 / Real.sqrt (T (k + 1)) := div_pos (by norm_num) (Real.sqrt_pos.2 h1)
  unfold timeDiff
  rw [dlogT_fin h h1]
  simp only [fin_sqrt _ h.le, fin_sqrt _ h1.le, fin_sci, fin_div _ _ (Real.sqrt_pos.2 h).ne', fin_div _ _ (Real.sqrt_pos.2 h1).ne', fin_log10 _ s0, fin_log10 _ s1, fin_sub,
    fin_div _ _ (dlogT_ne_zero h h')]
  rfl

theorem resid_fin (count : ℕ → ℕ) {T : ℕ → ℝ} {k : ℕ} (h : 0 < T k) (h' : T k < T (k + 1)) : resid count (fun j => fin (T j)) k = fin (resid count T k) := by
  have h1 := h.trans h'
  unfold resid
  rw [dlogT_fin h h1, timeDiff_fin h h', siglam_fin count h, siglam_fin count h1, fin_log10 _ (siglam_pos count T k), fin_log10 _ (siglam_pos count T (k + 1)), fin_sub,
    fin_div _ _ (dlogT_ne_zero h h'), fin_sub]
  rfl

theorem exceeding_fin (count : ℕ → ℕ) {T : ℕ → ℝ} {nt : ℕ} (h : 0 < nt → ∀ k, 0 < T k ∧ T k < T (k + 1)) (ttol : ℝ) :
    exceeding count (fun j => fin (T j)) nt (fin ttol) = exceeding count T nt ttol := by
  unfold exceeding
  refine List.filter_congr fun k hk => ?_
  have hn := h (by have := List.mem_range.mp hk; omega)
  rw [resid_fin count (hn k).1 (hn k).2, resid_fin count (hn (k + 1)).1 (hn (k + 1)).2, fin_sub, npAbs_fin, npAbs_real]
  simp only [gt_iff_lt, fin_lt]

/-- Bins with ordinary numbers. -/
def fb (b : SteppBins ℝ) : SteppBins (XNum ℝ) := ⟨b.nb, fun j => fin (b.mbin j), b.nt, fun k => fin (b.timeRange k), fin b.endTime, b.obs⟩

theorem steppBins_fin (ev : List (ℝ × ℝ)) (dm dt : ℝ) : steppBins (ev.map fp) (fin dm) (fin dt) = (steppBins ev dm dt).map fb := by
  rcases eq_or_ne ev [] with rfl | hne
  · rfl
  have e0 : (ev.map fp).map (fun e => (e.1, around2 e.2)) = (ev.map fun e => (e.1, around2 e.2)).map fp := by
    rw [List.map_map, List.map_map]
    refine List.map_congr_left fun e _ => ?_
    simp only [Function.comp_apply, fp, around2_fin]
  unfold steppBins
  simp only [e0]
  have hne' : (ev.map fun e : ℝ × ℝ => (e.1, around2 e.2)) ≠ [] := by simpa using hne
  generalize (ev.map fun e : ℝ × ℝ => (e.1, around2 e.2)) = ev' at *
  have e1 : (ev'.map fp).map Prod.fst = (ev'.map Prod.fst).map fin := by simp [fp, Function.comp_def]
  have e2 : (ev'.map fp).map Prod.snd = (ev'.map Prod.snd).map fin := by simp [fp, Function.comp_def]
  obtain ⟨y1, hy1⟩ := npMax_exists (l := ev'.map Prod.fst) (by simpa using hne')
  obtain ⟨y0, hy0⟩ := npMin_exists (l := ev'.map Prod.fst) (by simpa using hne')
  obtain ⟨m1, hm1⟩ := npMax_exists (l := ev'.map Prod.snd) (by simpa using hne')
  obtain ⟨m0, hm0⟩ := npMin_exists (l := ev'.map Prod.snd) (by simpa using hne')
  have h10 : (10.0 : ℝ) ≠ 0 := by norm_num
  simp only [e1, e2, npMin_fin, npMax_fin, hy1, hy0, hm1, hm0, Except.map, Recurrence.bind_ok, fin_sci, fin_mul, fin_floor, fin_ceil, fin_int, fin_div _ _ h10, fin_zero, fin_eq, decEq_real,
    fin_nat, fin_sub, fin_add]
  by_cases hdm : dm = 0
  · simp only [hdm, decide_true, if_true]
    rfl
  by_cases hdt : dt = 0
  · simp only [hdm, hdt, decide_true, decide_false, Bool.false_eq_true, if_true, if_false]
    rfl
  simp only [hdm, hdt, decide_false, Bool.false_eq_true, if_false, arangeLen_fin _ _ _ hdm, arangeLen_fin _ _ _ hdt, floorZ_real, ceilZ_real]
  split_ifs with hz
  · rfl
  · show Except.ok _ = Except.ok _
    congr 1
    unfold fb
    congr 1
    · funext ii jj
      have : arangeAt (fin (((⌊(10.0 : ℝ) * m0⌋ : ℤ) : ℝ) / 10.0)) (fin dm) = fun j => fin (arangeAt (((⌊(10.0 : ℝ) * m0⌋ : ℤ) : ℝ) / 10.0) dm j) := by
        funext j; exact arangeAt_fin _ _ _
      rw [this, arangeAt_fin, fin_sub, steppCount_fin]

/-- The time steps of the test are positive and increasing, if there are any. -/
theorem steppBins_times {ev : List (ℝ × ℝ)} {dm dt : ℝ} {b : SteppBins ℝ} (h : steppBins ev dm dt = .ok b) (hn : 0 < b.nt) (k : ℕ) :
    0 < b.timeRange k ∧ b.timeRange k < b.timeRange (k + 1) := by
  rcases eq_or_ne ev [] with rfl | hne
  · cases h
  unfold steppBins at h
  have hne' : (ev.map fun e : ℝ × ℝ => (e.1, around2 e.2)) ≠ [] := by simpa using hne
  simp only at h
  generalize (ev.map fun e : ℝ × ℝ => (e.1, around2 e.2)) = ev' at *
  obtain ⟨y1, hy1⟩ := npMax_exists (l := ev'.map Prod.fst) (by simpa using hne')
  obtain ⟨y0, hy0⟩ := npMin_exists (l := ev'.map Prod.fst) (by simpa using hne')
  obtain ⟨m1, hm1⟩ := npMax_exists (l := ev'.map Prod.snd) (by simpa using hne')
  obtain ⟨m0, hm0⟩ := npMin_exists (l := ev'.map Prod.snd) (by simpa using hne')
  have hy : y0 ≤ y1 := (npMin_ok hy0).2 (npMax_ok hy1).1
  simp only [hy1, hy0, hm1, hm0, Recurrence.bind_ok, decEq_real] at h
  by_cases hdm : dm = 0
  · simp only [hdm, decide_true, if_true] at h
    cases h
  by_cases hdt : dt = 0
  · simp only [hdm, hdt, decide_true, decide_false, Bool.false_eq_true, if_true, if_false] at h
    cases h
  simp only [hdm, hdt, decide_false, Bool.false_eq_true, if_false] at h
  split_ifs at h with hz
  · cases h
  · obtain rfl := Except.ok.inj h
    have hpos : 0 < dt := by
      by_contra hc
      have hneg : dt < 0 := lt_of_le_of_ne (not_lt.mp hc) hdt
      simp only [arangeLen, ceilZ_real] at hn
      have : ⌈(y1 - y0 + ((2 : ℕ) : ℝ) - dt) / dt⌉ ≤ 0 := by
        rw [Int.ceil_le]
        push_cast
        exact (div_neg_of_pos_of_neg (by linarith) hneg).le
      omega
    simp only [arangeAt_real]
    push_cast
    constructor <;> nlinarith [(Nat.cast_nonneg k : (0 : ℝ) ≤ k)]

/-- **C157**: computed with infinities and NaN, Stepp's test gives for every catalogue of ordinary numbers and every setting the table, or the exception, of exact arithmetic; the
table holds ordinary numbers only. -/
theorem C157_stepp_numbers (ev : List (ℝ × ℝ)) (dm dt ttol : ℝ) (iloc : Bool) :
    stepp (ev.map fp) (fin dm) (fin dt) (fin ttol) iloc = (stepp ev dm dt ttol iloc).map (List.map fp) := by
  unfold stepp
  rw [steppBins_fin]
  rcases hb : steppBins ev dm dt with e | b
  · rfl
  simp only [Except.map, Recurrence.bind_ok]
  have ht := steppBins_times hb
  have hlocs : (List.range (fb b).nb).map (fun jj => steppLoc (exceeding (fun ii => (fb b).obs ii jj) (fb b).timeRange (fb b).nt (fin ttol))) =
      (List.range b.nb).map fun jj => steppLoc (exceeding (fun ii => b.obs ii jj) b.timeRange b.nt ttol) := by
    refine List.map_congr_left fun jj _ => ?_
    exact congrArg steppLoc (exceeding_fin _ ht ttol)
  rw [hlocs]
  generalize (List.range b.nb).map (fun jj => steppLoc (exceeding (fun ii => b.obs ii jj) b.timeRange b.nt ttol)) = locs
  rw [show (fb b).nt = b.nt from rfl]
  generalize steppTlocs iloc b.nt none locs = tl
  have hm : tl.mapM (compLength (fb b).timeRange b.nt) = (tl.mapM (compLength b.timeRange b.nt)).map (List.map fin) := by
    induction tl with
    | nil => rfl
    | cons t tl ih =>
      rw [List.mapM_cons, List.mapM_cons, ih]
      unfold compLength
      by_cases h : t < b.nt
      · simp only [h, if_true]
        rcases tl.mapM fun t => if t < b.nt then Except.ok (b.timeRange t) else Except.error PyErr.indexError with e | l
        · rfl
        · rfl
      · simp only [h, if_false]
        rfl
  rw [hm]
  rcases tl.mapM (compLength b.timeRange b.nt) with e | lengths
  · rfl
  simp only [Except.map, Recurrence.bind_ok]
  show Except.ok _ = Except.ok _
  congr 1
  rw [show (fb b).nb = b.nb from rfl]
  generalize List.range b.nb = r
  induction lengths generalizing r with
  | nil => rfl
  | cons c l ih =>
    cases r with
    | nil => rfl
    | cons j r =>
      simp only [List.map_cons, List.zipWith_cons_cons]
      rw [ih r]
      simp only [fb, fp, fin_sub]

/-- The catalogue of C56. -/
example : stepp (cat56.map fp) (fin 1) (fin 1) (fin 0.2) false = .ok [(fin 2001, fin 4), (fin 2001, fin 5)] := by
  rw [C157_stepp_numbers, run56]
  rfl

end Verif.Completeness
