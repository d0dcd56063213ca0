import Verif.Model.Completeness
import Verif.Spec.Completeness
import Verif.Lemmas.Numpy

/-! # Lemmas about the completeness model -/

namespace Verif.Completeness

open Verif Verif.Np

section
variable {F : Type} [PyNum F]

theorem markRow_length (ev : List (F × F)) (t : List Int) (c : F × F) (h : t.length = ev.length) :
    (markRow ev t c).length = ev.length := by
  simp [markRow, h]

theorem mark_fold_length (ev table : List (F × F)) (t : List Int) (h : t.length = ev.length) :
    (table.foldl (markRow ev) t).length = ev.length := by
  induction table generalizing t with
  | nil => exact h
  | cons c l ih => exact ih _ (markRow_length ev t c h)

theorem mark_fold_get (ev table : List (F × F)) (t : List Int) (h : t.length = ev.length) (i : ℕ) (hi : i < ev.length)
    (h01 : ∀ (j : ℕ) (hj : j < t.length), t[j] = 0 ∨ t[j] = 1) :
    ((table.foldl (markRow ev) t)[i]'(by rw [mark_fold_length ev table t h]; exact hi) ≠ 0 ↔
      t[i] ≠ 0 ∨ ∃ c ∈ table, Spec.RowExcludes c ev[i]) := by
  induction table generalizing t with
  | nil => simp
  | cons c l ih =>
    simp only [List.foldl_cons]
    rw [ih (markRow ev t c) (markRow_length ev t c h) ?_]
    · simp only [markRow, List.getElem_zipWith, List.mem_cons, exists_eq_or_imp]
      by_cases hc : Spec.RowExcludes c ev[i]
      · have hc' := hc
        simp only [Spec.RowExcludes] at hc'
        simp [hc, hc'.1, hc'.2]
      · have : ¬ ((decide (ev[i].1 < c.1) && decide (ev[i].2 < c.2)) = true) := by
          simpa [Spec.RowExcludes] using hc
        simp only [this, hc, if_false, false_or]
        simp
    · intro j hj
      simp only [markRow, List.getElem_zipWith]
      split_ifs
      · right; rfl
      · exact h01 j (by simp only [markRow, List.length_zipWith] at hj; omega)

theorem selected_get (ev table : List (F × F)) (flag : List Int) (h : flag.length = ev.length) :
    ∃ out, selectedEqFlagVector ev table flag = .ok out ∧ out.length = ev.length ∧
      ∀ (i : ℕ) (hi : i < ev.length) (ho : i < out.length), (out[i] = 0 ∨ out[i] = 1) ∧
        (out[i] = 1 ↔ flag[i] ≠ 0 ∨ ∃ c ∈ table, Spec.RowExcludes c ev[i]) := by
  refine ⟨_, by simp only [selectedEqFlagVector, h, if_true]; rfl, ?_, ?_⟩
  · simp [mark_fold_length, h]
  · intro i hi ho
    have hl : (List.replicate ev.length (0 : Int)).length = ev.length := by simp
    have hg := mark_fold_get ev table (List.replicate ev.length 0) hl i hi (by intro j hj; simp)
    simp only [List.getElem_replicate, ne_eq, not_true_eq_false, false_or] at hg
    simp only [List.getElem_zipWith, mergeFlag]
    split_ifs with hh
    · refine ⟨Or.inr rfl, ?_⟩
      simp only [ne_eq, Bool.or_eq_true, decide_eq_true_eq] at hh
      simp only [true_iff]
      rcases hh with hh | hh
      · exact Or.inr (hg.mp hh)
      · exact Or.inl hh
    · refine ⟨Or.inl rfl, ?_⟩
      simp only [ne_eq, Bool.or_eq_true, decide_eq_true_eq, not_or, not_not] at hh
      simp only [Int.zero_ne_one, false_iff, not_or]
      exact ⟨by simp [hh.2], fun hx => (hg.mpr hx) hh.1⟩

end

/-! ### Locations -/

section
variable {F : Type} [PyMath F]

theorem exceeding_mem {count : ℕ → ℕ} {tr : ℕ → F} {nt : ℕ} {ttol : F} {k : ℕ} (h : k ∈ exceeding count tr nt ttol) : k < nt - 2 := by
  simp only [exceeding, List.mem_filter, List.mem_range] at h
  exact h.1

theorem steppLoc_mem {ex : List ℕ} {k : ℕ} (h : steppLoc ex = some k) : k ∈ ex := by
  simp only [steppLoc] at h
  split_ifs at h
  exact List.mem_of_getLast? h

theorem steppTlocs_length (iloc : Bool) (nt : ℕ) (prev : Option ℕ) (locs : List (Option ℕ)) :
    (steppTlocs iloc nt prev locs).length = locs.length := by
  induction locs generalizing prev with
  | nil => rfl
  | cons l ls ih => simp [steppTlocs, ih]

theorem steppTloc_le {iloc : Bool} {nt : ℕ} {prev : Option ℕ} {loc : Option ℕ} {B : ℕ} (hp : ∀ p, prev = some p → p ≤ B)
    (hl : ∀ l, loc = some l → l ≤ B) : steppTloc iloc nt prev loc ≤ B := by
  unfold steppTloc
  rcases loc with _ | l <;> rcases prev with _ | p <;> simp only [Option.getD_none, Option.getD_some]
  · exact Nat.zero_le _
  · have := hp p rfl
    split_ifs <;> omega
  · have := hl l rfl
    split_ifs <;> omega
  · have := hp p rfl
    have := hl l rfl
    split_ifs <;> omega

theorem steppTlocs_le {iloc : Bool} {nt : ℕ} {B : ℕ} {prev : Option ℕ} {locs : List (Option ℕ)} (hp : ∀ p, prev = some p → p ≤ B)
    (hl : ∀ l, some l ∈ locs → l ≤ B) : ∀ t ∈ steppTlocs iloc nt prev locs, t ≤ B := by
  induction locs generalizing prev with
  | nil => simp [steppTlocs]
  | cons l ls ih =>
    intro t ht
    simp only [steppTlocs, List.mem_cons] at ht
    have hh : steppTloc iloc nt prev l ≤ B := steppTloc_le hp (fun x hx => hl x (by simp [hx]))
    rcases ht with rfl | ht
    · exact hh
    · refine ih ?_ (fun x hx => hl x (List.mem_cons_of_mem _ hx)) t ht
      intro p hp'
      simp only [Option.some.injEq] at hp'
      omega

theorem steppTloc_lock {nt : ℕ} {p : ℕ} {loc : Option ℕ} : p ≤ steppTloc true nt (some p) loc := by
  simp only [steppTloc, Bool.true_and, decide_eq_true_eq]
  split_ifs <;> omega

theorem steppTlocs_lock {nt : ℕ} {locs : List (Option ℕ)} {prev : Option ℕ} :
    (∀ p, prev = some p → ∀ t ∈ steppTlocs true nt prev locs, p ≤ t) ∧ (steppTlocs true nt prev locs).Pairwise (· ≤ ·) := by
  induction locs generalizing prev with
  | nil => simp [steppTlocs]
  | cons l ls ih =>
    obtain ⟨h1, h2⟩ := ih (prev := some (steppTloc true nt prev l))
    have h1 := h1 _ rfl
    refine ⟨?_, ?_⟩
    · rintro p rfl t ht
      simp only [steppTlocs, List.mem_cons] at ht
      rcases ht with rfl | ht
      · exact steppTloc_lock
      · exact steppTloc_lock.trans (h1 t ht)
    · simp only [steppTlocs, List.pairwise_cons]
      exact ⟨h1, h2⟩

/-- Without lock, a bin with a location uses it, one without uses its predecessor. -/
theorem steppTlocs_get {nt : ℕ} (locs : List (Option ℕ)) (prev : Option ℕ) (hl : ∀ l, some l ∈ locs → l ≤ nt) (i : ℕ)
    (hi : i < (steppTlocs false nt prev locs).length) (hi' : i < locs.length) :
    (∀ l, locs[i] = some l → (steppTlocs false nt prev locs)[i] = l) ∧
      (locs[i] = none → (steppTlocs false nt prev locs)[i] =
        match i with
        | 0 => prev.getD 0
        | j + 1 => (steppTlocs false nt prev locs)[j]'(by omega)) := by
  induction locs generalizing prev i with
  | nil => simp at hi'
  | cons l ls ih =>
    cases i with
    | zero =>
      simp only [steppTlocs, List.getElem_cons_zero]
      refine ⟨?_, ?_⟩
      · rintro x rfl
        have := hl x (by simp)
        simp only [steppTloc, Bool.false_and, Bool.false_eq_true, if_false]
        rcases prev with _ | p <;> simp only [] <;> split_ifs <;> omega
      · rintro rfl
        simp only [steppTloc, Bool.false_and, Bool.false_eq_true, if_false]
        rcases prev with _ | p <;> rfl
    | succ i =>
      have hi2 : i < ls.length := by simpa using hi'
      have := ih (some (steppTloc false nt prev l)) (fun x hx => hl x (List.mem_cons_of_mem _ hx)) i
        (by rw [steppTlocs_length]; exact hi2) hi2
      refine ⟨fun x hx => ?_, fun hx => ?_⟩
      · simp only [steppTlocs, List.getElem_cons_succ]
        exact this.1 x (by simpa using hx)
      · simp only [steppTlocs, List.getElem_cons_succ]
        rw [this.2 (by simpa using hx)]
        cases i with
        | zero => simp
        | succ j => simp [steppTlocs]

theorem mapM_compLength {tr : ℕ → F} {nt : ℕ} (ts : List ℕ) :
    ts.mapM (compLength tr nt) = if ∀ t ∈ ts, t < nt then .ok (ts.map tr) else .error .indexError := by
  induction ts with
  | nil => simp; rfl
  | cons t ts ih =>
    rw [List.mapM_cons, ih]
    by_cases h : t < nt
    · by_cases h2 : ∀ t ∈ ts, t < nt
      · have : ∀ x ∈ t :: ts, x < nt := by
          intro x hx; rcases List.mem_cons.mp hx with rfl | hx; exacts [h, h2 x hx]
        rw [if_pos h2, if_pos this]
        simp only [compLength, h, if_true, List.map_cons]
        rfl
      · have : ¬ ∀ x ∈ t :: ts, x < nt := fun hh => h2 fun x hx => hh x (List.mem_cons_of_mem _ hx)
        rw [if_neg h2, if_neg this]
        simp only [compLength, h, if_true]
        rfl
    · have : ¬ ∀ x ∈ t :: ts, x < nt := fun hh => h (hh t (by simp))
      rw [if_neg this]
      simp only [compLength, h, if_false]
      rfl

end

/-! ### The bins at `ℝ` -/

theorem around2_real (x : ℝ) : around2 x = Spec.mag2 x := by
  simp only [around2, Spec.mag2, rintZ_real]
  norm_num

theorem steppBins_spec {ev : List (ℝ × ℝ)} {dm dt : ℝ} (hev : ev ≠ []) (hdm : 0 < dm) (hdt : 0 < dt) :
    ∃ b low high y0 y1, steppBins ev dm dt = .ok b ∧ Spec.Binning ev low high y0 y1 ∧
      (∀ j, b.mbin j = low + j * dm) ∧ (∀ k, b.timeRange k = ((k : ℝ) + 1) * dt) ∧ b.endTime = y1 ∧
      (∀ k, k < b.nb ↔ low + k * dm < high) ∧ (∀ k, k < b.nt ↔ ((k : ℝ) + 1) * dt < y1 - y0 + 2) ∧
      (∀ ii jj, b.obs ii jj = if jj + 1 = b.nb then Spec.eventsAbove ev (low + jj * dm) (y1 - (ii + 1) * dt)
        else Spec.eventsIn ev (low + jj * dm) (low + (jj + 1) * dm) (y1 - (ii + 1) * dt)) := by
  have hev2 : ev.map (fun e => (e.1, (around2 e.2 : ℝ))) = ev.map (fun e => (e.1, Spec.mag2 e.2)) := by
    simp only [around2_real]
  have hmne : ((ev.map (fun e => (e.1, Spec.mag2 e.2))).map Prod.snd) ≠ [] := by simpa using hev
  have hyne : ((ev.map (fun e => (e.1, Spec.mag2 e.2))).map Prod.fst) ≠ [] := by simpa using hev
  obtain ⟨m, hm⟩ := npMin_exists hmne
  obtain ⟨M, hM⟩ := npMax_exists hmne
  obtain ⟨y0, hy0⟩ := npMin_exists hyne
  obtain ⟨y1, hy1⟩ := npMax_exists hyne
  have hm' := npMin_ok hm
  have hM' := npMax_ok hM
  have hy0' := npMin_ok hy0
  have hy1' := npMax_ok hy1
  have e1 : {y | y ∈ (ev.map (fun e => (e.1, Spec.mag2 e.2))).map Prod.snd} = {x | ∃ e ∈ ev, Spec.mag2 e.2 = x} := by
    ext x; simp
  have e2 : {y | y ∈ (ev.map (fun e => (e.1, Spec.mag2 e.2))).map Prod.fst} = {x | ∃ e ∈ ev, e.1 = x} := by
    ext x; simp
  rw [e1] at hm' hM'
  rw [e2] at hy0' hy1'
  have hmM : m ≤ M := hM'.2 hm'.1
  have hlh : (⌊10 * m⌋ : ℝ) / 10 ≤ (⌈10 * M⌉ : ℝ) / 10 := by
    have h1 := Int.floor_le (10 * m)
    have h2 := Int.le_ceil (10 * M)
    linarith
  set low : ℝ := (⌊10 * m⌋ : ℝ) / 10 with hlow
  set high : ℝ := (⌈10 * M⌉ : ℝ) / 10 with hhigh
  have h0 : 0 < arangeLen low (high + dm) dm := by
    rw [lt_arangeLen hdm]
    push_cast
    linarith
  refine ⟨{ nb := arangeLen low (high + dm) dm - 1, mbin := arangeAt low dm, nt := arangeLen dt (y1 - y0 + ((2 : ℕ) : ℝ)) dt
            timeRange := arangeAt dt dt, endTime := y1
            obs := fun ii jj => steppCount (ev.map (fun e => (e.1, Spec.mag2 e.2))) (arangeAt low dm)
              (arangeLen low (high + dm) dm - 1) (y1 - arangeAt dt dt ii) jj },
    low, high, y0, y1, ?_, ⟨⟨m, hm', hlow⟩, ⟨M, hM', hhigh⟩, hy0', hy1'⟩, ?_⟩
  · unfold steppBins
    simp only [hev2, hm, hM, hy0, hy1]
    simp only [bind, Except.bind, decEq_real, hdm.ne', hdt.ne', decide_false, Bool.false_eq_true, if_false, floorZ_real, ceilZ_real]
    norm_num only
    rw [← hlow, ← hhigh, if_neg h0.ne']
    rfl
  · refine ⟨fun j => ?_, fun k => ?_, rfl, fun k => ?_, fun k => ?_, fun ii jj => ?_⟩
    · simp only [arangeAt_real]
    · simp only [arangeAt_real]; ring
    · simp only []
      rw [show k < arangeLen low (high + dm) dm - 1 ↔ k + 1 < arangeLen low (high + dm) dm by omega, lt_arangeLen hdm]
      push_cast
      constructor <;> intro h <;> linarith
    · simp only []
      rw [lt_arangeLen hdt]
      push_cast
      constructor <;> intro h <;> linarith
    · simp only [steppCount, List.countP_map, arangeAt_real, Spec.eventsAbove, Spec.eventsIn]
      have ht : y1 - (dt + (ii : ℝ) * dt) = y1 - ((ii : ℝ) + 1) * dt := by ring
      split_ifs with hj
      · congr 1
        funext e
        simp [ht]
      · congr 1
        funext e
        simp [ht, Bool.decide_and]

/-- The table in terms of the locations. -/
theorem stepp_eq {F : Type} [PyMath F] {ev : List (F × F)} {dm dt ttol : F} {iloc : Bool} {b : SteppBins F} (hb : steppBins ev dm dt = .ok b) :
    stepp ev dm dt ttol iloc =
      let ts := steppTlocs iloc b.nt none
        ((List.range b.nb).map (fun jj => steppLoc (exceeding (fun ii => b.obs ii jj) b.timeRange b.nt ttol)))
      if ∀ t ∈ ts, t < b.nt then .ok (List.zipWith (fun t jj => (b.endTime - b.timeRange t, b.mbin jj)) ts (List.range b.nb))
      else .error .indexError := by
  unfold stepp
  simp only [hb, bind, Except.bind]
  rw [mapM_compLength]
  split_ifs with h
  · simp only [pure, Except.pure, List.zipWith_map_left]
  · rfl

/-- Every location is one of the first `nt - 2`, or 0. -/
theorem tlocs_lt {F : Type} [PyMath F] {b : SteppBins F} {iloc : Bool} {ttol : F} :
    ∀ t ∈ steppTlocs iloc b.nt none
      ((List.range b.nb).map (fun jj => steppLoc (exceeding (fun ii => b.obs ii jj) b.timeRange b.nt ttol))), t ≤ b.nt - 3 := by
  apply steppTlocs_le (by simp)
  intro l hl
  simp only [List.mem_map, List.mem_range] at hl
  obtain ⟨jj, _, hl⟩ := hl
  have := exceeding_mem (steppLoc_mem hl)
  omega

/-! ### The change of slope -/

theorem siglam_real (n : ℕ → ℕ) (tr : ℕ → ℝ) (k : ℕ) (ht : 0 < tr k) : siglam n tr k = Spec.sigma (n k) (tr k) := by
  simp only [siglam, Spec.sigma, sqrt_real]
  rw [Real.sqrt_div' _ ht.le]
  split_ifs with h
  · exact (max_eq_left h.le).symm
  · exact (max_eq_right (not_lt.mp h)).symm

theorem dlogT_ne {dt : ℝ} (hdt : 0 < dt) {tr : ℕ → ℝ} (htr : ∀ k, tr k = ((k : ℝ) + 1) * dt) (k : ℕ) : dlogT tr k ≠ 0 := by
  have h0 : 0 < tr k := by rw [htr]; positivity
  have h1 : tr k < tr (k + 1) := by
    rw [htr, htr]; push_cast
    nlinarith
  simp only [dlogT, log10_real]
  exact (sub_pos.mpr (Real.logb_lt_logb (by norm_num) h0 h1)).ne'

theorem timeDiff_real {dt : ℝ} (hdt : 0 < dt) {tr : ℕ → ℝ} (htr : ∀ k, tr k = ((k : ℝ) + 1) * dt) (k : ℕ) : timeDiff tr k = -(1 / 2) := by
  have h0 : ∀ k, 0 < tr k := fun k => by rw [htr]; positivity
  have hne := dlogT_ne hdt htr k
  have hl : ∀ k, Real.logb 10 ((1.0 : ℝ) / Real.sqrt (tr k)) = -(1 / 2) * Real.logb 10 (tr k) := by
    intro k
    rw [show (1.0 : ℝ) = 1 by norm_num, one_div, Real.logb_inv, Real.sqrt_eq_rpow, Real.logb_rpow_eq_mul_logb_of_pos (h0 k)]
    ring
  simp only [timeDiff, sqrt_real, log10_real]
  rw [hl, hl, div_eq_iff hne]
  simp only [dlogT, log10_real]
  ring

theorem resid_diff {dt : ℝ} (hdt : 0 < dt) {tr : ℕ → ℝ} (htr : ∀ k, tr k = ((k : ℝ) + 1) * dt) (n : ℕ → ℕ) (k : ℕ) :
    npAbs (resid n tr (k + 1) - resid n tr k) = Spec.slopeChange n dt k := by
  have h0 : ∀ k, 0 < tr k := fun k => by rw [htr]; positivity
  have hs : ∀ k, resid n tr k = Spec.slope n dt k + 1 / 2 := by
    intro k
    simp only [resid, timeDiff_real hdt htr, siglam_real n tr _ (h0 _), dlogT, log10_real, Spec.slope]
    rw [htr, htr]
    push_cast
    rw [show (k : ℝ) + 1 + 1 = k + 2 by ring]
    ring
  rw [npAbs_real, hs, hs, Spec.slopeChange]
  congr 1
  ring

theorem exceeding_real {dt : ℝ} (hdt : 0 < dt) {tr : ℕ → ℝ} (htr : ∀ k, tr k = ((k : ℝ) + 1) * dt) (n : ℕ → ℕ) (nt : ℕ) (ttol : ℝ) :
    exceeding n tr nt ttol = (List.range (nt - 2)).filter fun k => decide (ttol < Spec.slopeChange n dt k) := by
  simp only [exceeding]
  refine List.filter_congr fun k _ => ?_
  rw [resid_diff hdt htr]

/-- The last element of a filtered range. -/
theorem getLast?_filter_range (p : ℕ → Bool) (m k : ℕ) :
    ((List.range m).filter p).getLast? = some k ↔ k < m ∧ p k = true ∧ ∀ k', k < k' → k' < m → p k' = false := by
  induction m with
  | zero => simp
  | succ m ih =>
    rw [List.range_succ, List.filter_append]
    by_cases hp : p m
    · simp only [List.filter_cons, hp, if_true, List.filter_nil, List.getLast?_append, List.getLast?_singleton, Option.some_or,
        Option.some.injEq]
      constructor
      · rintro rfl
        exact ⟨by omega, hp, fun k' h1 h2 => by omega⟩
      · rintro ⟨h1, h2, h3⟩
        by_contra hne
        have := h3 m (by omega) (by omega)
        simp [hp] at this
    · simp only [List.filter_cons, hp, List.filter_nil, List.append_nil, Bool.false_eq_true, if_false, ih]
      constructor
      · rintro ⟨h1, h2, h3⟩
        refine ⟨by omega, h2, fun k' h4 h5 => ?_⟩
        by_cases hk : k' = m
        · subst hk; simpa using hp
        · exact h3 k' h4 (by omega)
      · rintro ⟨h1, h2, h3⟩
        refine ⟨?_, h2, fun k' h4 h5 => h3 k' h4 (by omega)⟩
        by_contra hk
        have : k = m := by omega
        subst this
        exact hp h2

end Verif.Completeness
