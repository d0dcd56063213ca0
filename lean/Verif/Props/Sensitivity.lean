import Verif.Props.CompletenessExamples

/-!
# Property C118: the sensitivity of Stepp's test
-/

namespace Verif.Completeness

open Verif Verif.Np

/-- The last of fewer indices is not later; `none` counts as before all of them. -/
theorem steppLoc_mono (p q : ℕ → Bool) (hpq : ∀ k, q k = true → p k = true) (m a : ℕ)
    (h : steppLoc ((List.range m).filter q) = some a) : ∃ b, steppLoc ((List.range m).filter p) = some b ∧ a ≤ b := by
  unfold steppLoc at h ⊢
  split_ifs at h with hq
  rw [List.any_eq_true] at hq
  obtain ⟨k, hk, hk0⟩ := hq
  have hp : ((List.range m).filter p).any (fun k => decide (k ≠ 0)) = true := by
    rw [List.any_eq_true]
    rw [List.mem_filter] at hk
    exact ⟨k, List.mem_filter.mpr ⟨hk.1, hpq k hk.2⟩, hk0⟩
  rw [if_pos hp]
  have hne : (List.range m).filter p ≠ [] := by
    intro hc; rw [hc] at hp; simp at hp
  refine ⟨_, List.getLast?_eq_some_getLast hne, ?_⟩
  have hl := List.getLast?_eq_some_getLast hne
  rw [getLast?_filter_range] at hl h
  by_contra hc
  have := hl.2.2 a (not_le.mp hc) h.1
  rw [hpq a h.2.1] at this
  exact absurd this (by simp)

/-- `a` is not later than `b`, where `none` is before everything. -/
def LocLE (a b : Option ℕ) : Prop := ∀ x, a = some x → ∃ y, b = some y ∧ x ≤ y

theorem LocLE.getD {a b : Option ℕ} (h : LocLE a b) : a.getD 0 ≤ b.getD 0 := by
  cases a with
  | none => exact Nat.zero_le _
  | some x => obtain ⟨y, rfl, hxy⟩ := h x rfl; exact hxy

theorem steppTloc_true (nt : ℕ) (prev loc : Option ℕ) : steppTloc true nt prev loc = max (prev.getD 0) (min nt (loc.getD 0)) := by
  unfold steppTloc
  rcases loc with _ | l <;> rcases prev with _ | p <;>
    simp only [Option.getD_none, Option.getD_some, Bool.true_and, decide_eq_true_eq] <;> (try split_ifs) <;> omega

theorem tlocs_mono_lock (nt : ℕ) (locs locs' : List (Option ℕ)) (h : List.Forall₂ LocLE locs' locs) (prev prev' : Option ℕ)
    (hp : prev'.getD 0 ≤ prev.getD 0) : List.Forall₂ (· ≤ ·) (steppTlocs true nt prev' locs') (steppTlocs true nt prev locs) := by
  induction h generalizing prev prev' with
  | nil => exact .nil
  | @cons a b _ _ hab _ ih =>
    have : steppTloc true nt prev' a ≤ steppTloc true nt prev b := by
      rw [steppTloc_true, steppTloc_true]
      have := hab.getD
      omega
    exact .cons this (ih _ _ this)

theorem tlocs_mono_located (nt : ℕ) (locs locs' : List (Option ℕ)) (h : List.Forall₂ LocLE locs' locs) (hs : ∀ l ∈ locs', l ≠ none)
    (prev prev' : Option ℕ) : List.Forall₂ (· ≤ ·) (steppTlocs false nt prev' locs') (steppTlocs false nt prev locs) := by
  induction h generalizing prev prev' with
  | nil => exact .nil
  | @cons a b l l' hab _ ih =>
    have : steppTloc false nt prev' a ≤ steppTloc false nt prev b := by
      obtain ⟨x, rfl⟩ := Option.ne_none_iff_exists'.mp (hs a (List.mem_cons_self ..))
      obtain ⟨y, rfl, hxy⟩ := hab x rfl
      have e : ∀ (pr : Option ℕ) z, steppTloc false nt pr (some z) = min nt z := by
        intro pr z
        unfold steppTloc
        cases pr <;> simp <;> split_ifs <;> omega
      rw [e, e]; omega
    exact .cons this (ih (fun l hl => hs l (List.mem_cons_of_mem _ hl)) _ _)

/-- The second table has the magnitudes of the first one and no earlier year. -/
def Spec.NoEarlier (table table' : List (ℝ × ℝ)) : Prop :=
  List.Forall₂ (fun r r' => r'.2 = r.2 ∧ r.1 ≤ r'.1) table table'

theorem noEarlier_of (y1 dt : ℝ) (hdt : 0 < dt) (mbin : ℕ → ℝ) (ts ts' : List ℕ)
    (h : List.Forall₂ (· ≤ ·) ts' ts) (l : List ℕ) :
    Spec.NoEarlier (List.zipWith (fun (t : ℕ) jj => (y1 - ((t : ℝ) + 1) * dt, mbin jj)) ts l)
      (List.zipWith (fun (t : ℕ) jj => (y1 - ((t : ℝ) + 1) * dt, mbin jj)) ts' l) := by
  unfold Spec.NoEarlier
  induction h generalizing l with
  | nil => simp
  | @cons a b _ _ hab _ ih =>
    cases l with
    | nil => simp
    | cons j l =>
      simp only [List.zipWith_cons_cons, List.forall₂_cons]
      refine ⟨⟨trivial, ?_⟩, ih l⟩
      have : (a : ℝ) ≤ b := by exact_mod_cast hab
      nlinarith

theorem locs_le {b : SteppBins ℝ} {dt ttol ttol' : ℝ} (hdt : 0 < dt) (htr : ∀ k, b.timeRange k = ((k : ℝ) + 1) * dt) (hle : ttol ≤ ttol') :
    List.Forall₂ LocLE
      ((List.range b.nb).map (fun jj => steppLoc (exceeding (fun ii => b.obs ii jj) b.timeRange b.nt ttol')))
      ((List.range b.nb).map (fun jj => steppLoc (exceeding (fun ii => b.obs ii jj) b.timeRange b.nt ttol))) := by
  rw [List.forall₂_map_left_iff, List.forall₂_map_right_iff, List.forall₂_same]
  intro jj _ x hx
  rw [exceeding_real hdt htr] at hx ⊢
  refine steppLoc_mono _ _ ?_ _ _ hx
  intro k hk
  simp only [decide_eq_true_eq] at hk ⊢
  linarith

/-- **C118, part that holds (with the increment lock)**: a larger sensitivity gives no earlier completeness year.  Missing: without
the lock (`C118_fails`). -/
theorem C118_lock_partial {ev : List (ℝ × ℝ)} {dm dt ttol ttol' : ℝ} {table table' : List (ℝ × ℝ)} (hev : ev ≠ []) (hdm : 0 < dm)
    (hdt : 0 < dt) (hle : ttol ≤ ttol') (ht : stepp ev dm dt ttol true = .ok table) (ht' : stepp ev dm dt ttol' true = .ok table') :
    Spec.NoEarlier table table' := by
  obtain ⟨b, low, high, y0, y1, hb, hbin, hmb, htr, hend, hnb, hnt, hobs⟩ := steppBins_spec hev hdm hdt
  rw [stepp_eq hb] at ht ht'
  simp only [] at ht ht'
  split_ifs at ht ht'
  simp only [Except.ok.injEq, htr] at ht ht'
  rw [← ht, ← ht']
  refine noEarlier_of _ dt hdt _ _ _ (tlocs_mono_lock b.nt _ _ (locs_le hdt htr hle) none none le_rfl) _

/-- **C118, part that holds (without the lock)**: the same if in every bin a location other than the first exceeds the larger
sensitivity.  Missing: bins without such a location, which take the duration of the bin before (`C118_fails`). -/
theorem C118_located_partial {ev : List (ℝ × ℝ)} {dm dt ttol ttol' : ℝ} {table table' : List (ℝ × ℝ)} (hev : ev ≠ []) (hdm : 0 < dm)
    (hdt : 0 < dt) (hle : ttol ≤ ttol') (ht : stepp ev dm dt ttol false = .ok table) (ht' : stepp ev dm dt ttol' false = .ok table')
    (hloc : ∀ low high y0 y1 : ℝ, Spec.Binning ev low high y0 y1 → ∀ j < table.length, ∃ k : ℕ, 0 < k ∧
      ((k : ℝ) + 3) * dt < y1 - y0 + 2 ∧ ttol' < Spec.slopeChange (binCounts ev low dm dt y1 table.length j) dt k) :
    Spec.NoEarlier table table' := by
  obtain ⟨b, low, high, y0, y1, hb, hbin, hmb, htr, hend, hnb, hnt, hobs⟩ := steppBins_spec hev hdm hdt
  rw [stepp_eq hb] at ht ht'
  simp only [] at ht ht'
  split_ifs at ht ht'
  simp only [Except.ok.injEq, htr] at ht ht'
  have hlen : table.length = b.nb := by rw [← ht]; simp [steppTlocs_length]
  rw [← ht, ← ht']
  refine noEarlier_of _ dt hdt _ _ _ (tlocs_mono_located b.nt _ _ (locs_le hdt htr hle) ?_ none none) _
  intro l hl
  rw [List.mem_map] at hl
  obtain ⟨j, hj, rfl⟩ := hl
  rw [List.mem_range] at hj
  obtain ⟨k, hk0, hk, hex⟩ := hloc low high y0 y1 hbin j (by rw [hlen]; exact hj)
  have hc : (fun ii => b.obs ii j) = binCounts ev low dm dt y1 table.length j := by
    funext ii; rw [hobs, hlen, binCounts]
  have hkn : k + 2 < b.nt := by rw [hnt]; push_cast; linarith
  have hmem : k ∈ exceeding (fun ii => b.obs ii j) b.timeRange b.nt ttol' := by
    rw [exceeding_real hdt htr, hc, List.mem_filter, List.mem_range]
    exact ⟨by omega, by simpa using hex⟩
  unfold steppLoc
  rw [if_pos]
  · intro hcon
    rw [List.getLast?_eq_none_iff] at hcon
    rw [hcon] at hmem
    simp at hmem
  · rw [List.any_eq_true]
    exact ⟨k, hmem, by simp; omega⟩

/-! ### Without the lock a larger sensitivity can give an earlier year -/

/-- Five events of 2000-2004; two bins of width 1 from 4.0. -/
noncomputable def cat118 : List (ℝ × ℝ) := [(2004, 4.05), (2000, 4.05), (2004, 5.05), (2003, 5.05), (2001, 5.05)]

theorem binning118 : Spec.Binning cat118 4 5.1 2000 2004 := by
  refine ⟨⟨4.05, ⟨⟨(2004, 4.05), by simp [cat118], mag2_405⟩, ?_⟩, ?_⟩, ⟨5.05, ⟨⟨(2004, 5.05), by simp [cat118], mag2_505⟩, ?_⟩, ?_⟩,
    ⟨⟨(2000, 4.05), by simp [cat118], rfl⟩, ?_⟩, ⟨⟨(2004, 4.05), by simp [cat118], rfl⟩, ?_⟩⟩
  · rintro x ⟨e, he, rfl⟩
    simp only [cat118, List.mem_cons, List.not_mem_nil, or_false] at he
    rcases he with rfl | rfl | rfl | rfl | rfl <;> simp only [mag2_405, mag2_505] <;> norm_num
  · have : ⌊(10 : ℝ) * 4.05⌋ = 40 := by rw [Int.floor_eq_iff]; norm_num
    rw [this]; norm_num
  · rintro x ⟨e, he, rfl⟩
    simp only [cat118, List.mem_cons, List.not_mem_nil, or_false] at he
    rcases he with rfl | rfl | rfl | rfl | rfl <;> simp only [mag2_405, mag2_505] <;> norm_num
  · have : ⌈(10 : ℝ) * 5.05⌉ = 51 := by rw [Int.ceil_eq_iff]; norm_num
    rw [this]; norm_num
  · rintro x ⟨e, he, rfl⟩
    simp only [cat118, List.mem_cons, List.not_mem_nil, or_false] at he
    rcases he with rfl | rfl | rfl | rfl | rfl <;> norm_num
  · rintro x ⟨e, he, rfl⟩
    simp only [cat118, List.mem_cons, List.not_mem_nil, or_false] at he
    rcases he with rfl | rfl | rfl | rfl | rfl <;> norm_num

/-- Counts of the lower bin for 1, 2, ... years. -/
theorem counts118_low (k : ℕ) : binCounts cat118 4 1 1 2004 2 0 k = if k < 3 then 1 else 2 := by
  simp only [binCounts, Spec.eventsIn, cat118, List.countP_cons, List.countP_nil, mag2_405, mag2_505]
  rcases k with _ | _ | _ | k
  · norm_num
  · norm_num
  · norm_num
  · have : (0 : ℝ) ≤ k := Nat.cast_nonneg k
    have h1 : (2004 : ℝ) - ((k : ℝ) + 1 + 1 + 1 + 1) * 1 ≤ 2004 := by linarith
    have h2 : (2004 : ℝ) - ((k : ℝ) + 1 + 1 + 1 + 1) * 1 ≤ 2000 := by linarith
    have h3 : ¬ (k + 1 + 1 + 1 < 3) := by omega
    push_cast
    simp only [h1, h2, h3, decide_eq_true_eq, true_and]
    norm_num

/-- Counts of the upper bin. -/
theorem counts118_high (k : ℕ) : binCounts cat118 4 1 1 2004 2 1 k = if k < 2 then 2 else 3 := by
  simp only [binCounts, Spec.eventsAbove, cat118, List.countP_cons, List.countP_nil, mag2_405, mag2_505]
  rcases k with _ | _ | k
  · norm_num
  · norm_num
  · have : (0 : ℝ) ≤ k := Nat.cast_nonneg k
    have h1 : (2004 : ℝ) - ((k : ℝ) + 1 + 1 + 1) * 1 ≤ 2004 := by linarith
    have h2 : (2004 : ℝ) - ((k : ℝ) + 1 + 1 + 1) * 1 ≤ 2003 := by linarith
    have h4 : (2004 : ℝ) - ((k : ℝ) + 1 + 1 + 1) * 1 ≤ 2001 := by linarith
    have h3 : ¬ (k + 1 + 1 < 2) := by omega
    push_cast
    simp only [h1, h2, h3, h4, decide_eq_true_eq, true_and]
    norm_num

theorem slope118_low (k : ℕ) (hk : k < 1000) : Spec.slope (binCounts cat118 4 1 1 2004 2 0) 1 k =
    1 / 2 * ((Real.log (if k < 2 then 1 else 2) - Real.log (if k < 3 then 1 else 2)) / (Real.log (k + 2) - Real.log (k + 1))) - 1 := by
  rw [slope_eq (by rw [counts118_low]; split_ifs <;> norm_num) (by rw [counts118_low]; split_ifs <;> norm_num) hk,
    counts118_low, counts118_low]
  have : (k + 1 < 3) ↔ k < 2 := by omega
  simp only [this]
  split_ifs <;> norm_num

theorem slope118_high (k : ℕ) (hk : k < 1000) : Spec.slope (binCounts cat118 4 1 1 2004 2 1) 1 k =
    1 / 2 * ((Real.log (if k < 1 then 2 else 3) - Real.log (if k < 2 then 2 else 3)) / (Real.log (k + 2) - Real.log (k + 1))) - 1 := by
  rw [slope_eq (by rw [counts118_high]; split_ifs <;> norm_num) (by rw [counts118_high]; split_ifs <;> norm_num) hk,
    counts118_high, counts118_high]
  have : (k + 1 < 2) ↔ k < 1 := by omega
  simp only [this]
  split_ifs <;> norm_num

theorem change118_low2 : 1 < Spec.slopeChange (binCounts cat118 4 1 1 2004 2 0) 1 2 := by
  rw [Spec.slopeChange, slope118_low _ (by norm_num), slope118_low _ (by norm_num)]
  have h : 0 < Real.log 4 - Real.log 3 := sub_pos.mpr (Real.log_lt_log (by norm_num) (by norm_num))
  have h2 : 2 * (Real.log 4 - Real.log 3) < Real.log 2 := by
    rw [← Real.log_div (by norm_num) (by norm_num), ← Real.log_rpow (by norm_num)]
    exact Real.log_lt_log (by norm_num) (by norm_num)
  have h3 : 2 < Real.log 2 / (Real.log 4 - Real.log 3) := by rw [lt_div_iff₀ h]; linarith
  norm_num
  rw [abs_of_neg (by linarith)]
  linarith

theorem change118_high : Spec.slopeChange (binCounts cat118 4 1 1 2004 2 1) 1 0 = 1 / 2 ∧
    Spec.slopeChange (binCounts cat118 4 1 1 2004 2 1) 1 1 = 1 / 2 ∧ Spec.slopeChange (binCounts cat118 4 1 1 2004 2 1) 1 2 = 0 := by
  have h : Real.log 3 - Real.log 2 ≠ 0 := (sub_pos.mpr (Real.log_lt_log (by norm_num) (by norm_num))).ne'
  simp only [Spec.slopeChange]
  rw [slope118_high _ (by norm_num), slope118_high _ (by norm_num), slope118_high _ (by norm_num), slope118_high _ (by norm_num)]
  norm_num [h]

/-- The run of the code on `cat118`: the lower bin has three locations, the upper one two if the sensitivity is below 0.5 and none else. -/
theorem run118 (ttol : ℝ) (h0 : 0 < ttol) (h1 : ttol ≤ 1) : stepp cat118 1 1 ttol false =
    .ok [(2001, 4), (if ttol < 1 / 2 then 2002 else 2001, 5)] := by
  obtain ⟨b, low, high, y0, y1, hb, hbin, hmb, htr, hend, hnb, hnt, hobs⟩ :=
    steppBins_spec (ev := cat118) (dm := 1) (dt := 1) (by simp [cat118]) (by norm_num) (by norm_num)
  obtain ⟨rfl, rfl, rfl, rfl⟩ := binning_unique binning118 hbin
  have h2 : b.nb = 2 := by
    have a := hnb 1
    have c := hnb 2
    norm_num at a c
    omega
  have h5 : b.nt = 5 := by
    have a := hnt 4
    have c := hnt 5
    norm_num at a c
    omega
  have hc0 : (fun ii => b.obs ii 0) = binCounts cat118 4 1 1 2004 2 0 := by
    funext ii; rw [hobs, h2, binCounts]
  have hc1 : (fun ii => b.obs ii 1) = binCounts cat118 4 1 1 2004 2 1 := by
    funext ii; rw [hobs, h2, binCounts]
  obtain ⟨c0, c1, c2⟩ := change118_high
  have l0 : steppLoc (exceeding (fun ii => b.obs ii 0) b.timeRange b.nt ttol) = some 2 := by
    have hl : (exceeding (fun ii => b.obs ii 0) b.timeRange b.nt ttol).getLast? = some 2 := by
      rw [exceeding_real (by norm_num) htr, hc0, h5, getLast?_filter_range]
      refine ⟨by norm_num, ?_, fun k' h1 h2 => by omega⟩
      rw [decide_eq_true_eq]
      exact lt_of_le_of_lt h1 change118_low2
    rw [steppLoc, if_pos, hl]
    rw [List.any_eq_true]
    exact ⟨2, List.mem_of_getLast? hl, by decide⟩
  have l1 : steppLoc (exceeding (fun ii => b.obs ii 1) b.timeRange b.nt ttol) = if ttol < 1 / 2 then some 1 else none := by
    rw [exceeding_real (by norm_num) htr, hc1, h5]
    have : (List.range (5 - 2)).filter (fun k => decide (ttol < Spec.slopeChange (binCounts cat118 4 1 1 2004 2 1) 1 k)) =
        if ttol < 1 / 2 then [0, 1] else [] := by
      simp only [show List.range (5 - 2) = [0, 1, 2] by rfl, List.filter_cons, List.filter_nil, c0, c1, c2]
      have : ¬ ttol < 0 := not_lt.mpr h0.le
      by_cases h : ttol < 1 / 2 <;> simp only [h, this, decide_true, decide_false, if_true, if_false, Bool.false_eq_true]
    rw [this]
    split_ifs <;> rfl
  rw [stepp_eq hb]
  rw [h5] at l0 l1
  simp only [h2, show List.range 2 = [0, 1] by rfl, List.map_cons, List.map_nil, l0, l1, h5, hend]
  by_cases h : ttol < 1 / 2
  · simp only [if_pos h]
    rw [show steppTlocs false 5 none [some 2, some 1] = [2, 1] by rfl, if_pos (by decide)]
    simp only [List.zipWith_cons_cons, List.zipWith_nil_left, htr, hmb]
    norm_num
  · simp only [if_neg h]
    rw [show steppTlocs false 5 none [some 2, none] = [2, 2] by rfl, if_pos (by decide)]
    simp only [List.zipWith_cons_cons, List.zipWith_nil_left, htr, hmb]
    norm_num

/-- **C118 is false**: on `cat118` the sensitivity 0.2 gives magnitude 5 the year 2002, and the larger sensitivity 0.8 the year 2001,
because the upper bin then has no location of its own and takes the three years of the lower bin. -/
theorem C118_fails : ¬ ∀ (ev : List (ℝ × ℝ)) (dm dt ttol ttol' : ℝ) (table table' : List (ℝ × ℝ)), ev ≠ [] → 0 < dm → 0 < dt → 0 < ttol →
    ttol ≤ ttol' → stepp ev dm dt ttol false = .ok table → stepp ev dm dt ttol' false = .ok table' → Spec.NoEarlier table table' := by
  intro H
  have h := H _ _ _ 0.2 0.8 _ _ (by simp [cat118]) (by norm_num) (by norm_num) (by norm_num) (by norm_num)
    (run118 0.2 (by norm_num) (by norm_num)) (run118 0.8 (by norm_num) (by norm_num))
  norm_num [Spec.NoEarlier] at h

/-- The hypotheses of `C118_located_partial` hold for `cat118` and the sensitivities 0.2 and 0.4. -/
example : ∃ table table', stepp cat118 1 1 0.2 false = .ok table ∧ stepp cat118 1 1 0.4 false = .ok table' ∧
    ∀ low high y0 y1 : ℝ, Spec.Binning cat118 low high y0 y1 → ∀ j < table.length, ∃ k : ℕ, 0 < k ∧
      ((k : ℝ) + 3) * 1 < y1 - y0 + 2 ∧ 0.4 < Spec.slopeChange (binCounts cat118 low 1 1 y1 table.length j) 1 k := by
  refine ⟨_, _, run118 0.2 (by norm_num) (by norm_num), run118 0.4 (by norm_num) (by norm_num), fun low high y0 y1 hbin j hj => ?_⟩
  obtain ⟨rfl, rfl, rfl, rfl⟩ := binning_unique binning118 hbin
  simp only [List.length_cons, List.length_nil] at hj ⊢
  have : j = 0 ∨ j = 1 := by omega
  rcases this with rfl | rfl
  · exact ⟨2, by norm_num, by norm_num, lt_trans (by norm_num) change118_low2⟩
  · refine ⟨1, by norm_num, by norm_num, ?_⟩
    have := change118_high.2.1
    norm_num at this ⊢
    rw [this]; norm_num

/-- The hypotheses of `C118_lock_partial` hold for `cat118`. -/
example : ∃ table table', stepp cat118 1 1 0.2 true = .ok table ∧ stepp cat118 1 1 0.8 true = .ok table' ∧ Spec.NoEarlier table table' := by
  have hne : cat118 ≠ [] := by simp [cat118]
  have ok : ∀ ttol : ℝ, ∃ table, stepp cat118 1 1 ttol true = .ok table := by
    intro ttol
    obtain ⟨low, high, y0, y1, hbin, hs⟩ := C55_succeeds (ttol := ttol) (iloc := true) hne (dm := 1) (dt := 1) (by norm_num) (by norm_num)
    obtain ⟨rfl, rfl, rfl, rfl⟩ := binning_unique binning118 hbin
    exact hs.mpr (Or.inl (by norm_num))
  obtain ⟨table, ht⟩ := ok 0.2
  obtain ⟨table', ht'⟩ := ok 0.8
  exact ⟨_, _, ht, ht', C118_lock_partial hne (by norm_num) (by norm_num) (by norm_num) ht ht'⟩

end Verif.Completeness
