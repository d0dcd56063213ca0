import Verif.Lemmas.Completeness

/-! # C27-C29 and C51-C56: completeness -/

namespace Verif.Completeness

open Verif Verif.Np

/-! ### C27 -/

/-- **C27** (any number type): the result has one flag in {0, 1} per event; it is 1 exactly if the declustering flag is set or some
row of the table has both a later year and a larger magnitude. -/
theorem C27_selection {F : Type} [PyNum F] (ev table : List (F × F)) (flag : List Int) (h : flag.length = ev.length) :
    ∃ out, selectedEqFlagVector ev table flag = .ok out ∧ out.length = ev.length ∧
      ∀ (i : ℕ) (hi : i < ev.length) (ho : i < out.length), (out[i] = 0 ∨ out[i] = 1) ∧
        (out[i] = 1 ↔ flag[i] ≠ 0 ∨ ∃ c ∈ table, ev[i].1 < c.1 ∧ ev[i].2 < c.2) :=
  selected_get ev table flag h

/-- **C27**: order and repetition of the table rows do not matter. -/
theorem C27_row_order {F : Type} [PyNum F] (ev table table' : List (F × F)) (flag : List Int) (h : flag.length = ev.length)
    (hset : ∀ c, c ∈ table ↔ c ∈ table') : selectedEqFlagVector ev table flag = selectedEqFlagVector ev table' flag := by
  obtain ⟨o1, h1, l1, g1⟩ := selected_get ev table flag h
  obtain ⟨o2, h2, l2, g2⟩ := selected_get ev table' flag h
  rw [h1, h2]
  congr 1
  refine List.ext_getElem (by omega) fun i hi hi' => ?_
  have a := g1 i (by omega) hi
  have b := g2 i (by omega) hi'
  have e : (∃ c ∈ table, Spec.RowExcludes c ev[i]) ↔ ∃ c ∈ table', Spec.RowExcludes c ev[i] := by
    simp only [hset]
  rw [e, ← b.2] at a
  rcases a.1 with x | x <;> rcases b.1 with y | y <;> simp_all

/-- Non-trivial case: three events, one declustered, one excluded by the second row. -/
example : selectedEqFlagVector [((1970 : ℚ), (4 : ℚ)), (1985, 5), (1985, 6)] [(1980, 3), (1990, 5.5)] [0, 1, 0] =
    .ok [1, 1, 0] := by decide +kernel

/-! ### C28 and C29 -/

/-- **C28**: with a monotone table, an event that only the completeness step deselects is incomplete. -/
theorem C28_removed_incomplete (ev table : List (ℝ × ℝ)) (flag : List Int) (h : flag.length = ev.length)
    (hm : Spec.MonotoneTable table) :
    ∃ out, selectedEqFlagVector ev table flag = .ok out ∧
      ∀ (i : ℕ) (hi : i < ev.length) (ho : i < out.length), out[i] = 1 → flag[i] = 0 → ¬ Spec.CompleteAt table ev[i] := by
  obtain ⟨o, h1, l, g⟩ := selected_get ev table flag h
  refine ⟨o, h1, fun i hi ho h1 hf => ?_⟩
  obtain ⟨c, hc, hy, hmg⟩ := ((g i hi ho).2.mp h1).resolve_left (by simp [hf])
  rintro ⟨d, hd, hd2, hd1⟩
  have := hm d hd c hc (by linarith)
  linarith

/-- The hypotheses of C28 are met by a two-row table that deselects an event. -/
example : Spec.MonotoneTable [((1990 : ℝ), (4 : ℝ)), (1960, 5)] ∧
    (∀ out, selectedEqFlagVector [((1950 : ℝ), (4.5 : ℝ))] [(1990, 4), (1960, 5)] [0] = .ok out → out = [1]) := by
  constructor
  · intro c hc d hd hcd
    simp only [List.mem_cons, List.not_mem_nil, or_false] at hc hd
    rcases hc with rfl | rfl <;> rcases hd with rfl | rfl <;> revert hcd <;> norm_num
  · intro out h
    simp only [selectedEqFlagVector, markRow, mergeFlag, List.foldl_cons, List.foldl_nil, List.length_cons, List.length_nil, if_true,
      List.replicate, List.zipWith_cons_cons, List.zipWith_nil_left, Except.ok.injEq] at h
    rw [← h]
    norm_num

/-- **C29 is false**: the 1970 event of magnitude 4.1 is kept although magnitudes below 4.4 are complete only since 1990
(the rows are compared with the *next* magnitude). -/
theorem C29_kept_complete_fails :
    ¬ ∀ (ev table : List (ℝ × ℝ)) (flag out : List Int), Spec.MonotoneTable table → selectedEqFlagVector ev table flag = .ok out →
      ∀ (i : ℕ) (hi : i < ev.length) (ho : i < out.length), out[i] = 0 → Spec.CompleteAt table ev[i] := by
  intro H
  have hm : Spec.MonotoneTable [((1990 : ℝ), (4.0 : ℝ)), (1960, 4.4)] := by
    intro c hc d hd hcd
    simp only [List.mem_cons, List.not_mem_nil, or_false] at hc hd
    rcases hc with rfl | rfl <;> rcases hd with rfl | rfl <;> revert hcd <;> norm_num
  have hr : selectedEqFlagVector [((1970 : ℝ), (4.1 : ℝ))] [(1990, 4.0), (1960, 4.4)] [0] = .ok [0] := by
    simp only [selectedEqFlagVector, markRow, mergeFlag, List.foldl_cons, List.foldl_nil, List.length_cons, List.length_nil, if_true,
      List.replicate, List.zipWith_cons_cons, List.zipWith_nil_left]
    norm_num
  obtain ⟨c, hc, h1, h2⟩ := H _ _ _ _ hm hr 0 (by simp) (by simp) (by simp)
  simp only [List.mem_cons, List.not_mem_nil, or_false, List.getElem_cons_zero] at hc h1 h2
  rcases hc with rfl | rfl <;> revert h1 h2 <;> norm_num

/-- **C29, part that holds**: a kept event is not earlier than any row of larger magnitude; it is complete if such a row is not older than
some row of magnitude not above the event (for instance a table with a single completeness year).
Missing: events between two rows of different years, and events above the last row. -/
theorem C29_kept_complete_partial (ev table : List (ℝ × ℝ)) (flag : List Int) (h : flag.length = ev.length) :
    ∃ out, selectedEqFlagVector ev table flag = .ok out ∧
      ∀ (i : ℕ) (hi : i < ev.length) (ho : i < out.length), out[i] = 0 →
        flag[i] = 0 ∧ (∀ c ∈ table, ev[i].2 < c.2 → c.1 ≤ ev[i].1) ∧
        (∀ c ∈ table, ∀ d ∈ table, d.2 ≤ ev[i].2 → ev[i].2 < c.2 → d.1 ≤ c.1 → Spec.CompleteAt table ev[i]) := by
  obtain ⟨o, h1, l, g⟩ := selected_get ev table flag h
  refine ⟨o, h1, fun i hi ho h0 => ?_⟩
  have hn : ¬ (flag[i] ≠ 0 ∨ ∃ c ∈ table, Spec.RowExcludes c ev[i]) := by
    rw [← (g i hi ho).2, h0]; decide
  simp only [not_or, ne_eq, not_not, not_exists, not_and, Spec.RowExcludes] at hn
  have h2 : ∀ c ∈ table, ev[i].2 < c.2 → c.1 ≤ ev[i].1 := by
    intro c hc hlt
    by_contra hcon
    exact hn.2 c hc (not_le.mp hcon) hlt
  refine ⟨hn.1, h2, fun c hc d hd h3 h4 h5 => ⟨d, hd, h3, h5.trans (h2 c hc h4)⟩⟩

/-! ### C51 -/

/-- **C51**: the magnitude column is `low, low + dm, ...`, where `low` is the smallest rounded magnitude rounded down to one decimal; there are as many rows
as needed to reach the largest magnitude rounded up (`high`): `low + n dm ≥ high` and no smaller number of rows does. -/
theorem C51_magnitudes {ev : List (ℝ × ℝ)} {dm dt ttol : ℝ} {iloc : Bool} {table : List (ℝ × ℝ)} (hev : ev ≠ []) (hdm : 0 < dm)
    (hdt : 0 < dt) (ht : stepp ev dm dt ttol iloc = .ok table) :
    ∃ low high y0 y1, Spec.Binning ev low high y0 y1 ∧
      table.map Prod.snd = (List.range table.length).map (fun j : ℕ => low + (j : ℝ) * dm) ∧
      high ≤ low + table.length * dm ∧ ∀ k < table.length, low + k * dm < high := by
  obtain ⟨b, low, high, y0, y1, hb, hbin, hmb, htr, hend, hnb, hnt, hobs⟩ := steppBins_spec hev hdm hdt
  rw [stepp_eq hb] at ht
  simp only [] at ht
  split_ifs at ht
  simp only [Except.ok.injEq] at ht
  have hl : table.length = b.nb := by rw [← ht]; simp [steppTlocs_length]
  refine ⟨low, high, y0, y1, hbin, ?_, ?_, ?_⟩
  · rw [hl, ← ht]
    refine List.ext_getElem (by simp [steppTlocs_length]) fun i hi hi' => ?_
    simp [hmb]
  · rw [hl]
    by_contra hcon
    exact lt_irrefl _ ((hnb b.nb).mpr (not_le.mp hcon))
  · intro k hk
    exact (hnb k).mp (hl ▸ hk)

/-! ### C52 -/

/-- **C52**: every year of the table is the last year of the catalogue minus one of the durations `dt, 2 dt, ...`;
so it lies at least `dt` and less than the catalogue length plus two years before the end. -/
theorem C52_years {ev : List (ℝ × ℝ)} {dm dt ttol : ℝ} {iloc : Bool} {table : List (ℝ × ℝ)} (hev : ev ≠ []) (hdm : 0 < dm)
    (hdt : 0 < dt) (ht : stepp ev dm dt ttol iloc = .ok table) :
    ∃ low high y0 y1, Spec.Binning ev low high y0 y1 ∧ ∀ row ∈ table,
      ∃ k : ℕ, row.1 = y1 - ((k : ℝ) + 1) * dt ∧ dt ≤ y1 - row.1 ∧ y1 - row.1 < (y1 - y0) + 2 := by
  obtain ⟨b, low, high, y0, y1, hb, hbin, hmb, htr, hend, hnb, hnt, hobs⟩ := steppBins_spec hev hdm hdt
  rw [stepp_eq hb] at ht
  simp only [] at ht
  split_ifs at ht with hlt
  simp only [Except.ok.injEq] at ht
  refine ⟨low, high, y0, y1, hbin, fun row hrow => ?_⟩
  rw [← ht] at hrow
  obtain ⟨i, hi, hrow⟩ := List.getElem_of_mem hrow
  rw [List.getElem_zipWith] at hrow
  have hrow : _ = row.1 := congrArg Prod.fst hrow
  simp only [htr, hend] at hrow
  set k := (steppTlocs iloc b.nt none ((List.range b.nb).map (fun jj => steppLoc (exceeding (fun ii => b.obs ii jj) b.timeRange b.nt ttol))))[i]'(by
    simp only [List.length_zipWith] at hi; omega) with hk
  have hkn : k < b.nt := hlt k (List.getElem_mem _)
  have h1 := (hnt k).mp hkn
  refine ⟨k, by rw [← hrow], ?_, ?_⟩
  · rw [← hrow]
    have : (0 : ℝ) ≤ k := Nat.cast_nonneg k
    nlinarith
  · rw [← hrow]
    linarith

/-- **C52** for whole years (catalogue years and time step are integers): at most the catalogue length plus one year before the end. -/
theorem C52_whole_years {ev : List (ℝ × ℝ)} {dm ttol : ℝ} {dt : ℕ} {iloc : Bool} {table : List (ℝ × ℝ)} (hev : ev ≠ []) (hdm : 0 < dm)
    (hdt : 0 < dt) (hy : ∀ e ∈ ev, ∃ z : ℤ, e.1 = z) (ht : stepp ev dm dt ttol iloc = .ok table) :
    ∃ low high y0 y1, Spec.Binning ev low high y0 y1 ∧ ∀ row ∈ table,
      ∃ k : ℕ, row.1 = y1 - ((k : ℝ) + 1) * dt ∧ dt ≤ y1 - row.1 ∧ y1 - row.1 ≤ (y1 - y0) + 1 := by
  obtain ⟨low, high, y0, y1, hbin, h⟩ := C52_years hev hdm (by exact_mod_cast hdt) ht
  refine ⟨low, high, y0, y1, hbin, fun row hrow => ?_⟩
  obtain ⟨k, h1, h2, h3⟩ := h row hrow
  refine ⟨k, h1, h2, ?_⟩
  obtain ⟨e0, he0, hy0⟩ := hbin.first.1
  obtain ⟨e1, he1, hy1⟩ := hbin.last.1
  obtain ⟨z0, hz0⟩ := hy e0 he0
  obtain ⟨z1, hz1⟩ := hy e1 he1
  have e : y1 - row.1 = (((k : ℤ) + 1) * dt : ℤ) := by rw [h1]; push_cast; ring
  rw [e, ← hy0, ← hy1, hz0, hz1] at h3 ⊢
  have h4 : ((k : ℤ) + 1) * dt < z1 - z0 + 2 := by exact_mod_cast h3
  have h5 : ((k : ℤ) + 1) * dt ≤ z1 - z0 + 1 := by omega
  exact_mod_cast h5

/-! ### C53 -/

/-- **C53**: with the increment lock, completeness years never increase along the table, whose magnitudes increase: the table is monotone. -/
theorem C53_lock_monotone {ev : List (ℝ × ℝ)} {dm dt ttol : ℝ} {table : List (ℝ × ℝ)} (hev : ev ≠ []) (hdm : 0 < dm)
    (hdt : 0 < dt) (ht : stepp ev dm dt ttol true = .ok table) :
    table.Pairwise (fun c d => d.1 ≤ c.1 ∧ c.2 < d.2) ∧ Spec.MonotoneTable table := by
  obtain ⟨b, low, high, y0, y1, hb, hbin, hmb, htr, hend, hnb, hnt, hobs⟩ := steppBins_spec hev hdm hdt
  rw [stepp_eq hb] at ht
  simp only [] at ht
  split_ifs at ht with hlt
  simp only [Except.ok.injEq] at ht
  have hp := (steppTlocs_lock (nt := b.nt) (prev := none)
    (locs := (List.range b.nb).map (fun jj => steppLoc (exceeding (fun ii => b.obs ii jj) b.timeRange b.nt ttol)))).2
  have key : table.Pairwise (fun c d => d.1 ≤ c.1 ∧ c.2 < d.2) := by
    rw [← ht, List.pairwise_iff_getElem]
    intro i j hi hj hij
    simp only [List.getElem_zipWith, List.getElem_range, htr, hmb]
    have h1 := List.pairwise_iff_getElem.mp hp i j (by simp only [List.length_zipWith] at hi; omega)
      (by simp only [List.length_zipWith] at hj; omega) hij
    constructor
    · have : ((steppTlocs true b.nt none ((List.range b.nb).map (fun jj => steppLoc (exceeding (fun ii => b.obs ii jj) b.timeRange b.nt ttol))))[i]'(by
          simp only [List.length_zipWith] at hi; omega) : ℝ) ≤ ((steppTlocs true b.nt none ((List.range b.nb).map (fun jj => steppLoc (exceeding (fun ii => b.obs ii jj) b.timeRange b.nt ttol))))[j]'(by
          simp only [List.length_zipWith] at hj; omega) : ℝ) := by exact_mod_cast h1
      nlinarith
    · have : (i : ℝ) < j := by exact_mod_cast hij
      nlinarith
  refine ⟨key, fun c hc d hd hcd => ?_⟩
  obtain ⟨i, hi, rfl⟩ := List.getElem_of_mem hc
  obtain ⟨j, hj, rfl⟩ := List.getElem_of_mem hd
  rw [List.pairwise_iff_getElem] at key
  rcases lt_trichotomy i j with h | h | h
  · exact (key i j hi hj h).1
  · subst h; exact le_rfl
  · exact absurd hcd (not_le.mpr (key j i hj hi h).2)

/-- **C28 with C53**: a locked Stepp table only removes events it declares incomplete. -/
theorem C28_stepp_removed_incomplete {ev : List (ℝ × ℝ)} {dm dt ttol : ℝ} {table : List (ℝ × ℝ)} (hev : ev ≠ []) (hdm : 0 < dm)
    (hdt : 0 < dt) (ht : stepp ev dm dt ttol true = .ok table) (flag : List Int) (h : flag.length = ev.length) :
    ∃ out, selectedEqFlagVector ev table flag = .ok out ∧
      ∀ (i : ℕ) (hi : i < ev.length) (ho : i < out.length), out[i] = 1 → flag[i] = 0 → ¬ Spec.CompleteAt table ev[i] :=
  C28_removed_incomplete ev table flag h (C53_lock_monotone hev hdm hdt ht).2

/-! ### C54 -/

/-- **C54, part that holds**: if there is at least one magnitude bin, the counts of the bins add up to the number of events, for each duration.
Missing: catalogues without bins, see `C54_counts_fails`. -/
theorem C54_counts_partial {ev : List (ℝ × ℝ)} {dm dt : ℝ} {b : SteppBins ℝ} (hdm : 0 < dm)
    (hdt : 0 < dt) (hb : steppBins ev dm dt = .ok b) (hnb0 : 0 < b.nb) (ii : ℕ) :
    ∑ jj ∈ Finset.range b.nb, b.obs ii jj = Spec.eventsSince ev (b.endTime - b.timeRange ii) := by
  have hev : ev ≠ [] := by
    rintro rfl
    simp [steppBins, npMin, bind, Except.bind] at hb
  obtain ⟨b', low, high, y0, y1, hb', hbin, hmb, htr, hend, hnb, hnt, hobs⟩ := steppBins_spec hev hdm hdt
  obtain rfl : b = b' := by rw [hb] at hb'; exact Except.ok.inj hb'
  rw [hend, htr]
  obtain ⟨Y, hY⟩ : ∃ Y, Y = y1 - ((ii : ℝ) + 1) * dt := ⟨_, rfl⟩
  obtain ⟨n, hn⟩ : ∃ n, b.nb = n + 1 := ⟨b.nb - 1, by omega⟩
  have hlow : ∀ e ∈ ev, low ≤ Spec.mag2 e.2 := by
    intro e he
    obtain ⟨m, hm, hl⟩ := hbin.low
    have h1 := hm.2 ⟨e, he, rfl⟩
    have h2 := Int.floor_le (10 * m)
    rw [hl]
    linarith
  rw [hn, Finset.sum_range_succ, hobs, if_pos hn.symm]
  rw [Finset.sum_congr rfl (fun jj hjj => by
    rw [hobs, if_neg (by have := Finset.mem_range.mp hjj; omega)])]
  simp only [← hY]
  set l := (ev.filter (fun e => decide (Y ≤ e.1))).map (fun e => Spec.mag2 e.2) with hl
  have hin : ∀ lo hi, Spec.eventsIn ev lo hi Y = l.countP (fun x => decide (lo ≤ x ∧ x < hi)) := by
    intro lo hi
    rw [hl, List.countP_map, List.countP_filter]
    refine List.countP_congr fun e _ => ?_
    simp [and_comm]
  have habove : ∀ lo, Spec.eventsAbove ev lo Y = l.countP (fun x => decide (lo ≤ x)) := by
    intro lo
    rw [hl, List.countP_map, List.countP_filter]
    refine List.countP_congr fun e _ => ?_
    simp [and_comm]
  have hmono : Monotone (fun j : ℕ => low + (j : ℝ) * dm) := by
    intro i j hij
    have : (i : ℝ) ≤ j := by exact_mod_cast hij
    simp only []
    nlinarith
  have hb1 := countP_bins (fun j : ℕ => low + (j : ℝ) * dm) hmono l n
  simp only [Nat.cast_add, Nat.cast_one, Nat.cast_zero, zero_mul, add_zero] at hb1
  simp only [hin, habove]
  rw [hb1]
  have hlen : Spec.eventsSince ev Y = l.length := by
    rw [Spec.eventsSince, List.countP_eq_length_filter, hl, List.length_map]
  rw [hlen]
  have hall : ∀ x ∈ l, low ≤ x := by
    intro x hx
    rw [hl] at hx
    simp only [List.mem_map, List.mem_filter] at hx
    obtain ⟨e, ⟨he, _⟩, rfl⟩ := hx
    exact hlow e he
  have e1 : l.countP (fun x => decide (low ≤ x ∧ x < low + (n : ℝ) * dm)) = l.countP (fun x => !decide (low + (n : ℝ) * dm ≤ x)) := by
    refine List.countP_congr fun x hx => ?_
    have := hall x hx
    simp [this]
  rw [e1, add_comm]
  rw [List.length_eq_countP_add_countP (fun x => decide (low + (n : ℝ) * dm ≤ x)) (l := l)]
  congr 1
  refine List.countP_congr fun x _ => ?_
  simp

/-- **C54 is false**: if all magnitudes round to the same multiple of 0.1 there is no bin and nothing is counted (the table is empty). -/
theorem C54_counts_fails :
    ¬ ∀ (ev : List (ℝ × ℝ)) (dm dt : ℝ) (b : SteppBins ℝ), 0 < dm → 0 < dt → steppBins ev dm dt = .ok b →
      ∀ ii, ∑ jj ∈ Finset.range b.nb, b.obs ii jj = Spec.eventsSince ev (b.endTime - b.timeRange ii) := by
  intro H
  obtain ⟨b, low, high, y0, y1, hb, hbin, hmb, htr, hend, hnb, hnt, hobs⟩ :=
    steppBins_spec (ev := [((2000 : ℝ), (4 : ℝ))]) (dm := 0.1) (dt := 1) (by simp) (by norm_num) (by norm_num)
  have hmag : Spec.mag2 4 = 4 := by
    simp only [Spec.mag2, rintK]
    norm_num
  have hset : {x | ∃ e ∈ [((2000 : ℝ), (4 : ℝ))], Spec.mag2 e.2 = x} = {4} := by
    ext x; simp [hmag, eq_comm]
  obtain ⟨m, hm, hlow⟩ := hbin.low
  obtain ⟨M, hM, hhigh⟩ := hbin.high
  rw [hset] at hm hM
  obtain rfl : m = 4 := by simpa using hm.1
  obtain rfl : M = 4 := by simpa using hM.1
  have hl : low = high := by rw [hlow, hhigh]; norm_num
  have h0 : b.nb = 0 := by
    by_contra hne
    have := (hnb 0).mp (Nat.pos_of_ne_zero hne)
    simp [hl] at this
  have := H _ _ _ b (by norm_num) (by norm_num) hb 0
  rw [h0] at this
  have hy1 : y1 = 2000 := by
    obtain ⟨e, he, hy⟩ := hbin.last.1
    simp only [List.mem_singleton] at he
    rw [← hy, he]
  rw [hend, htr, hy1] at this
  simp [Spec.eventsSince] at this

/-! ### C55 -/

/-- **C55**: for positive steps, `stepp_analysis` succeeds exactly if the time step is smaller than the catalogue length plus two years, or
there is no magnitude bin at all. -/
theorem C55_succeeds {ev : List (ℝ × ℝ)} {dm dt ttol : ℝ} {iloc : Bool} (hev : ev ≠ []) (hdm : 0 < dm) (hdt : 0 < dt) :
    ∃ low high y0 y1, Spec.Binning ev low high y0 y1 ∧
      ((∃ table, stepp ev dm dt ttol iloc = .ok table) ↔ dt < (y1 - y0) + 2 ∨ low = high) := by
  obtain ⟨b, low, high, y0, y1, hb, hbin, hmb, htr, hend, hnb, hnt, hobs⟩ := steppBins_spec hev hdm hdt
  have hlh : low ≤ high := by
    obtain ⟨m, hm, hl⟩ := hbin.low
    obtain ⟨M, hM, hh⟩ := hbin.high
    have := hM.2 hm.1
    have h1 := Int.floor_le (10 * m)
    have h2 := Int.le_ceil (10 * M)
    rw [hl, hh]; linarith
  have hn0 : 0 < b.nt ↔ dt < (y1 - y0) + 2 := by
    rw [hnt 0]; norm_num
  have hnb0 : 0 < b.nb ↔ low < high := by
    rw [hnb 0]; norm_num
  refine ⟨low, high, y0, y1, hbin, ?_⟩
  rw [stepp_eq hb, ← hn0]
  simp only []
  constructor
  · rintro ⟨table, ht⟩
    split_ifs at ht with hlt
    by_cases hz : b.nb = 0
    · right
      rcases hlh.lt_or_eq with h | h
      · have := hnb0.mpr h; omega
      · exact h
    · left
      have hlen : 0 < (steppTlocs iloc b.nt none ((List.range b.nb).map (fun jj => steppLoc (exceeding (fun ii => b.obs ii jj) b.timeRange b.nt ttol)))).length := by
        rw [steppTlocs_length]; simp; omega
      have := hlt _ (List.getElem_mem hlen)
      omega
  · rintro (h | h)
    · rw [if_pos fun t ht => by have := tlocs_lt t ht; omega]
      exact ⟨_, rfl⟩
    · have hz : b.nb = 0 := by
        by_contra hne
        have := hnb0.mp (Nat.pos_of_ne_zero hne)
        exact absurd h this.ne
      rw [hz]
      simp [steppTlocs]

/-! ### C56 -/

/-- Events of bin `j` counted for the successive durations (last bin open above). -/
noncomputable def binCounts (ev : List (ℝ × ℝ)) (low dm dt y1 : ℝ) (nb j : ℕ) (k : ℕ) : ℕ :=
  if j + 1 = nb then Spec.eventsAbove ev (low + j * dm) (y1 - (k + 1) * dt)
  else Spec.eventsIn ev (low + j * dm) (low + (j + 1) * dm) (y1 - (k + 1) * dt)

/-- The claim of C56 for a table: without lock, each reported duration is the one at the last location whose change of slope exceeds the tolerance
(the one of the previous bin if there is none). -/
def DurationsAtLastLocation (ev : List (ℝ × ℝ)) (dm dt ttol : ℝ) (table : List (ℝ × ℝ)) : Prop :=
  ∀ low high y0 y1 : ℝ, Spec.Binning ev low high y0 y1 → ∀ nt : ℕ, (∀ k : ℕ, k < nt ↔ ((k : ℝ) + 1) * dt < y1 - y0 + 2) →
    ∀ (j : ℕ) (hj : j < table.length),
      (∀ k, Spec.IsLastLocation (binCounts ev low dm dt y1 table.length j) dt ttol (nt - 2) k → table[j].1 = y1 - (k + 1) * dt) ∧
      ((∀ k < nt - 2, Spec.slopeChange (binCounts ev low dm dt y1 table.length j) dt k ≤ ttol) →
        ∀ i (hi : i + 1 = j), table[j].1 = (table[i]'(by omega)).1)

theorem binning_unique {ev : List (ℝ × ℝ)} {a b c d a' b' c' d' : ℝ} (h : Spec.Binning ev a b c d) (h' : Spec.Binning ev a' b' c' d') :
    a = a' ∧ b = b' ∧ c = c' ∧ d = d' := by
  obtain ⟨m, hm, rfl⟩ := h.low
  obtain ⟨m', hm', rfl⟩ := h'.low
  obtain ⟨M, hM, rfl⟩ := h.high
  obtain ⟨M', hM', rfl⟩ := h'.high
  rw [hm.unique hm', hM.unique hM']
  exact ⟨rfl, rfl, h.first.unique h'.first, h.last.unique h'.last⟩

/-- **C56, part that holds**: the claim is true if in no bin the first location is the only one whose change of slope exceeds the tolerance
(hypothesis `hz`).  Missing: that case, where the code ignores the location (`np.any` of the index 0 is false). -/
theorem C56_last_location_partial {ev : List (ℝ × ℝ)} {dm dt ttol : ℝ} {table : List (ℝ × ℝ)} (hev : ev ≠ []) (hdm : 0 < dm)
    (hdt : 0 < dt) (ht : stepp ev dm dt ttol false = .ok table)
    (hz : ∀ low high y0 y1 : ℝ, Spec.Binning ev low high y0 y1 → ∀ nt : ℕ, (∀ k : ℕ, k < nt ↔ ((k : ℝ) + 1) * dt < y1 - y0 + 2) →
      ∀ j < table.length, ¬ Spec.IsLastLocation (binCounts ev low dm dt y1 table.length j) dt ttol (nt - 2) 0) :
    DurationsAtLastLocation ev dm dt ttol table := by
  obtain ⟨b, low, high, y0, y1, hb, hbin, hmb, htr, hend, hnb, hnt, hobs⟩ := steppBins_spec hev hdm hdt
  rw [stepp_eq hb] at ht
  simp only [] at ht
  split_ifs at ht with hlt
  simp only [Except.ok.injEq] at ht
  have hlen : table.length = b.nb := by rw [← ht]; simp [steppTlocs_length]
  intro low' high' y0' y1' hbin' nt hnt' j hj
  obtain ⟨rfl, rfl, rfl, rfl⟩ := binning_unique hbin hbin'
  have hntt : nt = b.nt := by
    rcases lt_trichotomy nt b.nt with h | h | h
    · have := (hnt' nt).mpr ((hnt nt).mp h); omega
    · exact h
    · have := (hnt b.nt).mpr ((hnt' b.nt).mp h); omega
  subst hntt
  have hz' := hz low high y0 y1 hbin b.nt hnt j hj
  have hcount : (fun ii => b.obs ii j) = binCounts ev low dm dt y1 table.length j := by
    funext ii; rw [hobs, hlen, binCounts]
  set locs := (List.range b.nb).map (fun jj => steppLoc (exceeding (fun ii => b.obs ii jj) b.timeRange b.nt ttol)) with hlocs
  have hjl : j < locs.length := by simp [hlocs]; omega
  have hlj : locs[j] = steppLoc ((List.range (b.nt - 2)).filter fun k =>
      decide (ttol < Spec.slopeChange (binCounts ev low dm dt y1 table.length j) dt k)) := by
    simp only [hlocs, List.getElem_map, List.getElem_range]
    rw [hcount, exceeding_real hdt htr]
  have hll : ∀ l, some l ∈ locs → l ≤ b.nt := by
    intro l hl
    simp only [hlocs, List.mem_map, List.mem_range] at hl
    obtain ⟨jj, _, hl⟩ := hl
    have := exceeding_mem (steppLoc_mem hl)
    omega
  have hget := steppTlocs_get locs none hll j (by rw [steppTlocs_length]; exact hjl) hjl
  have htab : ∀ (i : ℕ) (hi : i < table.length), table[i].1 = y1 - (((steppTlocs false b.nt none locs)[i]'(by
      rw [steppTlocs_length]; simp [hlocs]; omega) : ℕ) + 1 : ℝ) * dt := by
    intro i hi
    simp only [← ht, List.getElem_zipWith, htr, hend]
  set ex := (List.range (b.nt - 2)).filter fun k =>
      decide (ttol < Spec.slopeChange (binCounts ev low dm dt y1 table.length j) dt k) with hex
  constructor
  · intro k hk
    have hlast : ex.getLast? = some k := by
      rw [hex, getLast?_filter_range]
      obtain ⟨h1, h2, h3⟩ := hk
      exact ⟨h1, by simpa using h2, fun k' h4 h5 => by simpa using h3 k' h4 h5⟩
    have hk0 : k ≠ 0 := by rintro rfl; exact hz' hk
    have : steppLoc ex = some k := by
      rw [steppLoc, if_pos, hlast]
      rw [List.any_eq_true]
      exact ⟨k, List.mem_of_getLast? hlast, by simpa using hk0⟩
    rw [htab j hj, hget.1 k (by rw [hlj, this])]
  · intro hno i hi
    have : steppLoc ex = none := by
      have : ex = [] := by
        rw [hex, List.filter_eq_nil_iff]
        intro k hk
        simpa using hno k (by simpa using hk)
      rw [this]; rfl
    subst hi
    rw [htab _ hj, htab i (by omega), hget.2 (by rw [hlj, this])]

end Verif.Completeness
