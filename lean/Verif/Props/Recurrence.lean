import Verif.Lemmas.Weichert
import Verif.Lemmas.Cells

/-! # C57-C64: recurrence -/

namespace Verif.Recurrence

open Verif Verif.Np

/-! ### C57 -/

/-- **C57**: bins of width `dmag` from `low`, each row counting the events of its bin; the counts add up to the number of events; the cumulative column is the sum of
the counts from its row on, starts with the number of events and never increases; the annual columns are the counts divided by
the number of years, which is at least one. -/
theorem C57_recurrence_table {ev : List (ℝ × ℝ)} {dmag : ℝ} (hev : ev ≠ []) (hd : 0 < dmag) :
    ∃ (rows : List (RecRow ℝ)) (low ny : ℝ), recurrenceTable ev dmag = .ok rows ∧ Spec.IsNumYears ev ny ∧ 1 ≤ ny ∧
      (rows.map RecRow.nObs).sum = ev.length ∧ (∃ h : 0 < rows.length, rows[0].nCum = ev.length) ∧
      rows.Pairwise (fun a b => b.nCum ≤ a.nCum) ∧
      ∀ (i : ℕ) (hi : i < rows.length), rows[i].mval = low + (i + 1 / 2) * dmag ∧
        rows[i].nObs = Spec.magCount ev (rows[i].mval - dmag / 2) (rows[i].mval + dmag / 2) ∧
        rows[i].nCum = ((rows.drop i).map RecRow.nObs).sum ∧
        rows[i].nObsAnnual = rows[i].nObs / ny ∧ rows[i].nCumAnnual = rows[i].nCum / ny := by
  obtain ⟨rows, low, ny, h1, h2, h3, _, h5, h6, h7⟩ := recurrenceTable_spec hev hd
  have hsum : (rows.map RecRow.nObs).sum = ev.length := by
    have e1 : rows.map RecRow.nObs = (List.range rows.length).map fun i : ℕ => (ev.map Prod.snd).countP
        (inBin (fun j : ℕ => low + (j : ℝ) * dmag) rows.length i) := by
      refine List.ext_getElem (by simp) fun i hi hi' => ?_
      have hi2 : i < rows.length := by simpa using hi
      simp only [List.getElem_map, List.getElem_range]
      rw [(h7 i hi2).2.1, List.countP_map, Spec.magCount]
      refine List.countP_congr fun e he => ?_
      simp only [Function.comp, inBin]
      have := h5 e he
      split_ifs with hh
      · rw [← hh] at this
        push_cast at this ⊢
        simp [this, this.le]
      · push_cast; simp
    rw [e1, inBin_mono_sum]
    · simp only [Nat.cast_zero, zero_mul, add_zero]
      rw [show ev.length = (ev.map Prod.snd).length by simp, List.countP_eq_length]
      intro x hx
      simp only [List.mem_map] at hx
      obtain ⟨e, he, rfl⟩ := hx
      simpa using h3 e he
    · intro i j hij
      have : (i : ℝ) ≤ j := by exact_mod_cast hij
      simp only []
      nlinarith
    · intro x hx
      simp only [List.mem_map] at hx
      obtain ⟨e, he, rfl⟩ := hx
      exact h5 e he
  refine ⟨rows, low, ny, h1, h2, ?_, hsum, ⟨h6, ?_⟩, ?_, ?_⟩
  · obtain ⟨y0, y1, hy0, hy1, rfl⟩ := h2
    have := hy1.2 hy0.1
    linarith
  · rw [(h7 0 h6).2.2.1, List.drop_zero, hsum]
  · rw [List.pairwise_iff_getElem]
    intro i j hi hj hij
    rw [(h7 i hi).2.2.1, (h7 j hj).2.2.1]
    have : rows.drop j = (rows.drop i).drop (j - i) := by rw [List.drop_drop]; congr 1; omega
    rw [this]
    conv_rhs => rw [← List.take_append_drop (j - i) (rows.drop i)]
    rw [List.map_append, List.sum_append]
    omega
  · intro i hi
    obtain ⟨a, b, c⟩ := h7 i hi
    refine ⟨a, ?_, c⟩
    rw [b, a]
    congr 1 <;> ring

/-- The table for two events: four bins of width 0.1 would be too many to list; one of width 1 holds both. -/
example : ∃ rows, recurrenceTable [((2000 : ℝ), (4.5 : ℝ)), (1990, 4.7)] 1 = .ok rows ∧ (rows.map RecRow.nObs).sum = 2 := by
  obtain ⟨rows, _, _, h1, _, _, h2, _⟩ := C57_recurrence_table (ev := [((2000 : ℝ), (4.5 : ℝ)), (1990, 4.7)]) (dmag := 1) (by simp) (by norm_num)
  exact ⟨rows, h1, h2⟩

/-! ### C58 -/

/-- **C58**: with an event in a bin at or above the completeness magnitude, the b-value is positive and at most `2 log10(e) / dmag`; the error is not negative. -/
theorem C58_b_value {h : List (ℝ × ℕ)} {dmag mc : ℝ} (hd : 0 < dmag) (hex : ∃ r ∈ h, mc ≤ r.1 ∧ 0 < r.2) :
    ∃ b s, bMaxLikelihood h dmag mc = .ok (b, s) ∧ 0 < b ∧ b ≤ 2 * Real.logb 10 (Real.exp 1) / dmag ∧ 0 ≤ s := by
  obtain ⟨r, hr, hmc, hn⟩ := hex
  set g := h.filter fun r => decide (r.1 ≥ mc) with hg
  have hrg : r ∈ g := by rw [hg, List.mem_filter]; exact ⟨hr, by simpa using hmc⟩
  have hne : g.map Prod.fst ≠ [] := by
    intro hc
    have : Prod.fst r ∈ g.map Prod.fst := List.mem_map_of_mem hrg
    rw [hc] at this
    simp at this
  obtain ⟨m, hm⟩ := npMin_exists hne
  have hm' := npMin_ok hm
  have hS : 0 < (g.map fun r => (r.2 : ℝ)).sum := by
    refine list_sum_pos ?_ ⟨_, List.mem_map.mpr ⟨r, hrg, rfl⟩, by exact_mod_cast hn⟩
    intro x hx
    simp only [List.mem_map] at hx
    obtain ⟨y, _, rfl⟩ := hx
    exact Nat.cast_nonneg _
  have hmean : m ≤ (g.map fun r => r.1 * (r.2 : ℝ)).sum / (g.map fun r => (r.2 : ℝ)).sum := by
    refine mean_ge (fun x _ => Nat.cast_nonneg _) hS fun x hx => hm'.2 ?_
    exact List.mem_map_of_mem hx
  have hlog : 0 < Real.logb 10 (Real.exp 1) := by
    rw [Real.logb, Real.log_exp]
    have : 0 < Real.log 10 := Real.log_pos (by norm_num)
    positivity
  unfold bMaxLikelihood
  simp only [← hg, hm, bind, Except.bind, pure, Except.pure, npSum_real, log10_real, exp_real, sqrt_real]
  set A := (g.map fun r => r.1 * (r.2 : ℝ)).sum / (g.map fun r => (r.2 : ℝ)).sum
  have hden : dmag / 2 ≤ A - m + dmag / 2.0 := by
    rw [show (2.0 : ℝ) = 2 by norm_num]; linarith
  have hden0 : 0 < A - m + dmag / 2.0 := by linarith
  refine ⟨_, _, rfl, ?_, ?_, ?_⟩
  · rw [show (1.0 : ℝ) = 1 by norm_num]
    positivity
  · rw [show (1.0 : ℝ) = 1 by norm_num]
    calc _ ≤ Real.logb 10 (Real.exp 1) / (dmag / 2) := div_le_div_of_nonneg_left hlog.le (by linarith) hden
      _ = _ := by field_simp
  · have := Real.sqrt_nonneg ((g.map fun r => (r.2 : ℝ) * ((r.1 - A) * (r.1 - A))).sum / ((g.map fun r => (r.2 : ℝ)).sum * ((g.map fun r => (r.2 : ℝ)).sum - ((1 : ℕ) : ℝ))))
    refine mul_nonneg (mul_nonneg (by norm_num) (mul_self_nonneg _)) this

/-- **C58**, the value: `b = log10(e) / (mean - least + dmag/2)`, with the mean magnitude of the events and the least bin, both at or above the completeness magnitude. -/
theorem C58_value {h : List (ℝ × ℕ)} {dmag mc b s : ℝ} (hok : bMaxLikelihood h dmag mc = .ok (b, s)) :
    ∃ mmin, IsLeast {m | mc ≤ m ∧ ∃ n, (m, n) ∈ h} mmin ∧
      b = Real.logb 10 (Real.exp 1) / (((h.filter fun r => mc ≤ r.1).map fun r => r.1 * (r.2 : ℝ)).sum / ((h.filter fun r => mc ≤ r.1).map fun r => (r.2 : ℝ)).sum - mmin + dmag / 2) := by
  unfold bMaxLikelihood at hok
  simp only [bind, Except.bind] at hok
  rcases hm : npMin ((h.filter fun r => decide (r.1 ≥ mc)).map Prod.fst) with e | m
  · simp [hm] at hok
  simp only [hm, pure, Except.pure, Except.ok.injEq, Prod.mk.injEq, npSum_real, log10_real, exp_real] at hok
  have hm' := npMin_ok hm
  have e1 : {y | y ∈ (h.filter fun r => decide (r.1 ≥ mc)).map Prod.fst} = {m | mc ≤ m ∧ ∃ n, (m, n) ∈ h} := by
    ext x
    simp only [List.mem_map, List.mem_filter, decide_eq_true_eq, Set.mem_setOf_eq, Prod.exists]
    constructor
    · rintro ⟨a, n, ⟨h1, h2⟩, rfl⟩; exact ⟨h2, n, h1⟩
    · rintro ⟨h2, n, h1⟩; exact ⟨x, n, ⟨h1, h2⟩, rfl⟩
  rw [e1] at hm'
  refine ⟨m, hm', ?_⟩
  rw [← hok.1, show (1.0 : ℝ) = 1 by norm_num, show (2.0 : ℝ) = 2 by norm_num]

/-- Hypotheses of C58 for a histogram with an empty bin above an occupied one. -/
example : ∃ r ∈ [((4.05 : ℝ), 3), (4.15, 0)], (4 : ℝ) ≤ r.1 ∧ 0 < r.2 := ⟨(4.05, 3), by simp, by norm_num, by norm_num⟩

/-! ### C59 and C64 -/

theorem period_ok {ev : List (ℝ × ℝ)} {dmag ref c : ℝ} {g : List ℝ} {p : Period ℝ} (h : period ev dmag ref c g = .ok p) :
    ∃ mc ny, IsLeast {m | m ∈ g} mc ∧ Spec.IsNumYears (Spec.completeEvents ev c mc) ny ∧ p.n = (Spec.completeEvents ev c mc).length ∧ 0 < p.n ∧
      p.rate = (10 : ℝ) ^ (Real.logb 10 (p.n / ny) + p.b * mc - p.b * ref) ∧
      (∃ rows, recurrenceTable (Spec.completeEvents ev c mc) dmag = .ok rows ∧
        bMaxLikelihood (rows.map fun r => (r.mval, r.nObs)) dmag mc = .ok (p.b, p.sigb)) := by
  have hfil : ∀ mc, periodEvents ev c mc = Spec.completeEvents ev c mc := by
    intro mc
    simp only [periodEvents, Spec.completeEvents]
    refine List.filter_congr fun e _ => ?_
    simp [Bool.decide_and]
  unfold period at h
  simp only [bind, Except.bind] at h
  rcases hg : npMin g with e | mc
  · simp [hg] at h
  simp only [hg, hfil] at h
  rcases hM : npMax ((Spec.completeEvents ev c mc).map Prod.fst) with e | y1
  · simp [hM] at h
  simp only [hM] at h
  rcases hm : npMin ((Spec.completeEvents ev c mc).map Prod.fst) with e | y0
  · simp [hm] at h
  simp only [hm] at h
  rcases ht : recurrenceTable (Spec.completeEvents ev c mc) dmag with e | rows
  · simp [ht] at h
  simp only [ht] at h
  rcases hb : bMaxLikelihood (rows.map fun r => (r.mval, r.nObs)) dmag mc with e | ⟨b, s⟩
  · simp [hb] at h
  simp only [hb, pure, Except.pure, Except.ok.injEq] at h
  subst h
  have hM' := npMax_ok hM
  have hm' := npMin_ok hm
  have e2 : {y | y ∈ (Spec.completeEvents ev c mc).map Prod.fst} = {x | ∃ e ∈ Spec.completeEvents ev c mc, e.1 = x} := by
    ext x; simp
  rw [e2] at hM' hm'
  refine ⟨mc, y1 - y0 + 1, npMin_ok hg, ⟨y0, y1, hm', hM', rfl⟩, rfl, ?_, ?_, rows, ht, hb⟩
  · obtain ⟨e, he, _⟩ := hM'.1
    exact List.length_pos_of_mem he
  · simp only [log10_real, rpow_real, Nat.cast_one]
    norm_num

theorem periods_ok {F : Type} [PyMath F] {ev table : List (F × F)} {dmag ref : F} {i : ℕ} {ps : List (Period F)}
    (h : periods ev table dmag ref i = .ok ps) :
    (i < table.length → ps ≠ []) ∧ ∀ p ∈ ps, ∃ r ∈ table, period ev dmag ref r.1 (groupOf table r.1) = .ok p := by
  revert ps
  refine periods.induct table (fun i => ∀ {ps : List (Period F)}, periods ev table dmag ref i = .ok ps →
    (i < table.length → ps ≠ []) ∧ ∀ p ∈ ps, ∃ r ∈ table, period ev dmag ref r.1 (groupOf table r.1) = .ok p) ?_ ?_ ?_ i
  · intro i hi g hg ps h
    rw [periods] at h
    simp only [hi, dif_pos] at h
    rw [dif_pos hg] at h
    simp at h
  · intro i hi g hg ih ps h
    rw [periods] at h
    simp only [hi, dif_pos] at h
    rw [dif_neg hg] at h
    simp only [bind, Except.bind] at h
    rcases hp : period ev dmag ref table[i].1 (groupOf table table[i].1) with e | p
    · simp [hp] at h
    simp only [hp] at h
    rcases hps : periods ev table dmag ref (i + (groupOf table table[i].1).length) with e | ps'
    · simp [hps] at h
    simp only [hps, pure, Except.pure, Except.ok.injEq] at h
    subst h
    refine ⟨fun _ => by simp, fun q hq => ?_⟩
    rcases List.mem_cons.mp hq with rfl | hq
    · exact ⟨table[i], List.getElem_mem _, hp⟩
    · exact (ih hps).2 q hq
  · intro i hi ps h
    rw [periods] at h
    simp only [hi, dif_neg, not_false_eq_true] at h
    simp only [Except.ok.injEq] at h
    subst h
    exact ⟨fun hc => absurd hc hi, by simp⟩

theorem weighted_eq (ps : List (Period ℝ)) (f : Period ℝ → ℝ) :
    weighted ps f = (ps.map fun p => f p * (p.n : ℝ)).sum / (ps.map fun p => (p.n : ℝ)).sum := by
  simp only [weighted, npSum_real]
  rw [div_eq_mul_inv, mul_comm _ (_)⁻¹, ← sum_map_mul]
  congr 1
  refine List.map_congr_left fun p _ => by rw [div_eq_mul_inv]; ring

theorem weighted_between {ps : List (Period ℝ)} (hne : ps ≠ []) (hn : ∀ p ∈ ps, 0 < p.n) (f : Period ℝ → ℝ) :
    ∃ p ∈ ps, ∃ q ∈ ps, f p ≤ weighted ps f ∧ weighted ps f ≤ f q := by
  have hS : 0 < (ps.map fun p => (p.n : ℝ)).sum := by
    obtain ⟨p, hp⟩ := List.exists_mem_of_ne_nil ps hne
    refine list_sum_pos ?_ ⟨_, List.mem_map.mpr ⟨p, hp, rfl⟩, by exact_mod_cast hn p hp⟩
    intro x hx
    simp only [List.mem_map] at hx
    obtain ⟨y, _, rfl⟩ := hx
    exact Nat.cast_nonneg _
  have he := weighted_eq ps f
  obtain ⟨p, hp, hmin⟩ := exists_min hne f
  obtain ⟨q, hq, hmax⟩ := exists_max hne f
  refine ⟨p, hp, q, hq, ?_, ?_⟩
  · rw [he]; exact mean_ge (fun x _ => Nat.cast_nonneg _) hS hmin
  · rw [he]; exact mean_le (fun x _ => Nat.cast_nonneg _) hS hmax

/-- **C59**: the values returned by the maximum likelihood recurrence are averages of those of the periods weighted by their numbers of events, and each lies between the smallest and the largest value of the completeness periods; every
period is that of a row of the table. -/
theorem C59_average {ev table : List (ℝ × ℝ)} {dmag ref : ℝ} {r : GR ℝ} (h : bMaxlikeTime ev table dmag ref = .ok r) :
    ∃ ps : List (Period ℝ), periods ev table dmag ref 0 = .ok ps ∧ ps ≠ [] ∧ (∀ p ∈ ps, 0 < p.n) ∧
      r.b = (ps.map fun p => p.b * (p.n : ℝ)).sum / (ps.map fun p => (p.n : ℝ)).sum ∧
      r.a = (ps.map fun p => p.rate * (p.n : ℝ)).sum / (ps.map fun p => (p.n : ℝ)).sum ∧ (∀ p ∈ ps, ∃ c ∈ table, period ev dmag ref c.1 (groupOf table c.1) = .ok p) ∧
      (∃ p ∈ ps, ∃ q ∈ ps, p.b ≤ r.b ∧ r.b ≤ q.b) ∧ (∃ p ∈ ps, ∃ q ∈ ps, p.sigb ≤ r.sigb ∧ r.sigb ≤ q.sigb) ∧
      (∃ p ∈ ps, ∃ q ∈ ps, p.rate ≤ r.a ∧ r.a ≤ q.rate) ∧ (∃ p ∈ ps, ∃ q ∈ ps, p.sigrate ≤ r.siga ∧ r.siga ≤ q.sigrate) := by
  unfold bMaxlikeTime at h
  simp only [bind, Except.bind] at h
  rcases hp : periods ev table dmag ref 0 with e | ps
  · simp [hp] at h
  simp only [hp] at h
  split_ifs at h with he
  simp only [pure, Except.pure, Except.ok.injEq] at h
  subst h
  have hne : ps ≠ [] := by simpa using he
  have hn : ∀ p ∈ ps, 0 < p.n := by
    intro p hp'
    obtain ⟨c, _, hc⟩ := (periods_ok hp).2 p hp'
    obtain ⟨_, _, _, _, _, h, _⟩ := period_ok hc
    exact h
  exact ⟨ps, rfl, hne, hn, weighted_eq _ _, weighted_eq _ _, (periods_ok hp).2, weighted_between hne hn _, weighted_between hne hn _, weighted_between hne hn _, weighted_between hne hn _⟩

/-- **C59**, the errors: the errors of b-value and rate are averages weighted by the numbers of events too. -/
theorem C59_errors {ev table : List (ℝ × ℝ)} {dmag ref : ℝ} {r : GR ℝ} {ps : List (Period ℝ)} (h : bMaxlikeTime ev table dmag ref = .ok r)
    (hp : periods ev table dmag ref 0 = .ok ps) :
    r.sigb = (ps.map fun p => p.sigb * (p.n : ℝ)).sum / (ps.map fun p => (p.n : ℝ)).sum ∧
      r.siga = (ps.map fun p => p.sigrate * (p.n : ℝ)).sum / (ps.map fun p => (p.n : ℝ)).sum := by
  unfold bMaxlikeTime at h
  simp only [bind, Except.bind, hp] at h
  split_ifs at h with he
  simp only [pure, Except.pure, Except.ok.injEq] at h
  subst h
  exact ⟨weighted_eq _ _, weighted_eq _ _⟩

/-- A table of blocks of rows with the same year. -/
def blockTable (blocks : List (ℝ × List ℝ)) : List (ℝ × ℝ) := blocks.flatMap fun b => b.2.map fun m => (b.1, m)

theorem groupOf_blocks {pre post : List (ℝ × List ℝ)} {b : ℝ × List ℝ} (h : ∀ b' ∈ pre ++ post, 1e-5 ≤ |b'.1 - b.1|) :
    groupOf (blockTable (pre ++ b :: post)) b.1 = b.2 := by
  have hnil : ∀ l : List (ℝ × List ℝ), (∀ b' ∈ l, 1e-5 ≤ |b'.1 - b.1|) → groupOf (blockTable l) b.1 = [] := by
    intro l hl
    simp only [groupOf, List.map_eq_nil_iff, List.filter_eq_nil_iff, blockTable, List.mem_flatMap, List.mem_map]
    rintro r ⟨b', hb', m, _, rfl⟩
    simp only [npAbs_real, decide_eq_true_eq, not_lt]
    exact hl b' hb'
  have happ : ∀ l l', groupOf (l ++ l') b.1 = groupOf l b.1 ++ groupOf l' b.1 := by
    intro l l'; simp [groupOf]
  have h1 : blockTable (pre ++ b :: post) = blockTable pre ++ (b.2.map (fun m => (b.1, m)) ++ blockTable post) := by
    simp [blockTable]
  rw [h1, happ, happ, hnil pre (fun b' hb' => h b' (by simp [hb'])), hnil post (fun b' hb' => h b' (by simp [hb']))]
  simp only [groupOf, npAbs_real, List.nil_append, List.append_nil]
  rw [List.filter_eq_self.mpr]
  · simp [Function.comp_def]
  · intro r hr
    simp only [List.mem_map] at hr
    obtain ⟨m, _, rfl⟩ := hr
    simp only [sub_self, abs_zero, decide_eq_true_eq]
    norm_num

/-- **C59**, the periods: for a table made of blocks of rows with the same year, the years being at least 1e-5 apart, there is exactly one period for each block, in order, and its
completeness magnitude is the least of the block. -/
theorem C59_periods {ev : List (ℝ × ℝ)} {dmag ref : ℝ} {blocks : List (ℝ × List ℝ)} (hne : ∀ b ∈ blocks, b.2 ≠ [])
    (hsep : blocks.Pairwise fun b b' => 1e-5 ≤ |b.1 - b'.1|) :
    periods ev (blockTable blocks) dmag ref 0 = blocks.mapM fun b => period ev dmag ref b.1 b.2 := by
  suffices H : ∀ pre post : List (ℝ × List ℝ), blocks = pre ++ post →
      periods ev (blockTable blocks) dmag ref (blockTable pre).length = post.mapM fun b => period ev dmag ref b.1 b.2 from
    H [] blocks rfl
  intro pre post
  induction post generalizing pre with
  | nil =>
    rintro rfl
    rw [periods]
    simp only [List.append_nil, lt_irrefl, dif_neg, not_false_eq_true]
    rfl
  | cons b post ih =>
    intro hb
    have hbne := hne b (by simp [hb])
    have hsep' : ∀ b' ∈ pre ++ post, 1e-5 ≤ |b'.1 - b.1| := by
      rw [hb, List.pairwise_append] at hsep
      obtain ⟨_, h2, h3⟩ := hsep
      intro b' hb'
      rcases List.mem_append.mp hb' with h | h
      · exact h3 b' h b (by simp)
      · rw [abs_sub_comm]; exact (List.pairwise_cons.mp h2).1 b' h
    have hT : blockTable blocks = blockTable pre ++ (b.2.map (fun m => (b.1, m)) ++ blockTable post) := by
      rw [hb]; simp [blockTable]
    obtain ⟨m0, ms, hms⟩ := List.exists_cons_of_ne_nil hbne
    have hlt : (blockTable pre).length < (blockTable blocks).length := by
      rw [hT, hms]; simp
    have hget : (blockTable blocks)[(blockTable pre).length].1 = b.1 := by
      simp only [hT, hms]
      rw [List.getElem_append_right (le_refl _)]
      simp
    have hgrp : groupOf (blockTable blocks) (blockTable blocks)[(blockTable pre).length].1 = b.2 := by
      rw [hget, hb]; exact groupOf_blocks hsep'
    have hrec := ih (pre ++ [b]) (by simp [hb])
    have hlen : (blockTable (pre ++ [b])).length = (blockTable pre).length + b.2.length := by
      simp [blockTable]
    rw [periods, dif_pos hlt]
    simp only []
    rw [dif_neg (by rw [hgrp, hms]; simp), hgrp, hget, ← hlen, hrec]
    simp only [List.mapM_cons]

/-- A table with two rows for 1990 and one for 1950. -/
example : blockTable [(1990, [4, 4.5]), (1950, [5])] = [(1990, 4), (1990, 4.5), (1950, 5)] := rfl

/-- **C64**: the rate of a completeness period is the observed annual number of its events, scaled by `10^(-b (M - Mc))` from its completeness magnitude `Mc` to the
reference magnitude `M`; so at `M = Mc` it is the observed rate. -/
theorem C64_rate {ev : List (ℝ × ℝ)} {dmag ref c : ℝ} {g : List ℝ} {p : Period ℝ} (h : period ev dmag ref c g = .ok p) :
    ∃ mc ny, IsLeast {m | m ∈ g} mc ∧ Spec.IsNumYears (Spec.completeEvents ev c mc) ny ∧
      p.rate = ((Spec.completeEvents ev c mc).length / ny) * (10 : ℝ) ^ (-p.b * (ref - mc)) := by
  obtain ⟨mc, ny, h1, h2, h3, h4, h5, _⟩ := period_ok h
  refine ⟨mc, ny, h1, h2, ?_⟩
  have hny : 0 < ny := by
    obtain ⟨y0, y1, hy0, hy1, rfl⟩ := h2
    have := hy1.2 hy0.1
    linarith
  have hpos : 0 < (p.n : ℝ) / ny := by
    have : (0 : ℝ) < p.n := by exact_mod_cast h4
    positivity
  rw [h5, ← h3, show Real.logb 10 ((p.n : ℝ) / ny) + p.b * mc - p.b * ref = Real.logb 10 ((p.n : ℝ) / ny) + -p.b * (ref - mc) by ring,
    Real.rpow_add (by norm_num), Real.rpow_logb (by norm_num) (by norm_num) hpos]

/-- **C64**: b-value, error and number of events of a period do not depend on the reference magnitude, and the rates at two reference magnitudes differ by
the factor `10^(-b dM)`. -/
theorem C64_reference {ev : List (ℝ × ℝ)} {dmag ref ref' c : ℝ} {g : List ℝ} {p p' : Period ℝ} (h : period ev dmag ref c g = .ok p)
    (h' : period ev dmag ref' c g = .ok p') : p.b = p'.b ∧ p.sigb = p'.sigb ∧ p.n = p'.n ∧ p'.rate = p.rate * (10 : ℝ) ^ (-p.b * (ref' - ref)) := by
  obtain ⟨mc, ny, h1, h2, h3, h4, h5, rows, ht, hb⟩ := period_ok h
  obtain ⟨mc', ny', h1', h2', h3', h4', h5', rows', ht', hb'⟩ := period_ok h'
  obtain rfl : mc = mc' := h1.unique h1'
  obtain rfl : ny = ny' := by
    obtain ⟨y0, y1, a, b, rfl⟩ := h2
    obtain ⟨z0, z1, a', b', rfl⟩ := h2'
    rw [a.unique a', b.unique b']
  obtain rfl : rows = rows' := by rw [ht] at ht'; exact Except.ok.inj ht'
  have he : (p.b, p.sigb) = (p'.b, p'.sigb) := by rw [hb] at hb'; exact Except.ok.inj hb'
  have hbb : p.b = p'.b := congrArg Prod.fst he
  have hnn : p.n = p'.n := h3.trans h3'.symm
  refine ⟨hbb, congrArg Prod.snd he, hnn, ?_⟩
  rw [h5, h5', ← Real.rpow_add (by norm_num), ← hbb, ← hnn]
  congr 1
  ring

/-! ### C61 and C62 -/

/-- **C61**: with positive periods, two different magnitudes and at least one event, the quantities `dldb` and `d2ldb2` of each Newton step are the first and second derivatives of
the log-likelihood; the second is strictly negative (no division by zero, the standard error is the root of a positive number), so the likelihood
equation has at most one solution, which is its strict maximum. -/
theorem C61_concave {w : List (WBin ℝ)} (ht : ∀ x ∈ w, 0 < x.t) (hd : ∃ x ∈ w, ∃ y ∈ w, x.m ≠ y.m) (hn : ∃ x ∈ w, 0 < x.n) (β : ℝ) :
    HasDerivAt (Spec.logLik (triples w)) (dldb w β) β ∧ HasDerivAt (dldb w) (d2ldb2 w β) β ∧ d2ldb2 w β < 0 ∧ 0 < -1 / d2ldb2 w β ∧
      (dldb w β = 0 → ∀ β', dldb w β' = 0 → β' = β) := by
  have hw : w ≠ [] := by obtain ⟨x, hx, _⟩ := hd; exact List.ne_nil_of_mem hx
  have h2 := d2_neg ht hd hn β
  refine ⟨logLik_deriv ht hw β, dldb_deriv ht hw β, h2, div_pos_of_neg_of_neg (by norm_num) h2, fun h0 β' h0' => ?_⟩
  exact (dldb_strictAnti ht hd hn).injective (h0'.trans h0.symm)

/-- Non-trivial bins: different periods, magnitudes and counts. -/
example : ∃ w : List (WBin ℝ), (∀ x ∈ w, 0 < x.t) ∧ (∃ x ∈ w, ∃ y ∈ w, x.m ≠ y.m) ∧ ∃ x ∈ w, 0 < x.n :=
  ⟨[⟨10, 4.05, 7⟩, ⟨50, 4.15, 0⟩], by simp, ⟨⟨10, 4.05, 7⟩, by simp, ⟨50, 4.15, 0⟩, by simp, by norm_num⟩, ⟨⟨10, 4.05, 7⟩, by simp, by norm_num⟩⟩

/-- **C62** (any number type): if `weichert` returns, the returned values are those computed in the first iteration `k` whose Newton step is at most the tolerance 1e-5. -/
theorem C62_first_stable {F : Type} [PyMath F] {w : List (WBin F)} {mrate : F} {fuel : ℕ} {r : GR F} (h : weichert w mrate fuel = .ok (some r)) :
    ∃ x0 x1 rest, w = x0 :: x1 :: rest ∧ ∃ k, npAbs (newton w ((newton w)^[k] 1.5) - (newton w)^[k] 1.5) ≤ 1e-5 ∧
      (∀ j < k, ¬ npAbs (newton w ((newton w)^[j] 1.5) - (newton w)^[j] 1.5) ≤ 1e-5) ∧
      r = wResult w x0.m (x1.m - x0.m) mrate ((newton w)^[k] 1.5) := by
  unfold weichert at h
  split at h
  · rename_i x0 x1 rest
    obtain ⟨k, _, h1, h2, h3⟩ := weichertLoop_some (Except.ok.inj h)
    exact ⟨x0, x1, rest, rfl, k, h1, h2, h3⟩
  · simp at h

/-- **C62** in exact arithmetic: the returned b-value is within the tolerance of a point `β` where the derivative of the log-likelihood is at most the tolerance times
its second derivative; it is the Newton step from that point, and the errors and the rate are those of that step (rate of the events of magnitude at least
`mrate`, or above the lower edge of the bins if `mrate = 0`). -/
theorem C62_likelihood {w : List (WBin ℝ)} {mrate : ℝ} {fuel : ℕ} {r : GR ℝ} (h : weichert w mrate fuel = .ok (some r)) (ht : ∀ x ∈ w, 0 < x.t)
    (hd : ∃ x ∈ w, ∃ y ∈ w, x.m ≠ y.m) (hn : ∃ x ∈ w, 0 < x.n) :
    ∃ β L1 L2 : ℝ, HasDerivAt (Spec.logLik (triples w)) L1 β ∧ HasDerivAt (dldb w) L2 β ∧ L2 < 0 ∧ |L1| ≤ 1e-5 * |L2| ∧
      r.b * Real.log 10 = β - L1 / L2 ∧ |r.b * Real.log 10 - β| ≤ 1e-5 ∧ r.sigb * Real.log 10 = Real.sqrt (-1 / L2) ∧
      ∃ x0 x1 rest N, w = x0 :: x1 :: rest ∧ N = (w.map fun x => (x.n : ℝ)).sum ∧
        (mrate = 0 → r.a = N * ((w.map fun x => Real.exp (-β * x.m)).sum / (w.map fun x => x.t * Real.exp (-β * x.m)).sum)) ∧
        (mrate ≠ 0 → r.a = N * ((w.map fun x => Real.exp (-β * x.m)).sum / (w.map fun x => x.t * Real.exp (-β * x.m)).sum) *
          Real.exp (-(r.b * Real.log 10) * (mrate - (x0.m - (x1.m - x0.m) / 2))) ∧ r.siga = r.a / Real.sqrt N) := by
  obtain ⟨x0, x1, rest, hw, k, h1, _, h3⟩ := C62_first_stable h
  set β := (newton w)^[k] 1.5
  have hne : w ≠ [] := by rw [hw]; simp
  have h2 := d2_neg ht hd hn β
  have hl : Real.log 10 ≠ 0 := (Real.log_pos (by norm_num)).ne'
  have hb : r.b * Real.log 10 = newton w β := by
    rw [h3]; simp only [wResult, log_real]
    rw [show (10.0 : ℝ) = 10 by norm_num]; field_simp
  have hs : r.sigb * Real.log 10 = Real.sqrt (-1 / d2ldb2 w β) := by
    rw [h3]; simp only [wResult, log_real, sqrt_real]
    rw [show (10.0 : ℝ) = 10 by norm_num, show (1.0 : ℝ) = 1 by norm_num]; field_simp
  rw [npAbs_real] at h1
  refine ⟨β, dldb w β, d2ldb2 w β, logLik_deriv ht hne β, dldb_deriv ht hne β, h2, ?_, by rw [hb]; rfl, by rw [hb]; exact h1, hs, x0, x1, rest, _, hw, rfl, ?_, ?_⟩
  · have : newton w β - β = -(dldb w β / d2ldb2 w β) := by simp only [newton]; ring
    rw [this, abs_neg, abs_div, div_le_iff₀ (abs_pos.mpr h2.ne)] at h1
    exact h1
  · intro h0
    rw [h3]
    simp only [wResult, decEq_real, h0, decide_true, if_true, wSums, npSum_real, exp_real]
  · intro h0
    rw [hb, h3]
    simp only [wResult, decEq_real, h0, decide_false, Bool.false_eq_true, if_false, wSums, npSum_real, exp_real, sqrt_real]
    rw [show (2.0 : ℝ) = 2 by norm_num]
    exact ⟨rfl, trivial⟩

end Verif.Recurrence
