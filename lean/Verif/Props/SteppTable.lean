import Verif.Props.Sensitivity
import Verif.Props.EachYear

/-!
# Property C125: the completeness table of Stepp's test and the maximum likelihood recurrence
-/

namespace Verif.Recurrence

open Verif Verif.Np Verif.Completeness

/-- A completeness period with an event half a bin above its magnitude has a positive b-value. -/
theorem period_succeeds {ev : List (ℝ × ℝ)} {dmag ref c mc : ℝ} {g : List ℝ} (hd : 0 < dmag) (hg : npMin g = .ok mc)
    (he : ∃ e ∈ ev, c ≤ e.1 ∧ mc + dmag / 2 ≤ e.2) : ∃ p, period ev dmag ref c g = .ok p ∧ 0 < p.b ∧ 0 < p.n := by
  obtain ⟨e, hev, hy, hm⟩ := he
  have hmem : e ∈ periodEvents ev c mc := by
    rw [periodEvents, List.mem_filter]
    refine ⟨hev, ?_⟩
    simp only [Bool.and_eq_true, decide_eq_true_eq, ge_iff_le]
    exact ⟨hy, by norm_num; linarith⟩
  have hne : periodEvents ev c mc ≠ [] := List.ne_nil_of_mem hmem
  have hne' : (periodEvents ev c mc).map Prod.fst ≠ [] := by simpa using hne
  obtain ⟨y0, hy0⟩ := npMin_exists hne'
  obtain ⟨y1, hy1⟩ := npMax_exists hne'
  obtain ⟨rows, low, ny, ht, _, hlow, _, hup, _, hrows⟩ := recurrenceTable_spec hne hd
  obtain ⟨i, hi, h1, h2⟩ : ∃ i < rows.length, low + (i : ℝ) * dmag ≤ e.2 ∧ e.2 < low + ((i : ℝ) + 1) * dmag := by
    have h0 := hlow e hmem
    have hq : 0 ≤ (e.2 - low) / dmag := div_nonneg (by linarith) hd.le
    have a := Nat.floor_le hq
    have b := Nat.lt_floor_add_one ((e.2 - low) / dmag)
    rw [le_div_iff₀ hd] at a
    rw [div_lt_iff₀ hd] at b
    refine ⟨⌊(e.2 - low) / dmag⌋₊, ?_, by linarith, by linarith⟩
    have := hup e hmem
    have h3 : ((⌊(e.2 - low) / dmag⌋₊ : ℕ) : ℝ) * dmag < rows.length * dmag := by linarith
    exact_mod_cast lt_of_mul_lt_mul_right h3 hd.le
  obtain ⟨b, s, hb, hb0, _, _⟩ := C58_b_value (h := rows.map fun r => (r.mval, r.nObs)) (mc := mc) hd
    ⟨(rows[i].mval, rows[i].nObs), List.mem_map.mpr ⟨rows[i], List.getElem_mem _, rfl⟩, by
      rw [(hrows i hi).1]; linarith, by
      rw [(hrows i hi).2.1, Spec.magCount, List.countP_pos_iff]
      exact ⟨e, hmem, by simpa using ⟨h1, h2⟩⟩⟩
  unfold period
  simp only [hg, hy0, hy1, ht, hb, Recurrence.bind_ok]
  exact ⟨_, rfl, hb0, List.length_pos_of_mem hmem⟩

theorem groupOf_mem {table : List (ℝ × ℝ)} {r : ℝ × ℝ} (h : r ∈ table) : r.2 ∈ groupOf table r.1 := by
  rw [groupOf, List.mem_map]
  exact ⟨r, List.mem_filter.mpr ⟨h, by simp only [npAbs_real, sub_self, abs_zero, decide_eq_true_eq]; norm_num⟩, rfl⟩

theorem periods_succeed {ev table : List (ℝ × ℝ)} {dmag ref : ℝ} (hd : 0 < dmag)
    (he : ∀ c ∈ table, ∃ e ∈ ev, c.1 ≤ e.1 ∧ c.2 + dmag / 2 ≤ e.2) (i : ℕ) :
    ∃ ps, periods ev table dmag ref i = .ok ps ∧ ∀ p ∈ ps, 0 < p.b := by
  refine periods.induct table (fun i => ∃ ps, periods ev table dmag ref i = .ok ps ∧ ∀ p ∈ ps, 0 < p.b) ?_ ?_ ?_ i
  · intro i hi g hg
    have := groupOf_mem (List.getElem_mem hi)
    exact absurd (List.length_pos_of_mem this) (by show ¬ 0 < g.length; omega)
  · intro i hi g hg ih
    have hmem := groupOf_mem (List.getElem_mem hi)
    obtain ⟨mc, hmc⟩ := npMin_exists (List.ne_nil_of_mem hmem)
    obtain ⟨e, hev, h1, h2⟩ := he _ (List.getElem_mem hi)
    have := (npMin_ok hmc).2 hmem
    obtain ⟨p, hp, hb, _⟩ := period_succeeds (ref := ref) (c := table[i].1) hd hmc ⟨e, hev, h1, by linarith⟩
    obtain ⟨ps, hps, hpb⟩ := ih
    refine ⟨p :: ps, ?_, by rintro q (_ | ⟨_, hq⟩); exacts [hb, hpb q ‹_›]⟩
    rw [periods]
    simp only [hi, dif_pos]
    rw [dif_neg hg, hp, hps]
    rfl
  · intro i hi
    refine ⟨[], ?_, by simp⟩
    rw [periods]
    simp only [hi, dif_neg, not_false_eq_true]

/-- **C125, part that holds for any table**: if every row of the table has an event in its years and half a bin above its magnitude, the
maximum likelihood recurrence returns a positive b-value and a positive rate.  Missing: nothing assures this for a table
of Stepp's test (`C125_fails`). -/
theorem C125_periods_partial {ev table : List (ℝ × ℝ)} {dmag ref : ℝ} (hd : 0 < dmag) (hne : table ≠ [])
    (he : ∀ c ∈ table, ∃ e ∈ ev, c.1 ≤ e.1 ∧ c.2 + dmag / 2 ≤ e.2) :
    ∃ r, bMaxlikeTime ev table dmag ref = .ok r ∧ 0 < r.b ∧ 0 < r.a := by
  obtain ⟨ps, hps, hb⟩ := periods_succeed (ref := ref) hd he 0
  have hpn : ps ≠ [] := (periods_ok hps).1 (List.length_pos_of_ne_nil hne)
  have hok : bMaxlikeTime ev table dmag ref = .ok
      { b := weighted ps Period.b, sigb := weighted ps Period.sigb, a := weighted ps Period.rate, siga := weighted ps Period.sigrate } := by
    rw [bMaxlikeTime, hps, Recurrence.bind_ok, if_neg (by simpa using hpn)]
    rfl
  obtain ⟨ps', hps', _, _, _, _, hper, ⟨p, hp, _, _, h1, _⟩, _, ⟨q, hq, _, _, h2, _⟩, _⟩ := C59_average hok
  rw [hps] at hps'
  obtain rfl : ps = ps' := by simpa using hps'
  refine ⟨_, hok, lt_of_lt_of_le (hb p hp) h1, lt_of_lt_of_le ?_ h2⟩
  obtain ⟨c, _, hc⟩ := hper q hq
  obtain ⟨_, _, _, _, _, _, hr, _⟩ := period_ok hc
  rw [hr]
  exact Real.rpow_pos_of_pos (by norm_num) _

/-- **C125, part that holds for Stepp's table**: if an event of the last year of the catalogue is half a bin above the largest magnitude of
the table, the recurrence returns. -/
theorem C125_stepp_partial {ev table : List (ℝ × ℝ)} {dm dt ttol dmag ref : ℝ} {iloc : Bool} (hev : ev ≠ []) (hdm : 0 < dm) (hdt : 0 < dt)
    (hd : 0 < dmag) (ht : stepp ev dm dt ttol iloc = .ok table) (hne : table ≠ [])
    (hlast : ∃ e ∈ ev, (∀ e' ∈ ev, e'.1 ≤ e.1) ∧ ∀ c ∈ table, c.2 + dmag / 2 ≤ e.2) :
    ∃ r, bMaxlikeTime ev table dmag ref = .ok r ∧ 0 < r.b ∧ 0 < r.a := by
  obtain ⟨e, he, hy, hm⟩ := hlast
  obtain ⟨low, high, y0, y1, hbin, hrow⟩ := C52_years hev hdm hdt ht
  refine C125_periods_partial hd hne fun c hc => ⟨e, he, ?_, hm c hc⟩
  obtain ⟨_, _, h1, _⟩ := hrow c hc
  obtain ⟨e', he', h2⟩ := hbin.last.1
  have := hy e' he'
  rw [h2] at this
  linarith


end Verif.Recurrence

namespace Verif.Completeness

open Verif Verif.Np

/-- An event of 2000 and a larger one three years before. -/
noncomputable def cat125 : List (ℝ × ℝ) := [(2000, 4.05), (1997, 5.05)]

theorem binning125 : Spec.Binning cat125 4 5.1 1997 2000 := by
  refine ⟨⟨4.05, ⟨⟨(2000, 4.05), by simp [cat125], mag2_405⟩, ?_⟩, ?_⟩, ⟨5.05, ⟨⟨(1997, 5.05), by simp [cat125], mag2_505⟩, ?_⟩, ?_⟩,
    ⟨⟨(1997, 5.05), by simp [cat125], rfl⟩, ?_⟩, ⟨⟨(2000, 4.05), by simp [cat125], rfl⟩, ?_⟩⟩
  · rintro x ⟨e, he, rfl⟩
    simp only [cat125, List.mem_cons, List.not_mem_nil, or_false] at he
    rcases he with rfl | rfl <;> simp only [mag2_405, mag2_505] <;> norm_num
  · have : ⌊(10 : ℝ) * 4.05⌋ = 40 := by rw [Int.floor_eq_iff]; norm_num
    rw [this]; norm_num
  · rintro x ⟨e, he, rfl⟩
    simp only [cat125, List.mem_cons, List.not_mem_nil, or_false] at he
    rcases he with rfl | rfl <;> simp only [mag2_405, mag2_505] <;> norm_num
  · have : ⌈(10 : ℝ) * 5.05⌉ = 51 := by rw [Int.ceil_eq_iff]; norm_num
    rw [this]; norm_num
  · rintro x ⟨e, he, rfl⟩
    simp only [cat125, List.mem_cons, List.not_mem_nil, or_false] at he
    rcases he with rfl | rfl <;> norm_num
  · rintro x ⟨e, he, rfl⟩
    simp only [cat125, List.mem_cons, List.not_mem_nil, or_false] at he
    rcases he with rfl | rfl <;> norm_num

theorem counts125_low (k : ℕ) : binCounts cat125 4 1 1 2000 2 0 k = 1 := by
  simp only [binCounts, Spec.eventsIn, cat125, List.countP_cons, List.countP_nil, mag2_405, mag2_505]
  have h1 : (2000 : ℝ) - ((k : ℝ) + 1) * 1 ≤ 2000 := by linarith [(Nat.cast_nonneg k : (0 : ℝ) ≤ k)]
  simp only [h1, true_and]
  norm_num

theorem counts125_high : binCounts cat125 4 1 1 2000 2 1 1 = 0 ∧ binCounts cat125 4 1 1 2000 2 1 2 = 1 ∧ binCounts cat125 4 1 1 2000 2 1 3 = 1 := by
  simp only [binCounts, Spec.eventsAbove, cat125, List.countP_cons, List.countP_nil, mag2_405, mag2_505]
  norm_num

theorem change125_low (k : ℕ) (hk : k < 500) : Spec.slopeChange (binCounts cat125 4 1 1 2000 2 0) 1 k = 0 := by
  rw [Spec.slopeChange, slope_eq (by rw [counts125_low]) (by rw [counts125_low]) (by omega), slope_eq (by rw [counts125_low]) (by rw [counts125_low]) (by omega)]
  simp only [counts125_low]
  simp

/-- The slope jumps when the old event enters the window of three years. -/
theorem change125_high : 1 < Spec.slopeChange (binCounts cat125 4 1 1 2000 2 1) 1 1 := by
  obtain ⟨c1, c2, c3⟩ := counts125_high
  rw [Spec.slopeChange, slope_eq (k := 2) (by rw [c2]) (by rw [c3]) (by norm_num)]
  simp only [Spec.slope, c1, c2, c3]
  have s0 : Spec.sigma 0 ((((1 : ℕ) : ℝ) + 1) * 1) = 1e-14 := by
    simp only [Spec.sigma, Nat.cast_zero, zero_div, Real.sqrt_zero]
    exact max_eq_left (by norm_num)
  have s1 : 1 / 10 ≤ Spec.sigma 1 ((((1 : ℕ) : ℝ) + 2) * 1) := by
    simp only [Spec.sigma]
    refine le_trans ?_ (le_max_right _ _)
    have h3 : Real.sqrt 3 ≤ 2 := by rw [Real.sqrt_le_left (by norm_num)]; norm_num
    have h0 : 0 < Real.sqrt 3 := Real.sqrt_pos.mpr (by norm_num)
    have e : Real.sqrt (((1 : ℕ) : ℝ) / ((((1 : ℕ) : ℝ) + 2) * 1)) = 1 / Real.sqrt 3 := by
      rw [show (((1 : ℕ) : ℝ) / ((((1 : ℕ) : ℝ) + 2) * 1)) = 1 / 3 by norm_num, Real.sqrt_div (by norm_num), Real.sqrt_one]
    rw [e, show ((((1 : ℕ) : ℝ) + 2) * 1) = 3 by norm_num, div_div, Real.mul_self_sqrt (by norm_num)]
    norm_num
  have l0 : Real.logb 10 (1e-14 : ℝ) = -14 := by
    rw [show (1e-14 : ℝ) = (10 : ℝ) ^ (-14 : ℝ) by norm_num [Real.rpow_neg]]
    exact Real.logb_rpow (by norm_num) (by norm_num)
  have l1 : -1 ≤ Real.logb 10 (Spec.sigma 1 ((((1 : ℕ) : ℝ) + 2) * 1)) := by
    have : Real.logb 10 (1 / 10) ≤ Real.logb 10 (Spec.sigma 1 ((((1 : ℕ) : ℝ) + 2) * 1)) :=
      Real.logb_le_logb_of_le (by norm_num) (by norm_num) s1
    refine le_trans (le_of_eq ?_) this
    rw [one_div, Real.logb_inv, Real.logb_self_eq_one (by norm_num)]
  have d0 : 0 < Real.logb 10 ((((1 : ℕ) : ℝ) + 2) * 1) - Real.logb 10 ((((1 : ℕ) : ℝ) + 1) * 1) :=
    sub_pos.mpr (Real.logb_lt_logb (by norm_num) (by norm_num) (by norm_num))
  have d1 : Real.logb 10 ((((1 : ℕ) : ℝ) + 2) * 1) - Real.logb 10 ((((1 : ℕ) : ℝ) + 1) * 1) ≤ 1 := by
    have a : Real.logb 10 ((((1 : ℕ) : ℝ) + 2) * 1) ≤ 1 := by
      rw [Real.logb_le_iff_le_rpow (by norm_num) (by norm_num)]; norm_num
    have b : 0 ≤ Real.logb 10 ((((1 : ℕ) : ℝ) + 1) * 1) := Real.logb_nonneg (by norm_num) (by norm_num)
    linarith
  rw [s0, l0]
  have q : 1 ≤ (Real.logb 10 (Spec.sigma 1 ((((1 : ℕ) : ℝ) + 2) * 1)) - -14) /
      (Real.logb 10 ((((1 : ℕ) : ℝ) + 2) * 1) - Real.logb 10 ((((1 : ℕ) : ℝ) + 1) * 1)) := by
    rw [le_div_iff₀ d0]; linarith
  rw [sub_self, zero_div, abs_sub_comm, lt_abs]
  left
  linarith

/-- The table of Stepp's test for `cat125`: the large event enters the window of magnitude 5 with the third year, and the year two before the end is
returned. -/
theorem run125 (iloc : Bool) : stepp cat125 1 1 0.2 iloc = .ok [(1999, 4), (1998, 5)] := by
  obtain ⟨b, low, high, y0, y1, hb, hbin, hmb, htr, hend, hnb, hnt, hobs⟩ :=
    steppBins_spec (ev := cat125) (dm := 1) (dt := 1) (by simp [cat125]) (by norm_num) (by norm_num)
  obtain ⟨rfl, rfl, rfl, rfl⟩ := binning_unique binning125 hbin
  have h2 : b.nb = 2 := by
    have a := hnb 1
    have c := hnb 2
    norm_num at a c
    omega
  have h4 : b.nt = 4 := by
    have a := hnt 3
    have c := hnt 4
    norm_num at a c
    omega
  have hc : ∀ j, (fun ii => b.obs ii j) = binCounts cat125 4 1 1 2000 2 j := by
    intro j; funext ii; rw [hobs, h2, binCounts]
  have l0 : steppLoc (exceeding (fun ii => b.obs ii 0) b.timeRange 4 0.2) = none := by
    rw [exceeding_real (by norm_num) htr, hc]
    have : (List.range (4 - 2)).filter (fun k => decide ((0.2 : ℝ) < Spec.slopeChange (binCounts cat125 4 1 1 2000 2 0) 1 k)) = [] := by
      rw [List.filter_eq_nil_iff]
      intro k hk
      rw [List.mem_range] at hk
      rw [change125_low k (by omega)]
      norm_num
    rw [this]
    rfl
  have l1 : steppLoc (exceeding (fun ii => b.obs ii 1) b.timeRange 4 0.2) = some 1 := by
    have hl : (exceeding (fun ii => b.obs ii 1) b.timeRange 4 0.2).getLast? = some 1 := by
      rw [exceeding_real (by norm_num) htr, hc, getLast?_filter_range]
      refine ⟨by norm_num, ?_, fun k' h1 h2 => by omega⟩
      rw [decide_eq_true_eq]
      exact lt_trans (by norm_num) change125_high
    rw [steppLoc, if_pos, hl]
    rw [List.any_eq_true]
    exact ⟨1, List.mem_of_getLast? hl, by decide⟩
  rw [stepp_eq hb]
  simp only [h2, show List.range 2 = [0, 1] by rfl, List.map_cons, List.map_nil, h4, l0, l1, hend]
  have ht : steppTlocs iloc 4 none [none, some 1] = [0, 1] := by cases iloc <;> rfl
  rw [ht, if_pos (by decide)]
  simp only [List.zipWith_cons_cons, List.zipWith_nil_left, htr, hmb]
  norm_num

end Verif.Completeness

namespace Verif.Recurrence

open Verif Verif.Np Verif.Completeness

/-- **C125 is false**: for `cat125` and its table the maximum likelihood recurrence fails on the maximum of an empty array, with or without the
increment lock: there is no event of magnitude 5 since 1998, the only one is of 1997. -/
theorem C125_fails (iloc : Bool) : ¬ ∀ (ev table : List (ℝ × ℝ)) (dm dt ttol dmag ref : ℝ), ev ≠ [] → 0 < dm → 0 < dt → 0 < ttol → 0 < dmag →
    stepp ev dm dt ttol iloc = .ok table → table ≠ [] → ∃ r, bMaxlikeTime ev table dmag ref = .ok r := by
  intro H
  obtain ⟨r, hr⟩ := H cat125 _ 1 1 0.2 1 0 (by simp [cat125]) one_pos one_pos (by norm_num) one_pos (run125 iloc) (by simp)
  have hps := C59_periods (ev := cat125) (dmag := 1) (ref := 0) (blocks := [((1999 : ℝ), [(4 : ℝ)]), (1998, [5])]) (by simp) (by
    simp only [List.pairwise_cons, List.mem_cons, List.not_mem_nil, or_false, forall_eq, List.Pairwise.nil, and_true, false_imp_iff, implies_true]
    norm_num)
  rw [show blockTable [((1999 : ℝ), [(4 : ℝ)]), (1998, [5])] = [(1999, 4), (1998, 5)] from rfl] at hps
  obtain ⟨ps, hp, _⟩ := C59_average hr
  rw [hps] at hp
  simp only [List.mapM_cons, List.mapM_nil] at hp
  have hsel : Spec.completeEvents cat125 1998 5 = [] := by
    simp only [Spec.completeEvents, cat125, List.filter_cons, List.filter_nil]
    norm_num
  cases h1 : period cat125 1 0 1999 [4] with
  | error e => rw [h1] at hp; cases hp
  | ok p =>
    cases h2 : period cat125 1 0 1998 [5] with
    | error e => rw [h1, h2] at hp; cases hp
    | ok q =>
      obtain ⟨mc, ny, hm, _, hn, hpos, _⟩ := period_ok h2
      obtain rfl : mc = 5 := by simpa using hm.1
      rw [hsel] at hn
      simp at hn
      omega

/-- The hypotheses of `C125_stepp_partial` hold for `cat121`, whose last year has an event of magnitude 6.05, and bins of width 0.1. -/
example : ∃ r, bMaxlikeTime cat121 [(2001, 4), (2002, 5), (2001, 6)] 0.1 0 = .ok r ∧ 0 < r.b ∧ 0 < r.a := by
  refine C125_stepp_partial (iloc := false) (dm := 1) (dt := 1) (ttol := 0.2) (by simp [cat121]) one_pos one_pos (by norm_num) (run121 false) (by simp)
    ⟨(2004, 6.05), by simp [cat121], ?_, ?_⟩
  · intro e he
    simp only [cat121, List.mem_cons, List.not_mem_nil, or_false] at he
    rcases he with rfl | rfl | rfl | rfl | rfl | rfl | rfl <;> norm_num
  · intro c hc
    simp only [List.mem_cons, List.not_mem_nil, or_false] at hc
    rcases hc with rfl | rfl | rfl <;> norm_num

end Verif.Recurrence
