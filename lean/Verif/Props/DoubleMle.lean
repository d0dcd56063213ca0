import Verif.Props.DoubleStepp
import Verif.Props.DoubleBins

/-!
# C176, C177: the earthquakes of the maximum likelihood recurrence in double precision
-/

namespace Verif.Recurrence

open Verif Verif.Np Verif.Dbl Verif.Completeness Verif.Recurrence.Spec

namespace Spec

/-- The earthquakes since a year with a magnitude of at least `g / 100`. -/
def completeCents (ev : List (Dbl × ℤ)) (year : Dbl) (g : ℤ) : List (Dbl × ℤ) := ev.filter fun e => decide (year ≤ e.1 ∧ g ≤ e.2)

end Spec

theorem tolerance_val : 9 / 10 ^ 6 ≤ ((1e-5 : Dbl)).val ∧ ((1e-5 : Dbl)).val ≤ 11 / 10 ^ 6 := by decide +kernel

/-- The doubles of the hundredths between -20 and 20 are different from those of the half hundredths. -/
theorem half_cent {k : ℤ} (hk : |k| ≤ 1000) : (Dbl.of ((k : ℚ) / 100)).val < rnd53 ((k : ℚ) / 100 + 1 / 200) := by
  have hkq : |(k : ℚ)| ≤ 1000 := by rw [← Int.cast_abs]; exact_mod_cast hk
  obtain ⟨h1, h2⟩ := abs_le.1 hkq
  have a := (abs_le.1 (hundredth_near hk)).2
  have b := (abs_le.1 (of_near (a := (k : ℚ) / 100 + 1 / 200) (B := 11) (abs_le.2 ⟨by linarith, by linarith⟩))).1
  rw [val_of] at b
  have e : ((11 : ℚ) + 1) / 2 ^ 53 + 1 / 10 ^ 9 < 1 / 200 := by norm_num
  linarith

/-- The tolerance of the selection is larger than the rounding errors and smaller than a hundredth. -/
theorem selected_iff {mc : Dbl} {g k : ℤ} (hmc : |mc.val - g / 100| ≤ 1 / 10 ^ 9) (hk : |k| ≤ 1000) : (Dbl.of ((k : ℚ) / 100) ≥ mc - (1e-5 : Dbl)) ↔ g ≤ k := by
  obtain ⟨t1, t2⟩ := tolerance_val
  obtain ⟨m1, m2⟩ := abs_le.1 hmc
  have e1 : (mc - (1e-5 : Dbl)).val = rnd53 (mc.val - (1e-5 : Dbl).val) := val_sub _ _
  have n1 : (1 : ℚ) / 10 ^ 9 < 9 / 10 ^ 6 := by norm_num
  have n2 : (1 : ℚ) / 10 ^ 9 + 11 / 10 ^ 6 < 1 / 200 := by norm_num
  constructor
  · intro h
    by_contra hlt
    have hq : (k : ℚ) + 1 ≤ g := by exact_mod_cast not_le.1 hlt
    have := rnd53_mono (show (k : ℚ) / 100 + 1 / 200 ≤ mc.val - (1e-5 : Dbl).val by linarith)
    rw [← e1] at this
    exact absurd (le_trans this (le_def.1 h)) (not_le.2 (half_cent hk))
  · intro h
    have hq : (g : ℚ) ≤ k := by exact_mod_cast h
    rw [ge_iff_le, le_def, e1, val_of]
    exact rnd53_mono (by linarith)

variable [Libm]

theorem selected_list {ev : List (Dbl × ℤ)} (hk : ∀ e ∈ ev, |e.2| ≤ 1000) {mc : Dbl} (y : Dbl) {g : ℤ} (hmc : |mc.val - g / 100| ≤ 1 / 10 ^ 9) :
    periodEvents (ev.map quake) y mc = (completeCents ev y g).map quake := by
  unfold periodEvents completeCents
  rw [List.filter_map]
  congr 1
  refine List.filter_congr fun e he => ?_
  simp only [Function.comp_apply, quake, ← Bool.decide_and]
  exact decide_eq_decide.2 (and_congr Iff.rfl (selected_iff hmc (hk e he)))

/-- **C176**: with a completeness table of Stepp's test (bin width with at most two decimals) the maximum likelihood recurrence computed in double precision selects, for each completeness year,
exactly the earthquakes since that year with a magnitude of at least the completeness magnitude, as in exact arithmetic. -/
theorem C176_selected {ev0 : List (Dbl × ℤ)} (hk0 : ∀ e ∈ ev0, |e.2| ≤ 1000) {c : ℤ} (c0 : 1 ≤ c) (c1 : c ≤ 1000) {dt ttol : Dbl} {iloc : Bool} {table : List (Dbl × Dbl)}
    (h : stepp (ev0.map quake) (Dbl.of (c / 100)) dt ttol iloc = .ok table) :
    ∃ lo, LowestTenth ev0 lo ∧ ∀ (ev : List (Dbl × ℤ)), (∀ e ∈ ev, |e.2| ≤ 1000) → ∀ i (hi : i < table.length) mc, npMin (groupOf table table[i].1) = .ok mc →
      ∃ j, ∃ hj : j < table.length, mc = table[j].2 ∧ npAbs (table[j].1 - table[i].1) < 1e-5 ∧
        (∀ l (hl : l < table.length), npAbs (table[l].1 - table[i].1) < 1e-5 → mc ≤ table[l].2) ∧
        periodEvents (ev.map quake) table[i].1 mc = (completeCents ev table[i].1 (10 * lo + j * c)).map quake := by
  have cq0 : (1 : ℚ) ≤ c := by exact_mod_cast c0
  have cq1 : (c : ℚ) ≤ 1000 := by exact_mod_cast c1
  obtain ⟨lo, hi, hT, -, -, hm, -⟩ := C170_rows_partial hk0 (q := c / 100) (by linarith) (by linarith) h
  refine ⟨lo, hT.low, fun ev hk i hi mc hmc => ?_⟩
  obtain ⟨h1, h2⟩ := npMin_spec hmc
  simp only [groupOf, List.mem_map, List.mem_filter, decide_eq_true_eq] at h1
  obtain ⟨r, ⟨hr, hry⟩, rfl⟩ := h1
  obtain ⟨j, hj, rfl⟩ := List.getElem_of_mem hr
  refine ⟨j, hj, rfl, hry, fun l hl hly => ?_, selected_list hk _ ?_⟩
  · refine h2 _ ?_
    simp only [groupOf, List.mem_map, List.mem_filter, decide_eq_true_eq]
    exact ⟨_, ⟨List.getElem_mem hl, hly⟩, rfl⟩
  · have := hm j hj
    push_cast
    rwa [show ((10 * lo + j * c : ℚ)) / 100 = lo / 10 + j * (c / 100) by ring]

omit [Libm] in
/-- The magnitudes of the rows of the table. -/
theorem table_mval {F : Type} [PyMath F] {ev : List (F × F)} {dm : F} {rows : List (RecRow F)} (h : recurrenceTable ev dm = .ok rows) :
    ∃ low, npMin ((ev.map Prod.snd).map fun m => ((PyNum.floorZ ((10.0 : F) * m) : Int) : F) / 10.0) = .ok low ∧
      ∀ i (hi : i < rows.length), rows[i].mval = arangeAt low dm i + dm / 2.0 := by
  unfold recurrenceTable at h
  simp only [bind, Except.bind, pure, Except.pure, throw, throwThe, MonadExceptOf.throw] at h
  rcases h1 : npMax (ev.map Prod.fst) with _ | y1 <;> simp only [h1] at h <;> [cases h; skip]
  rcases h2 : npMin (ev.map Prod.fst) with _ | y0 <;> simp only [h2] at h <;> [cases h; skip]
  rcases h3 : npMax ((ev.map Prod.snd).map fun m => ((PyNum.ceilZ ((10.0 : F) * m) : Int) : F) / 10.0) with _ | up <;> simp only [h3] at h <;> [cases h; skip]
  rcases h4 : npMin ((ev.map Prod.snd).map fun m => ((PyNum.floorZ ((10.0 : F) * m) : Int) : F) / 10.0) with _ | low <;> simp only [h4] at h <;> [cases h; skip]
  refine ⟨low, rfl, ?_⟩
  split_ifs at h
  cases h
  intro i hi
  simp

omit [Libm] in
/-- The centres of the bins are above a completeness magnitude that is not above their first edge. -/
theorem centre_above {mc : Dbl} {C K : ℤ} (hC : |C| ≤ 100) (hCK : C ≤ K) (hmc : |mc.val - C / 10| ≤ 1 / 10 ^ 9) {q : ℚ} (q0 : 1 / 1000 ≤ q) (i : ℕ) :
    mc ≤ arangeAt (Dbl.of ((K : ℚ) / 10)) (Dbl.of q) i + Dbl.of q / (2.0 : Dbl) := by
  have hCq : |(C : ℚ)| ≤ 100 := by rw [← Int.cast_abs]; exact_mod_cast hC
  obtain ⟨c1, c2⟩ := abs_le.1 hCq
  have hKq : (C : ℚ) ≤ K := by exact_mod_cast hCK
  have two : ((2.0 : Dbl)).val = 2 := by decide +kernel
  have hthou : (9 / 10000 : ℚ) ≤ (Dbl.of q).val := by
    have := rnd53_mono q0
    exact le_trans (by decide +kernel) this
  have hhalf : (4 / 10000 : ℚ) ≤ (Dbl.of q / (2.0 : Dbl)).val := by
    rw [val_div, two]
    have := rnd53_mono (show (9 / 20000 : ℚ) ≤ (Dbl.of q).val / 2 by linarith)
    exact le_trans (by decide +kernel) this
  have hedge : (C : ℚ) / 10 - 1 / 10 ^ 9 ≤ (arangeAt (Dbl.of ((K : ℚ) / 10)) (Dbl.of q) i).val := by
    have a := arange_mono (L := Dbl.of ((K : ℚ) / 10)) (D := Dbl.of q) (by linarith) (Nat.zero_le i)
    rw [arange_zero] at a
    have b := rnd53_mono (show (C : ℚ) / 10 ≤ K / 10 by linarith)
    have d := (abs_le.1 (of_near (a := (C : ℚ) / 10) (B := 10) (abs_le.2 ⟨by linarith, by linarith⟩))).1
    rw [val_of] at a d
    have : ((10 : ℚ) + 1) / 2 ^ 53 ≤ 1 / 10 ^ 9 := by norm_num
    linarith
  rw [le_def, val_add, ← mc.ok]
  refine rnd53_mono ?_
  have := (abs_le.1 hmc).2
  linarith [show (1 : ℚ) / 10 ^ 9 + 1 / 10 ^ 9 < 4 / 10000 by norm_num]

/-- **C177**: for a completeness magnitude with one decimal (up to rounding) every selected earthquake enters the b-value: the table of the period, computed in double precision, counts each of them
once and no bin of it is dropped. -/
theorem C177_used {ev : List (Dbl × ℤ)} (hk : ∀ e ∈ ev, |e.2| ≤ 1000) {q : ℚ} (q0 : 1 / 1000 ≤ q) (q1 : q ≤ 10) {C : ℤ} (hC : |C| ≤ 100) {mc y : Dbl} (hmc : |mc.val - C / 10| ≤ 1 / 10 ^ 9)
    (hex : ∃ e ∈ ev, y ≤ e.1 ∧ 10 * C ≤ e.2) :
    ∃ rows, recurrenceTable (periodEvents (ev.map quake) y mc) (Dbl.of q) = .ok rows ∧ (∀ r ∈ rows, mc ≤ r.mval) ∧
      (((rows.map fun r => (r.mval, r.nObs)).filter fun r => decide (r.1 ≥ mc)).map Prod.snd).sum = ev.countP fun e => decide (y ≤ e.1 ∧ 10 * C ≤ e.2) := by
  have hsel := selected_list hk y (g := 10 * C) (mc := mc) (by push_cast; rwa [show (10 * C : ℚ) / 100 = C / 10 by ring])
  rw [hsel]
  have hne : completeCents ev y (10 * C) ≠ [] := by
    obtain ⟨e, he, h⟩ := hex
    exact List.ne_nil_of_mem (List.mem_filter.2 ⟨he, by simpa using h⟩)
  have hk' : ∀ e ∈ completeCents ev y (10 * C), |e.2| ≤ 1000 := fun e he => hk e (List.mem_of_mem_filter he)
  obtain ⟨rows, hr, hsum⟩ := C163_total_partial hne hk' q0 q1
  have hall : ∀ r ∈ rows, mc ≤ r.mval := by
    intro r hrm
    obtain ⟨low, hlow, hmv⟩ := table_mval hr
    obtain ⟨i, hi, rfl⟩ := List.getElem_of_mem hrm
    rw [hmv i hi]
    obtain ⟨hm, -⟩ := npMin_spec hlow
    rw [List.map_map, List.map_map] at hm
    obtain ⟨e, he, rfl⟩ := List.mem_map.1 hm
    simp only [Function.comp_apply, quake]
    have hb := abs_le.1 (hk' e he)
    rw [(tenths (hk' e he)).1, tenth_val (abs_le.2 ⟨by omega, by omega⟩)]
    refine centre_above hC ?_ hmc q0 i
    have := (List.mem_filter.1 he).2
    simp only [decide_eq_true_eq] at this
    omega
  refine ⟨rows, hr, hall, ?_⟩
  rw [List.filter_eq_self.2, List.map_map]
  · rw [show (Prod.snd ∘ fun r : RecRow Dbl => (r.mval, r.nObs)) = RecRow.nObs from rfl, hsum, completeCents, List.countP_eq_length_filter]
  · intro r hrm
    obtain ⟨r', hr', rfl⟩ := List.mem_map.1 hrm
    simpa using hall r' hr'

/-- Non-vacuity of C177: the double 3.3000000000000003, which Stepp's test gives for the magnitude 3.3; the earthquake of magnitude 3.3, which the selection by flags removes (`C172_fails`), is used. -/
example : ∃ rows, recurrenceTable (periodEvents ([((1985.0 : Dbl), (330 : ℤ)), (1985.0, 300), (2000.0, 340)].map quake) 1980.0 (arangeAt (Dbl.of 3) (Dbl.of (1 / 10)) 3)) (Dbl.of (1 / 10)) = .ok rows ∧
    (∀ r ∈ rows, arangeAt (Dbl.of 3) (Dbl.of (1 / 10)) 3 ≤ r.mval) ∧
      (((rows.map fun r => (r.mval, r.nObs)).filter fun r => decide (r.1 ≥ arangeAt (Dbl.of 3) (Dbl.of (1 / 10)) 3)).map Prod.snd).sum = 2 := by
  obtain ⟨rows, h1, h2, h3⟩ := C177_used (ev := [((1985.0 : Dbl), (330 : ℤ)), (1985.0, 300), (2000.0, 340)]) (q := 1 / 10) (C := 33) (mc := arangeAt (Dbl.of 3) (Dbl.of (1 / 10)) 3) (y := 1980.0)
    (by decide) (by norm_num) (by norm_num) (by norm_num) (by decide +kernel) (by decide +kernel)
  exact ⟨rows, h1, h2, h3.trans (by decide +kernel)⟩

/-- Non-vacuity of C176: Stepp's test gives a table of four rows for this catalogue, and the group of its first row has a smallest magnitude. -/
example : ∃ table : List (Dbl × Dbl), stepp ([((1985.0 : Dbl), (330 : ℤ)), (1985.0, 300), (2000.0, 340)].map quake) (Dbl.of (((10 : ℤ) : ℚ) / 100)) 10.0 0.2 true = .ok table ∧ table.length = 4 ∧
    ∃ hi : 0 < table.length, ∃ mc, npMin (groupOf table table[0].1) = .ok mc := by
  obtain ⟨b, hb, hn⟩ := steppBins_noLibm (ev := [((1985.0 : Dbl), (330 : ℤ)), (1985.0, 300), (2000.0, 340)].map quake) (dm := Dbl.of (((10 : ℤ) : ℚ) / 100)) (dt := 10.0)
    (f := fun b => (b.nb, b.nt)) (v := (4, 1)) (by decide +kernel)
  simp only [Prod.mk.injEq] at hn
  obtain ⟨table, ht, -⟩ := stepp_short (ttol := 0.2) (iloc := true) hb (by omega) (by omega)
  obtain ⟨b', hb', hl, -⟩ := stepp_length ht
  obtain rfl : b = b' := by rw [hb] at hb'; exact Except.ok.inj hb'
  have h0 : 0 < table.length := by omega
  refine ⟨table, ht, by omega, h0, npMin_exists (List.ne_nil_of_mem (a := table[0].2) ?_)⟩
  simp only [groupOf, List.mem_map, List.mem_filter, decide_eq_true_eq]
  refine ⟨_, ⟨List.getElem_mem h0, ?_⟩, rfl⟩
  have e : table[0].1 - table[0].1 = (0 : Dbl) := Dbl.ext (by rw [val_sub, sub_self, rnd53_zero, val_zero])
  rw [e]
  have key : @npAbs Dbl (@instPyMathDbl noLibm).toPyNum (0 : Dbl) < (1e-5 : Dbl) := by decide +kernel
  exact key

end Verif.Recurrence
