import Verif.Model.Repr
import Verif.Props.Table
import Verif.Props.DoubleMle
import Verif.Props.DoublePeriods

/-!
# C179, C180: the stored completeness table in double precision
-/

namespace Verif.Table

open Verif Verif.EqCatalog Verif.Format

theorem of_val (x : Dbl) : Dbl.of x.val = x := Dbl.ext x.ok

theorem save_dbl (t : List (Dbl × Dbl)) : saveTable fmtDbl t = saveTable (fmt5 (K := ℚ)) (t.map fun r => (r.1.val, r.2.val)) := by
  unfold saveTable
  rw [List.flatMap_map]
  rfl

theorem loose_dbl (nan : Dbl) (v : Text) : loose floatDbl nan v = Dbl.of (loose (pyFloat (K := ℚ)) nan.val v) := by
  unfold loose floatDbl
  cases (pyFloat (K := ℚ) v) with
  | none => exact (of_val nan).symm
  | some x => rfl

theorem reshape_map {F G : Type} (f : F → G) : ∀ l : List F, reshape2 (l.map f) = (reshape2 l).map (List.map fun r => (f r.1, f r.2))
  | [] => rfl
  | [_] => rfl
  | x :: y :: t => by
    simp only [List.map_cons, reshape2, reshape_map f t, bind, Except.bind]
    cases reshape2 t <;> rfl

theorem load_dbl (nan : Dbl) (file : Text) : loadTable floatDbl nan file = (loadTable (pyFloat (K := ℚ)) nan.val file).map (List.map fun r => (Dbl.of r.1, Dbl.of r.2)) := by
  have hl : loose floatDbl nan = fun v => Dbl.of (loose (pyFloat (K := ℚ)) nan.val v) := funext (loose_dbl nan)
  unfold loadTable genFromTxt
  cases ((lines (universal file)).map splitLine).filter (fun r => r ≠ []) with
  | nil => rfl
  | cons r rs =>
    simp only
    by_cases h : (rs.all fun q => decide (q.length = r.length)) = true
    · simp only [if_pos h, bind, Except.bind, hl]
      rw [← reshape_map, List.map_map]
      rfl
    · simp only [if_neg h, bind, Except.bind]
      rfl

/-- The stored table read back. -/
theorem round_trip_dbl (nan : Dbl) (t : List (Dbl × Dbl)) (h : t ≠ []) :
    loadTable floatDbl nan (saveTable fmtDbl t) = .ok (t.map fun r => (Dbl.of (rnd5 r.1.val), Dbl.of (rnd5 r.2.val))) := by
  rw [load_dbl, save_dbl, C32_round_trip nan.val _ (by simpa using h)]
  simp [Except.map, Function.comp_def]

/-- A number close to one with five decimals is stored as that one. -/
theorem rnd5_near {x : ℚ} {z : ℤ} (h : |x - z / 10 ^ 5| < 1 / (2 * 10 ^ 5)) : rnd5 x = z / 10 ^ 5 := by
  have key : ∀ {x : ℚ} {z : ℤ}, 0 ≤ x → |x - z / 10 ^ 5| < 1 / (2 * 10 ^ 5) → rintK (x * 10 ^ 5) = z := by
    intro x z _ h
    obtain ⟨a, b⟩ := abs_lt.1 h
    obtain ⟨r1, r2⟩ := rintK_bounds (x * 10 ^ 5)
    norm_num at a b r1 r2 ⊢
    have a' : (z : ℚ) - 1 / 2 < x * 100000 := by linarith
    have b' : x * 100000 < (z : ℚ) + 1 / 2 := by linarith
    have c : ((rintK (x * 100000) : ℤ) : ℚ) < z + 1 := by linarith
    have d : (z : ℚ) < (rintK (x * 100000) : ℤ) + 1 := by linarith
    have c' : rintK (x * 100000) < z + 1 := by exact_mod_cast c
    have d' : z < rintK (x * 100000) + 1 := by exact_mod_cast d
    omega
  unfold rnd5
  by_cases hx : x < 0
  · have h' : |-x - ((-z : ℤ) : ℚ) / 10 ^ 5| < 1 / (2 * 10 ^ 5) := by
      push_cast
      rw [show -x - -(z : ℚ) / 10 ^ 5 = -(x - z / 10 ^ 5) by ring, abs_neg]
      exact h
    rw [if_pos hx, abs_of_neg hx, key (by linarith) h']
    push_cast; ring
  · rw [if_neg hx, abs_of_nonneg (not_lt.1 hx), key (not_lt.1 hx) h]
    ring

end Verif.Table

namespace Verif.Recurrence

open Verif Verif.Np Verif.Dbl Verif.Completeness Verif.Table Verif.Format
open Verif.Recurrence.Spec (tenthQuake LowestTenth completeCents RowFor)

variable [Libm]

/-- **C179**: a completeness table of Stepp's test computed in double precision (bin width with at most two decimals), stored and retrieved, has the same number of rows; the magnitude of each row is the
double nearest to the magnitude of exact arithmetic, and years that are whole numbers are unchanged. -/
theorem C179_stored {ev : List (Dbl × ℤ)} (hk : ∀ e ∈ ev, |e.2| ≤ 1000) {c : ℤ} (c0 : 1 ≤ c) (c1 : c ≤ 1000) {dt ttol : Dbl} {iloc : Bool} {table : List (Dbl × Dbl)}
    (h : stepp (ev.map Completeness.Spec.quake) (Dbl.of (c / 100)) dt ttol iloc = .ok table) (hne : table ≠ []) (nan : Dbl) :
    ∃ lo stored, LowestTenth ev lo ∧ loadTable floatDbl nan (saveTable fmtDbl table) = .ok stored ∧ stored.length = table.length ∧
      ∀ j (hj : j < table.length) (hs : j < stored.length), stored[j].2 = Dbl.of (((10 * lo + j * c : ℤ) : ℚ) / 100) ∧ ((∃ z : ℤ, table[j].1.val = z) → stored[j].1 = table[j].1) := by
  have cq0 : (1 : ℚ) ≤ c := by exact_mod_cast c0
  have cq1 : (c : ℚ) ≤ 1000 := by exact_mod_cast c1
  obtain ⟨lo, hi, hT, -, -, hm, -⟩ := C170_rows_partial hk (q := c / 100) (by linarith) (by linarith) h
  refine ⟨lo, _, hT.low, round_trip_dbl nan table hne, by simp, fun j hj hs => ?_⟩
  simp only [List.getElem_map]
  constructor
  · have hj' := hm j hj
    have := rnd5_near (x := table[j].2.val) (z := 1000 * (10 * lo + j * c)) (by
      push_cast
      rw [show (1000 * (10 * lo + j * c) : ℚ) / 10 ^ 5 = lo / 10 + j * (c / 100) by ring]
      exact lt_of_le_of_lt hj' (by norm_num))
    rw [this]
    congr 1
    push_cast
    ring
  · rintro ⟨z, hz⟩
    have := rnd5_near (x := table[j].1.val) (z := 100000 * z) (by
      rw [hz]; push_cast
      rw [show (z : ℚ) - 100000 * z / 10 ^ 5 = 0 by ring]
      norm_num)
    rw [this]
    apply Dbl.ext
    rw [val_of, show ((100000 * z : ℤ) : ℚ) / 10 ^ 5 = table[j].1.val by rw [hz]; push_cast; ring, table[j].1.ok]

/-- The magnitudes of the table are on the grid of hundredths and bounded, before and after storing. -/
theorem grid_bounds {ev : List (Dbl × ℤ)} (hk : ∀ e ∈ ev, |e.2| ≤ 1000) {c : ℤ} (c0 : 1 ≤ c) (c1 : c ≤ 1000) {dt ttol : Dbl} {iloc : Bool} {table : List (Dbl × Dbl)}
    (h : stepp (ev.map Completeness.Spec.quake) (Dbl.of (c / 100)) dt ttol iloc = .ok table) :
    ∃ lo, LowestTenth ev lo ∧ ∀ j (hj : j < table.length), |(table[j].2).val - ((10 * lo + j * c : ℤ) : ℚ) / 100| ≤ 1 / 10 ^ 9 ∧
      |(Dbl.of (((10 * lo + j * c : ℤ) : ℚ) / 100)).val - ((10 * lo + j * c : ℤ) : ℚ) / 100| ≤ 1 / 10 ^ 9 := by
  have cq0 : (1 : ℚ) ≤ c := by exact_mod_cast c0
  have cq1 : (c : ℚ) ≤ 1000 := by exact_mod_cast c1
  obtain ⟨lo, hi, hT, hl1, hl2, hm, -⟩ := C170_rows_partial hk (q := c / 100) (by linarith) (by linarith) h
  obtain ⟨el, hel, hlo⟩ := hT.low.1
  obtain ⟨eh, heh, hhi⟩ := hT.high.1
  have b1 := abs_le.1 (hk el hel)
  have b2 := abs_le.1 (hk eh heh)
  have lo1 : |(lo : ℚ)| ≤ 100 := by
    have : |lo| ≤ 100 := abs_le.2 ⟨by omega, by omega⟩
    rw [← Int.cast_abs]; exact_mod_cast this
  have hi1 : |(hi : ℚ)| ≤ 100 := by
    have : |hi| ≤ 100 := abs_le.2 ⟨by omega, by omega⟩
    rw [← Int.cast_abs]; exact_mod_cast this
  obtain ⟨lo1, lo2⟩ := abs_le.1 lo1
  obtain ⟨hi1, hi2⟩ := abs_le.1 hi1
  refine ⟨lo, hT.low, fun j hj => ⟨?_, ?_⟩⟩
  · have := hm j hj
    push_cast
    rwa [show ((10 * lo + j * c : ℚ)) / 100 = lo / 10 + j * (c / 100) by ring]
  · have hq : (0 : ℚ) < c / 100 := by linarith
    have hlohi : (0 : ℚ) ≤ (hi : ℚ) / 10 - lo / 10 := by
      have : lo ≤ hi := (hT.low.2 ⟨eh, heh, rfl⟩).trans (by omega)
      have : (lo : ℚ) ≤ hi := by exact_mod_cast this
      linarith
    have hjq : (j : ℚ) * (c / 100) ≤ (hi : ℚ) / 10 - lo / 10 + c / 100 := by
      by_cases hE : Completeness.Spec.Even lo hi (c / 100)
      · obtain ⟨z, hz⟩ := hE
        have hdiv : ((hi : ℚ) / 10 - lo / 10) / (c / 100) - z = ((10 * (hi - lo) - z * c : ℤ) : ℚ) / c := by
          push_cast; field_simp; ring
        rw [hdiv, abs_div, abs_of_pos (by linarith : (0 : ℚ) < c), div_le_iff₀ (by linarith), ← Int.cast_abs] at hz
        have h0 : ((|10 * (hi - lo) - z * c| : ℤ) : ℚ) < (1 : ℤ) := by push_cast at hz ⊢; linarith
        have h0 : |10 * (hi - lo) - z * c| < 1 := by exact_mod_cast h0
        have h0 : 10 * (hi - lo) - z * c = 0 := by rwa [Int.abs_lt_one_iff] at h0
        have h0q : (10 * (hi - lo) - z * c : ℚ) = 0 := by exact_mod_cast h0
        have hz0 : 0 ≤ z := by
          by_contra hneg
          have : (z : ℚ) < 0 := by exact_mod_cast not_le.1 hneg
          have := mul_neg_of_neg_of_pos this (show (0 : ℚ) < c by linarith)
          linarith
        have hzn : (z : ℚ) = (z.toNat : ℚ) := by exact_mod_cast (Int.toNat_of_nonneg hz0).symm
        have hjn : j ≤ z.toNat := by
          have := hl1 z.toNat (by rw [← hzn]; linarith)
          omega
        have hjz : (j : ℚ) ≤ z := by rw [hzn]; exact_mod_cast hjn
        have := mul_le_mul_of_nonneg_right hjz hq.le
        linarith
      · have hl := hl2 hE
        rw [Completeness.Spec.bins] at hl
        have hj1 : (j : ℤ) < ⌈((hi : ℚ) / 10 - lo / 10) / (c / 100)⌉ := by omega
        have hj2 := Int.lt_ceil.1 hj1
        push_cast at hj2
        rw [lt_div_iff₀ hq] at hj2
        linarith
    have hj0 : (0 : ℚ) ≤ j * (c / 100) := by positivity
    push_cast
    rw [show ((10 * lo + j * c : ℚ)) / 100 = lo / 10 + j * (c / 100) by ring]
    exact (of_near (B := 50) (abs_le.2 ⟨by linarith, by linarith⟩)).trans (by norm_num)

/-- **C180, what holds** (maximum likelihood): the earthquakes selected with the stored and retrieved table are, for each completeness year, the ones selected with the computed table. -/
theorem C180_selection_partial {ev0 : List (Dbl × ℤ)} (hk0 : ∀ e ∈ ev0, |e.2| ≤ 1000) {c : ℤ} (c0 : 1 ≤ c) (c1 : c ≤ 1000) {dt ttol : Dbl} {iloc : Bool} {table stored : List (Dbl × Dbl)}
    (h : stepp (ev0.map Completeness.Spec.quake) (Dbl.of (c / 100)) dt ttol iloc = .ok table) (hyear : ∀ r ∈ table, ∃ z : ℤ, r.1.val = z) {nan : Dbl}
    (hs : loadTable floatDbl nan (saveTable fmtDbl table) = .ok stored) {ev : List (Dbl × ℤ)} (hk : ∀ e ∈ ev, |e.2| ≤ 1000) {i : ℕ} (hi : i < table.length) (hi' : i < stored.length)
    {mc mc' : Dbl} (hmc : npMin (groupOf table table[i].1) = .ok mc) (hmc' : npMin (groupOf stored stored[i].1) = .ok mc') :
    periodEvents (ev.map Recurrence.Spec.quake) stored[i].1 mc' = periodEvents (ev.map Recurrence.Spec.quake) table[i].1 mc := by
  have hne : table ≠ [] := List.ne_nil_of_length_pos (by omega)
  obtain ⟨lo, stored', hlow, hs', hlen, hrow⟩ := C179_stored hk0 c0 c1 h hne nan
  obtain rfl : stored = stored' := by rw [hs] at hs'; exact Except.ok.inj hs'
  obtain ⟨lo', hlow', hb⟩ := grid_bounds hk0 c0 c1 h
  obtain rfl : lo = lo' := hlow.unique hlow'
  have hy : ∀ j (hj : j < table.length) (hj' : j < stored.length), stored[j].1 = table[j].1 := fun j hj hj' => (hrow j hj hj').2 (hyear _ (List.getElem_mem hj))
  obtain ⟨h1, h2⟩ := npMin_spec hmc
  obtain ⟨h1', h2'⟩ := npMin_spec hmc'
  simp only [groupOf, List.mem_map, List.mem_filter, decide_eq_true_eq, forall_exists_index, and_imp] at h1 h2 h1' h2'
  obtain ⟨r, ⟨hr, hry⟩, rfl⟩ := h1
  obtain ⟨r', ⟨hr', hry'⟩, rfl⟩ := h1'
  obtain ⟨j, hj, rfl⟩ := List.getElem_of_mem hr
  obtain ⟨j', hj', rfl⟩ := List.getElem_of_mem hr'
  have gj := hb j hj
  have gj' := hb j' (by omega)
  have e1 := h2 _ (table[j']'(by omega)) (List.getElem_mem _) (by rw [← hy i hi hi', ← hy j' (by omega) hj']; exact hry') rfl
  have e2 := h2' _ (stored[j]'(by omega)) (List.getElem_mem _) (by rw [hy i hi hi', hy j hj (by omega)]; exact hry) rfl
  rw [(hrow j' (by omega) hj').1, (hrow j hj (by omega)).1] at e2
  have tiny : (1 : ℚ) / 10 ^ 9 + 1 / 10 ^ 9 < 1 / 100 := by norm_num
  have key : (10 * lo + j * c : ℤ) = 10 * lo + j' * c := by
    obtain ⟨⟨p1, p2⟩, p3, p4⟩ := And.intro (abs_le.1 gj.1) (abs_le.1 gj.2)
    obtain ⟨⟨q1, q2⟩, q3, q4⟩ := And.intro (abs_le.1 gj'.1) (abs_le.1 gj'.2)
    generalize (10 * lo + j * c : ℤ) = a at *
    generalize (10 * lo + j' * c : ℤ) = b at *
    have k1 : (a : ℚ) < (b + 1 : ℤ) := by push_cast; linarith
    have k2 : (b : ℚ) < (a + 1 : ℤ) := by push_cast; linarith
    have k1 : a < b + 1 := by exact_mod_cast k1
    have k2 : b < a + 1 := by exact_mod_cast k2
    omega
  rw [hy i hi hi', selected_list hk _ gj.1, selected_list hk _ (g := 10 * lo + j * c)]
  rw [(hrow j' (by omega) hj').1, ← key]
  exact gj.2

omit [Libm] in
theorem rowFor_unique {n : ℕ} {g : ℕ → ℤ} {x : ℤ} {j k : ℕ} (hj : RowFor n g x j) (hk : RowFor n g x k) : j = k := by
  rcases hj with hj | ⟨hj, hjn⟩ <;> rcases hk with hk | ⟨hk, hkn⟩
  · exact hj.unique hk
  · exact absurd hj.1.2 (not_le.2 (hk j hj.1.1))
  · exact absurd hk.1.2 (not_le.2 (hj k hk.1.1))
  · omega

/-- **C180, what holds** (Weichert): the observation periods of the bins are the same with the stored and retrieved table as with the computed one. -/
theorem C180_periods_partial {ev0 : List (Dbl × ℤ)} (hk0 : ∀ e ∈ ev0, |e.2| ≤ 1000) {c : ℤ} (c0 : 1 ≤ c) (c1 : c ≤ 1000) {dt ttol : Dbl} {iloc : Bool} {table stored : List (Dbl × Dbl)}
    (h : stepp (ev0.map Completeness.Spec.quake) (Dbl.of (c / 100)) dt ttol iloc = .ok table) (hyear : ∀ r ∈ table, ∃ z : ℤ, r.1.val = z) {nan : Dbl}
    (hs : loadTable floatDbl nan (saveTable fmtDbl table) = .ok stored) {ev : List (Dbl × ℤ)} (hev : ∀ e ∈ ev, |e.1.val| ≤ 10000 ∧ |e.2| ≤ 100) {d : ℤ} (d0 : 1 ≤ d) (d1 : d ≤ 1000) {dt' : Dbl}
    {w w' : List (WBin Dbl)} (hw : weichertPrep (ev.map tenthQuake) table (Dbl.of (d / 100)) dt' = .ok w) (hw' : weichertPrep (ev.map tenthQuake) stored (Dbl.of (d / 100)) dt' = .ok w') :
    w'.map WBin.t = w.map WBin.t := by
  have hne : table ≠ [] := by
    rintro rfl
    cases hs
  obtain ⟨lo, stored', hlow, hs', hlen, hrow⟩ := C179_stored hk0 c0 c1 h hne nan
  obtain rfl : stored = stored' := by rw [hs] at hs'; exact Except.ok.inj hs'
  obtain ⟨lo', hlow', hb⟩ := grid_bounds hk0 c0 c1 h
  obtain rfl : lo = lo' := hlow.unique hlow'
  obtain ⟨m, y, hm, hy, ht⟩ := C178_periods hev (g := fun j => 10 * lo + j * c) (fun j hj => (hb j hj).1) d0 d1 hw
  obtain ⟨m', y', hm', hy', ht'⟩ := C178_periods hev (g := fun j => 10 * lo + j * c) (fun j hj => by rw [(hrow j (by omega) hj).1]; exact (hb j (by omega)).2) d0 d1 hw'
  obtain rfl : m = m' := hm.unique hm'
  obtain rfl : y = y' := by rw [hy] at hy'; exact Except.ok.inj hy'
  obtain ⟨cl, hc, hl, -⟩ := prep_periods hw
  obtain ⟨cl', hc', hl', -⟩ := prep_periods hw'
  obtain rfl : cl = cl' := by rw [hc] at hc'; exact Except.ok.inj hc'
  refine List.ext_getElem (by simp [hl, hl']) fun i hi hi' => ?_
  simp only [List.length_map] at hi hi'
  simp only [List.getElem_map]
  obtain ⟨j, hj, hR, e⟩ := ht i hi'
  obtain ⟨j', hj', hR', e'⟩ := ht' i hi
  rw [hlen] at hR'
  obtain rfl := rowFor_unique hR hR'
  rw [e, e', (hrow j hj hj').2 (hyear _ (List.getElem_mem hj))]

omit [Libm] in
theorem stored_example : loadTable floatDbl (0 : Dbl) (saveTable fmtDbl ((List.range 4).map fun i => (Dbl.of 1990, @arangeAt Dbl (@instPyMathDbl noLibm).toPyNum (Dbl.of 3) (Dbl.of (1 / 10)) i))) =
    .ok [(Dbl.of 1990, Dbl.of 3), (Dbl.of 1990, Dbl.of (31 / 10)), (Dbl.of 1990, Dbl.of (32 / 10)), (Dbl.of 1990, Dbl.of (33 / 10))] := by
  rw [round_trip_dbl _ _ (by simp)]
  decide +kernel

/-- The table of a small catalogue: since 1990 for all magnitudes. -/
theorem short_table : stepp ([((1985.0 : Dbl), (334 : ℤ)), (1985.0, 300), (2000.0, 340)].map Completeness.Spec.quake) (Dbl.of (((10 : ℤ) : ℚ) / 100)) 10.0 0.2 true =
    .ok ((List.range 4).map fun i => (Dbl.of 1990, arangeAt (Dbl.of 3) (Dbl.of (1 / 10)) i)) := by
  obtain ⟨b, hb, hn⟩ := steppBins_noLibm (ev := [((1985.0 : Dbl), (334 : ℤ)), (1985.0, 300), (2000.0, 340)].map Completeness.Spec.quake) (dm := Dbl.of (((10 : ℤ) : ℚ) / 100)) (dt := 10.0)
    (f := fun b => ((b.nb, b.nt), (List.range 4).map fun i => (b.endTime - b.timeRange 0, b.mbin i)))
    (v := ((4, 1), (List.range 4).map fun i => (Dbl.of 1990, @arangeAt Dbl (@instPyMathDbl noLibm).toPyNum (Dbl.of 3) (Dbl.of (1 / 10)) i))) (by decide +kernel)
  simp only [Prod.mk.injEq] at hn
  obtain ⟨table, ht, hrow⟩ := stepp_short (ttol := 0.2) (iloc := true) hb (by omega) (by omega)
  obtain ⟨b', hb', hl, -⟩ := stepp_length ht
  obtain rfl : b = b' := by rw [hb] at hb'; exact Except.ok.inj hb'
  rw [ht]
  congr 1
  refine Eq.trans ?_ hn.2
  exact List.ext_getElem (by simp; omega) fun i hi hi' => by rw [hrow i hi]; simp

/-- **C180 is false**: the computed table has the magnitude 3.3000000000000003 and removes the earthquake of magnitude 3.3 of 1985 from the Weichert bins; the stored and retrieved table has the
magnitude 3.3 and does not. -/
theorem C180_fails : ¬ ∀ (ev0 : List (Dbl × ℤ)) (c : ℤ) (dt ttol : Dbl) (iloc : Bool) (table stored : List (Dbl × Dbl)) (nan : Dbl) (ev : List (Dbl × ℤ)) (d : ℤ) (dt' : Dbl) (w w' : List (WBin Dbl)),
    (∀ e ∈ ev0, |e.2| ≤ 1000) → 1 ≤ c → c ≤ 1000 → stepp (ev0.map Completeness.Spec.quake) (Dbl.of (c / 100)) dt ttol iloc = .ok table → (∀ r ∈ table, ∃ z : ℤ, r.1.val = z) →
    loadTable floatDbl nan (saveTable fmtDbl table) = .ok stored → (∀ e ∈ ev, |e.1.val| ≤ 10000 ∧ |e.2| ≤ 100) → 1 ≤ d → d ≤ 1000 →
    weichertPrep (ev.map tenthQuake) table (Dbl.of (d / 100)) dt' = .ok w → weichertPrep (ev.map tenthQuake) stored (Dbl.of (d / 100)) dt' = .ok w' → w'.map WBin.n = w.map WBin.n := by
  intro H
  obtain ⟨w, hw, hn⟩ := prep_noLibm (ev := [((1985.0 : Dbl), (33 : ℤ)), (2000.0, 34)].map tenthQuake)
    (table := (List.range 4).map fun i => (Dbl.of 1990, @arangeAt Dbl (@instPyMathDbl noLibm).toPyNum (Dbl.of 3) (Dbl.of (1 / 10)) i)) (dm := Dbl.of (((10 : ℤ) : ℚ) / 100)) (dt := 1.0)
    (f := List.map WBin.n) (v := [0, 1]) (by decide +kernel)
  obtain ⟨w', hw', hn'⟩ := prep_noLibm (ev := [((1985.0 : Dbl), (33 : ℤ)), (2000.0, 34)].map tenthQuake)
    (table := [(Dbl.of 1990, Dbl.of 3), (Dbl.of 1990, Dbl.of (31 / 10)), (Dbl.of 1990, Dbl.of (32 / 10)), (Dbl.of 1990, Dbl.of (33 / 10))]) (dm := Dbl.of (((10 : ℤ) : ℚ) / 100)) (dt := 1.0)
    (f := List.map WBin.n) (v := [1, 1]) (by decide +kernel)
  have := H _ 10 _ _ _ _ _ 0 _ 10 _ w w' (by decide) (by norm_num) (by norm_num) short_table ?_ stored_example (by decide +kernel) (by norm_num) (by norm_num) hw hw'
  · rw [hn, hn'] at this
    exact absurd this (by decide)
  · intro r hr
    obtain ⟨i, -, rfl⟩ := List.mem_map.1 hr
    exact ⟨1990, show (Dbl.of 1990).val = ((1990 : ℤ) : ℚ) by decide +kernel⟩

/-- Non-vacuity of C179 and of what holds of C180: the table above; storing it changes 3.3000000000000003 to 3.3. -/
example : ∃ table stored : List (Dbl × Dbl), stepp ([((1985.0 : Dbl), (334 : ℤ)), (1985.0, 300), (2000.0, 340)].map Completeness.Spec.quake) (Dbl.of (((10 : ℤ) : ℚ) / 100)) 10.0 0.2 true = .ok table ∧
    loadTable floatDbl 0 (saveTable fmtDbl table) = .ok stored ∧ stored ≠ table ∧ stored.map Prod.fst = table.map Prod.fst :=
  ⟨_, _, short_table, stored_example, by
    have : [(Dbl.of 1990, Dbl.of 3), (Dbl.of 1990, Dbl.of (31 / 10)), (Dbl.of 1990, Dbl.of (32 / 10)), (Dbl.of 1990, Dbl.of (33 / 10))] ≠
      (List.range 4).map fun i => (Dbl.of 1990, @arangeAt Dbl (@instPyMathDbl noLibm).toPyNum (Dbl.of 3) (Dbl.of (1 / 10)) i) := by decide +kernel
    exact this, by simp [List.range_succ]⟩

end Verif.Recurrence
