import Verif.Props.DoubleStepp
import Verif.Props.DoubleWeichert

/-!
# C178: the observation periods of the Weichert bins in double precision
-/

namespace Verif.Recurrence

open Verif Verif.Np Verif.Dbl Verif.Completeness
open Verif.Recurrence.Spec (tenthQuake)

namespace Spec

/-- Row `j` is the one that holds for the magnitude `x` (hundredths): the last of the rows with a magnitude of at most `x`, or the last row if there is none; `g` are the magnitudes of the `n` rows. -/
def RowFor (n : ℕ) (g : ℕ → ℤ) (x : ℤ) (j : ℕ) : Prop := IsGreatest {j | j < n ∧ g j ≤ x} j ∨ (∀ l < n, x < g l) ∧ j + 1 = n

end Spec

open Spec (RowFor)

/-- The last element of a list with a property. -/
theorem filter_last {α : Type} (p : α → Bool) (l : List α) :
    (∃ j, ∃ hj : j < l.length, (l.filter p).getLast? = some l[j] ∧ p l[j] = true ∧ ∀ k (hk : k < l.length), j < k → p l[k] = false) ∨
      (l.filter p).getLast? = none ∧ ∀ k (hk : k < l.length), p l[k] = false := by
  induction l using List.reverseRecOn with
  | nil => right; simp
  | append_singleton l a ih =>
    by_cases ha : p a = true
    · left
      refine ⟨l.length, by simp, ?_, by simpa using ha, ?_⟩
      · rw [List.filter_append, List.filter_cons_of_pos ha]; simp
      · intro k hk h
        simp only [List.length_append, List.length_cons, List.length_nil] at hk
        omega
    · have hf : (l ++ [a]).filter p = l.filter p := by rw [List.filter_append, List.filter_cons_of_neg ha]; simp
      have hget : ∀ k (hk : k < (l ++ [a]).length), (∃ hk' : k < l.length, (l ++ [a])[k] = l[k]) ∨ k = l.length ∧ (l ++ [a])[k] = a := by
        intro k hk
        by_cases hk' : k < l.length
        · exact Or.inl ⟨hk', List.getElem_append_left hk'⟩
        · simp only [List.length_append, List.length_cons, List.length_nil] at hk
          have : k = l.length := by omega
          subst this
          exact Or.inr ⟨rfl, by simp⟩
      rw [hf]
      rcases ih with ⟨j, hj, h1, h2, h3⟩ | ⟨h1, h2⟩
      · left
        refine ⟨j, by simp; omega, ?_, ?_, ?_⟩
        · rw [h1, List.getElem_append_left hj]
        · rwa [List.getElem_append_left hj]
        · intro k hk hlt
          rcases hget k hk with ⟨hk', e⟩ | ⟨-, e⟩ <;> rw [e]
          · exact h3 k hk' hlt
          · simpa using ha
      · right
        refine ⟨h1, fun k hk => ?_⟩
        rcases hget k hk with ⟨hk', e⟩ | ⟨-, e⟩ <;> rw [e]
        · exact h2 k hk'
        · simpa using ha

theorem thousandth_val : 9 / 10 ^ 4 ≤ ((1e-3 : Dbl)).val ∧ ((1e-3 : Dbl)).val ≤ 11 / 10 ^ 4 := by decide +kernel

/-- The tolerance of the choice is larger than the rounding errors and smaller than a hundredth. -/
theorem row_test {x e : Dbl} {g a : ℤ} (hx : |x.val - g / 100| ≤ 1 / 10 ^ 9) (he : |e.val - a / 100| ≤ 1 / 10 ^ 9) : x - e < (1e-3 : Dbl) ↔ g ≤ a := by
  obtain ⟨t1, t2⟩ := thousandth_val
  obtain ⟨x1, x2⟩ := abs_le.1 hx
  obtain ⟨e1, e2⟩ := abs_le.1 he
  rw [lt_def, val_sub]
  constructor
  · intro h
    by_contra hlt
    have hq : (a : ℚ) + 1 ≤ g := by exact_mod_cast not_le.1 hlt
    have := rnd53_mono (show (9 / 1000 : ℚ) ≤ x.val - e.val by
      linarith [show (1 : ℚ) / 10 ^ 9 + 1 / 10 ^ 9 < 1 / 1000 by norm_num])
    have k : (8 / 1000 : ℚ) ≤ rnd53 (9 / 1000) := by decide +kernel
    linarith [show (11 : ℚ) / 10 ^ 4 < 8 / 1000 by norm_num]
  · intro h
    have hq : (g : ℚ) ≤ a := by exact_mod_cast h
    have := rnd53_mono (show x.val - e.val ≤ 5 / 10 ^ 4 by
      linarith [show (1 : ℚ) / 10 ^ 9 + 1 / 10 ^ 9 < 5 / 10 ^ 4 by norm_num])
    have k : rnd53 (5 / 10 ^ 4) ≤ (6 / 10 ^ 4 : ℚ) := by decide +kernel
    linarith [show (6 : ℚ) / 10 ^ 4 < 9 / 10 ^ 4 by norm_num]

section
variable {F : Type} [PyMath F]

theorem prep_periods {ev table : List (F × F)} {dm dt : F} {w : List (WBin F)} (h : weichertPrep ev table dm dt = .ok w) :
    ∃ c, cells ev dm dt = .ok c ∧ w.length = c.nm ∧ ∀ i (hi : i < w.length), c.tPer table i = .ok w[i].t := by
  unfold weichertPrep at h
  rcases hc : cells ev dm dt with _ | c <;> simp only [hc, bind, Except.bind] at h <;> [cases h; skip]
  obtain ⟨hl, hg⟩ := mapM_ok h
  rw [List.length_range] at hl
  refine ⟨c, rfl, hl, fun i hi => ?_⟩
  have := hg i (by rw [List.length_range]; omega) hi
  rw [List.getElem_range] at this
  rcases ht : c.tPer table i with _ | t <;> simp only [ht] at this <;> [cases this; skip]
  simp only [pure, Except.pure, Except.ok.injEq] at this
  rw [← this]

end

variable [Libm]

/-- **C178**: the observation period of a Weichert bin, computed in double precision, belongs to the row of the completeness table that holds for the lower end of the bin in exact arithmetic,
for magnitudes of the table and bin widths with at most two decimals (up to 0.000000001, so that the tables of Stepp's test are included) and earthquakes with one decimal. -/
theorem C178_periods {ev : List (Dbl × ℤ)} {table : List (Dbl × Dbl)} (hev : ∀ e ∈ ev, |e.1.val| ≤ 10000 ∧ |e.2| ≤ 100) {g : ℕ → ℤ}
    (hg : ∀ j (hj : j < table.length), |(table[j].2).val - g j / 100| ≤ 1 / 10 ^ 9) {c : ℤ} (c0 : 1 ≤ c) (c1 : c ≤ 1000) {dt : Dbl} {w : List (WBin Dbl)}
    (h : weichertPrep (ev.map tenthQuake) table (Dbl.of (c / 100)) dt = .ok w) :
    ∃ lo y, IsLeast {z | ∃ e ∈ ev, e.2 = z} lo ∧ npMax (ev.map Prod.fst) = .ok y ∧
      ∀ i (hi : i < w.length), ∃ j, ∃ hj : j < table.length, RowFor table.length g (10 * lo + i * c) j ∧ w[i].t = y - table[j].1 + ((1 : ℕ) : Dbl) := by
  have cq0 : (1 : ℚ) ≤ c := by exact_mod_cast c0
  have cq1 : (c : ℚ) ≤ 1000 := by exact_mod_cast c1
  have hten : ∀ {k : ℤ}, |k| ≤ 100 → |(k : ℚ) / 10| ≤ 10 := by
    intro K hK
    rw [abs_div, abs_of_pos (by norm_num : (0 : ℚ) < 10), div_le_iff₀ (by norm_num), ← Int.cast_abs]
    have : ((|K| : ℤ) : ℚ) ≤ 100 := by exact_mod_cast hK
    linarith
  have hof : ∀ {k : ℤ}, |k| ≤ 100 → |(Dbl.of ((k : ℚ) / 10)).val| ≤ 10 := by
    intro k hk
    obtain ⟨a, b⟩ := abs_le.1 (hten hk)
    have a' := rnd53_mono (show ((-10 : ℤ) : ℚ) ≤ (k : ℚ) / 10 by push_cast; exact a)
    have b' := rnd53_mono (show (k : ℚ) / 10 ≤ ((10 : ℤ) : ℚ) by push_cast; exact b)
    rw [rnd53_int (by norm_num)] at a' b'
    push_cast at a' b'
    exact abs_le.2 ⟨a', b'⟩
  have hmono : ∀ {a b : ℤ}, (Dbl.of ((a : ℚ) / 10)).val ≤ (Dbl.of ((b : ℚ) / 10)).val → |a| ≤ 100 → |b| ≤ 100 → a ≤ b := by
    intro a b hab ha hb
    by_contra hlt
    have hlt : (b : ℚ) + 1 ≤ a := by exact_mod_cast not_le.1 hlt
    have h1 := (abs_le.1 (of_near (hten ha))).1
    have h2 := (abs_le.1 (of_near (hten hb))).2
    linarith [show ((10 : ℚ) + 1) / 2 ^ 53 < 1 / 100 by norm_num]
  obtain ⟨cl, hc, hl, ht⟩ := prep_periods h
  obtain ⟨y0, y1, m0, m1, hy0, hy1, hm0, hm1, rfl⟩ := cells_elim hc
  have hround : (ev.map tenthQuake).map (fun e => (e.1, around1 e.2)) = ev.map tenthQuake := by
    rw [List.map_map]
    refine List.map_congr_left fun e he => ?_
    simp only [Function.comp_apply, tenthQuake]
    rw [around1_tenth (hev e he).2]
  rw [hround] at hm0 hm1
  obtain ⟨k1, k2⟩ := npMin_spec hm0
  obtain ⟨d1, d2⟩ := npMax_spec hm1
  rw [List.map_map] at k1 d1 k2 d2
  obtain ⟨ec, hec, rfl⟩ := List.mem_map.1 k1
  obtain ⟨ed, hed, rfl⟩ := List.mem_map.1 d1
  refine ⟨ec.2, y1, ⟨⟨ec, hec, rfl⟩, ?_⟩, ?_, ?_⟩
  · rintro z ⟨e, he, rfl⟩
    exact hmono (k2 _ (List.mem_map.2 ⟨e, he, rfl⟩)) (hev _ hec).2 (hev _ he).2
  · rw [List.map_map] at hy1
    exact hy1
  · intro i hi
    have hti := ht i hi
    simp only [Function.comp_apply, tenthQuake] at hl hti
    obtain ⟨l1, l2, l3⟩ := last_edge (S := Dbl.of ((ec.2 : ℚ) / 10)) (T := Dbl.of ((ed.2 : ℚ) / 10)) (q := c / 100) ((hof (hev _ hec).2).trans (by norm_num))
      ((hof (hev _ hed).2).trans (by norm_num)) (k2 _ (List.mem_map.2 ⟨ed, hed, rfl⟩)) (by linarith) (by linarith) rfl
    have hiq : (i : ℚ) * (c / 100) ≤ 100 := by
      have h1 : (i : ℚ) ≤ ((w.length : ℕ) : ℚ) := by exact_mod_cast hi.le
      have h2 := mul_le_mul_of_nonneg_right h1 (show (0 : ℚ) ≤ c / 100 by linarith)
      rw [hl] at h2
      obtain ⟨a1, a2⟩ := abs_le.1 (hof (hev _ hec).2)
      obtain ⟨b1, b2⟩ := abs_le.1 (hof (hev _ hed).2)
      linarith
    have hedge := arange_near (hev _ hec).2 (q := c / 100) (by linarith) (by linarith) hiq
    have hedge' : |(arangeAt (Dbl.of ((ec.2 : ℚ) / 10)) (Dbl.of (c / 100)) i).val - ((10 * ec.2 + i * c : ℤ) : ℚ) / 100| ≤ 1 / 10 ^ 9 := by
      push_cast
      rwa [show ((10 * ec.2 + i * c : ℚ)) / 100 = ec.2 / 10 + i * (c / 100) by ring]
    have htest : ∀ j (hj : j < table.length), (decide (table[j].2 - arangeAt (Dbl.of ((ec.2 : ℚ) / 10)) (Dbl.of (c / 100)) i < (1e-3 : Dbl)) = true) ↔ g j ≤ 10 * ec.2 + i * c := by
      intro j hj
      rw [decide_eq_true_eq]
      exact row_test (hg j hj) hedge'
    unfold Cells.tPer at hti
    simp only at hti
    rcases filter_last (fun r : Dbl × Dbl => decide (r.2 - arangeAt (Dbl.of ((ec.2 : ℚ) / 10)) (Dbl.of (c / 100)) i < (1e-3 : Dbl))) table with ⟨j, hj, f1, f2, f3⟩ | ⟨f1, f2⟩
    · rw [f1] at hti
      simp only [Option.some_or, Except.ok.injEq] at hti
      refine ⟨j, hj, Or.inl ⟨⟨hj, (htest j hj).1 f2⟩, ?_⟩, hti.symm⟩
      rintro k ⟨hk, hgk⟩
      by_contra hlt
      have := f3 k hk (not_le.1 hlt)
      rw [(htest k hk).2 hgk] at this
      cases this
    · rw [f1] at hti
      simp only [Option.none_or] at hti
      rcases hlast : table.getLast? with _ | r <;> simp only [hlast] at hti <;> [cases hti; skip]
      simp only [Except.ok.injEq] at hti
      have hne : table ≠ [] := by rintro rfl; simp at hlast
      have hpos := List.length_pos_iff.2 hne
      rw [List.getLast?_eq_getElem?, List.getElem?_eq_getElem (by omega), Option.some.injEq] at hlast
      refine ⟨table.length - 1, by omega, Or.inr ⟨fun l hl => ?_, by omega⟩, ?_⟩
      · by_contra hle
        have := f2 l hl
        rw [(htest l hl).2 (not_lt.1 hle)] at this
        cases this
      · rw [hlast]; exact hti.symm

/-- **C178** for the completeness tables of Stepp's test. -/
theorem C178_stepp {ev0 : List (Dbl × ℤ)} (hk0 : ∀ e ∈ ev0, |e.2| ≤ 1000) {c0 : ℤ} (c1 : 1 ≤ c0) (c2 : c0 ≤ 1000) {dt0 ttol : Dbl} {iloc : Bool} {table : List (Dbl × Dbl)}
    (ht : stepp (ev0.map Verif.Completeness.Spec.quake) (Dbl.of (c0 / 100)) dt0 ttol iloc = .ok table)
    {ev : List (Dbl × ℤ)} (hev : ∀ e ∈ ev, |e.1.val| ≤ 10000 ∧ |e.2| ≤ 100) {c : ℤ} (h1 : 1 ≤ c) (h2 : c ≤ 1000) {dt : Dbl} {w : List (WBin Dbl)}
    (h : weichertPrep (ev.map tenthQuake) table (Dbl.of (c / 100)) dt = .ok w) :
    ∃ lo0 lo y, IsLeast {z | ∃ e ∈ ev0, e.2 / 10 = z} lo0 ∧ IsLeast {z | ∃ e ∈ ev, e.2 = z} lo ∧ npMax (ev.map Prod.fst) = .ok y ∧
      ∀ i (hi : i < w.length), ∃ j, ∃ hj : j < table.length, RowFor table.length (fun j => 10 * lo0 + j * c0) (10 * lo + i * c) j ∧ w[i].t = y - table[j].1 + ((1 : ℕ) : Dbl) := by
  have cq0 : (1 : ℚ) ≤ c0 := by exact_mod_cast c1
  have cq1 : (c0 : ℚ) ≤ 1000 := by exact_mod_cast c2
  obtain ⟨lo0, hi, hT, -, -, hm, -⟩ := C170_rows_partial hk0 (q := c0 / 100) (by linarith) (by linarith) ht
  obtain ⟨lo, y, a, b, d⟩ := C178_periods hev (g := fun j => 10 * lo0 + j * c0) (fun j hj => by
    have := hm j hj
    push_cast
    rwa [show ((10 * lo0 + j * c0 : ℚ)) / 100 = lo0 / 10 + j * (c0 / 100) by ring]) h1 h2 h
  exact ⟨lo0, lo, y, hT.low, a, b, d⟩

/-- Non-vacuity of C178: bins from 3.0, a table for 3.0 since 1990 and 3.3 since 1980 (the double 3.3000000000000003); the periods are 11 years for the first three bins and 21 for the fourth. -/
example : ∃ w, weichertPrep ([((2000.0 : Dbl), (30 : ℤ)), (1985.0, 33)].map tenthQuake) [((1990.0 : Dbl), Dbl.of 3), (1980.0, arangeAt (Dbl.of 3) (Dbl.of (1 / 10)) 3)] (Dbl.of (((10 : ℤ) : ℚ) / 100)) (Dbl.of 1) =
    .ok w ∧ w.map (fun b => b.t.val) = [11, 11, 11, 21] := by
  exact prep_noLibm (by decide +kernel)

end Verif.Recurrence
