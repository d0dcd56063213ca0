import Verif.Props.DoubleBValue
import Verif.Props.DoubleTable

/-!
# C194: the rounding of the completeness table does not reach the b-value
-/

namespace Verif.Recurrence

open Verif Verif.Np Verif.Dbl
open Spec (quake completeCents)

namespace Spec

/-- Two magnitudes that are the same number of tenths up to rounding. -/
def SameTenth (m m' : Dbl) : Prop := ∃ C : ℤ, |C| ≤ 100 ∧ |m.val - C / 10| ≤ 1 / 10 ^ 9 ∧ |m'.val - C / 10| ≤ 1 / 10 ^ 9

/-- Two completeness tables with the same years, whose magnitudes are the same tenths up to rounding. -/
def SameTable (t t' : List (Dbl × Dbl)) : Prop := List.Forall₂ (fun r r' => r.1 = r'.1 ∧ SameTenth r.2 r'.2) t t'

end Spec

open Spec (SameTenth SameTable)

theorem tenth_le {C D : ℤ} {x y : Dbl} (hx : |x.val - C / 10| ≤ 1 / 10 ^ 9) (hy : |y.val - D / 10| ≤ 1 / 10 ^ 9) (h : x ≤ y) : C ≤ D := by
  have h' := le_def.1 h
  have h1 := (abs_le.1 hx).1
  have h2 := (abs_le.1 hy).2
  have hq : (C : ℚ) < (D + 1 : ℤ) := by
    push_cast
    norm_num at h1 h2
    linarith
  have : C < D + 1 := by exact_mod_cast hq
  omega

theorem forall₂_left {α β : Type} {R : α → β → Prop} {l : List α} {l' : List β} (h : List.Forall₂ R l l') : ∀ a ∈ l, ∃ b ∈ l', R a b := by
  induction h with
  | nil => intro a ha; cases ha
  | cons h1 _ ih =>
    intro a ha
    rcases List.mem_cons.1 ha with rfl | ha
    · exact ⟨_, List.mem_cons_self, h1⟩
    · obtain ⟨b, hb, hR⟩ := ih a ha
      exact ⟨b, List.mem_cons_of_mem _ hb, hR⟩

/-- The smallest magnitudes are the same tenths as well. -/
theorem min_same {g g' : List Dbl} (h : List.Forall₂ SameTenth g g') {mc mc' : Dbl} (hm : npMin g = .ok mc) (hm' : npMin g' = .ok mc') : SameTenth mc mc' := by
  obtain ⟨a1, a2⟩ := npMin_spec hm
  obtain ⟨b1, b2⟩ := npMin_spec hm'
  obtain ⟨x, hx, C, c0, c1, c2⟩ := forall₂_left h mc a1
  obtain ⟨y, hy, D, d0, d1, d2⟩ := forall₂_left h.flip mc' b1
  have e1 : D ≤ C := tenth_le d2 c2 (b2 x hx)
  have e2 : C ≤ D := tenth_le c1 d1 (a2 y hy)
  obtain rfl : C = D := le_antisymm e2 e1
  exact ⟨C, c0, c1, d2⟩

variable [Libm]

theorem group_same {t t' : List (Dbl × Dbl)} (h : SameTable t t') (y : Dbl) : List.Forall₂ SameTenth (groupOf t y) (groupOf t' y) := by
  unfold SameTable at h
  induction h with
  | nil => exact .nil
  | cons h1 _ ih =>
    obtain ⟨hy, hm⟩ := h1
    unfold groupOf at ih ⊢
    rw [List.filter_cons, List.filter_cons, hy]
    split_ifs
    · exact .cons hm ih
    · exact ih

omit [Libm] in
/-- The averages depend on the numbers and the averaged values only. -/
theorem weighted_map {F β : Type} [PyMath F] (k : Period F → β) (n : β → ℕ) (f : β → F) {ps : List (Period F)} {f' : Period F → F} (hn : ∀ p, p.n = n (k p)) (hf : ∀ p, f' p = f (k p)) :
    weighted ps f' = npSum ((ps.map k).map fun x => ((n x : F) / npSum ((ps.map k).map fun x => (n x : F))) * f x) := by
  simp only [weighted, List.map_map, Function.comp_def, hn, hf]

/-- b-value, its error and number of earthquakes of a period. -/
def bPart {F : Type} (p : Period F) : F × F × ℕ := (p.b, p.sigb, p.n)

omit [Libm] in
theorem period_congr {F : Type} [PyMath F] {ev : List (F × F)} {d ref y : F} {g g' : List F} {mc mc' : F} (hm : npMin g = .ok mc) (hm' : npMin g' = .ok mc')
    (hs : periodEvents ev y mc = periodEvents ev y mc')
    (hb : ∀ rows, recurrenceTable (periodEvents ev y mc) d = .ok rows → bMaxLikelihood (rows.map fun r => (r.mval, r.nObs)) d mc = bMaxLikelihood (rows.map fun r => (r.mval, r.nObs)) d mc') :
    (period ev d ref y g).map bPart = (period ev d ref y g').map bPart := by
  unfold period
  rw [hm, hm', Recurrence.bind_ok, Recurrence.bind_ok]
  dsimp only
  rw [← hs]
  cases npMax ((periodEvents ev y mc).map Prod.fst) with
  | error e => rfl
  | ok y1 =>
    cases npMin ((periodEvents ev y mc).map Prod.fst) with
    | error e => rfl
    | ok y0 =>
      simp only [Recurrence.bind_ok]
      cases hr : recurrenceTable (periodEvents ev y mc) d with
      | error e => rfl
      | ok rows =>
        simp only [Recurrence.bind_ok]
        rw [hb rows hr]
        cases bMaxLikelihood (rows.map fun r => (r.mval, r.nObs)) d mc' with
        | error e => rfl
        | ok p => rfl

omit [Libm] in
theorem table_nil {F : Type} [PyMath F] (d : F) : recurrenceTable ([] : List (F × F)) d = .error .valueError := rfl

theorem mle_same {h : List (Dbl × ℕ)} {d mc mc' : Dbl} (h1 : ∀ r ∈ h, mc ≤ r.1) (h2 : ∀ r ∈ h, mc' ≤ r.1) : bMaxLikelihood h d mc = bMaxLikelihood h d mc' := by
  have e1 : h.filter (fun r => decide (r.1 ≥ mc)) = h := List.filter_eq_self.2 fun r hr => decide_eq_true (h1 r hr)
  have e2 : h.filter (fun r => decide (r.1 ≥ mc')) = h := List.filter_eq_self.2 fun r hr => decide_eq_true (h2 r hr)
  unfold bMaxLikelihood
  rw [e1, e2]

theorem period_same {ev : List (Dbl × ℤ)} (hk : ∀ e ∈ ev, |e.2| ≤ 1000) {q : ℚ} (q0 : 1 / 1000 ≤ q) (q1 : q ≤ 10) {g g' : List Dbl} (hg : List.Forall₂ SameTenth g g') (y ref : Dbl) :
    (period (ev.map quake) (Dbl.of q) ref y g).map bPart = (period (ev.map quake) (Dbl.of q) ref y g').map bPart := by
  cases hg with
  | nil => rfl
  | @cons a a' l l' ha hl =>
    obtain ⟨mc, hm⟩ : ∃ mc, npMin (a :: l) = .ok mc := ⟨_, rfl⟩
    obtain ⟨mc', hm'⟩ : ∃ mc, npMin (a' :: l') = .ok mc := ⟨_, rfl⟩
    obtain ⟨C, hC, c1, c2⟩ := min_same (.cons ha hl) hm hm'
    have cast : (10 * C : ℚ) / 100 = C / 10 := by ring
    have s1 := selected_list hk y (g := 10 * C) (mc := mc) (by push_cast; rwa [cast])
    have s2 := selected_list hk y (g := 10 * C) (mc := mc') (by push_cast; rwa [cast])
    refine period_congr hm hm' (s1.trans s2.symm) fun rows hr => ?_
    by_cases hex : ∃ e ∈ ev, y ≤ e.1 ∧ 10 * C ≤ e.2
    · obtain ⟨rows1, r1, r2, -⟩ := C177_used hk q0 q1 hC c1 hex
      obtain ⟨rows2, r1', r2', -⟩ := C177_used hk q0 q1 hC c2 hex
      rw [hr] at r1
      rw [s2, ← s1, hr] at r1'
      obtain rfl := Except.ok.inj r1
      obtain rfl := Except.ok.inj r1'
      exact mle_same (fun r hr => by obtain ⟨x, hx, rfl⟩ := List.mem_map.1 hr; exact r2 x hx) fun r hr => by obtain ⟨x, hx, rfl⟩ := List.mem_map.1 hr; exact r2' x hx
    · have hnil : completeCents ev y (10 * C) = [] := by
        refine List.filter_eq_nil_iff.2 fun e he hp => hex ⟨e, he, ?_⟩
        simpa using hp
      rw [s1, hnil, List.map_nil, table_nil] at hr
      cases hr

theorem periods_same {ev : List (Dbl × ℤ)} (hk : ∀ e ∈ ev, |e.2| ≤ 1000) {q : ℚ} (q0 : 1 / 1000 ≤ q) (q1 : q ≤ 10) {t t' : List (Dbl × Dbl)} (ht : SameTable t t') (ref : Dbl) (i : ℕ) :
    (periods (ev.map quake) t (Dbl.of q) ref i).map (List.map bPart) = (periods (ev.map quake) t' (Dbl.of q) ref i).map (List.map bPart) := by
  have hlen : t.length = t'.length := ht.length_eq
  have hgr : ∀ y, (groupOf t y).length = (groupOf t' y).length := fun y => (group_same ht y).length_eq
  have hy : ∀ i (hi : i < t.length) (hi' : i < t'.length), t[i].1 = t'[i].1 := fun i hi hi' => (List.Forall₂.get ht hi hi').1
  refine periods.induct t (fun i => (periods (ev.map quake) t (Dbl.of q) ref i).map (List.map bPart) = (periods (ev.map quake) t' (Dbl.of q) ref i).map (List.map bPart)) ?_ ?_ ?_ i
  · intro i hi g hg
    have hi' : i < t'.length := by omega
    have hg' : (groupOf t' t'[i].1).length = 0 := by rw [← hy i hi hi', ← hgr]; exact hg
    rw [periods, periods]
    simp only [hi, hi', dif_pos]
    rw [dif_pos hg, dif_pos hg']
  · intro i hi g hg ih
    have hi' : i < t'.length := by omega
    have hg' : ¬ (groupOf t' t'[i].1).length = 0 := by rw [← hy i hi hi', ← hgr]; exact hg
    rw [periods, periods]
    simp only [hi, hi', dif_pos]
    rw [dif_neg hg, dif_neg hg']
    have hp := period_same hk q0 q1 (group_same ht t[i].1) t[i].1 ref
    rw [← hy i hi hi', ← hgr]
    change _ = (periods (ev.map quake) t' (Dbl.of q) ref (i + (groupOf t t[i].1).length)).map _ at ih
    revert hp ih
    cases period (ev.map quake) (Dbl.of q) ref t[i].1 (groupOf t t[i].1) <;> cases period (ev.map quake) (Dbl.of q) ref t[i].1 (groupOf t' t[i].1) <;>
      cases periods (ev.map quake) t (Dbl.of q) ref (i + (groupOf t t[i].1).length) <;> cases periods (ev.map quake) t' (Dbl.of q) ref (i + (groupOf t t[i].1).length) <;>
      simp [Except.map, bind, Except.bind, pure, Except.pure] <;> intros <;> simp_all
  · intro i hi
    rw [periods, periods, dif_neg hi, dif_neg (by omega)]

/-- **C194.** Rounding errors in the magnitudes of the completeness table have no influence on the b-value: for two tables with the
same years whose magnitudes are the same tenths up to rounding, `b_maxlike_time` in double precision fails with the same error or
gives exactly the same b-value and exactly the same error of it. -/
theorem C194_table {ev : List (Dbl × ℤ)} (hk : ∀ e ∈ ev, |e.2| ≤ 1000) {q : ℚ} (q0 : 1 / 1000 ≤ q) (q1 : q ≤ 10) {t t' : List (Dbl × Dbl)} (ht : SameTable t t') (ref : Dbl) :
    (bMaxlikeTime (ev.map quake) t (Dbl.of q) ref).map (fun r => (r.b, r.sigb)) = (bMaxlikeTime (ev.map quake) t' (Dbl.of q) ref).map fun r => (r.b, r.sigb) := by
  have h := periods_same hk q0 q1 ht ref 0
  have hw : ∀ (ps ps' : List (Period Dbl)), ps.map bPart = ps'.map bPart → weighted ps Period.b = weighted ps' Period.b ∧ weighted ps Period.sigb = weighted ps' Period.sigb ∧ ps.isEmpty = ps'.isEmpty := by
    intro ps ps' e
    have e1 := fun qs : List (Period Dbl) => weighted_map bPart (fun x => x.2.2) Prod.fst (ps := qs) (f' := Period.b) (fun _ => rfl) fun _ => rfl
    have e2 := fun qs : List (Period Dbl) => weighted_map bPart (fun x => x.2.2) (fun x => x.2.1) (ps := qs) (f' := Period.sigb) (fun _ => rfl) fun _ => rfl
    refine ⟨by rw [e1, e1, e], by rw [e2, e2, e], ?_⟩
    have := congrArg List.length e
    simp only [List.length_map] at this
    cases ps <;> cases ps' <;> simp_all
  unfold bMaxlikeTime
  cases h1 : periods (ev.map quake) t (Dbl.of q) ref 0 with
  | error e =>
    cases h2 : periods (ev.map quake) t' (Dbl.of q) ref 0 with
    | error e' =>
      rw [h1, h2] at h
      cases h
      rfl
    | ok ps' => rw [h1, h2] at h; cases h
  | ok ps =>
    cases h2 : periods (ev.map quake) t' (Dbl.of q) ref 0 with
    | error e' => rw [h1, h2] at h; cases h
    | ok ps' =>
      rw [h1, h2] at h
      obtain ⟨a, b, c⟩ := hw ps ps' (Except.ok.inj h)
      simp only [Recurrence.bind_ok]
      rw [a, b, c]
      cases ps'.isEmpty
      · simp only [Bool.false_eq_true, if_false, pure, Except.pure, bind, Except.bind, Except.map]
      · simp only [if_true, throw, throwThe, MonadExceptOf.throw, bind, Except.bind, Except.map]

open Verif.Completeness (stepp)
open Verif.Table (saveTable loadTable)
open Verif.Format (floatDbl fmtDbl)

/-- **C194** (stored tables). A completeness table of Stepp's test with magnitude bins of a multiple of 0.1, whole years and
magnitudes up to 10 can be stored with five decimals and retrieved: the maximum likelihood method in double precision gives exactly
the same b-value and exactly the same error of it, or fails with the same error. -/
theorem C194_stored {ev0 : List (Dbl × ℤ)} (hk0 : ∀ e ∈ ev0, |e.2| ≤ 1000) {d : ℤ} (d0 : 1 ≤ d) (d1 : d ≤ 100) {dt ttol : Dbl} {iloc : Bool} {table stored : List (Dbl × Dbl)}
    (h : stepp (ev0.map Completeness.Spec.quake) (Dbl.of (d / 10)) dt ttol iloc = .ok table) (hrow : ∀ r ∈ table, (∃ z : ℤ, r.1.val = z) ∧ |r.2.val| ≤ 10) {nan : Dbl}
    (hs : loadTable floatDbl nan (saveTable fmtDbl table) = .ok stored) {ev : List (Dbl × ℤ)} (hk : ∀ e ∈ ev, |e.2| ≤ 1000) {q : ℚ} (q0 : 1 / 1000 ≤ q) (q1 : q ≤ 10) (ref : Dbl) :
    (bMaxlikeTime (ev.map Recurrence.Spec.quake) stored (Dbl.of q) ref).map (fun r => (r.b, r.sigb)) = (bMaxlikeTime (ev.map Recurrence.Spec.quake) table (Dbl.of q) ref).map fun r => (r.b, r.sigb) := by
  refine (C194_table hk q0 q1 ?_ ref).symm
  have hc : Dbl.of ((d : ℚ) / 10) = Dbl.of (((10 * d : ℤ) : ℚ) / 100) := by congr 1; push_cast; ring
  rw [hc] at h
  have hne : table ≠ [] := by
    rintro rfl
    cases hs
  obtain ⟨lo, stored', hlow, hs', hlen, hr⟩ := C179_stored hk0 (c := 10 * d) (by omega) (by omega) h hne nan
  obtain rfl : stored = stored' := by rw [hs] at hs'; exact Except.ok.inj hs'
  obtain ⟨lo', hlow', hb⟩ := grid_bounds hk0 (c := 10 * d) (by omega) (by omega) h
  obtain rfl : lo = lo' := hlow.unique hlow'
  refine List.forall₂_iff_get.2 ⟨hlen.symm, fun j hj hj' => ?_⟩
  simp only [List.get_eq_getElem]
  obtain ⟨g1, g2⟩ := hb j hj
  obtain ⟨k1, k2⟩ := hr j hj hj'
  obtain ⟨z1, z2⟩ := hrow _ (List.getElem_mem hj)
  have cast : (((10 * lo + j * (10 * d) : ℤ)) : ℚ) / 100 = ((lo + j * d : ℤ) : ℚ) / 10 := by push_cast; ring
  rw [cast] at g1 g2 k1
  refine ⟨(k2 z1).symm, lo + j * d, ?_, g1, by rw [k1]; exact g2⟩
  obtain ⟨a1, a2⟩ := abs_le.1 g1
  obtain ⟨b1, b2⟩ := abs_le.1 z2
  generalize (lo + j * d : ℤ) = C at *
  norm_num at a1 a2
  have u1 : (C : ℚ) < (101 : ℤ) := by push_cast; linarith
  have u2 : ((-101 : ℤ) : ℚ) < C := by push_cast; linarith
  have u1 : C < 101 := by exact_mod_cast u1
  have u2 : -101 < C := by exact_mod_cast u2
  exact abs_le.2 ⟨by omega, by omega⟩

/-- Non-vacuity: Stepp's table of a small catalogue, of which storing changes the magnitude 3.3000000000000003. -/
example : ∃ table stored : List (Dbl × Dbl), stepp ([((1985.0 : Dbl), (334 : ℤ)), (1985.0, 300), (2000.0, 340)].map Completeness.Spec.quake) (Dbl.of (((1 : ℤ) : ℚ) / 10)) 10.0 0.2 true = .ok table ∧
    (∀ r ∈ table, (∃ z : ℤ, r.1.val = z) ∧ |r.2.val| ≤ 10) ∧ loadTable floatDbl 0 (saveTable fmtDbl table) = .ok stored ∧ stored ≠ table := by
  refine ⟨_, _, ?_, ?_, stored_example, ?_⟩
  · rw [show (((1 : ℤ) : ℚ) / 10) = (((10 : ℤ) : ℚ) / 100) by norm_num]
    exact short_table
  · intro r hr
    obtain ⟨i, hi, rfl⟩ := List.mem_map.1 hr
    refine ⟨⟨1990, show (Dbl.of 1990).val = ((1990 : ℤ) : ℚ) by decide +kernel⟩, ?_⟩
    revert i
    decide +kernel
  · decide +kernel

end Verif.Recurrence
