import Verif.Props.RecurrenceWeichert
import Verif.Lemmas.WeichertNewton

/-! # C63: a class of inputs for which the Weichert iteration returns -/

namespace Verif.Recurrence

open Verif Verif.Np

theorem weichert_of_stops {w : List (WBin ℝ)} {mrate : ℝ} (h2 : 2 ≤ w.length) (h : ∃ k, |newton w ((newton w)^[k] 1.5) - (newton w)^[k] 1.5| ≤ 1e-5) :
    ∃ fuel r, weichert w mrate fuel = .ok (some r) := by
  obtain ⟨k, hk⟩ := h
  match w, h2, hk with
  | x0 :: x1 :: rest, _, hk =>
    obtain ⟨r, hr⟩ := weichertLoop_returns (w := x0 :: x1 :: rest) (m0 := x0.m) (dM := x1.m - x0.m) (mrate := mrate) (itstab := 1e-5) (beta := 1.5) (k := k)
      (by rw [npAbs_real]; exact hk)
    exact ⟨k + 1, r, by simp only [weichert, hr]⟩

theorem prep_spaced {ev table : List (ℝ × ℝ)} {dm dt : ℝ} {w : List (WBin ℝ)} (hev : ev ≠ []) (hdm : 0 < dm) (hdt : 0 < dt)
    (h : weichertPrep ev table dm dt = .ok w) (htab : ∀ r ∈ table, ∃ e ∈ ev, r.1 < e.1 + 1) :
    (∃ a, Spaced w a dm) ∧ ∀ x ∈ w, 0 < x.t := by
  obtain ⟨y0, y1, m0, hy0, hy1, hm0, hlen, _, hidx, hw⟩ := weichertPrep_spec hev hdm hdt h
  refine ⟨⟨m0 + 1 / 2 * dm, fun i hi => ?_⟩, fun x hx => ?_⟩
  · rw [(hw i hi).1]; ring
  · obtain ⟨i, hi, rfl⟩ := List.getElem_of_mem hx
    obtain ⟨r, hr, _, ht⟩ := (hw i hi).2.1
    obtain ⟨e, he, hlt⟩ := htab r hr
    have := hy1.2 ⟨e, he, rfl⟩
    rw [ht]; linarith

/-- **C63**, what holds: on the bins prepared from a catalogue whose table starts before its end, with an event above the lowest bin, `weichert` returns if

* the completeness period grows from bin to bin at most by the factor `exp(l dm)` for some `l ≤ 1.5`, and
* the first Newton step does not go below `l`.

Missing: tables whose periods grow faster, and first steps that go further down; `C63_weichert_terminates_fails` is of the first kind. -/
theorem C63_first_step_partial {ev table : List (ℝ × ℝ)} {dm dt l mrate : ℝ} {w : List (WBin ℝ)} (hev : ev ≠ []) (hdm : 0 < dm) (hdt : 0 < dt)
    (h : weichertPrep ev table dm dt = .ok w) (htab : ∀ r ∈ table, ∃ e ∈ ev, r.1 < e.1 + 1)
    (hn : ∃ i, ∃ h : i < w.length, 0 < i ∧ 0 < w[i].n) (hg : ∀ i (hi : i + 1 < w.length), w[i + 1].t ≤ w[i].t * Real.exp (l * dm))
    (hl : l ≤ 1.5) (h1 : l ≤ newton w 1.5) : ∃ fuel r, weichert w mrate fuel = .ok (some r) := by
  obtain ⟨⟨a, hs⟩, ht⟩ := prep_spaced hev hdm hdt h htab
  refine weichert_of_stops ?_ (newton_stops hs hdm hg ht hn hl h1 (by norm_num))
  obtain ⟨i, hi, i0, _⟩ := hn
  omega

/-- **C63**, what holds: `weichert` returns if the period grows from bin to bin at most by the factor `exp(1.5 dm)` (in particular for a table with one row) and the
likelihood does not decrease at the starting value 1.5, that is for b-values of at least 1.5 / log 10 = 0.65. -/
theorem C63_increasing_likelihood_partial {ev table : List (ℝ × ℝ)} {dm dt mrate : ℝ} {w : List (WBin ℝ)} (hev : ev ≠ []) (hdm : 0 < dm) (hdt : 0 < dt)
    (h : weichertPrep ev table dm dt = .ok w) (htab : ∀ r ∈ table, ∃ e ∈ ev, r.1 < e.1 + 1)
    (hn : ∃ i, ∃ h : i < w.length, 0 < i ∧ 0 < w[i].n) (hg : ∀ i (hi : i + 1 < w.length), w[i + 1].t ≤ w[i].t * Real.exp (1.5 * dm))
    (hlik : 0 ≤ deriv (Spec.logLik (triples w)) 1.5) : ∃ fuel r, weichert w mrate fuel = .ok (some r) := by
  obtain ⟨⟨a, hs⟩, ht⟩ := prep_spaced hev hdm hdt h htab
  obtain ⟨i, hi, i0, hni⟩ := id hn
  have hw : w ≠ [] := by rintro rfl; simp at hi
  rw [(logLik_deriv ht hw _).deriv] at hlik
  have hd' : ∃ x ∈ w, ∃ y ∈ w, x.m ≠ y.m := by
    refine ⟨w[0], List.getElem_mem (by omega), w[i], List.getElem_mem hi, ?_⟩
    rw [hs 0 (by omega), hs i hi]
    have h2 : (0 : ℝ) < (i : ℝ) := by exact_mod_cast i0
    have : (0 : ℝ) < i * dm := by positivity
    simp only [Nat.cast_zero, zero_mul, add_zero]
    linarith
  have hneg := d2_neg ht hd' ⟨w[i], List.getElem_mem hi, hni⟩ 1.5
  refine C63_first_step_partial hev hdm hdt h htab hn hg le_rfl ?_
  have := div_nonpos_of_nonneg_of_nonpos hlik hneg.le
  rw [newton]; linarith

/-! ### A catalogue of this kind -/

/-- Catalogue of three events. -/
noncomputable def ev63b : List (ℝ × ℝ) := [(2000, 4.0), (1999, 4.0), (1950, 4.1)]

/-- Completeness table with one row. -/
noncomputable def table63b : List (ℝ × ℝ) := [(1950, 4.0)]

theorem prep63b {w : List (WBin ℝ)} (h : weichertPrep ev63b table63b 0.1 1 = .ok w) : w = [⟨51, 4.05, 2⟩, ⟨51, 4.15, 1⟩] := by
  classical
  obtain ⟨y0, y1, m0, hy0, hy1, hm0, hlen, ⟨m1, hm1, hlm⟩, hidx, hw⟩ := weichertPrep_spec (by simp [ev63b]) (by norm_num) one_pos h
  have ma : Spec.mag1 (4.0 : ℝ) = 4.0 := mag1_of_int 40 (by norm_num)
  have mb : Spec.mag1 (4.1 : ℝ) = 4.1 := mag1_of_int 41 (by norm_num)
  obtain rfl : y0 = 1950 := hy0.unique ⟨⟨(1950, 4.1), by simp [ev63b], rfl⟩, by rintro y ⟨e, he, rfl⟩; simp [ev63b] at he; rcases he with rfl | rfl | rfl <;> norm_num⟩
  obtain rfl : y1 = 2000 := hy1.unique ⟨⟨(2000, 4.0), by simp [ev63b], rfl⟩, by rintro y ⟨e, he, rfl⟩; simp [ev63b] at he; rcases he with rfl | rfl | rfl <;> norm_num⟩
  obtain rfl : m0 = 4.0 := hm0.unique ⟨⟨(2000, 4.0), by simp [ev63b], ma⟩, by rintro y ⟨e, he, rfl⟩; simp only [ev63b, List.mem_cons, List.not_mem_nil, or_false] at he; rcases he with rfl | rfl | rfl <;> simp only [ma, mb] <;> norm_num⟩
  obtain rfl : m1 = 4.1 := hm1.unique ⟨⟨(1950, 4.1), by simp [ev63b], mb⟩, by rintro y ⟨e, he, rfl⟩; simp only [ev63b, List.mem_cons, List.not_mem_nil, or_false] at he; rcases he with rfl | rfl | rfl <;> simp only [ma, mb] <;> norm_num⟩
  have l2 : 2 ≤ w.length := (hlm 2).mpr (by norm_num)
  have l3 : ¬ 3 ≤ w.length := by rw [hlm 3]; norm_num
  have hl : w.length = 2 := by omega
  have i0 : cellIdx 4.0 0.1 4.0 = 0 := by simp [cellIdx]
  have i1 : cellIdx 4.0 0.1 4.1 = 1 := by rw [cellIdx, show ((4.1 : ℝ) - 4.0) / 0.1 = ((1 : ℕ) : ℝ) by norm_num, Nat.floor_natCast]
  have hk : ∀ e ∈ ev63b, Kept table63b 1950 1 4.0 0.1 e := by
    intro e he r hr
    have c1 : (1950 : ℝ) ≤ cellStart 1950 1 e.1 := by simp [cellStart]
    simp only [table63b, List.mem_cons, List.not_mem_nil, or_false] at hr
    rintro ⟨h1, h2⟩
    subst hr
    simp only at h1
    linarith
  have ka := hk (2000, 4.0) (by simp [ev63b])
  have kb := hk (1950, 4.1) (by simp [ev63b])
  have kc := hk (1999, 4.0) (by simp [ev63b])
  match w, hl, hw with
  | [a, b], _, hw =>
    obtain ⟨am, ⟨ra, hra, _, at'⟩, an⟩ := hw 0 (by simp)
    obtain ⟨bm, ⟨rb, hrb, _, bt⟩, bn⟩ := hw 1 (by simp)
    simp only [List.getElem_cons_zero, List.getElem_cons_succ] at am at' an bm bt bn
    simp only [table63b, List.mem_cons, List.not_mem_nil, or_false] at hra hrb
    subst hra hrb
    have hna : a.n = 2 := by
      rw [an]
      simp only [ev63b, List.countP_cons, List.countP_nil, ma, mb, i0, i1, decide_eq_true ka, decide_eq_true kb, decide_eq_true kc]
      simp
    have hnb : b.n = 1 := by
      rw [bn]
      simp only [ev63b, List.countP_cons, List.countP_nil, ma, mb, i0, i1, decide_eq_true ka, decide_eq_true kb, decide_eq_true kc]
      simp
    obtain ⟨t, m, n⟩ := a
    obtain ⟨t', m', n'⟩ := b
    simp only at am at' hna bm bt hnb
    subst am at' hna bm bt hnb
    norm_num

/-- The hypotheses of `C63_increasing_likelihood_partial` are met by this catalogue, so its iteration returns. -/
theorem returns63b : ∃ w fuel r, weichertPrep ev63b table63b 0.1 1 = .ok w ∧ weichert w 4 fuel = .ok (some r) := by
  obtain ⟨w, hw⟩ := weichertPrep_succeeds (ev := ev63b) (table := table63b) (dm := 0.1) (dt := 1) (by simp [ev63b]) (by simp [table63b]) (by norm_num) one_pos
  have e := prep63b hw
  obtain ⟨fuel, r, hr⟩ := C63_increasing_likelihood_partial (mrate := 4) (by simp [ev63b]) (by norm_num) one_pos hw
    (by intro r hr; refine ⟨(2000, 4.0), by simp [ev63b], ?_⟩; simp [table63b] at hr; subst hr; norm_num)
    (by subst e; exact ⟨1, by simp, by norm_num, by simp⟩)
    (by
      subst e
      intro i hi
      have : i = 0 := by simp at hi; omega
      subst this
      have : (1 : ℝ) ≤ Real.exp (1.5 * 0.1) := Real.one_le_exp (by norm_num)
      simp only [List.getElem_cons_zero, List.getElem_cons_succ]
      linarith)
    (by
      subst e
      rw [(logLik_deriv (by simp) (by simp) _).deriv, dldb_real]
      simp only [moment, total, magSum, List.map_cons, List.map_nil, List.sum_cons, List.sum_nil, pow_zero, pow_one, mul_one, add_zero]
      have e1 : Real.exp (-1.5 * 4.15) = Real.exp (-1.5 * 4.05) * Real.exp (-0.15) := by rw [← Real.exp_add]; norm_num
      have h1 : (0.85 : ℝ) ≤ Real.exp (-0.15) := by have := Real.add_one_le_exp (-0.15 : ℝ); linarith
      rw [e1]
      have h0 := Real.exp_pos (-1.5 * 4.05)
      generalize Real.exp (-1.5 * 4.05) = p at *
      generalize Real.exp (-0.15) = q at *
      have : (51 * 4.05 * p + 51 * 4.15 * (p * q)) / (51 * p + 51 * (p * q)) = (4.05 + 4.15 * q) / (1 + q) := by
        have : (1 + q) ≠ 0 := by linarith
        field_simp
      rw [this, sub_nonneg]
      push_cast
      rw [div_mul_eq_mul_div, le_div_iff₀ (by linarith)]
      linarith)
  exact ⟨w, fuel, r, hw, hr⟩

end Verif.Recurrence
