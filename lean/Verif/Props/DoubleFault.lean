import Verif.Model.Fault
import Verif.Lemmas.Nrml
import Verif.Props.DoubleRates
import Verif.Props.DoubleGk

/-!
# C196: the width of a fault in double precision
-/

namespace Verif.Fault

open Verif Verif.Dbl

namespace Spec

/-- What is asked of the mathematical library between 0 and 90 degrees: pi is positive, the sine is positive, at most 1 and not decreasing. -/
structure Quarter [Libm] : Prop where
  pi_pos : 0 < (PyMath.pi : Dbl).val
  sin_pos : ∀ x : Dbl, 0 < x.val → x.val ≤ (radians ((90 : ℕ) : Dbl)).val → 0 < (PyMath.sin x).val
  sin_le : ∀ x : Dbl, 0 < x.val → x.val ≤ (radians ((90 : ℕ) : Dbl)).val → (PyMath.sin x).val ≤ 1
  sin_mono : ∀ x y : Dbl, 0 < x.val → x.val ≤ y.val → y.val ≤ (radians ((90 : ℕ) : Dbl)).val → (PyMath.sin x).val ≤ (PyMath.sin y).val

end Spec

open Spec

theorem ensured {b : Bool} {u : Unit} (h : ensure b = .ok u) : b = true := by
  cases b
  · cases h
  · rfl

/-- What an accepted fault satisfies. -/
theorem accepted_dbl [Libm] {trace : List (Dbl × Dbl)} {upp low dip : Dbl} {f : SimpleFault Dbl} (h : mkFault trace upp low dip = .ok f) :
    f = ⟨trace, upp, low, dip⟩ ∧ 0 ≤ upp.val ∧ upp.val < low.val ∧ 0 < dip.val ∧ dip.val ≤ 90 := by
  unfold mkFault at h
  obtain ⟨_, -, h⟩ := Nrml.bind_ok h
  obtain ⟨_, -, h⟩ := Nrml.bind_ok h
  obtain ⟨_, h1, h⟩ := Nrml.bind_ok h
  obtain ⟨_, -, h⟩ := Nrml.bind_ok h
  obtain ⟨_, h2, h⟩ := Nrml.bind_ok h
  obtain ⟨_, h3, h⟩ := Nrml.bind_ok h
  have h1 := le_def.1 (of_decide_eq_true (ensured h1))
  have h2 := lt_def.1 (of_decide_eq_true (ensured h2))
  have h3 := ensured h3
  rw [Bool.and_eq_true, decide_eq_true_eq, decide_eq_true_eq, lt_def, le_def, val_nat_exact (by norm_num), val_nat_exact (by norm_num)] at h3
  rw [val_nat_exact (by norm_num)] at h1
  push_cast at h1 h3
  exact ⟨(Except.ok.inj h).symm, h1, h2, h3.1, h3.2⟩

variable [Libm]

theorem radians_val (x : Dbl) : (radians x).val = rnd53 (x.val * rnd53 ((PyMath.pi : Dbl).val / 180)) := by
  show rnd53 (x.val * rnd53 ((PyMath.pi : Dbl).val / ((180 : ℕ) : Dbl).val)) = _
  rw [val_nat_exact (by norm_num)]
  norm_num

theorem radians_quarter (hL : Quarter) {dip : Dbl} (h0 : 0 < dip.val) (h1 : dip.val ≤ 90) : 0 < (radians dip).val ∧ (radians dip).val ≤ (radians ((90 : ℕ) : Dbl)).val := by
  have hp : 0 < rnd53 ((PyMath.pi : Dbl).val / 180) := rnd_pos (div_pos hL.pi_pos (by norm_num))
  rw [radians_val, radians_val, val_nat_exact (by norm_num)]
  refine ⟨rnd_pos (mul_pos h0 hp), rnd53_mono (mul_le_mul_of_nonneg_right ?_ hp.le)⟩
  push_cast
  exact h1

theorem sine_dip (hL : Quarter) {dip : Dbl} (h0 : 0 < dip.val) (h1 : dip.val ≤ 90) : 0 < (PyMath.sin (radians dip)).val ∧ (PyMath.sin (radians dip)).val ≤ 1 := by
  obtain ⟨a, b⟩ := radians_quarter hL h0 h1
  exact ⟨hL.sin_pos _ a b, hL.sin_le _ a b⟩

/-- **C196** (positive): the computed width of an accepted fault is positive and not less than the computed distance of the two depths. -/
theorem C196_width (hL : Quarter) {trace : List (Dbl × Dbl)} {upp low dip : Dbl} {f : SimpleFault Dbl} (h : mkFault trace upp low dip = .ok f) :
    0 < (getWidth f).val ∧ (low - upp).val ≤ (getWidth f).val := by
  obtain ⟨rfl, -, h2, h3, h4⟩ := accepted_dbl h
  obtain ⟨s0, s1⟩ := sine_dip hL h3 h4
  have hd : 0 < (low - upp).val := rnd_pos (sub_pos.2 h2)
  refine ⟨rnd_pos (div_pos hd s0), ?_⟩
  show (low - upp).val ≤ rnd53 ((low - upp).val / (PyMath.sin (radians dip)).val)
  rw [← (low - upp).ok]
  refine rnd53_mono ?_
  rw [(low - upp).ok, le_div_iff₀ s0]
  nlinarith

/-- **C196** (accuracy): the computed width times the sine of the dip is the distance of the two depths up to two roundings. -/
theorem C196_accuracy (hL : Quarter) {trace : List (Dbl × Dbl)} {upp low dip : Dbl} {f : SimpleFault Dbl} (h : mkFault trace upp low dip = .ok f) :
    |(getWidth f).val * (PyMath.sin (radians dip)).val - (low.val - upp.val)| ≤ (low.val - upp.val) / 2 ^ 51 := by
  obtain ⟨rfl, -, h2, h3, h4⟩ := accepted_dbl h
  obtain ⟨s0, -⟩ := sine_dip hL h3 h4
  have hd0 : 0 < low.val - upp.val := sub_pos.2 h2
  have hd : 0 < (low - upp).val := rnd_pos hd0
  obtain ⟨a1, a2⟩ := rnd_rel hd0.le
  obtain ⟨b1, b2⟩ := rnd_rel (div_pos hd s0).le
  show |rnd53 ((low - upp).val / (PyMath.sin (radians dip)).val) * (PyMath.sin (radians dip)).val - _| ≤ _
  have e : (low - upp).val / (PyMath.sin (radians dip)).val * (PyMath.sin (radians dip)).val = (low - upp).val := div_mul_cancel₀ _ s0.ne'
  have c1 := mul_le_mul_of_nonneg_right b1 s0.le
  have c2 := mul_le_mul_of_nonneg_right b2 s0.le
  rw [mul_right_comm, e] at c1 c2
  change (low.val - upp.val) * (1 - 1 / 2 ^ 53) ≤ (low - upp).val at a1
  change (low - upp).val ≤ (low.val - upp.val) * (1 + 1 / 2 ^ 53) at a2
  generalize (low - upp).val = d at *
  generalize low.val - upp.val = D at *
  have k1 := mul_le_mul_of_nonneg_right a1 (show (0 : ℚ) ≤ 1 - 1 / 2 ^ 53 by norm_num)
  have k2 := mul_le_mul_of_nonneg_right a2 (show (0 : ℚ) ≤ 1 + 1 / 2 ^ 53 by norm_num)
  rw [abs_le]
  constructor <;> norm_num at * <;> linarith

/-- **C196** (monotone): a fault that reaches from at least as shallow to at least as deep and does not dip more steeply is not computed as narrower. -/
theorem C196_monotone (hL : Quarter) {trace trace' : List (Dbl × Dbl)} {upp low dip upp' low' dip' : Dbl} {f f' : SimpleFault Dbl} (h : mkFault trace upp low dip = .ok f)
    (h' : mkFault trace' upp' low' dip' = .ok f') (hu : upp' ≤ upp) (hl : low ≤ low') (hd : dip' ≤ dip) : getWidth f ≤ getWidth f' := by
  obtain ⟨rfl, -, g2, g3, g4⟩ := accepted_dbl h
  obtain ⟨rfl, -, k2, k3, k4⟩ := accepted_dbl h'
  obtain ⟨s0, -⟩ := sine_dip hL g3 g4
  obtain ⟨t0, -⟩ := sine_dip hL k3 k4
  have hp : 0 < rnd53 ((PyMath.pi : Dbl).val / 180) := rnd_pos (div_pos hL.pi_pos (by norm_num))
  have hr : (radians dip').val ≤ (radians dip).val := by
    rw [radians_val, radians_val]
    exact rnd53_mono (mul_le_mul_of_nonneg_right (le_def.1 hd) hp.le)
  have hs := hL.sin_mono _ _ (radians_quarter hL k3 k4).1 hr (radians_quarter hL g3 g4).2
  have hdd : (low - upp).val ≤ (low' - upp').val := rnd53_mono (sub_le_sub (le_def.1 hl) (le_def.1 hu))
  have hpos : 0 < (low - upp).val := rnd_pos (sub_pos.2 g2)
  exact le_def.2 (rnd53_mono (div_le_div₀ (hpos.le.trans hdd) hdd t0 hs))

/-- **C196** (vertical): if the library gives the sine of 90 degrees as 1, the width of a vertical fault is the computed distance of the two depths. -/
theorem C196_vertical (h90 : (PyMath.sin (radians ((90 : ℕ) : Dbl))).val = 1) {trace : List (Dbl × Dbl)} {upp low : Dbl} {f : SimpleFault Dbl} (h : mkFault trace upp low ((90 : ℕ) : Dbl) = .ok f) :
    getWidth f = low - upp := by
  obtain ⟨rfl, -⟩ := accepted_dbl h
  refine Dbl.ext ?_
  show rnd53 ((low - upp).val / (PyMath.sin (radians ((90 : ℕ) : Dbl))).val) = _
  rw [h90, div_one, (low - upp).ok]

/-- **C196** (direction): with an odd sine the computed length of a trace of two points does not depend on its direction. -/
theorem C196_direction (hs : Declustering.Spec.OddSine) (p q : Dbl × Dbl) (upp low dip : Dbl) : getLength ⟨[p, q], upp, low, dip⟩ = getLength ⟨[q, p], upp, low, dip⟩ := by
  have e : segment p q = segment q p := by
    unfold segment
    simp only
    rw [Declustering.sub_neg_dbl (radians q.2), Declustering.sub_neg_dbl (radians q.1), Declustering.neg_div_dbl, Declustering.neg_div_dbl, hs, hs, Declustering.neg_mul_neg_dbl, Declustering.neg_mul_neg_dbl,
      Declustering.mul_comm_dbl (PyMath.cos (radians p.2))]
  show ((0 : ℕ) : Dbl) + segment p q = ((0 : ℕ) : Dbl) + segment q p
  rw [e]

omit [Libm] in
/-- A library that meets the requirements: pi is 3 and the sine of every angle is one half. -/
theorem quarter_example : @Quarter ⟨id, id, id, id, fun _ => .of (1 / 2), id, fun x _ => x, fun _ _ => .of 1, .of 3⟩ := by
  let _ : Libm := ⟨id, id, id, id, fun _ => .of (1 / 2), id, fun x _ => x, fun _ _ => .of 1, .of 3⟩
  have h0 : 0 < (Dbl.of (1 / 2)).val := by decide +kernel
  have h1 : (Dbl.of (1 / 2)).val ≤ 1 := by decide +kernel
  exact ⟨show 0 < (Dbl.of 3).val by decide +kernel, fun _ _ _ => h0, fun _ _ _ => h1, fun _ _ _ _ _ => le_rfl⟩

omit [Libm] in
/-- Non-vacuity of C196: an accepted fault. -/
example : ∃ f, @mkFault Dbl (@instPyMathDbl noLibm) [(.of 10, .of 45), (.of 10.5, .of 45.25)] (.of 0.1) (.of 12.7) (.of 30) = .ok f := by
  have h : (@mkFault Dbl (@instPyMathDbl noLibm) [(.of 10, .of 45), (.of 10.5, .of 45.25)] (.of 0.1) (.of 12.7) (.of 30)).isOk = true := by decide +kernel
  cases e : @mkFault Dbl (@instPyMathDbl noLibm) [(.of 10, .of 45), (.of 10.5, .of 45.25)] (.of 0.1) (.of 12.7) (.of 30) with
  | error _ => rw [e] at h; cases h
  | ok f => exact ⟨f, rfl⟩

end Verif.Fault
