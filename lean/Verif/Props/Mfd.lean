import Verif.Props.Fault

/-! # C80 to C82: occurrence rates of `get_mfd` -/

namespace Verif.Fault

open Verif Verif.Np

/-! ### Specification -/

/-- Anderson and Luco (1983), type 1: rate of events above magnitude `m` on a fault with seismic slip `slip` (mm/year), displacement length ratio `dlr`, shear modulus `smod` (GPa), width `w` (km),
scaling `10^(c + d m)` of the moment. -/
noncomputable def Spec.rateAbove (slip dlr smod w b c d mmax m : ℝ) : ℝ :=
  (d - b) / b * (slip / 10 / Real.sqrt (dlr * 10 ^ c / (smod * 1e10 * (w * 1e5)))) * 10 ^ (b * (mmax - m)) * 10 ^ (-(d / 2) * mmax)

theorem exp_log_ten (x : ℝ) : Real.exp (x * Real.log 10) = 10 ^ x := by
  rw [Real.rpow_def_of_pos (by norm_num), mul_comm]

theorem cumulativeValue_eq (slip dlr smod w b c d mmax m : ℝ) :
    cumulativeValue slip mmax m (b * PyMath.log (10.0 : ℝ)) (d * PyMath.log (10.0 : ℝ)) (betaOf dlr smod w c) = Spec.rateAbove slip dlr smod w b c d mmax m := by
  have hl : Real.log 10 ≠ 0 := (Real.log_pos (by norm_num)).ne'
  simp only [cumulativeValue, betaOf, Spec.rateAbove, exp_real, log_real, sqrt_real, rpow_real]
  rw [show (10.0 : ℝ) = 10 by norm_num, show (1.0e10 : ℝ) = 1e10 by norm_num, show (2.0 : ℝ) = 2 by norm_num,
    ← sub_mul, mul_div_mul_right _ _ hl, ← exp_log_ten (b * (mmax - m)), ← exp_log_ten (-(d / 2) * mmax)]
  congr 2
  · congr 1; ring
  · ring

theorem pred_arangeLen {lo hi w : ℝ} (hw : w ≠ 0) : arangeLen (lo - w / 2.0) (hi + 1.5 * w) w - 2 = ⌈(hi - lo) / w⌉.toNat := by
  have : (hi + 1.5 * w - (lo - w / 2.0)) / w = (hi - lo) / w + ((2 : ℤ) : ℝ) := by
    push_cast
    field_simp
    norm_num
    ring
  simp only [arangeLen, ceilZ_real, this, Int.ceil_add_intCast]
  omega

/-- The value of `get_mfd` when its checks pass. -/
theorem getMfd_eq {msr : ℝ → Option ℝ → Except PyErr ℝ} {slip a b mn bw mmax sm dl : ℝ} {reg : Region ℝ} {f : SimpleFault ℝ} {mx rake : Option ℝ} {scal : ℝ × ℝ}
    (hs : 0 < slip) (ha : 0 ≤ a ∧ a < 1) (hw : bw ≠ 0) (hsm : firstValue reg.smod = .ok sm) (hdl : firstValue reg.dlr = .ok dl)
    (hmx : resolveMax msr f mx rake = .ok mmax) :
    getMfd msr slip a reg f b mn bw mx rake scal = .ok ((List.range ⌈(mmax - mn) / bw⌉.toNat).map fun i : ℕ =>
      Spec.rateAbove (slip * (1 - a)) dl sm (getWidth f) b scal.1 scal.2 mmax (mn - bw / 2 + i * bw) -
      Spec.rateAbove (slip * (1 - a)) dl sm (getWidth f) b scal.1 scal.2 mmax (mn - bw / 2 + (i + 1 : ℕ) * bw)) := by
  unfold getMfd
  rw [if_neg (by simpa using hs), if_neg (by rw [not_not]; norm_num; exact ha)]
  have hz : PyNum.decEq bw 0 = false := by simp [hw]
  simp only [pure_bind, hmx, hsm, hdl, bind, Except.bind, pure, Except.pure, arange, hz, Bool.false_eq_true, if_false, Except.ok.injEq, List.length_map, List.length_range]
  rw [pred_arangeLen hw]
  refine List.map_congr_left fun i hi => ?_
  have hi' : i + 2 < arangeLen (mn - bw / 2.0) (mmax + 1.5 * bw) bw ∨ i + 1 < arangeLen (mn - bw / 2.0) (mmax + 1.5 * bw) bw := by
    have := List.mem_range.mp hi
    rw [← pred_arangeLen hw] at this
    omega
  have get : ∀ j, j < arangeLen (mn - bw / 2.0) (mmax + 1.5 * bw) bw →
      (List.map (fun m => cumulativeValue (slip * (1.0 - a)) mmax m (b * PyMath.log (10.0 : ℝ)) (scal.2 * PyMath.log (10.0 : ℝ)) (betaOf dl sm (getWidth f) scal.1))
        (List.map (arangeAt (mn - bw / 2.0) bw) (List.range (arangeLen (mn - bw / 2.0) (mmax + 1.5 * bw) bw)))).getD j 0 =
      Spec.rateAbove (slip * (1 - a)) dl sm (getWidth f) b scal.1 scal.2 mmax (mn - bw / 2 + j * bw) := by
    intro j hj
    rw [List.map_map, List.getD, List.getElem?_map, List.getElem?_range hj]
    simp only [Option.map_some, Option.getD_some, Function.comp, cumulativeValue_eq, arangeAt_real]
    norm_num
  rw [get i (by omega), get (i + 1) (by omega)]

/-- Ratio of the rates above two magnitudes. -/
theorem rateAbove_step (slip dlr smod w b c d mmax m h : ℝ) :
    Spec.rateAbove slip dlr smod w b c d mmax (m + h) = Spec.rateAbove slip dlr smod w b c d mmax m * 10 ^ (-b * h) := by
  simp only [Spec.rateAbove]
  rw [show b * (mmax - (m + h)) = b * (mmax - m) + -b * h by ring, Real.rpow_add (by norm_num)]
  ring

/-- **C81**: there is one rate for each bin `[minMag - w/2 + i w, minMag - w/2 + (i + 1) w]` with centre below the maximum magnitude; a rate is the difference of the cumulative rates at the ends of the
bin; the sum of the rates is the difference of the cumulative rates at the ends of the range; consecutive rates have the ratio `10^(-b w)`. -/
theorem C81_telescope {msr : ℝ → Option ℝ → Except PyErr ℝ} {slip a b mn bw mmax sm dl : ℝ} {reg : Region ℝ} {f : SimpleFault ℝ} {mx rake : Option ℝ} {scal : ℝ × ℝ} {rates : List ℝ}
    (hw : 0 < bw) (hsm : firstValue reg.smod = .ok sm) (hdl : firstValue reg.dlr = .ok dl) (hmx : resolveMax msr f mx rake = .ok mmax)
    (h : getMfd msr slip a reg f b mn bw mx rake scal = .ok rates) :
    let N := Spec.rateAbove (slip * (1 - a)) dl sm (getWidth f) b scal.1 scal.2 mmax
    (∀ i : ℕ, i < rates.length ↔ mn + i * bw < mmax) ∧
    (∀ (i : ℕ) (hi : i < rates.length), rates[i] = N (mn - bw / 2 + i * bw) - N (mn + bw / 2 + i * bw)) ∧
    rates.sum = N (mn - bw / 2) - N (mn - bw / 2 + rates.length * bw) ∧
    (∀ (i : ℕ) (hi : i + 1 < rates.length), rates[i + 1] = rates[i] * 10 ^ (-b * bw)) := by
  intro N
  have hs : 0 < slip := by
    by_contra hn
    unfold getMfd at h
    rw [if_pos (by simpa using hn)] at h
    simp [bind, Except.bind, throw, throwThe, MonadExceptOf.throw] at h
  have ha : 0 ≤ a ∧ a < 1 := by
    by_contra hn
    unfold getMfd at h
    rw [if_neg (by simpa using hs), if_pos (by norm_num; intro h0; by_contra hc; exact hn ⟨h0, by linarith⟩)] at h
    simp [bind, Except.bind, throw, throwThe, MonadExceptOf.throw, pure, Except.pure] at h
  rw [getMfd_eq hs ha hw.ne' hsm hdl hmx] at h
  have h := (Except.ok.inj h).symm
  have hlen : rates.length = ⌈(mmax - mn) / bw⌉.toNat := by rw [h]; simp
  have hget : ∀ (i : ℕ) (hi : i < rates.length), rates[i] = N (mn - bw / 2 + i * bw) - N (mn - bw / 2 + (i + 1 : ℕ) * bw) := by
    intro i hi
    simp only [h, List.getElem_map, List.getElem_range]
    rfl
  refine ⟨fun i => ?_, fun i hi => ?_, ?_, fun i hi => ?_⟩
  · rw [hlen, Int.lt_toNat, Int.lt_ceil, lt_div_iff₀ hw, Int.cast_natCast]
    constructor <;> intro h <;> linarith
  · rw [hget i hi]
    congr 2
    push_cast; ring
  · have : ∀ n : ℕ, ((List.range n).map fun i : ℕ => N (mn - bw / 2 + i * bw) - N (mn - bw / 2 + (i + 1 : ℕ) * bw)).sum = N (mn - bw / 2) - N (mn - bw / 2 + n * bw) := by
      intro n
      induction n with
      | zero => simp
      | succ n ih =>
        rw [List.range_succ, List.map_append, List.sum_append, ih]
        simp
    rw [hlen, ← this, h]
  · rw [hget (i + 1) hi, hget i (by omega), sub_mul, ← rateAbove_step, ← rateAbove_step]
    congr 2 <;> push_cast <;> ring

/-- **C81**, the usual case of a range of `k` bins: `k` rates, from `minMag - w/2` to `maxMag - w/2`. -/
theorem C81_whole_bins {msr : ℝ → Option ℝ → Except PyErr ℝ} {slip a b mn bw mmax sm dl : ℝ} {reg : Region ℝ} {f : SimpleFault ℝ} {mx rake : Option ℝ} {scal : ℝ × ℝ} {rates : List ℝ}
    (hw : 0 < bw) (hsm : firstValue reg.smod = .ok sm) (hdl : firstValue reg.dlr = .ok dl) (hmx : resolveMax msr f mx rake = .ok mmax)
    (h : getMfd msr slip a reg f b mn bw mx rake scal = .ok rates) (k : ℕ) (hk : mmax = mn + k * bw) :
    rates.length = k ∧ rates.sum = Spec.rateAbove (slip * (1 - a)) dl sm (getWidth f) b scal.1 scal.2 mmax (mn - bw / 2) -
      Spec.rateAbove (slip * (1 - a)) dl sm (getWidth f) b scal.1 scal.2 mmax (mmax - bw / 2) := by
  obtain ⟨h1, _, h3, _⟩ := C81_telescope hw hsm hdl hmx h
  have hl : rates.length = k := by
    have a1 := h1 rates.length
    have a2 := h1 k
    simp only [lt_irrefl, false_iff, not_lt] at a1
    rw [hk] at a1 a2
    simp only [lt_irrefl, iff_false, not_lt] at a2
    have : (k : ℝ) ≤ rates.length := by
      by_contra hc
      have : (rates.length : ℝ) * bw < k * bw := mul_lt_mul_of_pos_right (by linarith) hw
      linarith
    have : k ≤ rates.length := by exact_mod_cast this
    omega
  refine ⟨hl, ?_⟩
  rw [h3, hl]
  congr 2
  rw [hk]; ring

/-- Width of a constructed fault. -/
theorem width_pos {trace : List (ℝ × ℝ)} {upp low dip : ℝ} {f : SimpleFault ℝ} (h : mkFault trace upp low dip = .ok f) : 0 < getWidth f := by
  obtain ⟨_, h1, h2, _⟩ := C76_dimensions h
  linarith

/-- **C80**: for a valid region and fault and a b-value below the slope of the moment scaling (1.5 by default) every rate is positive. -/
theorem C80_positive {msr : ℝ → Option ℝ → Except PyErr ℝ} {slip a b mn bw : ℝ} {reg : Region ℝ} {f : SimpleFault ℝ} {mx rake : Option ℝ} {scal : ℝ × ℝ} {rates : List ℝ}
    {trace : List (ℝ × ℝ)} {upp low dip : ℝ} (hf : mkFault trace upp low dip = .ok f)
    {id : String} {dm : WDict String ℝ} {ds dd : WDict ℝ ℝ} (hr : mkRegion id dm ds dd = .ok reg) (hb : 0 < b) (hbd : b < scal.2) (hw : 0 < bw)
    (h : getMfd msr slip a reg f b mn bw mx rake scal = .ok rates) : ∀ r ∈ rates, 0 < r := by
  obtain ⟨sm, dl, hsm, hdl, psm, pdl⟩ := C78_first_values hr
  have hwf := width_pos hf
  obtain ⟨mmax, hmx⟩ : ∃ mmax, resolveMax msr f mx rake = .ok mmax := by
    unfold getMfd at h
    rcases hm : resolveMax msr f mx rake with e | m
    · exfalso
      rw [hm] at h
      split_ifs at h <;> simp [bind, Except.bind, throw, throwThe, MonadExceptOf.throw, pure, Except.pure] at h
    · exact ⟨m, rfl⟩
  have hs : 0 < slip := by
    by_contra hn
    unfold getMfd at h
    rw [if_pos (by simpa using hn)] at h
    simp [bind, Except.bind, throw, throwThe, MonadExceptOf.throw] at h
  have ha : 0 ≤ a ∧ a < 1 := by
    by_contra hn
    unfold getMfd at h
    rw [if_neg (by simpa using hs), if_pos (by norm_num; intro h0; by_contra hc; exact hn ⟨h0, by linarith⟩)] at h
    simp [bind, Except.bind, throw, throwThe, MonadExceptOf.throw, pure, Except.pure] at h
  obtain ⟨_, h2, _, _⟩ := C81_telescope hw hsm hdl hmx h
  intro r hr
  obtain ⟨i, hi, rfl⟩ := List.getElem_of_mem hr
  rw [h2 i hi, show mn + bw / 2 + i * bw = mn - bw / 2 + i * bw + bw by ring, rateAbove_step _ _ _ _ _ _ _ _ (mn - bw / 2 + i * bw) bw]
  have hN : 0 < Spec.rateAbove (slip * (1 - a)) dl sm (getWidth f) b scal.1 scal.2 mmax (mn - bw / 2 + i * bw) := by
    have h1 : 0 < scal.2 - b := by linarith
    have h2 : 0 < 1 - a := by linarith [ha.2]
    unfold Spec.rateAbove
    positivity
  have hq : (10 : ℝ) ^ (-b * bw) < 1 := Real.rpow_lt_one_of_one_lt_of_neg (by norm_num) (by nlinarith)
  have := mul_pos hN (sub_pos.mpr hq)
  rw [mul_sub, mul_one] at this
  exact this

/-- **C82**: a slip that is not positive and an aseismic coefficient outside [0, 1) are refused (in any arithmetic). -/
theorem C82_refused {F : Type} [PyMath F] {msr : F → Option F → Except PyErr F} {slip a b mn bw : F} {reg : Region F} {f : SimpleFault F} {mx rake : Option F} {scal : F × F}
    (h : ¬ ((0 : ℕ) : F) < slip ∨ ¬ (0.0 : F) ≤ a ∨ ¬ a < (1.0 : F)) : getMfd msr slip a reg f b mn bw mx rake scal = .error .assertionError := by
  unfold getMfd
  by_cases h1 : ((0 : ℕ) : F) < slip
  · rw [if_neg (by simpa using h1), if_pos (by rcases h with h | h | h; exacts [absurd h1 h, fun hc => h hc.1, fun hc => h hc.2])]
    rfl
  · rw [if_pos h1]; rfl

/-- **C82**: the rates are proportional to `slip * (1 - aseismic coefficient)`. -/
theorem C82_proportional {msr : ℝ → Option ℝ → Except PyErr ℝ} {slip a slip' a' b mn bw : ℝ} {reg : Region ℝ} {f : SimpleFault ℝ} {mx rake : Option ℝ} {scal : ℝ × ℝ} {rates : List ℝ}
    (hs' : 0 < slip') (ha' : 0 ≤ a' ∧ a' < 1) (hw : 0 < bw)
    (h : getMfd msr slip a reg f b mn bw mx rake scal = .ok rates) :
    getMfd msr slip' a' reg f b mn bw mx rake scal = .ok (rates.map fun r => r * (slip' * (1 - a') / (slip * (1 - a)))) := by
  have hs : 0 < slip := by
    by_contra hn
    rw [C82_refused (Or.inl (by simpa using hn))] at h
    simp at h
  have ha : 0 ≤ a ∧ a < 1 := by
    by_contra hn
    rw [C82_refused (Or.inr (by
      by_cases h0 : 0 ≤ a
      · right; intro hc; refine hn ⟨h0, ?_⟩; norm_num at hc; exact hc
      · left; intro hc; norm_num at hc; exact h0 hc))] at h
    simp at h
  rcases hm : resolveMax msr f mx rake with e | mmax
  · exfalso
    unfold getMfd at h
    rw [hm] at h
    split_ifs at h <;> simp [bind, Except.bind, throw, throwThe, MonadExceptOf.throw, pure, Except.pure] at h
  rcases hdl : firstValue reg.dlr with e | dl
  · exfalso
    unfold getMfd at h
    rw [hm] at h
    simp only [hdl] at h
    split_ifs at h <;> simp [bind, Except.bind, throw, throwThe, MonadExceptOf.throw, pure, Except.pure] at h
  rcases hsm : firstValue reg.smod with e | sm
  · exfalso
    unfold getMfd at h
    rw [hm] at h
    simp only [hdl, hsm] at h
    split_ifs at h <;> simp [bind, Except.bind, throw, throwThe, MonadExceptOf.throw, pure, Except.pure] at h
  rw [getMfd_eq hs ha hw.ne' hsm hdl hm] at h
  rw [getMfd_eq hs' ha' hw.ne' hsm hdl hm, ← Except.ok.inj h]
  simp only [List.map_map, Except.ok.injEq]
  refine List.map_congr_left fun i _ => ?_
  have hne : slip * (1 - a) ≠ 0 := by
    have : 0 < 1 - a := by linarith [ha.2]
    positivity
  have key : ∀ m, Spec.rateAbove (slip' * (1 - a')) dl sm (getWidth f) b scal.1 scal.2 mmax m =
      Spec.rateAbove (slip * (1 - a)) dl sm (getWidth f) b scal.1 scal.2 mmax m * (slip' * (1 - a') / (slip * (1 - a))) := by
    intro m
    simp only [Spec.rateAbove]
    generalize Real.sqrt (dl * 10 ^ scal.1 / (sm * 1e10 * (getWidth f * 1e5))) = B
    generalize (10 : ℝ) ^ (b * (mmax - m)) = E1
    generalize (10 : ℝ) ^ (-(scal.2 / 2) * mmax) = E2
    generalize slip * (1 - a) = S at *
    generalize slip' * (1 - a') = S'
    field_simp
  simp only [Function.comp]
  rw [key, key, ← sub_mul]

/-- The hypotheses are met: a fault dipping 90 degrees, two bins. -/
example : ∃ reg f rates, createByName "Volcanic" none none none = .ok reg ∧ mkFault [((90 : ℝ), (24 : ℝ)), (90, 23)] 0 10 90 = .ok f ∧
    getMfd (fun _ _ => .error .typeError) 20 0.1 reg f 0.8 5 0.5 (some 6) none = .ok rates ∧ rates.length = 2 ∧ ∀ r ∈ rates, 0 < r := by
  have hreg := C79_defaults (name := "Volcanic") (id := "005") (sm := 29) (dl := 1.25e-5) (by simp [Spec.documented])
  have hf := (C75_fault_validation [((90 : ℝ), (24 : ℝ)), (90, 23)] 0 10 90).1 ⟨by simp, by
    intro p hp
    simp only [List.mem_cons, List.not_mem_nil, or_false] at hp
    rcases hp with rfl | rfl <;> norm_num, by norm_num, by norm_num, by norm_num, by norm_num⟩
  have hsm : firstValue (single (29 : ℝ)) = .ok 29 := rfl
  have hdl : firstValue (single (1.25e-5 : ℝ)) = .ok 1.25e-5 := rfl
  have hg := getMfd_eq (msr := fun _ _ => .error .typeError) (slip := 20) (a := 0.1) (b := 0.8) (mn := 5) (bw := 0.5) (mmax := 6)
    (reg := ⟨"005", single "WC1994", single 29, single 1.25e-5⟩) (f := ⟨[((90 : ℝ), (24 : ℝ)), (90, 23)], 0, 10, 90⟩) (mx := some 6) (rake := none) (scal := (16.05, 1.5))
    (by norm_num) (by norm_num) (by norm_num) hsm hdl rfl
  refine ⟨_, _, _, hreg, hf, hg, ?_, ?_⟩
  · rw [List.length_map, List.length_range]
    have : ((6 : ℝ) - 5) / 0.5 = ((2 : ℤ) : ℝ) := by norm_num
    rw [this, Int.ceil_intCast]
    rfl
  · have hmk : mkRegion "005" (single "WC1994") (single (29 : ℝ)) (single (1.25e-5 : ℝ)) = .ok ⟨"005", single "WC1994", single 29, single 1.25e-5⟩ :=
      mkRegion_iff.mpr ⟨rfl, ["WC1994"], [1.0], [29], [1.0], [1.25e-5], [1.0], rfl, rfl, rfl, rfl, rfl, rfl, rfl, rfl, rfl, by simp, by simp, by simp; norm_num, by norm_num, by norm_num, by norm_num⟩
    exact C80_positive hf hmk (by norm_num) (by norm_num) (by norm_num) hg

end Verif.Fault
