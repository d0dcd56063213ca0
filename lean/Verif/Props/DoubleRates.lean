import Verif.Props.DoubleMfd

/-!
# C191: the occurrence rates of a fault are positive and add up, in double precision
-/

namespace Verif.Fault

open Verif Verif.Dbl Verif.Np

namespace Spec

/-- What is assumed of the elementary functions of the library: `log(10)` is about 2.3, roots and powers of positive numbers are positive, and `exp` is positive and grows by a ten thousandth at least
if the argument grows by a thousandth. -/
structure Elementary [Libm] : Prop where
  log_ten : 2 ≤ (PyMath.log (10.0 : Dbl)).val ∧ (PyMath.log (10.0 : Dbl)).val ≤ 3
  sqrt_pos : ∀ x : Dbl, 0 < x.val → 0 < (PyMath.sqrt x).val
  pow_pos : ∀ x : Dbl, 0 < (PyMath.rpow (10.0 : Dbl) x).val
  exp_pos : ∀ x : Dbl, 0 < (PyMath.exp x).val
  exp_grows : ∀ x y : Dbl, x.val + 1 / 1000 ≤ y.val → (PyMath.exp x).val * (1 + 1 / 10000) ≤ (PyMath.exp y).val

end Spec

/-! ### Rounding of positive numbers -/

theorem rnd_rel {x : ℚ} (hx : 0 ≤ x) : x * (1 - 1 / 2 ^ 53) ≤ rnd53 x ∧ rnd53 x ≤ x * (1 + 1 / 2 ^ 53) := by
  have := rnd53_error x
  rw [abs_of_nonneg hx] at this
  obtain ⟨h1, h2⟩ := abs_le.1 this
  have e : x * (1 / 2 ^ 53) = x / 2 ^ 53 := by ring
  rw [mul_sub, mul_add, mul_one, e]
  constructor <;> linarith

theorem rnd_pos {x : ℚ} (hx : 0 < x) : 0 < rnd53 x :=
  lt_of_lt_of_le (mul_pos hx (by norm_num)) (rnd_rel hx.le).1

/-- A relative gap survives rounding. -/
theorem rnd_gap {x y g g' : ℚ} (hx : 0 < x) (hg' : 0 ≤ 1 + g') (h : x * (1 + g) ≤ y) (hgg : (1 + g') * (1 + 1 / 2 ^ 53) ≤ (1 + g) * (1 - 1 / 2 ^ 53)) (hg : 0 ≤ 1 + g) : rnd53 x * (1 + g') ≤ rnd53 y := by
  have h1 := mul_le_mul_of_nonneg_right (rnd_rel hx.le).2 hg'
  have hy : 0 ≤ y := le_trans (mul_nonneg hx.le hg) h
  have h2 := (rnd_rel hy).1
  have h3 := mul_le_mul_of_nonneg_right h (show (0 : ℚ) ≤ 1 - 1 / 2 ^ 53 by norm_num)
  have h4 := mul_le_mul_of_nonneg_left hgg hx.le
  calc rnd53 x * (1 + g') ≤ x * (1 + 1 / 2 ^ 53) * (1 + g') := h1
    _ = x * ((1 + g') * (1 + 1 / 2 ^ 53)) := by ring
    _ ≤ x * ((1 + g) * (1 - 1 / 2 ^ 53)) := h4
    _ = x * (1 + g) * (1 - 1 / 2 ^ 53) := by ring
    _ ≤ y * (1 - 1 / 2 ^ 53) := h3
    _ ≤ rnd53 y := h2

/-! ### The magnitudes -/

/-- Neighbouring elements of an `arange` are a step apart. -/
theorem arange_step {S D : Dbl} {q : ℚ} (hS : |S.val| ≤ 200) (hD : |D.val - q| ≤ 1 / 10 ^ 11) (q0 : 1 / 100 ≤ q) (q1 : q ≤ 100) {i : ℕ} (hi : (i : ℚ) * q ≤ 1000) :
    |(arangeAt S D i).val - (S.val + i * q)| ≤ 1 / 10 ^ 5 := by
  have h1 : |(S + D).val - (S.val + q)| ≤ 2 / 10 ^ 11 := by
    rw [val_add]
    refine (rnd_near (ε := 1 / 10 ^ 11) (B := 300) (by rw [show S.val + D.val - (S.val + q) = D.val - q by ring]; exact hD) ?_ (by norm_num)).trans (by norm_num)
    refine (abs_add_le _ _).trans ?_
    rw [abs_of_nonneg (show 0 ≤ q by linarith)]
    linarith
  have h2 : |((S + D) - S).val - q| ≤ 3 / 10 ^ 11 := by
    rw [val_sub]
    refine (rnd_near (ε := 2 / 10 ^ 11) (B := 100) (by rw [show (S + D).val - S.val - q = (S + D).val - (S.val + q) by ring]; exact h1) ?_ (by norm_num)).trans (by norm_num)
    rw [abs_of_nonneg (show 0 ≤ q by linarith)]
    exact q1
  have hi5 : (i : ℚ) ≤ 10 ^ 5 := by
    have := mul_le_mul_of_nonneg_left q0 (show (0 : ℚ) ≤ (i : ℚ) by positivity)
    linarith
  have hi0 : (0 : ℚ) ≤ i := by positivity
  have hin : i ≤ 2 ^ 53 := by
    have : i ≤ 10 ^ 5 := by exact_mod_cast hi5
    omega
  have h3 : |((i : Dbl) * ((S + D) - S)).val - i * q| ≤ 4 / 10 ^ 6 := by
    rw [val_mul, val_nat_exact hin]
    refine (rnd_near (ε := 3 / 10 ^ 6) (B := 1000) ?_ ?_ (by norm_num)).trans (by norm_num)
    · rw [← mul_sub, abs_mul, abs_of_nonneg hi0]
      exact (mul_le_mul hi5 h2 (abs_nonneg _) (by norm_num)).trans (by norm_num)
    · rw [abs_of_nonneg (mul_nonneg hi0 (by linarith))]
      exact hi
  unfold arangeAt
  rw [val_add]
  refine (rnd_near (ε := 4 / 10 ^ 6) (B := 1200) ?_ ?_ (by norm_num)).trans (by norm_num)
  · rw [show S.val + ((i : Dbl) * ((S + D) - S)).val - (S.val + i * q) = ((i : Dbl) * ((S + D) - S)).val - i * q by ring]
    exact h3
  · refine (abs_add_le _ _).trans ?_
    rw [abs_of_nonneg (mul_nonneg hi0 (show 0 ≤ q by linarith))]
    linarith

variable [Libm]

/-- The results of `getMfd`, for a given maximum magnitude. -/
theorem mfd_elim {msr : Dbl → Option Dbl → Except PyErr Dbl} {slip a : Dbl} {reg : Region Dbl} {f : SimpleFault Dbl} {b mn bw mx : Dbl} {rake : Option Dbl} {scal : Dbl × Dbl} {rates : List Dbl}
    (h : getMfd msr slip a reg f b mn bw (some mx) rake scal = .ok rates) :
    0 < slip.val ∧ a.val < 1 ∧ ∃ dl sm, firstValue reg.dlr = .ok dl ∧ firstValue reg.smod = .ok sm ∧
      rates.length = arangeLen (mn - bw / 2.0) (mx + (1.5 : Dbl) * bw) bw - 2 ∧
      ∀ i (hi : i < rates.length), rates[i] =
        cumulativeValue (slip * ((1.0 : Dbl) - a)) mx (arangeAt (mn - bw / 2.0) bw i) (b * PyMath.log 10.0) (scal.2 * PyMath.log 10.0) (betaOf dl sm (getWidth f) scal.1) -
        cumulativeValue (slip * ((1.0 : Dbl) - a)) mx (arangeAt (mn - bw / 2.0) bw (i + 1)) (b * PyMath.log 10.0) (scal.2 * PyMath.log 10.0) (betaOf dl sm (getWidth f) scal.1) := by
  unfold getMfd at h
  simp only [bind, Except.bind, resolveMax, throw, throwThe, MonadExceptOf.throw, pure, Except.pure] at h
  split_ifs at h with c1 c2
  rcases hd : firstValue reg.dlr with _ | d <;> rw [hd] at h <;> [cases h; skip]
  rcases hs : firstValue reg.smod with _ | s <;> rw [hs] at h <;> [cases h; skip]
  simp only [arange] at h
  split_ifs at h
  simp only [Except.ok.injEq] at h
  have z : (((0 : ℕ) : Dbl)).val = 0 := by rw [val_nat_exact (by norm_num)]; norm_num
  have o : ((1.0 : Dbl)).val = 1 := by decide +kernel
  refine ⟨?_, ?_, d, s, rfl, rfl, ?_, ?_⟩
  · have := c1
    rw [lt_def, z] at this
    exact this
  · have := c2.2
    rw [lt_def, o] at this
    exact this
  · rw [← h]; simp
  · intro i hi
    subst h
    simp only [List.length_map, List.length_range] at hi
    simp only [List.getElem_map, List.getElem_range]
    rw [List.getD_eq_getElem?_getD, List.getD_eq_getElem?_getD, List.getElem?_eq_getElem (by simp; omega), List.getElem?_eq_getElem (by simp; omega)]
    simp

/-- The computed rate above a magnitude decreases. -/
theorem cumulative_gap (el : Spec.Elementary) {s mx m m' B D β : Dbl} (hs : 0 < s.val) (hβ : 0 < β.val) (hB0 : 19 / 100 ≤ B.val) (hB1 : B.val ≤ 40) (hBD : B.val < D.val) (hmx : |mx.val| ≤ 110) (hm : |m.val| ≤ 2000)
    (hm' : |m'.val| ≤ 2000) (hmm : m.val + 99 / 10000 ≤ m'.val) :
    0 < (cumulativeValue s mx m' B D β).val ∧ (cumulativeValue s mx m' B D β).val < (cumulativeValue s mx m B D β).val := by
  have ten : ((10.0 : Dbl)).val = 10 := val_ten
  obtain ⟨P, hP⟩ : ∃ P, P = ((D - B) / B) * ((s / 10.0) / β) := ⟨_, rfl⟩
  have hP0 : 0 < P.val := by
    rw [hP, val_mul]
    refine rnd_pos (mul_pos ?_ ?_)
    · rw [val_div, val_sub]
      exact rnd_pos (div_pos (rnd_pos (by linarith)) (by linarith))
    · rw [val_div, val_div, ten]
      exact rnd_pos (div_pos (rnd_pos (by linarith)) hβ)
  obtain ⟨Q, hQ⟩ : ∃ Q, Q = PyMath.exp (-(D / 2.0) * mx) := ⟨_, rfl⟩
  have hQ0 : 0 < Q.val := by rw [hQ]; exact el.exp_pos _
  have hx : (B * (mx - m')).val + 1 / 1000 ≤ (B * (mx - m)).val := by
    have key : ∀ t : Dbl, |t.val| ≤ 2000 → |(mx - t).val - (mx.val - t.val)| ≤ 3000 / 2 ^ 53 ∧ |(mx - t).val| ≤ 3000 := by
      intro t ht
      have hb : |mx.val - t.val| ≤ 2110 := (abs_sub _ _).trans (by linarith)
      have h1 := rnd_near (x := mx.val - t.val) (a := mx.val - t.val) (ε := 0) (by simp) hb (by norm_num)
      rw [val_sub]
      refine ⟨h1.trans (by norm_num), ?_⟩
      have := abs_sub_abs_le_abs_sub (rnd53 (mx.val - t.val)) (mx.val - t.val)
      norm_num at h1
      linarith
    obtain ⟨a1, a2⟩ := key m hm
    obtain ⟨a1', a2'⟩ := key m' hm'
    have key2 : ∀ t : Dbl, |t.val| ≤ 3000 → |(B * t).val - B.val * t.val| ≤ 130000 / 2 ^ 53 := by
      intro t ht
      have hb : |B.val * t.val| ≤ 120000 := by
        rw [abs_mul, abs_of_nonneg (by linarith : 0 ≤ B.val)]
        exact (mul_le_mul hB1 ht (abs_nonneg _) (by norm_num)).trans (by norm_num)
      rw [val_mul]
      exact (rnd_near (x := B.val * t.val) (ε := 0) (by simp) hb (by norm_num)).trans (by norm_num)
    have b1 := (abs_le.1 (key2 _ a2)).1
    have b1' := (abs_le.1 (key2 _ a2')).2
    have c1 := (abs_le.1 a1).1
    have c1' := (abs_le.1 a1').2
    have d : 98 / 10000 ≤ (mx - m).val - (mx - m').val := by norm_num at c1 c1'; linarith
    have e := mul_le_mul hB0 d (by norm_num) (by linarith : 0 ≤ B.val)
    rw [mul_sub] at e
    norm_num at b1 b1' e ⊢
    linarith
  have hE := el.exp_grows _ _ hx
  have hE0 := el.exp_pos (B * (mx - m'))
  have hv : ∀ t : Dbl, (cumulativeValue s mx t B D β).val = rnd53 (rnd53 (P.val * (PyMath.exp (B * (mx - t))).val) * Q.val) := by
    intro t
    unfold cumulativeValue
    rw [← hP, ← hQ, val_mul, val_mul]
  rw [hv, hv]
  generalize (PyMath.exp (B * (mx - m'))).val = e' at *
  generalize (PyMath.exp (B * (mx - m))).val = e at *
  have g1 : rnd53 (P.val * e') * (1 + 9 / 100000) ≤ rnd53 (P.val * e) := by
    refine rnd_gap (g := 1 / 10000) (mul_pos hP0 hE0) (by norm_num) ?_ (by norm_num) (by norm_num)
    rw [mul_assoc]
    exact mul_le_mul_of_nonneg_left hE hP0.le
  have p1 : 0 < rnd53 (P.val * e') := rnd_pos (mul_pos hP0 hE0)
  have g2 : rnd53 (rnd53 (P.val * e') * Q.val) * (1 + 8 / 100000) ≤ rnd53 (rnd53 (P.val * e) * Q.val) := by
    refine rnd_gap (g := 9 / 100000) (mul_pos p1 hQ0) (by norm_num) ?_ (by norm_num) (by norm_num)
    rw [mul_right_comm]
    exact mul_le_mul_of_nonneg_right g1 hQ0.le
  have p2 : 0 < rnd53 (rnd53 (P.val * e') * Q.val) := rnd_pos (mul_pos p1 hQ0)
  exact ⟨p2, by linarith⟩

/-- **C191.** The occurrence rates of `get_mfd` in double precision: for a b-value from 0.1, by at least 0.01 below the slope of the moment scaling, bins of width 0.01 to 100 and magnitudes up to 100 there are
computed numbers of earthquakes above the edges of the bins that are positive and decrease strictly, each rate is positive and is the rounded difference of two of them, and the rates of any adjacent
bins add up to the difference for the range of these bins with a relative error of at most 2^-53. -/
theorem C191_rates (el : Spec.Elementary) {msr : Dbl → Option Dbl → Except PyErr Dbl} {slip a : Dbl} {reg : Region Dbl} {f : SimpleFault Dbl} {b : Dbl} {mn mx q : ℚ} {rake : Option Dbl} {scal : Dbl × Dbl} {dl sm : Dbl}
    {rates : List Dbl} (h1 : |mn| ≤ 100) (h2 : |mx| ≤ 100) (hm : mn ≤ mx) (q0 : 1 / 100 ≤ q) (q1 : q ≤ 100) (hb : 1 / 10 ≤ b.val) (hbd : b.val + 1 / 100 ≤ scal.2.val) (hd : scal.2.val ≤ 10)
    (hdl : firstValue reg.dlr = .ok dl) (hsm : firstValue reg.smod = .ok sm) (hdl0 : 0 < dl.val) (hsm0 : 0 < sm.val) (hw : 0 < (getWidth f).val)
    (h : getMfd msr slip a reg f b (Dbl.of mn) (Dbl.of q) (some (Dbl.of mx)) rake scal = .ok rates) :
    (∀ r ∈ rates, 0 < r.val) ∧ ∃ N : ℕ → ℚ, (∀ i ≤ rates.length, 0 < N i) ∧ (∀ i < rates.length, N (i + 1) < N i) ∧ (∀ i (hi : i < rates.length), rates[i].val = rnd53 (N i - N (i + 1))) ∧
      ∀ i k, i + k ≤ rates.length → |((rates.drop i).take k |>.map Dbl.val).sum - (N i - N (i + k))| ≤ (N i - N (i + k)) / 2 ^ 53 := by
  obtain ⟨hs, ha, dl', sm', hdl', hsm', hlen, hr⟩ := mfd_elim h
  obtain rfl : dl = dl' := by rw [hdl] at hdl'; exact Except.ok.inj hdl'
  obtain rfl : sm = sm' := by rw [hsm] at hsm'; exact Except.ok.inj hsm'
  obtain ⟨l1, l2⟩ := el.log_ten
  obtain ⟨b1, b1'⟩ := abs_le.1 h1
  obtain ⟨b2, b2'⟩ := abs_le.1 h2
  have o : ((1.0 : Dbl)).val = 1 := by decide +kernel
  -- slip and slope
  have hs' : 0 < (slip * ((1.0 : Dbl) - a)).val := by
    rw [val_mul, val_sub, o]
    exact rnd_pos (mul_pos hs (rnd_pos (by linarith)))
  have hβ : 0 < (betaOf dl sm (getWidth f) scal.1).val := by
    unfold betaOf
    refine el.sqrt_pos _ ?_
    rw [val_div, val_mul, val_mul, val_mul, val_mul]
    have c1 : 0 < ((1.0e10 : Dbl)).val := by decide +kernel
    have c2 : 0 < ((1e5 : Dbl)).val := by decide +kernel
    exact rnd_pos (div_pos (rnd_pos (mul_pos hdl0 (el.pow_pos _))) (rnd_pos (mul_pos (rnd_pos (mul_pos hsm0 c1)) (rnd_pos (mul_pos hw c2)))))
  generalize slip * ((1.0 : Dbl) - a) = S at *
  generalize betaOf dl sm (getWidth f) scal.1 = β at *
  -- the exponents
  have hbl : 2 / 10 ≤ b.val * (PyMath.log (10.0 : Dbl)).val := by
    have := mul_le_mul hb l1 (by norm_num) (by linarith)
    linarith
  have hbl' : b.val * (PyMath.log (10.0 : Dbl)).val ≤ 30 := by
    have := mul_le_mul (show b.val ≤ 10 by linarith) l2 (by linarith) (by norm_num)
    linarith
  have hB0 : 19 / 100 ≤ (b * PyMath.log (10.0 : Dbl)).val := by
    rw [val_mul]
    have := (rnd_rel (x := b.val * (PyMath.log (10.0 : Dbl)).val) (by linarith)).1
    have h3 := mul_le_mul_of_nonneg_right hbl (show (0 : ℚ) ≤ 1 - 1 / 2 ^ 53 by norm_num)
    norm_num at this h3 ⊢
    linarith
  have hB1 : (b * PyMath.log (10.0 : Dbl)).val ≤ 40 := by
    rw [val_mul]
    have := (rnd_rel (x := b.val * (PyMath.log (10.0 : Dbl)).val) (by linarith)).2
    have h3 := mul_le_mul_of_nonneg_right hbl' (show (0 : ℚ) ≤ 1 + 1 / 2 ^ 53 by norm_num)
    norm_num at this h3 ⊢
    linarith
  have hBD : (b * PyMath.log (10.0 : Dbl)).val < (scal.2 * PyMath.log (10.0 : Dbl)).val := by
    rw [val_mul, val_mul]
    have hbp : 0 < b.val * (PyMath.log (10.0 : Dbl)).val := by linarith
    have := rnd_gap (x := b.val * (PyMath.log (10.0 : Dbl)).val) (y := scal.2.val * (PyMath.log (10.0 : Dbl)).val) (g := 1 / 1000) (g' := 1 / 2000) hbp (by norm_num) (by
      rw [mul_right_comm]
      refine mul_le_mul_of_nonneg_right ?_ (by linarith)
      linarith) (by norm_num) (by norm_num)
    have := rnd_pos hbp
    linarith
  -- the magnitudes
  obtain ⟨eS, eT⟩ := mfd_ends h1 h2 (by linarith) q1
  obtain ⟨X, hX, he⟩ := arangeLen_near (q := q) eS eT (by linarith) (by linarith) (by linarith)
  rw [hX] at hlen
  have hq0 : 0 < q := by linarith
  have hiq : ∀ i : ℕ, i ≤ rates.length → (i : ℚ) * q ≤ 1000 := by
    intro i hi
    have e1 : (mx + 3 / 2 * q - (mn - q / 2)) / q ≤ 400 / q := div_le_div_of_nonneg_right (by linarith) hq0.le
    have e2 : X ≤ 400 / q + 1 := by
      have := (abs_le.1 he).2
      norm_num at this
      linarith
    have e3 : ((⌈X⌉.toNat : ℕ) : ℚ) ≤ 400 / q + 2 := by
      have h4 : (0 : ℚ) ≤ 400 / q := by positivity
      rcases le_total 0 ⌈X⌉ with h5 | h5
      · have h6 : ((⌈X⌉.toNat : ℕ) : ℤ) = ⌈X⌉ := Int.toNat_of_nonneg h5
        have h7 : ((⌈X⌉.toNat : ℕ) : ℚ) = (⌈X⌉ : ℚ) := by exact_mod_cast h6
        rw [h7]
        linarith [Int.ceil_lt_add_one X]
      · rw [Int.toNat_of_nonpos h5]
        norm_num
        linarith
    have e4 : (i : ℚ) ≤ 400 / q + 2 := by
      refine le_trans ?_ e3
      have : i ≤ ⌈X⌉.toNat := by omega
      exact_mod_cast this
    have e5 := mul_le_mul_of_nonneg_right e4 hq0.le
    have e6 : (400 / q + 2) * q = 400 + 2 * q := by field_simp
    linarith
  have hS200 : |(Dbl.of mn - Dbl.of q / (2.0 : Dbl)).val| ≤ 200 := by
    obtain ⟨s1, s2⟩ := abs_le.1 eS
    norm_num at s1 s2
    rw [abs_le]
    constructor <;> linarith
  have hD : |(Dbl.of q).val - q| ≤ 1 / 10 ^ 11 := (of_near (B := 100) (abs_le.2 ⟨by linarith, q1⟩)).trans (by norm_num)
  have hst := fun i hi => arange_step hS200 hD q0 q1 (hiq i hi)
  generalize Dbl.of mn - Dbl.of q / (2.0 : Dbl) = s at *
  have hmx : |(Dbl.of mx).val| ≤ 110 := by
    have := (abs_le.1 (of_near h2))
    norm_num at this
    rw [abs_le]
    constructor <;> linarith
  have hbnd : ∀ i ≤ rates.length, |(arangeAt s (Dbl.of q) i).val| ≤ 1500 := by
    intro i hi
    obtain ⟨s1, s2⟩ := abs_le.1 (hst i hi)
    obtain ⟨s3, s4⟩ := abs_le.1 hS200
    have := hiq i hi
    have h0 : 0 ≤ (i : ℚ) * q := mul_nonneg (by positivity) hq0.le
    norm_num at s1 s2
    rw [abs_le]
    constructor <;> linarith
  have hgap : ∀ i < rates.length, (arangeAt s (Dbl.of q) i).val + 99 / 10000 ≤ (arangeAt s (Dbl.of q) (i + 1)).val := by
    intro i hi
    obtain ⟨s1, s2⟩ := abs_le.1 (hst i hi.le)
    obtain ⟨s3, s4⟩ := abs_le.1 (hst (i + 1) hi)
    push_cast at s3 s4
    norm_num at s1 s2 s3 s4
    linarith
  obtain ⟨N, hN⟩ : ∃ N : ℕ → ℚ, N = fun i => (cumulativeValue S (Dbl.of mx) (arangeAt s (Dbl.of q) i) (b * PyMath.log 10.0) (scal.2 * PyMath.log 10.0) β).val := ⟨_, rfl⟩
  have hstep : ∀ i < rates.length, 0 < N (i + 1) ∧ N (i + 1) < N i := by
    intro i hi
    rw [hN]
    exact cumulative_gap el hs' hβ hB0 hB1 hBD hmx ((hbnd i hi.le).trans (by norm_num)) ((hbnd (i + 1) hi).trans (by norm_num)) (hgap i hi)
  have hval : ∀ i (hi : i < rates.length), rates[i].val = rnd53 (N i - N (i + 1)) := by
    intro i hi
    rw [hr i hi, val_sub, hN]
  refine ⟨?_, ?_⟩
  · intro r hrm
    obtain ⟨i, hi, rfl⟩ := List.getElem_of_mem hrm
    rw [hval i hi]
    exact rnd_pos (by linarith [hstep i hi])
  · refine ⟨N, ?_, fun i hi => (hstep i hi).2, hval, ?_⟩
    · intro i hi
      rw [hN]
      have e : (((-1990 : ℤ) : Dbl)).val = -1990 := by rw [val_int_exact (by norm_num)]; norm_num
      refine (cumulative_gap el (m := ((-1990 : ℤ) : Dbl)) hs' hβ hB0 hB1 hBD hmx (by rw [e]; norm_num) ((hbnd i hi).trans (by norm_num)) ?_).1
      have := (abs_le.1 (hbnd i hi)).1
      rw [e]
      linarith
    · intro i k
      induction k with
      | zero => intro _; simp
      | succ k ih =>
        intro hik
        have hk := ih (by omega)
        have hlt : i + k < rates.length := by omega
        have e : (rates.drop i).take (k + 1) = (rates.drop i).take k ++ [rates[i + k]] := by
          rw [List.take_add_one, List.getElem?_drop, List.getElem?_eq_getElem hlt]
          rfl
        rw [e, List.map_append, List.sum_append]
        simp only [List.map_cons, List.map_nil, List.sum_cons, List.sum_nil, add_zero]
        rw [hval _ hlt]
        have hd := rnd53_error (N (i + k) - N (i + k + 1))
        rw [abs_of_pos (a := N (i + k) - N (i + k + 1)) (by linarith [(hstep _ hlt).2])] at hd
        have e2 : (((rates.drop i).take k).map Dbl.val).sum + rnd53 (N (i + k) - N (i + k + 1)) - (N i - N (i + (k + 1))) =
            ((((rates.drop i).take k).map Dbl.val).sum - (N i - N (i + k))) + (rnd53 (N (i + k) - N (i + k + 1)) - (N (i + k) - N (i + k + 1))) := by
          rw [← add_assoc]; ring
        rw [e2]
        refine (abs_add_le _ _).trans ((add_le_add hk hd).trans (le_of_eq ?_))
        rw [← add_assoc]
        ring

/-! ### An example -/

/-- Elementary functions for the example. -/
@[reducible] def stepLibm : Libm := ⟨fun x => .of ((2 : ℚ) ^ ⌊1000 * x.val⌋), fun _ => .of 2, id, fun _ => .of 1, id, id, fun x _ => x, fun _ _ => .of 1, .of 3⟩

omit [Libm] in
theorem stepLibm_elementary : @Spec.Elementary stepLibm := by
  let _ := stepLibm
  have one : (0 : ℚ) < (Dbl.of 1).val := by decide +kernel
  refine ⟨?_, fun _ _ => one, fun _ => one, fun x => rnd_pos (by positivity), fun x y h => ?_⟩
  · show 2 ≤ (Dbl.of 2).val ∧ (Dbl.of 2).val ≤ 3
    decide +kernel
  · show rnd53 ((2 : ℚ) ^ ⌊1000 * x.val⌋) * (1 + 1 / 10000) ≤ rnd53 ((2 : ℚ) ^ ⌊1000 * y.val⌋)
    refine rnd_gap (g := 1) (by positivity) (by norm_num) ?_ (by norm_num) (by norm_num)
    have h1 : ⌊1000 * x.val⌋ + 1 ≤ ⌊1000 * y.val⌋ := by
      rw [← Int.floor_add_one]
      exact Int.floor_le_floor (by linarith)
    have h2 := zpow_le_zpow_right₀ (show (1 : ℚ) ≤ 2 by norm_num) h1
    rw [zpow_add₀ (by norm_num), zpow_one] at h2
    linarith

/-- Non-vacuity of C191: eleven rates between the magnitudes 4 and 5 (the computed number of bins, see `C168_fails`). -/
example : ∃ rates : List Dbl, @getMfd Dbl (@instPyMathDbl stepLibm) (fun _ _ => .error .typeError) (.of 1) (.of 0) ⟨"001", single "WC1994", single (.of 30), single (.of 1)⟩ ⟨[], .of 0, .of 10, .of 90⟩ (.of 1)
      (.of 4) (.of 0.1) (some (.of 5)) none (.of 16, .of 1.5) = .ok rates ∧ rates.length = 11 ∧ ∀ r ∈ rates, 0 < r.val := by
  let _ := stepLibm
  obtain ⟨rates, h⟩ : ∃ rates, getMfd (fun _ _ => .error .typeError) (Dbl.of 1) (Dbl.of 0) ⟨"001", single "WC1994", single (Dbl.of 30), single (Dbl.of 1)⟩ ⟨[], .of 0, .of 10, .of 90⟩ (Dbl.of 1)
      (Dbl.of 4) (Dbl.of 0.1) (some (Dbl.of 5)) none (.of 16, .of 1.5) = .ok rates := by
    unfold getMfd
    rw [if_neg (not_not.2 (show ((0 : ℕ) : Dbl) < Dbl.of 1 by decide +kernel)),
      if_neg (not_not.2 (show (0.0 : Dbl) ≤ Dbl.of 0 ∧ Dbl.of 0 < (1.0 : Dbl) from ⟨by decide +kernel, by decide +kernel⟩))]
    have hne : PyNum.decEq (Dbl.of 0.1) 0 = false := by decide +kernel
    simp [bind, Except.bind, resolveMax, firstValue, single, WDict.getVals, pure, Except.pure, arange, hne]
  refine ⟨rates, h, by rw [mfd_length h, thirteen_edges], ?_⟩
  exact (C191_rates stepLibm_elementary (by norm_num) (by norm_num) (by norm_num) (by norm_num) (by norm_num) (by decide +kernel) (by decide +kernel) (by decide +kernel)
    rfl rfl (by decide +kernel) (by decide +kernel) (by decide +kernel) h).1

end Verif.Fault
