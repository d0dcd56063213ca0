import Verif.Props.Mfd
import Mathlib.Analysis.Convex.Deriv
import Mathlib.Analysis.SpecialFunctions.Trigonometric.DerivHyp

/-! # C113: the rates of `get_mfd` release the moment supplied by the slip -/

namespace Verif.Fault

open Verif Verif.Np

/-! ### Specification -/

/-- Seismic moment (dyne cm) of an event of magnitude `m`, for the scaling `(c, d)`. -/
noncomputable def Spec.moment (c d m : ℝ) : ℝ := 10 ^ (c + d * m)

/-- Moment (dyne cm) of a dislocation by `disp` (cm) of a rectangle of length `len` (cm) and width `w` (km) in rock with shear modulus `smod` (GPa). -/
noncomputable def Spec.dislocation (smod w len disp : ℝ) : ℝ := smod * 1e10 * (w * 1e5) * len * disp

/-- Moment per year released by the rates, if the events of bin `i` have magnitude `mag i`. -/
noncomputable def Spec.released (c d : ℝ) (rates : List ℝ) (mag : ℕ → ℝ) : ℝ := ∑ i : Fin rates.length, rates[i] * Spec.moment c d (mag i)

/-! ### Lemmas -/

theorem moment_shift (c d m x : ℝ) : Spec.moment c d x = Spec.moment c d m * 10 ^ (d * (x - m)) := by
  unfold Spec.moment
  rw [← Real.rpow_add (by norm_num)]
  congr 1; ring

/-- The cumulative rate in terms of the length of the largest rupture. -/
theorem rateAbove_length {slip dlr smod w b c d mmax len : ℝ} (hd : 0 < dlr) (hs : 0 < smod) (hw : 0 < w) (hl : 0 < len)
    (hL : Spec.moment c d mmax = Spec.dislocation smod w len (dlr * len)) (m : ℝ) :
    Spec.rateAbove slip dlr smod w b c d mmax m = (d - b) / b * (slip / 10 / (dlr * len)) * 10 ^ (b * (mmax - m)) := by
  have hc : (10 : ℝ) ^ c = Spec.dislocation smod w len (dlr * len) * (10 ^ (-(d / 2) * mmax)) ^ 2 := by
    rw [← hL, Spec.moment, ← Real.rpow_natCast, ← Real.rpow_mul (by norm_num), ← Real.rpow_add (by norm_num)]
    congr 1; push_cast; ring
  have hp : (0 : ℝ) < 10 ^ (-(d / 2) * mmax) := by positivity
  have hb : Real.sqrt (dlr * 10 ^ c / (smod * 1e10 * (w * 1e5))) = dlr * len * 10 ^ (-(d / 2) * mmax) := by
    rw [hc, Spec.dislocation]
    generalize (10 : ℝ) ^ (-(d / 2) * mmax) = p at hp ⊢
    rw [show dlr * (smod * 1e10 * (w * 1e5) * len * (dlr * len) * p ^ 2) / (smod * 1e10 * (w * 1e5)) = (dlr * len * p) ^ 2 by field_simp]
    exact Real.sqrt_sq (by positivity)
  unfold Spec.rateAbove
  rw [hb]
  generalize (10 : ℝ) ^ (-(d / 2) * mmax) = p at hp ⊢
  field_simp

/-- Moment released by the events of one bin, for any choice of magnitude. -/
theorem bin_moment {slip dlr smod w b c d mmax len : ℝ} (hd : 0 < dlr) (hs : 0 < smod) (hw : 0 < w) (hl : 0 < len)
    (hL : Spec.moment c d mmax = Spec.dislocation smod w len (dlr * len)) (x y m : ℝ) :
    (Spec.rateAbove slip dlr smod w b c d mmax x - Spec.rateAbove slip dlr smod w b c d mmax y) * Spec.moment c d m =
      (d - b) / b * Spec.dislocation smod w len (slip / 10) * ((10 ^ (b * (mmax - x)) - 10 ^ (b * (mmax - y))) * 10 ^ (d * (m - mmax))) := by
  rw [rateAbove_length hd hs hw hl hL, rateAbove_length hd hs hw hl hL, moment_shift c d mmax m, hL]
  unfold Spec.dislocation
  generalize (10 : ℝ) ^ (b * (mmax - x)) = p
  generalize (10 : ℝ) ^ (b * (mmax - y)) = q
  generalize (10 : ℝ) ^ (d * (m - mmax)) = r
  field_simp

theorem ten_rpow_ge (x : ℝ) : 1 + x * Real.log 10 ≤ 10 ^ x := by
  rw [← exp_log_ten]
  linarith [Real.add_one_le_exp (x * Real.log 10)]

/-- Lower end of a bin: at most the integral over the bin. -/
theorem lower_le {b d u v : ℝ} (hb : 0 < b) (hbd : b < d) :
    (d - b) / b * ((10 ^ (-b * u) - 10 ^ (-b * v)) * (10 : ℝ) ^ (d * u)) ≤ 10 ^ ((d - b) * v) - 10 ^ ((d - b) * u) := by
  have e1 : (10 : ℝ) ^ (-b * u) = 10 ^ ((d - b) * u) * 10 ^ (-(d * u)) := by rw [← Real.rpow_add (by norm_num)]; congr 1; ring
  have e2 : (10 : ℝ) ^ (-b * v) = 10 ^ ((d - b) * u) * 10 ^ (-(d * u)) * 10 ^ (-b * (v - u)) := by
    rw [← Real.rpow_add (by norm_num), ← Real.rpow_add (by norm_num)]; congr 1; ring
  have e3 : (10 : ℝ) ^ ((d - b) * v) = 10 ^ ((d - b) * u) * 10 ^ ((d - b) * (v - u)) := by
    rw [← Real.rpow_add (by norm_num)]; congr 1; ring
  have e4 : (10 : ℝ) ^ (-(d * u)) * 10 ^ (d * u) = 1 := by rw [← Real.rpow_add (by norm_num)]; simp
  have h1 := ten_rpow_ge (-b * (v - u))
  have h2 := ten_rpow_ge ((d - b) * (v - u))
  have hp : (0 : ℝ) < 10 ^ ((d - b) * u) := by positivity
  rw [e1, e2, e3, show ∀ p q r s : ℝ, (p * q - p * q * r) * s = p * (1 - r) * (q * s) by intros; ring, e4, mul_one]
  have h3 : (d - b) / b * (1 - (10 : ℝ) ^ (-b * (v - u))) ≤ (10 : ℝ) ^ ((d - b) * (v - u)) - 1 := by
    have : (d - b) / b * (1 - (10 : ℝ) ^ (-b * (v - u))) ≤ (d - b) / b * (b * (v - u) * Real.log 10) :=
      mul_le_mul_of_nonneg_left (by linarith) (div_nonneg (by linarith) hb.le)
    have h4 : (d - b) / b * (b * (v - u) * Real.log 10) = (d - b) * (v - u) * Real.log 10 := by field_simp
    linarith
  nlinarith

/-- Upper end of a bin: at least the integral over the bin. -/
theorem le_upper {b d u v : ℝ} (hb : 0 < b) (hbd : b < d) :
    10 ^ ((d - b) * v) - 10 ^ ((d - b) * u) ≤ (d - b) / b * ((10 ^ (-b * u) - 10 ^ (-b * v)) * (10 : ℝ) ^ (d * v)) := by
  have e1 : (10 : ℝ) ^ (-b * v) = 10 ^ ((d - b) * v) * 10 ^ (-(d * v)) := by rw [← Real.rpow_add (by norm_num)]; congr 1; ring
  have e2 : (10 : ℝ) ^ (-b * u) = 10 ^ ((d - b) * v) * 10 ^ (-(d * v)) * 10 ^ (b * (v - u)) := by
    rw [← Real.rpow_add (by norm_num), ← Real.rpow_add (by norm_num)]; congr 1; ring
  have e3 : (10 : ℝ) ^ ((d - b) * u) = 10 ^ ((d - b) * v) * 10 ^ (-(d - b) * (v - u)) := by
    rw [← Real.rpow_add (by norm_num)]; congr 1; ring
  have e4 : (10 : ℝ) ^ (-(d * v)) * 10 ^ (d * v) = 1 := by rw [← Real.rpow_add (by norm_num)]; simp
  have h1 := ten_rpow_ge (b * (v - u))
  have h2 := ten_rpow_ge (-(d - b) * (v - u))
  have hp : (0 : ℝ) < 10 ^ ((d - b) * v) := by positivity
  rw [e1, e2, e3, show ∀ p q r s : ℝ, (p * q * r - p * q) * s = p * (r - 1) * (q * s) by intros; ring, e4, mul_one]
  have h3 : 1 - (10 : ℝ) ^ (-(d - b) * (v - u)) ≤ (d - b) / b * ((10 : ℝ) ^ (b * (v - u)) - 1) := by
    have : (d - b) / b * (b * (v - u) * Real.log 10) ≤ (d - b) / b * ((10 : ℝ) ^ (b * (v - u)) - 1) :=
      mul_le_mul_of_nonneg_left (by linarith) (div_nonneg (by linarith) hb.le)
    have h4 : (d - b) / b * (b * (v - u) * Real.log 10) = (d - b) * (v - u) * Real.log 10 := by field_simp
    linarith
  nlinarith

/-- What the theorems below assume: a region and a fault that were constructed, a b-value between 0 and the slope of the scaling, bins of positive width, and the length `len` (cm) of a rupture with the
moment of the maximum magnitude and the displacement length ratio of the region. -/
structure Spec.Setting (msr : ℝ → Option ℝ → Except PyErr ℝ) (reg : Region ℝ) (f : SimpleFault ℝ) (b bw : ℝ) (mx rake : Option ℝ) (scal : ℝ × ℝ) (sm dl mmax len : ℝ) : Prop where
  fault : ∃ trace upp low dip, mkFault trace upp low dip = .ok f
  region : ∃ id dm ds dd, mkRegion id dm ds dd = .ok reg
  shear : firstValue reg.smod = .ok sm
  ratio : firstValue reg.dlr = .ok dl
  maximum : resolveMax msr f mx rake = .ok mmax
  b_pos : 0 < b
  b_lt : b < scal.2
  width : 0 < bw
  length : 0 < len
  rupture : Spec.moment scal.1 scal.2 mmax = Spec.dislocation sm (getWidth f) len (dl * len)

section
variable {msr : ℝ → Option ℝ → Except PyErr ℝ} {slip a b mn bw mmax sm dl len : ℝ} {reg : Region ℝ} {f : SimpleFault ℝ} {mx rake : Option ℝ} {scal : ℝ × ℝ} {rates : List ℝ}

theorem supply_pos (hS : Spec.Setting msr reg f b bw mx rake scal sm dl mmax len) (h : getMfd msr slip a reg f b mn bw mx rake scal = .ok rates) :
    0 < Spec.dislocation sm (getWidth f) len (slip * (1 - a) / 10) := by
  obtain ⟨_, _, _, _, hf⟩ := hS.fault
  obtain ⟨_, _, _, _, hr⟩ := hS.region
  have hwf := width_pos hf
  obtain ⟨sm', dl', hsm', hdl', psm, pdl⟩ := C78_first_values hr
  rw [hS.shear] at hsm'
  obtain rfl := Except.ok.inj hsm'
  have hs : 0 < slip := by
    by_contra hn
    rw [C82_refused (Or.inl (by simpa using hn))] at h
    simp at h
  have ha : a < 1 := by
    by_contra hn
    rw [C82_refused (Or.inr (Or.inr (by intro hc; norm_num at hc; exact hn hc)))] at h
    simp at h
  have : 0 < 1 - a := by linarith
  have := hS.length
  simp only [Spec.dislocation]; positivity

/-- The released moment, bin by bin. -/
theorem released_eq (hS : Spec.Setting msr reg f b bw mx rake scal sm dl mmax len) (h : getMfd msr slip a reg f b mn bw mx rake scal = .ok rates) (mag : ℕ → ℝ) :
    Spec.released scal.1 scal.2 rates mag = ∑ i ∈ Finset.range rates.length, Spec.dislocation sm (getWidth f) len (slip * (1 - a) / 10) *
      ((scal.2 - b) / b * ((10 ^ (-b * (mn - bw / 2 + (i : ℝ) * bw - mmax)) - 10 ^ (-b * (mn - bw / 2 + ((i + 1 : ℕ) : ℝ) * bw - mmax))) * 10 ^ (scal.2 * (mag i - mmax)))) := by
  obtain ⟨_, _, _, _, hf⟩ := hS.fault
  obtain ⟨_, _, _, _, hr⟩ := hS.region
  have hwf := width_pos hf
  obtain ⟨sm', dl', hsm', hdl', psm, pdl⟩ := C78_first_values hr
  rw [hS.shear] at hsm'; rw [hS.ratio] at hdl'
  obtain rfl := Except.ok.inj hsm'
  obtain rfl := Except.ok.inj hdl'
  obtain ⟨_, h2, _, _⟩ := C81_telescope hS.width hS.shear hS.ratio hS.maximum h
  rw [← Fin.sum_univ_eq_sum_range (fun i : ℕ => Spec.dislocation sm (getWidth f) len (slip * (1 - a) / 10) *
      ((scal.2 - b) / b * ((10 ^ (-b * (mn - bw / 2 + (i : ℝ) * bw - mmax)) - 10 ^ (-b * (mn - bw / 2 + ((i + 1 : ℕ) : ℝ) * bw - mmax))) * (10 : ℝ) ^ (scal.2 * (mag i - mmax)))))]
  refine Finset.sum_congr rfl fun i _ => ?_
  rw [Fin.getElem_fin, h2 i i.2, bin_moment pdl psm hwf hS.length hS.rupture,
    show b * (mmax - (mn - bw / 2 + (i : ℕ) * bw)) = -b * (mn - bw / 2 + (i : ℕ) * bw - mmax) by ring,
    show b * (mmax - (mn + bw / 2 + (i : ℕ) * bw)) = -b * (mn - bw / 2 + ((i + 1 : ℕ) : ℝ) * bw - mmax) by push_cast; ring]
  ring

/-- The part of the supply in a range of bins. -/
theorem part_eq (s e b' w : ℝ) (n : ℕ) : s * ((10 : ℝ) ^ (b' * (e + n * w)) - 10 ^ (b' * e)) =
    ∑ i ∈ Finset.range n, s * ((10 : ℝ) ^ (b' * (e + ((i + 1 : ℕ) : ℝ) * w)) - 10 ^ (b' * (e + (i : ℝ) * w))) := by
  rw [← Finset.mul_sum, Finset.sum_range_sub (fun i : ℕ => (10 : ℝ) ^ (b' * (e + (i : ℝ) * w)))]
  simp

/-- **C113**: the seismic moment released per year by the returned rates.  The slip (less its aseismic part) supplies the moment of a dislocation of the length `len`.  The released moment is at most, with the
magnitudes at the lower ends of the bins, and at least, with the magnitudes at the upper ends, the part of the supply that Anderson and Luco's density assigns to the range of the bins. -/
theorem C113_balance (hS : Spec.Setting msr reg f b bw mx rake scal sm dl mmax len) (h : getMfd msr slip a reg f b mn bw mx rake scal = .ok rates) :
    let supply := Spec.dislocation sm (getWidth f) len (slip * (1 - a) / 10)
    let part := 10 ^ ((scal.2 - b) * (mn - bw / 2 - mmax + rates.length * bw)) - 10 ^ ((scal.2 - b) * (mn - bw / 2 - mmax))
    Spec.released scal.1 scal.2 rates (fun i => mn - bw / 2 + i * bw) ≤ supply * part ∧
      supply * part ≤ Spec.released scal.1 scal.2 rates (fun i => mn + bw / 2 + i * bw) := by
  intro supply part
  have hsup : 0 ≤ supply := (supply_pos hS h).le
  simp only [part]
  rw [part_eq, released_eq hS h, released_eq hS h]
  constructor
  · refine Finset.sum_le_sum fun i _ => mul_le_mul_of_nonneg_left ?_ hsup
    rw [show mn - bw / 2 - mmax + ((i + 1 : ℕ) : ℝ) * bw = mn - bw / 2 + ((i + 1 : ℕ) : ℝ) * bw - mmax by ring, show mn - bw / 2 - mmax + (i : ℝ) * bw = mn - bw / 2 + (i : ℝ) * bw - mmax by ring]
    exact lower_le hS.b_pos hS.b_lt
  · refine Finset.sum_le_sum fun i _ => mul_le_mul_of_nonneg_left ?_ hsup
    rw [show mn - bw / 2 - mmax + ((i + 1 : ℕ) : ℝ) * bw = mn - bw / 2 + ((i + 1 : ℕ) : ℝ) * bw - mmax by ring, show mn - bw / 2 - mmax + (i : ℝ) * bw = mn - bw / 2 + (i : ℝ) * bw - mmax by ring,
      show mn + bw / 2 + (i : ℝ) * bw - mmax = mn - bw / 2 + ((i + 1 : ℕ) : ℝ) * bw - mmax by push_cast; ring]
    exact le_upper hS.b_pos hS.b_lt

/-- **C113**: both bounds differ by the factor `10^(d w)`, so the released moment is known to that accuracy. -/
theorem C113_accuracy (hS : Spec.Setting msr reg f b bw mx rake scal sm dl mmax len) (h : getMfd msr slip a reg f b mn bw mx rake scal = .ok rates) :
    Spec.released scal.1 scal.2 rates (fun i => mn + bw / 2 + i * bw) = 10 ^ (scal.2 * bw) * Spec.released scal.1 scal.2 rates (fun i => mn - bw / 2 + i * bw) := by
  rw [released_eq hS h, released_eq hS h, Finset.mul_sum]
  refine Finset.sum_congr rfl fun i _ => ?_
  rw [show scal.2 * (mn + bw / 2 + (i : ℝ) * bw - mmax) = scal.2 * bw + scal.2 * (mn - bw / 2 + (i : ℝ) * bw - mmax) by ring, Real.rpow_add (by norm_num)]
  ring

/-- `10^x - 10^(-x)`. -/
noncomputable def sh (x : ℝ) : ℝ := 10 ^ x - 10 ^ (-x)

theorem sh_eq (x : ℝ) : sh x = 2 * Real.sinh (x * Real.log 10) := by
  rw [sh, ← exp_log_ten, ← exp_log_ten, Real.sinh_eq, neg_mul]; ring

theorem sh_ge {x : ℝ} (hx : 0 ≤ x) : 2 * (x * Real.log 10) ≤ sh x := by
  rw [sh_eq]
  have := Real.self_le_sinh_iff.mpr (mul_nonneg hx (Real.log_nonneg (by norm_num : (1 : ℝ) ≤ 10)))
  linarith

theorem sh_pos {x : ℝ} (hx : 0 < x) : 0 < sh x := by
  rw [sh_eq]
  have := Real.sinh_pos_iff.mpr (mul_pos hx (Real.log_pos (by norm_num : (1 : ℝ) < 10)))
  linarith

theorem convexOn_sinh : ConvexOn ℝ (Set.Ici 0) Real.sinh := by
  refine convexOn_of_deriv2_nonneg (convex_Ici 0) Real.continuous_sinh.continuousOn Real.differentiable_sinh.differentiableOn ?_ ?_
  · rw [Real.deriv_sinh]; exact Real.differentiable_cosh.differentiableOn
  · intro x hx
    rw [interior_Ici, Set.mem_Ioi] at hx
    simp only [Function.iterate_succ, Function.iterate_zero, Function.comp, id, Real.deriv_sinh, Real.deriv_cosh]
    exact (Real.sinh_pos_iff.mpr hx).le

/-- `sh x / x` is monotone. -/
theorem sh_ratio {x y : ℝ} (hx : 0 < x) (hxy : x ≤ y) : y * sh x ≤ x * sh y := by
  have hl : 0 < Real.log 10 := Real.log_pos (by norm_num)
  have hy : 0 < y := hx.trans_le hxy
  have h0 : (0 : ℝ) ≤ 1 - x / y := by rw [sub_nonneg, div_le_one hy]; exact hxy
  have := convexOn_sinh.2 (show y * Real.log 10 ∈ Set.Ici (0 : ℝ) from (by rw [Set.mem_Ici]; positivity)) (show (0 : ℝ) ∈ Set.Ici (0 : ℝ) from (by simp))
    (show (0 : ℝ) ≤ x / y by positivity) h0 (by ring)
  simp only [smul_eq_mul, mul_zero, add_zero, Real.sinh_zero] at this
  rw [show x / y * (y * Real.log 10) = x * Real.log 10 by field_simp] at this
  have h2 := mul_le_mul_of_nonneg_left this hy.le
  rw [show y * (x / y * Real.sinh (y * Real.log 10)) = x * Real.sinh (y * Real.log 10) by field_simp] at h2
  rw [sh_eq, sh_eq]
  linarith

/-- Lower end of a bin, compared with the integral over the bin moved down by half its width. -/
theorem lower_le_half {b d u w : ℝ} (hb : 0 < b) (hbd : b < d) (hw : 0 < w) :
    (d - b) / b * ((10 ^ (-b * u) - 10 ^ (-b * (u + w))) * (10 : ℝ) ^ (d * u)) ≤ 10 ^ ((d - b) * (u + w / 2)) - 10 ^ ((d - b) * (u - w / 2)) := by
  have e1 : (10 : ℝ) ^ (-b * u) * 10 ^ (d * u) = 10 ^ ((d - b) * u) := by rw [← Real.rpow_add (by norm_num)]; congr 1; ring
  have e2 : (10 : ℝ) ^ (-b * (u + w)) * 10 ^ (d * u) = 10 ^ ((d - b) * u) * 10 ^ (-b * w) := by
    rw [← Real.rpow_add (by norm_num), ← Real.rpow_add (by norm_num)]; congr 1; ring
  have e3 : (10 : ℝ) ^ ((d - b) * (u + w / 2)) = 10 ^ ((d - b) * u) * 10 ^ ((d - b) * (w / 2)) := by
    rw [← Real.rpow_add (by norm_num)]; congr 1; ring
  have e4 : (10 : ℝ) ^ ((d - b) * (u - w / 2)) = 10 ^ ((d - b) * u) * 10 ^ (-((d - b) * (w / 2))) := by
    rw [← Real.rpow_add (by norm_num)]; congr 1; ring
  rw [sub_mul, e1, e2, e3, e4, ← mul_sub, show ∀ p q r : ℝ, r * (p - p * q) = p * (r * (1 - q)) by intros; ring]
  refine mul_le_mul_of_nonneg_left ?_ (by positivity)
  have h1 := ten_rpow_ge (-b * w)
  have h2 := sh_ge (x := (d - b) * (w / 2)) (mul_nonneg (by linarith) (by linarith))
  have : (d - b) / b * (1 - (10 : ℝ) ^ (-b * w)) ≤ (d - b) / b * (b * w * Real.log 10) :=
    mul_le_mul_of_nonneg_left (by linarith) (div_nonneg (by linarith) hb.le)
  have h4 : (d - b) / b * (b * w * Real.log 10) = 2 * ((d - b) * (w / 2) * Real.log 10) := by field_simp
  rw [sh] at h2
  linarith

/-- **C113**: with the magnitudes at the lower ends of the bins the rates release less than the slip supplies, whatever the minimum magnitude, the width and the number of the bins. -/
theorem C113_below_supply (hS : Spec.Setting msr reg f b bw mx rake scal sm dl mmax len) (h : getMfd msr slip a reg f b mn bw mx rake scal = .ok rates) :
    Spec.released scal.1 scal.2 rates (fun i => mn - bw / 2 + i * bw) < Spec.dislocation sm (getWidth f) len (slip * (1 - a) / 10) := by
  have hsup := supply_pos hS h
  have hd : 0 < scal.2 - b := by linarith [hS.b_lt]
  obtain ⟨h1, _⟩ := C81_telescope hS.width hS.shear hS.ratio hS.maximum h
  by_cases hn : rates = []
  · subst hn
    simpa [Spec.released] using hsup
  have hpos : 0 < rates.length := List.length_pos_iff.mpr hn
  have hlast := (h1 (rates.length - 1)).mp (by omega)
  rw [Nat.cast_sub (by omega), Nat.cast_one] at hlast
  have hle : Spec.released scal.1 scal.2 rates (fun i => mn - bw / 2 + i * bw) ≤ Spec.dislocation sm (getWidth f) len (slip * (1 - a) / 10) *
      ((10 : ℝ) ^ ((scal.2 - b) * (mn - bw - mmax + rates.length * bw)) - 10 ^ ((scal.2 - b) * (mn - bw - mmax))) := by
    rw [part_eq, released_eq hS h]
    refine Finset.sum_le_sum fun i _ => mul_le_mul_of_nonneg_left ?_ hsup.le
    have := lower_le_half hS.b_pos hS.b_lt hS.width (u := mn - bw / 2 + (i : ℝ) * bw - mmax)
    rw [show mn - bw / 2 + (i : ℝ) * bw - mmax + bw = mn - bw / 2 + ((i + 1 : ℕ) : ℝ) * bw - mmax by push_cast; ring,
      show mn - bw / 2 + (i : ℝ) * bw - mmax + bw / 2 = mn - bw - mmax + ((i + 1 : ℕ) : ℝ) * bw by push_cast; ring,
      show mn - bw / 2 + (i : ℝ) * bw - mmax - bw / 2 = mn - bw - mmax + (i : ℝ) * bw by ring] at this
    exact this
  refine hle.trans_lt ?_
  have h2 : (10 : ℝ) ^ ((scal.2 - b) * (mn - bw - mmax + rates.length * bw)) ≤ 1 :=
    Real.rpow_le_one_of_one_le_of_nonpos (by norm_num) (mul_nonpos_of_nonneg_of_nonpos hd.le (by linarith))
  have h3 : (0 : ℝ) < 10 ^ ((scal.2 - b) * (mn - bw - mmax)) := by positivity
  nlinarith

/-- **C114**: with the magnitudes at the centres of the bins, as in an evenly discretised distribution that starts at `minMag`, the released moment is the supply of the range of the bins times a factor that
depends on the b-value and the width of the bins only. -/
theorem C114_centres_partial (hS : Spec.Setting msr reg f b bw mx rake scal sm dl mmax len) (h : getMfd msr slip a reg f b mn bw mx rake scal = .ok rates) :
    Spec.released scal.1 scal.2 rates (fun i => mn + i * bw) = Spec.dislocation sm (getWidth f) len (slip * (1 - a) / 10) *
      (10 ^ ((scal.2 - b) * (mn - bw / 2 - mmax + rates.length * bw)) - 10 ^ ((scal.2 - b) * (mn - bw / 2 - mmax))) *
      ((scal.2 - b) * Real.sinh (b * bw / 2 * Real.log 10) / (b * Real.sinh ((scal.2 - b) * bw / 2 * Real.log 10))) := by
  have hd : 0 < scal.2 - b := by linarith [hS.b_lt]
  have hw := hS.width
  have hb := hS.b_pos
  have hsh : Real.sinh ((scal.2 - b) * bw / 2 * Real.log 10) ≠ 0 := by
    refine (Real.sinh_pos_iff.mpr ?_).ne'
    have : 0 < Real.log 10 := Real.log_pos (by norm_num)
    positivity
  rw [part_eq, released_eq hS h, Finset.sum_mul]
  refine Finset.sum_congr rfl fun i _ => ?_
  set u := mn - mmax + (i : ℝ) * bw with hu
  have e1 : ((10 : ℝ) ^ (-b * (mn - bw / 2 + (i : ℝ) * bw - mmax)) - 10 ^ (-b * (mn - bw / 2 + ((i + 1 : ℕ) : ℝ) * bw - mmax))) * 10 ^ (scal.2 * (mn + (i : ℝ) * bw - mmax)) =
      10 ^ ((scal.2 - b) * u) * (2 * Real.sinh (b * bw / 2 * Real.log 10)) := by
    rw [← sh_eq, sh, mul_sub (10 ^ ((scal.2 - b) * u) : ℝ), sub_mul (10 ^ (-b * (mn - bw / 2 + (i : ℝ) * bw - mmax)) : ℝ), ← Real.rpow_add (by norm_num), ← Real.rpow_add (by norm_num),
      ← Real.rpow_add (by norm_num), ← Real.rpow_add (by norm_num)]
    congr 2 <;> (rw [hu]; push_cast; ring)
  have e2 : (10 : ℝ) ^ ((scal.2 - b) * (mn - bw / 2 - mmax + ((i + 1 : ℕ) : ℝ) * bw)) - 10 ^ ((scal.2 - b) * (mn - bw / 2 - mmax + (i : ℝ) * bw)) =
      10 ^ ((scal.2 - b) * u) * (2 * Real.sinh ((scal.2 - b) * bw / 2 * Real.log 10)) := by
    rw [← sh_eq, sh, mul_sub (10 ^ ((scal.2 - b) * u) : ℝ), ← Real.rpow_add (by norm_num), ← Real.rpow_add (by norm_num)]
    congr 2 <;> (rw [hu]; push_cast; ring)
  rw [e1, e2]
  field_simp

/-- **C114**: the released moment is below the supply when the range is a whole number of bins and the b-value is at most half the slope of the scaling (0.75 by default). -/
theorem C114_below_supply_partial (hS : Spec.Setting msr reg f b bw mx rake scal sm dl mmax len) (h : getMfd msr slip a reg f b mn bw mx rake scal = .ok rates)
    (k : ℕ) (hk : mmax = mn + k * bw) (hb2 : b ≤ scal.2 / 2) :
    Spec.released scal.1 scal.2 rates (fun i => mn + i * bw) < Spec.dislocation sm (getWidth f) len (slip * (1 - a) / 10) := by
  have hsup := supply_pos hS h
  have hd : 0 < scal.2 - b := by linarith [hS.b_lt]
  have hw := hS.width
  have hb := hS.b_pos
  have hlen := (C81_whole_bins hw hS.shear hS.ratio hS.maximum h k hk).1
  have hl : 0 < Real.log 10 := Real.log_pos (by norm_num)
  have hx : 0 < b * bw / 2 := by positivity
  have hr := sh_ratio hx (y := (scal.2 - b) * bw / 2) (by nlinarith)
  rw [sh_eq, sh_eq] at hr
  have hs2 : 0 < Real.sinh ((scal.2 - b) * bw / 2 * Real.log 10) := Real.sinh_pos_iff.mpr (by positivity)
  have hs1 : 0 < Real.sinh (b * bw / 2 * Real.log 10) := Real.sinh_pos_iff.mpr (by positivity)
  have hfac : (scal.2 - b) * Real.sinh (b * bw / 2 * Real.log 10) / (b * Real.sinh ((scal.2 - b) * bw / 2 * Real.log 10)) ≤ 1 := by
    rw [div_le_one (by positivity)]
    have : bw * ((scal.2 - b) * Real.sinh (b * bw / 2 * Real.log 10)) ≤ bw * (b * Real.sinh ((scal.2 - b) * bw / 2 * Real.log 10)) := by linarith
    exact le_of_mul_le_mul_left this hw
  rw [C114_centres_partial hS h, hlen]
  have h2 : (10 : ℝ) ^ ((scal.2 - b) * (mn - bw / 2 - mmax + k * bw)) ≤ 1 :=
    Real.rpow_le_one_of_one_le_of_nonpos (by norm_num) (mul_nonpos_of_nonneg_of_nonpos hd.le (by linarith))
  have h3 : (0 : ℝ) < 10 ^ ((scal.2 - b) * (mn - bw / 2 - mmax)) := by positivity
  have hf0 : 0 ≤ (scal.2 - b) * Real.sinh (b * bw / 2 * Real.log 10) / (b * Real.sinh ((scal.2 - b) * bw / 2 * Real.log 10)) := by positivity
  generalize (scal.2 - b) * Real.sinh (b * bw / 2 * Real.log 10) / (b * Real.sinh ((scal.2 - b) * bw / 2 * Real.log 10)) = c at hfac hf0
  generalize (10 : ℝ) ^ ((scal.2 - b) * (mn - bw / 2 - mmax + k * bw)) = p at h2
  generalize (10 : ℝ) ^ ((scal.2 - b) * (mn - bw / 2 - mmax)) = q at h3
  generalize Spec.dislocation sm (getWidth f) len (slip * (1 - a) / 10) = s at hsup
  have : (p - q) * c < 1 := by
    rcases le_or_gt (p - q) 0 with hpq | hpq
    · nlinarith
    · nlinarith
  nlinarith

end

/-! ### A concrete fault -/

/-- A volcanic region and a vertical fault. -/
noncomputable def exRegion : Region ℝ := ⟨"005", single "WC1994", single 29, single 1.25e-5⟩

def exFault : SimpleFault ℝ := ⟨[((90 : ℝ), (24 : ℝ)), (90, 23)], 0, 10, 90⟩

theorem exFault_ok : mkFault [((90 : ℝ), (24 : ℝ)), (90, 23)] 0 10 90 = .ok exFault :=
  (C75_fault_validation [((90 : ℝ), (24 : ℝ)), (90, 23)] 0 10 90).1 ⟨by simp, by
    intro p hp
    simp only [List.mem_cons, List.not_mem_nil, or_false] at hp
    rcases hp with rfl | rfl <;> norm_num, by norm_num, by norm_num, by norm_num, by norm_num⟩

theorem exRegion_ok : mkRegion "005" (single "WC1994") (single (29 : ℝ)) (single (1.25e-5 : ℝ)) = .ok exRegion :=
  mkRegion_iff.mpr ⟨rfl, ["WC1994"], [1.0], [29], [1.0], [1.25e-5], [1.0], rfl, rfl, rfl, rfl, rfl, rfl, rfl, rfl, rfl, by simp, by simp, by simp; norm_num, by norm_num, by norm_num, by norm_num⟩

/-- The setting of the theorems for this fault, any maximum magnitude and any b-value below 1.5. -/
theorem exSetting {b bw mmax : ℝ} (hb : 0 < b) (hbd : b < 1.5) (hw : 0 < bw) :
    ∃ len, Spec.Setting (fun _ _ => .error .typeError) exRegion exFault b bw (some mmax) none (16.05, 1.5) 29 1.25e-5 mmax len := by
  have hwf := width_pos exFault_ok
  have hm : 0 < Spec.moment 16.05 1.5 mmax := by unfold Spec.moment; positivity
  have hden : (0 : ℝ) < 29 * 1e10 * (getWidth exFault * 1e5) * 1.25e-5 := by positivity
  refine ⟨Real.sqrt (Spec.moment 16.05 1.5 mmax / (29 * 1e10 * (getWidth exFault * 1e5) * 1.25e-5)), ⟨_, _, _, _, exFault_ok⟩, ⟨_, _, _, _, exRegion_ok⟩, rfl, rfl, rfl, hb, hbd, hw,
    Real.sqrt_pos.mpr (div_pos hm hden), ?_⟩
  have hsq := Real.mul_self_sqrt (div_pos hm hden).le
  unfold Spec.dislocation
  rw [show ∀ x : ℝ, 29 * 1e10 * (getWidth exFault * 1e5) * x * (1.25e-5 * x) = 29 * 1e10 * (getWidth exFault * 1e5) * 1.25e-5 * (x * x) by intro x; ring, hsq, mul_div_cancel₀ _ hden.ne']

theorem exMfd {b mn bw mmax : ℝ} (hw : 0 < bw) : ∃ rates, getMfd (fun _ _ => .error .typeError) 20 0.1 exRegion exFault b mn bw (some mmax) none = .ok rates :=
  ⟨_, getMfd_eq (by norm_num) (by norm_num) hw.ne' rfl rfl rfl⟩

/-- The hypotheses of C113 are met, with ten bins. -/
example : ∃ len rates, Spec.Setting (fun _ _ => .error .typeError) exRegion exFault 1 0.2 (some 7) none (16.05, 1.5) 29 1.25e-5 7 len ∧
    getMfd (fun _ _ => .error .typeError) 20 0.1 exRegion exFault 1 5 0.2 (some 7) none = .ok rates ∧ rates.length = 10 ∧
    Spec.released 16.05 1.5 rates (fun i => 5 - 0.2 / 2 + i * 0.2) < Spec.dislocation 29 (getWidth exFault) len (20 * (1 - 0.1) / 10) := by
  obtain ⟨len, hS⟩ := exSetting (b := 1) (bw := 0.2) (mmax := 7) (by norm_num) (by norm_num) (by norm_num)
  obtain ⟨rates, h⟩ := exMfd (b := 1) (mn := 5) (bw := 0.2) (mmax := 7) (by norm_num)
  have hk : (7 : ℝ) = 5 + ((10 : ℕ) : ℝ) * 0.2 := by norm_num
  have hl := (C81_whole_bins hS.width hS.shear hS.ratio hS.maximum h 10 hk).1
  have hr := C113_below_supply hS h
  exact ⟨len, rates, hS, h, hl, hr⟩

/-- The hypotheses of the partial theorem of C114 are met. -/
example : ∃ len rates, Spec.Setting (fun _ _ => .error .typeError) exRegion exFault 0.7 0.2 (some 7) none (16.05, 1.5) 29 1.25e-5 7 len ∧
    getMfd (fun _ _ => .error .typeError) 20 0.1 exRegion exFault 0.7 5 0.2 (some 7) none = .ok rates ∧ rates.length = 10 ∧
    Spec.released 16.05 1.5 rates (fun i => 5 + i * 0.2) < Spec.dislocation 29 (getWidth exFault) len (20 * (1 - 0.1) / 10) := by
  obtain ⟨len, hS⟩ := exSetting (b := 0.7) (bw := 0.2) (mmax := 7) (by norm_num) (by norm_num) (by norm_num)
  obtain ⟨rates, h⟩ := exMfd (b := 0.7) (mn := 5) (bw := 0.2) (mmax := 7) (by norm_num)
  have hk : (7 : ℝ) = 5 + ((10 : ℕ) : ℝ) * 0.2 := by norm_num
  have hb : (0.7 : ℝ) ≤ 1.5 / 2 := by norm_num
  have hl := (C81_whole_bins hS.width hS.shear hS.ratio hS.maximum h 10 hk).1
  have hr := C114_below_supply_partial hS h 10 hk hb
  exact ⟨len, rates, hS, h, hl, hr⟩

/-- **C114 fails**: bins of width 0.1 from 4.0, maximum magnitude 7.01, b-value 1: the last bin reaches to 7.05, the rates release more moment than the slip supplies. -/
theorem C114_fails : ¬ ∀ (msr : ℝ → Option ℝ → Except PyErr ℝ) (slip a b mn bw mmax sm dl len : ℝ) (reg : Region ℝ) (f : SimpleFault ℝ) (mx rake : Option ℝ) (scal : ℝ × ℝ) (rates : List ℝ),
    Spec.Setting msr reg f b bw mx rake scal sm dl mmax len → getMfd msr slip a reg f b mn bw mx rake scal = .ok rates →
      Spec.released scal.1 scal.2 rates (fun i => mn + i * bw) ≤ Spec.dislocation sm (getWidth f) len (slip * (1 - a) / 10) := by
  intro hall
  obtain ⟨len, hS⟩ := exSetting (b := 1) (bw := 0.1) (mmax := 7.01) (by norm_num) (by norm_num) (by norm_num)
  obtain ⟨rates, h⟩ := exMfd (b := 1) (mn := 4) (bw := 0.1) (mmax := 7.01) (by norm_num)
  have hle := hall _ _ _ _ _ _ _ _ _ _ _ _ _ _ _ _ hS h
  have hsup := supply_pos hS h
  obtain ⟨h1, _⟩ := C81_telescope hS.width hS.shear hS.ratio hS.maximum h
  have hlen : rates.length = 31 := by
    have a1 := (h1 30).mpr (by norm_num)
    have a2 := (h1 31).not.mpr (by norm_num)
    omega
  rw [C114_centres_partial hS h, hlen] at hle
  have hl : 0 < Real.log 10 := Real.log_pos (by norm_num)
  have hr := sh_ratio (x := (1.5 - 1) * 0.1 / 2) (y := 1 * 0.1 / 2) (by norm_num) (by norm_num)
  rw [sh_eq, sh_eq] at hr
  have hs2 : 0 < Real.sinh ((1.5 - 1) * 0.1 / 2 * Real.log 10) := Real.sinh_pos_iff.mpr (by norm_num; exact hl)
  have hfac : 1 ≤ ((1.5 : ℝ) - 1) * Real.sinh (1 * 0.1 / 2 * Real.log 10) / (1 * Real.sinh ((1.5 - 1) * 0.1 / 2 * Real.log 10)) := by
    rw [le_div_iff₀ (by positivity)]
    generalize Real.sinh ((1.5 - 1) * 0.1 / 2 * Real.log 10) = p at hr
    generalize Real.sinh (1 * 0.1 / 2 * Real.log 10) = q at hr
    norm_num at hr ⊢
    linarith
  have hp : (1.047 : ℝ) ≤ 10 ^ (((1.5 : ℝ) - 1) * (4 - 0.1 / 2 - 7.01 + ((31 : ℕ) : ℝ) * 0.1)) := by
    rw [show ((1.5 : ℝ) - 1) * (4 - 0.1 / 2 - 7.01 + ((31 : ℕ) : ℝ) * 0.1) = ((50 : ℕ) : ℝ)⁻¹ by norm_num]
    refine (Real.le_rpow_inv_iff_of_pos (by norm_num) (by norm_num) (by norm_num)).mpr ?_
    rw [Real.rpow_natCast]; norm_num
  have hq : (10 : ℝ) ^ (((1.5 : ℝ) - 1) * (4 - 0.1 / 2 - 7.01)) ≤ 0.04 := by
    rw [show ((1.5 : ℝ) - 1) * (4 - 0.1 / 2 - 7.01) = -(3 / 2) + -(3 / 100) by norm_num, Real.rpow_add (by norm_num)]
    have h3 : (10 : ℝ) ^ (-(3 / 100) : ℝ) ≤ 1 := Real.rpow_le_one_of_one_le_of_nonpos (by norm_num) (by norm_num)
    have h4 : (10 : ℝ) ^ (-(3 / 2) : ℝ) ≤ 0.04 := by
      rw [show (-(3 / 2) : ℝ) = (-3 : ℝ) * (((2 : ℕ) : ℝ)⁻¹) by norm_num, Real.rpow_mul (by norm_num)]
      refine (Real.rpow_inv_le_iff_of_pos (by positivity) (by norm_num) (by norm_num)).mpr ?_
      rw [Real.rpow_natCast, show (-3 : ℝ) = ((-3 : ℤ) : ℝ) by norm_num, Real.rpow_intCast]
      norm_num
    have h5 : (0 : ℝ) ≤ 10 ^ (-(3 / 100) : ℝ) := by positivity
    nlinarith
  simp only [] at hle
  generalize ((1.5 : ℝ) - 1) * Real.sinh (1 * 0.1 / 2 * Real.log 10) / (1 * Real.sinh ((1.5 - 1) * 0.1 / 2 * Real.log 10)) = c at hfac hle
  generalize (10 : ℝ) ^ (((1.5 : ℝ) - 1) * (4 - 0.1 / 2 - 7.01 + ((31 : ℕ) : ℝ) * 0.1)) = p at hp hle
  generalize (10 : ℝ) ^ (((1.5 : ℝ) - 1) * (4 - 0.1 / 2 - 7.01)) = q at hq hle
  generalize Spec.dislocation 29 (getWidth exFault) len (20 * (1 - 0.1) / 10) = s at hsup hle
  have h6 : 1.007 ≤ (p - q) * c := by nlinarith
  nlinarith

end Verif.Fault
