import Verif.Lemmas.CatalogueUtilities

/-!
# Properties C48, C49, C50: dates and distances

Statements at `ℝ` (exact arithmetic).
-/

namespace Verif.CatUtil

open Verif Spec InnerProductGeometry

/-! ### C48 -/

/-- Days before a date in a common year. -/
theorem decimalYear_date (y m d : ℤ) (h1 : 1 ≤ m) (h12 : m ≤ 12) :
    ∃ k : ℕ, marker[(m - 1).toNat]? = some k ∧
      decimalYear (y : ℝ) (m : ℝ) (d : ℝ) = .ok ((y : ℝ) + ((k : ℤ) + d - 1 : ℤ) / 365) := by
  have ht : truncZ ((m : ℝ) - ((1 : ℕ) : ℝ)) = m - 1 := by
    have : ((m : ℝ) - ((1 : ℕ) : ℝ)) = ((m - 1 : ℤ) : ℝ) := by push_cast; ring
    rw [this, truncZ]
    rw [if_neg]
    · simp
    · have : (0 : ℝ) ≤ ((m - 1 : ℤ) : ℝ) := by exact_mod_cast (by omega : (0:ℤ) ≤ m - 1)
      simpa using this
  have hlt : (m - 1).toNat < marker.length := by simp only [marker, List.length]; omega
  refine ⟨marker[(m - 1).toNat], List.getElem?_eq_getElem hlt, ?_⟩
  simp only [decimalYear, ht, pyIndex, if_pos (show (0:ℤ) ≤ m - 1 by omega), List.getElem?_eq_getElem hlt]
  simp only [bind, Except.bind, Except.ok.injEq]
  push_cast
  ring

/-- **C48** (integer part): the decimal year of a calendar date lies in the calendar year. -/
theorem C48_integer_part (y m d : ℤ) (h : IsDate y m d) :
    ∃ x : ℝ, decimalYear (y : ℝ) (m : ℝ) (d : ℝ) = .ok x ∧ ⌊x⌋ = y := by
  obtain ⟨h1, h2, h3, h4⟩ := h
  obtain ⟨k, hk, hx⟩ := decimalYear_date y m d h1 h2
  refine ⟨_, hx, ?_⟩
  have hb : 0 ≤ (k : ℤ) + d - 1 ∧ (k : ℤ) + d - 1 < 365 := by
    unfold monthLen at h4
    interval_cases m <;> simp [marker] at hk h4 <;> subst hk <;> (try split_ifs at h4) <;> omega
  rw [Int.floor_eq_iff]
  have hb0 : (0 : ℝ) ≤ (((k : ℤ) + d - 1 : ℤ) : ℝ) := by exact_mod_cast hb.1
  have hb1 : (((k : ℤ) + d - 1 : ℤ) : ℝ) < 365 := by exact_mod_cast hb.2
  constructor
  · have := div_nonneg hb0 (by norm_num : (0:ℝ) ≤ 365); linarith
  · have := (div_lt_one (by norm_num : (0:ℝ) < 365)).mpr hb1; linarith

/-- **C48** (order): of two different dates the earlier one has the smaller decimal year, except 29 February and 1 March of the same
year, which have the same. -/
theorem C48_order (y m d y' m' d' : ℤ) (h : IsDate y m d) (h' : IsDate y' m' d') (hlt : Before (y, m, d) (y', m', d')) :
    ∃ x x' : ℝ, decimalYear (y : ℝ) (m : ℝ) (d : ℝ) = .ok x ∧ decimalYear (y' : ℝ) (m' : ℝ) (d' : ℝ) = .ok x' ∧
      x ≤ x' ∧ (x = x' ↔ (y = y' ∧ m = 2 ∧ d = 29 ∧ m' = 3 ∧ d' = 1)) := by
  obtain ⟨x, hx, fx⟩ := C48_integer_part y m d h
  obtain ⟨x', hx', fx'⟩ := C48_integer_part y' m' d' h'
  refine ⟨x, x', hx, hx', ?_⟩
  rcases hlt with hy | ⟨hy, hmd⟩
  · simp only at hy
    have : x < x' := by
      rw [Int.floor_eq_iff] at fx fx'
      have : (y : ℝ) + 1 ≤ y' := by exact_mod_cast hy
      linarith
    exact ⟨this.le, ⟨fun he => absurd he this.ne, fun hc => by omega⟩⟩
  · simp only at hy hmd
    subst hy
    obtain ⟨h1, h2, h3, h4⟩ := h
    obtain ⟨h1', h2', h3', h4'⟩ := h'
    obtain ⟨k, hk, hx2⟩ := decimalYear_date y m d h1 h2
    obtain ⟨k', hk', hx2'⟩ := decimalYear_date y m' d' h1' h2'
    rw [hx] at hx2
    rw [hx'] at hx2'
    simp only [Except.ok.injEq] at hx2 hx2'
    subst hx2 hx2'
    have key : (k : ℤ) + d - 1 ≤ (k' : ℤ) + d' - 1 ∧
        ((k : ℤ) + d - 1 = (k' : ℤ) + d' - 1 ↔ (m = 2 ∧ d = 29 ∧ m' = 3 ∧ d' = 1)) := by
      unfold monthLen at h4 h4'
      rcases hmd with hm | ⟨hm, hd⟩
      · interval_cases m <;> simp [marker] at hk h4 <;> subst hk <;>
          interval_cases m' <;> simp [marker] at hk' h4' <;> subst hk' <;>
          (try split_ifs at h4) <;> (try split_ifs at h4') <;> omega
      · subst hm
        rw [hk] at hk'
        simp only [Option.some.injEq] at hk'
        subst hk'
        omega
    constructor
    · have : ((((k : ℤ) + d - 1 : ℤ) : ℝ)) ≤ (((k' : ℤ) + d' - 1 : ℤ) : ℝ) := by exact_mod_cast key.1
      linarith
    · rw [add_right_inj, div_left_inj' (by norm_num : (365:ℝ) ≠ 0), Int.cast_inj, key.2]
      simp

/-- Non-vacuity of C48: an ordinary pair of dates and the exceptional one. -/
example : IsDate 2000 2 29 ∧ IsDate 2000 3 1 ∧ Before (2000, 2, 29) (2000, 3, 1) ∧ IsDate 1999 12 31 ∧
    Before (1999, 12, 31) (2000, 2, 29) := by
  simp [IsDate, Before, monthLen, leap]

/-! ### C49 -/

/-- **C49.** For all positions the haversine distance is the radius times the angle between the two directions. -/
theorem C49_great_circle (lon1 lat1 lon2 lat2 : ℝ) :
    haversine lon1 lat1 lon2 lat2 = 6371.227 * angle (spherePoint lon1 lat1) (spherePoint lon2 lat2) :=
  haversine_eq_angle ..

/-- **C49** (symmetry). -/
theorem C49_symmetric (lon1 lat1 lon2 lat2 : ℝ) :
    haversine lon1 lat1 lon2 lat2 = haversine lon2 lat2 lon1 lat1 := by
  rw [C49_great_circle, C49_great_circle, angle_comm]

/-- **C49** (identical points). -/
theorem C49_self (lon lat : ℝ) : haversine lon lat lon lat = 0 := by
  rw [C49_great_circle, angle_self (by
    intro h
    have := norm_spherePoint lon lat
    rw [h, norm_zero] at this
    exact zero_ne_one this), mul_zero]

/-- **C49** (zero only for the same place on the sphere). -/
theorem C49_zero_iff (lon1 lat1 lon2 lat2 : ℝ) :
    haversine lon1 lat1 lon2 lat2 = 0 ↔ spherePoint lon1 lat1 = spherePoint lon2 lat2 := by
  constructor
  · intro h
    rw [C49_great_circle] at h
    have ha : angle (spherePoint lon1 lat1) (spherePoint lon2 lat2) = 0 := by
      rcases mul_eq_zero.mp h with h | h
      · norm_num at h
      · exact h
    obtain ⟨-, r, hr, hxy⟩ := angle_eq_zero_iff.mp ha
    have hn := congrArg norm hxy
    rw [norm_smul, norm_spherePoint, norm_spherePoint, mul_one, Real.norm_eq_abs, abs_of_pos hr] at hn
    rw [hxy, ← hn, one_smul]
  · intro h
    rw [C49_great_circle, h, ← C49_great_circle, C49_self]

/-- **C49** (range): never negative and at most half the circumference. -/
theorem C49_range (lon1 lat1 lon2 lat2 : ℝ) :
    0 ≤ haversine lon1 lat1 lon2 lat2 ∧ haversine lon1 lat1 lon2 lat2 ≤ 6371.227 * Real.pi := by
  rw [C49_great_circle]
  constructor
  · exact mul_nonneg (by norm_num) (angle_nonneg _ _)
  · exact mul_le_mul_of_nonneg_left (angle_le_pi _ _) (by norm_num)

/-- **C49** (defined everywhere): the square roots have arguments in [0, 1]. -/
theorem C49_defined (lon1 lat1 lon2 lat2 : ℝ) :
    0 ≤ aval lon1 lat1 lon2 lat2 ∧ 0 ≤ 1 - aval lon1 lat1 lon2 lat2 ∧
    haversine lon1 lat1 lon2 lat2 = 2 * 6371.227 *
      Complex.arg ⟨Real.sqrt (1 - aval lon1 lat1 lon2 lat2), Real.sqrt (aval lon1 lat1 lon2 lat2)⟩ := by
  have hA := aval_eq lon1 lat1 lon2 lat2
  obtain ⟨b1, b2⟩ := inner_bounds (lon1, lat1) (lon2, lat2)
  simp only at b1 b2
  refine ⟨by rw [hA]; linarith, by rw [hA]; linarith, ?_⟩
  simp only [haversine, aval, pi_real, sin_real, cos_real, sqrt_real, atan2_real, Nat.cast_ofNat, Nat.cast_one]

/-- **C49** (triangle inequality). -/
theorem C49_triangle (lon1 lat1 lon2 lat2 lon3 lat3 : ℝ) :
    haversine lon1 lat1 lon3 lat3 ≤ haversine lon1 lat1 lon2 lat2 + haversine lon2 lat2 lon3 lat3 := by
  simp only [C49_great_circle]
  rw [← mul_add]
  apply mul_le_mul_of_nonneg_left _ (by norm_num)
  exact angle_le_angle_add_angle _ _ _

/-- Non-triviality of C49: one degree along a meridian is `6371.227 π / 180` km. -/
example : haversine (10 : ℝ) 45 10 46 = 6371.227 * (Real.pi / 180) := by
  have h1 : |(45 : ℝ) - 46| = 1 := by norm_num
  rw [haversine_meridian _ _ _ _ (by rw [h1]; norm_num), h1, mul_one]

/-! ### C50 -/

/-- Integer part of the formula. -/
def jdInt (y m d : ℤ) : ℤ :=
  367 * y - 7 * (y + (m + 9) / 12) / 4 - 3 * ((7 * y + (m - 9)) / 7 / 100 + 1) / 4 + 275 * m / 9 + d

theorem greg2julian_int (y m d : ℤ) (h mi s : ℝ) :
    greg2julian (y : ℝ) (m : ℝ) (d : ℝ) h mi s = jdInt y m d + 1721028.5 + (h + mi / 60 + s / 3600) / 24 := by
  simp only [greg2julian, floorZ_real]
  have e1 : ⌊((m : ℝ) + ((9 : ℕ) : ℝ)) / ((12 : ℕ) : ℝ)⌋ = (m + 9) / 12 := by
    have := floor_div_int (m + 9) 12
    push_cast at this ⊢
    exact this
  have e2 : ⌊((7 : ℕ) : ℝ) * ((y : ℝ) + (((m + 9) / 12 : ℤ) : ℝ)) / ((4 : ℕ) : ℝ)⌋ = 7 * (y + (m + 9) / 12) / 4 := by
    have := floor_div_int (7 * (y + (m + 9) / 12)) 4
    push_cast at this ⊢
    exact this
  have e3 : ⌊((y : ℝ) + ((m : ℝ) - ((9 : ℕ) : ℝ)) / ((7 : ℕ) : ℝ)) / ((100 : ℕ) : ℝ)⌋ = (7 * y + (m - 9)) / 7 / 100 := by
    rw [Int.floor_div_natCast]
    have : (y : ℝ) + ((m : ℝ) - ((9 : ℕ) : ℝ)) / ((7 : ℕ) : ℝ) = ((7 * y + (m - 9) : ℤ) : ℝ) / ((7 : ℕ) : ℝ) := by
      push_cast; ring
    rw [this, floor_div_int]
    rfl
  have e4 : ⌊((3 : ℕ) : ℝ) * ((((7 * y + (m - 9)) / 7 / 100 : ℤ) : ℝ) + ((1 : ℕ) : ℝ)) / ((4 : ℕ) : ℝ)⌋ =
      3 * ((7 * y + (m - 9)) / 7 / 100 + 1) / 4 := by
    have := floor_div_int (3 * ((7 * y + (m - 9)) / 7 / 100 + 1)) 4
    push_cast at this ⊢
    exact this
  have e5 : ⌊((275 : ℕ) : ℝ) * (m : ℝ) / ((9 : ℕ) : ℝ)⌋ = 275 * m / 9 := by
    have := floor_div_int (275 * m) 9
    push_cast at this ⊢
    exact this
  rw [e1, e2, e3, e4, e5]
  simp only [jdInt]
  push_cast
  ring

set_option maxHeartbeats 1000000 in
/-- Exactly which pairs of consecutive days are one day apart (**C50, the part that holds**): all of them, except, around the century
years that are not leap years, the ends of February, August and December of that year and of January of the next.
Missing: those four (`C50_day_count_fails`). -/
theorem C50_day_count_partial (y m d : ℤ) (hd : IsDate y m d) (h mi s : ℝ) :
    (greg2julian (((nextDay y m d).1 : ℤ) : ℝ) (((nextDay y m d).2.1 : ℤ) : ℝ) (((nextDay y m d).2.2 : ℤ) : ℝ) h mi s =
      greg2julian (y : ℝ) (m : ℝ) (d : ℝ) h mi s + 1) ↔
    ¬ (d = monthLen y m ∧ ((y % 100 = 0 ∧ y % 400 ≠ 0 ∧ (m = 2 ∨ m = 8 ∨ m = 12)) ∨
        (y % 100 = 1 ∧ y % 400 ≠ 1 ∧ m = 1))) := by
  rw [greg2julian_int, greg2julian_int]
  have : ((jdInt (nextDay y m d).1 (nextDay y m d).2.1 (nextDay y m d).2.2 : ℝ) + 1721028.5 + (h + mi / 60 + s / 3600) / 24 =
      (jdInt y m d : ℝ) + 1721028.5 + (h + mi / 60 + s / 3600) / 24 + 1) ↔
      jdInt (nextDay y m d).1 (nextDay y m d).2.1 (nextDay y m d).2.2 = jdInt y m d + 1 := by
    rw [← @Int.cast_inj ℝ]
    push_cast
    constructor <;> intro h <;> linarith
  rw [this]
  obtain ⟨h1, h2, h3, h4⟩ := hd
  unfold nextDay
  by_cases hlt : d < monthLen y m
  · rw [if_pos hlt]
    simp only [jdInt]
    omega
  · rw [if_neg hlt]
    have hdm : d = monthLen y m := by omega
    subst hdm
    clear hlt h3 h4
    have hq : ∀ c : ℤ, (7 * y + c) / 7 = y + c / 7 := by intro c; omega
    have hq1 : ∀ c : ℤ, (7 * (y + 1) + c) / 7 = y + 1 + c / 7 := by intro c; omega
    obtain ⟨q, b, r, hy, hb, hr0, hr1⟩ : ∃ q b r : ℤ, y = 400 * q + 100 * b + r ∧ (b = 0 ∨ b = 1 ∨ b = 2 ∨ b = 3) ∧ 0 ≤ r ∧ r < 100 :=
      ⟨y / 400, y % 400 / 100, y % 100, by omega, by omega, by omega, by omega⟩
    obtain ⟨t, w, hw, ht⟩ : ∃ t w : ℤ, y = 4 * w + t ∧ (t = 0 ∨ t = 1 ∨ t = 2 ∨ t = 3) :=
      ⟨y % 4, y / 4, by omega, by omega⟩
    have c2 : (y + -2) / 100 = if r < 2 then 4 * q + b - 1 else 4 * q + b := by split_ifs <;> omega
    have c1 : (y + -1) / 100 = if r < 1 then 4 * q + b - 1 else 4 * q + b := by split_ifs <;> omega
    have c0 : y / 100 = 4 * q + b := by omega
    have cp : (y + 1 + -2) / 100 = if r < 1 then 4 * q + b - 1 else 4 * q + b := by split_ifs <;> omega
    have m100 : y % 100 = r := by omega
    have m400 : y % 400 = 100 * b + r := by omega
    have m4 : y % 4 = t := by omega
    have f0 : 7 * y / 4 = 7 * w + 7 * t / 4 := by omega
    have f1 : 7 * (y + 1) / 4 = 7 * w + 7 * (t + 1) / 4 := by omega
    have hrt : r % 4 = t := by omega
    interval_cases m <;> simp [jdInt, hq, hq1, monthLen, leap, c2, c1, c0, cp, m100, m400, m4, f0, f1] <;>
      rcases hb with rfl | rfl | rfl | rfl <;> rcases ht with rfl | rfl | rfl | rfl <;>
      (try split_ifs) <;> omega

/-- **C50 is false of the code**: from 28 February to 1 March 1900 it counts two days. -/
theorem C50_day_count_fails :
    ¬ ∀ (y m d : ℤ), IsDate y m d → ∀ h mi s : ℝ,
      greg2julian (((nextDay y m d).1 : ℤ) : ℝ) (((nextDay y m d).2.1 : ℤ) : ℝ) (((nextDay y m d).2.2 : ℤ) : ℝ) h mi s =
        greg2julian (y : ℝ) (m : ℝ) (d : ℝ) h mi s + 1 := by
  intro hall
  have hd : IsDate 1900 2 28 := by simp [IsDate, monthLen, leap]
  have := (C50_day_count_partial 1900 2 28 hd 0 0 0).mp (hall 1900 2 28 hd 0 0 0)
  apply this
  simp [monthLen, leap]

end Verif.CatUtil
