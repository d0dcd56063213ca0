import Verif.Props.DoubleDates
import Verif.Props.DoubleWeights

/-!
# C175: the Julian date in double precision
-/

namespace Verif.CatUtil

open Verif Spec Verif.Dbl

theorem int_mul {a b : ℤ} (ha : |a| ≤ 2 ^ 26) (hb : |b| ≤ 2 ^ 26) : (a : Dbl) * (b : Dbl) = ((a * b : ℤ) : Dbl) := by
  apply Dbl.ext
  rw [val_mul, val_int_exact (by linarith), val_int_exact (by linarith), val_int]
  push_cast; rfl

theorem floor_near {v x : ℚ} {f : ℤ} (h1 : (f : ℚ) ≤ v) (h2 : |v - x| ≤ 1 / 10 ^ 4) (h3 : x ≤ f + 1 - 1 / 1000) : ⌊v⌋ = f := by
  rw [Int.floor_eq_iff]
  refine ⟨h1, ?_⟩
  have := (abs_le.1 h2).2
  linarith [show (1 : ℚ) / 10 ^ 4 < 1 / 1000 by norm_num]

theorem int_div_bounds (n : ℤ) {k : ℕ} (hk : 0 < k) (hk' : k ≤ 1000) : ((n / k : ℤ) : ℚ) ≤ (n : ℚ) / k ∧ (n : ℚ) / k ≤ ((n / k : ℤ) : ℚ) + 1 - 1 / 1000 := by
  have hkq : (0 : ℚ) < k := by exact_mod_cast hk
  have hk1 : (k : ℚ) ≤ 1000 := by exact_mod_cast hk'
  have e := Int.emod_add_mul_ediv n k
  have r0 : 0 ≤ n % k := Int.emod_nonneg _ (by omega)
  have r1 : n % k < k := Int.emod_lt_of_pos _ (by omega)
  have eq : (n : ℚ) = (n % k : ℤ) + k * (n / k : ℤ) := by exact_mod_cast e.symm
  have r0' : (0 : ℚ) ≤ (n % k : ℤ) := by exact_mod_cast r0
  have r1' : ((n % k : ℤ) : ℚ) + 1 ≤ k := by exact_mod_cast r1
  constructor
  · rw [le_div_iff₀ hkq]; linarith
  · rw [div_le_iff₀ hkq]
    have : (1 : ℚ) / 1000 * k ≤ 1 := by linarith
    nlinarith

/-- The integer part of a quotient of integers is exact. -/
theorem floor_quot {n : ℤ} (hn : |n| ≤ 10 ^ 8) {k : ℕ} (hk : 0 < k) (hk' : k ≤ 1000) : PyNum.floorZ ((n : Dbl) / (k : Dbl)) = n / k := by
  obtain ⟨h1, h2⟩ := int_div_bounds n hk hk'
  have hkq : (1 : ℚ) ≤ k := by exact_mod_cast hk
  have hnq : |(n : ℚ)| ≤ 10 ^ 8 := by rw [← Int.cast_abs]; exact_mod_cast hn
  have hab : |(n : ℚ) / k| ≤ 10 ^ 8 := by
    rw [abs_div, Nat.abs_cast, div_le_iff₀ (by linarith)]
    nlinarith
  rw [floorZ_def, val_div, val_int_exact (by linarith), val_nat_exact (by omega)]
  refine floor_near ?_ ((rnd_near (a := (n : ℚ) / k) (ε := 0) (by simp) hab (by norm_num)).trans (by norm_num)) h2
  have hf : |n / (k : ℤ)| ≤ 10 ^ 8 := by
    rw [abs_le] at hn ⊢
    constructor
    · rw [Int.le_ediv_iff_mul_le (by omega)]
      nlinarith [hn.1]
    · exact Int.ediv_le_of_le_mul (by omega) (by nlinarith [hn.2])
  have := rnd53_mono h1
  rwa [rnd53_int (by linarith)] at this

/-- The century term. -/
theorem floor_century {y m : ℤ} (hy : |y| ≤ 10000) (h1 : 1 ≤ m) (h2 : m ≤ 12) :
    PyNum.floorZ (((y : Dbl) + ((m : Dbl) - ((9 : ℕ) : Dbl)) / ((7 : ℕ) : Dbl)) / ((100 : ℕ) : Dbl)) = (7 * y + (m - 9)) / 7 / 100 := by
  have hyq : |(y : ℚ)| ≤ 10000 := by rw [← Int.cast_abs]; exact_mod_cast hy
  obtain ⟨y1, y2⟩ := abs_le.1 hy
  obtain ⟨yq1, yq2⟩ := abs_le.1 hyq
  rw [nat_int 9, int_sub (abs_le.2 ⟨by omega, by omega⟩) (by norm_num)]
  obtain ⟨c, hc⟩ : ∃ c, c = m - ((9 : ℕ) : ℤ) := ⟨_, rfl⟩
  have c1 : -8 ≤ c := by omega
  have c2 : c ≤ 3 := by omega
  have cq1 : (-8 : ℚ) ≤ c := by exact_mod_cast c1
  have cq2 : (c : ℚ) ≤ 3 := by exact_mod_cast c2
  rw [← hc, show m - 9 = c by omega, floorZ_def, val_div, val_add, val_div, val_int_exact (by linarith), val_int_exact (abs_le.2 ⟨by omega, by omega⟩), val_nat_exact (by norm_num), val_nat_exact (by norm_num)]
  obtain ⟨b1, b2⟩ := int_div_bounds c (k := 7) (by norm_num) (by norm_num)
  obtain ⟨d1, d2⟩ := int_div_bounds (7 * y + c) (k := 700) (by norm_num) (by norm_num)
  push_cast at b1 b2 d1 d2 ⊢
  have hdd : (7 * y + c) / 7 / 100 = (7 * y + c) / 700 := by omega
  rw [hdd]
  obtain ⟨f, hf⟩ : ∃ f, f = (7 * y + c) / 700 := ⟨_, rfl⟩
  rw [← hf] at d1 d2 ⊢
  have e1 : |rnd53 ((c : ℚ) / 7) - c / 7| ≤ 3 / 2 ^ 53 := by
    refine (of_near (B := 2) ?_).trans (by norm_num)
    rw [abs_le]; constructor <;> linarith
  have l1 : ((c / 7 : ℤ) : ℚ) ≤ rnd53 ((c : ℚ) / 7) := by
    have := rnd53_mono b1
    rwa [rnd53_int (abs_le.2 ⟨by omega, by omega⟩)] at this
  have e2 : |rnd53 ((y : ℚ) + rnd53 ((c : ℚ) / 7)) - (y + c / 7)| ≤ 3 / 2 ^ 53 + 10003 / 2 ^ 53 := by
    refine (rnd_near (ε := 3 / 2 ^ 53) (B := 10002) ?_ ?_ (by norm_num)).trans (by norm_num)
    · rwa [add_sub_add_left_eq_sub]
    · rw [abs_le]; constructor <;> linarith
  have l2 : ((100 * f : ℤ) : ℚ) ≤ rnd53 ((y : ℚ) + rnd53 ((c : ℚ) / 7)) := by
    have h0 : 100 * f ≤ y + c / 7 := by omega
    have h0' : ((100 * f : ℤ) : ℚ) ≤ y + ((c / 7 : ℤ) : ℚ) := by exact_mod_cast h0
    have := rnd53_mono (show ((100 * f : ℤ) : ℚ) ≤ y + rnd53 ((c : ℚ) / 7) by linarith)
    rwa [rnd53_int (abs_le.2 ⟨by omega, by omega⟩)] at this
  refine floor_near (x := ((7 * y + c : ℚ)) / 700) ?_ ?_ d2
  · have := rnd53_mono (show ((f : ℤ) : ℚ) ≤ rnd53 ((y : ℚ) + rnd53 ((c : ℚ) / 7)) / 100 by
      rw [le_div_iff₀ (by norm_num)]; push_cast at l2; linarith)
    rwa [rnd53_int (abs_le.2 ⟨by omega, by omega⟩)] at this
  · refine (rnd_near (ε := 3 / 2 ^ 53 + 10003 / 2 ^ 53) (B := 1000) ?_ ?_ (by norm_num)).trans (by norm_num)
    · obtain ⟨a, b⟩ := abs_le.1 e2
      rw [abs_le]
      constructor <;> norm_num at a b ⊢ <;> linarith
    · rw [abs_le]; constructor <;> linarith

theorem jdInt_le {y m d : ℤ} (hy : |y| ≤ 10000) (h1 : 1 ≤ m) (h2 : m ≤ 12) (h3 : 1 ≤ d) (h4 : d ≤ 31) : |jdInt y m d| ≤ 4000000 := by
  obtain ⟨y1, y2⟩ := abs_le.1 hy
  unfold jdInt
  rw [abs_le]
  constructor <;> omega

/-- The integer part of the formula is exact. -/
theorem greg2julian_dbl {y m d : ℤ} (hy : |y| ≤ 10000) (h1 : 1 ≤ m) (h2 : m ≤ 12) (h3 : 1 ≤ d) (h4 : d ≤ 31) (h mi s : Dbl) :
    greg2julian (y : Dbl) (m : Dbl) (d : Dbl) h mi s =
      ((jdInt y m d : ℤ) : Dbl) + (1721028.5 : Dbl) + (h + mi / ((60 : ℕ) : Dbl) + s / ((3600 : ℕ) : Dbl)) / ((24 : ℕ) : Dbl) := by
  obtain ⟨y1, y2⟩ := abs_le.1 hy
  simp only [greg2julian]
  rw [floor_century hy h1 h2]
  have e1 : PyNum.floorZ (((m : Dbl) + ((9 : ℕ) : Dbl)) / ((12 : ℕ) : Dbl)) = (m + 9) / 12 := by
    rw [nat_int 9, int_add (abs_le.2 ⟨by omega, by omega⟩) (by norm_num), floor_quot (abs_le.2 ⟨by push_cast; omega, by push_cast; omega⟩) (by norm_num) (by norm_num)]
    rfl
  obtain ⟨a, ha⟩ : ∃ a, a = (m + 9) / 12 := ⟨_, rfl⟩
  have ha' : 0 ≤ a ∧ a ≤ 1 := by omega
  rw [e1, ← ha]
  have e2 : PyNum.floorZ (((7 : ℕ) : Dbl) * ((y : Dbl) + (a : Dbl)) / ((4 : ℕ) : Dbl)) = 7 * (y + a) / 4 := by
    rw [int_add (by linarith) (abs_le.2 ⟨by omega, by omega⟩), nat_int 7, int_mul (by norm_num) (abs_le.2 ⟨by omega, by omega⟩),
      floor_quot (abs_le.2 ⟨by push_cast; omega, by push_cast; omega⟩) (by norm_num) (by norm_num)]
    rfl
  obtain ⟨c, hc⟩ : ∃ c, c = (7 * y + (m - 9)) / 7 / 100 := ⟨_, rfl⟩
  have hc' : -102 ≤ c ∧ c ≤ 101 := by omega
  have e3 : PyNum.floorZ (((3 : ℕ) : Dbl) * ((c : Dbl) + ((1 : ℕ) : Dbl)) / ((4 : ℕ) : Dbl)) = 3 * (c + 1) / 4 := by
    rw [nat_int 1, int_add (abs_le.2 ⟨by omega, by omega⟩) (by norm_num), nat_int 3, int_mul (by norm_num) (abs_le.2 ⟨by push_cast; omega, by push_cast; omega⟩),
      floor_quot (abs_le.2 ⟨by push_cast; omega, by push_cast; omega⟩) (by norm_num) (by norm_num)]
    rfl
  have e4 : PyNum.floorZ (((275 : ℕ) : Dbl) * (m : Dbl) / ((9 : ℕ) : Dbl)) = 275 * m / 9 := by
    rw [nat_int 275, int_mul (by norm_num) (abs_le.2 ⟨by omega, by omega⟩), floor_quot (abs_le.2 ⟨by push_cast; omega, by push_cast; omega⟩) (by norm_num) (by norm_num)]
    rfl
  rw [e2, ← hc, e3, e4, nat_int 367, int_mul (by norm_num) (by linarith), int_sub (abs_le.2 ⟨by push_cast; omega, by push_cast; omega⟩) (abs_le.2 ⟨by omega, by omega⟩),
    int_sub (abs_le.2 ⟨by push_cast; omega, by push_cast; omega⟩) (abs_le.2 ⟨by omega, by omega⟩), int_add (abs_le.2 ⟨by push_cast; omega, by push_cast; omega⟩) (abs_le.2 ⟨by omega, by omega⟩),
    int_add (abs_le.2 ⟨by push_cast; omega, by push_cast; omega⟩) (abs_le.2 ⟨by omega, by omega⟩)]
  have : ((367 : ℕ) : ℤ) * y - 7 * (y + a) / 4 - 3 * (c + 1) / 4 + 275 * m / 9 + d = jdInt y m d := by
    rw [jdInt, ← ha, ← hc]; push_cast; ring
  rw [this]

theorem epoch_val : ((1721028.5 : Dbl)).val = 3442057 / 2 := by decide +kernel

/-- A time of the day: hour and minute are integers, the seconds a number from 0 to 59 (what the catalogue reader lets through). -/
def IsTime (h mi : ℤ) (s : ℚ) : Prop := 0 ≤ h ∧ h ≤ 23 ∧ 0 ≤ mi ∧ mi ≤ 59 ∧ 0 ≤ s ∧ s ≤ 59

/-- Error of the Julian date over rational numbers. -/
theorem julian_close {y m d h mi : ℤ} {s : Dbl} (hy : |y| ≤ 10000) (hd : IsDate y m d) (ht : IsTime h mi s.val) :
    |(greg2julian (y : Dbl) (m : Dbl) (d : Dbl) (h : Dbl) (mi : Dbl) s).val - (jdInt y m d + 3442057 / 2 + (h + mi / 60 + s.val / 3600) / 24)| ≤ 1 / 10 ^ 9 := by
  obtain ⟨h1, h2, h3, h4⟩ := hd
  obtain ⟨t1, t2, t3, t4, t5, t6⟩ := ht
  have h4' : d ≤ 31 := by
    refine h4.trans ?_
    unfold monthLen
    split_ifs <;> norm_num
  rw [greg2julian_dbl hy h1 h2 h3 h4']
  have hj := jdInt_le hy h1 h2 h3 h4'
  obtain ⟨J, hJ⟩ : ∃ J, J = jdInt y m d := ⟨_, rfl⟩
  rw [← hJ] at hj ⊢
  have hjq : |(J : ℚ)| ≤ 4000000 := by rw [← Int.cast_abs]; exact_mod_cast hj
  obtain ⟨j1, j2⟩ := abs_le.1 hjq
  have q1 : (0 : ℚ) ≤ h := by exact_mod_cast t1
  have q2 : (h : ℚ) ≤ 23 := by exact_mod_cast t2
  have q3 : (0 : ℚ) ≤ mi := by exact_mod_cast t3
  have q4 : (mi : ℚ) ≤ 59 := by exact_mod_cast t4
  have ej : (((J : ℤ) : Dbl) + (1721028.5 : Dbl)).val = J + 3442057 / 2 := by
    rw [val_add, val_int_exact (by linarith), epoch_val]
    have := Verif.Fault.rnd_grid (n := 2 * J + 3442057) (by rw [abs_le] at hj ⊢; omega) 1
    push_cast at this
    rw [show (J : ℚ) + 3442057 / 2 = (2 * J + 3442057) / 2 ^ 1 by ring]
    exact this
  have ea : |((mi : Dbl) / ((60 : ℕ) : Dbl)).val - mi / 60| ≤ 2 / 2 ^ 53 := by
    rw [val_div, val_int_exact (abs_le.2 ⟨by omega, by omega⟩), val_nat_exact (by norm_num)]
    refine (rnd_near (a := (mi : ℚ) / 60) (ε := 0) (B := 1) (by simp) ?_ (by norm_num)).trans (by norm_num)
    rw [abs_le]; constructor <;> linarith
  have eb : |(s / ((3600 : ℕ) : Dbl)).val - s.val / 3600| ≤ 2 / 2 ^ 53 := by
    rw [val_div, val_nat_exact (by norm_num)]
    refine (rnd_near (a := s.val / 3600) (ε := 0) (B := 1) (by simp) ?_ (by norm_num)).trans (by norm_num)
    rw [abs_le]; constructor <;> linarith
  have ec : |((h : Dbl) + (mi : Dbl) / ((60 : ℕ) : Dbl)).val - (h + mi / 60)| ≤ 2 / 2 ^ 53 + 25 / 2 ^ 53 := by
    rw [val_add, val_int_exact (abs_le.2 ⟨by omega, by omega⟩)]
    refine (rnd_near (ε := 2 / 2 ^ 53) (B := 24) ?_ ?_ (by norm_num)).trans (by norm_num)
    · rwa [add_sub_add_left_eq_sub]
    · rw [abs_le]; constructor <;> linarith
  have ed : |((h : Dbl) + (mi : Dbl) / ((60 : ℕ) : Dbl) + s / ((3600 : ℕ) : Dbl)).val - (h + mi / 60 + s.val / 3600)| ≤ 60 / 2 ^ 53 := by
    rw [val_add]
    refine (rnd_near (ε := 29 / 2 ^ 53) (B := 25) ?_ ?_ (by norm_num)).trans (by norm_num)
    · obtain ⟨a, b⟩ := abs_le.1 ec
      obtain ⟨a', b'⟩ := abs_le.1 eb
      rw [abs_le]
      constructor <;> linarith
    · rw [abs_le]; constructor <;> linarith
  have ee : |(((h : Dbl) + (mi : Dbl) / ((60 : ℕ) : Dbl) + s / ((3600 : ℕ) : Dbl)) / ((24 : ℕ) : Dbl)).val - (h + mi / 60 + s.val / 3600) / 24| ≤ 5 / 2 ^ 53 := by
    rw [val_div, val_nat_exact (by norm_num)]
    refine (rnd_near (ε := 5 / 2 / 2 ^ 53) (B := 1) ?_ ?_ (by norm_num)).trans (by norm_num)
    · rw [show ((24 : ℕ) : ℚ) = 24 by norm_num, ← sub_div, abs_div, abs_of_pos (by norm_num : (0 : ℚ) < 24), div_le_iff₀ (by norm_num)]
      linarith
    · rw [abs_le]; constructor <;> linarith
  rw [val_add, ej]
  refine (rnd_near (ε := 5 / 2 ^ 53) (B := 6000000) ?_ ?_ (by norm_num)).trans (by norm_num)
  · rwa [add_sub_add_left_eq_sub]
  · rw [abs_le]; constructor <;> linarith

/-- **C175** (accuracy): in double precision the Julian date differs by less than a tenth of a millisecond from the exact value of the formula. -/
theorem C175_accuracy {y m d h mi : ℤ} {s : Dbl} (hy : |y| ≤ 10000) (hd : IsDate y m d) (ht : IsTime h mi s.val) :
    |((greg2julian (y : Dbl) (m : Dbl) (d : Dbl) (h : Dbl) (mi : Dbl) s).val : ℝ) - greg2julian (y : ℝ) (m : ℝ) (d : ℝ) (h : ℝ) (mi : ℝ) (s.val : ℝ)| ≤ 1 / 10 ^ 9 := by
  have := julian_close hy hd ht
  rw [greg2julian_int]
  have h2 : ((|(greg2julian (y : Dbl) (m : Dbl) (d : Dbl) (h : Dbl) (mi : Dbl) s).val - (jdInt y m d + 3442057 / 2 + (h + mi / 60 + s.val / 3600) / 24)| : ℚ) : ℝ) ≤ ((1 / 10 ^ 9 : ℚ) : ℝ) := Rat.cast_le.2 this
  push_cast at h2
  rwa [show (1721028.5 : ℝ) = 3442057 / 2 by norm_num]

/-- The day number from 1902 to 2099. -/
theorem jdInt_modern {y m d : ℤ} (y1 : 1902 ≤ y) (y2 : y ≤ 2099) (h1 : 1 ≤ m) (h2 : m ≤ 12) : jdInt y m d = 367 * y - 7 * (y + (m + 9) / 12) / 4 - 15 + 275 * m / 9 + d := by
  unfold jdInt
  omega

theorem leap_modern {y : ℤ} (y1 : 1902 ≤ y) (y2 : y ≤ 2099) : leap y ↔ y % 4 = 0 := by
  unfold leap
  omega

theorem jdInt_year {y m d : ℤ} (y1 : 1902 ≤ y) (y2 : y ≤ 2099) (hd : IsDate y m d) : jdInt y 1 1 ≤ jdInt y m d ∧ jdInt y m d ≤ jdInt y 12 31 := by
  obtain ⟨h1, h2, h3, h4⟩ := hd
  rw [jdInt_modern y1 y2 (by norm_num) (by norm_num), jdInt_modern y1 y2 h1 h2, jdInt_modern y1 y2 (by norm_num) (by norm_num)]
  have := leap_modern y1 y2
  unfold monthLen at h4
  simp only [this] at h4
  interval_cases m <;> simp at h4 ⊢ <;> (try split_ifs at h4) <;> omega

theorem jdInt_next {y : ℤ} (y1 : 1902 ≤ y) (y2 : y + 1 ≤ 2099) : jdInt y 12 31 + 1 = jdInt (y + 1) 1 1 := by
  rw [jdInt_modern y1 (by omega) (by norm_num) (by norm_num), jdInt_modern (by omega) y2 (by norm_num) (by norm_num)]
  omega

theorem jdInt_years {y : ℤ} (n : ℕ) (y1 : 1902 ≤ y) (y2 : y + 1 + n ≤ 2099) : jdInt y 12 31 < jdInt (y + 1 + n) 1 1 := by
  induction n with
  | zero =>
    have := jdInt_next (y := y) y1 (by push_cast at y2; omega)
    simp only [Nat.cast_zero, add_zero]
    omega
  | succ n ih =>
    have h1 := ih (by push_cast at y2; omega)
    have h2 := (jdInt_year (y := y + 1 + n) (m := 12) (d := 31) (by omega) (by push_cast at y2; omega) (by simp [IsDate, monthLen])).1
    have h3 := jdInt_next (y := y + 1 + n) (by omega) (by push_cast at y2; omega)
    push_cast
    rw [← add_assoc]
    omega

set_option maxHeartbeats 1000000 in
/-- A later day has a later number. -/
theorem jdInt_before {y m d y' m' d' : ℤ} (y1 : 1902 ≤ y) (y2' : y' ≤ 2099) (hd : IsDate y m d) (hd' : IsDate y' m' d') (h : Before (y, m, d) (y', m', d')) : jdInt y m d < jdInt y' m' d' := by
  rcases h with h | ⟨h, hm⟩
  · simp only at h
    have a := (jdInt_year y1 (by omega) hd).2
    have b := (jdInt_year (by omega) y2' hd').1
    have c := jdInt_years (y := y) (y' - y - 1).toNat y1 (by omega)
    rw [show y + 1 + (((y' - y - 1).toNat : ℕ) : ℤ) = y' by omega] at c
    omega
  · simp only at h hm
    subst h
    obtain ⟨h1, h2, h3, h4⟩ := hd
    obtain ⟨h1', h2', h3', h4'⟩ := hd'
    rw [jdInt_modern y1 y2' h1 h2, jdInt_modern y1 y2' h1' h2']
    rcases hm with hm | ⟨hm, hlt⟩
    · have hl := leap_modern y1 y2'
      unfold monthLen at h4
      simp only [hl] at h4
      clear h4' hl
      interval_cases m <;> simp at h4 <;> (try split_ifs at h4) <;> interval_cases m' <;> omega
    · subst hm
      omega

/-- The instant is earlier: on an earlier day, or in an earlier minute of the day, or by a millisecond or more in the same minute. -/
def EarlierInstant (a : ℤ × ℤ × ℤ) (h mi : ℤ) (s : ℚ) (a' : ℤ × ℤ × ℤ) (h' mi' : ℤ) (s' : ℚ) : Prop :=
  Before a a' ∨ a = a' ∧ (60 * h + mi < 60 * h' + mi' ∨ 60 * h + mi = 60 * h' + mi' ∧ s + 1 / 1000 ≤ s')

/-- **C175** (order): from 1902 to 2099, a later earthquake has a larger Julian date in double precision, down to differences of a millisecond. -/
theorem C175_order {y m d h mi y' m' d' h' mi' : ℤ} {s s' : Dbl} (y1 : 1902 ≤ y) (y2 : y' ≤ 2099) (hd : IsDate y m d) (hd' : IsDate y' m' d') (ht : IsTime h mi s.val)
    (ht' : IsTime h' mi' s'.val) (hlt : EarlierInstant (y, m, d) h mi s.val (y', m', d') h' mi' s'.val) :
    greg2julian (y : Dbl) (m : Dbl) (d : Dbl) (h : Dbl) (mi : Dbl) s < greg2julian (y' : Dbl) (m' : Dbl) (d' : Dbl) (h' : Dbl) (mi' : Dbl) s' := by
  have hyy : y ≤ y' := by
    rcases hlt with hb | ⟨he, -⟩
    · rcases hb with hb | ⟨hb, -⟩ <;> simp only at hb <;> omega
    · simp only [Prod.mk.injEq] at he; omega
  have a := julian_close (abs_le.2 ⟨by omega, by omega⟩) hd ht
  have b := julian_close (abs_le.2 ⟨by omega, by omega⟩) hd' ht'
  obtain ⟨-, a2⟩ := abs_le.1 a
  obtain ⟨b1, -⟩ := abs_le.1 b
  rw [lt_def]
  obtain ⟨t1, t2, t3, t4, t5, t6⟩ := ht
  obtain ⟨t1', t2', t3', t4', t5', t6'⟩ := ht'
  have eps : (1 : ℚ) / 10 ^ 9 + 1 / 10 ^ 9 < 1 / 1000 / 3600 / 24 := by norm_num
  have hday : (60 * h + mi + 1 : ℚ) ≤ 24 * 60 := by exact_mod_cast (by omega : 60 * h + mi + 1 ≤ 24 * 60)
  have hday' : (0 : ℚ) ≤ 60 * h' + mi' := by exact_mod_cast (by omega : 0 ≤ 60 * h' + mi')
  rcases hlt with hb | ⟨he, hb⟩
  · have hj : (jdInt y m d : ℚ) + 1 ≤ jdInt y' m' d' := by exact_mod_cast jdInt_before y1 y2 hd hd' hb
    linarith
  · simp only [Prod.mk.injEq] at he
    obtain ⟨rfl, rfl, rfl⟩ := he
    rcases hb with hb | ⟨hb, hs⟩
    · have hb' : (60 * h + mi + 1 : ℚ) ≤ 60 * h' + mi' := by exact_mod_cast hb
      linarith
    · have hb' : (60 * h + mi : ℚ) = 60 * h' + mi' := by exact_mod_cast hb
      linarith

/-- Non-vacuity of C175: one millisecond on New Year's Day of 2000, and the turn of that year. -/
example : greg2julian ((2000 : ℤ) : Dbl) ((1 : ℤ) : Dbl) ((1 : ℤ) : Dbl) ((12 : ℤ) : Dbl) ((30 : ℤ) : Dbl) (Dbl.of 10) <
    greg2julian ((2000 : ℤ) : Dbl) ((1 : ℤ) : Dbl) ((1 : ℤ) : Dbl) ((12 : ℤ) : Dbl) ((30 : ℤ) : Dbl) (Dbl.of (10002 / 1000)) :=
  C175_order (by norm_num) (by norm_num) (by simp [IsDate, monthLen]) (by simp [IsDate, monthLen]) (by unfold IsTime; decide +kernel) (by unfold IsTime; decide +kernel)
    (Or.inr ⟨rfl, Or.inr ⟨rfl, by decide +kernel⟩⟩)

example : greg2julian ((1999 : ℤ) : Dbl) ((12 : ℤ) : Dbl) ((31 : ℤ) : Dbl) ((23 : ℤ) : Dbl) ((59 : ℤ) : Dbl) (Dbl.of 59) <
    greg2julian ((2000 : ℤ) : Dbl) ((1 : ℤ) : Dbl) ((1 : ℤ) : Dbl) ((0 : ℤ) : Dbl) ((0 : ℤ) : Dbl) (Dbl.of 0) :=
  C175_order (by norm_num) (by norm_num) (by simp [IsDate, monthLen]) (by simp [IsDate, monthLen]) (by unfold IsTime; decide +kernel) (by unfold IsTime; decide +kernel) (Or.inl (Or.inl (by norm_num)))

/-- The value of the second example to the bit. -/
example : (greg2julian ((2000 : ℤ) : Dbl) ((1 : ℤ) : Dbl) ((1 : ℤ) : Dbl) ((12 : ℤ) : Dbl) ((0 : ℤ) : Dbl) (Dbl.of 0)).val = 2451545 := by decide +kernel

end Verif.CatUtil
