import Verif.Lemmas.Double
import Verif.Props.CatalogueUtilities

/-!
# C169: the decimal year in double precision
-/

namespace Verif.CatUtil

open Verif Spec Verif.Dbl

theorem int_add {a b : ℤ} (ha : |a| ≤ 2 ^ 52) (hb : |b| ≤ 2 ^ 52) : (a : Dbl) + (b : Dbl) = ((a + b : ℤ) : Dbl) := by
  apply Dbl.ext
  rw [val_add, val_int_exact (by linarith), val_int_exact (by linarith), val_int]
  push_cast; rfl

theorem int_sub {a b : ℤ} (ha : |a| ≤ 2 ^ 52) (hb : |b| ≤ 2 ^ 52) : (a : Dbl) - (b : Dbl) = ((a - b : ℤ) : Dbl) := by
  apply Dbl.ext
  rw [val_sub, val_int_exact (by linarith), val_int_exact (by linarith), val_int]
  push_cast; rfl

theorem nat_int (n : ℕ) : (n : Dbl) = ((n : ℤ) : Dbl) := by
  apply Dbl.ext
  rw [val_nat, val_int]; push_cast; rfl

theorem marker_le {i k : ℕ} (h : marker[i]? = some k) : k ≤ 334 := by
  have := List.mem_of_getElem? h
  revert this
  simp only [marker, List.mem_cons, List.not_mem_nil, or_false]
  omega

/-- The decimal year of a date, in double precision and exactly. -/
theorem decimalYear_both {y m d : ℤ} (h : IsDate y m d) :
    ∃ n : ℤ, 0 ≤ n ∧ n < 365 ∧ decimalYear (y : Dbl) (m : Dbl) (d : Dbl) = .ok ((y : Dbl) + (n : Dbl) / ((365 : ℕ) : Dbl)) ∧
      decimalYear (y : ℝ) (m : ℝ) (d : ℝ) = .ok ((y : ℝ) + (n : ℝ) / 365) := by
  obtain ⟨h1, h2, h3, h4⟩ := h
  obtain ⟨k, hk, hx⟩ := decimalYear_date y m d h1 h2
  have hd : d ≤ 31 := by
    refine h4.trans ?_
    unfold monthLen
    split_ifs <;> norm_num
  have hb : 0 ≤ (k : ℤ) + d - 1 ∧ (k : ℤ) + d - 1 < 365 := by
    unfold monthLen at h4
    interval_cases m <;> simp [marker] at hk h4 <;> subst hk <;> (try split_ifs at h4) <;> omega
  refine ⟨(k : ℤ) + d - 1, hb.1, hb.2, ?_, hx⟩
  have ht : truncZ ((m : Dbl) - ((1 : ℕ) : Dbl)) = m - 1 := by
    rw [nat_int, int_sub (abs_le.2 ⟨by omega, by omega⟩) (by norm_num), truncZ, if_neg]
    · rw [floorZ_def, val_int_exact (abs_le.2 ⟨by push_cast; omega, by push_cast; omega⟩), Int.floor_intCast]
      norm_num
    · rw [lt_def, val_int_exact (abs_le.2 ⟨by push_cast; omega, by push_cast; omega⟩), val_nat_exact (by norm_num), not_lt]
      exact_mod_cast (by push_cast; omega : ((0 : ℕ) : ℤ) ≤ m - ((1 : ℕ) : ℤ))
  have hkl := marker_le hk
  simp only [decimalYear, ht, pyIndex, if_pos (show (0 : ℤ) ≤ m - 1 by omega), hk, bind, Except.bind, Except.ok.injEq]
  rw [nat_int k, int_add (abs_le.2 ⟨by omega, by omega⟩) (abs_le.2 ⟨by omega, by omega⟩), nat_int 1, int_sub (abs_le.2 ⟨by omega, by omega⟩) (by norm_num)]
  norm_num

/-- The decimal year is accurate, and not before the year. -/
theorem decimalYear_close {y n : ℤ} (hy : |y| ≤ 10000) (h0 : 0 ≤ n) (h1 : n < 365) :
    |((y : Dbl) + (n : Dbl) / ((365 : ℕ) : Dbl)).val - (y + n / 365)| ≤ 1 / 10 ^ 11 ∧ (y : ℚ) ≤ ((y : Dbl) + (n : Dbl) / ((365 : ℕ) : Dbl)).val := by
  obtain ⟨y1, y2⟩ := abs_le.1 hy
  have hyq : |(y : ℚ)| ≤ 10000 := by rw [← Int.cast_abs]; exact_mod_cast hy
  have hn0 : (0 : ℚ) ≤ n / 365 := div_nonneg (by exact_mod_cast h0) (by norm_num)
  have hn1 : (n : ℚ) / 365 ≤ 1 := by rw [div_le_one (by norm_num)]; exact_mod_cast h1.le
  have e1 : ((n : Dbl) / ((365 : ℕ) : Dbl)).val = rnd53 (n / 365) := by
    rw [val_div, val_int_exact (abs_le.2 ⟨by omega, by omega⟩), val_nat_exact (by norm_num)]
    norm_num
  have e2 : |rnd53 ((n : ℚ) / 365) - n / 365| ≤ 2 / 2 ^ 53 := (of_near (B := 1) (abs_le.2 ⟨by linarith, hn1⟩)).trans (by norm_num)
  have e3 : (0 : ℚ) ≤ rnd53 (n / 365) := by
    have := rnd53_mono hn0
    rwa [rnd53_zero] at this
  rw [val_add, e1, val_int_exact (by linarith)]
  constructor
  · refine (rnd_near (ε := 2 / 2 ^ 53) (B := 10001) ?_ ?_ (by norm_num)).trans (by norm_num)
    · rwa [add_sub_add_left_eq_sub]
    · refine (abs_add_le _ _).trans ?_
      rw [abs_of_nonneg hn0]
      linarith
  · have := rnd53_mono (show (y : ℚ) ≤ y + rnd53 (n / 365) by linarith)
    rwa [rnd53_int (by linarith)] at this

/-- **C169** (integer part): in double precision the decimal year of a calendar date lies in the calendar year, for all years that the reader accepts up to the year 10000. -/
theorem C169_integer_part {y m d : ℤ} (hy : |y| ≤ 10000) (h : IsDate y m d) : ∃ x : Dbl, decimalYear (y : Dbl) (m : Dbl) (d : Dbl) = .ok x ∧ ⌊x.val⌋ = y := by
  obtain ⟨n, n0, n1, hx, _⟩ := decimalYear_both h
  obtain ⟨hc, hl⟩ := decimalYear_close hy n0 n1
  refine ⟨_, hx, ?_⟩
  rw [Int.floor_eq_iff]
  refine ⟨hl, ?_⟩
  have : (n : ℚ) / 365 ≤ 364 / 365 := div_le_div_of_nonneg_right (by exact_mod_cast (by omega : n ≤ 364)) (by norm_num)
  have := (abs_le.1 hc).2
  linarith [show (364 : ℚ) / 365 + 1 / 10 ^ 11 < 1 by norm_num]

/-- **C169** (order): of two different dates the earlier one has the smaller decimal year in double precision, except 29 February and 1 March of the same year, which have the same. -/
theorem C169_order {y m d y' m' d' : ℤ} (hy : |y| ≤ 10000) (hy' : |y'| ≤ 10000) (h : IsDate y m d) (h' : IsDate y' m' d') (hlt : Before (y, m, d) (y', m', d')) :
    ∃ x x' : Dbl, decimalYear (y : Dbl) (m : Dbl) (d : Dbl) = .ok x ∧ decimalYear (y' : Dbl) (m' : Dbl) (d' : Dbl) = .ok x' ∧
      x ≤ x' ∧ (x = x' ↔ (y = y' ∧ m = 2 ∧ d = 29 ∧ m' = 3 ∧ d' = 1)) := by
  obtain ⟨n, n0, n1, hx, hr⟩ := decimalYear_both h
  obtain ⟨n', n0', n1', hx', hr'⟩ := decimalYear_both h'
  obtain ⟨z, z', hz, hz', hle, heq⟩ := C48_order y m d y' m' d' h h' hlt
  rw [hr] at hz; rw [hr'] at hz'
  cases hz; cases hz'
  refine ⟨_, _, hx, hx', ?_⟩
  obtain ⟨hc, _⟩ := decimalYear_close hy n0 n1
  obtain ⟨hc', _⟩ := decimalYear_close hy' n0' n1'
  by_cases he : 365 * y + n = 365 * y' + n'
  · have hyy : y = y' := by omega
    have hnn : n = n' := by omega
    subst hyy hnn
    exact ⟨le_def.2 (le_refl _), iff_of_true rfl (heq.1 rfl)⟩
  · have hlt : 365 * y + n + 1 ≤ 365 * y' + n' := by
      have : (365 * y + n : ℤ) ≤ 365 * y' + n' := by
        have : ((365 * y + n : ℤ) : ℝ) ≤ ((365 * y' + n' : ℤ) : ℝ) := by push_cast; linarith
        exact_mod_cast this
      omega
    have hq : (365 * y + n + 1 : ℚ) ≤ 365 * y' + n' := by exact_mod_cast hlt
    have hs : ((y : Dbl) + (n : Dbl) / ((365 : ℕ) : Dbl)).val < ((y' : Dbl) + (n' : Dbl) / ((365 : ℕ) : Dbl)).val := by
      have a := (abs_le.1 hc).2
      have b := (abs_le.1 hc').1
      have g : (1 : ℚ) / 10 ^ 11 + 1 / 10 ^ 11 < 1 / 365 := by norm_num
      linarith
    refine ⟨hs.le, ⟨fun e => absurd (congrArg Dbl.val e) hs.ne, fun e => absurd ?_ he⟩⟩
    have := heq.2 e
    have : ((365 * y + n : ℤ) : ℝ) = ((365 * y' + n' : ℤ) : ℝ) := by push_cast; linarith
    exact_mod_cast this

/-- Non-vacuity of C169: New Year's Eve and New Year's Day; the exceptional pair. -/
example : ∃ x x' : Dbl, decimalYear ((1999 : ℤ) : Dbl) ((12 : ℤ) : Dbl) ((31 : ℤ) : Dbl) = .ok x ∧ decimalYear ((2000 : ℤ) : Dbl) ((1 : ℤ) : Dbl) ((1 : ℤ) : Dbl) = .ok x' ∧ x < x' := by
  obtain ⟨x, x', h1, h2, h3, h4⟩ := C169_order (y := 1999) (m := 12) (d := 31) (y' := 2000) (m' := 1) (d' := 1) (by norm_num) (by norm_num) (by simp [IsDate, monthLen]) (by simp [IsDate, monthLen])
    (by simp [Before])
  refine ⟨x, x', h1, h2, lt_of_le_of_ne (show x.val ≤ x'.val from h3) fun h => ?_⟩
  have := h4.1 (Dbl.ext h)
  omega

end Verif.CatUtil
