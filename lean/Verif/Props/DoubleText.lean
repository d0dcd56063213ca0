import Verif.Model.Repr
import Verif.Lemmas.FormatOrder
import Verif.Props.Csv
import Verif.Props.NrmlExamples

/-!
# C181, C182: numbers written and read, in double precision
-/

namespace Verif.Format

open Verif Verif.EqCatalog

/-- The integer nearest to a number close to it. -/
theorem rint_near {y : ℚ} {n : ℤ} (h : |y - n| < 1 / 2) : rintK y = n := by
  obtain ⟨a, b⟩ := abs_lt.1 h
  obtain ⟨r1, r2⟩ := rintK_bounds y
  have c : ((rintK y : ℤ) : ℚ) < (n + 1 : ℤ) := by push_cast; linarith
  have d : ((n : ℤ) : ℚ) < (rintK y + 1 : ℤ) := by push_cast; linarith
  have c' : rintK y < n + 1 := by exact_mod_cast c
  have d' : n < rintK y + 1 := by exact_mod_cast d
  omega

theorem rintK_neg (x : ℚ) : rintK (-x) = -rintK x := by
  by_cases hz : x = ⌊x⌋
  · rw [hz, ← Int.cast_neg, rintK_int, rintK_int]
  · have f1 := Int.floor_le x
    have f2 := Int.lt_floor_add_one x
    have f1' : (⌊x⌋ : ℚ) < x := lt_of_le_of_ne f1 (Ne.symm hz)
    have hf : ⌊-x⌋ = -⌊x⌋ - 1 := by
      rw [Int.floor_eq_iff]
      push_cast
      exact ⟨by linarith, by linarith⟩
    simp only [rintK, hf]
    push_cast
    generalize ⌊x⌋ = f at *
    by_cases a : x - f < 1 / 2
    · rw [if_pos a, if_neg (by linarith), if_pos (by linarith)]; ring
    · by_cases b : 1 / 2 < x - f
      · rw [if_neg a, if_pos b, if_pos (by linarith)]; ring
      · rw [if_neg a, if_neg b, if_neg (by linarith), if_neg (by linarith)]
        split_ifs <;> omega

theorem rnd53_neg (x : ℚ) : rnd53 (-x) = -rnd53 x := by
  have hl : ilog2 (-x) = ilog2 x := by simp [ilog2]
  unfold rnd53
  by_cases h : x = 0
  · simp [h]
  · rw [if_neg (neg_ne_zero.2 h), if_neg h, hl, neg_div, rintK_neg]
    push_cast; ring

/-- A number that agrees with a double to seventeen digits is read as this double. -/
theorem rnd53_near {x v : ℚ} (hx : 0 < x) (hr : rnd53 x = x) (h : |v - x| ≤ x * (5 / 10 ^ 17)) : rnd53 v = x := by
  obtain ⟨E, hE⟩ : ∃ E, E = ilog2 x := ⟨_, rfl⟩
  obtain ⟨l1, l2⟩ := ilog2_spec hx.ne'
  rw [abs_of_pos hx, ← hE] at l1 l2
  have hu := pow2_pos (E - 52)
  obtain ⟨n, hn⟩ : ∃ n : ℤ, x = n * pow2 (E - 52) := by
    refine ⟨rintK (x / pow2 (ilog2 x - 52)), ?_⟩
    rw [hE]
    unfold rnd53 at hr
    rw [if_neg hx.ne'] at hr
    exact hr.symm
  obtain ⟨u, hu'⟩ : ∃ u, u = pow2 (E - 52) := ⟨_, rfl⟩
  have e1 : pow2 E = 2 ^ 52 * u := by
    rw [hu', show E = 52 + (E - 52) by ring, pow2_add]; norm_num [pow2]
  have e2 : pow2 (E + 1) = 2 ^ 53 * u := by
    rw [hu', show E + 1 = 53 + (E - 52) by ring, pow2_add]; norm_num [pow2]
  have e3 : pow2 (E - 53) = u / 2 := by
    rw [hu', show E - 53 = -1 + (E - 52) by ring, pow2_add, pow2_eq (-1)]; norm_num; ring
  rw [← hu'] at hu hn
  rw [hn, e1] at l1
  rw [hn, e2] at l2
  have n1 : (2 : ℚ) ^ 52 ≤ n := le_of_mul_le_mul_right l1 hu
  have n2 : (n : ℚ) < 2 ^ 53 := lt_of_mul_lt_mul_right l2 hu.le
  have n1z : (2 : ℤ) ^ 52 ≤ n := by exact_mod_cast n1
  have n2z : n < (2 : ℤ) ^ 53 := by exact_mod_cast n2
  have n3 : (n : ℚ) ≤ 2 ^ 53 - 1 := by
    have : n ≤ 2 ^ 53 - 1 := by omega
    exact_mod_cast this
  obtain ⟨y, hy⟩ : ∃ y, v = y * u := ⟨v / u, by field_simp⟩
  have hd : |y - n| ≤ n * (5 / 10 ^ 17) := by
    rw [hy, hn, ← sub_mul, abs_mul, abs_of_pos hu, mul_right_comm] at h
    exact le_of_mul_le_mul_right h hu
  have hh : (n : ℚ) * (5 / 10 ^ 17) < 1 / 2 := by
    calc (n : ℚ) * (5 / 10 ^ 17) ≤ 2 ^ 53 * (5 / 10 ^ 17) := mul_le_mul_of_nonneg_right n2.le (by norm_num)
      _ < 1 / 2 := by norm_num
  obtain ⟨y1, y2⟩ := abs_le.1 hd
  have y0 : 0 < y := by linarith [show (0 : ℚ) < 2 ^ 52 - 1 by norm_num]
  have hv : 0 < v := by rw [hy]; positivity
  by_cases hc : (2 : ℚ) ^ 52 ≤ y
  · have hlog : ilog2 v = E := by
      refine le_antisymm (Int.lt_add_one_iff.1 ((ilog2_lt hv.ne').2 ?_)) (not_lt.1 fun hlt => ?_)
      · rw [abs_of_pos hv, e2, hy]
        exact mul_lt_mul_of_pos_right (by linarith) hu
      · have := (ilog2_lt hv.ne').1 hlt
        rw [abs_of_pos hv, e1, hy] at this
        exact absurd (lt_of_mul_lt_mul_right this hu.le) (not_lt.2 hc)
    unfold rnd53
    rw [if_neg hv.ne', hlog, ← hu', hy, mul_div_assoc, div_self hu.ne', mul_one, rint_near (lt_of_le_of_lt hd hh), hn]
  · rw [not_le] at hc
    have hn52 : n = 2 ^ 52 := by
      have : (n : ℚ) < (2 ^ 52 + 1 : ℤ) := by push_cast; linarith
      have : n < 2 ^ 52 + 1 := by exact_mod_cast this
      omega
    have hlog : ilog2 v = E - 1 := by
      refine le_antisymm (Int.le_sub_one_iff.2 ((ilog2_lt hv.ne').2 ?_)) (not_lt.1 fun hlt => ?_)
      · rw [abs_of_pos hv, e1, hy]
        exact mul_lt_mul_of_pos_right hc hu
      · have := (ilog2_lt hv.ne').1 hlt
        have e4 : pow2 (E - 1) = 2 ^ 51 * u := by
          rw [hu', show E - 1 = 51 + (E - 52) by ring, pow2_add]; norm_num [pow2]
        rw [abs_of_pos hv, e4, hy] at this
        have := lt_of_mul_lt_mul_right this hu.le
        linarith [show (2 : ℚ) ^ 51 < 2 ^ 52 - 1 by norm_num]
    unfold rnd53
    rw [if_neg hv.ne', hlog, show E - 1 - 52 = E - 53 by ring, e3, hy]
    have : y * u / (u / 2) = 2 * y := by field_simp
    rw [this, rint_near (n := 2 ^ 53)]
    · rw [hn, hn52]; push_cast; ring
    · have hq : (n : ℚ) = 2 ^ 52 := by rw [hn52]; norm_num
      rw [hq] at y1 y2
      have : |2 * y - ((2 ^ 53 : ℤ) : ℚ)| ≤ 2 ^ 53 * (5 / 10 ^ 17) := by
        push_cast
        exact abs_le.2 ⟨by linarith, by linarith⟩
      exact lt_of_le_of_lt this (by norm_num)

/-- The nearest decimal number with seventeen digits is read as the double. -/
theorem nearest17 {x : ℚ} (hx : 0 < x) (hr : rnd53 x = x) :
    rnd53 (((rintK (x * (10 : ℚ) ^ (((16 : ℕ) : ℤ) - Int.log 10 x)) : ℤ) : ℚ) * (10 : ℚ) ^ (Int.log 10 x - ((16 : ℕ) : ℤ))) = x := by
  have h1 : ((10 : ℕ) : ℚ) ^ Int.log 10 x ≤ x := Int.zpow_log_le_self (by norm_num) hx
  push_cast at h1
  have hp : (0 : ℚ) < (10 : ℚ) ^ (Int.log 10 x - 16) := by positivity
  have hb := rintK_bounds (x * (10 : ℚ) ^ (((16 : ℕ) : ℤ) - Int.log 10 x))
  have hback : x = x * (10 : ℚ) ^ (((16 : ℕ) : ℤ) - Int.log 10 x) * (10 : ℚ) ^ (Int.log 10 x - ((16 : ℕ) : ℤ)) := by
    rw [mul_assoc, ← zpow_add₀ (by norm_num)]; simp
  refine rnd53_near hx hr ?_
  push_cast at hb hback ⊢
  generalize x * (10 : ℚ) ^ ((16 : ℤ) - Int.log 10 x) = q at hb hback
  have hd : ((rintK q : ℤ) : ℚ) * (10 : ℚ) ^ (Int.log 10 x - 16) - x = ((rintK q : ℚ) - q) * (10 : ℚ) ^ (Int.log 10 x - 16) := by
    rw [sub_mul, ← hback]
  rw [hd, abs_mul, abs_of_pos hp]
  have hz : (10 : ℚ) ^ (Int.log 10 x - 16) = (10 : ℚ) ^ Int.log 10 x / 10 ^ 16 := by
    rw [zpow_sub₀ (by norm_num)]; norm_num
  have ha : |((rintK q : ℤ) : ℚ) - q| ≤ 1 / 2 := abs_le.2 ⟨by linarith [hb.2], by linarith [hb.1]⟩
  calc |((rintK q : ℤ) : ℚ) - q| * (10 : ℚ) ^ (Int.log 10 x - 16) ≤ 1 / 2 * (10 : ℚ) ^ (Int.log 10 x - 16) := mul_le_mul_of_nonneg_right ha hp.le
    _ = (10 : ℚ) ^ Int.log 10 x * (5 / 10 ^ 17) := by rw [hz]; ring
    _ ≤ x * (5 / 10 ^ 17) := mul_le_mul_of_nonneg_right h1 (by norm_num)

theorem shortest_spec {x : ℚ} (hx : 0 < x) (hr : rnd53 x = x) :
    ∃ m i, shortest x = some (m, i) ∧ i < 17 ∧ 0 ≤ m ∧ m ≤ 10 ^ (i + 1) ∧ rnd53 ((m : ℚ) * (10 : ℚ) ^ (Int.log 10 x - i)) = x := by
  cases hs : shortest x with
  | none =>
    exfalso
    have := List.find?_eq_none.1 hs (rintK (x * (10 : ℚ) ^ (((16 : ℕ) : ℤ) - Int.log 10 x)), 16)
      (List.mem_flatMap.2 ⟨16, by simp, List.mem_map.2 ⟨_, List.mem_cons_self, rfl⟩⟩)
    exact this (by simpa using nearest17 hx hr)
  | some p =>
    obtain ⟨m, i⟩ := p
    have h1 := List.find?_some hs
    have h2 := List.mem_of_find?_eq_some hs
    simp only [decide_eq_true_eq] at h1
    obtain ⟨i', hi', h2⟩ := List.mem_flatMap.1 h2
    obtain ⟨m', hm', h2⟩ := List.mem_map.1 h2
    simp only [Prod.mk.injEq] at h2
    obtain ⟨rfl, rfl⟩ := h2
    refine ⟨_, _, rfl, List.mem_range.1 hi', ?_, ?_, h1⟩ <;>
    simp only [neighbours, List.mem_cons, List.not_mem_nil, or_false] at hm'
    all_goals
      have hs0 : 0 ≤ x * (10 : ℚ) ^ ((i' : ℤ) - Int.log 10 x) := by positivity
      have hs1 : x * (10 : ℚ) ^ ((i' : ℤ) - Int.log 10 x) ≤ ((10 ^ (i' + 1) : ℤ) : ℚ) := by
        have h2 : x < ((10 : ℕ) : ℚ) ^ (Int.log 10 x + 1) := Int.lt_zpow_succ_log_self (by norm_num) x
        push_cast at h2 ⊢
        calc x * (10 : ℚ) ^ ((i' : ℤ) - Int.log 10 x) ≤ (10 : ℚ) ^ (Int.log 10 x + 1) * (10 : ℚ) ^ ((i' : ℤ) - Int.log 10 x) :=
              mul_le_mul_of_nonneg_right h2.le (by positivity)
          _ = (10 : ℚ) ^ (i' + 1) := by
              rw [← zpow_add₀ (by norm_num), ← zpow_natCast]; congr 1; push_cast; ring
      generalize x * (10 : ℚ) ^ ((i' : ℤ) - Int.log 10 x) = s at hm' hs0 hs1
      have f0 := Int.floor_nonneg.2 hs0
      have c0 : ⌈s⌉ ≤ 10 ^ (i' + 1) := Int.ceil_le.2 hs1
      have r1 := rintK_mono (Int.le_ceil s)
      have r2 := rintK_mono (Int.floor_le s)
      rw [rintK_int] at r1 r2
      rcases hm' with rfl | rfl <;> omega

/-- The value of the digits is read as the double. -/
theorem digits17_value {x : ℚ} (hx : 0 < x) (hr : rnd53 x = x) : rnd53 (((digits17 x).1 : ℚ) * (10 : ℚ) ^ ((digits17 x).2 - 16)) = x := by
  obtain ⟨m, i, hs, hi, hm, -, hv⟩ := shortest_spec hx hr
  have hd : (((m * 10 ^ (16 - i)).toNat : ℕ) : ℚ) * (10 : ℚ) ^ (Int.log 10 x - 16) = (m : ℚ) * (10 : ℚ) ^ (Int.log 10 x - i) := by
    have h0 : (((m * 10 ^ (16 - i)).toNat : ℕ) : ℤ) = m * 10 ^ (16 - i) := Int.toNat_of_nonneg (by positivity)
    have h0 : (((m * 10 ^ (16 - i)).toNat : ℕ) : ℚ) = m * 10 ^ (16 - i) := by exact_mod_cast congrArg (Int.cast (R := ℚ)) h0
    rw [h0, mul_assoc, ← zpow_natCast, ← zpow_add₀ (by norm_num)]
    congr 2
    omega
  unfold digits17
  rw [hs]
  simp only
  split_ifs with h
  · rw [h] at hd
    refine Eq.trans (congrArg rnd53 ?_) hv
    rw [← hd]
    simp only
    rw [show Int.log 10 x + 1 - 16 = 1 + (Int.log 10 x - 16) by ring, zpow_add₀ (by norm_num)]
    push_cast
    ring
  · exact Eq.trans (congrArg rnd53 hd) hv

theorem unsigned_reprPos (x : ℚ) : unsigned (reprPos x) = some (((digits17 x).1 : ℚ) * (10 : ℚ) ^ ((digits17 x).2 - 16)) := by
  unfold reprPos
  simp only
  split
  · next h =>
    rw [unsigned_fixed, dropZeros_value]
    congr 2
    congr 1
    omega
  · rw [unsigned_exp]
    have := dropZeros_value (K := ℚ) 0 (digits17 x).1 16
    rw [show (digits17 x).2 - ((dropZeros 0 (digits17 x).1 16).2 : ℤ) = -((dropZeros 0 (digits17 x).1 16).2 : ℤ) + (digits17 x).2 by ring,
      zpow_add₀ (by norm_num), ← mul_assoc, this, mul_assoc, ← zpow_add₀ (by norm_num)]
    congr 3
    push_cast; ring

theorem reprPos_chars (x : ℚ) : ∀ c ∈ reprPos x, NumChar c := by
  intro c hc
  unfold reprPos at hc
  simp only at hc
  split at hc
  · rcases fixed_chars _ _ c hc with h | h
    · exact .inl h
    · exact .inr (.inl h)
  · rcases List.mem_append.1 hc with hc | hc
    · rcases fixed_chars _ _ c hc with h | h
      · exact .inl h
      · exact .inr (.inl h)
    · exact expText_chars _ c hc

theorem reprPos_head (x : ℚ) : ∃ c cs, reprPos x = c :: cs ∧ IsDigit c := by
  unfold reprPos
  simp only
  split
  · exact fixed_head _ _
  · obtain ⟨c, cs, h, hc⟩ := fixed_head (dropZeros 0 (digits17 x).1 16).1 (dropZeros 0 (digits17 x).1 16).2
    exact ⟨c, cs ++ expText (digits17 x).2, by rw [h]; rfl, hc⟩

/-- **C181** for one number: `float(repr(x))` is `x`, for every double. -/
theorem C181_number (x : Dbl) : floatDbl (reprDbl x) = some x := by
  unfold floatDbl reprDbl
  have hneg : rnd53 (-x.val) = -x.val := by
    rw [rnd53_neg, x.ok]
  split_ifs with h0 h1
  · have : pyFloat (K := ℚ) ['0', '.', '0'] = some 0 := by decide +kernel
    rw [this, Option.map_some]
    congr 1
    exact Dbl.ext (by rw [Dbl.val_of, rnd53_zero, h0])
  · have hp : 0 < -x.val := by linarith
    rw [pyFloat_neg _ (fun c hc => numChar_not_ws (reprPos_chars _ c hc)), unsigned_reprPos]
    simp only [Option.map_some, Option.some.injEq]
    refine Dbl.ext ?_
    rw [Dbl.val_of, rnd53_neg, digits17_value hp hneg, neg_neg]
  · have hp : 0 < x.val := lt_of_le_of_ne (not_lt.1 h1) (Ne.symm h0)
    rw [pyFloat_unsigned _ (fun c hc => numChar_not_ws (reprPos_chars _ c hc)) (reprPos_head _), unsigned_reprPos]
    simp only [Option.map_some, Option.some.injEq]
    exact Dbl.ext (digits17_value hp x.ok)

/-! ### Twelve digits -/

theorem log_eq {x : ℚ} (hx : 0 < x) {e : ℤ} (h1 : (10 : ℚ) ^ e ≤ x) (h2 : x < (10 : ℚ) ^ (e + 1)) : Int.log 10 x = e := by
  apply le_antisymm
  · rw [← Int.lt_add_one_iff, ← Int.lt_zpow_iff_log_lt (by norm_num) hx]
    exact_mod_cast h2
  · rw [← Int.zpow_le_iff_le_log (by norm_num) hx]
    exact_mod_cast h1

/-- The twelve digits of a number that is a rounding error away from a number with twelve digits. -/
theorem sig12_near {n : ℕ} {e : ℤ} (h1 : 10 ^ 11 ≤ n) (h2 : n < 10 ^ 12) {x : ℚ} (h : |x - n * (10 : ℚ) ^ (e - 11)| ≤ n * (10 : ℚ) ^ (e - 11) / 2 ^ 53) :
    0 < x ∧ sig12 x = (n, e) := by
  obtain ⟨u, hu⟩ : ∃ u, u = (10 : ℚ) ^ (e - 11) := ⟨_, rfl⟩
  have u0 : 0 < u := by rw [hu]; positivity
  rw [← hu] at h
  obtain ⟨y, hy⟩ : ∃ y, x = y * u := ⟨x / u, by field_simp⟩
  have n1 : (10 : ℚ) ^ 11 ≤ n := by exact_mod_cast h1
  have n2 : (n : ℚ) ≤ 10 ^ 12 - 1 := by
    have : n ≤ 10 ^ 12 - 1 := by omega
    have : (n : ℚ) ≤ ((10 ^ 12 - 1 : ℕ) : ℚ) := by exact_mod_cast this
    exact this.trans (by norm_num)
  have hd : |y - n| ≤ n / 2 ^ 53 := by
    rw [hy, ← sub_mul, abs_mul, abs_of_pos u0, mul_div_right_comm] at h
    exact le_of_mul_le_mul_right h u0
  have hh : (n : ℚ) / 2 ^ 53 ≤ 1 / 1000 := by
    calc (n : ℚ) / 2 ^ 53 ≤ 10 ^ 12 / 2 ^ 53 := div_le_div_of_nonneg_right (by linarith) (by norm_num)
      _ ≤ 1 / 1000 := by norm_num
  obtain ⟨y1, y2⟩ := abs_le.1 (hd.trans hh)
  have y0 : 0 < y := by linarith [show (0 : ℚ) < 10 ^ 11 - 1 by norm_num]
  have x0 : 0 < x := by rw [hy]; positivity
  have e1 : (10 : ℚ) ^ e = 10 ^ 11 * u := by
    rw [hu, ← zpow_natCast, ← zpow_add₀ (by norm_num)]; congr 1; push_cast; ring
  refine ⟨x0, ?_⟩
  by_cases hc : (10 : ℚ) ^ 11 ≤ y
  · have hlog : Int.log 10 x = e := by
      refine log_eq x0 ?_ ?_
      · rw [e1, hy]; exact mul_le_mul_of_nonneg_right hc u0.le
      · rw [zpow_add₀ (by norm_num), e1, hy, zpow_one, mul_right_comm]
        exact mul_lt_mul_of_pos_right (by linarith [show (10 : ℚ) ^ 12 - 1 + 1 / 1000 < 10 ^ 11 * 10 by norm_num]) u0
    have hs : x * (10 : ℚ) ^ (11 - e) = y := by
      rw [hy, hu, mul_assoc, ← zpow_add₀ (by norm_num)]; simp
    simp only [sig12, hlog, hs]
    rw [rint_near (n := (n : ℤ)) (by push_cast; exact abs_lt.2 ⟨by linarith, by linarith⟩)]
    simp only [Int.toNat_natCast]
    rw [if_neg (by omega)]
  · rw [not_le] at hc
    have hn : n = 10 ^ 11 := by
      have : (n : ℚ) < ((10 ^ 11 + 1 : ℕ) : ℚ) := by push_cast; linarith
      have : n < 10 ^ 11 + 1 := by exact_mod_cast this
      omega
    have hnq : (n : ℚ) = 10 ^ 11 := by rw [hn]; norm_num
    have hlog : Int.log 10 x = e - 1 := by
      refine log_eq x0 ?_ ?_
      · rw [zpow_sub₀ (by norm_num), e1, hy, zpow_one, mul_div_right_comm]
        exact mul_le_mul_of_nonneg_right (by linarith [show (10 : ℚ) ^ 11 / 10 ≤ 10 ^ 11 - 1 by norm_num]) u0.le
      · rw [sub_add_cancel, e1, hy]
        exact mul_lt_mul_of_pos_right hc u0
    have hs : x * (10 : ℚ) ^ (11 - (e - 1)) = 10 * y := by
      rw [hy, hu, mul_assoc, ← zpow_add₀ (by norm_num), show e - 11 + (11 - (e - 1)) = 1 by ring, zpow_one]; ring
    simp only [sig12, hlog, hs]
    rw [rint_near (n := 10 ^ 12)]
    · rw [if_pos (by decide), hn, sub_add_cancel]
    · rw [hnq] at hd
      obtain ⟨z1, z2⟩ := abs_le.1 hd
      have : |10 * y - ((10 ^ 12 : ℤ) : ℚ)| ≤ 10 ^ 12 / 2 ^ 53 := by
        push_cast
        exact abs_le.2 ⟨by linarith, by linarith⟩
      exact lt_of_le_of_lt this (by norm_num)

/-- Rounding to a double does not change the twelve digits printed. -/
theorem sig12_rnd53 {x : ℚ} (hx : 0 < x) : 0 < rnd53 (val12 x) ∧ sig12 (rnd53 (val12 x)) = sig12 x := by
  obtain ⟨h1, h2⟩ := sig12_range x hx
  have h := rnd53_error (val12 x)
  rw [abs_of_pos (val12_pos x hx)] at h
  exact sig12_near h1 h2 h

/-- The double that is read for the text of a double. -/
def rndDbl (x : Dbl) : Dbl := Dbl.of (rnd12 x.val)

theorem float_strDbl (x : Dbl) : floatDbl (strDbl x) = some (rndDbl x) := by
  unfold floatDbl strDbl
  rw [pyFloat_str]
  rfl

theorem strDbl_rnd (x : Dbl) : strDbl (rndDbl x) = strDbl x := by
  unfold strDbl rndDbl
  rw [Dbl.val_of]
  rcases lt_trichotomy x.val 0 with h | h | h
  · have hp : 0 < -x.val := by linarith
    obtain ⟨k1, k2⟩ := sig12_rnd53 hp
    rw [rnd12_neg _ h, rnd53_neg]
    unfold str
    rw [if_neg (by linarith), if_pos (by linarith), if_neg h.ne, if_pos h, neg_neg]
    simp only [posText, k2]
  · rw [h, rnd12_zero, rnd53_zero]
  · obtain ⟨k1, k2⟩ := sig12_rnd53 h
    rw [rnd12_pos _ h]
    unfold str
    rw [if_neg k1.ne', if_neg (by linarith), if_neg h.ne', if_neg (by linarith)]
    simp only [posText, k2]

/-- The doubles nearest to decimal numbers with at most twelve digits. -/
def Short (x : Dbl) : Prop := ∃ m k : ℤ, |m| < 10 ^ 12 ∧ x = Dbl.of (m * (10 : ℚ) ^ k)

/-- A double nearest to a number with at most twelve digits is read from its text. -/
theorem rndDbl_short {x : Dbl} (h : Short x) : rndDbl x = x := by
  have key : ∀ (m : ℕ) (k : ℤ), 0 < m → m < 10 ^ 12 → 0 < rnd53 (m * (10 : ℚ) ^ k) ∧ val12 (rnd53 (m * (10 : ℚ) ^ k)) = m * (10 : ℚ) ^ k := by
    intro m k m0 m1
    obtain ⟨l, hl⟩ : ∃ l, l = Nat.log 10 m := ⟨_, rfl⟩
    have l1 : 10 ^ l ≤ m := hl ▸ Nat.pow_log_le_self 10 m0.ne'
    have l2 : m < 10 ^ (l + 1) := hl ▸ Nat.lt_pow_succ_log_self (by norm_num) m
    have l3 : l ≤ 11 := by
      by_contra hc
      have : 10 ^ 12 ≤ 10 ^ l := Nat.pow_le_pow_right (by norm_num) (by omega)
      omega
    have r1 : 10 ^ 11 ≤ m * 10 ^ (11 - l) := by
      calc 10 ^ 11 = 10 ^ l * 10 ^ (11 - l) := by rw [← pow_add]; congr 1; omega
        _ ≤ _ := Nat.mul_le_mul_right _ l1
    have r2 : m * 10 ^ (11 - l) < 10 ^ 12 := by
      calc m * 10 ^ (11 - l) < 10 ^ (l + 1) * 10 ^ (11 - l) := Nat.mul_lt_mul_of_pos_right l2 (by positivity)
        _ = 10 ^ 12 := by rw [← pow_add]; congr 1; omega
    have hv : (m : ℚ) * (10 : ℚ) ^ k = ((m * 10 ^ (11 - l) : ℕ) : ℚ) * (10 : ℚ) ^ (k + l - 11) := by
      push_cast
      rw [mul_assoc, ← zpow_natCast, ← zpow_add₀ (by norm_num)]
      congr 2
      omega
    have h0 : 0 < (m : ℚ) * (10 : ℚ) ^ k := by positivity
    have he := rnd53_error ((m : ℚ) * (10 : ℚ) ^ k)
    rw [abs_of_pos h0] at he
    have := sig12_near (x := rnd53 (m * (10 : ℚ) ^ k)) (e := k + l) r1 r2 (by rw [← hv]; exact he)
    exact ⟨this.1, by rw [val12, this.2, hv]⟩
  obtain ⟨m, k, hm, rfl⟩ := h
  refine Dbl.ext ?_
  unfold rndDbl
  rw [Dbl.val_of, Dbl.val_of]
  obtain ⟨hm1, hm2⟩ := abs_lt.1 hm
  rcases lt_trichotomy m 0 with h | rfl | h
  · obtain ⟨a, b⟩ := key m.natAbs k (by omega) (by omega)
    have hq : ((m.natAbs : ℕ) : ℚ) = -(m : ℚ) := by
      have : ((m.natAbs : ℕ) : ℤ) = -m := by omega
      have := congrArg (Int.cast (R := ℚ)) this
      rwa [Int.cast_natCast, Int.cast_neg] at this
    rw [hq, neg_mul, rnd53_neg] at a b
    rw [rnd12_neg _ (by linarith), b, neg_neg]
  · simp [rnd53_zero, rnd12_zero]
  · obtain ⟨a, b⟩ := key m.natAbs k (by omega) (by omega)
    have hq : ((m.natAbs : ℕ) : ℚ) = (m : ℚ) := by
      have : ((m.natAbs : ℕ) : ℤ) = m := by omega
      have := congrArg (Int.cast (R := ℚ)) this
      rwa [Int.cast_natCast] at this
    rw [hq] at a b
    rw [rnd12_pos _ a, b]

end Verif.Format

/-! ### Catalogues -/

namespace Verif.Format

open Verif Verif.EqCatalog

theorem dropZeros_le (m n k : ℕ) : (dropZeros m n k).1 ≤ n ∧ (dropZeros m n k).2 ≤ k := by
  fun_induction dropZeros m n k with
  | case1 => simp
  | case2 => simp
  | case3 n k h1 h2 ih => exact ⟨ih.1.trans (Nat.div_le_self _ _), ih.2.trans (by omega)⟩
  | case4 => simp

theorem natDigits_length {n k : ℕ} (h : n < 10 ^ (k + 1)) : (natDigits n).length ≤ k + 1 := by
  unfold natDigits
  rw [padDigits_length]
  by_cases h0 : n = 0
  · simp [h0]
  · have := (Nat.log_lt_iff_lt_pow (by norm_num) h0).2 h
    omega

theorem fixedText_length {n k m : ℕ} (h : n < 10 ^ (m + 1)) : (fixedText n k).length ≤ m + k + 2 := by
  unfold fixedText
  split_ifs with h0
  · have := natDigits_length h
    omega
  · have := natDigits_length (n := n / 10 ^ k) (k := m) (lt_of_le_of_lt (Nat.div_le_self _ _) h)
    simp only [List.length_append, List.length_cons, padDigits_length]
    omega

theorem expText_length {e : ℤ} (h : |e| < 1000) : (expText e).length ≤ 5 := by
  have h' := abs_lt.1 h
  unfold expText
  have := natDigits_length (n := e.natAbs) (k := 2) (by omega)
  simp only [List.length_cons]
  split_ifs
  · rw [padDigits_length]; omega
  · omega

/-- The doubles with an exponent of at most three digits (all normal doubles of IEEE 754 and zero). -/
def Normal (x : Dbl) : Prop := x.val = 0 ∨ (10 : ℚ) ^ (-308 : ℤ) ≤ |x.val| ∧ |x.val| < (10 : ℚ) ^ (309 : ℤ)

theorem reprPos_length {x : ℚ} (hr : rnd53 x = x) (h1 : (10 : ℚ) ^ (-308 : ℤ) ≤ x) (h2 : x < (10 : ℚ) ^ (309 : ℤ)) : (reprPos x).length ≤ 100 := by
  have hx : 0 < x := lt_of_lt_of_le (by positivity) h1
  have l1 : -308 ≤ Int.log 10 x := by
    rw [← Int.zpow_le_iff_le_log (by norm_num) hx]; exact_mod_cast h1
  have l2 : Int.log 10 x < 309 := by
    rw [← Int.lt_zpow_iff_log_lt (by norm_num) hx]; exact_mod_cast h2
  have hd : (digits17 x).1 < 10 ^ (17 + 1) ∧ |(digits17 x).2| < 1000 := by
    obtain ⟨m, i, hs, hi, hm0, hm1, -⟩ := shortest_spec hx hr
    unfold digits17
    rw [hs]
    simp only
    have hb : m * 10 ^ (16 - i) ≤ 10 ^ 17 := by
      calc m * 10 ^ (16 - i) ≤ 10 ^ (i + 1) * 10 ^ (16 - i) := mul_le_mul_of_nonneg_right hm1 (by positivity)
        _ = 10 ^ 17 := by rw [← pow_add]; congr 1; omega
    split_ifs
    · exact ⟨by norm_num, abs_lt.2 ⟨by simp only; omega, by simp only; omega⟩⟩
    · exact ⟨by simp only; omega, abs_lt.2 ⟨by simp only; omega, by simp only; omega⟩⟩
  obtain ⟨d1, d2⟩ := hd
  unfold reprPos
  simp only
  split_ifs with h
  · obtain ⟨z1, z2⟩ := dropZeros_le 1 (digits17 x).1 (16 - (digits17 x).2).toNat
    have := fixedText_length (k := (dropZeros 1 (digits17 x).1 (16 - (digits17 x).2).toNat).2) (lt_of_le_of_lt z1 d1)
    omega
  · obtain ⟨z1, z2⟩ := dropZeros_le 0 (digits17 x).1 16
    have := fixedText_length (k := (dropZeros 0 (digits17 x).1 16).2) (lt_of_le_of_lt z1 d1)
    have := expText_length d2
    rw [List.length_append]
    omega

theorem reprDbl_chars (x : Dbl) : ∀ c ∈ reprDbl x, NumChar c := by
  intro c hc
  unfold reprDbl at hc
  split_ifs at hc
  · simp only [List.mem_cons, List.not_mem_nil, or_false] at hc
    rcases hc with rfl | rfl | rfl
    · exact .inl (by unfold IsDigit; decide)
    · exact .inr (.inl rfl)
    · exact .inl (by unfold IsDigit; decide)
  · rcases List.mem_cons.1 hc with rfl | hc
    · exact .inr (.inr (.inl rfl))
    · exact reprPos_chars _ c hc
  · exact reprPos_chars _ c hc

theorem reprDbl_length {x : Dbl} (h : Normal x) : (reprDbl x).length ≤ 101 := by
  unfold reprDbl
  split_ifs with h0 h1
  · simp
  · rcases h with h | ⟨a, b⟩
    · exact absurd h h0
    · rw [abs_of_neg h1] at a b
      have := reprPos_length (x := -x.val) (by rw [rnd53_neg, x.ok]) a b
      simp only [List.length_cons]
      omega
  · rcases h with h | ⟨a, b⟩
    · exact absurd h h0
    · rw [abs_of_nonneg (not_lt.1 h1)] at a b
      have := reprPos_length x.ok a b
      omega

end Verif.Format

namespace Verif.Csv

open Verif Verif.EqCatalog Verif.EqCatalog.Spec Verif.Format

/-- Python 2.7 on doubles: `int`, `float`, and the texts of the csv writer. -/
def dblEnv (year : Int) : Env Dbl := ⟨Text.pyInt, floatDbl, year⟩

def dblShow : ShowNum Dbl := ⟨showInt, reprDbl⟩

/-- Values of a catalogue: integers that fit into a cell, normal doubles, any texts. -/
def Spec.Ordinary : Val Dbl → Prop
  | .int i => (showInt i).length ≤ 131072
  | .flt x => Normal x
  | _ => True

theorem dblRoundTrip (y : Int) : RoundTrip (dblEnv y) dblShow Spec.Ordinary where
  int i _ := int_show i
  flt x _ := C181_number x
  empty := by show floatDbl [] = none; decide +kernel
  intOk i hl := by
    refine ⟨fun h => ?_, hl⟩
    rcases showInt_chars i _ h with h | h
    · revert h; decide
    · exact (isDigit_facts h).2.2.2.2 rfl
  fltOk x hx := by
    refine ⟨fun h => ?_, (reprDbl_length hx).trans (by norm_num)⟩
    rcases reprDbl_chars x _ h with h | h | h | h | h
    · revert h; unfold IsDigit; decide
    all_goals revert h; decide

/-- **C181**: a catalogue read in double precision, written with the csv writer and read again, has exactly the same values; `repr` and `float` lose nothing. -/
theorem C181_catalogue (y y' : Int) (hy : y ≤ y') (ord ord' : DictOrder) (file : Text) (es : List (Entry Dbl)) (h : readCatalogFile (dblEnv y) ord file = .ok es)
    (hv : ∀ e ∈ es, ∀ f, Spec.Ordinary (e f)) (he : ∀ e ∈ es, EllipseOK e) : readCatalogFile (dblEnv y') ord' (writeCatalog dblShow es) = .ok es := by
  obtain ⟨es', h1, h2⟩ := C13_stored_catalog_accepted_partial (dblEnv y) (dblEnv y') dblShow es ((dblRoundTrip y').mono fun v ⟨e, hm, f, hf⟩ => hf ▸ hv e hm f) hy ord ord' file h
  refine h1.trans (congrArg Except.ok ?_)
  clear h h1 hv
  induction h2 with
  | nil => rfl
  | cons ha _ ih =>
    rw [ha.2 (he _ List.mem_cons_self), ih fun e hm => he e (List.mem_cons_of_mem _ hm)]

/-- Non-vacuity of C181: the number 0.1 + 0.2, with seventeen digits. -/
example : (reprDbl (Dbl.of (1 / 10) + Dbl.of (2 / 10))).length = 19 ∧ floatDbl (reprDbl (Dbl.of (1 / 10) + Dbl.of (2 / 10))) = some (Dbl.of (1 / 10) + Dbl.of (2 / 10)) :=
  ⟨by decide +kernel, C181_number _⟩

instance : DecidablePred Normal := fun x => by unfold Normal; infer_instance

instance : DecidablePred Spec.Ordinary
  | .int i => by unfold Spec.Ordinary; infer_instance
  | .flt x => by unfold Spec.Ordinary; infer_instance
  | .none => .isTrue trivial
  | .str _ => .isTrue trivial

/-- Non-vacuity of C181: a file that is loaded, with ordinary values and a consistent ellipse. -/
example : ∃ es, readCatalogFile (dblEnv 2012) cpythonOrder (exFile exRow) = .ok es ∧ es ≠ [] ∧ (∀ e ∈ es, ∀ f, Spec.Ordinary (e f)) ∧ ∀ e ∈ es, EllipseOK e := by
  have h0 : (readCatalogFile (dblEnv 2012) cpythonOrder (exFile exRow)).map (fun es => (decide (es.length = 1), decide (∀ e ∈ es, ∀ f ∈ fieldNames, Spec.Ordinary (e f)),
      decide (∀ e ∈ es, e .errorStrike = .flt (Dbl.of 298) ∧ e .semiMajor90 = .flt (Dbl.of (243/100)) ∧ e .semiMinor90 = .flt (Dbl.of (101/100))))) = .ok (true, true, true) := by decide +kernel
  rcases hr : readCatalogFile (dblEnv 2012) cpythonOrder (exFile exRow) with _ | es <;> rw [hr] at h0
  · cases h0
  · simp only [Except.map, Except.ok.injEq, Prod.mk.injEq, decide_eq_true_eq] at h0
    obtain ⟨a, b, c⟩ := h0
    refine ⟨es, rfl, by rintro rfl; simp at a, fun e he f => b e he f (by cases f <;> decide), fun e he => Or.inr ⟨_, _, _, (c e he).1, (c e he).2.1, (c e he).2.2, by decide +kernel⟩⟩

end Verif.Csv

namespace Verif.Nrml

open Verif Verif.EqCatalog Verif.Format Spec

/-- The number texts of Python 2.7 on doubles. -/
def dblNums : NumText Dbl := ⟨strDbl, floatDbl⟩

/-- They satisfy the laws assumed in `Props/Nrml`, so that its theorems hold in double precision. -/
theorem dblNums_lawful : Lawful dblNums rndDbl where
  str_ne x := (pyNums_lawful (K := ℚ)).str_ne x.val
  str_ws x := (pyNums_lawful (K := ℚ)).str_ws x.val
  str_ok x := (pyNums_lawful (K := ℚ)).str_ok x.val
  float_str := float_strDbl
  str_rnd := strDbl_rnd

/-- All numbers of a source have at most twelve digits. -/
structure Spec.ShortNumbers (s : AreaSource Dbl) : Prop where
  boundary : ∀ p ∈ s.boundary.posList, Short p.lon ∧ Short p.lat
  a : Short s.rate.tgr.aValue
  b : Short s.rate.tgr.bValue
  mmin : Short s.rate.tgr.minMagnitude
  mmax : Short s.rate.tgr.maxMagnitude
  strike : Short s.rate.strike
  dip : Short s.rate.dip
  rake : Short s.rate.rake
  magnitudes : ∀ x ∈ s.depthDist.magnitude.values, Short x
  depths : ∀ x ∈ s.depthDist.depth, Short x
  depth : Short s.hypocentralDepth

/-- **C182**: sources that share the header, with non-empty lists and texts, whose numbers have at most twelve digits, come back from the document as exactly the same list, in double precision. -/
theorem C182_sources (valid : Elem → Bool) (ss : List (AreaSource Dbl)) (doc doc' : Elem) (hs : serialize dblNums ss = .ok doc) (hr : Reparse doc doc') (hv : valid doc' = true)
    (hf : ∀ s ∈ ss, Filled s) (hid : ∀ s ∈ ss, ∀ s' ∈ ss, s.nrmlId = s'.nrmlId ∧ s.sourceModelId = s'.sourceModelId) (hne : ∀ s ∈ ss, s.name ≠ some [] ∧ s.tectonicRegion ≠ some [])
    (hn : ∀ s ∈ ss, ShortNumbers s) : readDoc dblNums valid doc' = .ok ss := by
  rw [C83_same_list_partial dblNums_lawful valid ss doc doc' hs hr hv hf hid hne]
  congr 1
  have hmap : ∀ l : List Dbl, (∀ x ∈ l, Short x) → l.map rndDbl = l := fun l hl =>
    (List.map_congr_left fun x hx => rndDbl_short (hl x hx)).trans (List.map_id l)
  refine (List.map_congr_left fun s hm => ?_).trans (List.map_id ss)
  have h := hn s hm
  have hb : s.boundary.posList.map (rndPoint rndDbl) = s.boundary.posList := by
    refine (List.map_congr_left fun p hp => ?_).trans (List.map_id _)
    unfold rndPoint
    rw [rndDbl_short (h.boundary p hp).1, rndDbl_short (h.boundary p hp).2]
    rfl
  simp only [rndSource, hb, rndDbl_short h.a, rndDbl_short h.b, rndDbl_short h.mmin, rndDbl_short h.mmax, rndDbl_short h.strike, rndDbl_short h.dip, rndDbl_short h.rake,
    hmap _ h.magnitudes, hmap _ h.depths, rndDbl_short h.depth, id_eq]

/-- **C182**, any numbers: a document that was read and is written again has the same content, in double precision. -/
theorem C182_stable (valid : Elem → Bool) (ss ss' : List (AreaSource Dbl)) (doc doc' : Elem) (hs : serialize dblNums ss = .ok doc) (hr : Reparse doc doc')
    (hread : readDoc dblNums valid doc' = .ok ss') : ∃ doc'', serialize dblNums ss' = .ok doc'' ∧ content doc'' = content doc :=
  C84_stable dblNums_lawful valid ss ss' doc doc' hs hr hread

/-- Non-vacuity: 2.43 is a short number, 0.1 + 0.2 is not read back from its text. -/
example : Short (Dbl.of 2.43) ∧ rndDbl (Dbl.of (1 / 10) + Dbl.of (2 / 10)) ≠ Dbl.of (1 / 10) + Dbl.of (2 / 10) :=
  ⟨⟨243, -2, by norm_num, by congr 1; norm_num⟩, by decide +kernel⟩

end Verif.Nrml
