import Verif.Lemmas.Format

/-!
# Double precision numbers

`Dbl` is the type of numbers with 53 significant bits; the operations round to the nearest such number, ties to even, as IEEE 754 prescribes for doubles.  The exponent is not bounded (no
overflow, no gradual underflow) and there are no special values; a division by zero gives zero.  The functions of the C library are not specified: `Libm` stands for any of them.
-/

namespace Verif

open Verif.Format (rintK_int rintK_mono rintK_bounds)

/-- `2 ^ k`. -/
def pow2 : ℤ → ℚ
  | .ofNat n => ((2 ^ n : ℕ) : ℚ)
  | .negSucc n => 1 / ((2 ^ (n + 1) : ℕ) : ℚ)

/-- The exponent of the leading bit. -/
def ilog2 (x : ℚ) : ℤ :=
  let k : ℤ := (Nat.log2 x.num.natAbs : ℤ) - (Nat.log2 x.den : ℤ)
  if pow2 k ≤ |x| then k else k - 1

/-- The nearest number with 53 significant bits, ties to even. -/
def rnd53 (x : ℚ) : ℚ :=
  if x = 0 then 0
  else (rintK (x / pow2 (ilog2 x - 52)) : ℚ) * pow2 (ilog2 x - 52)

theorem pow2_eq (k : ℤ) : pow2 k = (2 : ℚ) ^ k := by
  cases k with
  | ofNat n => simp [pow2]
  | negSucc n => simp [pow2, zpow_negSucc]

theorem pow2_pos (k : ℤ) : 0 < pow2 k := by rw [pow2_eq]; positivity

theorem pow2_add (a b : ℤ) : pow2 (a + b) = pow2 a * pow2 b := by simp only [pow2_eq]; exact zpow_add₀ (by norm_num) a b

theorem pow2_le {a b : ℤ} (h : a ≤ b) : pow2 a ≤ pow2 b := by simp only [pow2_eq]; exact zpow_le_zpow_right₀ (by norm_num) h

theorem pow2_lt_iff {a b : ℤ} : pow2 a < pow2 b ↔ a < b := by simp only [pow2_eq]; exact zpow_lt_zpow_iff_right₀ (by norm_num)

theorem ilog2_spec {x : ℚ} (hx : x ≠ 0) : pow2 (ilog2 x) ≤ |x| ∧ |x| < pow2 (ilog2 x + 1) := by
  have hn : x.num.natAbs ≠ 0 := by simpa using hx
  have hd : x.den ≠ 0 := x.den_nz
  have hdp : (0 : ℚ) < x.den := by positivity
  have habs : |x| = (x.num.natAbs : ℚ) / x.den := by
    conv_lhs => rw [← Rat.num_div_den x]
    rw [abs_div, Nat.abs_cast, ← Int.cast_abs, Int.abs_eq_natAbs]
    simp
  have h1 : (2 : ℚ) ^ (Nat.log2 x.num.natAbs) ≤ x.num.natAbs := by exact_mod_cast Nat.log2_self_le hn
  have h2 : (x.num.natAbs : ℚ) < 2 ^ (Nat.log2 x.num.natAbs + 1) := by exact_mod_cast Nat.lt_log2_self
  have h3 : (2 : ℚ) ^ (Nat.log2 x.den) ≤ x.den := by exact_mod_cast Nat.log2_self_le hd
  have h4 : (x.den : ℚ) < 2 ^ (Nat.log2 x.den + 1) := by exact_mod_cast Nat.lt_log2_self
  set a := Nat.log2 x.num.natAbs
  set b := Nat.log2 x.den
  have hup : |x| < pow2 ((a : ℤ) - b + 1) := by
    rw [habs, div_lt_iff₀ hdp]
    calc (x.num.natAbs : ℚ) < 2 ^ (a + 1) := h2
      _ = pow2 ((a : ℤ) - b + 1) * 2 ^ b := by
          rw [pow2_eq, ← zpow_natCast, ← zpow_natCast, ← zpow_add₀ (by norm_num)]; congr 1; push_cast; ring
      _ ≤ _ := mul_le_mul_of_nonneg_left h3 (pow2_pos _).le
  have hlo : pow2 ((a : ℤ) - b - 1) ≤ |x| := by
    rw [habs, le_div_iff₀ hdp]
    calc pow2 ((a : ℤ) - b - 1) * x.den ≤ pow2 ((a : ℤ) - b - 1) * 2 ^ (b + 1) := mul_le_mul_of_nonneg_left h4.le (pow2_pos _).le
      _ = 2 ^ a := by
          rw [pow2_eq, ← zpow_natCast, ← zpow_natCast, ← zpow_add₀ (by norm_num)]; congr 1; push_cast; ring
      _ ≤ _ := h1
  unfold ilog2
  simp only
  split_ifs with h
  · exact ⟨h, hup⟩
  · refine ⟨hlo, ?_⟩
    rw [sub_add_cancel]
    exact not_le.1 h

/-- The exponent is determined by the binade. -/
theorem ilog2_lt {x : ℚ} (hx : x ≠ 0) {k : ℤ} : ilog2 x < k ↔ |x| < pow2 k := by
  obtain ⟨h1, h2⟩ := ilog2_spec hx
  constructor
  · intro h
    exact h2.trans_le (pow2_le (by omega))
  · intro h
    exact pow2_lt_iff.1 (h1.trans_lt h)

theorem rnd53_zero : rnd53 0 = 0 := by simp [rnd53]

/-- Numbers with 53 bits are kept. -/
theorem rnd53_repr {n : ℤ} (hn : |n| ≤ 2 ^ 53) (e : ℤ) : rnd53 (n * pow2 e) = n * pow2 e := by
  have key : ∀ (n e : ℤ), |n| < 2 ^ 53 → rnd53 (n * pow2 e) = n * pow2 e := by
    intro n e hn
    by_cases h0 : n = 0
    · subst h0; simp [rnd53]
    have hx : (n : ℚ) * pow2 e ≠ 0 := mul_ne_zero (by exact_mod_cast h0) (pow2_pos e).ne'
    have hlt : ilog2 ((n : ℚ) * pow2 e) < e + 53 := by
      rw [ilog2_lt hx, abs_mul, abs_of_pos (pow2_pos e), add_comm, pow2_add]
      refine mul_lt_mul_of_pos_right ?_ (pow2_pos e)
      rw [← Int.cast_abs]
      have : ((|n| : ℤ) : ℚ) < ((2 ^ 53 : ℤ) : ℚ) := by exact_mod_cast hn
      rw [pow2_eq]
      exact_mod_cast this
    unfold rnd53
    rw [if_neg hx]
    set E := ilog2 ((n : ℚ) * pow2 e) - 52 with hE
    obtain ⟨k, hk⟩ : ∃ k : ℕ, e = k + E := ⟨(e - E).toNat, by omega⟩
    have hz : (n : ℚ) * pow2 e / pow2 E = ((n * 2 ^ k : ℤ) : ℚ) := by
      rw [hk, pow2_add, div_eq_iff (pow2_pos E).ne', pow2_eq (k : ℤ)]
      push_cast
      rw [zpow_natCast]
      ring
    rw [hz, rintK_int, ← hz, div_mul_cancel₀ _ (pow2_pos E).ne']
  rcases hn.lt_or_eq with h | h
  · exact key n e h
  · have : n = 2 ^ 52 * 2 ∨ n = -2 ^ 52 * 2 := by
      rcases abs_eq (by norm_num : (0 : ℤ) ≤ 2 ^ 53) |>.1 h with h | h <;> [left; right] <;> rw [h] <;> norm_num
    have h2 : (2 : ℚ) * pow2 e = pow2 (e + 1) := by rw [add_comm, pow2_add]; simp [pow2]
    rcases this with rfl | rfl
    · have := key (2 ^ 52) (e + 1) (by norm_num)
      rw [← h2] at this
      rw [← mul_assoc] at this
      norm_num at this ⊢
      exact this
    · have := key (-2 ^ 52) (e + 1) (by norm_num)
      rw [← h2] at this
      rw [← mul_assoc] at this
      norm_num at this ⊢
      exact this

/-- The scaled number has between 53 and 54 bits before the point. -/
theorem scaled_bounds {x : ℚ} (hx : x ≠ 0) : pow2 52 ≤ |x / pow2 (ilog2 x - 52)| ∧ |x / pow2 (ilog2 x - 52)| < pow2 53 := by
  obtain ⟨h1, h2⟩ := ilog2_spec hx
  have hp := pow2_pos (ilog2 x - 52)
  rw [abs_div, abs_of_pos hp, le_div_iff₀ hp, div_lt_iff₀ hp, ← pow2_add, ← pow2_add]
  refine ⟨?_, ?_⟩
  · rwa [show (52 : ℤ) + (ilog2 x - 52) = ilog2 x by ring]
  · rwa [show (53 : ℤ) + (ilog2 x - 52) = ilog2 x + 1 by ring]

theorem rint_bounds {y : ℚ} (h : |y| < pow2 53) : |rintK y| ≤ 2 ^ 53 := by
  have e : pow2 53 = ((2 ^ 53 : ℤ) : ℚ) := by rw [pow2_eq]; norm_cast
  rw [e] at h
  obtain ⟨h1, h2⟩ := abs_lt.1 h
  have k1 := rintK_mono h2.le
  have k2 := rintK_mono h1.le
  rw [rintK_int] at k1
  rw [← Int.cast_neg, rintK_int] at k2
  exact abs_le.2 ⟨k2, k1⟩

theorem rnd53_idem (x : ℚ) : rnd53 (rnd53 x) = rnd53 x := by
  by_cases hx : x = 0
  · subst hx; simp [rnd53]
  have : rnd53 x = (rintK (x / pow2 (ilog2 x - 52)) : ℚ) * pow2 (ilog2 x - 52) := by
    conv_lhs => unfold rnd53
    rw [if_neg hx]
  rw [this]
  exact rnd53_repr (rint_bounds (scaled_bounds hx).2) _

/-- Rounding is monotone. -/
theorem rnd53_mono {x y : ℚ} (h : x ≤ y) : rnd53 x ≤ rnd53 y := by
  have e52 : pow2 52 = ((2 ^ 52 : ℤ) : ℚ) := by rw [pow2_eq]; norm_cast
  have e53 : pow2 53 = ((2 ^ 53 : ℤ) : ℚ) := by rw [pow2_eq]; norm_cast
  have val : ∀ {z : ℚ}, z ≠ 0 → rnd53 z = (rintK (z / pow2 (ilog2 z - 52)) : ℚ) * pow2 (ilog2 z - 52) := fun hz => by
    conv_lhs => unfold rnd53
    rw [if_neg hz]
  have up : ∀ {z : ℚ}, 0 < z → pow2 (ilog2 z) ≤ rnd53 z ∧ rnd53 z ≤ pow2 (ilog2 z + 1) := by
    intro z hz
    obtain ⟨h1, h2⟩ := scaled_bounds hz.ne'
    have hp := pow2_pos (ilog2 z - 52)
    rw [abs_of_pos (div_pos hz hp)] at h1 h2
    rw [e52] at h1
    rw [e53] at h2
    have k1 := rintK_mono h1
    have k2 := rintK_mono h2.le
    rw [rintK_int] at k1 k2
    have k1' : ((2 ^ 52 : ℤ) : ℚ) ≤ (rintK (z / pow2 (ilog2 z - 52)) : ℚ) := by exact_mod_cast k1
    have k2' : (rintK (z / pow2 (ilog2 z - 52)) : ℚ) ≤ ((2 ^ 53 : ℤ) : ℚ) := by exact_mod_cast k2
    rw [val hz.ne']
    rw [← e52] at k1'
    rw [← e53] at k2'
    constructor
    · have := mul_le_mul_of_nonneg_right k1' hp.le
      rwa [← pow2_add, show (52 : ℤ) + (ilog2 z - 52) = ilog2 z by ring] at this
    · have := mul_le_mul_of_nonneg_right k2' hp.le
      rwa [← pow2_add, show (53 : ℤ) + (ilog2 z - 52) = ilog2 z + 1 by ring] at this
  have down : ∀ {z : ℚ}, z < 0 → rnd53 z ≤ -pow2 (ilog2 z) ∧ -pow2 (ilog2 z + 1) ≤ rnd53 z := by
    intro z hz
    obtain ⟨h1, h2⟩ := scaled_bounds hz.ne
    have hp := pow2_pos (ilog2 z - 52)
    rw [abs_of_neg (div_neg_of_neg_of_pos hz hp)] at h1 h2
    rw [e52] at h1
    rw [e53] at h2
    have k1 := rintK_mono (show z / pow2 (ilog2 z - 52) ≤ ((-2 ^ 52 : ℤ) : ℚ) by push_cast at h1 ⊢; linarith)
    have k2 := rintK_mono (show ((-2 ^ 53 : ℤ) : ℚ) ≤ z / pow2 (ilog2 z - 52) by push_cast at h2 ⊢; linarith)
    rw [rintK_int] at k1 k2
    have k1' : (rintK (z / pow2 (ilog2 z - 52)) : ℚ) ≤ -pow2 52 := by rw [e52]; exact_mod_cast k1
    have k2' : -pow2 53 ≤ (rintK (z / pow2 (ilog2 z - 52)) : ℚ) := by rw [e53]; exact_mod_cast k2
    rw [val hz.ne]
    constructor
    · have := mul_le_mul_of_nonneg_right k1' hp.le
      rwa [neg_mul, ← pow2_add, show (52 : ℤ) + (ilog2 z - 52) = ilog2 z by ring] at this
    · have := mul_le_mul_of_nonneg_right k2' hp.le
      rwa [neg_mul, ← pow2_add, show (53 : ℤ) + (ilog2 z - 52) = ilog2 z + 1 by ring] at this
  have same : ∀ {a b : ℚ}, a ≠ 0 → b ≠ 0 → a ≤ b → ilog2 a = ilog2 b → rnd53 a ≤ rnd53 b := by
    intro a b ha hb hab he
    rw [val ha, val hb, he]
    have hp := pow2_pos (ilog2 b - 52)
    refine mul_le_mul_of_nonneg_right ?_ hp.le
    exact_mod_cast rintK_mono ((div_le_div_iff_of_pos_right hp).2 hab)
  rcases lt_trichotomy x 0 with hx | rfl | hx
  · rcases lt_trichotomy y 0 with hy | rfl | hy
    · have hle : ilog2 y ≤ ilog2 x := by
        have : ilog2 y < ilog2 x + 1 := by
          rw [ilog2_lt hy.ne]
          refine lt_of_le_of_lt ?_ (ilog2_spec hx.ne).2
          rw [abs_of_neg hx, abs_of_neg hy]
          linarith
        omega
      rcases hle.lt_or_eq with hlt | he
      · have := pow2_le (show ilog2 y + 1 ≤ ilog2 x by omega)
        linarith [(down hx).1, (down hy).2]
      · exact same hx.ne hy.ne h he.symm
    · rw [rnd53_zero]
      linarith [(down hx).1, pow2_pos (ilog2 x)]
    · linarith [(down hx).1, pow2_pos (ilog2 x), (up hy).1, pow2_pos (ilog2 y)]
  · rcases h.lt_or_eq with hy | rfl
    · rw [rnd53_zero]
      linarith [(up hy).1, pow2_pos (ilog2 y)]
    · exact le_refl _
  · have hy := hx.trans_le h
    have hle : ilog2 x ≤ ilog2 y := by
      have : ilog2 x < ilog2 y + 1 := by
        rw [ilog2_lt hx.ne']
        refine lt_of_le_of_lt ?_ (ilog2_spec hy.ne').2
        rwa [abs_of_pos hx, abs_of_pos hy]
      omega
    rcases hle.lt_or_eq with hlt | he
    · have := pow2_le (show ilog2 x + 1 ≤ ilog2 y by omega)
      linarith [(up hx).2, (up hy).1]
    · exact same hx.ne' hy.ne' h he

/-- The relative error of rounding. -/
theorem rnd53_error (x : ℚ) : |rnd53 x - x| ≤ |x| / 2 ^ 53 := by
  by_cases hx : x = 0
  · subst hx; simp [rnd53]
  have hp := pow2_pos (ilog2 x - 52)
  have e : rnd53 x - x = ((rintK (x / pow2 (ilog2 x - 52)) : ℚ) - x / pow2 (ilog2 x - 52)) * pow2 (ilog2 x - 52) := by
    conv_lhs => unfold rnd53
    rw [if_neg hx, sub_mul, div_mul_cancel₀ _ hp.ne']
  have hb : |(rintK (x / pow2 (ilog2 x - 52)) : ℚ) - x / pow2 (ilog2 x - 52)| ≤ 1 / 2 := by
    obtain ⟨h1, h2⟩ := rintK_bounds (x / pow2 (ilog2 x - 52))
    exact abs_le.2 ⟨by linarith, by linarith⟩
  rw [e, abs_mul, abs_of_pos hp]
  calc _ ≤ 1 / 2 * pow2 (ilog2 x - 52) := mul_le_mul_of_nonneg_right hb hp.le
    _ = pow2 (ilog2 x) / 2 ^ 53 := by
        have : pow2 (ilog2 x) = pow2 (ilog2 x - 52) * pow2 52 := by rw [← pow2_add]; congr 1; ring
        rw [this, show pow2 52 = 2 ^ 52 by rw [pow2_eq]; norm_cast]
        ring
    _ ≤ _ := div_le_div_of_nonneg_right (ilog2_spec hx).1 (by positivity)

/-- Integers of at most 53 bits are kept. -/
theorem rnd53_int {n : ℤ} (hn : |n| ≤ 2 ^ 53) : rnd53 n = n := by
  have := rnd53_repr hn 0
  rwa [show pow2 0 = 1 from rfl, mul_one] at this

/-- A number with 53 significant bits. -/
structure Dbl where
  val : ℚ
  ok : rnd53 val = val

namespace Dbl

theorem ext {x y : Dbl} (h : x.val = y.val) : x = y := by
  cases x; cases y; cases h; rfl

/-- Round. -/
def of (x : ℚ) : Dbl := ⟨rnd53 x, rnd53_idem x⟩

instance : LE Dbl := ⟨fun x y => x.val ≤ y.val⟩
instance : LT Dbl := ⟨fun x y => x.val < y.val⟩
instance : DecidableEq Dbl := fun x y => if h : x.val = y.val then .isTrue (ext h) else .isFalse fun e => h (by rw [e])

instance : PyNum Dbl where
  zero := of 0
  one := of 1
  add x y := of (x.val + y.val)
  sub x y := of (x.val - y.val)
  mul x y := of (x.val * y.val)
  div x y := of (x.val / y.val)
  neg x := of (-x.val)
  natCast n := of n
  intCast n := of n
  ofScientific m s e := of (OfScientific.ofScientific m s e)
  decLE x y := inferInstanceAs (Decidable (x.val ≤ y.val))
  decLT x y := inferInstanceAs (Decidable (x.val < y.val))
  decEq x y := decide (x.val = y.val)
  floorZ x := ⌊x.val⌋
  ceilZ x := ⌈x.val⌉
  rintZ x := rintK x.val

end Dbl

/-- The functions of the C library: any functions. -/
class Libm where
  exp : Dbl → Dbl
  log : Dbl → Dbl
  log10 : Dbl → Dbl
  sqrt : Dbl → Dbl
  sin : Dbl → Dbl
  cos : Dbl → Dbl
  atan2 : Dbl → Dbl → Dbl
  rpow : Dbl → Dbl → Dbl
  pi : Dbl

instance instPyMathDbl [Libm] : PyMath Dbl where
  exp := Libm.exp
  log := Libm.log
  log10 := Libm.log10
  sqrt := Libm.sqrt
  sin := Libm.sin
  cos := Libm.cos
  atan2 := Libm.atan2
  rpow := Libm.rpow
  pi := Libm.pi

/-- Some functions, to evaluate what does not depend on them. -/
@[reducible] def noLibm : Libm := ⟨id, id, id, id, id, id, fun x _ => x, fun x _ => x, .of 0⟩

end Verif
