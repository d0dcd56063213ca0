import Mathlib.Tactic.Linarith
import Mathlib.Tactic.IntervalCases
import Mathlib.Tactic.Ring
import Mathlib.Tactic.FieldSimp
import Mathlib.Tactic.Positivity
import Mathlib.Tactic.Push
import Verif.Model.Format

/-!
# Lemmas on number texts
-/

namespace Verif.Format

open Verif Verif.EqCatalog

/-! ### Digits -/

theorem digitChar_toNat (d : ℕ) : (digitChar d).toNat = 48 + d % 10 := by
  unfold digitChar
  have h : d % 10 < 10 := Nat.mod_lt _ (by norm_num)
  generalize d % 10 = k at h
  interval_cases k <;> rfl

theorem digitVal_digitChar (d : ℕ) : digitVal (digitChar d) = some (d % 10) := by
  have h : d % 10 < 10 := Nat.mod_lt _ (by norm_num)
  simp only [digitVal, digitChar_toNat]
  rw [if_pos (by omega)]
  simp

/-- A character of a digit. -/
def IsDigit (c : Char) : Prop := 48 ≤ c.toNat ∧ c.toNat ≤ 57

theorem isDigit_digitChar (d : ℕ) : IsDigit (digitChar d) := by
  have h : d % 10 < 10 := Nat.mod_lt _ (by norm_num)
  simp only [IsDigit, digitChar_toNat]; omega

theorem padDigits_digit (k n : ℕ) : ∀ c ∈ padDigits k n, IsDigit c := by
  induction k generalizing n with
  | zero => simp [padDigits]
  | succ k ih =>
    intro c hc
    simp only [padDigits, List.mem_append, List.mem_singleton] at hc
    rcases hc with hc | rfl
    · exact ih _ c hc
    · exact isDigit_digitChar n

theorem padDigits_length (k n : ℕ) : (padDigits k n).length = k := by
  induction k generalizing n with
  | zero => rfl
  | succ k ih => simp [padDigits, ih]

theorem digitsVal_pad (k n acc : ℕ) (t : Text) :
    digitsVal acc (padDigits k n ++ t) = digitsVal (acc * 10 ^ k + n % 10 ^ k) t := by
  induction k generalizing n t with
  | zero => simp [padDigits, Nat.mod_one]
  | succ k ih =>
    rw [padDigits, List.append_assoc, ih, List.singleton_append, digitsVal, digitVal_digitChar]
    simp only
    congr 1
    rw [pow_succ, mul_comm (10 ^ k) 10, Nat.mod_mul]
    ring

theorem natDigits_digit (n : ℕ) : ∀ c ∈ natDigits n, IsDigit c := padDigits_digit _ _

theorem natDigits_ne (n : ℕ) : natDigits n ≠ [] := by
  intro h
  have := congrArg List.length h
  rw [natDigits, padDigits_length] at this
  simp at this

theorem digitsVal_nat (n : ℕ) (t : Text) : digitsVal 0 (natDigits n ++ t) = digitsVal n t := by
  rw [natDigits, digitsVal_pad]
  congr 1
  rw [Nat.mod_eq_of_lt (Nat.lt_pow_succ_log_self (by norm_num) n)]
  simp

/-! ### Texts -/

theorem takeWhile_all_append {p : Char → Bool} (l m : Text) (h : ∀ c ∈ l, p c = true) :
    (l ++ m).takeWhile p = l ++ m.takeWhile p := by
  induction l with
  | nil => rfl
  | cons a l ih =>
    simp only [List.mem_cons, forall_eq_or_imp] at h
    simp [h.1, ih h.2]

theorem dropWhile_all_append {p : Char → Bool} (l m : Text) (h : ∀ c ∈ l, p c = true) :
    (l ++ m).dropWhile p = m.dropWhile p := by
  induction l with
  | nil => rfl
  | cons a l ih =>
    simp only [List.mem_cons, forall_eq_or_imp] at h
    simp [h.1, ih h.2]

theorem ne_of_isDigit {c d : Char} (h : IsDigit c) (hd : ¬ IsDigit d) : c ≠ d := by
  rintro rfl; exact hd h

theorem dot_not_digit : ¬ IsDigit '.' := by unfold IsDigit; decide
theorem e_not_digit : ¬ IsDigit 'e' := by unfold IsDigit; decide
theorem E_not_digit : ¬ IsDigit 'E' := by unfold IsDigit; decide
theorem minus_not_digit : ¬ IsDigit '-' := by unfold IsDigit; decide
theorem plus_not_digit : ¬ IsDigit '+' := by unfold IsDigit; decide

theorem mantissa_digits (a : Text) (h : ∀ c ∈ a, IsDigit c) (hne : a ≠ []) :
    mantissa a = (digitsVal 0 a).map (fun n => (n, 0)) := by
  have hd : ∀ c ∈ a, decide (c ≠ '.') = true := fun c hc => by
    simpa using ne_of_isDigit (h c hc) dot_not_digit
  have h1 := takeWhile_all_append a [] hd
  have h2 := dropWhile_all_append a [] hd
  simp only [List.append_nil, List.takeWhile_nil, List.dropWhile_nil] at h1 h2
  simp only [mantissa, h1, h2, if_neg hne]

theorem mantissa_point (a b : Text) (ha : ∀ c ∈ a, IsDigit c) (hne : a ≠ []) :
    mantissa (a ++ '.' :: b) = (digitsVal 0 (a ++ b)).map (fun n => (n, b.length)) := by
  have hd : ∀ c ∈ a, decide (c ≠ '.') = true := fun c hc => by
    simpa using ne_of_isDigit (ha c hc) dot_not_digit
  have h1 := takeWhile_all_append a ('.' :: b) hd
  have h2 := dropWhile_all_append a ('.' :: b) hd
  simp only [ne_eq, not_true_eq_false, decide_false, Bool.false_eq_true, not_false_eq_true, List.takeWhile_cons_of_neg,
    List.append_nil, List.dropWhile_cons_of_neg] at h1 h2
  simp only [mantissa, ne_eq, h1, h2, hne, false_and, if_false]

theorem mantissa_fixed (n k : ℕ) : mantissa (fixedText n k) = some (n, k) := by
  unfold fixedText
  split
  · next hk =>
    subst hk
    rw [mantissa_digits _ (natDigits_digit n) (natDigits_ne n)]
    have := digitsVal_nat n []
    rw [List.append_nil] at this
    rw [this]; rfl
  · rw [mantissa_point _ _ (natDigits_digit _) (natDigits_ne _), digitsVal_nat]
    have := digitsVal_pad k (n % 10 ^ k) (n / 10 ^ k) []
    rw [List.append_nil] at this
    rw [this, padDigits_length, Nat.mod_mod]
    simp only [digitsVal, Option.map_some]
    rw [Nat.div_add_mod']

/-- Characters of positional notation. -/
theorem fixed_chars (n k : ℕ) : ∀ c ∈ fixedText n k, IsDigit c ∨ c = '.' := by
  intro c hc
  unfold fixedText at hc
  split at hc
  · exact .inl (natDigits_digit n c hc)
  · simp only [List.mem_append, List.mem_cons] at hc
    rcases hc with hc | rfl | hc
    · exact .inl (natDigits_digit _ c hc)
    · exact .inr rfl
    · exact .inl (padDigits_digit _ _ c hc)

theorem fixed_head (n k : ℕ) : ∃ c cs, fixedText n k = c :: cs ∧ IsDigit c := by
  have key : ∀ m, ∃ c cs, natDigits m = c :: cs ∧ IsDigit c := by
    intro m
    cases h : natDigits m with
    | nil => exact absurd h (natDigits_ne m)
    | cons c cs => exact ⟨c, cs, rfl, natDigits_digit m c (by simp [h])⟩
  unfold fixedText
  split
  · exact key n
  · obtain ⟨c, cs, h, hd⟩ := key (n / 10 ^ k)
    exact ⟨c, cs ++ '.' :: padDigits k (n % 10 ^ k), by rw [h]; rfl, hd⟩

/-- Not an exponent letter. -/
theorem fixed_noE (n k : ℕ) : ∀ c ∈ fixedText n k, decide (c ≠ 'e' ∧ c ≠ 'E') = true := by
  intro c hc
  rcases fixed_chars n k c hc with h | rfl
  · simpa using ⟨ne_of_isDigit h e_not_digit, ne_of_isDigit h E_not_digit⟩
  · decide

theorem exponent_expText (e : ℤ) :
    exponent ((if e < 0 then '-' else '+') :: (if e.natAbs < 10 then padDigits 2 e.natAbs else natDigits e.natAbs)) = some e := by
  have key : (if e.natAbs < 10 then padDigits 2 e.natAbs else natDigits e.natAbs) ≠ [] ∧
      digitsVal 0 (if e.natAbs < 10 then padDigits 2 e.natAbs else natDigits e.natAbs) = some e.natAbs := by
    split
    · next h =>
      refine ⟨by simp [padDigits], ?_⟩
      have := digitsVal_pad 2 e.natAbs 0 []
      rw [List.append_nil] at this
      rw [this, Nat.mod_eq_of_lt (by omega)]
      simp [digitsVal]
    · refine ⟨natDigits_ne _, ?_⟩
      have := digitsVal_nat e.natAbs []
      rw [List.append_nil] at this
      rw [this]; rfl
  obtain ⟨h1, h2⟩ := key
  generalize (if e.natAbs < 10 then padDigits 2 e.natAbs else natDigits e.natAbs) = ds at h1 h2
  split
  · simp only [exponent, if_neg h1, h2]
    show some (-(e.natAbs : ℤ)) = some e
    congr 1
    omega
  · simp only [exponent, if_neg h1, h2]
    show some (e.natAbs : ℤ) = some e
    congr 1
    omega

section
variable {K : Type} [Field K] [LinearOrder K] [IsStrictOrderedRing K] [FloorRing K]

theorem unsigned_fixed (n k : ℕ) : unsigned (fixedText n k) = some ((n : K) * (10 : K) ^ (-(k : ℤ))) := by
  have h1 := takeWhile_all_append _ [] (fixed_noE n k)
  have h2 := dropWhile_all_append _ [] (fixed_noE n k)
  simp only [List.append_nil, List.takeWhile_nil, List.dropWhile_nil] at h1 h2
  simp only [unsigned, h1, h2, mantissa_fixed, Option.map_some]

theorem unsigned_exp (n k : ℕ) (e : ℤ) :
    unsigned (fixedText n k ++ expText e) = some ((n : K) * (10 : K) ^ (e - (k : ℤ))) := by
  have h1 := takeWhile_all_append _ (expText e) (fixed_noE n k)
  have h2 := dropWhile_all_append _ (expText e) (fixed_noE n k)
  have h3 : (expText e).takeWhile (fun c => decide (c ≠ 'e' ∧ c ≠ 'E')) = [] := rfl
  have h4 : (expText e).dropWhile (fun c => decide (c ≠ 'e' ∧ c ≠ 'E')) = expText e := rfl
  rw [h3, List.append_nil] at h1
  rw [h4] at h2
  unfold unsigned
  rw [h1, h2]
  simp only [expText, mantissa_fixed, exponent_expText]

/-- Dropping zeros does not change the value. -/
theorem dropZeros_value (m n k : ℕ) :
    ((dropZeros m n k).1 : K) * (10 : K) ^ (-((dropZeros m n k).2 : ℤ)) = (n : K) * (10 : K) ^ (-(k : ℤ)) := by
  fun_induction dropZeros m n k with
  | case1 => rfl
  | case2 => rfl
  | case3 n k h1 h2 ih =>
    rw [ih]
    have hn : n = 10 * (n / 10) := by omega
    have : (n : K) = 10 * ((n / 10 : ℕ) : K) := by
      conv_lhs => rw [hn]
      push_cast; ring
    rw [this, show (-((k + 1 : ℕ) : ℤ)) = -(k : ℤ) + (-1) by push_cast; ring, zpow_add₀ (by norm_num)]
    rw [zpow_neg_one]
    field_simp
  | case4 => rfl

/-! ### Significant digits -/

theorem rintK_bounds (x : K) : (rintK x : K) ≤ x + 1 / 2 ∧ x - 1 / 2 ≤ (rintK x : K) := by
  have h1 := Int.floor_le x
  have h2 := Int.lt_floor_add_one x
  simp only [rintK]
  split_ifs with a b c
  · constructor <;> linarith
  · push_cast; constructor <;> linarith
  · constructor <;> linarith
  · push_cast; constructor <;> linarith

theorem rintK_int (z : ℤ) : rintK (z : K) = z := by simp [rintK]

theorem rintK_nat (n : ℕ) : rintK (n : K) = n := by
  have := rintK_int (K := K) (n : ℤ)
  simpa using this

theorem rintK_mono {x y : K} (h : x ≤ y) : rintK x ≤ rintK y := by
  have hx1 := Int.floor_le x
  have hx2 := Int.lt_floor_add_one x
  have hy1 := Int.floor_le y
  have hy2 := Int.lt_floor_add_one y
  rcases (Int.floor_le_floor h).lt_or_eq with hf | hf
  · have hx : rintK x ≤ ⌊x⌋ + 1 := by simp only [rintK]; split_ifs <;> omega
    have hy : ⌊y⌋ ≤ rintK y := by simp only [rintK]; split_ifs <;> omega
    omega
  · simp only [rintK, hf]
    have e : (⌊x⌋ : K) = (⌊y⌋ : K) := by exact_mod_cast hf
    split_ifs with a b c d f g
    all_goals first
      | omega
      | (exfalso; linarith)

theorem sig12_raw (x : K) (hx : 0 < x) :
    (10 : ℤ) ^ 11 ≤ rintK (x * (10 : K) ^ (11 - Int.log 10 x)) ∧ rintK (x * (10 : K) ^ (11 - Int.log 10 x)) ≤ 10 ^ 12 := by
  have h1 : ((10 : ℕ) : K) ^ Int.log 10 x ≤ x := Int.zpow_log_le_self (by norm_num) hx
  have h2 : x < ((10 : ℕ) : K) ^ (Int.log 10 x + 1) := Int.lt_zpow_succ_log_self (by norm_num) x
  push_cast at h1 h2
  have hp : (0 : K) < (10 : K) ^ (11 - Int.log 10 x) := by positivity
  constructor
  · have : (10 : K) ^ (11 : ℕ) ≤ x * (10 : K) ^ (11 - Int.log 10 x) := by
      calc (10 : K) ^ (11 : ℕ) = (10 : K) ^ Int.log 10 x * (10 : K) ^ (11 - Int.log 10 x) := by
            rw [← zpow_add₀ (by norm_num)]; norm_num
        _ ≤ _ := mul_le_mul_of_nonneg_right h1 hp.le
    have := rintK_mono this
    rwa [show (10 : K) ^ 11 = ((10 ^ 11 : ℤ) : K) by push_cast; norm_num, rintK_int] at this
  · have : x * (10 : K) ^ (11 - Int.log 10 x) ≤ (10 : K) ^ (12 : ℕ) := by
      calc x * (10 : K) ^ (11 - Int.log 10 x) ≤ (10 : K) ^ (Int.log 10 x + 1) * (10 : K) ^ (11 - Int.log 10 x) :=
            mul_le_mul_of_nonneg_right h2.le hp.le
        _ = (10 : K) ^ (12 : ℕ) := by
            rw [← zpow_add₀ (by norm_num), show Int.log 10 x + 1 + (11 - Int.log 10 x) = ((12 : ℕ) : ℤ) by push_cast; ring,
              zpow_natCast]
    have := rintK_mono this
    rwa [show (10 : K) ^ 12 = ((10 ^ 12 : ℤ) : K) by push_cast; norm_num, rintK_int] at this

theorem sig12_range (x : K) (hx : 0 < x) : 10 ^ 11 ≤ (sig12 x).1 ∧ (sig12 x).1 < 10 ^ 12 := by
  obtain ⟨h1, h2⟩ := sig12_raw x hx
  simp only [sig12]
  generalize rintK (x * (10 : K) ^ (11 - Int.log 10 x)) = z at h1 h2
  split_ifs with h
  · norm_num
  · dsimp only
    omega

/-- A number of twelve digits is represented by itself. -/
theorem sig12_exact (n : ℕ) (e : ℤ) (h1 : 10 ^ 11 ≤ n) (h2 : n < 10 ^ 12) :
    sig12 ((n : K) * (10 : K) ^ (e - 11)) = (n, e) := by
  have hn : (0 : K) < n := by
    have : 0 < n := by omega
    exact_mod_cast this
  have hp : (0 : K) < (10 : K) ^ (e - 11) := by positivity
  have hx : (0 : K) < (n : K) * (10 : K) ^ (e - 11) := mul_pos hn hp
  have hlog : Int.log 10 ((n : K) * (10 : K) ^ (e - 11)) = e := by
    apply le_antisymm
    · rw [← Int.lt_add_one_iff, ← Int.lt_zpow_iff_log_lt (by norm_num) hx]
      push_cast
      have : (n : K) < 10 ^ (12 : ℕ) := by exact_mod_cast h2
      calc (n : K) * (10 : K) ^ (e - 11) < (10 : K) ^ (12 : ℕ) * (10 : K) ^ (e - 11) := mul_lt_mul_of_pos_right this hp
        _ = (10 : K) ^ (e + 1) := by
          rw [← zpow_natCast, ← zpow_add₀ (by norm_num)]
          congr 1
          push_cast; ring
    · rw [← Int.zpow_le_iff_le_log (by norm_num) hx]
      push_cast
      have : (10 : K) ^ (11 : ℕ) ≤ n := by exact_mod_cast h1
      calc (10 : K) ^ e = (10 : K) ^ (11 : ℕ) * (10 : K) ^ (e - 11) := by
            rw [← zpow_natCast, ← zpow_add₀ (by norm_num)]
            congr 1
            push_cast; ring
        _ ≤ _ := mul_le_mul_of_nonneg_right this hp.le
  simp only [sig12, hlog]
  have : (n : K) * (10 : K) ^ (e - 11) * (10 : K) ^ (11 - e) = n := by
    rw [mul_assoc, ← zpow_add₀ (by norm_num)]
    simp
  rw [this, rintK_nat]
  simp only [Int.toNat_natCast]
  rw [if_neg (by omega)]

/-- The value of the digits. -/
def val12 (x : K) : K := ((sig12 x).1 : K) * (10 : K) ^ ((sig12 x).2 - 11)

theorem val12_pos (x : K) (hx : 0 < x) : 0 < val12 x := by
  have h := (sig12_range x hx).1
  have : (0 : K) < ((sig12 x).1 : K) := by
    have : 0 < (sig12 x).1 := by omega
    exact_mod_cast this
  unfold val12; positivity

theorem sig12_val12 (x : K) (hx : 0 < x) : sig12 (val12 x) = sig12 x := by
  obtain ⟨h1, h2⟩ := sig12_range x hx
  exact sig12_exact _ _ h1 h2

theorem posText_val12 (x : K) (hx : 0 < x) : posText (val12 x) = posText x := by
  simp only [posText, sig12_val12 x hx]

theorem unsigned_posText (x : K) (hx : 0 < x) : unsigned (posText x) = some (val12 x) := by
  unfold posText
  simp only
  split
  · next h =>
    rw [unsigned_fixed, dropZeros_value]
    congr 2
    congr 1
    omega
  · rw [unsigned_exp]
    have := dropZeros_value (K := K) 0 (sig12 x).1 11
    rw [show (sig12 x).2 - ((dropZeros 0 (sig12 x).1 11).2 : ℤ) = -((dropZeros 0 (sig12 x).1 11).2 : ℤ) + (sig12 x).2 by ring,
      zpow_add₀ (by norm_num), ← mul_assoc, this, val12, mul_assoc, ← zpow_add₀ (by norm_num)]
    congr 3
    push_cast; ring

/-- The rounding error: at most half a unit of the twelfth digit. -/
theorem val12_error (x : K) (hx : 0 < x) : |val12 x - x| ≤ (10 : K) ^ (Int.log 10 x - 11) / 2 := by
  have hb := rintK_bounds (x * (10 : K) ^ (11 - Int.log 10 x))
  obtain ⟨h1, h2⟩ := sig12_raw x hx
  have hp : (0 : K) < (10 : K) ^ (Int.log 10 x - 11) := by positivity
  have hval : val12 x = (rintK (x * (10 : K) ^ (11 - Int.log 10 x)) : K) * (10 : K) ^ (Int.log 10 x - 11) := by
    simp only [val12, sig12]
    generalize rintK (x * (10 : K) ^ (11 - Int.log 10 x)) = z at h1 h2
    have hz : ((z.toNat : ℕ) : K) = (z : K) := by
      have : ((z.toNat : ℕ) : ℤ) = z := by omega
      exact_mod_cast congrArg (Int.cast (R := K)) this
    split_ifs with h
    · have hz' : (z : K) = 10 ^ 12 := by
        rw [← hz, h]; push_cast; norm_num
      dsimp only
      rw [hz', show Int.log 10 x + 1 - 11 = 1 + (Int.log 10 x - 11) by ring, zpow_add₀ (by norm_num)]
      push_cast
      ring
    · dsimp only
      rw [hz]
  have hback : x = x * (10 : K) ^ (11 - Int.log 10 x) * (10 : K) ^ (Int.log 10 x - 11) := by
    rw [mul_assoc, ← zpow_add₀ (by norm_num)]; simp
  rw [hval]
  generalize hq : x * (10 : K) ^ (11 - Int.log 10 x) = q at *
  have hd : (rintK q : K) * (10 : K) ^ (Int.log 10 x - 11) - x = ((rintK q : K) - q) * (10 : K) ^ (Int.log 10 x - 11) := by
    rw [sub_mul, ← hback]
  rw [hd, abs_mul, abs_of_pos hp, div_eq_inv_mul]
  apply mul_le_mul_of_nonneg_right _ hp.le
  rw [abs_le]
  constructor <;> linarith [hb.1, hb.2]

/-! ### Laws of `str` -/

/-- Characters of a printed number. -/
def NumChar (c : Char) : Prop := IsDigit c ∨ c = '.' ∨ c = '-' ∨ c = '+' ∨ c = 'e'

theorem expText_chars (e : ℤ) : ∀ c ∈ expText e, NumChar c := by
  intro c hc
  simp only [expText, List.mem_cons] at hc
  rcases hc with rfl | rfl | hc
  · simp [NumChar]
  · split <;> simp [NumChar]
  · left
    split at hc
    · exact padDigits_digit _ _ c hc
    · exact natDigits_digit _ c hc

theorem posText_chars (x : K) : ∀ c ∈ posText x, NumChar c := by
  intro c hc
  unfold posText at hc
  simp only at hc
  split at hc
  · rcases fixed_chars _ _ c hc with h | h
    · exact .inl h
    · exact .inr (.inl h)
  · rw [List.mem_append] at hc
    rcases hc with hc | hc
    · rcases fixed_chars _ _ c hc with h | h
      · exact .inl h
      · exact .inr (.inl h)
    · exact expText_chars _ c hc

theorem posText_head (x : K) : ∃ c cs, posText x = c :: cs ∧ IsDigit c := by
  unfold posText
  simp only
  split
  · exact fixed_head _ _
  · obtain ⟨c, cs, h, hd⟩ := fixed_head (dropZeros 0 (sig12 x).1 11).1 (dropZeros 0 (sig12 x).1 11).2
    exact ⟨c, cs ++ expText (sig12 x).2, by rw [h]; rfl, hd⟩

theorem str_chars (x : K) : ∀ c ∈ str x, NumChar c := by
  intro c hc
  unfold str at hc
  split_ifs at hc
  · simp only [List.mem_cons, List.not_mem_nil, or_false] at hc
    rcases hc with rfl | rfl | rfl
    · left; unfold IsDigit; decide
    · right; left; rfl
    · left; unfold IsDigit; decide
  · rw [List.mem_cons] at hc
    rcases hc with rfl | hc
    · right; right; left; rfl
    · exact posText_chars _ c hc
  · exact posText_chars _ c hc

theorem str_ne_nil (x : K) : str x ≠ [] := by
  unfold str
  split_ifs
  · simp
  · simp
  · obtain ⟨c, cs, h, -⟩ := posText_head x
    simp [h]

theorem numChar_not_ws {c : Char} (h : NumChar c) : isWs c = false := by
  rw [Bool.eq_false_iff]
  intro hw
  simp only [isWs, Bool.or_eq_true, beq_iff_eq] at hw
  rcases hw with ((((rfl | rfl) | rfl) | rfl) | rfl) | rfl <;>
    simp only [NumChar, IsDigit] at h <;> revert h <;> decide

theorem dropWhile_none {p : Char → Bool} (t : Text) (h : ∀ c ∈ t, p c = false) : t.dropWhile p = t := by
  cases t with
  | nil => rfl
  | cons c cs => exact List.dropWhile_cons_of_neg (by simp [h c (by simp)])

theorem strip_eq (t : Text) (h : ∀ c ∈ t, isWs c = false) : strip t = t := by
  unfold strip
  rw [dropWhile_none t h, dropWhile_none t.reverse (by simpa using h), List.reverse_reverse]

/-- Reading an unsigned literal that starts with a digit. -/
theorem pyFloat_unsigned (t : Text) (h : ∀ c ∈ t, isWs c = false) (hh : ∃ c cs, t = c :: cs ∧ IsDigit c) :
    pyFloat t = unsigned (K := K) t := by
  unfold pyFloat
  rw [strip_eq t h]
  obtain ⟨c, cs, rfl, hd⟩ := hh
  have h1 := ne_of_isDigit hd minus_not_digit
  have h2 := ne_of_isDigit hd plus_not_digit
  split
  · next h => cases h; exact absurd rfl h1
  · next h => cases h; exact absurd rfl h2
  · rfl

theorem pyFloat_neg (t : Text) (h : ∀ c ∈ t, isWs c = false) :
    pyFloat ('-' :: t) = (unsigned (K := K) t).map (fun x => -x) := by
  unfold pyFloat
  rw [strip_eq _ (by
    intro c hc
    rcases List.mem_cons.1 hc with rfl | hc
    · decide
    · exact h c hc)]
  rfl

theorem rnd12_pos (x : K) (hx : 0 < x) : rnd12 x = val12 x := by
  simp [rnd12, hx.ne', not_lt.2 hx.le, abs_of_pos hx, val12]

theorem rnd12_neg (x : K) (hx : x < 0) : rnd12 x = -val12 (-x) := by
  simp [rnd12, hx.ne, hx, abs_of_neg hx, val12]

theorem rnd12_zero : rnd12 (0 : K) = 0 := by simp [rnd12]

/-- `float(str(x))` is `x` rounded to twelve significant digits. -/
theorem pyFloat_str (x : K) : pyFloat (str x) = some (rnd12 x) := by
  rcases lt_trichotomy x 0 with h | rfl | h
  · have hs : str x = '-' :: posText (-x) := by simp [str, h.ne, h]
    rw [hs, pyFloat_neg _ (fun c hc => numChar_not_ws (posText_chars _ c hc)), unsigned_posText _ (by linarith),
      rnd12_neg x h]
    rfl
  · have hs : str (0 : K) = fixedText 0 1 := by simp [str, fixedText, natDigits, padDigits, digitChar]
    rw [hs, pyFloat_unsigned _ (fun c hc => numChar_not_ws (by
      rcases fixed_chars 0 1 c hc with h | h
      · exact .inl h
      · exact .inr (.inl h))) (fixed_head 0 1), unsigned_fixed, rnd12_zero]
    simp
  · have hs : str x = posText x := by simp [str, h.ne', not_lt.2 h.le]
    rw [hs, pyFloat_unsigned _ (fun c hc => numChar_not_ws (posText_chars _ c hc)) (posText_head x), unsigned_posText x h,
      rnd12_pos x h]

/-- The rounded number prints in the same way. -/
theorem str_rnd12 (x : K) : str (rnd12 x) = str x := by
  rcases lt_trichotomy x 0 with h | rfl | h
  · have hp := val12_pos (-x) (by linarith)
    rw [rnd12_neg x h]
    simp only [str, h.ne, if_false, h, if_true, neg_eq_zero, hp.ne', neg_lt_zero, hp, neg_neg,
      posText_val12 (-x) (by linarith : 0 < -x)]
  · rw [rnd12_zero]
  · have hp := val12_pos x h
    rw [rnd12_pos x h]
    simp only [str, h.ne', if_false, not_lt.2 h.le, hp.ne', not_lt.2 hp.le, posText_val12 x h]

/-- The relative error of the printed value is at most `5e-12`. -/
theorem rnd12_error (x : K) : |rnd12 x - x| ≤ |x| * (5 / 10 ^ 12) := by
  have key : ∀ y : K, 0 < y → |val12 y - y| ≤ y * (5 / 10 ^ 12) := by
    intro y hy
    refine (val12_error y hy).trans ?_
    have h1 : ((10 : ℕ) : K) ^ Int.log 10 y ≤ y := Int.zpow_log_le_self (by norm_num) hy
    push_cast at h1
    rw [zpow_sub₀ (by norm_num)]
    have : (10 : K) ^ Int.log 10 y / (10 : K) ^ (11 : ℤ) / 2 = (10 : K) ^ Int.log 10 y * (5 / 10 ^ 12) := by
      have : (10 : K) ^ (11 : ℤ) = 10 ^ 11 := by
        rw [show (11 : ℤ) = ((11 : ℕ) : ℤ) by rfl, zpow_natCast]
      rw [this]; ring
    rw [this]
    exact mul_le_mul_of_nonneg_right h1 (by norm_num)
  rcases lt_trichotomy x 0 with h | rfl | h
  · rw [rnd12_neg x h, abs_of_neg h]
    have := key (-x) (by linarith)
    rwa [show -val12 (-x) - x = -(val12 (-x) - -x) by ring, abs_neg]
  · simp [rnd12_zero]
  · rw [rnd12_pos x h, abs_of_pos h]
    exact key x h

/-! ### Laws of `'%10.5f'` -/

theorem strip_left (n : ℕ) (t : Text) (h : ∀ c ∈ t, isWs c = false) : strip (List.replicate n ' ' ++ t) = t := by
  unfold strip
  rw [dropWhile_all_append _ t (by
    intro c hc
    rw [List.mem_replicate] at hc
    rw [hc.2]; decide), dropWhile_none t h, dropWhile_none t.reverse (by simpa using h), List.reverse_reverse]

theorem pyFloat_congr {t u : Text} (h : strip t = strip u) : pyFloat (K := K) t = pyFloat u := by
  unfold pyFloat; rw [h]

theorem fixed_not_ws (n k : ℕ) : ∀ c ∈ fixedText n k, isWs c = false := by
  intro c hc
  apply numChar_not_ws
  rcases fixed_chars n k c hc with h | h
  · exact .inl h
  · exact .inr (.inl h)

theorem fmt5_nonneg (y : K) (hy : 0 ≤ y) : 0 ≤ rintK (y * 10 ^ 5) := by
  have := rintK_mono (K := K) (x := ((0 : ℤ) : K)) (y := y * 10 ^ 5) (by push_cast; positivity)
  rwa [rintK_int] at this

/-- Reading `'%10.5f' % x` gives `x` rounded to five decimals. -/
theorem pyFloat_fmt5 (x : K) : pyFloat (fmt5 x) = some (rnd5 x) := by
  have hnn : 0 ≤ rintK (|x| * 10 ^ 5) := fmt5_nonneg _ (abs_nonneg x)
  have hz : (((rintK (|x| * 10 ^ 5)).toNat : ℕ) : K) = ((rintK (|x| * 10 ^ 5) : ℤ) : K) := by
    have : (((rintK (|x| * 10 ^ 5)).toNat : ℕ) : ℤ) = rintK (|x| * 10 ^ 5) := by omega
    exact_mod_cast congrArg (Int.cast (R := K)) this
  have h5 : (10 : K) ^ (-((5 : ℕ) : ℤ)) = 1 / 10 ^ 5 := by
    rw [zpow_neg, zpow_natCast, one_div]
  unfold fmt5 rnd5
  simp only
  by_cases hx : x < 0
  · simp only [hx, if_true]
    have hw := fixed_not_ws (rintK (|x| * 10 ^ 5)).toNat 5
    have hw' : ∀ c ∈ '-' :: fixedText (rintK (|x| * 10 ^ 5)).toNat 5, isWs c = false := by
      intro c hc
      rcases List.mem_cons.1 hc with rfl | hc
      · decide
      · exact hw c hc
    rw [pyFloat_congr (K := K) (u := '-' :: fixedText (rintK (|x| * 10 ^ 5)).toNat 5)
      (by rw [strip_left _ _ hw', strip_eq _ hw']), pyFloat_neg _ hw, unsigned_fixed, hz, h5]
    show some _ = some _
    congr 1
    ring
  · simp only [hx, if_false]
    have hw := fixed_not_ws (rintK (|x| * 10 ^ 5)).toNat 5
    rw [pyFloat_congr (K := K) (u := fixedText (rintK (|x| * 10 ^ 5)).toNat 5)
      (by rw [strip_left _ _ hw, strip_eq _ hw]), pyFloat_unsigned _ hw (fixed_head _ _), unsigned_fixed, hz, h5]
    congr 1
    ring

theorem rnd5_error (x : K) : |rnd5 x - x| ≤ 5 / 10 ^ 6 := by
  have hb := rintK_bounds (|x| * 10 ^ 5)
  have key : |((rintK (|x| * 10 ^ 5) : ℤ) : K) / 10 ^ 5 - (|x|)| ≤ 5 / 10 ^ 6 := by
    rw [abs_le]
    constructor
    · rw [le_sub_iff_add_le, le_div_iff₀ (by norm_num)]
      nlinarith [hb.2]
    · rw [sub_le_iff_le_add, div_le_iff₀ (by norm_num)]
      nlinarith [hb.1]
  unfold rnd5
  by_cases hx : x < 0
  · rw [if_pos hx]
    rw [abs_of_neg hx] at key ⊢
    rwa [show -1 * ((rintK (-x * 10 ^ 5) : ℤ) : K) / 10 ^ 5 - x = -(((rintK (-x * 10 ^ 5) : ℤ) : K) / 10 ^ 5 - -x) by ring,
      abs_neg]
  · rw [if_neg hx]
    rw [abs_of_nonneg (not_lt.1 hx)] at key ⊢
    rwa [one_mul]

/-- Rounding to five decimals a second time changes nothing. -/
theorem rnd5_rnd5 (x : K) : rnd5 (rnd5 x) = rnd5 x := by
  have hnn : 0 ≤ rintK (|x| * 10 ^ 5) := fmt5_nonneg _ (abs_nonneg x)
  have hnn' : (0 : K) ≤ ((rintK (|x| * 10 ^ 5) : ℤ) : K) := by exact_mod_cast hnn
  have habs : |rnd5 x| = ((rintK (|x| * 10 ^ 5) : ℤ) : K) / 10 ^ 5 := by
    unfold rnd5
    split
    · rw [show (-1 : K) * ((rintK (|x| * 10 ^ 5) : ℤ) : K) / 10 ^ 5 = -(((rintK (|x| * 10 ^ 5) : ℤ) : K) / 10 ^ 5) by ring,
        abs_neg, abs_of_nonneg (by positivity)]
    · rw [one_mul, abs_of_nonneg (by positivity)]
  have hr : rintK (|rnd5 x| * 10 ^ 5) = rintK (|x| * 10 ^ 5) := by
    rw [habs, div_mul_cancel₀ _ (by norm_num), rintK_int]
  have hdef : ∀ y : K, rnd5 y = (if y < 0 then -1 else 1) * ((rintK (|y| * 10 ^ 5) : ℤ) : K) / 10 ^ 5 := fun _ => rfl
  rw [hdef (rnd5 x), hr]
  by_cases hz : rintK (|x| * 10 ^ 5) = 0
  · unfold rnd5; rw [hz]; simp
  · have hpos : (0 : K) < ((rintK (|x| * 10 ^ 5) : ℤ) : K) := by
      have : 0 < rintK (|x| * 10 ^ 5) := by omega
      exact_mod_cast this
    have hsign : rnd5 x < 0 ↔ x < 0 := by
      unfold rnd5
      split
      · next h =>
        simp only [h, iff_true]
        rw [div_neg_iff]
        right
        exact ⟨by linarith, by positivity⟩
      · next h =>
        simp only [h, iff_false, not_lt, one_mul]
        positivity
    simp only [hsign]
    rfl

end

end Verif.Format
