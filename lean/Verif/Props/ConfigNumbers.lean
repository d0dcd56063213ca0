import Verif.Model.YamlScalar
import Verif.Props.DoubleText
import Verif.Props.DoubleBValue

/-!
# Numbers in the configuration file (C208)

What `yaml.load` makes of a number as Python prints it, and what a tolerance that is no number does to the estimator of Kijko.
-/

namespace Verif.Yaml

open Verif Verif.EqCatalog Verif.Format

theorem isDig_iff (c : Char) : isDig c = true ↔ IsDigit c := by
  unfold isDig IsDigit
  rw [decide_eq_true_iff]
  simp only [Char.le_def, UInt32.le_iff_toNat_le]
  exact Iff.rfl

theorem du_digit {c : Char} (h : IsDigit c) : du c = true := by simp [du, (isDig_iff c).2 h]

theorem dropWhile_digits {a b : Text} (h : ∀ c ∈ a, IsDigit c) : (a ++ b).dropWhile du = b.dropWhile du :=
  List.dropWhile_append_of_pos fun c hc => du_digit (h c hc)

theorem expOk_expText (e : ℤ) : expOk (expText e) = true := by
  have key : ∃ d ds, (if e.natAbs < 10 then padDigits 2 e.natAbs else natDigits e.natAbs) = d :: ds ∧ (d :: ds).all isDig = true := by
    have hd : ∀ c ∈ (if e.natAbs < 10 then padDigits 2 e.natAbs else natDigits e.natAbs), IsDigit c := by
      split
      · exact padDigits_digit _ _
      · exact natDigits_digit _
    have hn : (if e.natAbs < 10 then padDigits 2 e.natAbs else natDigits e.natAbs) ≠ [] := by
      split
      · intro h
        have := congrArg List.length h
        rw [padDigits_length] at this
        cases this
      · exact natDigits_ne _
    generalize (if e.natAbs < 10 then padDigits 2 e.natAbs else natDigits e.natAbs) = l at hd hn
    cases l with
    | nil => exact absurd rfl hn
    | cons d ds => exact ⟨d, ds, rfl, List.all_eq_true.2 fun c hc => (isDig_iff c).2 (hd c hc)⟩
  obtain ⟨d, ds, he, ha⟩ := key
  unfold expText
  rw [he, expOk, ha]
  split <;> decide

theorem unsign_digit {c : Char} (h : IsDigit c) (t : Text) : unsign (c :: t) = c :: t := by
  unfold unsign
  split
  · next h' => cases h'; exact absurd h minus_not_digit
  · next h' => cases h'; exact absurd h plus_not_digit
  · rfl

/-- A number with a decimal point. -/
theorem floatPoint_number {a b ex : Text} (ha : ∀ c ∈ a, IsDigit c) (hn : a ≠ []) (hb : ∀ c ∈ b, IsDigit c) (hex : ex = [] ∨ ∃ e, ex = expText e) :
    floatPoint (a ++ '.' :: (b ++ ex)) = true ∧ floatPoint ('-' :: (a ++ '.' :: (b ++ ex))) = true := by
  have hx : fracOk (b ++ ex) = true := by
    unfold fracOk
    rw [dropWhile_digits hb]
    rcases hex with rfl | ⟨e, rfl⟩
    · rfl
    · have : (expText e).dropWhile du = expText e := by
        unfold expText
        rw [List.dropWhile_cons_of_neg (by decide)]
      rw [this, expOk_expText]
  cases a with
  | nil => exact absurd rfl hn
  | cons c r =>
    have hc := ha c List.mem_cons_self
    have hr : (r ++ '.' :: (b ++ ex)).dropWhile du = '.' :: (b ++ ex) := by
      rw [dropWhile_digits fun c hc => ha c (List.mem_cons_of_mem _ hc), List.dropWhile_cons_of_neg (by decide)]
    have h1 : floatPoint (c :: r ++ '.' :: (b ++ ex)) = true := by
      unfold floatPoint
      rw [List.cons_append, unsign_digit hc]
      simp only [(isDig_iff c).2 hc, hr, hx, Bool.and_self]
    refine ⟨h1, ?_⟩
    unfold floatPoint at h1 ⊢
    rw [List.cons_append, unsign_digit hc] at h1
    exact h1

theorem reprPos_form {x : ℚ} (h : '.' ∈ reprPos x) :
    ∃ a b ex, reprPos x = a ++ '.' :: (b ++ ex) ∧ (∀ c ∈ a, IsDigit c) ∧ a ≠ [] ∧ (∀ c ∈ b, IsDigit c) ∧ (ex = [] ∨ ∃ e, ex = expText e) := by
  have key : ∀ n k ex, (ex = [] ∨ ∃ e, ex = expText e) → '.' ∈ fixedText n k ++ ex → ∃ a b ex', fixedText n k ++ ex = a ++ '.' :: (b ++ ex') ∧ (∀ c ∈ a, IsDigit c) ∧ a ≠ [] ∧
      (∀ c ∈ b, IsDigit c) ∧ (ex' = [] ∨ ∃ e, ex' = expText e) := by
    intro n k ex hex hm
    unfold fixedText at hm ⊢
    split_ifs at hm ⊢ with hk
    · exfalso
      rcases List.mem_append.1 hm with hm | hm
      · exact dot_not_digit (natDigits_digit _ _ hm)
      · rcases hex with rfl | ⟨e, rfl⟩
        · cases hm
        · unfold expText at hm
          rcases List.mem_cons.1 hm with hm | hm
          · exact absurd hm (by decide)
          rcases List.mem_cons.1 hm with hm | hm
          · split_ifs at hm <;> exact absurd hm (by decide)
          · split_ifs at hm
            · exact dot_not_digit (padDigits_digit _ _ _ hm)
            · exact dot_not_digit (natDigits_digit _ _ hm)
    · exact ⟨_, _, ex, by rw [List.append_assoc]; rfl, natDigits_digit _, natDigits_ne _, padDigits_digit _ _, hex⟩
  unfold reprPos at h ⊢
  simp only at h ⊢
  split_ifs at h ⊢
  · have := key _ _ [] (.inl rfl) (by rw [List.append_nil]; exact h)
    rwa [List.append_nil] at this
  · exact key _ _ _ (.inr ⟨_, rfl⟩) h

theorem lower_num {c : Char} (h : NumChar c) : c.toLower = c ∧ c ≠ '_' := by
  rcases h with h | rfl | rfl | rfl | rfl
  · refine ⟨?_, ne_of_isDigit h (by unfold IsDigit; decide)⟩
    unfold IsDigit at h
    unfold Char.toLower
    rw [dif_neg]
    intro hh
    have h1 : 65 ≤ c.toNat := UInt32.le_iff_toNat_le.1 hh.1
    omega
  all_goals decide

theorem clean_num {t : Text} (h : ∀ c ∈ t, NumChar c) : (noUnderscores t).map Char.toLower = t := by
  unfold noUnderscores
  rw [List.filter_eq_self.2 fun c hc => by simpa using (lower_num (h c hc)).2, List.map_congr_left (g := id) fun c hc => (lower_num (h c hc)).1, List.map_id]

theorem truths_letters : ∀ t ∈ truths ++ falsehoods, ∀ c ∈ t, c ≠ '.' := by decide +kernel

/-- A text with a decimal point that is recognised as a number is read by `float`. -/
theorem scalar_point {t : Text} (hd : '.' ∈ t) (h : floatPoint t = true) : scalar t = floatOf t := by
  have h1 : truths.contains t = false := by
    rw [Bool.eq_false_iff]
    intro hh
    exact truths_letters t (List.mem_append_left _ (by simpa using hh)) _ hd rfl
  have h2 : falsehoods.contains t = false := by
    rw [Bool.eq_false_iff]
    intro hh
    exact truths_letters t (List.mem_append_right _ (by simpa using hh)) _ hd rfl
  unfold scalar
  simp only [h1, h2, h, Bool.true_or, if_true]
  rfl

theorem float_reprPos {x : Dbl} (hx : 0 < x.val) : floatDbl (reprPos x.val) = some x := by
  have := C181_number x
  unfold reprDbl at this
  rwa [if_neg hx.ne', if_neg (not_lt.2 hx.le)] at this

theorem negVal (x : Dbl) : (-x).val = -x.val := by
  show rnd53 (-x.val) = -x.val
  rw [rnd53_neg, x.ok]

/-- The number Python prints is the number read from the configuration. -/
def Spec.ReadAs (x : Dbl) : Prop := scalar (reprDbl x) = .float x

/-- **C208**, what holds: a number printed with a decimal point is read as that number. -/
theorem C208_partial (x : Dbl) (h : '.' ∈ reprDbl x) : Spec.ReadAs x := by
  unfold Spec.ReadAs
  unfold reprDbl at h ⊢
  split_ifs at h ⊢ with h0 h1
  · have hv := C181_number x
    unfold reprDbl at hv
    rw [if_pos h0] at hv
    rw [scalar_point h (by decide)]
    unfold floatOf
    rw [show (noUnderscores (unsign ['0', '.', '0'])).map Char.toLower = ['0', '.', '0'] by decide, hv]
    rfl
  · have hm : '.' ∈ reprPos (-x.val) := by
      rcases List.mem_cons.1 h with h | h
      · exact absurd h (by decide)
      · exact h
    obtain ⟨a, b, ex, he, ha, hn, hb, hex⟩ := reprPos_form hm
    have hf := (floatPoint_number ha hn hb hex).2
    rw [← he] at hf
    rw [scalar_point h hf]
    have hp : (0 : ℚ) < (-x).val := by rw [negVal]; linarith
    have hv := float_reprPos hp
    unfold floatOf
    rw [show unsign ('-' :: reprPos (-x.val)) = reprPos (-x.val) from rfl, clean_num (reprPos_chars _), show reprPos (-x.val) = reprPos (-x).val by rw [negVal], hv]
    simp only [List.head?_cons, if_true]
    congr 1
    exact Dbl.ext (by rw [negVal, negVal, neg_neg])
  · obtain ⟨a, b, ex, he, ha, hn, hb, hex⟩ := reprPos_form h
    have hf := (floatPoint_number ha hn hb hex).1
    rw [← he] at hf
    rw [scalar_point h hf]
    have hp : 0 < x.val := lt_of_le_of_ne (not_lt.1 h1) (Ne.symm h0)
    obtain ⟨c, cs, hc, hcd⟩ := reprPos_head x.val
    unfold floatOf
    have hu : unsign (reprPos x.val) = reprPos x.val := by rw [hc, unsign_digit hcd]
    rw [hu, clean_num (reprPos_chars _), float_reprPos hp]
    simp only
    rw [if_neg]
    rw [hc]
    intro hh
    exact ne_of_isDigit hcd minus_not_digit (Option.some.inj hh)


theorem digits17_exponent (x : ℚ) : (digits17 x).2 = Int.log 10 x ∨ (digits17 x).2 = Int.log 10 x + 1 ∨ (digits17 x).2 = 0 := by
  unfold digits17
  split
  · simp only
    split_ifs
    · exact .inr (.inl rfl)
    · exact .inl rfl
  · exact .inr (.inr rfl)

theorem dropZeros_keeps (n k : ℕ) (h : 1 ≤ k) : 1 ≤ (dropZeros 1 n k).2 := by
  fun_induction dropZeros 1 n k with
  | case1 => exact h
  | case2 => exact h
  | case3 n k h1 h2 ih => exact ih (by omega)
  | case4 => exact h

/-- Positional notation has a decimal point. -/
theorem dot_positional {x : ℚ} (h : -4 ≤ (digits17 x).2 ∧ (digits17 x).2 ≤ 15) : '.' ∈ reprPos x := by
  unfold reprPos
  simp only
  rw [if_pos h]
  have := dropZeros_keeps (digits17 x).1 (16 - (digits17 x).2).toNat (by omega)
  unfold fixedText
  rw [if_neg (by omega)]
  simp

theorem dot_usual {x : ℚ} (hx : 0 < x) (h1 : (10 : ℚ) ^ (-4 : ℤ) ≤ x) (h2 : x < (10 : ℚ) ^ (15 : ℤ)) : '.' ∈ reprPos x := by
  refine dot_positional ?_
  have k1 : -4 ≤ Int.log 10 x := by
    rw [← Int.zpow_le_iff_le_log (by norm_num) hx]
    exact_mod_cast h1
  have k2 : Int.log 10 x < 15 := by
    rw [← Int.lt_zpow_iff_log_lt (by norm_num) hx]
    exact_mod_cast h2
  have := digits17_exponent x
  omega

/-- **C208**, what holds: zero and the numbers from one ten thousandth to a thousand million million are read as printed. -/
theorem C208_usual_partial (x : Dbl) (h : x.val = 0 ∨ (10 : ℚ) ^ (-4 : ℤ) ≤ |x.val| ∧ |x.val| < (10 : ℚ) ^ (15 : ℤ)) : Spec.ReadAs x := by
  refine C208_partial x ?_
  unfold reprDbl
  rcases h with h | ⟨h1, h2⟩
  · rw [if_pos h]; decide
  have h0 : x.val ≠ 0 := by
    intro h0
    rw [h0, abs_zero] at h1
    exact absurd h1 (by norm_num)
  rw [if_neg h0]
  split_ifs with hn
  · rw [abs_of_neg hn] at h1 h2
    exact List.mem_cons_of_mem _ (dot_usual (by linarith) h1 h2)
  · have hp : 0 < x.val := lt_of_le_of_ne (not_lt.1 hn) (Ne.symm h0)
    rw [abs_of_pos hp] at h1 h2
    exact dot_usual hp h1 h2

/-- **C208** is false: Python prints one hundred thousandth, the default tolerance, as `1e-05`, which the configuration file gives back as a text. -/
theorem C208_fails : ¬ ∀ x : Dbl, Spec.ReadAs x := by
  intro h
  have h := h (.of (1 / 100000))
  unfold Spec.ReadAs at h
  have h1 : reprDbl (.of (1 / 100000)) = "1e-05".toList := by decide +kernel
  have h2 : (match scalar "1e-05".toList with | .str _ => true | _ => false) = true := by decide +kernel
  rw [h1] at h
  rw [h] at h2
  cases h2

theorem not_float {t : Text} (h : '.' ∉ t) : floatPoint t = false ∧ floatDot t = false := by
  have hu : '.' ∉ unsign t := by
    unfold unsign
    split
    · exact fun hm => h (List.mem_cons_of_mem _ hm)
    · exact fun hm => h (List.mem_cons_of_mem _ hm)
    · exact h
  have h1 : floatPoint t = false := by
    unfold floatPoint
    split
    · next c r he =>
      split
      · next b hb =>
        exfalso
        refine hu ?_
        rw [he]
        refine List.mem_cons_of_mem _ ((List.dropWhile_suffix (p := du) (l := r)).subset ?_)
        rw [hb]
        exact List.mem_cons_self
      · simp
    · rfl
  have h2 : floatDot t = false := by
    unfold floatDot
    split
    · next c b => exact absurd List.mem_cons_self h
    · rfl
  exact ⟨h1, h2⟩

/-- **C208**: a scalar without a decimal point is never a floating point number, however it is written. -/
theorem C208_dotless (t : Text) (h : '.' ∉ t) (x : Dbl) : scalar t ≠ .float x := by
  obtain ⟨h1, h2⟩ := not_float h
  have hi : ∀ s, intOf t = some s → s ≠ .float x := by
    have hin : ∀ base ds, intIn base t ds ≠ .float x := by
      intro base ds
      unfold intIn
      split
      · exact fun hh => nomatch hh
      · split <;> exact fun hh => nomatch hh
    intro s hs
    unfold intOf at hs
    split at hs
    · split_ifs at hs; cases hs; exact hin _ _
    · cases hs; exact fun hh => nomatch hh
    · split_ifs at hs; cases hs; exact hin _ _
    · split_ifs at hs; cases hs; exact hin _ _
    · split_ifs at hs
      · cases hs; exact hin _ _
      · split at hs
        · split_ifs at hs; cases hs; exact fun hh => nomatch hh
        · cases hs
    · cases hs
  unfold scalar
  rw [h1, h2]
  simp only [Bool.or_self, Bool.false_eq_true, if_false]
  split
  · exact fun hh => nomatch hh
  split
  · exact fun hh => nomatch hh
  split
  · exact fun hh => nomatch hh
  split
  · next s hs => exact hi s hs
  · split_ifs <;> exact fun hh => nomatch hh

/-- **C208**, the consequence: with a tolerance that is read as a text the estimator of Kijko never gives a magnitude, whatever the earthquakes. -/
theorem C208_tolerance [Libm] (mag sig : List Dbl) (neq : Nat) (nsamp : Dbl) (t : Text) (maxIter fuel : Nat) :
    ∃ e, kijkoTolerance mag sig neq nsamp (.str t) maxIter fuel = some (.error e) := by
  unfold kijkoTolerance MaxMag.kijko
  simp only
  split
  · exact ⟨_, rfl⟩
  · split
    · exact ⟨_, rfl⟩
    · split
      · exact ⟨_, rfl⟩
      · exact ⟨_, rfl⟩
      · split
        · next hh => exact absurd hh fun (h : Dbl.val _ < Dbl.val _) => lt_irrefl _ h
        · exact ⟨_, rfl⟩

/-! ### Whole numbers -/

theorem padDigits_first (k n : ℕ) : ∃ cs, padDigits (k + 1) n = digitChar (n / 10 ^ k) :: cs := by
  induction k generalizing n with
  | zero => exact ⟨[], by simp [padDigits]⟩
  | succ k ih =>
    obtain ⟨cs, h⟩ := ih (n / 10)
    refine ⟨cs ++ [digitChar n], ?_⟩
    rw [padDigits, h, Nat.div_div_eq_div_mul, pow_succ']
    rfl

theorem natDigits_first {n : ℕ} (hn : n ≠ 0) : ∃ c cs, natDigits n = c :: cs ∧ IsDigit c ∧ c ≠ '0' := by
  obtain ⟨cs, h⟩ := padDigits_first (Nat.log 10 n) n
  refine ⟨_, cs, h, isDigit_digitChar _, ?_⟩
  have h1 : 0 < n / 10 ^ Nat.log 10 n := Nat.div_pos (Nat.pow_log_le_self 10 hn) (by positivity)
  have h2 : n / 10 ^ Nat.log 10 n < 10 := by
    rw [Nat.div_lt_iff_lt_mul (by positivity), ← pow_succ']
    exact Nat.lt_pow_succ_log_self (by norm_num) n
  intro hc
  have := congrArg Char.toNat hc
  rw [digitChar_toNat] at this
  have : (48 + n / 10 ^ Nat.log 10 n % 10) = 48 := this
  omega

theorem valueIn_digits {ds : Text} (h : ∀ c ∈ ds, IsDigit c) (n : ℕ) : valueIn 10 n ds = digitsVal n ds := by
  induction ds generalizing n with
  | nil => rfl
  | cons c cs ih =>
    have hc := h c List.mem_cons_self
    have h2 : c.toNat - '0'.toNat < 10 := by
      show c.toNat - 48 < 10
      have := hc.2
      omega
    rw [valueIn, digitsVal, digitVal, if_pos (show 48 ≤ c.toNat ∧ c.toNat ≤ 57 from hc)]
    simp only [(isDig_iff c).2 hc, if_true]
    rw [if_pos h2, ih fun c hc => h c (List.mem_cons_of_mem _ hc)]
    rfl

/-- The decimal text of an integer, `str(z)`. -/
def intTextOf (z : ℤ) : Text := if z < 0 then '-' :: natDigits z.natAbs else natDigits z.natAbs

theorem unsign_int (z : ℤ) : unsign (intTextOf z) = natDigits z.natAbs := by
  unfold intTextOf
  split
  · rfl
  · cases h : natDigits z.natAbs with
    | nil => rfl
    | cons c cs => exact unsign_digit (natDigits_digit z.natAbs c (by rw [h]; exact List.mem_cons_self)) cs

theorem head_int (z : ℤ) (n : ℕ) (hn : n = z.natAbs) : signed (intTextOf z) n = z := by
  subst hn
  unfold signed intTextOf
  split_ifs with h1 h2 h2
  · omega
  · exact absurd rfl h2
  · exfalso
    cases h : natDigits z.natAbs with
    | nil => rw [h] at h2; cases h2
    | cons c cs =>
      rw [h] at h2
      have hc := natDigits_digit z.natAbs c (by rw [h]; exact List.mem_cons_self)
      rw [Option.some.inj h2] at hc
      exact absurd hc (by unfold IsDigit; decide)
  · omega

theorem intOf_int (z : ℤ) : intOf (intTextOf z) = some (.int z) := by
  unfold intOf
  rw [unsign_int]
  by_cases hz : z.natAbs = 0
  · rw [hz, show natDigits 0 = ['0'] by decide, show z = 0 by omega]
    rfl
  · obtain ⟨c, cs, h, hc, h0⟩ := natDigits_first hz
    have hd : ∀ d ∈ c :: cs, IsDigit d := by rw [← h]; exact natDigits_digit _
    rw [h]
    have hall : (isDig c && cs.all du) = true := by
      rw [(isDig_iff c).2 hc, Bool.true_and, List.all_eq_true]
      exact fun d hh => du_digit (hd d (List.mem_cons_of_mem _ hh))
    have hval : intIn 10 (intTextOf z) (c :: cs) = .int z := by
      unfold intIn
      rw [show noUnderscores (c :: cs) = c :: cs from List.filter_eq_self.2 fun d hh => by simpa using ne_of_isDigit (hd d hh) (by unfold IsDigit; decide)]
      simp only
      rw [valueIn_digits hd, ← h]
      have := digitsVal_nat z.natAbs []
      rw [List.append_nil] at this
      rw [this]
      simp only [digitsVal]
      rw [head_int z _ rfl]
    split
    · next hh => exact absurd (List.cons.inj hh).1 h0
    · next hh => exact absurd (List.cons.inj hh).1 h0
    · next hh => exact absurd (List.cons.inj hh).1 h0
    · next hh => exact absurd (List.cons.inj hh).1 h0
    · next hh =>
      obtain ⟨rfl, rfl⟩ := List.cons.inj hh
      rw [if_pos hall, hval]
    · next hh => cases hh

/-- **C208**: a whole number, however large and with either sign, is read as that number. -/
theorem C208_int (z : ℤ) : scalar (intTextOf z) = .int z := by
  have hch : ∀ c ∈ intTextOf z, c = '-' ∨ IsDigit c := by
    unfold intTextOf
    split
    · intro c hc
      rcases List.mem_cons.1 hc with h | h
      · exact .inl h
      · exact .inr (natDigits_digit _ c h)
    · exact fun c hc => .inr (natDigits_digit _ c hc)
  have hdot : '.' ∉ intTextOf z := fun hh => by
    rcases hch _ hh with h | h
    · exact absurd h (by decide)
    · exact absurd h (by unfold IsDigit; decide)
  have hne : ∃ c ∈ intTextOf z, IsDigit c := by
    cases h : natDigits z.natAbs with
    | nil => exact absurd h (natDigits_ne _)
    | cons c cs =>
      refine ⟨c, ?_, natDigits_digit z.natAbs c (by rw [h]; exact List.mem_cons_self)⟩
      unfold intTextOf
      split <;> simp [h]
  have hw : ∀ t ∈ truths ++ falsehoods, ∀ c ∈ t, isDig c = false := by decide +kernel
  have h1 : truths.contains (intTextOf z) = false := by
    rw [Bool.eq_false_iff]
    intro hh
    obtain ⟨c, hc, hd⟩ := hne
    have := hw _ (List.mem_append_left _ (by simpa using hh)) c hc
    rw [(isDig_iff c).2 hd] at this
    cases this
  have h2 : falsehoods.contains (intTextOf z) = false := by
    rw [Bool.eq_false_iff]
    intro hh
    obtain ⟨c, hc, hd⟩ := hne
    have := hw _ (List.mem_append_right _ (by simpa using hh)) c hc
    rw [(isDig_iff c).2 hd] at this
    cases this
  have h3 : floatSixty (intTextOf z) = false := by
    unfold floatSixty
    rw [unsign_int, show (natDigits z.natAbs).splitOn ':' = [natDigits z.natAbs] from List.splitOnP_eq_singleton fun c hc => by
      simpa using ne_of_isDigit (natDigits_digit _ _ hc) (by unfold IsDigit; decide)]
    cases natDigits z.natAbs <;> rfl
  have h4 : floatSpecial (intTextOf z) = false := by
    unfold floatSpecial
    rw [unsign_int, Bool.or_eq_false_iff]
    constructor
    · rw [Bool.eq_false_iff]
      intro hh
      have hh : natDigits z.natAbs ∈ [".inf".toList, ".Inf".toList, ".INF".toList] := by simpa using hh
      have : '.' ∈ natDigits z.natAbs := by
        have key : ∀ t ∈ [".inf".toList, ".Inf".toList, ".INF".toList], '.' ∈ t := by decide
        exact key _ hh
      exact absurd (natDigits_digit _ _ this) (by unfold IsDigit; decide)
    · rw [Bool.eq_false_iff]
      intro hh
      have hh : intTextOf z ∈ [".nan".toList, ".NaN".toList, ".NAN".toList] := by simpa using hh
      have key : ∀ t ∈ [".nan".toList, ".NaN".toList, ".NAN".toList], '.' ∈ t := by decide
      exact hdot (key _ hh)
  obtain ⟨h5, h6⟩ := not_float hdot
  unfold scalar
  rw [h1, h2, h3, h4, h5, h6, intOf_int]
  rfl


/-! ### Cases -/

/-- The tolerance of the sample configuration, and others. -/
example : (match scalar "1.0E-5".toList with | .float x => decide (x = .of (1 / 100000)) | _ => false) = true := by decide +kernel
example : Spec.ReadAs (.of (1 / 5)) := C208_usual_partial _ (.inr (by decide +kernel))
example : Spec.ReadAs (.of (-60)) := C208_usual_partial _ (.inr (by decide +kernel))
example : Spec.ReadAs (.of (15 / 1000000)) := C208_partial _ (by decide +kernel)
example : intTextOf (-1950) = "-1950".toList := by decide +kernel
example (x : Dbl) : scalar "1E+3".toList ≠ .float x := C208_dotless _ (by decide) x

def run208 (tol : Scalar) := @kijkoTolerance (@instPyMathDbl Recurrence.plainLibm) [(6.3 : Dbl), 5.1, 5.8] [0.2, 0.1, 0.3] 3 ((2 : ℕ) : Dbl) tol 2 5


/-- The same three earthquakes: with the tolerance written `1.0e-05` there is a magnitude, with the text Python prints there is none. -/
example : (match run208 (scalar "1.0e-05".toList) with | some (.ok _) => true | _ => false) = true := by decide +kernel
example : ∃ e, run208 (scalar "1e-05".toList) = some (.error e) := by
  have h : ∃ t, scalar "1e-05".toList = .str t := by
    have h2 : (match scalar "1e-05".toList with | .str _ => true | _ => false) = true := by decide +kernel
    split at h2
    · next t ht => exact ⟨t, ht⟩
    · cases h2
  obtain ⟨t, ht⟩ := h
  rw [ht]
  exact @C208_tolerance Recurrence.plainLibm _ _ _ _ _ _ _

end Verif.Yaml
