import Verif.Lemmas.Format
import Verif.Lemmas.Header
import Verif.Spec.NumberText

/-!
# C140: which texts are read as numbers
-/

namespace Verif.Format

open Verif Verif.EqCatalog Spec

theorem char_le (c d : Char) : c ≤ d ↔ c.toNat ≤ d.toNat := Iff.rfl

theorem digits_iff (t : Text) : Digits t ↔ ∀ c ∈ t, IsDigit c := Iff.rfl

theorem space_iff (t : Text) : Space t ↔ ∀ c ∈ t, isWs c = true := by
  simp [Space, isWs, or_assoc]

theorem number_nil : number [] = 0 := rfl

theorem number_snoc (t : Text) (c : Char) : number (t ++ [c]) = 10 * number t + (c.toNat - 48) := by
  simp [number, Nat.ofDigits_cons]
  ring

theorem number_cons (c : Char) (t : Text) : number (c :: t) = (c.toNat - 48) * 10 ^ t.length + number t := by
  simp only [number, List.reverse_cons, List.map_append, Nat.ofDigits_append, List.map_cons, List.map_nil, List.length_map, List.length_reverse]
  rw [Nat.ofDigits_singleton]
  ring_nf
  rfl

theorem digitsVal_iff (t : Text) (acc n : ℕ) : digitsVal acc t = some n ↔ Digits t ∧ n = acc * 10 ^ t.length + number t := by
  induction t generalizing acc with
  | nil => simp [digitsVal, Digits, number_nil, eq_comm]
  | cons c t ih =>
    rw [digitsVal, digitVal]
    by_cases h : 48 ≤ c.toNat ∧ c.toNat ≤ 57
    · simp only [h, and_self, if_true, ih, number_cons, List.length_cons]
      constructor
      · rintro ⟨h1, rfl⟩
        refine ⟨?_, by ring⟩
        intro d hd
        rcases List.mem_cons.1 hd with rfl | hd
        · exact h
        · exact h1 d hd
      · rintro ⟨h1, rfl⟩
        exact ⟨fun d hd => h1 d (by simp [hd]), by ring⟩
    · simp only [h, if_false]
      refine ⟨(by rintro ⟨⟩), fun hh => ?_⟩
      exact absurd (hh.1 c (by simp)) h

theorem mantissa_iff (t : Text) (n k : ℕ) : mantissa t = some (n, k) ↔
    ∃ whole point frac, t = whole ++ point ++ frac ∧ Digits whole ∧ Digits frac ∧ (point = ['.'] ∨ point = [] ∧ frac = []) ∧
      whole ++ frac ≠ [] ∧ n = number (whole ++ frac) ∧ k = frac.length := by
  have split : t = t.takeWhile (· ≠ '.') ++ t.dropWhile (· ≠ '.') := (List.takeWhile_append_dropWhile).symm
  constructor
  · intro h
    unfold mantissa at h
    simp only at h
    generalize ha : t.takeWhile (fun x => decide (x ≠ '.')) = a at h split
    generalize hb : t.dropWhile (fun x => decide (x ≠ '.')) = b at h split
    cases b with
    | nil =>
      simp only at h
      by_cases hn : a = []
      · simp [hn] at h
      · rw [if_neg hn] at h
        obtain ⟨m, hm, he⟩ := Option.map_eq_some_iff.1 h
        cases he
        obtain ⟨hd, rfl⟩ := (digitsVal_iff _ _ _).1 hm
        exact ⟨a, [], [], by simpa using split, hd, by simp [Digits], .inr ⟨rfl, rfl⟩, by simpa using hn, by simp, rfl⟩
    | cons c b =>
      have hc : c = '.' := by
        have := List.head?_dropWhile_not (fun x => decide (x ≠ '.')) t
        rw [hb] at this
        simpa using this
      subst hc
      simp only at h
      by_cases hn : a = [] ∧ b = []
      · simp [hn] at h
      · rw [if_neg hn] at h
        obtain ⟨m, hm, he⟩ := Option.map_eq_some_iff.1 h
        cases he
        obtain ⟨hd, rfl⟩ := (digitsVal_iff _ _ _).1 hm
        refine ⟨a, ['.'], b, by simpa using split, fun c hc => hd c (by simp [hc]), fun c hc => hd c (by simp [hc]), .inl rfl, ?_, by simp, rfl⟩
        simpa using hn
  · rintro ⟨a, p, b, rfl, ha, hb, hp, hne, rfl, rfl⟩
    have hnd : ∀ c ∈ a, decide (c ≠ '.') = true := fun c hc => by
      simpa using ne_of_isDigit (ha c hc) dot_not_digit
    unfold mantissa
    rcases hp with rfl | ⟨rfl, rfl⟩
    · rw [List.append_assoc, takeWhile_all_append _ _ hnd, dropWhile_all_append _ _ hnd]
      have h1 : (['.'] ++ b).takeWhile (fun x => decide (x ≠ '.')) = [] := by simp
      have h2 : (['.'] ++ b).dropWhile (fun x => decide (x ≠ '.')) = '.' :: b := by simp
      rw [h1, h2, List.append_nil]
      simp only
      rw [if_neg (by simpa using hne), (digitsVal_iff (a ++ b) 0 (number (a ++ b))).2 ⟨?_, by simp⟩]
      · rfl
      · intro c hc
        rcases List.mem_append.1 hc with h | h
        · exact ha c h
        · exact hb c h
    · simp only [List.append_nil] at hne ⊢
      have h1 := takeWhile_all_append a [] hnd
      have h2 := dropWhile_all_append a [] hnd
      simp only [List.append_nil, List.takeWhile_nil, List.dropWhile_nil] at h1 h2
      rw [h1, h2]
      simp only
      rw [if_neg hne, (digitsVal_iff a 0 (number a)).2 ⟨ha, by simp⟩]
      rfl

theorem exponent_iff (t : Text) (e : ℤ) : exponent t = some e ↔
    ∃ sgn s ds, Sign sgn s ∧ Digits ds ∧ ds ≠ [] ∧ t = sgn ++ ds ∧ e = s * number ds := by
  constructor
  · intro h
    unfold exponent at h
    split at h
    · cases h
    · next ds =>
      by_cases hn : ds = []
      · simp [hn] at h
      · rw [if_neg hn] at h
        obtain ⟨m, hm⟩ : ∃ m, digitsVal 0 ds = some m := by
          cases hv : digitsVal 0 ds with
          | none => simp [hv] at h
          | some m => exact ⟨m, rfl⟩
        have he : -(m : ℤ) = e := by simpa [hm] using h
        obtain ⟨hd, rfl⟩ := (digitsVal_iff _ _ _).1 hm
        exact ⟨['-'], -1, ds, .inr (.inr ⟨rfl, rfl⟩), hd, hn, rfl, by rw [← he]; simp⟩
    · next ds =>
      by_cases hn : ds = []
      · simp [hn] at h
      · rw [if_neg hn] at h
        obtain ⟨m, hm⟩ : ∃ m, digitsVal 0 ds = some m := by
          cases hv : digitsVal 0 ds with
          | none => simp [hv] at h
          | some m => exact ⟨m, rfl⟩
        have he : (m : ℤ) = e := by simpa [hm] using h
        obtain ⟨hd, rfl⟩ := (digitsVal_iff _ _ _).1 hm
        exact ⟨['+'], 1, ds, .inr (.inl ⟨rfl, rfl⟩), hd, hn, rfl, by rw [← he]; simp⟩
    · next hne _ _ =>
      obtain ⟨m, hm⟩ : ∃ m, digitsVal 0 t = some m := by
        cases hv : digitsVal 0 t with
        | none => simp [hv] at h
        | some m => exact ⟨m, rfl⟩
      have he : (m : ℤ) = e := by simpa [hm] using h
      obtain ⟨hd, rfl⟩ := (digitsVal_iff _ _ _).1 hm
      exact ⟨[], 1, t, .inl ⟨rfl, rfl⟩, hd, hne, rfl, by rw [← he]; simp⟩
  · rintro ⟨sgn, s, ds, hs, hd, hne, rfl, rfl⟩
    have hv := (digitsVal_iff ds 0 (number ds)).2 ⟨hd, by simp⟩
    rcases hs with ⟨rfl, rfl⟩ | ⟨rfl, rfl⟩ | ⟨rfl, rfl⟩
    · obtain ⟨c, ds, rfl⟩ := List.exists_cons_of_ne_nil hne
      have h1 : c ≠ '-' := ne_of_isDigit (hd c (by simp)) minus_not_digit
      have h2 : c ≠ '+' := ne_of_isDigit (hd c (by simp)) plus_not_digit
      unfold exponent
      simp only [List.nil_append]
      split
      · next h => simp at h
      · next h => simp [h1] at h
      · next h => simp [h2] at h
      · rw [hv]; simp
    · simp [exponent, hne, hv]
    · simp [exponent, hne, hv]

variable {K : Type} [DivisionRing K]

/-- Digits with an optional point, and an optional exponent. -/
theorem unsigned_iff (t : Text) (v : K) : unsigned t = some v ↔
    ∃ whole point frac ex e, t = whole ++ point ++ frac ++ ex ∧ Digits whole ∧ Digits frac ∧ (point = ['.'] ∨ point = [] ∧ frac = []) ∧
      whole ++ frac ≠ [] ∧ Exponent ex e ∧ v = (number (whole ++ frac) : K) * (10 : K) ^ (e - (frac.length : ℤ)) := by
  have split : t = t.takeWhile (fun c => c ≠ 'e' ∧ c ≠ 'E') ++ t.dropWhile (fun c => c ≠ 'e' ∧ c ≠ 'E') := (List.takeWhile_append_dropWhile).symm
  constructor
  · intro h
    unfold unsigned at h
    simp only at h
    generalize ha : t.takeWhile (fun c => decide (c ≠ 'e' ∧ c ≠ 'E')) = a at h split
    generalize hb : t.dropWhile (fun c => decide (c ≠ 'e' ∧ c ≠ 'E')) = b at h split
    cases b with
    | nil =>
      simp only at h
      obtain ⟨⟨n, k⟩, hm, rfl⟩ := Option.map_eq_some_iff.1 h
      obtain ⟨w, p, f, rfl, hw, hf, hp, hne, rfl, rfl⟩ := (mantissa_iff _ _ _).1 hm
      exact ⟨w, p, f, [], 0, split, hw, hf, hp, hne, .inl ⟨rfl, rfl⟩, by simp⟩
    | cons c b =>
      have hc : c = 'e' ∨ c = 'E' := by
        have := List.head?_dropWhile_not (fun c => decide (c ≠ 'e' ∧ c ≠ 'E')) t
        rw [hb] at this
        simp only [List.head?_cons, decide_eq_false_iff_not, not_and, not_not] at this
        by_cases h : c = 'e'
        · exact .inl h
        · exact .inr (this h)
      simp only at h
      split at h
      · next p e hm he =>
        cases h
        obtain ⟨n, k⟩ := p
        obtain ⟨w, p, f, rfl, hw, hf, hp, hne, rfl, rfl⟩ := (mantissa_iff _ _ _).1 hm
        obtain ⟨sgn, s, ds, hs, hd, hn, rfl, rfl⟩ := (exponent_iff _ _).1 he
        exact ⟨w, p, f, c :: (sgn ++ ds), s * number ds, split, hw, hf, hp, hne, .inr ⟨c, sgn, s, ds, hc, hs, hd, hn, rfl, rfl⟩, rfl⟩
      · cases h
  · rintro ⟨w, p, f, ex, e, rfl, hw, hf, hp, hne, hex, rfl⟩
    have hm := (mantissa_iff (w ++ p ++ f) _ _).2 ⟨w, p, f, rfl, hw, hf, hp, hne, rfl, rfl⟩
    have hno : ∀ c ∈ w ++ p ++ f, decide (c ≠ 'e' ∧ c ≠ 'E') = true := by
      intro c hc
      have hd : ∀ c, IsDigit c → decide (c ≠ 'e' ∧ c ≠ 'E') = true := fun c h => by
        simpa using ⟨ne_of_isDigit h e_not_digit, ne_of_isDigit h E_not_digit⟩
      rcases List.mem_append.1 hc with hc | hc
      · rcases List.mem_append.1 hc with hc | hc
        · exact hd c (hw c hc)
        · rcases hp with rfl | ⟨rfl, -⟩
          · rw [List.mem_singleton] at hc
            subst hc; decide
          · cases hc
      · exact hd c (hf c hc)
    unfold unsigned
    simp only [takeWhile_all_append _ ex hno, dropWhile_all_append _ ex hno]
    rcases hex with ⟨rfl, rfl⟩ | ⟨c, sgn, s, ds, hc, hs, hd, hn, rfl, rfl⟩
    · simp only [List.takeWhile_nil, List.dropWhile_nil, List.append_nil, hm]
      simp
    · have h1 : (c :: sgn ++ ds).takeWhile (fun c => decide (c ≠ 'e' ∧ c ≠ 'E')) = [] := by
        rcases hc with rfl | rfl <;> simp
      have h2 : (c :: sgn ++ ds).dropWhile (fun c => decide (c ≠ 'e' ∧ c ≠ 'E')) = c :: (sgn ++ ds) := by
        rcases hc with rfl | rfl <;> simp
      have he := (exponent_iff (sgn ++ ds) _).2 ⟨sgn, s, ds, hs, hd, hn, rfl, rfl⟩
      rw [h1, h2, List.append_nil]
      simp only [hm, he]

/-- A text with no white space at either end is left by `strip`. -/
theorem strip_around (a w b : Text) (ha : ∀ c ∈ a, isWs c = true) (hb : ∀ c ∈ b, isWs c = true) (hw : ∀ c ∈ w, isWs c = false) (hne : w ≠ []) :
    strip (a ++ w ++ b) = w := by
  unfold strip
  rw [List.append_assoc, dropWhile_append_of_all a _ ha, dropWhile_of_head w b hw hne, List.reverse_append,
    dropWhile_append_of_all b.reverse _ (by simpa using hb)]
  have := dropWhile_of_head (p := isWs) w.reverse [] (by simpa using hw) (by simpa using hne)
  rw [List.append_nil] at this
  rw [this, List.reverse_reverse]

/-- **C140**: a text is read as a number exactly when it is a decimal literal, and the number is the value of the literal. -/
theorem C140_read (t : Text) (v : K) : pyFloat t = some v ↔ Literal t v := by
  constructor
  · intro h
    obtain ⟨a, b, ha, hb, ht⟩ := strip_decomp t
    rw [blanks_iff, ← space_iff] at ha hb
    unfold pyFloat at h
    split at h
    · next ds hs =>
      obtain ⟨u, hu, rfl⟩ := Option.map_eq_some_iff.1 h
      obtain ⟨w, p, f, ex, e, rfl, hw, hf, hp, hne, hex, rfl⟩ := (unsigned_iff _ _).1 hu
      exact ⟨a, ['-'], w, p, f, ex, b, -1, e, by rw [ht, hs]; simp, ha, hb, .inr (.inr ⟨rfl, rfl⟩), hw, hf, hp, hne, hex, by simp⟩
    · next ds hs =>
      obtain ⟨w, p, f, ex, e, rfl, hw, hf, hp, hne, hex, rfl⟩ := (unsigned_iff _ _).1 h
      exact ⟨a, ['+'], w, p, f, ex, b, 1, e, by rw [ht, hs]; simp, ha, hb, .inr (.inl ⟨rfl, rfl⟩), hw, hf, hp, hne, hex, by simp⟩
    · obtain ⟨w, p, f, ex, e, hs, hw, hf, hp, hne, hex, rfl⟩ := (unsigned_iff _ _).1 h
      exact ⟨a, [], w, p, f, ex, b, 1, e, by rw [ht, hs]; simp, ha, hb, .inl ⟨rfl, rfl⟩, hw, hf, hp, hne, hex, by simp⟩
  · rintro ⟨a, sgn, w, p, f, ex, b, s, e, rfl, ha, hb, hs, hw, hf, hp, hne, hex, rfl⟩
    have hu := (unsigned_iff (K := K) (w ++ p ++ f ++ ex) _).2 ⟨w, p, f, ex, e, rfl, hw, hf, hp, hne, hex, rfl⟩
    have hdw : ∀ c, IsDigit c → isWs c = false := fun c h => numChar_not_ws (.inl h)
    have hsg : ∀ {t s}, Sign t s → ∀ c ∈ t, isWs c = false := by
      rintro t s (⟨rfl, -⟩ | ⟨rfl, -⟩ | ⟨rfl, -⟩) <;> decide
    have hpw : ∀ c ∈ p, isWs c = false := by
      rcases hp with rfl | ⟨rfl, -⟩ <;> decide
    have hew : ∀ c ∈ ex, isWs c = false := by
      rcases hex with ⟨rfl, -⟩ | ⟨c, sg, s', ds, hc, hs', hd, -, rfl, -⟩
      · simp
      · intro d hd'
        simp only [List.cons_append, List.mem_cons, List.mem_append] at hd'
        rcases hd' with rfl | hd' | hd'
        · rcases hc with rfl | rfl <;> decide
        · exact hsg hs' d hd'
        · exact hdw d (hd d hd')
    have hall : ∀ c ∈ sgn ++ (w ++ p ++ f ++ ex), isWs c = false := by
      intro c hc
      simp only [List.mem_append] at hc
      rcases hc with hc | ((hc | hc) | hc) | hc
      · exact hsg hs c hc
      · exact hdw c (hw c hc)
      · exact hpw c hc
      · exact hdw c (hf c hc)
      · exact hew c hc
    have hnn : sgn ++ (w ++ p ++ f ++ ex) ≠ [] := by
      intro h
      apply hne
      simp only [List.append_eq_nil_iff] at h ⊢
      tauto
    have hst : strip (a ++ sgn ++ w ++ p ++ f ++ ex ++ b) = sgn ++ (w ++ p ++ f ++ ex) := by
      have := strip_around a (sgn ++ (w ++ p ++ f ++ ex)) b ((space_iff _).1 ha) ((space_iff _).1 hb) hall hnn
      simpa [List.append_assoc] using this
    -- the first character of the unsigned part is no sign
    have hhead : ∀ c cs, w ++ p ++ f ++ ex = c :: cs → c ≠ '-' ∧ c ≠ '+' := by
      intro c cs h
      cases w with
      | cons d w =>
        cases h
        exact ⟨ne_of_isDigit (hw _ (by simp)) minus_not_digit, ne_of_isDigit (hw _ (by simp)) plus_not_digit⟩
      | nil =>
        rcases hp with rfl | ⟨rfl, rfl⟩
        · cases h; decide
        · exact absurd rfl hne
    unfold pyFloat
    rw [hst]
    rcases hs with ⟨rfl, rfl⟩ | ⟨rfl, rfl⟩ | ⟨rfl, rfl⟩
    · rw [List.nil_append]
      split
      · next h => exact absurd rfl (hhead _ _ h).1
      · next h => exact absurd rfl (hhead _ _ h).2
      · rw [hu]; simp
    · simp only [List.singleton_append]
      rw [hu]; simp
    · simp only [List.singleton_append]
      rw [hu]; simp

/-- **C140**: no other text is read as a number. -/
theorem C140_refused (t : Text) : pyFloat (K := K) t = none ↔ ¬ ∃ v : K, Literal t v := by
  rw [← not_iff_not, ← ne_eq, Option.ne_none_iff_exists', not_not]
  simp only [C140_read]

/-- **C140**: a text stands for at most one number. -/
theorem C140_unique (t : Text) (u v : K) (hu : Literal t u) (hv : Literal t v) : u = v := by
  rw [← C140_read] at hu hv
  exact Option.some.inj (hu.symm.trans hv)

/-- **C140**: the text printed for a number is a decimal literal without white space, its value agrees with the number to twelve digits. -/
theorem C140_printed {K : Type} [Field K] [LinearOrder K] [IsStrictOrderedRing K] [FloorRing K] (x : K) :
    ∃ v, Literal (str x) v ∧ |v - x| ≤ |x| * (5 / 10 ^ 12) ∧ ∀ c ∈ str x, isWs c = false :=
  ⟨rnd12 x, (C140_read _ _).1 (pyFloat_str x), rnd12_error x, fun c hc => numChar_not_ws (str_chars x c hc)⟩

/-- **C140**, the completeness table: ten characters or more, the value to five decimals. -/
theorem C140_printed_table {K : Type} [Field K] [LinearOrder K] [IsStrictOrderedRing K] [FloorRing K] (x : K) :
    ∃ v, Literal (fmt5 x) v ∧ |v - x| ≤ 5 / 10 ^ 6 ∧ 10 ≤ (fmt5 x).length := by
  refine ⟨rnd5 x, (C140_read _ _).1 (pyFloat_fmt5 x), rnd5_error x, ?_⟩
  simp only [fmt5, List.length_append, List.length_replicate]
  omega

/-- Non-vacuity of C140: a literal with everything in it, and texts that are none. -/
example : Literal (K := ℚ) " -12.50e-1\n".toList (-1.25) ∧ (¬ ∃ v : ℚ, Literal "1.2.3".toList v) ∧ (¬ ∃ v : ℚ, Literal "5,5".toList v) ∧
    (¬ ∃ v : ℚ, Literal "".toList v) ∧ (¬ ∃ v : ℚ, Literal ".".toList v) ∧ (¬ ∃ v : ℚ, Literal "1e".toList v) ∧ (¬ ∃ v : ℚ, Literal "1 2".toList v) := by
  refine ⟨⟨[' '], ['-'], ['1', '2'], ['.'], ['5', '0'], ['e', '-', '1'], ['\n'], -1, -1, by decide, by unfold Space; decide,
    by unfold Space; decide, .inr (.inr ⟨rfl, rfl⟩), by unfold Digits; decide, by unfold Digits; decide, .inl rfl, by decide,
    .inr ⟨'e', ['-'], -1, ['1'], .inl rfl, .inr (.inr ⟨rfl, rfl⟩), by unfold Digits; decide, by decide, rfl, by decide⟩, ?_⟩, ?_⟩
  · rw [show number (['1', '2'] ++ ['5', '0']) = 1250 from by decide]
    norm_num
  · simp only [← C140_refused]
    decide

end Verif.Format
