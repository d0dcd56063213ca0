import Verif.Props.ConfigSpelled

/-!
# Every number can be given in the configuration file (C223)

Numbers that Python prints without a decimal point, such as `1e-05`, are read as texts (C208).  Written with one, as `1.0e-05`, each of them is read as the number it is.
-/

namespace Verif.Yaml

open Verif Verif.EqCatalog Verif.Format Verif.Format.Spec Verif.Workflow

namespace Spec

/-- A number with a decimal point: one without gets `.0` before its exponent. -/
def withPoint (t : Text) : Text := if '.' ∈ t then t else t.takeWhile (· ≠ 'e') ++ '.' :: '0' :: t.dropWhile (· ≠ 'e')

end Spec

open Spec

theorem digits_row {t : Text} (h : Digits t) : Row t := fun c hc => .inl ⟨UInt32.le_iff_toNat_le.1 (h c hc).1, UInt32.le_iff_toNat_le.1 (h c hc).2⟩

theorem digits_of {t : Text} (h : ∀ c ∈ t, IsDigit c) : Digits t := fun c hc => ⟨UInt32.le_iff_toNat_le.2 (h c hc).1, UInt32.le_iff_toNat_le.2 (h c hc).2⟩

theorem plainDigits_digits {t : Text} (h : Digits t) : plainDigits t = t := by
  unfold plainDigits
  refine List.filter_eq_self.2 fun c hc => ?_
  have : c ≠ '_' := by
    rintro rfl
    exact absurd (h _ hc) (by decide)
  simpa using this

theorem signed_exponent {ex : Text} {e : ℤ} (h : SignedExponent ex e) : Exponent ex e := by
  rcases h with h | ⟨c, ds, hc, hd, hn, ⟨rfl, rfl⟩ | ⟨rfl, rfl⟩⟩
  · exact .inl h
  · exact .inr ⟨c, ['+'], 1, ds, hc, .inr (.inl ⟨rfl, rfl⟩), hd, hn, rfl, by simp⟩
  · exact .inr ⟨c, ['-'], -1, ds, hc, .inr (.inr ⟨rfl, rfl⟩), hd, hn, rfl, by simp⟩

/-- A decimal that `float` reads as a number stands for that number. -/
theorem stands_float {sgn w f ex : Text} {s e : ℤ} {x : Dbl} (hs : Sign sgn s) (hw : Digits w) (hf : Digits f) (hne : w ≠ []) (he : SignedExponent ex e)
    (h : floatDbl (sgn ++ w ++ '.' :: (f ++ ex)) = some x) : Stands (sgn ++ w ++ '.' :: (f ++ ex)) (.float x) := by
  have hl : Literal (K := ℚ) (sgn ++ w ++ '.' :: (f ++ ex)) ((s : ℚ) * (number (w ++ f) : ℚ) * (10 : ℚ) ^ (e - (f.length : ℤ))) :=
    ⟨[], sgn, w, ['.'], f, ex, [], s, e, by simp, by simp [Space], by simp [Space], hs, hw, hf, .inl rfl, by simp [hne], signed_exponent he, rfl⟩
  unfold floatDbl at h
  rw [(C140_read _ _).2 hl] at h
  obtain rfl := Option.some.inj h
  obtain ⟨c, r, rfl⟩ := List.exists_cons_of_ne_nil hne
  have := Stands.decimal (f := f) hs (digits_row hw) (digits_row hf) he (.inl ⟨c, r, rfl, (digits_row hw c List.mem_cons_self).resolve_right (by
    rintro rfl
    exact absurd (hw _ List.mem_cons_self) (by decide))⟩)
  rwa [plainDigits_digits hf, plainDigits_digits (fun d hd => (List.mem_append.1 hd).elim (hw d) (hf d))] at this

/-- And so does a number without a decimal point that gets one. -/
theorem stands_pointed {sgn w ex : Text} {s e : ℤ} {x : Dbl} (hs : Sign sgn s) (hw : Digits w) (hne : w ≠ []) (he : SignedExponent ex e) (h : floatDbl (sgn ++ w ++ ex) = some x) :
    Stands (sgn ++ w ++ '.' :: (['0'] ++ ex)) (.float x) := by
  have hl : Literal (K := ℚ) (sgn ++ w ++ ex) ((s : ℚ) * (number w : ℚ) * (10 : ℚ) ^ e) :=
    ⟨[], sgn, w, [], [], ex, [], s, e, by simp, by simp [Space], by simp [Space], hs, hw, by simp [Digits], .inr ⟨rfl, rfl⟩, by simp [hne], signed_exponent he, by simp⟩
  have hf : Digits ['0'] := by unfold Digits; decide
  have hl' : Literal (K := ℚ) (sgn ++ w ++ '.' :: (['0'] ++ ex)) ((s : ℚ) * (number (w ++ ['0']) : ℚ) * (10 : ℚ) ^ (e - ((['0'] : Text).length : ℤ))) :=
    ⟨[], sgn, w, ['.'], ['0'], ex, [], s, e, by simp, by simp [Space], by simp [Space], hs, hw, hf, .inl rfl, by simp, signed_exponent he, rfl⟩
  refine stands_float hs hw hf hne he ?_
  unfold floatDbl at h ⊢
  rw [(C140_read _ _).2 hl] at h
  rw [(C140_read _ _).2 hl', ← h]
  congr 2
  rw [number_snoc]
  have : (10 : ℚ) ≠ 0 := by norm_num
  simp only [List.length_singleton, Nat.cast_one, zpow_sub_one₀ this]
  push_cast
  rw [add_zero]
  field_simp

theorem signed_expText (e : ℤ) : ∃ e', SignedExponent (expText e) e' := by
  have hd : Digits (if e.natAbs < 10 then padDigits 2 e.natAbs else natDigits e.natAbs) := by
    split_ifs
    · exact digits_of (padDigits_digit _ _)
    · exact digits_of (natDigits_digit _)
  have hn : (if e.natAbs < 10 then padDigits 2 e.natAbs else natDigits e.natAbs) ≠ [] := by
    split_ifs
    · simp [padDigits]
    · exact natDigits_ne _
  unfold expText
  by_cases h : e < 0
  · simp only [if_pos h]
    exact ⟨_, .inr ⟨'e', _, .inl rfl, hd, hn, .inr ⟨rfl, rfl⟩⟩⟩
  · simp only [if_neg h]
    exact ⟨_, .inr ⟨'e', _, .inl rfl, hd, hn, .inl ⟨rfl, rfl⟩⟩⟩

/-- What `repr` prints: digits, with a point or with an exponent. -/
theorem reprPos_pointless {x : ℚ} (h : '.' ∉ reprPos x) : ∃ w e, reprPos x = w ++ expText e ∧ (∀ c ∈ w, IsDigit c) ∧ w ≠ [] := by
  by_cases hp : -4 ≤ (digits17 x).2 ∧ (digits17 x).2 ≤ 15
  · exact absurd (dot_positional hp) h
  unfold reprPos at h ⊢
  simp only [if_neg hp] at h ⊢
  unfold fixedText at h ⊢
  split_ifs at h ⊢
  · exact ⟨_, _, rfl, natDigits_digit _, natDigits_ne _⟩
  · exact absurd (by simp) h

/-- **C223**: every number is read from the configuration file as what it is when it is given as Python prints it, with a decimal point. -/
theorem C223_number (x : Dbl) : Stands (withPoint (reprDbl x)) (.float x) := by
  have hv := C181_number x
  have key : ∀ (sgn : Text) (s : ℤ) (y : ℚ), Sign sgn s → (∀ c ∈ sgn, c ≠ '.' ∧ c ≠ 'e') → floatDbl (sgn ++ reprPos y) = some x → Stands (withPoint (sgn ++ reprPos y)) (.float x) := by
    intro sgn s y hs hsg hv
    unfold withPoint
    have hm : '.' ∈ sgn ++ reprPos y ↔ '.' ∈ reprPos y := by
      rw [List.mem_append]
      exact ⟨fun h => h.resolve_left fun h => (hsg _ h).1 rfl, .inr⟩
    by_cases h : '.' ∈ reprPos y
    · rw [if_pos (hm.2 h)]
      obtain ⟨a, b, ex, he, ha, hn, hb, hex⟩ := reprPos_form h
      have : ∃ e, SignedExponent ex e := by
        rcases hex with rfl | ⟨e, rfl⟩
        · exact ⟨0, .inl ⟨rfl, rfl⟩⟩
        · exact signed_expText e
      obtain ⟨e, hex⟩ := this
      rw [he, ← List.append_assoc] at hv ⊢
      exact stands_float hs (digits_of ha) (digits_of hb) hn hex hv
    · rw [if_neg (fun hh => h (hm.1 hh))]
      obtain ⟨w, e, he, hw, hn⟩ := reprPos_pointless h
      obtain ⟨e', hex⟩ := signed_expText e
      have hne : ∀ c ∈ sgn ++ w, decide (c ≠ 'e') = true := by
        intro c hc
        rcases List.mem_append.1 hc with hc | hc
        · simpa using (hsg c hc).2
        · simpa using ne_of_isDigit (hw c hc) (by unfold IsDigit; decide)
      rw [he, ← List.append_assoc] at hv ⊢
      rw [List.takeWhile_append_of_pos hne, List.dropWhile_append_of_pos hne, show (expText e).takeWhile (fun c => decide (c ≠ 'e')) = [] from rfl,
        show (expText e).dropWhile (fun c => decide (c ≠ 'e')) = expText e from rfl, List.append_nil]
      exact stands_pointed hs (digits_of hw) hn hex hv
  unfold reprDbl at hv ⊢
  split_ifs at hv ⊢
  · exact stands_float (sgn := []) (w := ['0']) (f := ['0']) (ex := []) (.inl ⟨rfl, rfl⟩) (by unfold Digits; decide) (by unfold Digits; decide) (by decide) (.inl ⟨rfl, rfl⟩) hv
  · exact key ['-'] (-1) _ (.inr (.inr ⟨rfl, rfl⟩)) (by decide) hv
  · exact key [] 1 _ (.inl ⟨rfl, rfl⟩) (by decide) hv

/-- A number as it is given: as Python prints it, with a decimal point. -/
def Spec.given (x : Dbl) : Text := withPoint (reprDbl x)

theorem plain_given (x : Dbl) : Plain (given x) := by
  have hz : NumChar '0' ∧ NumChar '.' := by unfold NumChar IsDigit; decide
  have hch : ∀ c ∈ given x, NumChar c := by
    intro c hc
    unfold given withPoint at hc
    split_ifs at hc
    · exact reprDbl_chars x c hc
    · simp only [List.mem_append, List.mem_cons] at hc
      rcases hc with hc | rfl | rfl | hc
      · exact reprDbl_chars x c (List.takeWhile_subset _ hc)
      · exact hz.2
      · exact hz.1
      · exact reprDbl_chars x c (List.dropWhile_subset _ hc)
  have hp : '.' ∈ given x := by
    unfold given withPoint
    split_ifs with h
    · exact h
    · simp
  refine plain_numChars hch ?_ ?_
  · intro hh; rw [hh] at hp; cases hp
  · intro hh; rw [hh] at hp; exact absurd hp (by decide)

theorem scalar_given (x : Dbl) : scalar (given x) = .float x := C222_stands (C223_number x)

/-- **C223**: a configuration with any numbers, given in any spelling that stands for them, with the entries in any order and any layout, is the configuration that is used. -/
theorem C223_load (r : RawConfig Dbl) (h : Writable r fun _ => True) (d d' : Doc) (hd : Rearranged (docOf r given) d) (hs : Respelled d d') (hg : ∀ e ∈ d', Word e.1 ∧ Good e.2) (hne : d' ≠ [])
    (out : List Text) (ho : Laid (docLines d') out) : load (['\n'].intercalate out) = some r := by
  unfold load
  rw [C209_layout _ hne hg out ho]
  simp only
  rw [← C222_config hs, ← C210_order (docOf_keys r _) hd]
  exact config_doc (fun x _ => scalar_given x) h

/-- The file with the entries as they are. -/
def givenFile (r : RawConfig Dbl) : Text := ['\n'].intercalate ((docLines (docOf r given)).map Prod.snd)

/-- **C223**: in particular, for every configuration there is a file that is read as it. -/
theorem C223_file (r : RawConfig Dbl) (h : Writable r fun _ => True) (hne : docOf r given ≠ []) : load (givenFile r) = some r :=
  C223_load r h _ _ ⟨_, .refl _, List.forall₂_same.2 fun _ _ => ⟨rfl, .refl _⟩⟩ (.refl _) (good_doc (fun x _ => plain_given x) h) hne _ (laid_plain _)

/-- C223: the number of C208 that is read as a text when it is given as Python prints it. -/
example : withPoint (reprDbl (.of (1 / 100000))) = "1.0e-05".toList ∧ scalar "1e-05".toList ≠ .float (.of (1 / 100000)) ∧ scalar "1.0e-05".toList = .float (.of (1 / 100000)) := by
  have h : withPoint (reprDbl (.of (1 / 100000))) = "1.0e-05".toList := by decide +kernel
  exact ⟨h, C208_dotless _ (by decide) _, by rw [← h]; exact C222_stands (C223_number _)⟩

/-- A configuration with that tolerance. -/
def config223 : RawConfig Dbl := { named "c.csv".toList with maximumMagnitude := .given { tolerance := some (.of (1 / 100000)), algorithm := none, maxIterations := some 1000, neq := none, nsamp := none, nboot := none } }

/-- Non-vacuity of C223: it has a file, and the file is read as it; the file with the number as Python prints it is not. -/
example : givenFile config223 = "eq_catalog_file: c.csv\nMaximumMagnitude: {\niteration_tolerance: 1.0e-05,\nmaximum_iterations: 1000\n}".toList ∧ load (givenFile config223) = some config223 ∧
    load (plainFile config223) = none := by
  refine ⟨by decide +kernel, C223_file _ ?_ (by simp [docOf, config223, named, field, keyNode]), ?_⟩
  · refine ⟨?_, ?_, ?_, ?_, ?_, ?_⟩
    · intro k hk t ht
      subst ht
      obtain rfl : t = "c.csv".toList := by simpa [config223, named] using hk
      exact ⟨⟨by decide, by decide, by decide, ⟨by decide, fun r hh => absurd (List.cons.inj hh).1 (by decide)⟩, by decide⟩, .inl ⟨_, _, rfl, .inl (by decide)⟩, by decide +kernel⟩
    · intro k hk js hj
      subst hj
      simp [config223, named] at hk
    · intro k hk s hs
      subst hs
      simp [config223, named] at hk
    · intro s hs
      cases hs
    · intro s hs
      cases hs
    · intro s hs
      cases hs
      exact ⟨fun a ha => (nomatch ha), fun _ _ => trivial, fun _ _ => trivial⟩
  · have : (load (plainFile config223)).isNone = true := by decide +kernel
    simpa using this

end Verif.Yaml
