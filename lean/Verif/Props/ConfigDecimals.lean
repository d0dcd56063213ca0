import Verif.Props.ConfigDigits
import Verif.Props.NumberText

/-!
# Decimal numbers in the configuration (C217)
-/

namespace Verif.Yaml

open Verif Verif.EqCatalog Verif.Format Verif.Format.Spec

namespace Spec

/-- Digits, separated by underscores at will. -/
def Row (t : Text) : Prop := ∀ c ∈ t, IsDigit c ∨ c = '_'

/-- The digits of a row. -/
def plainDigits (t : Text) : Text := t.filter (· ≠ '_')

/-- An exponent with a sign, or none. -/
def SignedExponent (ex : Text) (e : ℤ) : Prop :=
  (ex = [] ∧ e = 0) ∨ ∃ c ds, (c = 'e' ∨ c = 'E') ∧ Digits ds ∧ ds ≠ [] ∧ (ex = c :: '+' :: ds ∧ e = number ds ∨ ex = c :: '-' :: ds ∧ e = -number ds)

end Spec

open Spec

theorem row_du {t : Text} (h : Row t) : ∀ c ∈ t, du c = true := by
  intro c hc
  rcases h c hc with h | rfl
  · exact du_digit h
  · decide

theorem expOk_signed {ex : Text} {e : ℤ} (h : SignedExponent ex e) : expOk ex = true ∧ ex.dropWhile du = ex := by
  rcases h with ⟨rfl, -⟩ | ⟨c, ds, hc, hd, hne, h⟩
  · exact ⟨rfl, rfl⟩
  · have ha : ds.all isDig = true := List.all_eq_true.2 fun c h => (isDig_iff c).2 (hd c h)
    obtain ⟨d, ds, rfl⟩ := List.exists_cons_of_ne_nil hne
    rcases hc with rfl | rfl <;> rcases h with ⟨rfl, -⟩ | ⟨rfl, -⟩ <;> exact ⟨by rw [expOk, ha]; rfl, List.dropWhile_cons_of_neg (by decide)⟩

theorem fracOk_row {f ex : Text} {e : ℤ} (hf : Row f) (h : SignedExponent ex e) : fracOk (f ++ ex) = true := by
  obtain ⟨h1, h2⟩ := expOk_signed h
  unfold fracOk
  rw [List.dropWhile_append_of_pos (row_du hf), h2, h1]

theorem scalar_float {t : Text} (hd : '.' ∈ t) (h : floatPoint t = true ∨ floatDot t = true) : scalar t = floatOf t := by
  have h1 : truths.contains t = false := by
    rw [Bool.eq_false_iff]
    intro hh
    exact truths_letters t (List.mem_append_left _ (by simpa using hh)) _ hd rfl
  have h2 : falsehoods.contains t = false := by
    rw [Bool.eq_false_iff]
    intro hh
    exact truths_letters t (List.mem_append_right _ (by simpa using hh)) _ hd rfl
  have h3 : (floatPoint t || floatDot t) = true := by
    rcases h with h | h <;> simp [h]
  unfold scalar
  simp only [h1, h2, h3, if_true]
  rfl

theorem plain_row {t : Text} (h : Row t) : Digits (plainDigits t) := by
  intro c hc
  obtain ⟨hc, hu⟩ := List.mem_filter.1 hc
  rcases h c hc with h | rfl
  · exact h
  · simp at hu

theorem lower_digit {c : Char} (h : IsDigit c) : c.toLower = c := (lower_num (.inl h)).1

/-- What `float` is applied to. -/
theorem cleaned {w f ex : Text} {e : ℤ} (hw : Row w) (hf : Row f) (h : SignedExponent ex e) :
    ∃ ex', (noUnderscores (w ++ '.' :: (f ++ ex))).map Char.toLower = plainDigits w ++ '.' :: (plainDigits f ++ ex') ∧ Exponent ex' e := by
  have row : ∀ t : Text, Row t → (noUnderscores t).map Char.toLower = plainDigits t := by
    intro t ht
    have := plain_row ht
    unfold noUnderscores
    unfold plainDigits at this ⊢
    conv_rhs => rw [← List.map_id (t.filter _)]
    exact List.map_congr_left fun c hc => lower_digit (this c hc)
  refine ⟨(noUnderscores ex).map Char.toLower, ?_, ?_⟩
  · have : noUnderscores (w ++ '.' :: (f ++ ex)) = noUnderscores w ++ '.' :: (noUnderscores f ++ noUnderscores ex) := by
      simp [noUnderscores]
    rw [this, List.map_append, List.map_cons, List.map_append, row w hw, row f hf]
    rfl
  · rcases h with ⟨rfl, rfl⟩ | ⟨c, ds, hc, hd, hne, h⟩
    · exact .inl ⟨rfl, rfl⟩
    · have hds : (noUnderscores ds).map Char.toLower = ds := clean_num fun c h => .inl (hd c h)
      have hcl : (noUnderscores [c]).map Char.toLower = ['e'] := by rcases hc with rfl | rfl <;> decide
      rcases h with ⟨rfl, rfl⟩ | ⟨rfl, rfl⟩
      · have hs : (noUnderscores (c :: '+' :: ds)).map Char.toLower = (noUnderscores [c]).map Char.toLower ++ (noUnderscores ['+']).map Char.toLower ++ (noUnderscores ds).map Char.toLower := by
          rw [← List.map_append, ← List.map_append]
          simp only [noUnderscores, ← List.filter_append]
          rfl
        rw [hs, hds, hcl]
        exact .inr ⟨'e', ['+'], 1, ds, .inl rfl, .inr (.inl ⟨rfl, rfl⟩), hd, hne, rfl, by simp⟩
      · have hs : (noUnderscores (c :: '-' :: ds)).map Char.toLower = (noUnderscores [c]).map Char.toLower ++ (noUnderscores ['-']).map Char.toLower ++ (noUnderscores ds).map Char.toLower := by
          rw [← List.map_append, ← List.map_append]
          simp only [noUnderscores, ← List.filter_append]
          rfl
        rw [hs, hds, hcl]
        exact .inr ⟨'e', ['-'], -1, ds, .inl rfl, .inr (.inr ⟨rfl, rfl⟩), hd, hne, rfl, by simp⟩

theorem of_neg_dbl (q : ℚ) : Dbl.of (-q) = -Dbl.of q := Dbl.ext (by
  rw [negVal]
  exact rnd53_neg q)

/-- **C217**, what holds: a decimal number with a point is read as the double nearest to it if it begins, after an optional sign, with a digit, or begins with the point, and if its exponent has a sign.
Underscores only separate. -/
theorem C217_partial (sgn w f ex : Text) (s e : ℤ) (hs : Sign sgn s) (hw : Row w) (hf : Row f) (he : SignedExponent ex e)
    (h : (∃ c r, w = c :: r ∧ IsDigit c) ∨ w = [] ∧ sgn = [] ∧ ∃ c ∈ f, IsDigit c) :
    scalar (sgn ++ w ++ '.' :: (f ++ ex)) = .float (Dbl.of ((s : ℚ) * (number (plainDigits (w ++ f)) : ℚ) * (10 : ℚ) ^ (e - ((plainDigits f).length : ℤ)))) := by
  have hne : plainDigits w ++ plainDigits f ≠ [] := by
    have : ∃ c ∈ w ++ f, IsDigit c := by
      rcases h with ⟨c, r, rfl, hc⟩ | ⟨-, -, c, hc, hd⟩
      · exact ⟨c, by simp, hc⟩
      · exact ⟨c, List.mem_append_right _ hc, hd⟩
    obtain ⟨c, hc, hd⟩ := this
    have hm : c ∈ plainDigits (w ++ f) := List.mem_filter.2 ⟨hc, by simpa using (lower_num (.inl hd)).2⟩
    rw [plainDigits, List.filter_append] at hm
    exact List.ne_nil_of_mem hm
  have hu : unsign (sgn ++ w ++ '.' :: (f ++ ex)) = w ++ '.' :: (f ++ ex) := by
    rcases hs with ⟨rfl, -⟩ | ⟨rfl, -⟩ | ⟨rfl, -⟩
    · rcases h with ⟨c, r, rfl, hc⟩ | ⟨rfl, -⟩
      · exact unsign_digit hc _
      · rfl
    · rfl
    · rfl
  have hrec : floatPoint (sgn ++ w ++ '.' :: (f ++ ex)) = true ∨ floatDot (sgn ++ w ++ '.' :: (f ++ ex)) = true := by
    rcases h with ⟨c, r, rfl, hc⟩ | ⟨rfl, rfl, c, hc, hd⟩
    · left
      unfold floatPoint
      rw [hu]
      have hr : (r ++ '.' :: (f ++ ex)).dropWhile du = '.' :: (f ++ ex) := by
        rw [List.dropWhile_append_of_pos (row_du fun d hd => hw d (List.mem_cons_of_mem _ hd)), List.dropWhile_cons_of_neg (by decide)]
      simp only [List.cons_append, (isDig_iff c).2 hc, hr, fracOk_row hf he, Bool.and_self]
    · right
      obtain ⟨d, g, rfl⟩ := List.exists_cons_of_ne_nil (List.ne_nil_of_mem hc)
      simp only [List.nil_append, List.cons_append, floatDot, row_du hf d List.mem_cons_self, fracOk_row (fun c hc => hf c (List.mem_cons_of_mem _ hc)) he, Bool.and_self]
  rw [scalar_float (by simp) hrec]
  obtain ⟨ex', hcl, hex⟩ := cleaned hw hf he
  have hval : pyFloat (K := ℚ) (plainDigits w ++ '.' :: (plainDigits f ++ ex')) = some ((number (plainDigits (w ++ f)) : ℚ) * (10 : ℚ) ^ (e - ((plainDigits f).length : ℤ))) := by
    refine (C140_read _ _).2 ⟨[], [], plainDigits w, ['.'], plainDigits f, ex', [], 1, e, by simp, by simp [Space], by simp [Space], .inl ⟨rfl, rfl⟩, plain_row hw, plain_row hf, .inl rfl, hne, hex, ?_⟩
    rw [plainDigits, List.filter_append]
    simp [plainDigits]
  unfold floatOf
  rw [hu, hcl, floatDbl, hval]
  simp only [Option.map_some]
  have hplus : sgn = [] ∨ sgn = ['+'] → ((sgn ++ w ++ '.' :: (f ++ ex)).head? = some '-' → False) := by
    rintro (rfl | rfl) hh
    · rcases h with ⟨c, r, rfl, hc⟩ | ⟨rfl, -⟩
      · have : c = '-' := Option.some.inj hh
        rw [this] at hc
        exact minus_not_digit hc
      · exact absurd (Option.some.inj hh) (by decide)
    · exact absurd (Option.some.inj hh) (by decide)
  rcases hs with ⟨h1, rfl⟩ | ⟨h1, rfl⟩ | ⟨rfl, rfl⟩
  · rw [if_neg (hplus (.inl h1))]
    simp
  · rw [if_neg (hplus (.inr h1))]
    simp
  · rw [if_pos (show (['-'] ++ w ++ '.' :: (f ++ ex)).head? = some '-' from rfl), ← of_neg_dbl]
    simp

/-! ### Numbers that are read as texts -/

theorem not_int {t : Text} (hdot : '.' ∈ t) (hcol : ':' ∉ t) : intOf t = none := by
  have hmem : '.' ∈ unsign t := by
    unfold unsign
    split
    · exact (List.mem_cons.1 hdot).resolve_left (by decide)
    · exact (List.mem_cons.1 hdot).resolve_left (by decide)
    · exact hdot
  have hc' : ':' ∉ unsign t := by
    unfold unsign
    split
    · exact fun hh => hcol (List.mem_cons_of_mem _ hh)
    · exact fun hh => hcol (List.mem_cons_of_mem _ hh)
    · exact hcol
  have bad : ∀ (p : Char → Bool) (l : Text), p '.' = false → '.' ∈ l → l.all p = false := by
    intro p l hp hl
    rw [Bool.eq_false_iff]
    intro hh
    have := List.all_eq_true.1 hh _ hl
    rw [hp] at this
    cases this
  unfold intOf
  split
  · next c ds he =>
    rw [he] at hmem
    rw [bad _ _ (by decide) ((List.mem_cons.1 ((List.mem_cons.1 hmem).resolve_left (by decide))).resolve_left (by decide))]
    rfl
  · next he =>
    rw [he] at hmem
    exact absurd hmem (by decide)
  · next c ds he =>
    rw [he] at hmem
    rw [bad _ _ (by decide) ((List.mem_cons.1 ((List.mem_cons.1 hmem).resolve_left (by decide))).resolve_left (by decide))]
    rfl
  · next c ds _ _ he =>
    rw [he] at hmem
    rw [bad _ _ (by decide) ((List.mem_cons.1 hmem).resolve_left (by decide))]
    rfl
  · next c ds _ _ _ _ he =>
    rw [he] at hmem hc'
    rw [if_neg]
    · rw [show (c :: ds).splitOn ':' = [c :: ds] from List.splitOnP_eq_singleton fun d hd => by
        rw [beq_eq_false_iff_ne]
        rintro rfl
        exact hc' hd]
    · intro hh
      rw [Bool.and_eq_true] at hh
      rcases List.mem_cons.1 hmem with hm | hm
      · rw [← hm] at hh
        exact absurd hh.1 (by decide)
      · rw [bad _ _ (by decide) hm] at hh
        exact absurd hh.2 (by decide)
  · rfl

/-- A text with a point and a digit but without colons that is not recognised as a decimal number stays a text. -/
theorem scalar_text {t : Text} (hdot : '.' ∈ t) (hcol : ':' ∉ t) (hdig : ∃ c ∈ t, IsDigit c) (h1 : floatPoint t = false) (h2 : floatDot t = false) : scalar t = .str t := by
  have hsub : ∀ c ∈ unsign t, c ∈ t := by
    intro c hc
    unfold unsign at hc
    split at hc
    · exact List.mem_cons_of_mem _ hc
    · exact List.mem_cons_of_mem _ hc
    · exact hc
  have hw : ∀ t ∈ truths ++ falsehoods ++ nulls ++ ["<<".toList, ['=']] ++ [".inf", ".Inf", ".INF", "-.inf", "-.Inf", "-.INF", "+.inf", "+.Inf", "+.INF", ".nan", ".NaN", ".NAN"].map String.toList,
      ∀ c ∈ t, isDig c = false := by decide +kernel
  have hne : ∀ u, (∀ c ∈ u, isDig c = false) → t ≠ u := by
    rintro u hu rfl
    obtain ⟨c, hc, hd⟩ := hdig
    have := hu c hc
    rw [(isDig_iff c).2 hd] at this
    cases this
  have w : ∀ l : List Text, (∀ u ∈ l, ∀ c ∈ u, isDig c = false) → l.contains t = false := by
    intro l hl
    rw [Bool.eq_false_iff]
    intro hh
    have hh : t ∈ l := by simpa using hh
    exact hne t (hl t hh) rfl
  have w1 := w truths fun u hu => hw u (by simp [hu])
  have w2 := w falsehoods fun u hu => hw u (by simp [hu])
  have w3 := w nulls fun u hu => hw u (by simp [hu])
  have f3 : floatSixty t = false := by
    unfold floatSixty
    rw [show (unsign t).splitOn ':' = [unsign t] from List.splitOnP_eq_singleton fun c hc => by
      rw [beq_eq_false_iff_ne]
      rintro rfl
      exact hcol (hsub _ hc)]
    cases unsign t <;> rfl
  have f4 : floatSpecial t = false := by
    unfold floatSpecial
    rw [Bool.or_eq_false_iff]
    constructor
    · rw [Bool.eq_false_iff]
      intro hh
      have hh : unsign t ∈ [".inf".toList, ".Inf".toList, ".INF".toList] := by simpa using hh
      have key : ∀ u ∈ [".inf".toList, ".Inf".toList, ".INF".toList], ∀ c ∈ u, isDig c = false := by decide +kernel
      obtain ⟨c, hc, hd⟩ := hdig
      have hcu : c ∈ unsign t := by
        unfold unsign
        split
        · exact (List.mem_cons.1 hc).resolve_left fun h => minus_not_digit (h ▸ hd)
        · exact (List.mem_cons.1 hc).resolve_left fun h => plus_not_digit (h ▸ hd)
        · exact hc
      have := key _ hh c hcu
      rw [(isDig_iff c).2 hd] at this
      cases this
    · exact w _ (by decide +kernel)
  have h5 : ¬ (t = "<<".toList ∨ t = ['=']) := by
    rintro (hh | hh)
    · exact hne _ (by decide) hh
    · exact hne _ (by decide) hh
  have h6 : isDate t = false := by
    unfold isDate
    split
    · next a b c d m1 e f m2 g h =>
      rw [Bool.eq_false_iff]
      intro hh
      simp only [Bool.and_eq_true, beq_iff_eq, List.all_cons, List.all_nil] at hh
      obtain ⟨⟨⟨ha, hb, hc, hd, he, hf, hg, hh', -⟩, rfl⟩, rfl⟩ := hh
      simp only [List.mem_cons, List.not_mem_nil, or_false] at hdot
      rcases hdot with rfl | rfl | rfl | rfl | h | rfl | rfl | h | rfl | rfl
      all_goals first
        | exact absurd ha (by decide)
        | exact absurd hb (by decide)
        | exact absurd hc (by decide)
        | exact absurd hd (by decide)
        | exact absurd he (by decide)
        | exact absurd hf (by decide)
        | exact absurd hg (by decide)
        | exact absurd hh' (by decide)
        | exact absurd h (by decide)
    · next a b c d m1 e r _ =>
      have : (a :: b :: c :: d :: m1 :: e :: r).contains ':' = false := by
        rw [Bool.eq_false_iff]
        intro hh
        exact hcol (by simpa using hh)
      rw [this, Bool.and_false]
    · rfl
  unfold scalar
  rw [w1, w2, w3, h1, h2, f3, f4, not_int hdot hcol, h6]
  simp only [Bool.or_self, Bool.false_eq_true, if_false, h5]

theorem row_colon {t : Text} (h : Row t) : ':' ∉ t ∧ '.' ∉ t := by
  constructor
  · intro hh
    exact absurd (h _ hh) (by unfold IsDigit; decide)
  · intro hh
    exact absurd (h _ hh) (by unfold IsDigit; decide)

/-- **C217**: a sign directly before the point makes a text of the number. -/
theorem C217_sign (sg : Char) (hsg : sg = '+' ∨ sg = '-') (f : Text) (hf : Row f) (hd : ∃ c ∈ f, IsDigit c) : scalar (sg :: '.' :: f) = .str (sg :: '.' :: f) := by
  have hc := (row_colon hf).1
  obtain ⟨c, hc', hd⟩ := hd
  refine scalar_text (by simp) ?_ ⟨c, by simp [hc'], hd⟩ ?_ ?_
  · rcases hsg with rfl | rfl <;> simp [hc]
  · rcases hsg with rfl | rfl <;> simp [floatPoint, unsign, isDig]
  · rcases hsg with rfl | rfl <;> rfl

/-- **C217**: and so does an exponent without a sign. -/
theorem C217_exponent (w f ds : Text) (c E : Char) (hw : Row w) (hc : IsDigit c) (hf : Row f) (hE : E = 'e' ∨ E = 'E') (hds : Digits ds) :
    scalar (c :: w ++ '.' :: (f ++ E :: ds)) = .str (c :: w ++ '.' :: (f ++ E :: ds)) := by
  refine scalar_text (by simp) ?_ ⟨c, by simp, hc⟩ ?_ ?_
  · have h1 : ':' ≠ c := fun h => absurd (h ▸ hc) (by unfold IsDigit; decide)
    have h2 : ':' ∉ ds := fun h => absurd (hds _ h) (by decide)
    have h3 : ':' ≠ E := by rcases hE with rfl | rfl <;> decide
    simp [h1, (row_colon hw).1, (row_colon hf).1, h2, h3]
  · have hr : (w ++ '.' :: (f ++ E :: ds)).dropWhile du = '.' :: (f ++ E :: ds) := by
      rw [List.dropWhile_append_of_pos (row_du hw), List.dropWhile_cons_of_neg (by decide)]
    have hE' : (E :: ds).dropWhile du = E :: ds := by rcases hE with rfl | rfl <;> exact List.dropWhile_cons_of_neg (by decide)
    have hx : expOk (E :: ds) = false := by
      match ds, hds with
      | [], _ => rfl
      | [_], _ => rfl
      | s :: d :: ds, hds =>
        have hs := hds s List.mem_cons_self
        have h1 : s ≠ '-' := fun h => absurd (h ▸ hs) (by decide)
        have h2 : s ≠ '+' := fun h => absurd (h ▸ hs) (by decide)
        simp [expOk, h1, h2]
    unfold floatPoint
    rw [List.cons_append, unsign_digit hc]
    simp only [hr, fracOk, List.dropWhile_append_of_pos (row_du hf), hE', hx, Bool.and_false]
  · have h1 : c ≠ '.' := fun h => absurd (h ▸ hc) (by unfold IsDigit; decide)
    rw [List.cons_append]
    unfold floatDot
    split
    · next h => exact absurd (List.cons.inj h).1 h1
    · rfl

/-- **C217** as stated is false: `1.5e3` is a number for Python and a text for the configuration. -/
theorem C217_fails : ¬ ∀ (t : Text) (v : ℚ), Literal t v → '.' ∈ t → (∀ c ∈ t, isWs c = false) → scalar t = .float (Dbl.of v) := by
  intro h
  have h1 := h "1.5e3".toList 1500 ((C140_read _ _).1 (by decide +kernel)) (by decide) (by decide)
  have h2 := C217_exponent [] ['5'] ['3'] '1' 'e' (by simp [Row]) (by unfold IsDigit; decide) (by unfold Row IsDigit; decide) (.inl rfl) (by unfold Digits; decide)
  rw [show "1.5e3".toList = '1' :: [] ++ '.' :: (['5'] ++ 'e' :: ['3']) by decide, h2] at h1
  cases h1

/-- The cases. -/
example : scalar "-1_0.5E-1".toList = .float (Dbl.of ((((-1 : ℤ) : ℚ)) * ((number "105".toList : ℕ) : ℚ) * (10 : ℚ) ^ (-((number "1".toList : ℕ) : ℤ) - ((1 : ℕ) : ℤ)))) :=
  C217_partial ['-'] "1_0".toList ['5'] "E-1".toList (-1) _ (.inr (.inr ⟨rfl, rfl⟩)) (by unfold Row IsDigit; decide) (by unfold Row IsDigit; decide)
    (.inr ⟨'E', ['1'], .inr rfl, by unfold Digits; decide, by decide, .inr ⟨rfl, rfl⟩⟩) (.inl ⟨'1', "_0".toList, rfl, by unfold IsDigit; decide⟩)
example : ∃ v, scalar ".5".toList = .float v := ⟨_, C217_partial [] [] ['5'] [] 1 0 (.inl ⟨rfl, rfl⟩) (by simp [Row]) (by unfold Row IsDigit; decide) (.inl ⟨rfl, rfl⟩) (.inr ⟨rfl, rfl, '5', by decide, by unfold IsDigit; decide⟩)⟩
example : scalar "-.5".toList = .str "-.5".toList := C217_sign '-' (.inr rfl) ['5'] (by unfold Row IsDigit; decide) ⟨'5', by decide, by unfold IsDigit; decide⟩

end Verif.Yaml
