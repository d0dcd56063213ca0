import Verif.Props.ConfigDecimals

/-!
# The values of the configuration file spelled in other ways (C222)

A number may be written `0.1` or `1.0e-1`, a truth value `yes` or `True`, a missing value not at all or as `null`: the configuration is the same.
-/

namespace Verif.Yaml

open Verif Verif.EqCatalog Verif.Format Verif.Format.Spec Verif.Workflow

namespace Spec

/-- What a value of the configuration stands for. -/
inductive Stands : Text → Scalar → Prop
  | nothing {t} : t ∈ ["", "null", "Null", "NULL"].map String.toList → Stands t .null
  | yes {t} : t ∈ ["yes", "Yes", "YES", "true", "True", "TRUE", "on", "On", "ON"].map String.toList → Stands t (.bool true)
  | no {t} : t ∈ ["no", "No", "NO", "false", "False", "FALSE", "off", "Off", "OFF"].map String.toList → Stands t (.bool false)
  /-- Decimals with a point; an exponent has a sign. -/
  | decimal {sgn w f ex : Text} {s e : ℤ} : Sign sgn s → Row w → Row f → SignedExponent ex e → ((∃ c r, w = c :: r ∧ IsDigit c) ∨ w = [] ∧ sgn = [] ∧ ∃ c ∈ f, IsDigit c) →
      Stands (sgn ++ w ++ '.' :: (f ++ ex)) (.float (Dbl.of ((s : ℚ) * (number (plainDigits (w ++ f)) : ℚ) * (10 : ℚ) ^ (e - ((plainDigits f).length : ℤ)))))
  | whole {sgn ds : Text} {s : ℤ} {c : Char} : Sign sgn s → IsDigit c → c ≠ '0' → Row ds → Stands (sgn ++ c :: ds) (.int (s * spelled 10 (c :: ds)))
  | zero {sgn : Text} {s : ℤ} : Sign sgn s → Stands (sgn ++ ['0']) (.int 0)
  | octal {ds : Text} : ds ≠ [] → (∀ c ∈ ds, '0' ≤ c ∧ c ≤ '7') → Stands ('0' :: ds) (.int (spelled 8 ds))
  | hexadecimal {ds : Text} : ds ≠ [] → (∀ c ∈ ds, c ∈ figures ++ capitals) → Stands ('0' :: 'x' :: ds) (.int (written 16 ds))
  | binary {ds : Text} : ds ≠ [] → (∀ c ∈ ds, c = '0' ∨ c = '1') → Stands ('0' :: 'b' :: ds) (.int (written 2 ds))

/-- The same value, spelled alike or not. -/
def SameValue (t t' : Text) : Prop := t = t' ∨ ∃ v, Stands t v ∧ Stands t' v

/-- The decimal parameters that are only computed with.  `reference_magnitude` is not among them: it is written to the result, `5` and `5.0` differently. -/
def decimalKeys : List Text := ["foreshock_time_window", "time_window", "magnitude_windows", "sensitivity", "magnitude_window", "iteration_tolerance", "number_samples"].map String.toList

/-- The same value of a parameter; a decimal number that is only computed with may also be given as a whole one. -/
def SameParam (k t t' : Text) : Prop :=
  SameValue t t' ∨ k ∈ decimalKeys ∧ ∃ z : ℤ, (Stands t (.int z) ∧ Stands t' (.float (Dbl.of z))) ∨ (Stands t (.float (Dbl.of z)) ∧ Stands t' (.int z))

inductive RespelledNode : Node → Node → Prop
  | scalar {t t'} : SameValue t t' → RespelledNode (.scalar t) (.scalar t')
  | list {ts ts'} : List.Forall₂ SameValue ts ts' → RespelledNode (.list ts) (.list ts')
  | map {es es' : List (Text × Text)} : List.Forall₂ (fun e e' => e.1 = e'.1 ∧ SameParam e.1 e.2 e'.2) es es' → RespelledNode (.map es) (.map es')

/-- The same entries with their values spelled in other ways. -/
def Respelled (d d' : Doc) : Prop := List.Forall₂ (fun e e' => e.1 = e'.1 ∧ RespelledNode e.2 e'.2) d d'

end Spec

open Spec

/-- **C222**: every spelling is read as what it stands for. -/
theorem C222_stands {t : Text} {v : Scalar} (h : Stands t v) : scalar t = v := by
  have hb : ∀ b, ∀ t ∈ (if b then truths else falsehoods), (match scalar t with | .bool b' => b' == b | _ => false) = true := by decide +kernel
  have hb' : ∀ b, ∀ t ∈ (if b then truths else falsehoods), scalar t = .bool b := by
    intro b t ht
    have := hb b t ht
    split at this
    · next h => rw [h, beq_iff_eq.1 this]
    · cases this
  cases h with
  | nothing h =>
    have hn : ∀ t ∈ nulls, (match scalar t with | .null => true | _ => false) = true := by decide +kernel
    have := hn t (by revert h; unfold nulls; simp only [List.map_cons, List.map_nil, List.mem_cons, List.not_mem_nil, or_false]; tauto)
    split at this
    · assumption
    · cases this
  | yes h => exact hb' true t h
  | no h => exact hb' false t h
  | decimal hs hw hf he h => exact C217_partial _ _ _ _ _ _ hs hw hf he h
  | whole hs hc h0 hd =>
    obtain ⟨h1, h2, h3⟩ := C212_partial _ _ hc h0 hd
    rcases hs with ⟨rfl, rfl⟩ | ⟨rfl, rfl⟩ | ⟨rfl, rfl⟩
    · simpa using h1
    · simpa using h2
    · simpa using h3
  | @zero sgn s hs =>
    have h0 : ∀ t ∈ [['0'], ['+', '0'], ['-', '0']], (match scalar t with | .int z => z == 0 | _ => false) = true := by decide +kernel
    have := h0 _ (show sgn ++ ['0'] ∈ _ by rcases hs with ⟨rfl, rfl⟩ | ⟨rfl, rfl⟩ | ⟨rfl, rfl⟩ <;> decide)
    split at this
    · next h => rw [h, beq_iff_eq.1 this]
    · cases this
  | octal hne h => exact C212_octal _ hne h
  | hexadecimal hne h => exact (C212_based _ hne).1 h
  | binary hne h => exact (C212_based _ hne).2 h

theorem Spec.SameValue.scalar {t t' : Text} (h : SameValue t t') : Yaml.scalar t = Yaml.scalar t' := by
  rcases h with rfl | ⟨v, h, h'⟩
  · rfl
  · rw [C222_stands h, C222_stands h']

theorem Spec.Respelled.refl (d : Doc) : Respelled d d := by
  refine List.forall₂_same.2 fun e _ => ⟨rfl, ?_⟩
  cases e.2 with
  | scalar t => exact .scalar (.inl rfl)
  | list ts => exact .list (List.forall₂_same.2 fun _ _ => .inl rfl)
  | map es => exact .map (List.forall₂_same.2 fun _ _ => ⟨rfl, .inl (.inl rfl)⟩)

theorem lookup_forall {α : Type} {R : α → α → Prop} {m d' : List (Text × α)} (h : List.Forall₂ (fun e e' => e.1 = e'.1 ∧ R e.2 e'.2) m d') (k : String) :
    (lookup k m = none ∧ lookup k d' = none) ∨ ∃ v v', lookup k m = some v ∧ lookup k d' = some v' ∧ R v v' := by
  induction h with
  | nil => exact .inl ⟨rfl, rfl⟩
  | cons h _ ih =>
    rw [lookup_cons, lookup_cons, ← h.1]
    rcases ih with ⟨h1, h2⟩ | ⟨v, v', h1, h2, h3⟩
    · rw [h1, h2, Option.none_or, Option.none_or]
      split_ifs
      · exact .inr ⟨_, _, rfl, rfl, h.2⟩
      · exact .inl ⟨rfl, rfl⟩
    · exact .inr ⟨v, v', by rw [h1]; rfl, by rw [h2]; rfl, h3⟩

theorem lookup_params {m d' : List (Text × Text)} (h : List.Forall₂ (fun e e' => e.1 = e'.1 ∧ SameParam e.1 e.2 e'.2) m d') (k : String) :
    (lookup k m = none ∧ lookup k d' = none) ∨ ∃ v v', lookup k m = some v ∧ lookup k d' = some v' ∧ SameParam k.toList v v' := by
  induction h with
  | nil => exact .inl ⟨rfl, rfl⟩
  | cons h _ ih =>
    rw [lookup_cons, lookup_cons, ← h.1]
    rcases ih with ⟨h1, h2⟩ | ⟨v, v', h1, h2, h3⟩
    · rw [h1, h2, Option.none_or, Option.none_or]
      split_ifs with hk
      · exact .inr ⟨_, _, rfl, rfl, hk ▸ h.2⟩
      · exact .inl ⟨rfl, rfl⟩
    · exact .inr ⟨v, v', by rw [h1]; rfl, by rw [h2]; rfl, h3⟩

theorem param_respelled {α : Type} {f : Text → Option α} {k : String} (hf : ∀ t t', SameParam k.toList t t' → f t = f t') {es es' : List (Text × Text)}
    (h : List.Forall₂ (fun e e' => e.1 = e'.1 ∧ SameParam e.1 e.2 e'.2) es es') : paramKey f k es = paramKey f k es' := by
  unfold paramKey
  rcases lookup_params h k with ⟨h1, h2⟩ | ⟨v, v', h1, h2, h3⟩
  · rw [h1, h2]
  · rw [h1, h2]
    simp only
    rw [hf _ _ h3]

theorem Spec.SameParam.value {k t t' : Text} (h : SameParam k t t') (hk : k ∉ decimalKeys) : Yaml.scalar t = Yaml.scalar t' :=
  h.elim (·.scalar) fun h => absurd h.1 hk

theorem Spec.SameParam.num {k t t' : Text} (h : SameParam k t t') : numOf t = numOf t' := by
  unfold numOf
  rcases h with h | ⟨-, z, ⟨h1, h2⟩ | ⟨h1, h2⟩⟩
  · rw [h.scalar]
  · rw [C222_stands h1, C222_stands h2]; rfl
  · rw [C222_stands h1, C222_stands h2]; rfl

theorem section_respelled {α : Type} {f : List (Text × Text) → Option α} (hf : ∀ es es', List.Forall₂ (fun e e' => e.1 = e'.1 ∧ SameParam e.1 e.2 e'.2) es es' → f es = f es') {d d' : Doc}
    (h : Respelled d d') (k : String) : sectionKey f k d = sectionKey f k d' := by
  unfold sectionKey
  rcases lookup_forall h k with ⟨h1, h2⟩ | ⟨v, v', h1, h2, h3⟩
  · rw [h1, h2]
  · rw [h1, h2]
    cases h3 with
    | scalar h => simp only [h.scalar]
    | list h => rfl
    | map h => simp only [hf _ _ h]

theorem keys_respelled {d d' : Doc} (h : Respelled d d') (k : String) : textKey k d = textKey k d' ∧ boolKey k d = boolKey k d' ∧ listKey k d = listKey k d' := by
  unfold textKey boolKey listKey
  rcases lookup_forall h k with ⟨h1, h2⟩ | ⟨v, v', h1, h2, h3⟩
  · rw [h1, h2]
    exact ⟨rfl, rfl, rfl⟩
  · rw [h1, h2]
    cases h3 with
    | scalar h => simp only [h.scalar, and_self]
    | map h => exact ⟨rfl, rfl, rfl⟩
    | list h =>
      refine ⟨rfl, rfl, ?_⟩
      simp only
      congr 1
      clear h1 h2
      induction h with
      | nil => rfl
      | @cons a b _ _ h _ ih => rw [allOf, allOf, ih, show strOf a = strOf b by unfold strOf; rw [h.scalar]]

/-- **C222**: entries with their values spelled in other ways make the same configuration. -/
theorem C222_config {d d' : Doc} (h : Respelled d d') : config d = config d' := by
  have hk := keys_respelled h
  have h1 : ∀ k : String, k.toList ∉ decimalKeys → ∀ t t', SameParam k.toList t t' → strOf t = strOf t' := fun k hk t t' h => by unfold strOf; rw [h.value hk]
  have h2 : ∀ k : String, ∀ t t', SameParam k.toList t t' → numOf t = numOf t' := fun k t t' h => h.num
  have h5 : ∀ k : String, k.toList ∉ decimalKeys → ∀ t t', SameParam k.toList t t' → decimalOf t = decimalOf t' := fun k hk t t' h => by unfold decimalOf; rw [h.value hk]
  have h3 : ∀ k : String, k.toList ∉ decimalKeys → ∀ t t', SameParam k.toList t t' → natOf t = natOf t' := fun k hk t t' h => by unfold natOf; rw [h.value hk]
  have h4 : ∀ k : String, k.toList ∉ decimalKeys → ∀ t t', SameParam k.toList t t' → boolOf t = boolOf t' := fun k hk t t' h => by unfold boolOf; rw [h.value hk]
  unfold config
  simp only [fun k => (hk k).1, fun k => (hk k).2.1, fun k => (hk k).2.2]
  have n := fun (k : String) {es es' : List (Text × Text)} he => param_respelled (es := es) (es' := es') (h2 k) he
  have hd : ∀ (w : String) (es es' : List (Text × Text)), List.Forall₂ (fun e e' => e.1 = e'.1 ∧ SameParam e.1 e.2 e'.2) es es' → declusterOf w es = declusterOf w es' := fun w es es' he => by
    unfold declusterOf; rw [param_respelled (h1 "time_dist_windows" (by decide +kernel)) he, n w he]
  rw [section_respelled (hd _) h, section_respelled (hd _) h,
    section_respelled (fun es es' he => by
      unfold steppOf; rw [n "magnitude_windows" he, n "time_window" he, n "sensitivity" he, param_respelled (h4 "increment_lock" (by decide +kernel)) he]) h,
    section_respelled (fun es es' he => by
      unfold recurrenceOf
      rw [n "magnitude_window" he, param_respelled (h1 "recurrence_algorithm" (by decide +kernel)) he, param_respelled (h5 "reference_magnitude" (by decide +kernel)) he, n "time_window" he]) h,
    section_respelled (fun es es' he => by
      unfold maximumOf
      rw [param_respelled (h1 "maxim_mag_algorithm" (by decide +kernel)) he, n "iteration_tolerance" he, param_respelled (h3 "maximum_iterations" (by decide +kernel)) he,
        param_respelled (h3 "neq" (by decide +kernel)) he, n "number_samples" he, param_respelled (h3 "number_bootstraps" (by decide +kernel)) he]) h]

/-- **C222**: a configuration whose values can be written, with its entries in any order, its values in any spelling and its lines in any layout, is the configuration that is used. -/
theorem C222_load (r : RawConfig Dbl) (h : Writable r) (d d' : Doc) (hd : Rearranged (docOf r) d) (hs : Respelled d d') (hg : ∀ e ∈ d', Word e.1 ∧ Good e.2) (hne : d' ≠ []) (out : List Text)
    (ho : Laid (docLines d') out) : load (['\n'].intercalate out) = some r := by
  unfold load
  rw [C209_layout _ hne hg out ho]
  simp only
  rw [← C222_config hs, ← C210_order (docOf_keys r _) hd]
  exact config_doc (fun _ => scalar_pointed) h

/-! ### Cases -/

/-- Other spellings of a tenth, of a hundred and of truth. -/
def respell222 (t : Text) : Text :=
  if t = "0.1".toList then "1.0e-1".toList else if t = "100".toList then "0x64".toList else if t = "True".toList then "yes".toList else t

def respelled222 : Node → Node
  | .scalar t => .scalar (respell222 t)
  | .list ts => .list (ts.map respell222)
  | .map es => .map (es.map fun e => (e.1, respell222 e.2))

theorem sameValue222 (t : Text) : SameValue t (respell222 t) := by
  unfold respell222
  split_ifs with h1 h2 h3
  · subst h1
    refine .inr ⟨.float (.of (1 / 10)), ?_, ?_⟩
    · have := Stands.decimal (sgn := []) (w := ['0']) (f := ['1']) (ex := []) (.inl ⟨rfl, rfl⟩) (by unfold Row IsDigit; decide) (by unfold Row IsDigit; decide) (.inl ⟨rfl, rfl⟩)
        (.inl ⟨'0', [], rfl, by unfold IsDigit; decide⟩)
      convert this using 3
      · decide
      rw [show number (plainDigits (['0'] ++ ['1'])) = 1 by decide +kernel, show (plainDigits ['1']).length = 1 by decide]
      norm_num
    · have := Stands.decimal (sgn := []) (w := ['1']) (f := ['0']) (ex := "e-1".toList) (.inl ⟨rfl, rfl⟩) (by unfold Row IsDigit; decide) (by unfold Row IsDigit; decide)
        (.inr ⟨'e', ['1'], .inl rfl, by unfold Digits; decide, by decide, .inr ⟨rfl, rfl⟩⟩) (.inl ⟨'1', [], rfl, by unfold IsDigit; decide⟩)
      convert this using 3
      · decide
      rw [show number (plainDigits (['1'] ++ ['0'])) = 10 by decide +kernel, show number ['1'] = 1 by decide +kernel, show (plainDigits ['0']).length = 1 by decide]
      norm_num
  · subst h2
    refine .inr ⟨.int 100, ?_, ?_⟩
    · exact Stands.whole (sgn := []) (c := '1') (ds := "00".toList) (.inl ⟨rfl, rfl⟩) (by unfold IsDigit; decide) (by decide) (by unfold Row IsDigit; decide)
    · exact Stands.hexadecimal (ds := "64".toList) (by decide) (by decide)
  · subst h3
    exact .inr ⟨.bool true, .yes (by decide), .yes (by decide)⟩
  · exact .inl rfl

theorem respelled_222 (d : Doc) : Respelled d (d.map fun e => (e.1, respelled222 e.2)) := by
  unfold Respelled
  rw [List.forall₂_map_right_iff]
  refine List.forall₂_same.2 fun e _ => ⟨rfl, ?_⟩
  cases e.2 with
  | scalar t => exact .scalar (sameValue222 t)
  | list ts =>
    refine .list ?_
    rw [List.forall₂_map_right_iff]
    exact List.forall₂_same.2 fun t _ => sameValue222 t
  | map es =>
    refine .map ?_
    rw [List.forall₂_map_right_iff]
    exact List.forall₂_same.2 fun e _ => ⟨rfl, .inl (sameValue222 _)⟩

theorem plain_222 {t : Text} (h : Plain t) : Plain (respell222 t) := by
  unfold respell222
  split_ifs
  · exact ⟨by decide, by decide, by decide, ⟨by decide, fun r hh => absurd (List.cons.inj hh).1 (by decide)⟩, by decide⟩
  · exact ⟨by decide, by decide, by decide, ⟨by decide, fun r hh => absurd (List.cons.inj hh).1 (by decide)⟩, by decide⟩
  · exact ⟨by decide, by decide, by decide, ⟨by decide, fun r hh => absurd (List.cons.inj hh).1 (by decide)⟩, by decide⟩
  · exact h

theorem good_222 {d : Doc} (h : ∀ e ∈ d, Word e.1 ∧ Good e.2) : ∀ e ∈ d.map (fun e => (e.1, respelled222 e.2)), Word e.1 ∧ Good e.2 := by
  intro e he
  obtain ⟨a, ha, rfl⟩ := List.mem_map.1 he
  refine ⟨(h a ha).1, ?_⟩
  have hg := (h a ha).2
  have hor : ∀ t : Text, t = [] ∨ Plain t → respell222 t = [] ∨ Plain (respell222 t) := by
    rintro t (rfl | ht)
    · exact .inl (by decide)
    · exact .inr (plain_222 ht)
  simp only
  cases hn : a.2 with
  | scalar t => rw [hn] at hg; exact hor t hg
  | list ts =>
    rw [hn] at hg
    refine ⟨by simpa using hg.1, fun t ht => ?_⟩
    obtain ⟨u, hu, rfl⟩ := List.mem_map.1 ht
    exact plain_222 (hg.2 u hu)
  | map es =>
    rw [hn] at hg
    intro t ht
    obtain ⟨u, hu, rfl⟩ := List.mem_map.1 ht
    exact ⟨(hg u hu).1, hor _ (hg u hu).2⟩

/-- C222: a window of five years, as in config.yml and as Python prints it. -/
example : SameParam "time_window".toList "5".toList "5.0".toList := by
  refine .inr ⟨by decide +kernel, 5, .inl ⟨Stands.whole (sgn := []) (c := '5') (ds := []) (.inl ⟨rfl, rfl⟩) (by unfold IsDigit; decide) (by decide) (by simp [Row]), ?_⟩⟩
  have := Stands.decimal (sgn := []) (w := ['5']) (f := ['0']) (ex := []) (.inl ⟨rfl, rfl⟩) (by unfold Row IsDigit; decide) (by unfold Row IsDigit; decide) (.inl ⟨rfl, rfl⟩)
    (.inl ⟨'5', [], rfl, by unfold IsDigit; decide⟩)
  convert this using 3
  · decide
  rw [show number (plainDigits (['5'] ++ ['0'])) = 50 by decide +kernel, show (plainDigits ['0']).length = 1 by decide]
  norm_num

/-- C222: a reference magnitude is not the same number given as a whole one; such a file is outside the model. -/
example : "reference_magnitude".toList ∉ decimalKeys ∧ recurrenceOf [("reference_magnitude".toList, "5".toList)] = none ∧ (recurrenceOf [("reference_magnitude".toList, "5.0".toList)]).isSome := by
  decide +kernel

/-- C222: the two spellings of a small file differ, and it is read alike. -/
example : respelled222 (.map [("a".toList, "0.1".toList), ("b".toList, "100".toList), ("c".toList, "True".toList)]) = .map [("a".toList, "1.0e-1".toList), ("b".toList, "0x64".toList), ("c".toList, "yes".toList)] := by
  decide +kernel

end Verif.Yaml
