import Verif.Model.SpecialFloat
import Verif.Props.EqCatalog
import Verif.Props.NumberText
import Verif.Props.UsedEvents

/-!
# C143, C144: values that are not ordinary numbers

The texts `nan` and `inf` are numbers for `float`, and `0 / 0` is NaN in numpy.
-/

namespace Verif

namespace XNum
variable {K : Type} [LinearOrder K]

@[simp] theorem not_le_nan (x : XNum K) : ¬ x ≤ nan := by rcases x with _ | _ | _ <;> exact id
@[simp] theorem not_nan_le (x : XNum K) : ¬ nan ≤ x := by rcases x with _ | _ | _ <;> exact id
@[simp] theorem not_lt_nan (x : XNum K) : ¬ x < nan := by rcases x with _ | _ | _ <;> exact id
@[simp] theorem not_nan_lt (x : XNum K) : ¬ nan < x := by rcases x with _ | _ | _ <;> exact id
@[simp] theorem fin_le (x y : K) : (fin x ≤ fin y) ↔ x ≤ y := Iff.rfl
@[simp] theorem fin_lt (x y : K) : (fin x < fin y) ↔ x < y := Iff.rfl

/-- Only ordinary numbers lie between two ordinary numbers. -/
theorem between {a b : K} {x : XNum K} (h1 : fin a ≤ x) (h2 : x ≤ fin b) : ∃ q, x = fin q ∧ a ≤ q ∧ q ≤ b := by
  rcases x with q | s | _
  · exact ⟨q, rfl, h1, h2⟩
  · have h1 : s = false := h1
    have h2 : s = true := h2
    rw [h1] at h2
    cases h2
  · exact absurd h1 (not_le_nan _)

theorem beq_self (x : XNum K) : beq x x = false ↔ x = nan := by
  rcases x with q | s | _ <;> simp [beq]

end XNum

namespace EqCatalog
open Format

/-- The reader with `float` of Python. -/
def xEnv (year : Int) : Env (XNum ℚ) := ⟨Text.pyInt, pyFloatX, year⟩

/-- The row of the examples with `nan` as magnitude. -/
def nanRow : List Text := exRow.set 17 "nan".toList

/-- The row of the examples with `inf` as depth. -/
def infRow : List Text := exRow.set 15 "inf".toList

/-- Property C143: position, depth and magnitude of a delivered entry are ordinary numbers. -/
def Spec.Ordinary {K : Type} (e : Entry (XNum K)) : Prop :=
  ∀ f ∈ [Fld.longitude, .latitude, .depth, .mw], ∃ q, e f = .flt (.fin q)

/-- **C143** fails: a row with the magnitude `nan` is accepted. -/
theorem C143_fails : ¬ ∀ (ord : DictOrder) (line : Nat) (cells : List Text) (e : Entry (XNum ℚ)),
    readRow (xEnv 2012) ord line cells = .ok e → Spec.Ordinary e := by
  intro hall
  have hacc : (readRow (xEnv 2012) cpythonOrder 2 nanRow).map (fun e => e .mw) = .ok (.flt .nan) := by decide +kernel
  cases hr : readRow (xEnv 2012) cpythonOrder 2 nanRow with
  | error err => rw [hr] at hacc; simp [Except.map] at hacc
  | ok e =>
    rw [hr] at hacc
    simp only [Except.map, Except.ok.injEq] at hacc
    obtain ⟨q, hq⟩ := hall _ _ _ e hr .mw (by simp)
    rw [hacc] at hq
    cases hq

/-- The depth `inf` is accepted too. -/
theorem C143_depth_fails : ∃ (ord : DictOrder) (e : Entry (XNum ℚ)), readRow (xEnv 2012) ord 2 infRow = .ok e ∧ e .depth = .flt (.inf false) := by
  have hacc : (readRow (xEnv 2012) cpythonOrder 2 infRow).map (fun e => e .depth) = .ok (.flt (.inf false)) := by decide +kernel
  cases hr : readRow (xEnv 2012) cpythonOrder 2 infRow with
  | error err => rw [hr] at hacc; simp [Except.map] at hacc
  | ok e =>
    rw [hr] at hacc
    simp only [Except.map, Except.ok.injEq] at hacc
    exact ⟨_, e, hr, hacc⟩

variable {K : Type} [Field K] [LinearOrder K] [FloorRing K]

/-- **C143** (what holds): longitude and latitude are ordinary numbers in their ranges, the depth is a positive number or infinite. -/
theorem C143_position_partial (env : Env (XNum K)) (ord : DictOrder) (line : Nat) (cells : List Text) (e : Entry (XNum K))
    (h : readRow env ord line cells = .ok e) :
    (∃ q : K, e .longitude = .flt (.fin q) ∧ -180 ≤ q ∧ q ≤ 180) ∧ (∃ q : K, e .latitude = .flt (.fin q) ∧ -90 ≤ q ∧ q ≤ 90) ∧
      ((∃ q : K, e .depth = .flt (.fin q) ∧ 0 < q) ∨ e .depth = .flt (.inf false)) := by
  have hr := C02_accepted_ranges env ord line cells e h
  obtain ⟨x, hx, h1, h2⟩ := hr.longitude
  obtain ⟨y, hy, h3, h4⟩ := hr.latitude
  obtain ⟨z, hz, h5⟩ := hr.depth
  obtain ⟨q, rfl, a1, a2⟩ := XNum.between h1 h2
  obtain ⟨r, rfl, b1, b2⟩ := XNum.between h3 h4
  refine ⟨⟨q, hx, by simpa using a1, by simpa using a2⟩, ⟨r, hy, by simpa using b1, by simpa using b2⟩, ?_⟩
  rcases z with q | s | _
  · have h5' : ((0 : ℤ) : K) < q := h5
    exact .inl ⟨q, hz, by simpa using h5'⟩
  · have : s = false := h5
    rw [this] at hz
    exact .inr hz
  · exact absurd h5 (XNum.not_lt_nan _)

omit [FloorRing K]

omit [LinearOrder K] in
/-- The characters of a decimal literal. -/
theorem literal_chars {t : Text} {v : K} (h : Format.Spec.Literal t v) : ∀ c ∈ t, c.toLower ≠ 'n' := by
  have low : ∀ c : Char, c.toNat < 65 → c.toLower = c := by
    intro c hc
    unfold Char.toLower
    rw [dif_neg]
    intro hh
    have h1 : (65 : ℕ) ≤ c.toNat := by exact_mod_cast UInt32.le_iff_toNat_le.1 hh.1
    omega
  have hdig : ∀ ds, Format.Spec.Digits ds → ∀ c ∈ ds, c.toLower ≠ 'n' := by
    intro ds hds c hc
    have h9 : c.toNat ≤ 57 := by exact_mod_cast UInt32.le_iff_toNat_le.1 (hds c hc).2
    rw [low c (by omega)]
    rintro rfl
    revert h9
    decide
  have hsp : ∀ ds, Format.Spec.Space ds → ∀ c ∈ ds, c.toLower ≠ 'n' := by
    intro ds hds c hc
    have := hds c hc
    simp only [List.mem_cons, List.not_mem_nil, or_false] at this
    rcases this with rfl | rfl | rfl | rfl | rfl | rfl <;> decide
  have hsg : ∀ ds s, Format.Spec.Sign ds s → ∀ c ∈ ds, c.toLower ≠ 'n' := by
    rintro ds s (⟨rfl, -⟩ | ⟨rfl, -⟩ | ⟨rfl, -⟩) c hc <;> simp at hc <;> subst hc <;> decide
  obtain ⟨pre, sgn, whole, point, frac, ex, post, s, e, rfl, h1, h2, h3, h4, h5, h6, -, h7, -⟩ := h
  intro c hc
  simp only [List.mem_append] at hc
  rcases hc with (((((hc | hc) | hc) | hc) | hc) | hc) | hc
  · exact hsp _ h1 c hc
  · exact hsg _ _ h3 c hc
  · exact hdig _ h4 c hc
  · rcases h6 with rfl | ⟨rfl, -⟩ <;> simp at hc
    subst hc
    decide
  · exact hdig _ h5 c hc
  · rcases h7 with ⟨rfl, -⟩ | ⟨l, sg, s', ds, hl, hs, hd, -, rfl, -⟩
    · simp at hc
    · simp only [List.cons_append, List.mem_cons, List.mem_append] at hc
      rcases hc with rfl | hc | hc
      · rcases hl with rfl | rfl <;> decide
      · exact hsg _ _ hs c hc
      · exact hdig _ hd c hc
  · exact hsp _ h2 c hc

omit [Field K] [LinearOrder K] in
theorem special_none {t : Text} (h : ∀ c ∈ t, c.toLower ≠ 'n') : special (K := K) t = none := by
  have key : ∀ w : Text, 'n' ∈ w → t.map Char.toLower ≠ w := by
    rintro w hw rfl
    obtain ⟨c, hc, he⟩ := List.mem_map.1 hw
    exact h c hc he
  unfold special
  rw [if_neg (key _ (by decide)), if_neg]
  rintro (h1 | h1)
  · exact key _ (by decide) h1
  · exact key _ (by decide) h1

/-- `float` gives an ordinary number exactly for the decimal literals. -/
theorem pyFloatX_fin (t : Text) (q : K) : pyFloatX t = some (.fin q) ↔ Format.Spec.Literal t q := by
  rw [← Format.C140_read]
  have hs : ∀ ds : Text, special (K := K) ds ≠ some (.fin q) := by
    intro ds
    unfold special
    split_ifs <;> simp
  have hn : ∀ ds : Text, (special (K := K) ds).map XNum.neg ≠ some (.fin q) := by
    intro ds
    unfold special
    split_ifs <;> simp [XNum.neg]
  constructor
  · intro h
    unfold pyFloatX at h
    split at h
    · rename_i x hx
      cases h
      unfold signedSpecial at hx
      split at hx
      · exact absurd hx (hn _)
      · exact absurd hx (hs _)
      · exact absurd hx (hs _)
    · simpa using h
  · intro h
    have hl := literal_chars ((Format.C140_read t q).1 h)
    have hst : ∀ c ∈ strip t, c.toLower ≠ 'n' := by
      intro c hc
      refine hl c ?_
      unfold strip at hc
      rw [List.mem_reverse] at hc
      have := List.mem_reverse.1 ((List.dropWhile_sublist _).mem hc)
      exact (List.dropWhile_sublist _).mem this
    unfold pyFloatX
    have : signedSpecial (K := K) (strip t) = none := by
      unfold signedSpecial
      split
      · rename_i ds he
        rw [special_none fun c hc => hst c (by rw [he]; simp [hc])]
        rfl
      · rename_i ds he
        exact special_none fun c hc => hst c (by rw [he]; simp [hc])
      · exact special_none hst
    rw [this, h]
    rfl

variable [FloorRing K]

/-- **C143** (what holds): the magnitude is an ordinary number exactly when its text is a decimal literal, and is the value of the literal. -/
theorem C143_magnitude_partial (int : Text → Option Int) (year : Int) (ord : DictOrder) (line : Nat) (cells : List Text) (e : Entry (XNum K))
    (h : readRow ⟨int, pyFloatX, year⟩ ord line cells = .ok e) (q : K) :
    e .mw = .flt (.fin q) ↔ ∃ t, cells[17]? = some t ∧ Format.Spec.Literal t q := by
  obtain ⟨e1, ⟨-, hc, -⟩, rfl⟩ := (readRow_ok' ..).mp h
  obtain ⟨s, x, hs, hx, hv⟩ := (conv1_float_comp ⟨int, pyFloatX, year⟩ line .mw rfl rfl cells 17 rfl (e1 .mw)).mp (hc .mw)
  rw [foldl_chkStep_mem _ _ e1 .mw rfl (ord.nodup _) (ord.mem _ _)]
  have he : sanit Fld.mw (e1 .mw) = e1 .mw := rfl
  rw [he, hv, hs]
  simp only [Val.flt.injEq, Option.some.injEq, exists_eq_left']
  rw [← pyFloatX_fin]
  simp only at hx
  rw [hx]
  simp

end EqCatalog

namespace Np
variable {K : Type} [Field K] [LinearOrder K] [FloorRing K]

theorem minimum_nan (a y : XNum K) : minimum a y = .nan ↔ a = .nan ∨ y = .nan := by
  unfold minimum
  have hb : PyNum.decEq a a = false ↔ a = .nan := XNum.beq_self a
  split_ifs with h
  · rw [hb] at h
    constructor
    · exact .inl
    · rintro (h1 | rfl)
      · exact h1
      · exact h.resolve_left (XNum.not_le_nan _)
  · rw [hb] at h
    constructor
    · exact .inr
    · exact fun h1 => h1.resolve_left fun h2 => h (.inr h2)

theorem npMin_nan {l : List (XNum K)} {m : XNum K} (h : npMin l = .ok m) : m = .nan ↔ .nan ∈ l := by
  rcases l with _ | ⟨x, l⟩
  · cases h
  · obtain rfl : l.foldl minimum x = m := by simpa [npMin] using h
    clear h
    induction l generalizing x with
    | nil => simp [eq_comm]
    | cons y l ih =>
      rw [List.foldl_cons, ih]
      simp only [List.mem_cons]
      rw [eq_comm (a := XNum.nan), minimum_nan]
      constructor
      · rintro ((h | h) | h) <;> simp [h]
      · rintro (h | h | h)
        · exact .inl (.inl h.symm)
        · exact .inl (.inr h.symm)
        · exact .inr h

end Np
end Verif
