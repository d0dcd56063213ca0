import Verif.Spec.EqCatalog
import Mathlib.Data.List.TakeWhile

/-! Helper lemmas for the header check. -/

namespace Verif.EqCatalog

open Verif Spec

theorem isWs_iff (c : Char) : isWs c = true ↔ c ∈ [' ', '\t', '\n', '\r', '\x0b', '\x0c'] := by
  simp [isWs, or_assoc]

theorem blanks_iff (t : Text) : Blanks t ↔ ∀ c ∈ t, isWs c = true := by
  unfold Blanks
  simp only [isWs_iff]

theorem dropWhile_append_of_all {p : Char → Bool} (a l : Text) (ha : ∀ c ∈ a, p c = true) :
    (a ++ l).dropWhile p = l.dropWhile p := by
  induction a with
  | nil => rfl
  | cons c a ih =>
    simp only [List.mem_cons, forall_eq_or_imp] at ha
    simp [List.dropWhile_cons, ha.1, ih ha.2]

theorem dropWhile_of_head {p : Char → Bool} (l m : Text) (h : ∀ c ∈ l, p c = false) (hl : l ≠ []) :
    (l ++ m).dropWhile p = l ++ m := by
  cases l with
  | nil => exact absurd rfl hl
  | cons c l =>
    simp only [List.mem_cons, forall_eq_or_imp] at h
    simp [List.dropWhile_cons, h.1]

theorem strip_pad (a w b : Text) (ha : Blanks a) (hb : Blanks b) (hw : ∀ c ∈ w, isWs c = false) (hne : w ≠ []) :
    strip (a ++ w ++ b) = w := by
  rw [blanks_iff] at ha hb
  unfold strip
  rw [List.append_assoc, dropWhile_append_of_all a _ ha, dropWhile_of_head w b hw hne]
  rw [List.reverse_append, dropWhile_append_of_all b.reverse _ (by simpa using hb)]
  have := dropWhile_of_head (p := isWs) w.reverse [] (by simpa using hw) (by simpa using hne)
  rw [List.append_nil] at this
  rw [this, List.reverse_reverse]

theorem strip_decomp (t : Text) : ∃ a b, Blanks a ∧ Blanks b ∧ t = a ++ strip t ++ b := by
  refine ⟨t.takeWhile isWs, (((t.dropWhile isWs).reverse).takeWhile isWs).reverse, ?_, ?_, ?_⟩
  · rw [blanks_iff]; intro c hc; exact List.mem_takeWhile_imp hc
  · rw [blanks_iff]; intro c hc; rw [List.mem_reverse] at hc; exact List.mem_takeWhile_imp hc
  · unfold strip
    have h1 : (t.dropWhile isWs) =
        (((t.dropWhile isWs).reverse.dropWhile isWs)).reverse ++ (((t.dropWhile isWs).reverse).takeWhile isWs).reverse := by
      rw [← List.reverse_append, List.takeWhile_append_dropWhile, List.reverse_reverse]
    rw [List.append_assoc, ← h1, List.takeWhile_append_dropWhile]

/-- Mapping `strip` over pieces gives the names exactly when the pieces are padded names. -/
theorem map_strip_eq (ts ws : List Text) (hw : ∀ w ∈ ws, w ≠ [] ∧ ∀ c ∈ w, isWs c = false) :
    ts.map strip = ws ↔
      ∃ pads : List (Text × Text), pads.length = ws.length ∧ (∀ p ∈ pads, Blanks p.1 ∧ Blanks p.2) ∧
        ts = List.zipWith (fun p w => p.1 ++ w ++ p.2) pads ws := by
  induction ws generalizing ts with
  | nil =>
    simp only [List.map_eq_nil_iff, List.zipWith_nil_right, List.length_nil, List.length_eq_zero_iff]
    constructor
    · rintro rfl; exact ⟨[], rfl, by simp, rfl⟩
    · rintro ⟨pads, _, _, h⟩; exact h
  | cons w ws ih =>
    simp only [List.mem_cons, forall_eq_or_imp] at hw
    constructor
    · intro h
      cases ts with
      | nil => simp at h
      | cons t ts =>
        simp only [List.map_cons, List.cons.injEq] at h
        obtain ⟨pads, h1, h2, h3⟩ := (ih ts hw.2).mp h.2
        obtain ⟨a, b, ha, hb, hab⟩ := strip_decomp t
        refine ⟨(a, b) :: pads, by simp [h1], ?_, ?_⟩
        · simp only [List.mem_cons, forall_eq_or_imp]; exact ⟨⟨ha, hb⟩, h2⟩
        · rw [h.1] at hab
          simp only [List.zipWith_cons_cons, ← hab, h3]
    · rintro ⟨pads, h1, h2, rfl⟩
      cases pads with
      | nil => simp at h1
      | cons p pads =>
        simp only [List.mem_cons, forall_eq_or_imp] at h2
        simp only [List.zipWith_cons_cons, List.map_cons, List.cons.injEq]
        refine ⟨strip_pad _ _ _ h2.1.1 h2.1.2 hw.1.2 hw.1.1, ?_⟩
        exact (ih _ hw.2).mpr ⟨pads, by simpa using h1, h2.2, rfl⟩

theorem readline_spec (file : Text) : FirstLine file (readline file).1 (readline file).2 := by
  induction file with
  | nil => exact ⟨rfl, Or.inr ⟨by simp [readline], rfl⟩⟩
  | cons c cs ih =>
    unfold readline
    by_cases hc : c = '\n'
    · subst hc
      simp only [if_true]
      exact ⟨rfl, Or.inl ⟨[], rfl, by simp⟩⟩
    · simp only [if_neg hc]
      obtain ⟨h1, h2⟩ := ih
      refine ⟨by rw [List.cons_append, ← h1], ?_⟩
      rcases h2 with ⟨l, hl, hn⟩ | ⟨hn, hr⟩
      · left; exact ⟨c :: l, by rw [hl]; rfl, by simp [hn]; exact fun h => hc h.symm⟩
      · right; exact ⟨by simp [hn]; exact fun h => hc h.symm, hr⟩

theorem firstLine_unique {file l r l' r' : Text} (h : FirstLine file l r) (h' : FirstLine file l' r') :
    l = l' ∧ r = r' := by
  have key : ∀ (l l' r r' : Text), '\n' ∉ l → '\n' ∉ l' → l ++ '\n' :: r = l' ++ '\n' :: r' → l = l' ∧ r = r' := by
    intro l
    induction l with
    | nil =>
      intro l' r r' _ h2 he
      cases l' with
      | nil => simpa using he
      | cons c l' => simp at he h2; exact absurd he.1 h2.1
    | cons c l ih =>
      intro l' r r' h1 h2 he
      cases l' with
      | nil => simp at he h1; exact absurd he.1.symm h1.1
      | cons c' l' =>
        simp at he h1 h2
        obtain ⟨a, b⟩ := ih l' r r' h1.2 h2.2 he.2
        exact ⟨by rw [he.1, a], b⟩
  obtain ⟨e1, c1⟩ := h
  obtain ⟨e2, c2⟩ := h'
  rcases c1 with ⟨m, rfl, hm⟩ | ⟨hm, rfl⟩ <;> rcases c2 with ⟨m', rfl, hm'⟩ | ⟨hm', rfl⟩
  · have := key m m' r r' hm hm' (by rw [← List.singleton_append, ← List.append_assoc, ← e1, e2]; simp)
    exact ⟨by rw [this.1], this.2⟩
  · exfalso; apply hm'
    have : l' = file := by simpa using e2.symm
    rw [this, e1]; simp
  · exfalso; apply hm
    have : l = file := by simpa using e1.symm
    rw [this, e2]; simp
  · rw [List.append_nil] at e1 e2
    exact ⟨by rw [← e1, ← e2], rfl⟩

theorem names_eq : fieldNames.map (fun f => f.name.toList) = documentedHeader.map String.toList := rfl

theorem names_ok : ∀ w ∈ documentedHeader.map String.toList, w ≠ [] ∧ (∀ c ∈ w, isWs c = false) ∧ ',' ∉ w := by
  decide

end Verif.EqCatalog
