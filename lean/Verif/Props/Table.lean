import Verif.Model.Workflow
import Verif.Lemmas.Format

/-!
# C32: the completeness table survives storing
-/

namespace Verif.Table

open Verif Verif.EqCatalog Verif.Format

variable {K : Type} [Field K] [LinearOrder K] [IsStrictOrderedRing K] [FloorRing K]

/-- Characters of a number in a stored table. -/
def Plain (c : Char) : Prop := isWs c = false ∧ c ≠ ',' ∧ c ≠ '#'

theorem plain_of_digit {c : Char} (h : IsDigit c) : Plain c :=
  ⟨numChar_not_ws (.inl h), ne_of_isDigit h (by unfold IsDigit; decide), ne_of_isDigit h (by unfold IsDigit; decide)⟩

theorem plain_not_blank {c : Char} (h : Plain c) : isBlank c = false := by
  have h' := h.1
  cases hb : isBlank c with
  | false => rfl
  | true =>
    simp only [isBlank, Bool.or_eq_true, decide_eq_true_eq] at hb
    rcases hb with (rfl | rfl) | rfl <;> exact absurd h' (by decide)

/-- A text without carriage returns is read as it is. -/
theorem universal_id : ∀ t : Text, (∀ c ∈ t, c ≠ '\r') → universal t = t
  | [], _ => rfl
  | [c], h => by rw [universal, if_neg (h c (by simp))]
  | c :: d :: t, h => by rw [universal, if_neg (h c (by simp)), universal_id (d :: t) (fun x hx => h x (by simp [hx]))]

theorem fmt5_shape (x : K) : ∃ n u, fmt5 x = List.replicate n ' ' ++ u ∧ u ≠ [] ∧ ∀ c ∈ u, Plain c := by
  have hf : ∀ c ∈ fixedText (rintK (|x| * 10 ^ 5)).toNat 5, Plain c := by
    intro c hc
    rcases fixed_chars _ _ c hc with h | rfl
    · exact plain_of_digit h
    · exact ⟨by decide, by decide, by decide⟩
  obtain ⟨c, cs, hh, -⟩ := fixed_head (rintK (|x| * 10 ^ 5)).toNat 5
  unfold fmt5
  by_cases hx : x < 0
  · refine ⟨_, '-' :: fixedText (rintK (|x| * 10 ^ 5)).toNat 5, by simp only [hx, if_true]; rfl, by simp, ?_⟩
    intro c hc
    rcases List.mem_cons.1 hc with rfl | hc
    · exact ⟨by decide, by decide, by decide⟩
    · exact hf c hc
  · exact ⟨_, fixedText (rintK (|x| * 10 ^ 5)).toNat 5, by simp only [hx, if_false]; rfl, by rw [hh]; simp, hf⟩

omit [FloorRing K] [IsStrictOrderedRing K] [LinearOrder K] [Field K] in
theorem lines_append (l t : Text) (h : ∀ c ∈ l, c ≠ '\n') : lines (l ++ '\n' :: t) = l :: lines t := by
  induction l with
  | nil => simp [lines]
  | cons c cs ih =>
    have hc : c ≠ '\n' := h c (by simp)
    rw [List.cons_append, lines, if_neg hc, ih (fun c hc => h c (by simp [hc]))]

theorem strip_row (n : ℕ) (u v : Text) (hu : u ≠ []) (hv : v ≠ []) (hup : ∀ c ∈ u, Plain c) (hvp : ∀ c ∈ v, Plain c) (w : Text) :
    stripBlank (List.replicate n ' ' ++ u ++ ',' :: (w ++ v)) = u ++ ',' :: (w ++ v) := by
  unfold stripBlank
  rw [List.append_assoc, dropWhile_all_append _ _ (by
    intro c hc
    rw [List.mem_replicate] at hc
    rw [hc.2]; decide)]
  obtain ⟨a, as, rfl⟩ := List.exists_cons_of_ne_nil hu
  have h1 : ∀ t, List.dropWhile isBlank ((a :: as) ++ t) = (a :: as) ++ t := by
    intro t
    rw [List.cons_append, List.dropWhile_cons, plain_not_blank (hup a (by simp))]
    simp
  rw [h1]
  obtain ⟨b, bs, hb⟩ := List.exists_cons_of_ne_nil (List.reverse_ne_nil_iff.2 hv)
  have hbv : b ∈ v := by rw [← List.mem_reverse, hb]; simp
  have h2 : ((a :: as) ++ ',' :: (w ++ v)).reverse = b :: (bs ++ w.reverse ++ ',' :: (a :: as).reverse) := by
    rw [List.reverse_append, List.reverse_cons, List.reverse_append, hb]
    simp
  rw [h2, List.dropWhile_cons, plain_not_blank (hvp b hbv)]
  simp only [Bool.false_eq_true, if_false]
  rw [← h2, List.reverse_reverse]

/-- A stored row is split into its two numbers. -/
theorem split_row (a b : K) : ∃ s t, splitLine (fmt5 a ++ ',' :: fmt5 b) = [s, t] ∧ pyFloat s = some (rnd5 a) ∧ pyFloat t = some (rnd5 b) := by
  obtain ⟨n, u, ha, hu, hup⟩ := fmt5_shape a
  obtain ⟨m, v, hb, hv, hvp⟩ := fmt5_shape b
  have hblank : ∀ k, ∀ c ∈ List.replicate k ' ', c = ' ' := fun k c hc => (List.mem_replicate.1 hc).2
  have hhash : (fmt5 a ++ ',' :: fmt5 b).takeWhile (· ≠ '#') = fmt5 a ++ ',' :: fmt5 b := by
    rw [← List.append_nil (fmt5 a ++ ',' :: fmt5 b), takeWhile_all_append _ []]
    · simp
    intro c hc
    rw [ha, hb] at hc
    simp only [List.mem_append, List.mem_cons] at hc
    rw [decide_eq_true_eq]
    rcases hc with (hc | hc) | rfl | hc | hc
    · rw [hblank _ c hc]; decide
    · exact (hup c hc).2.2
    · decide
    · rw [hblank _ c hc]; decide
    · exact (hvp c hc).2.2
  refine ⟨u, List.replicate m ' ' ++ v, ?_, ?_, ?_⟩
  · unfold splitLine
    simp only [hhash]
    rw [ha, hb, strip_row n u v hu hv hup hvp, if_neg (by simp), List.splitOn_eq_splitOnP,
      List.splitOnP_append_cons_of_forall_mem (fun c hc => by simpa using (hup c hc).2.1) _ (by simp),
      List.splitOnP_eq_singleton]
    intro c hc
    rw [List.mem_append] at hc
    rcases hc with hc | hc
    · rw [hblank _ c hc]; decide
    · simpa using (hvp c hc).2.1
  · rw [← pyFloat_fmt5 a]
    apply pyFloat_congr
    rw [ha, strip_left _ _ (fun c hc => (hup c hc).1), strip_eq _ (fun c hc => (hup c hc).1)]
  · rw [← pyFloat_fmt5 b, hb]

theorem saved_lines (t : List (K × K)) : lines (saveTable fmt5 t) = t.map (fun r => fmt5 r.1 ++ ',' :: fmt5 r.2) := by
  have nonl : ∀ x : K, ∀ c ∈ fmt5 x, c ≠ '\n' := by
    intro x c hc
    obtain ⟨n, u, hx, -, hu⟩ := fmt5_shape x
    rw [hx, List.mem_append] at hc
    rcases hc with hc | hc
    · rw [(List.mem_replicate.1 hc).2]; decide
    · rintro rfl
      exact absurd (hu _ hc).1 (by decide)
  induction t with
  | nil => rfl
  | cons r t ih =>
    have : saveTable fmt5 (r :: t) = (fmt5 r.1 ++ ',' :: fmt5 r.2) ++ '\n' :: saveTable fmt5 t := by
      simp [saveTable, saveRow]
    rw [this, lines_append, ih, List.map_cons]
    intro c hc
    simp only [List.mem_append, List.mem_cons] at hc
    rcases hc with hc | rfl | hc
    · exact nonl _ c hc
    · decide
    · exact nonl _ c hc

theorem saved_universal (t : List (K × K)) : universal (saveTable fmt5 t) = saveTable fmt5 t := by
  have nocr : ∀ x : K, ∀ c ∈ fmt5 x, c ≠ '\r' := by
    intro x c hc
    obtain ⟨n, u, hx, -, hu⟩ := fmt5_shape x
    rw [hx, List.mem_append] at hc
    rcases hc with hc | hc
    · rw [(List.mem_replicate.1 hc).2]; decide
    · rintro rfl
      exact absurd (hu _ hc).1 (by decide)
  apply universal_id
  intro c hc
  unfold saveTable saveRow at hc
  obtain ⟨r, -, hc⟩ := List.mem_flatMap.1 hc
  simp only [List.mem_append, List.mem_cons, List.not_mem_nil, or_false] at hc
  rcases hc with (hc | rfl | hc) | rfl
  · exact nocr _ c hc
  · decide
  · exact nocr _ c hc
  · decide

omit [FloorRing K] [IsStrictOrderedRing K] [LinearOrder K] [Field K] in
theorem reshape2_pairs (t : List (K × K)) : reshape2 (t.flatMap (fun r => [r.1, r.2])) = .ok t := by
  induction t with
  | nil => rfl
  | cons r t ih =>
    rw [List.flatMap_cons]
    show (reshape2 (t.flatMap (fun r => [r.1, r.2])) >>= fun r' => Except.ok ((r.1, r.2) :: r')) = _
    rw [ih]
    rfl

/-- **C32**: a stored table with at least one row, one row included, is read back as a table of the same shape with every entry rounded to five decimals. -/
theorem C32_round_trip (nan : K) (t : List (K × K)) (h : t ≠ []) :
    loadTable pyFloat nan (saveTable fmt5 t) = .ok (t.map (fun r => (rnd5 r.1, rnd5 r.2))) := by
  have key : List.Forall₂ (fun (r : K × K) (l : List Text) => l.length = 2 ∧ l.map (loose pyFloat nan) = [rnd5 r.1, rnd5 r.2]) t
      ((lines (saveTable fmt5 t)).map splitLine) := by
    rw [saved_lines, List.map_map, List.forall₂_map_right_iff, List.forall₂_same]
    intro r _
    obtain ⟨a, b, hs, ha, hb⟩ := split_row r.1 r.2
    simp only [Function.comp, hs]
    exact ⟨rfl, by simp [loose, ha, hb]⟩
  have hfl : ∀ (t : List (K × K)) (ls : List (List Text)),
      List.Forall₂ (fun (r : K × K) (l : List Text) => l.length = 2 ∧ l.map (loose pyFloat nan) = [rnd5 r.1, rnd5 r.2]) t ls →
      ls.filter (fun r => r ≠ []) = ls ∧ ls.flatten.map (loose pyFloat nan) = (t.map (fun r => (rnd5 r.1, rnd5 r.2))).flatMap (fun r => [r.1, r.2])
        ∧ ∀ l ∈ ls, l.length = 2 := by
    intro t ls H
    induction H with
    | nil => simp
    | cons h _ ih =>
      refine ⟨?_, ?_, ?_⟩
      · rw [List.filter_cons, if_pos, ih.1]
        rw [decide_eq_true_eq]
        rintro rfl
        simp at h
      · simp only [List.flatten_cons, List.map_append, h.2, ih.2.1, List.map_cons, List.flatMap_cons]
      · intro l hl
        rcases List.mem_cons.1 hl with rfl | hl
        · exact h.1
        · exact ih.2.2 l hl
  obtain ⟨h1, h2, h3⟩ := hfl _ _ key
  unfold loadTable genFromTxt
  rw [saved_universal, h1]
  generalize hls : (lines (saveTable fmt5 t)).map splitLine = ls at *
  cases ls with
  | nil => cases key; exact absurd rfl h
  | cons r rs =>
    simp only
    rw [if_pos (by
      rw [List.all_eq_true]
      intro q hq
      rw [decide_eq_true_eq, h3 q (by simp [hq]), h3 r (by simp)]), h2]
    show reshape2 _ = _
    rw [reshape2_pairs]

/-- **C32**: the entries differ from the original ones by at most 0.000005. -/
theorem C32_error (nan : K) (t u : List (K × K)) (h : t ≠ []) (hl : loadTable pyFloat nan (saveTable fmt5 t) = .ok u) :
    List.Forall₂ (fun a b => |b.1 - a.1| ≤ 5 / 10 ^ 6 ∧ |b.2 - a.2| ≤ 5 / 10 ^ 6) t u := by
  rw [C32_round_trip nan t h, Except.ok.injEq] at hl
  rw [← hl, List.forall₂_map_right_iff, List.forall₂_same]
  exact fun r _ => ⟨rnd5_error _, rnd5_error _⟩

/-- **C32**: storing the table read back and reading it again changes nothing. -/
theorem C32_stable (nan : K) (t u : List (K × K)) (h : t ≠ []) (hl : loadTable pyFloat nan (saveTable fmt5 t) = .ok u) :
    loadTable pyFloat nan (saveTable fmt5 u) = .ok u := by
  rw [C32_round_trip nan t h, Except.ok.injEq] at hl
  have hu : u ≠ [] := by rw [← hl]; simpa using h
  rw [C32_round_trip nan u hu, ← hl, List.map_map]
  congr 2
  funext r
  simp only [Function.comp, rnd5_rnd5]

/-- An empty table cannot be read back. -/
theorem C32_empty (nan : K) : loadTable pyFloat nan (saveTable fmt5 ([] : List (K × K))) = .error .ioError := rfl

/-- A number with at most five decimals is stored exactly. -/
theorem rnd5_exact (z : ℤ) : rnd5 ((z : K) / 10 ^ 5) = (z : K) / 10 ^ 5 := by
  unfold rnd5
  have h1 : |(z : K) / 10 ^ 5| * 10 ^ 5 = ((|z| : ℤ) : K) := by
    rw [abs_div, abs_of_pos (by positivity : (0 : K) < 10 ^ 5), div_mul_cancel₀ _ (by positivity), Int.cast_abs]
  rw [h1, rintK_int, Int.cast_abs]
  by_cases hz : (z : K) < 0
  · rw [if_pos (div_neg_of_neg_of_pos hz (by positivity)), abs_of_neg hz]
    ring
  · rw [if_neg (not_lt.2 (div_nonneg (not_lt.1 hz) (by positivity))), abs_of_nonneg (not_lt.1 hz), one_mul]

/-- Years are whole numbers, so a table whose magnitudes have at most five decimals survives exactly. -/
theorem C32_exact (nan : K) (t : List (K × K)) (h : t ≠ []) (he : ∀ r ∈ t, (∃ z : ℤ, r.1 = z / 10 ^ 5) ∧ ∃ z : ℤ, r.2 = z / 10 ^ 5) :
    loadTable pyFloat nan (saveTable fmt5 t) = .ok t := by
  rw [C32_round_trip nan t h]
  congr 1
  conv_rhs => rw [← List.map_id t]
  apply List.map_congr_left
  intro r hr
  obtain ⟨⟨y, hy⟩, ⟨m, hm⟩⟩ := he r hr
  rw [hy, hm, rnd5_exact, rnd5_exact, ← hy, ← hm]
  rfl

/-- A table of two rows. -/
example : loadTable (F := ℚ) pyFloat 0 (saveTable fmt5 [((1990 : ℚ), (4.25 : ℚ)), (1960, 5)]) = .ok [(1990, 4.25), (1960, 5)] := by
  apply C32_exact _ _ (by simp)
  intro r hr
  simp only [List.mem_cons, List.not_mem_nil, or_false] at hr
  rcases hr with rfl | rfl
  · exact ⟨⟨199000000, by norm_num⟩, ⟨425000, by norm_num⟩⟩
  · exact ⟨⟨196000000, by norm_num⟩, ⟨500000, by norm_num⟩⟩

end Verif.Table

namespace Verif.Workflow

open Verif Verif.EqCatalog Verif.Format

/-- **C32** for the jobs: the table left by the store job is the one the retrieve job puts into the context of a later run. -/
theorem C32_jobs (x : Ext ℝ) (cfg : Config ℝ) (path : Text) (w w1 w2 : World ℝ) (t : List (ℝ × ℝ)) (ht : t ≠ [])
    (hfmt : x.fmt5 = fmt5) (hfl : x.nums.float = pyFloat) (hp : cfg.completenessTableFile = some path)
    (hw : w.ctx.completenessTable = some t) (h1 : storeCompletenessTableJob x cfg w = .ok w1) (hfs : w2.fs path = w1.fs path) :
    retrieveCompletenessTableJob x cfg w2 =
      .ok { w2 with ctx := { w2.ctx with completenessTable := some (t.map (fun r => (rnd5 r.1, rnd5 r.2))) } } := by
  have hf : w1.fs path = some (.text (Table.saveTable fmt5 t)) := by
    unfold storeCompletenessTableJob at h1
    simp only [hp, hw, notNone, hfmt, openWrite, bind, Except.bind] at h1
    split at h1
    · cases h1
    · cases h1
      simp [World.write]
  unfold retrieveCompletenessTableJob
  simp only [hp, notNone, hfs, hf, hfl, Table.C32_round_trip x.nan t ht, bind, Except.bind]

end Verif.Workflow
