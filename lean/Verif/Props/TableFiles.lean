import Verif.Props.Table
import Mathlib.Data.List.TakeWhile

/-!
# C153: which completeness table files can be retrieved, and what is made of them
-/

namespace Verif.Table

open Verif Verif.EqCatalog Verif.Format

namespace Spec

/-- A text seen as lines, each ended by a line feed, a carriage return or both; the last line may have no end. -/
inductive Lines : Text → List Text → Prop
  | none : Lines [] []
  | last {l : Text} : l ≠ [] → (∀ c ∈ l, c ≠ '\n' ∧ c ≠ '\r') → Lines l [l]
  | lf {l t : Text} {ls : List Text} : (∀ c ∈ l, c ≠ '\n' ∧ c ≠ '\r') → Lines t ls → Lines (l ++ '\n' :: t) (l :: ls)
  | crlf {l t : Text} {ls : List Text} : (∀ c ∈ l, c ≠ '\n' ∧ c ≠ '\r') → Lines t ls → Lines (l ++ '\r' :: '\n' :: t) (l :: ls)
  | cr {l t : Text} {ls : List Text} : (∀ c ∈ l, c ≠ '\n' ∧ c ≠ '\r') → Lines t ls → t.head? ≠ some '\n' →
      Lines (l ++ '\r' :: t) (l :: ls)

/-- Nothing, or a comment up to the end of the line. -/
def Comment (t : Text) : Prop := t = [] ∨ t.head? = some '#'

/-- The values written in one line: none in a blank or comment line, else the cells between the commas, with blanks allowed at both ends
of the line and a comment behind. -/
inductive Cells : Text → List Text → Prop
  | none {b c : Text} : (∀ x ∈ b, x = ' ') → Comment c → Cells (b ++ c) []
  | some {b e c : Text} {cells : List Text} : (∀ x ∈ b, x = ' ') → (∀ x ∈ e, x = ' ') → Comment c → cells ≠ [] →
      (∀ v ∈ cells, ∀ x ∈ v, x ≠ ',' ∧ x ≠ '#') →
      [','].intercalate cells ≠ [] → ([','].intercalate cells).head? ≠ some ' ' → ([','].intercalate cells).getLast? ≠ some ' ' →
      Cells (b ++ [','].intercalate cells ++ e ++ c) cells

/-- The file contains these rows of values, in this order; blank and comment lines are no rows. -/
def Contains (file : Text) (rows : List (List Text)) : Prop :=
  ∃ ls all, Lines file ls ∧ List.Forall₂ Cells ls all ∧ rows = all.filter (fun r => !r.isEmpty)

/-- The number of a value, NaN when it is none. -/
def number {F : Type} (float : Text → Option F) (nan : F) (v : Text) : F :=
  match float v with
  | .some x => x
  | .none => nan

/-- A file of two columns gives the table with one row per line holding its two numbers; any other file is refused. -/
def OnlyTables {F : Type} (float : Text → Option F) (load : Text → Except PyErr (List (F × F))) : Prop :=
  ∀ file rows, Contains file rows → ∀ t, load file = .ok t →
    List.Forall₂ (fun (r : List Text) (p : F × F) => ∃ a b, r = [a, b] ∧ float a = some p.1 ∧ float b = some p.2) rows t

end Spec

open Spec

theorem universal_append_lf : ∀ (l t : Text), (∀ c ∈ l, c ≠ '\n' ∧ c ≠ '\r') → universal (l ++ '\n' :: t) = l ++ '\n' :: universal t
  | [], [], _ => by simp [universal]
  | [], d :: t, _ => by rw [List.nil_append, universal, if_neg (by decide)]; rfl
  | [c], t, h => by
      rw [List.singleton_append, universal, if_neg (h c (by simp)).2]
      have := universal_append_lf [] t (by simp)
      rw [List.nil_append] at this
      rw [this]; rfl
  | c :: d :: l, t, h => by
      rw [List.cons_append, List.cons_append, universal, if_neg (h c (by simp)).2]
      have := universal_append_lf (d :: l) t (fun x hx => h x (by simp [hx]))
      rw [List.cons_append] at this
      rw [this]; rfl

theorem universal_prefix (l s : Text) (h : ∀ c ∈ l, c ≠ '\n' ∧ c ≠ '\r') : universal (l ++ s) = l ++ universal s := by
  induction l with
  | nil => rfl
  | cons c l ih =>
    have ih' := ih (fun x hx => h x (by simp [hx]))
    cases hl : l ++ s with
    | nil =>
      rw [hl] at ih'
      rw [List.cons_append, hl, universal, if_neg (h c (by simp)).2, List.cons_append, ← ih']
      simp [universal]
    | cons d t =>
      rw [hl] at ih'
      rw [List.cons_append, hl, universal, if_neg (h c (by simp)).2, ih', List.cons_append]

theorem lines_last (l : Text) (hl : l ≠ []) (h : ∀ c ∈ l, c ≠ '\n' ∧ c ≠ '\r') : lines l = [l] := by
  induction l with
  | nil => exact absurd rfl hl
  | cons c l ih =>
    rw [lines, if_neg (h c (by simp)).1]
    cases l with
    | nil => rfl
    | cons d t => rw [ih (by simp) (fun x hx => h x (by simp [hx]))]

/-- The lines of a text are what the reader sees. -/
theorem lines_eq {file : Text} {ls : List Text} (h : Lines file ls) : lines (universal file) = ls := by
  induction h with
  | none => rfl
  | @last l hl h => rw [universal_id l (fun c hc => (h c hc).2), lines_last l hl h]
  | @lf l t ls h _ ih =>
    rw [universal_append_lf l t h, lines_append _ _ (fun c hc => (h c hc).1), ih]
  | @crlf l t ls h _ ih =>
    rw [universal_prefix l _ h, universal, if_pos rfl, if_pos rfl, lines_append _ _ (fun c hc => (h c hc).1), ih]
  | @cr l t ls h _ ht ih =>
    rw [universal_prefix l _ h]
    have : universal ('\r' :: t) = '\n' :: universal t := by
      cases t with
      | nil => rfl
      | cons d t =>
        rw [universal, if_pos rfl, if_neg]
        rintro rfl
        exact ht rfl
    rw [this, lines_append _ _ (fun c hc => (h c hc).1), ih]

/-- Every text is made of lines. -/
theorem lines_exist (file : Text) : ∃ ls, Lines file ls := by
  suffices H : ∀ n, ∀ file : Text, file.length ≤ n → ∃ ls, Lines file ls from H _ file le_rfl
  intro n
  induction n with
  | zero =>
    intro file h
    rw [List.eq_nil_of_length_eq_zero (Nat.le_zero.1 h)]
    exact ⟨[], .none⟩
  | succ n ih =>
    intro file hn
    have hsplit := List.takeWhile_append_dropWhile (p := fun c => decide (c ≠ '\n' ∧ c ≠ '\r')) (l := file)
    have hpre : ∀ c ∈ file.takeWhile (fun c => decide (c ≠ '\n' ∧ c ≠ '\r')), c ≠ '\n' ∧ c ≠ '\r' :=
      fun c hc => by simpa using List.mem_takeWhile_imp hc
    cases hd : file.dropWhile (fun c => decide (c ≠ '\n' ∧ c ≠ '\r')) with
    | nil =>
      rw [hd, List.append_nil] at hsplit
      rw [hsplit] at hpre
      by_cases hf : file = []
      · exact ⟨[], hf ▸ .none⟩
      · exact ⟨[file], .last hf hpre⟩
    | cons c t =>
      have hlen : t.length ≤ n := by
        have := congrArg List.length hsplit
        rw [hd, List.length_append, List.length_cons] at this
        omega
      have hc : c = '\n' ∨ c = '\r' := by
        have := List.head_dropWhile_not (p := fun c => decide (c ≠ '\n' ∧ c ≠ '\r')) (l := file) (by rw [hd]; simp)
        simp only [hd, List.head_cons, decide_eq_false_iff_not, not_and_or, not_not] at this
        exact this
      rw [hd] at hsplit
      rw [← hsplit]
      rcases hc with rfl | rfl
      · obtain ⟨ls, hls⟩ := ih t hlen
        exact ⟨_, .lf hpre hls⟩
      · cases t with
        | nil => exact ⟨_, .cr hpre .none (by simp)⟩
        | cons d t =>
          by_cases hdn : d = '\n'
          · subst hdn
            obtain ⟨ls, hls⟩ := ih t (by rw [List.length_cons] at hlen; omega)
            exact ⟨_, .crlf hpre hls⟩
          · obtain ⟨ls, hls⟩ := ih (d :: t) hlen
            exact ⟨_, .cr hpre hls (by simpa using hdn)⟩

theorem takeWhile_comment (s c : Text) (hs : ∀ x ∈ s, x ≠ '#') (hc : Comment c) : (s ++ c).takeWhile (· ≠ '#') = s := by
  rw [takeWhile_all_append _ _ (fun x hx => by simpa using hs x hx)]
  rcases hc with rfl | hc
  · simp
  · cases c with
    | nil => simp
    | cons d t =>
      rw [List.head?_cons, Option.some.injEq] at hc
      subst hc
      simp

theorem stripBlank_blank (b : Text) (h : ∀ x ∈ b, x = ' ') : stripBlank b = [] := by
  have := dropWhile_all_append (p := isBlank) b [] (fun x hx => by rw [h x hx]; rfl)
  rw [List.append_nil] at this
  unfold stripBlank
  rw [this]
  rfl

/-- A text that neither begins nor ends with a blank is what is left of it when blanks are put around it. -/
theorem stripBlank_middle (b m e : Text) (hb : ∀ x ∈ b, x = ' ') (he : ∀ x ∈ e, x = ' ') (hm : m ≠ [])
    (h1 : ∀ x, m.head? = some x → isBlank x = false) (h2 : ∀ x, m.getLast? = some x → isBlank x = false) : stripBlank (b ++ m ++ e) = m := by
  unfold stripBlank
  have hblank : ∀ x, x = ' ' → isBlank x = true := by rintro x rfl; rfl
  rw [List.append_assoc, dropWhile_all_append _ _ (fun x hx => hblank x (hb x hx))]
  have hd : List.dropWhile isBlank (m ++ e) = m ++ e := by
    obtain ⟨a, as, rfl⟩ := List.exists_cons_of_ne_nil hm
    rw [List.cons_append, List.dropWhile_cons, h1 a rfl]
    simp
  rw [hd, List.reverse_append, dropWhile_all_append _ _ (fun x hx => hblank x (he x (List.mem_reverse.1 hx)))]
  obtain ⟨a, as, hr⟩ := List.exists_cons_of_ne_nil (List.reverse_ne_nil_iff.2 hm)
  have hl : m.getLast? = some a := by
    rw [← List.head?_reverse, hr]; rfl
  rw [hr, List.dropWhile_cons, h2 a hl]
  simp only [Bool.false_eq_true, if_false]
  rw [← hr, List.reverse_reverse]

theorem splitOn_intercalate (cells : List Text) (hne : cells ≠ []) (h : ∀ v ∈ cells, ∀ x ∈ v, x ≠ ',') :
    ([','].intercalate cells).splitOn ',' = cells := by
  induction cells with
  | nil => exact absurd rfl hne
  | cons v vs ih =>
    cases vs with
    | nil =>
      rw [List.intercalate_singleton, List.splitOn_eq_splitOnP, List.splitOnP_eq_singleton]
      intro c hc
      simpa using h v (by simp) c hc
    | cons w ws =>
      rw [List.intercalate_cons_cons, List.append_assoc, List.singleton_append, List.splitOn_eq_splitOnP,
        List.splitOnP_append_cons_of_forall_mem (fun c hc => by simpa using h v (by simp) c hc) _ (by simp),
        ← List.splitOn_eq_splitOnP, ih (by simp) (fun u hu => h u (by simp [hu]))]

theorem mem_intercalate {cells : List Text} {x : Char} (h : x ∈ [','].intercalate cells) : x = ',' ∨ ∃ v ∈ cells, x ∈ v := by
  induction cells with
  | nil => simp at h
  | cons v vs ih =>
    cases vs with
    | nil => rw [List.intercalate_singleton] at h; exact .inr ⟨v, by simp, h⟩
    | cons w ws =>
      rw [List.intercalate_cons_cons, List.mem_append, List.mem_append, List.mem_singleton] at h
      rcases h with (h | h) | h
      · exact .inr ⟨v, by simp, h⟩
      · exact .inl h
      · rcases ih h with h | ⟨u, hu, hx⟩
        · exact .inl h
        · exact .inr ⟨u, by simp [hu], hx⟩

/-- The values of a line. -/
theorem cells_eq {l : Text} {cells : List Text} (hl : ∀ c ∈ l, c ≠ '\n' ∧ c ≠ '\r') (h : Cells l cells) : splitLine l = cells := by
  cases h with
  | @none b c hb hc =>
    unfold splitLine
    rw [takeWhile_comment b c (fun x hx => by rw [hb x hx]; decide) hc]
    simp only [stripBlank_blank b hb, if_true]
  | @some b e c _ hb he hc hne hv hm h1 h2 =>
    have hnb : ∀ x, x ∈ [','].intercalate cells → x ≠ ' ' → isBlank x = false := by
      intro x hx hs
      have := hl x (by simp [hx])
      simp [isBlank, hs, this.1, this.2]
    unfold splitLine
    rw [takeWhile_comment _ c ?_ hc]
    · simp only [stripBlank_middle b _ e hb he hm
        (fun x hx => hnb x (List.mem_of_mem_head? hx) (fun hs => h1 (hs ▸ hx)))
        (fun x hx => hnb x (List.mem_of_mem_getLast? hx) (fun hs => h2 (hs ▸ hx)))]
      rw [if_neg hm, splitOn_intercalate cells hne (fun v hv' x hx => (hv v hv' x hx).1)]
    · intro x hx
      simp only [List.mem_append] at hx
      rcases hx with (hx | hx) | hx
      · rw [hb x hx]; decide
      · rcases mem_intercalate hx with rfl | ⟨v, hv', hx⟩
        · decide
        · exact (hv v hv' x hx).2
      · rw [he x hx]; decide

theorem mem_splitOn (s : Text) : ∀ v ∈ s.splitOn ',', ∀ x ∈ v, x ≠ ',' ∧ x ∈ s := by
  induction s with
  | nil => intro v hv x hx; rw [List.splitOn_nil, List.mem_singleton] at hv; subst hv; simp at hx
  | cons c s ih =>
    intro v hv x hx
    rw [List.splitOn_cons_eq_if_modifyHead] at hv
    split_ifs at hv with hc
    · rcases List.mem_cons.1 hv with rfl | hv
      · simp at hx
      · exact ⟨(ih v hv x hx).1, by simp [(ih v hv x hx).2]⟩
    · cases hs : s.splitOn ',' with
      | nil => exact absurd hs (by simp)
      | cons u us =>
        rw [hs, List.modifyHead_cons, List.mem_cons] at hv
        rcases hv with rfl | hv
        · rcases List.mem_cons.1 hx with rfl | hx
          · exact ⟨by simpa using hc, by simp⟩
          · have := ih u (by rw [hs]; simp) x hx
            exact ⟨this.1, by simp [this.2]⟩
        · have := ih v (by rw [hs]; simp [hv]) x hx
          exact ⟨this.1, by simp [this.2]⟩

/-- Every text is blanks, a part beginning and ending with something else, and blanks; or only blanks. -/
theorem blank_decompose (s : Text) :
    (∀ x ∈ s, x = ' ') ∨ ∃ b m e, s = b ++ m ++ e ∧ (∀ x ∈ b, x = ' ') ∧ (∀ x ∈ e, x = ' ') ∧ m ≠ [] ∧ m.head? ≠ some ' ' ∧ m.getLast? ≠ some ' ' := by
  induction s with
  | nil => exact .inl (by simp)
  | cons c s ih =>
    rcases ih with ih | ⟨b, m, e, rfl, hb, he, hm, h1, h2⟩
    · by_cases hc : c = ' '
      · exact .inl (by simpa [hc] using ih)
      · exact .inr ⟨[], [c], s, by simp, by simp, ih, by simp, by simpa using hc, by simpa using hc⟩
    · by_cases hc : c = ' '
      · exact .inr ⟨c :: b, m, e, by simp, by simpa [hc] using hb, he, hm, h1, h2⟩
      · refine .inr ⟨[], c :: (b ++ m), e, by simp, by simp, he, by simp, by simpa using hc, ?_⟩
        rw [show c :: (b ++ m) = (c :: b) ++ m by simp, List.getLast?_append_of_ne_nil _ hm]
        exact h2

/-- Every line can be read. -/
theorem cells_exist (l : Text) : ∃ cells, Cells l cells := by
  have hsplit := List.takeWhile_append_dropWhile (p := fun c => decide (c ≠ '#')) (l := l)
  have hpre : ∀ c ∈ l.takeWhile (fun c => decide (c ≠ '#')), c ≠ '#' := fun c hc => by simpa using List.mem_takeWhile_imp hc
  have hcom : Comment (l.dropWhile (fun c => decide (c ≠ '#'))) := by
    cases hd : l.dropWhile (fun c => decide (c ≠ '#')) with
    | nil => exact .inl rfl
    | cons c t =>
      have := List.head_dropWhile_not (p := fun c => decide (c ≠ '#')) (l := l) (by rw [hd]; simp)
      simp only [hd, List.head_cons, decide_eq_false_iff_not, not_not] at this
      exact .inr (by rw [this]; rfl)
  rw [← hsplit]
  rcases blank_decompose (l.takeWhile (fun c => decide (c ≠ '#'))) with h | ⟨b, m, e, hs, hb, he, hm, h1, h2⟩
  · exact ⟨_, .none h hcom⟩
  · have hi : [','].intercalate (m.splitOn ',') = m := List.intercalate_splitOn ','
    rw [hs] at hpre ⊢
    refine ⟨m.splitOn ',', ?_⟩
    have := Cells.some (b := b) (e := e) (cells := m.splitOn ',') hb he hcom (by simp)
      (fun v hv x hx => ⟨(mem_splitOn m v hv x hx).1, hpre x (by simp [(mem_splitOn m v hv x hx).2])⟩)
      (by rw [hi]; exact hm) (by rw [hi]; exact h1) (by rw [hi]; exact h2)
    rwa [hi] at this

theorem lines_clean {file : Text} {ls : List Text} (h : Lines file ls) : ∀ l ∈ ls, ∀ c ∈ l, c ≠ '\n' ∧ c ≠ '\r' := by
  induction h with
  | none => simp
  | last _ h => simpa using h
  | lf h _ ih => intro l hl; rcases List.mem_cons.1 hl with rfl | hl; exacts [h, ih l hl]
  | crlf h _ ih => intro l hl; rcases List.mem_cons.1 hl with rfl | hl; exacts [h, ih l hl]
  | cr h _ _ ih => intro l hl; rcases List.mem_cons.1 hl with rfl | hl; exacts [h, ih l hl]

/-- The rows of a file are what the reader collects. -/
theorem contains_eq {file : Text} {rows : List (List Text)} (h : Contains file rows) :
    ((lines (universal file)).map splitLine).filter (fun r => r ≠ []) = rows := by
  obtain ⟨ls, all, hl, hc, rfl⟩ := h
  have hmap : ls.map splitLine = all := by
    have hcl := lines_clean hl
    clear hl
    induction hc with
    | nil => rfl
    | cons h _ ih => rw [List.map_cons, cells_eq (hcl _ (by simp)) h, ih (fun l hl => hcl l (by simp [hl]))]
  rw [lines_eq hl, hmap]
  apply List.filter_congr
  intro r _
  cases r <;> simp

/-- Every file contains rows. -/
theorem contains_exists (file : Text) : ∃ rows, Contains file rows := by
  obtain ⟨ls, hls⟩ := lines_exist file
  have : ∃ all, List.Forall₂ Cells ls all := by
    clear hls
    induction ls with
    | nil => exact ⟨[], .nil⟩
    | cons l ls ih =>
      obtain ⟨all, h⟩ := ih
      obtain ⟨c, hc⟩ := cells_exist l
      exact ⟨c :: all, .cons hc h⟩
  obtain ⟨all, h⟩ := this
  exact ⟨_, ls, all, hls, h, rfl⟩

section
variable {F : Type} (float : Text → Option F) (nan : F)

theorem reshape2_iff : ∀ (xs : List F) (t : List (F × F)), reshape2 xs = .ok t ↔ xs = t.flatMap (fun p => [p.1, p.2])
  | [], t => by
      rw [reshape2]
      cases t <;> simp
  | [x], t => by
      rw [reshape2]
      cases t <;> simp
  | x :: y :: xs, t => by
      rw [reshape2]
      have ih := reshape2_iff xs
      cases t with
      | nil => cases h : reshape2 xs <;> simp [bind, Except.bind]
      | cons p t =>
        obtain ⟨a, b⟩ := p
        rw [List.flatMap_cons]
        cases h : reshape2 xs with
        | error e =>
          have : xs ≠ t.flatMap (fun p => [p.1, p.2]) := fun hx => by rw [(ih t).2 hx] at h; cases h
          simp [bind, Except.bind, this]
        | ok u =>
          have := ih t
          rw [h, Except.ok.injEq] at this
          simp [bind, Except.bind, ← this]
          tauto

theorem reshape2_error : ∀ (xs : List F), xs.length % 2 = 1 → reshape2 xs = .error .valueError
  | [], h => by simp at h
  | [x], _ => rfl
  | x :: y :: xs, h => by
      rw [reshape2, reshape2_error xs (by simp only [List.length_cons] at h; omega)]
      rfl

theorem reshape2_even : ∀ (xs : List F), xs.length % 2 = 0 → ∃ t, reshape2 xs = .ok t
  | [], _ => ⟨[], rfl⟩
  | [x], h => by simp at h
  | x :: y :: xs, h => by
      obtain ⟨t, ht⟩ := reshape2_even xs (by simp only [List.length_cons] at h; omega)
      exact ⟨(x, y) :: t, by rw [reshape2, ht]; rfl⟩

/-- **C153**: the outcome for every file. A file without a value raises `IOError`; a file whose rows are of different length, or with an odd number
of values altogether, raises `ValueError`; any other is taken, and the table is made of all values in file order, two by two. -/
theorem C153_outcome {file : Text} {rows : List (List Text)} (h : Contains file rows) :
    (loadTable float nan file = .error .ioError ↔ rows = []) ∧
    (loadTable float nan file = .error .valueError ↔ (∃ r ∈ rows, ∃ q ∈ rows, r.length ≠ q.length) ∨ rows.flatten.length % 2 = 1) ∧
    (∀ t, loadTable float nan file = .ok t ↔ rows ≠ [] ∧ (∀ r ∈ rows, ∀ q ∈ rows, r.length = q.length) ∧
      rows.flatten.map (number float nan) = t.flatMap (fun p => [p.1, p.2])) ∧
    ∀ e, loadTable float nan file = .error e → e = .ioError ∨ e = .valueError := by
  have hload : loadTable float nan file = (match rows with
      | [] => Except.error PyErr.ioError
      | r :: rs => if rs.all (fun q => q.length = r.length) then .ok ((r :: rs).flatten.map (loose float nan)) else .error .valueError) >>= reshape2 := by
    unfold loadTable genFromTxt
    rw [contains_eq h]
    rfl
  have hloose : loose float nan = number float nan := by
    funext v
    unfold loose number
    cases float v <;> rfl
  rw [hloose] at hload
  rw [hload]
  clear hload
  cases rows with
  | nil => simp [bind, Except.bind]
  | cons r rs =>
    by_cases hw : rs.all (fun q => q.length = r.length) = true
    · have hw' : ∀ a ∈ r :: rs, ∀ q ∈ r :: rs, a.length = q.length := by
        have h1 : ∀ a ∈ r :: rs, a.length = r.length := by
          intro a ha
          rcases List.mem_cons.1 ha with rfl | ha
          · rfl
          · simpa using List.all_eq_true.1 hw a ha
        intro a ha q hq
        rw [h1 a ha, h1 q hq]
      have hnot : ¬ ∃ a ∈ r :: rs, ∃ q ∈ r :: rs, a.length ≠ q.length := by
        rintro ⟨a, ha, q, hq, hne⟩
        exact hne (hw' a ha q hq)
      simp only [hw, if_true, bind, Except.bind]
      rcases Nat.mod_two_eq_zero_or_one (r :: rs).flatten.length with hpar | hpar
      · obtain ⟨t, ht⟩ := reshape2_even ((r :: rs).flatten.map (number float nan)) (by rw [List.length_map]; exact hpar)
        refine ⟨by rw [ht]; simp, ?_, ?_, by rw [ht]; simp⟩
        · rw [ht]
          refine ⟨fun h => (by cases h), fun h => ?_⟩
          rcases h with h | h
          · exact absurd h hnot
          · omega
        · intro u
          rw [reshape2_iff]
          exact ⟨fun h => ⟨by simp, hw', h⟩, fun h => h.2.2⟩
      · have he := reshape2_error ((r :: rs).flatten.map (number float nan)) (by rw [List.length_map]; exact hpar)
        refine ⟨by rw [he]; simp, by rw [he]; exact ⟨fun _ => .inr hpar, fun _ => rfl⟩, ?_, by rw [he]; simp⟩
        intro u
        rw [reshape2_iff]
        exact ⟨fun h => ⟨by simp, hw', h⟩, fun h => h.2.2⟩
    · have hex : ∃ a ∈ r :: rs, ∃ q ∈ r :: rs, a.length ≠ q.length := by
        rw [List.all_eq_true] at hw
        simp only [decide_eq_true_eq, not_forall] at hw
        obtain ⟨q, hq, hne⟩ := hw
        exact ⟨q, by simp [hq], r, by simp, hne⟩
      simp only [hw, bind, Except.bind]
      refine ⟨by simp, ⟨fun _ => .inl hex, fun _ => rfl⟩, fun t => ⟨fun h => (by cases h), fun h => ?_⟩, by simp⟩
      obtain ⟨a, ha, q, hq, hne⟩ := hex
      exact absurd (h.2.1 a ha q hq) hne

theorem flatMap_pairs {rows : List (List Text)} (h2 : ∀ r ∈ rows, r.length = 2) :
    ∃ t : List (F × F), rows.flatten.map (number float nan) = t.flatMap (fun p => [p.1, p.2]) ∧
      List.Forall₂ (fun (r : List Text) (p : F × F) => ∃ a b, r = [a, b] ∧ p = (number float nan a, number float nan b)) rows t := by
  induction rows with
  | nil => exact ⟨[], rfl, .nil⟩
  | cons r rows ih =>
    obtain ⟨t, ht, hf⟩ := ih (fun q hq => h2 q (by simp [hq]))
    obtain ⟨a, b, rfl⟩ := List.length_eq_two.1 (h2 r (by simp))
    exact ⟨(number float nan a, number float nan b) :: t, by simp [ht], .cons ⟨a, b, rfl, rfl⟩ hf⟩

/-- **C153**, the part that holds: a file of two columns, of numbers, with at least one row is read as the table with one row per line; a file of three columns
and an odd number of rows is refused, as is one in which a row is longer or shorter than another. -/
theorem C153_two_columns_partial {file : Text} {rows : List (List Text)} (h : Contains file rows) (hne : rows ≠ [])
    (h2 : ∀ r ∈ rows, r.length = 2) (hn : ∀ r ∈ rows, ∀ v ∈ r, (float v).isSome) :
    ∃ t, loadTable float nan file = .ok t ∧
      List.Forall₂ (fun (r : List Text) (p : F × F) => ∃ a b, r = [a, b] ∧ float a = some p.1 ∧ float b = some p.2) rows t := by
  obtain ⟨t, ht, hf⟩ := flatMap_pairs float nan h2
  refine ⟨t, ((C153_outcome float nan h).2.2.1 t).2 ⟨hne, fun r hr q hq => by rw [h2 r hr, h2 q hq], ht⟩, ?_⟩
  clear ht h h2 hne
  induction hf with
  | nil => exact .nil
  | @cons r p rs ps hr _ ih =>
    refine .cons ?_ (ih (fun r hr => hn r (by simp [hr])))
    obtain ⟨a, b, rfl, rfl⟩ := hr
    obtain ⟨x, hx⟩ := Option.isSome_iff_exists.1 (hn [a, b] (by simp) a (by simp))
    obtain ⟨y, hy⟩ := Option.isSome_iff_exists.1 (hn [a, b] (by simp) b (by simp))
    exact ⟨a, b, rfl, by simp [number, hx], by simp [number, hy]⟩

end

/-- A file of clean lines, each ended by a line feed, contains the rows of its lines. -/
theorem contains_lf {ls : List Text} {all : List (List Text)} (hl : ∀ l ∈ ls, ∀ c ∈ l, c ≠ '\n' ∧ c ≠ '\r') (hc : List.Forall₂ Cells ls all) :
    Contains (ls.flatMap (· ++ ['\n'])) (all.filter (fun r => !r.isEmpty)) := by
  refine ⟨ls, all, ?_, hc, rfl⟩
  clear hc
  induction ls with
  | nil => exact .none
  | cons l ls ih =>
    have := Lines.lf (hl l (by simp)) (ih (fun q hq => hl q (by simp [hq])))
    simpa using this

/-- A line of values without blanks at its ends and without a comment. -/
theorem cells_plain {cells : List Text} (hne : cells ≠ []) (hv : ∀ v ∈ cells, ∀ x ∈ v, x ≠ ',' ∧ x ≠ '#') (hm : [','].intercalate cells ≠ [])
    (h1 : ([','].intercalate cells).head? ≠ some ' ') (h2 : ([','].intercalate cells).getLast? ≠ some ' ') :
    Cells ([','].intercalate cells) cells := by
  have := Cells.some (b := []) (e := []) (c := []) (cells := cells) (by simp) (by simp) (.inl rfl) hne hv hm h1 h2
  simpa using this

/-- The file of two lines with one number each. -/
theorem contains_column : Contains "1990\n4\n".toList [["1990".toList], ["4".toList]] :=
  contains_lf (ls := ["1990".toList, "4".toList]) (all := [["1990".toList], ["4".toList]]) (by decide)
    (.cons (cells_plain (cells := ["1990".toList]) (by decide) (by decide) (by decide) (by decide) (by decide))
      (.cons (cells_plain (cells := ["4".toList]) (by decide) (by decide) (by decide) (by decide) (by decide)) .nil))

/-- The file of one line whose second value is a word. -/
theorem contains_word : Contains "1990,four\n".toList [["1990".toList, "four".toList]] :=
  contains_lf (ls := ["1990,four".toList]) (all := [["1990".toList, "four".toList]]) (by decide)
    (.cons (cells_plain (cells := ["1990".toList, "four".toList]) (by decide) (by decide) (by decide) (by decide) (by decide)) .nil)

/-- **C153** does not hold: two lines of one number each are taken as one row of the table, whatever numbers they are. -/
theorem C153_one_column_fails {F : Type} (float : Text → Option F) (nan : F) : ¬ OnlyTables float (loadTable float nan) := by
  intro H
  have := H _ _ contains_column [(number float nan "1990".toList, number float nan "4".toList)]
    (((C153_outcome float nan contains_column).2.2.1 _).2 ⟨by simp, by simp, rfl⟩)
  cases this with
  | cons h t => cases t

/-- **C153**: no line is refused for what its values are; a line with a word in place of a number gives a row with NaN in the table. -/
theorem C153_word {F : Type} (float : Text → Option F) (nan : F) (h : float "four".toList = none) :
    loadTable float nan "1990,four\n".toList = .ok [(number float nan "1990".toList, nan)] :=
  ((C153_outcome float nan contains_word).2.2.1 _).2 ⟨by simp, by simp, by
    have h4 : number float nan "four".toList = nan := by unfold number; rw [h]
    show [number float nan "1990".toList, number float nan "four".toList] = _
    rw [h4]; rfl⟩

#guard (loadTable (F := ℚ) pyFloat 0 "1990,four\n".toList).toOption = some [(1990, 0)]
#guard (loadTable (F := ℚ) pyFloat 0 " 1990, 4.5 # comment\r\n\r# nothing\n1960,5".toList).toOption = some [(1990, 4.5), (1960, 5)]

/-- A file of one row is refused when the row has three values. -/
example : loadTable (F := ℚ) pyFloat 0 "1,2,3\n".toList = .error .valueError :=
  (C153_outcome pyFloat 0 (contains_lf (ls := ["1,2,3".toList]) (all := [["1".toList, "2".toList, "3".toList]]) (by decide)
    (.cons (cells_plain (cells := ["1".toList, "2".toList, "3".toList]) (by decide) (by decide) (by decide) (by decide) (by decide)) .nil))).2.1.2
    (.inr (by decide))

end Verif.Table
