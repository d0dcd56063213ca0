import Verif.Model.YamlConfig

/-!
# The text of a configuration file (C209)

A configuration laid out in any of the ways the documented files are laid out is read as that configuration.
-/

namespace Verif.Yaml

open Verif Verif.EqCatalog Verif.Workflow

namespace Spec

/-- Keys: letters, digits and underscores. -/
def Word (k : Text) : Prop := k ≠ [] ∧ ∀ c ∈ k, c.isAlphanum = true ∨ c = '_'

/-- Names, file names and numbers: letters, digits, spaces inside and a few signs. -/
structure Plain (t : Text) : Prop where
  chars : ∀ c ∈ t, c.isAlphanum = true ∨ c ∈ "_-+./ ".toList
  ne : t ≠ []
  start : t.head? ≠ some ' '
  dash : t ≠ ['-'] ∧ ∀ r, t ≠ '-' :: ' ' :: r
  stop : t.getLast? ≠ some ' '

/-- A value: texts are plain; scalars and entries may be left empty, lists have an item. -/
def Good : Node → Prop
  | .scalar t => t = [] ∨ Plain t
  | .list ts => ts ≠ [] ∧ ∀ t ∈ ts, Plain t
  | .map es => ∀ e ∈ es, Word e.1 ∧ (e.2 = [] ∨ Plain e.2)

/-- `key: value`, or `key:`. -/
def entryText (k v : Text) : Text := if v = [] then k ++ [':'] else k ++ ':' :: ' ' :: v

/-- The lines of a section after the opening brace. -/
def flowLines : List (Text × Text) → List Text
  | [] => [['}']]
  | [e] => [entryText e.1 e.2, ['}']]
  | e :: e' :: es => (entryText e.1 e.2 ++ [',']) :: flowLines (e' :: es)

/-- The lines of an entry of the configuration, with a flag for those that may be indented. -/
def nodeLines (k : Text) : Node → List (Bool × Text)
  | .scalar t => [(false, entryText k t)]
  | .list ts => (false, k ++ [':']) :: ts.map fun t => (false, '-' :: ' ' :: t)
  | .map es => (false, k ++ ": {".toList) :: (flowLines es).map fun t => (true, t)

def docLines (d : Doc) : List (Bool × Text) := d.flatMap fun e => nodeLines e.1 e.2

/-- Nothing, spaces, or spaces and a comment. -/
def Trail (t : Text) : Prop := ∃ n, t = List.replicate n ' ' ∨ ∃ c : Text, '\n' ∉ c ∧ t = List.replicate n ' ' ++ '#' :: c

/-- The lines with comments and blank lines between them, comments at their ends, and the indentation that is allowed. -/
inductive Laid : List (Bool × Text) → List Text → Prop
  | nil : Laid [] []
  | noise {ls out t} : Trail t → Laid ls out → Laid ls (t :: out)
  | line {ls out i n t tail} : (i = false → n = 0) → Trail tail → (tail.head? ≠ some '#') → Laid ls out → Laid ((i, t) :: ls) ((List.replicate n ' ' ++ t ++ tail) :: out)

end Spec

open Spec

/-! ### Lines -/

theorem wordChar_iff (c : Char) : wordChar c = true ↔ c.isAlphanum = true ∨ c = '_' := by
  unfold wordChar
  rw [Bool.or_eq_true, beq_iff_eq]

theorem uncomment_none {t : Text} (h : '#' ∉ t) (b : Bool) : uncomment b t = t := by
  induction t generalizing b with
  | nil => rfl
  | cons c cs ih =>
    have hc : (c == '#') = false := by
      rw [beq_eq_false_iff_ne]
      rintro rfl
      exact h List.mem_cons_self
    rw [uncomment, hc, Bool.and_false, if_neg (by simp), ih (fun hh => h (List.mem_cons_of_mem _ hh))]

theorem uncomment_spaces (n : ℕ) (t : Text) : uncomment true (List.replicate n ' ' ++ t) = List.replicate n ' ' ++ uncomment true t := by
  induction n with
  | zero => rfl
  | succ n ih =>
    rw [List.replicate_succ, List.cons_append, uncomment, if_neg (by decide)]
    exact congrArg _ ih

theorem uncomment_append {t : Text} (h : '#' ∉ t) (b : Bool) (r : Text) : ∃ b', uncomment b (t ++ r) = t ++ uncomment b' r := by
  induction t generalizing b with
  | nil => exact ⟨b, rfl⟩
  | cons c cs ih =>
    have hc : (c == '#') = false := by
      rw [beq_eq_false_iff_ne]
      rintro rfl
      exact h List.mem_cons_self
    obtain ⟨b', hb⟩ := ih (fun hh => h (List.mem_cons_of_mem _ hh)) (c == ' ')
    refine ⟨b', ?_⟩
    rw [List.cons_append, uncomment, hc, Bool.and_false, if_neg (by simp), hb]
    rfl

theorem uncomment_trail {t : Text} (h : Trail t) : ∃ n, uncomment true t = List.replicate n ' ' := by
  obtain ⟨n, rfl | ⟨c, -, rfl⟩⟩ := h
  · refine ⟨n, ?_⟩
    have := uncomment_spaces n []
    rwa [List.append_nil, uncomment, List.append_nil] at this
  · refine ⟨n, ?_⟩
    rw [uncomment_spaces, uncomment, if_pos (by decide), List.append_nil]

theorem uncomment_tail {t : Text} (h : Trail t) (h' : t.head? ≠ some '#') (b : Bool) : ∃ n, uncomment b t = List.replicate n ' ' := by
  obtain ⟨n, hn⟩ := uncomment_trail h
  refine ⟨n, ?_⟩
  rw [← hn]
  cases t with
  | nil => rfl
  | cons c cs =>
    have hc : (c == '#') = false := by
      rw [beq_eq_false_iff_ne]
      rintro rfl
      exact h' rfl
    rw [uncomment, uncomment, hc, Bool.and_false, Bool.and_false]

theorem dropWhile_spaces (n : ℕ) {t : Text} (h : t.head? ≠ some ' ') : (List.replicate n ' ' ++ t).dropWhile (· == ' ') = t := by
  induction n with
  | zero =>
    cases t with
    | nil => rfl
    | cons c cs =>
      have hc : (c == ' ') = false := by
        rw [beq_eq_false_iff_ne]
        rintro rfl
        exact h rfl
      rw [List.replicate_zero, List.nil_append, List.dropWhile_cons, hc]
      rfl
  | succ n ih =>
    rw [List.replicate_succ, List.cons_append, List.dropWhile_cons]
    exact ih

theorem takeWhile_spaces (n : ℕ) {t : Text} (h : t.head? ≠ some ' ') : (List.replicate n ' ' ++ t).takeWhile (· == ' ') = List.replicate n ' ' := by
  induction n with
  | zero =>
    cases t with
    | nil => rfl
    | cons c cs =>
      have hc : (c == ' ') = false := by
        rw [beq_eq_false_iff_ne]
        rintro rfl
        exact h rfl
      rw [List.replicate_zero, List.nil_append, List.takeWhile_cons, hc]
      rfl
  | succ n ih =>
    rw [List.replicate_succ, List.cons_append, List.takeWhile_cons]
    exact congrArg _ ih

theorem rstrip_spaces {t : Text} (h : t.getLast? ≠ some ' ') (n : ℕ) : rstrip (t ++ List.replicate n ' ') = t := by
  unfold rstrip
  rw [List.reverse_append, List.reverse_replicate, dropWhile_spaces n (by rwa [List.head?_reverse]), List.reverse_reverse]

/-- A line that is not empty, has no comment and no spaces around. -/
structure Solid (t : Text) : Prop where
  ne : t ≠ []
  hash : '#' ∉ t
  start : t.head? ≠ some ' '
  stop : t.getLast? ≠ some ' '
  line : '\n' ∉ t

theorem clean_noise {t : Text} (h : Trail t) : (clean t).2 = [] := by
  obtain ⟨n, hn⟩ := uncomment_trail h
  unfold clean
  simp only
  rw [hn, show List.replicate n ' ' = [] ++ List.replicate n ' ' from rfl, rstrip_spaces (by simp)]
  rfl

theorem clean_line {t tail : Text} (h : Solid t) (ht : Trail tail) (h' : tail.head? ≠ some '#') (n : ℕ) : clean (List.replicate n ' ' ++ t ++ tail) = (n, t) := by
  unfold clean
  simp only
  obtain ⟨b, hb⟩ := uncomment_append h.hash true tail
  obtain ⟨m, hm⟩ := uncomment_tail ht h' b
  rw [List.append_assoc, uncomment_spaces, hb, hm, ← List.append_assoc, rstrip_spaces]
  · rw [takeWhile_spaces n h.start, dropWhile_spaces n h.start, List.length_replicate]
  · rw [List.getLast?_append_of_ne_nil _ h.ne]
    exact h.stop

theorem contents_laid {ls : List (Bool × Text)} {out : List Text} (h : Laid ls out) (hs : ∀ l ∈ ls, Solid l.2) :
    List.Forall₂ (fun l c => c.2 = l.2 ∧ (l.1 = false → c.1 = 0)) ls (contents out) := by
  induction h with
  | nil => exact .nil
  | noise ht _ ih =>
    have := ih hs
    unfold contents at this ⊢
    rwa [List.map_cons, List.filter_cons_of_neg (by simpa using clean_noise ht)]
  | @line ls out i n t tail hi ht h' _ ih =>
    have hso := hs _ List.mem_cons_self
    have := ih fun l hl => hs l (List.mem_cons_of_mem _ hl)
    unfold contents at this ⊢
    rw [List.map_cons, clean_line hso ht h', List.filter_cons_of_pos (by simpa using hso.ne)]
    exact .cons ⟨rfl, hi⟩ this

theorem laid_lines {ls : List (Bool × Text)} {out : List Text} (h : Laid ls out) (hs : ∀ l ∈ ls, Solid l.2) : ∀ t ∈ out, '\n' ∉ t := by
  have trail : ∀ t, Trail t → '\n' ∉ t := by
    rintro t ⟨n, rfl | ⟨c, hc, rfl⟩⟩ hh
    · exact absurd (List.eq_of_mem_replicate hh) (by decide)
    · rcases List.mem_append.1 hh with hh | hh
      · exact absurd (List.eq_of_mem_replicate hh) (by decide)
      · rcases List.mem_cons.1 hh with hh | hh
        · exact absurd hh (by decide)
        · exact hc hh
  induction h with
  | nil => simp
  | noise ht _ ih =>
    intro t hm
    rcases List.mem_cons.1 hm with rfl | hm
    · exact trail _ ht
    · exact ih hs t hm
  | @line ls out i n t tail hi ht h' _ ih =>
    intro u hm
    rcases List.mem_cons.1 hm with rfl | hm
    · intro hh
      rcases List.mem_append.1 hh with hh | hh
      · rcases List.mem_append.1 hh with hh | hh
        · exact absurd (List.eq_of_mem_replicate hh) (by decide)
        · exact (hs _ List.mem_cons_self).line hh
      · exact trail _ ht hh
    · exact ih (fun l hl => hs l (List.mem_cons_of_mem _ hl)) u hm

/-! ### Plain texts -/

theorem alnum_range {c : Char} (h : c.isAlphanum = true ∨ c ∈ "_-+./ ".toList) : (32 ≤ c.toNat ∧ c.toNat ≤ 126) ∧ c ≠ '#' ∧ c ≠ ':' ∧ c ≠ '\n' ∧ ",[]{}:?".toList.contains c = false ∧
    "?:,[]{}#&*!|>'\"%@`~".toList.contains c = false := by
  have key : ∀ n < 127, (Char.ofNat n).isAlphanum = true ∨ Char.ofNat n ∈ "_-+./ ".toList → (32 ≤ n ∧ n ≤ 126) ∧ Char.ofNat n ≠ '#' ∧ Char.ofNat n ≠ ':' ∧ Char.ofNat n ≠ '\n' ∧
      ",[]{}:?".toList.contains (Char.ofNat n) = false ∧ "?:,[]{}#&*!|>'\"%@`~".toList.contains (Char.ofNat n) = false := by decide +kernel
  have hn : c.toNat < 127 := by
    rcases h with h | h
    · simp only [Char.isAlphanum, Char.isAlpha, Char.isUpper, Char.isLower, Char.isDigit, Bool.or_eq_true, Bool.and_eq_true, decide_eq_true_eq, UInt32.le_iff_toNat_le] at h
      have : c.toNat = c.val.toNat := rfl
      rw [this]
      have e1 : (90 : UInt32).toNat = 90 := rfl
      have e2 : (122 : UInt32).toNat = 122 := rfl
      have e3 : (57 : UInt32).toNat = 57 := rfl
      rcases h with (h | h) | h <;> (have := h.2; simp at this; omega)
    · have : ∀ c ∈ "_-+./ ".toList, c.toNat < 127 := by decide
      exact this c h
  have := key c.toNat hn
  rw [Char.ofNat_toNat] at this
  exact this h

theorem noMapping_of {t : Text} (h : ':' ∉ t) : noMapping t = true := by
  fun_induction noMapping t with
  | case1 => rfl
  | case2 c => simpa using fun hh => h (by simp [hh])
  | case3 c d cs ih =>
    rw [ih fun hh => h (List.mem_cons_of_mem _ hh), Bool.and_true]
    have : c ≠ ':' := fun hh => h (by simp [hh])
    simp [this]

theorem plainStart_of {t : Text} (h : Plain t) : plainStart t = true := by
  cases t with
  | nil => exact absurd rfl h.ne
  | cons c cs =>
    have hc := alnum_range (h.chars c List.mem_cons_self)
    by_cases hd : c = '-'
    · subst hd
      cases cs with
      | nil => exact absurd rfl h.dash.1
      | cons d ds =>
        show (d != ' ') = true
        rw [bne_iff_ne]
        rintro rfl
        exact h.dash.2 ds rfl
    · have hs : c ≠ ' ' := fun hh => h.start (by rw [hh]; rfl)
      have : "-?:,[]{}#&*!|>'\"%@`~ ".toList.contains c = false := by
        have h1 := hc.2.2.2.2.2
        rw [Bool.eq_false_iff] at h1 ⊢
        intro hh
        apply h1
        simp only [List.contains_iff_mem] at hh ⊢
        have : c ∈ '-' :: ' ' :: "?:,[]{}#&*!|>'\"%@`~".toList := by
          have e : "-?:,[]{}#&*!|>'\"%@`~ ".toList = '-' :: ("?:,[]{}#&*!|>'\"%@`~".toList ++ [' ']) := by decide
          rw [e] at hh
          simp only [List.mem_cons, List.mem_append, List.not_mem_nil, or_false] at hh ⊢
          tauto
        rcases List.mem_cons.1 this with h | h
        · exact absurd h hd
        · rcases List.mem_cons.1 h with h | h
          · exact absurd h hs
          · exact h
      unfold plainStart
      split
      · next hh => exact absurd (List.cons.inj hh).1 hd
      · next hh =>
        obtain ⟨rfl, rfl⟩ := List.cons.inj hh
        rw [this]
        rfl
      · next hh => cases hh

theorem plain_of {t : Text} (h : Plain t) (f : Bool) : plain f t = true := by
  have hh : '#' ∉ t := fun hh => (alnum_range (h.chars _ hh)).2.1 rfl
  have hc : ':' ∉ t := fun hh => (alnum_range (h.chars _ hh)).2.2.1 rfl
  have h1 : t.all (fun c => decide (32 ≤ c.toNat ∧ c.toNat ≤ 126)) = true := by
    rw [List.all_eq_true]
    exact fun c hc => decide_eq_true (alnum_range (h.chars c hc)).1
  have h2 : (t.all fun c => !(",[]{}:?".toList.contains c)) = true := by
    rw [List.all_eq_true]
    intro c hc
    rw [(alnum_range (h.chars c hc)).2.2.2.2.1]
    rfl
  have h3 : (t.getLast? != some ' ') = true := by
    rw [bne_iff_ne]
    exact h.stop
  unfold plain
  rw [plainStart_of h, h1, noMapping_of hc, uncomment_none hh, h3, h2, beq_self_eq_true, Bool.or_true]
  rfl

theorem solid_plain {t : Text} (h : Plain t) : Solid t where
  ne := h.ne
  hash := fun hh => (alnum_range (h.chars _ hh)).2.1 rfl
  start := h.start
  stop := h.stop
  line := fun hh => (alnum_range (h.chars _ hh)).2.2.2.1 rfl

theorem word_range {k : Text} (h : Word k) : ∀ c ∈ k, c ≠ '#' ∧ c ≠ '\n' ∧ c ≠ ' ' := by
  intro c hc
  have hw := h.2 c hc
  have := alnum_range (c := c) (hw.imp_right fun e => by rw [e]; decide)
  refine ⟨this.2.1, this.2.2.2.1, ?_⟩
  rintro rfl
  exact absurd hw (by decide)

theorem solid_word {k : Text} (h : Word k) {r : Text} (hr : '#' ∉ r) (hl : '\n' ∉ r) (hs : r.getLast? ≠ some ' ') (hn : r ≠ []) : Solid (k ++ r) where
  ne := by simp [hn]
  hash := fun hh => (List.mem_append.1 hh).elim (fun hh => (word_range h _ hh).1 rfl) hr
  start := by
    cases k with
    | nil => exact absurd rfl h.1
    | cons c cs =>
      intro hh
      exact (word_range h c List.mem_cons_self).2.2 (Option.some.inj hh)
  stop := by
    rw [List.getLast?_append_of_ne_nil _ hn]
    exact hs
  line := fun hh => (List.mem_append.1 hh).elim (fun hh => (word_range h _ hh).2.1 rfl) hl

/-- The text of an entry after the key. -/
def afterKey (v : Text) : Text := if v = [] then [':'] else ':' :: ' ' :: v

theorem entryText_eq (k v : Text) : entryText k v = k ++ afterKey v := by
  unfold entryText afterKey
  split <;> rfl

theorem afterKey_facts {v : Text} (h : v = [] ∨ Plain v) : '#' ∉ afterKey v ∧ '\n' ∉ afterKey v ∧ (afterKey v).getLast? ≠ some ' ' ∧ (afterKey v).getLast? ≠ some ',' ∧ afterKey v ≠ [] := by
  unfold afterKey
  rcases h with rfl | h
  · decide
  · rw [if_neg h.ne]
    have hs := solid_plain h
    refine ⟨fun hh => ?_, fun hh => ?_, ?_, ?_, by simp⟩
    · rcases List.mem_cons.1 hh with hh | hh
      · exact absurd hh (by decide)
      rcases List.mem_cons.1 hh with hh | hh
      · exact absurd hh (by decide)
      exact hs.hash hh
    · rcases List.mem_cons.1 hh with hh | hh
      · exact absurd hh (by decide)
      rcases List.mem_cons.1 hh with hh | hh
      · exact absurd hh (by decide)
      exact hs.line hh
    · rw [show ':' :: ' ' :: v = [':', ' '] ++ v from rfl, List.getLast?_append_of_ne_nil _ h.ne]
      exact h.stop
    · rw [show ':' :: ' ' :: v = [':', ' '] ++ v from rfl, List.getLast?_append_of_ne_nil _ h.ne]
      intro hh
      have hm := List.mem_of_getLast? hh
      have := (alnum_range (h.chars _ hm)).2.2.2.2.1
      exact absurd this (by decide)

theorem solid_entry {k v : Text} (hk : Word k) (h : v = [] ∨ Plain v) : Solid (entryText k v) := by
  obtain ⟨h1, h2, h3, -, h5⟩ := afterKey_facts h
  rw [entryText_eq]
  exact solid_word hk h1 h2 h3 h5

theorem solid_comma {t : Text} (h : Solid t) : Solid (t ++ [',']) where
  ne := by simp
  hash := fun hh => (List.mem_append.1 hh).elim h.hash (by decide)
  start := by
    obtain ⟨c, cs, rfl⟩ := List.exists_cons_of_ne_nil h.ne
    exact h.start
  stop := by rw [List.getLast?_append_of_ne_nil _ (by simp)]; decide
  line := fun hh => (List.mem_append.1 hh).elim h.line (by decide)

theorem solid_brace : Solid ['}'] := ⟨by decide, by decide, by decide, by decide, by decide⟩

theorem solid_flow {es : List (Text × Text)} (h : ∀ e ∈ es, Word e.1 ∧ (e.2 = [] ∨ Plain e.2)) : ∀ t ∈ flowLines es, Solid t := by
  fun_induction flowLines es with
  | case1 => simpa using solid_brace
  | case2 e =>
    intro t ht
    simp only [List.mem_cons, List.not_mem_nil, or_false] at ht
    have := h e List.mem_cons_self
    rcases ht with rfl | rfl
    · exact solid_entry this.1 this.2
    · exact solid_brace
  | case3 e e' es ih =>
    intro t ht
    have := h e List.mem_cons_self
    rcases List.mem_cons.1 ht with rfl | ht
    · exact solid_comma (solid_entry this.1 this.2)
    · exact ih (fun e he => h e (List.mem_cons_of_mem _ he)) t ht

theorem solid_node {k : Text} {v : Node} (hk : Word k) (h : Good v) : ∀ l ∈ nodeLines k v, Solid l.2 := by
  cases v with
  | scalar t =>
    intro l hl
    simp only [nodeLines, List.mem_cons, List.not_mem_nil, or_false] at hl
    rw [hl]
    exact solid_entry hk h
  | list ts =>
    intro l hl
    simp only [nodeLines, List.mem_cons, List.mem_map] at hl
    rcases hl with rfl | ⟨t, ht, rfl⟩
    · exact solid_word hk (by decide) (by decide) (by decide) (by decide)
    · have hp := h.2 t ht
      have hs := solid_plain hp
      refine ⟨by simp, fun hh => ?_, by simp, ?_, fun hh => ?_⟩
      · rcases List.mem_cons.1 hh with hh | hh
        · exact absurd hh (by decide)
        rcases List.mem_cons.1 hh with hh | hh
        · exact absurd hh (by decide)
        exact hs.hash hh
      · rw [show '-' :: ' ' :: t = ['-', ' '] ++ t from rfl, List.getLast?_append_of_ne_nil _ hp.ne]
        exact hp.stop
      · rcases List.mem_cons.1 hh with hh | hh
        · exact absurd hh (by decide)
        rcases List.mem_cons.1 hh with hh | hh
        · exact absurd hh (by decide)
        exact hs.line hh
  | map es =>
    intro l hl
    simp only [nodeLines, List.mem_cons, List.mem_map] at hl
    rcases hl with rfl | ⟨t, ht, rfl⟩
    · exact solid_word hk (by decide) (by decide) (by decide) (by decide)
    · exact solid_flow h t ht

theorem solid_doc {d : Doc} (h : ∀ e ∈ d, Word e.1 ∧ Good e.2) : ∀ l ∈ docLines d, Solid l.2 := by
  intro l hl
  obtain ⟨e, he, hl⟩ := List.mem_flatMap.1 hl
  exact solid_node (h e he).1 (h e he).2 l hl

/-! ### Reading the lines -/

theorem entry_word {k : Text} (hk : Word k) (v : Text) (hv : v.head? ≠ some ' ') : entry (k ++ afterKey v) = some (k, v) := by
  have ha : ∀ c ∈ k, wordChar c = true := fun c hc => (wordChar_iff c).2 (hk.2 c hc)
  have h1 : (k ++ afterKey v).takeWhile wordChar = k := by
    rw [List.takeWhile_append_of_pos ha]
    unfold afterKey
    split <;> simp [show wordChar ':' = false by decide]
  have h2 : (k ++ afterKey v).dropWhile wordChar = afterKey v := by
    rw [List.dropWhile_append_of_pos ha]
    unfold afterKey
    split <;> simp [show wordChar ':' = false by decide]
  unfold entry
  simp only [h1, h2]
  rw [if_neg hk.1]
  unfold afterKey
  by_cases he : v = []
  · rw [if_pos he, he]
    rfl
  · rw [if_neg he]
    have := dropWhile_spaces 0 hv
    simp only [List.replicate_zero, List.nil_append] at this
    simp only [this]

theorem entry_read {k v : Text} (hk : Word k) (h : v = [] ∨ Plain v) : entry (entryText k v) = some (k, v) := by
  rw [entryText_eq]
  refine entry_word hk v ?_
  rcases h with rfl | h
  · decide
  · exact h.start

theorem flowEntry_read {k v : Text} (hk : Word k) (h : v = [] ∨ Plain v) : flowEntry (entryText k v) = some (k, v) := by
  unfold flowEntry
  rw [entry_read hk h]
  simp only
  rcases h with rfl | h
  · rfl
  · rw [plain_of h, Bool.or_true, if_pos rfl]

/-- Lines as they are read: the text and, unless it may be indented, no indentation. -/
abbrev Read (l : Bool × Text) (c : ℕ × Text) : Prop := c.2 = l.2 ∧ (l.1 = false → c.1 = 0)

theorem items_read {ts : List Text} (h : ∀ t ∈ ts, Plain t) {rest : List (ℕ × Text)} (hr : items rest = ([], rest)) :
    items (ts.map (fun t => (0, '-' :: ' ' :: t)) ++ rest) = (ts, rest) := by
  induction ts with
  | nil => exact hr
  | cons t ts ih =>
    have hp := h t List.mem_cons_self
    have hd := dropWhile_spaces 0 hp.start
    simp only [List.replicate_zero, List.nil_append] at hd
    rw [List.map_cons, List.cons_append, items, hd, if_pos (plain_of hp false), ih fun t ht => h t (List.mem_cons_of_mem _ ht)]

theorem entry_not_item {k v : Text} (hk : Word k) (i : ℕ) (ls : List (ℕ × Text)) : items ((i, k ++ v) :: ls) = ([], (i, k ++ v) :: ls) := by
  obtain ⟨c, cs, rfl⟩ := List.exists_cons_of_ne_nil hk.1
  have hc : c ≠ '-' := by
    rintro rfl
    exact absurd (hk.2 _ List.mem_cons_self) (by decide)
  unfold items
  split
  · next hh =>
    have := (List.cons.inj hh).1
    have := congrArg Prod.snd this
    exact absurd (List.cons.inj this).1 hc
  · rfl

theorem brace_ne {k v : Text} (hk : Word k) : k ++ v ≠ ['}'] := by
  obtain ⟨c, cs, rfl⟩ := List.exists_cons_of_ne_nil hk.1
  intro hh
  have := (List.cons.inj hh).1
  subst this
  exact absurd (hk.2 _ List.mem_cons_self) (by decide)

theorem flow_read {es : List (Text × Text)} (h : ∀ e ∈ es, Word e.1 ∧ (e.2 = [] ∨ Plain e.2)) {cs rest : List (ℕ × Text)}
    (hc : cs.map Prod.snd = flowLines es) : flow (cs ++ rest) = some (es, rest) := by
  induction es generalizing cs with
  | nil =>
    obtain ⟨⟨i, t⟩, cs, rfl⟩ := List.exists_cons_of_ne_nil (l := cs) (by rintro rfl; cases hc)
    simp only [flowLines, List.map_cons, List.cons.injEq, List.map_eq_nil_iff] at hc
    obtain ⟨rfl, rfl⟩ := hc
    simp [flow]
  | cons e es ih =>
    have he := h e List.mem_cons_self
    have hf := afterKey_facts he.2
    cases es with
    | nil =>
      obtain ⟨⟨i, t⟩, cs, rfl⟩ := List.exists_cons_of_ne_nil (l := cs) (by rintro rfl; cases hc)
      simp only [flowLines, List.map_cons, List.cons.injEq] at hc
      obtain ⟨rfl, hc⟩ := hc
      obtain ⟨⟨j, u⟩, cs, rfl⟩ := List.exists_cons_of_ne_nil (l := cs) (by rintro rfl; cases hc)
      simp only [List.map_cons, List.cons.injEq, List.map_eq_nil_iff] at hc
      obtain ⟨rfl, rfl⟩ := hc
      rw [List.cons_append, flow.eq_def]
      simp only
      rw [if_neg (by rw [entryText_eq]; exact brace_ne he.1), if_neg, flowEntry_read he.1 he.2]
      · simp
      · rw [entryText_eq, List.getLast?_append_of_ne_nil _ hf.2.2.2.2]
        exact hf.2.2.2.1
    | cons e' es =>
      obtain ⟨⟨i, t⟩, cs, rfl⟩ := List.exists_cons_of_ne_nil (l := cs) (by rintro rfl; cases hc)
      simp only [flowLines, List.map_cons, List.cons.injEq] at hc
      obtain ⟨rfl, hc⟩ := hc
      have hi := ih (fun e he => h e (List.mem_cons_of_mem _ he)) hc
      have hb : entryText e.1 e.2 ++ [','] ≠ ['}'] := by
        rw [entryText_eq, List.append_assoc]
        exact brace_ne he.1
      rw [List.cons_append, flow.eq_def]
      simp only
      rw [if_neg hb, if_pos (by rw [List.getLast?_append_of_ne_nil _ (by simp)]; rfl), List.dropLast_concat]
      have hrs := rstrip_spaces (solid_entry he.1 he.2).stop 0
      rw [List.replicate_zero, List.append_nil] at hrs
      rw [hrs, flowEntry_read he.1 he.2, hi]

theorem forall₂_split {α β : Type} {R : α → β → Prop} {a b : List α} {c : List β} (h : List.Forall₂ R (a ++ b) c) :
    ∃ c1 c2, c = c1 ++ c2 ∧ List.Forall₂ R a c1 ∧ List.Forall₂ R b c2 := by
  induction a generalizing c with
  | nil => exact ⟨[], c, rfl, .nil, h⟩
  | cons x xs ih =>
    cases h with
    | cons hx h =>
      obtain ⟨c1, c2, rfl, h1, h2⟩ := ih h
      exact ⟨_ :: c1, c2, rfl, .cons hx h1, h2⟩

theorem read_flow {ts : List Text} {cs : List (ℕ × Text)} (h : List.Forall₂ Read (ts.map fun t => (true, t)) cs) : cs.map Prod.snd = ts := by
  induction ts generalizing cs with
  | nil => cases h; rfl
  | cons t ts ih =>
    cases h with
    | cons hx h => rw [List.map_cons, ih h, hx.1]

theorem read_items {ts : List Text} {cs : List (ℕ × Text)} (h : List.Forall₂ Read (ts.map fun t => (false, '-' :: ' ' :: t)) cs) : cs = ts.map fun t => (0, '-' :: ' ' :: t) := by
  induction ts generalizing cs with
  | nil => cases h; rfl
  | cons t ts ih =>
    cases h with
    | @cons _ c _ _ hx h => rw [List.map_cons, ih h, show c = (0, '-' :: ' ' :: t) from Prod.ext (hx.2 rfl) hx.1]

theorem not_items {d : Doc} (h : ∀ e ∈ d, Word e.1 ∧ Good e.2) {cs : List (ℕ × Text)} (hc : List.Forall₂ Read (docLines d) cs) : items cs = ([], cs) := by
  cases d with
  | nil => cases hc; rfl
  | cons e d =>
    obtain ⟨k, v⟩ := e
    have hk := (h _ List.mem_cons_self).1
    have key : ∃ w ls, docLines ((k, v) :: d) = (false, k ++ w) :: ls := by
      unfold docLines
      rw [List.flatMap_cons]
      cases v with
      | scalar t => exact ⟨afterKey t, _, by rw [nodeLines, entryText_eq]; rfl⟩
      | list ts => exact ⟨_, _, rfl⟩
      | map es => exact ⟨_, _, rfl⟩
    obtain ⟨w, ls, hl⟩ := key
    rw [hl] at hc
    cases hc with
    | @cons _ c _ _ hx h =>
      rw [show c = (0, k ++ w) from Prod.ext (hx.2 rfl) hx.1]
      exact entry_not_item hk 0 _

theorem block_read {d : Doc} (h : ∀ e ∈ d, Word e.1 ∧ Good e.2) {cs : List (ℕ × Text)} (hc : List.Forall₂ Read (docLines d) cs) {n : ℕ} (hn : d.length ≤ n) : block n cs = some d := by
  induction d generalizing cs n with
  | nil =>
    cases hc
    cases n <;> rfl
  | cons e d ih =>
    obtain ⟨k, v⟩ := e
    obtain ⟨n, rfl⟩ : ∃ m, n = m + 1 := ⟨n - 1, by simp at hn; omega⟩
    have hn : d.length ≤ n := by simpa using hn
    have hd := fun e he => h e (List.mem_cons_of_mem _ he)
    obtain ⟨hk, hv⟩ := h _ List.mem_cons_self
    unfold docLines at hc
    rw [List.flatMap_cons] at hc
    obtain ⟨c1, c2, rfl, h1, h2⟩ := forall₂_split hc
    have hi := ih hd h2 hn
    have hnot := not_items hd h2
    cases v with
    | scalar t =>
      cases h1 with
      | @cons _ c _ _ hx h1 =>
        cases h1
        rw [show c = (0, entryText k t) from Prod.ext (hx.2 rfl) hx.1, List.cons_append, List.nil_append, block, if_neg (by simp), entry_read hk hv]
        simp only
        rcases hv with rfl | hv
        · rw [if_pos rfl, hnot]
          simp only
          rw [hi]
          rfl
        · rw [if_neg hv.ne, if_neg, if_pos (plain_of hv false), hi]
          · rfl
          · rintro rfl
            exact absurd (hv.chars _ List.mem_cons_self) (by decide)
    | list ts =>
      cases h1 with
      | @cons _ c _ c1 hx h1 =>
        rw [read_items h1, show c = (0, k ++ afterKey []) from Prod.ext (hx.2 rfl) hx.1, List.cons_append, block, if_neg (by simp), entry_word hk [] (by decide)]
        simp only
        rw [if_pos trivial, items_read hv.2 hnot]
        obtain ⟨t, ts, rfl⟩ := List.exists_cons_of_ne_nil hv.1
        simp only
        rw [hi]
        rfl
    | map es =>
      cases h1 with
      | @cons _ c _ c1 hx h1 =>
        rw [show c = (0, k ++ afterKey ['{']) from Prod.ext (hx.2 rfl) hx.1, List.cons_append, block, if_neg (by simp), entry_word hk ['{'] (by decide)]
        simp only
        rw [if_neg (by decide), if_pos trivial, flow_read hv (read_flow h1)]
        simp only
        rw [hi]
        rfl

/-- **C209**: a configuration written in any of the layouts of the documented files, with any comments, blank lines, indentation of entries and spaces at the ends of lines, is read as that configuration. -/
theorem C209_layout (d : Doc) (hd : d ≠ []) (h : ∀ e ∈ d, Word e.1 ∧ Good e.2) (out : List Text) (ho : Laid (docLines d) out) : document (['\n'].intercalate out) = some d := by
  have hs := solid_doc h
  have hc := contents_laid ho hs
  have hlen : d.length ≤ (contents out).length := by
    rw [← hc.length_eq]
    clear hc ho hs hd h
    induction d with
    | nil => simp
    | cons e d ih =>
      unfold docLines at ih ⊢
      rw [List.flatMap_cons, List.length_append, List.length_cons]
      have : 1 ≤ (nodeLines e.1 e.2).length := by
        cases e.2 <;> simp [nodeLines]
      omega
  have hne : contents out ≠ [] := by
    intro hh
    rw [hh] at hlen
    exact hd (List.length_eq_zero_iff.1 (Nat.le_zero.1 hlen))
  have hout : out ≠ [] := by
    rintro rfl
    exact hne rfl
  unfold document
  rw [List.splitOn_intercalate _ (laid_lines ho hs) hout]
  split
  · next hh => exact absurd hh hne
  · exact block_read h hc hlen

end Verif.Yaml
