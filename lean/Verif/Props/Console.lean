import Verif.Model.Console
import Verif.Props.Files

/-!
# C98 to C102: the command line and the whole program
-/

namespace Verif.Console

open Verif Verif.EqCatalog Verif.Workflow Verif.Workflow.Spec

/-! ### Specification -/

/-- What a user can ask for. -/
inductive Spec.Item where
  | input (file : Text)
  | detailed
deriving DecidableEq

/-- `n` is `name` or an abbreviation of it by at least three characters. -/
def Spec.Abbreviates (n name : Text) : Prop := 3 ≤ n.length ∧ n <+: name

/-- A file name that does not begin with a dash. -/
def Spec.Plain (f : Text) : Prop := f.head? ≠ some '-'

/-- The ways to say it on the command line. -/
inductive Spec.Says : Spec.Item → List Text → Prop
  | short (f) : Spec.Plain f → Says (.input f) ["-i".toList, f]
  | long (n f) : Spec.Abbreviates n "--input-file".toList → Spec.Plain f → Says (.input f) [n, f]
  | joined (f) : f ≠ [] → f.head? ≠ some '=' → Says (.input f) ["-i".toList ++ f]
  | shortEq (f) : Says (.input f) ["-i=".toList ++ f]
  | longEq (n f) : Spec.Abbreviates n "--input-file".toList → Says (.input f) [n ++ '=' :: f]
  | flag : Says .detailed ["-d".toList]
  | longFlag (n) : Spec.Abbreviates n "--detailed".toList → Says .detailed [n]

/-- The file asked for: the last one. -/
def Spec.file : List Spec.Item → Option Text
  | [] => none
  | i :: is => match Spec.file is, i with
    | some f, _ => some f
    | none, .input f => some f
    | none, .detailed => none

open Spec

/-! ### C98 -/

/-- The effect of an item on what has been found. -/
def Found.add (f : Found) : Item → Found
  | .input t => { f with input := some t }
  | .detailed => { f with detailed := true }

theorem classify_plain {f : Text} (h : Plain f) : classify f = some .arg := by
  cases f with
  | nil => rfl
  | cons c cs =>
    have : c ≠ '-' := by simpa [Plain] using h
    simp [classify, this]

theorem plain_ne_sep {f : Text} (h : Plain f) : f ≠ "--".toList := by
  rintro rfl
  exact h rfl

theorem prefixes {n name : Text} (h : Abbreviates n name) : ∃ k, 3 ≤ k ∧ k ≤ name.length ∧ n = name.take k := by
  obtain ⟨h1, h2⟩ := h
  exact ⟨n.length, h1, h2.length_le, (List.prefix_iff_eq_take.1 h2)⟩

theorem abbreviated_input {n : Text} (h : Abbreviates n "--input-file".toList) :
    n ∈ (List.range 10).map fun k => "--input-file".toList.take (k + 3) := by
  obtain ⟨k, h1, h2, rfl⟩ := prefixes h
  rw [List.mem_map]
  refine ⟨k - 3, ?_, ?_⟩
  · have : k ≤ 12 := h2
    simp; omega
  · rw [Nat.sub_add_cancel h1]

theorem abbreviated_detailed {n : Text} (h : Abbreviates n "--detailed".toList) :
    n ∈ (List.range 8).map fun k => "--detailed".toList.take (k + 3) := by
  obtain ⟨k, h1, h2, rfl⟩ := prefixes h
  rw [List.mem_map]
  refine ⟨k - 3, ?_, ?_⟩
  · have : k ≤ 10 := h2
    simp; omega
  · rw [Nat.sub_add_cancel h1]

theorem classify_input {n : Text} (h : Abbreviates n "--input-file".toList) : ∃ m, classify n = some (.opt (some .input) m none) ∧ n ≠ "--".toList := by
  have key : ∀ n ∈ (List.range 10).map fun k => "--input-file".toList.take (k + 3),
      classify n = some (.opt (some .input) "--input-file".toList none) ∧ n ≠ "--".toList := by decide
  exact ⟨_, key n (abbreviated_input h)⟩

theorem classify_detailed {n : Text} (h : Abbreviates n "--detailed".toList) :
    ∃ m, classify n = some (.opt (some .detailed) m none) ∧ n ≠ "--".toList := by
  have key : ∀ n ∈ (List.range 8).map fun k => "--detailed".toList.take (k + 3),
      classify n = some (.opt (some .detailed) "--detailed".toList none) ∧ n ≠ "--".toList := by decide
  exact ⟨_, key n (abbreviated_detailed h)⟩

theorem splitEq_append {n f : Text} (h : '=' ∉ n) : splitEq (n ++ '=' :: f) = some (n, f) := by
  induction n with
  | nil => simp [splitEq]
  | cons c cs ih =>
    simp only [List.mem_cons, not_or] at h
    simp [splitEq, Ne.symm h.1, ih h.2]

theorem lookup_none {s : Text} (h : '=' ∈ s) : lookup s = none := by
  have : ∀ o ∈ options, '=' ∉ o.1 := by decide
  unfold lookup
  rw [Option.map_eq_none_iff, List.find?_eq_none]
  intro o ho hs
  exact this o ho (by simpa [of_decide_eq_true hs] using h)

/-- An option string, possibly abbreviated, with a value. -/
theorem classify_eq {n f : Text} (hn : '=' ∉ n) (hd : n.head? = some '-') (h2 : n.tail ≠ []) {m : Text} (hc : classify n = some (.opt (some .input) m none))
    (hp : n = "-i".toList ∨ "--".toList.isPrefixOf n = true) : ∃ m, classify (n ++ '=' :: f) = some (.opt (some .input) m (some f)) := by
  cases n with
  | nil => cases hd
  | cons c cs =>
    have hc' : c = '-' := by simpa using hd
    subst hc'
    have e0 : cs ≠ [] := h2
    have hl : lookup ('-' :: cs ++ '=' :: f) = none := lookup_none (by simp)
    have hs := splitEq_append (f := f) hn
    rw [List.cons_append] at hl hs ⊢
    simp only [classify, ne_eq, not_true_eq_false, if_false, hl, hs, Option.bind_some]
    have e1 : (cs ++ '=' :: f).isEmpty = false := by cases cs <;> rfl
    rw [e1]
    simp only [Bool.false_eq_true, if_false]
    simp only [classify, ne_eq, not_true_eq_false, if_false] at hc
    cases hlk : lookup ('-' :: cs) with
    | some a =>
      rw [hlk] at hc
      simp only [Option.some.injEq, Kind.opt.injEq, and_true] at hc
      exact ⟨'-' :: cs, by simp [hc.1]⟩
    | none =>
      rw [hlk] at hc
      have e2 : cs.isEmpty = false := by cases cs <;> simp_all
      have e3 : splitEq ('-' :: cs) = none := by
        clear * - hn
        generalize '-' :: cs = n at hn
        induction n with
        | nil => rfl
        | cons c cs ih =>
          simp only [List.mem_cons, not_or] at hn
          simp [splitEq, Ne.symm hn.1, ih hn.2]
      simp only [e2, Bool.false_eq_true, if_false, e3, Option.bind_none] at hc
      simp only [Option.map_none]
      rcases hp with hp | hp
      · rw [hp] at hlk
        exact absurd hlk (by decide)
      · have ht : ∀ g, optionTuples ('-' :: (cs ++ '=' :: g)) = (optionTuples ('-' :: cs)).map fun t => (t.1, t.2.1, some g) := by
          intro g
          have hp' : "--".toList.isPrefixOf ('-' :: (cs ++ '=' :: g)) = true := by
            cases cs with
            | nil => exact absurd rfl e0
            | cons d ds =>
              have : d = '-' := by
                have h := hp
                simp [List.isPrefixOf] at h
                exact h.symm
              subst this
              simp [List.isPrefixOf]
          have hs' := splitEq_append (f := g) hn
          rw [List.cons_append] at hs'
          unfold optionTuples
          simp only [hp, hp', if_true, hs', e3, List.map_map]
          rfl
        rw [ht]
        cases hot : optionTuples ('-' :: cs) with
        | nil =>
          rw [hot] at hc
          simp only at hc
          split_ifs at hc <;> simp at hc
        | cons t ts =>
          cases ts with
          | nil =>
            rw [hot] at hc
            simp only [Option.some.injEq, Kind.opt.injEq] at hc
            exact ⟨t.2.1, by simp [hc.1]⟩
          | cons t' ts =>
            rw [hot] at hc
            simp at hc

theorem classify_joined {f : Text} (h0 : f ≠ []) (h1 : f.head? ≠ some '=') : classify ("-i".toList ++ f) = some (.opt (some .input) "-i".toList (some f)) := by
  have e : "-i".toList ++ f = '-' :: 'i' :: f := rfl
  have hl : lookup ('-' :: 'i' :: f) = none := by
    simp [lookup, options, Ne.symm h0]
  have hs : ∀ p, splitEq ('-' :: 'i' :: f) = some p → lookup p.1 = none := by
    intro p hp
    cases f with
    | nil => exact absurd rfl h0
    | cons c cs =>
      have hc : c ≠ '=' := by simpa using h1
      simp only [splitEq, if_neg hc, show ('-' = '=') = False by decide, show ('i' = '=') = False by decide, if_false, Option.map_map] at hp
      cases hq : splitEq cs with
      | none => rw [hq] at hp; cases hp
      | some q =>
        rw [hq] at hp
        simp only [Option.map_some, Option.some.injEq] at hp
        subst hp
        simp [lookup, options]
  rw [e]
  simp only [classify, ne_eq, not_true_eq_false, if_false, hl, List.isEmpty_cons, Bool.false_eq_true]
  have hb : ((splitEq ('-' :: 'i' :: f)).bind fun p => (lookup p.1).map fun a => (a, p)) = none := by
    cases hq : splitEq ('-' :: 'i' :: f) with
    | none => rfl
    | some p => simp [hs p hq]
  have ht : optionTuples ('-' :: 'i' :: f) = [(.input, "-i".toList, some f)] := by
    simp [optionTuples, options, List.isPrefixOf]
  simp only [hb, ht]

theorem ne_sep_of_eq {s : Text} (h : '=' ∈ s) : s ≠ "--".toList := by
  rintro rfl
  exact absurd h (by decide)

theorem consume_flag (n s : Text) (l : List (Kind × Text)) (f : Found) :
    consume ((.opt (some .detailed) n none, s) :: l) f = consume l { f with detailed := true } := by
  conv_lhs => unfold consume
  rfl

theorem consume_value (n s v : Text) (l : List (Kind × Text)) (f : Found) :
    consume ((.opt (some .input) n (some v), s) :: l) f = consume l { f with input := some v } := by
  have hc : cluster .input n v = .ok [(.input, some v)] := by
    unfold cluster
    rfl
  rw [consume]
  simp only [hc]
  rfl

/-- One way to say something is read as it is meant. -/
theorem says_step {i : Item} {c : List Text} (h : Says i c) :
    ∃ ks, (∀ rest, classifyAll (c ++ rest) = (classifyAll rest).map (ks ++ ·)) ∧ ∀ l f, consume (ks ++ l) f = consume l (f.add i) := by
  cases h with
  | short f hf =>
    refine ⟨[(.opt (some .input) "-i".toList none, "-i".toList), (.arg, f)], fun rest => ?_, fun l g => ?_⟩
    · have h1 : classify "-i".toList = some (.opt (some .input) "-i".toList none) := by decide
      have h2 : "-i".toList ≠ "--".toList := by decide
      simp only [List.cons_append, List.nil_append, classifyAll, if_neg h2, if_neg (plain_ne_sep hf), h1, classify_plain hf, Option.bind_some, Option.map_map]
      rfl
    · simp [consume, Act.takesArg, act, Found.add, Except.bind]
  | long n f hn hf =>
    obtain ⟨m, hm, hs⟩ := classify_input hn
    refine ⟨[(.opt (some .input) m none, n), (.arg, f)], fun rest => ?_, fun l g => ?_⟩
    · simp only [List.cons_append, List.nil_append, classifyAll, if_neg hs, if_neg (plain_ne_sep hf), hm, classify_plain hf, Option.bind_some, Option.map_map]
      rfl
    · simp [consume, Act.takesArg, act, Found.add, Except.bind]
  | joined f h0 h1 =>
    refine ⟨[(.opt (some .input) "-i".toList (some f), "-i".toList ++ f)], fun rest => ?_, fun l g => ?_⟩
    · have h2 : "-i".toList ++ f ≠ "--".toList := by
        rw [show "-i".toList ++ f = '-' :: 'i' :: f from rfl]
        simp
      simp only [List.cons_append, List.nil_append, classifyAll, if_neg h2, classify_joined h0 h1, Option.bind_some]
    · exact consume_value _ _ _ _ _
  | shortEq f =>
    obtain ⟨m, hm⟩ := classify_eq (n := "-i".toList) (f := f) (by decide) rfl (by decide) (m := "-i".toList) (by decide) (.inl rfl)
    refine ⟨[(.opt (some .input) m (some f), "-i".toList ++ '=' :: f)], fun rest => ?_, fun l g => ?_⟩
    · rw [show "-i=".toList ++ f = "-i".toList ++ '=' :: f from rfl]
      have h2 : "-i".toList ++ '=' :: f ≠ "--".toList := ne_sep_of_eq (by simp)
      rw [List.singleton_append, classifyAll, if_neg h2, hm]
      rfl
    · exact consume_value _ _ _ _ _
  | longEq n f hn =>
    obtain ⟨m', hm', -⟩ := classify_input hn
    have key : ∀ n ∈ (List.range 10).map fun k => "--input-file".toList.take (k + 3),
      '=' ∉ n ∧ n.head? = some '-' ∧ n.tail ≠ [] ∧ "--".toList.isPrefixOf n = true := by decide
    obtain ⟨k1, k2, k3, k4⟩ := key n (abbreviated_input hn)
    obtain ⟨m, hm⟩ := classify_eq (f := f) k1 k2 k3 hm' (.inr k4)
    refine ⟨[(.opt (some .input) m (some f), n ++ '=' :: f)], fun rest => ?_, fun l g => ?_⟩
    · have h2 : n ++ '=' :: f ≠ "--".toList := ne_sep_of_eq (by simp)
      rw [List.singleton_append, classifyAll, if_neg h2, hm]
      rfl
    · exact consume_value _ _ _ _ _
  | flag =>
    refine ⟨[(.opt (some .detailed) "-d".toList none, "-d".toList)], fun rest => ?_, fun l g => ?_⟩
    · have h1 : classify "-d".toList = some (.opt (some .detailed) "-d".toList none) := by decide
      have h2 : "-d".toList ≠ "--".toList := by decide
      simp only [List.cons_append, List.nil_append, classifyAll, if_neg h2, h1, Option.bind_some]
    · exact consume_flag _ _ _ _
  | longFlag n hn =>
    obtain ⟨m, hm, hs⟩ := classify_detailed hn
    refine ⟨[(.opt (some .detailed) m none, n)], fun rest => ?_, fun l g => ?_⟩
    · simp only [List.cons_append, List.nil_append, classifyAll, if_neg hs, hm, Option.bind_some]
    · exact consume_flag _ _ _ _

theorem says_all {is : List Item} {cs : List (List Text)} (h : List.Forall₂ Says is cs) :
    ∃ ks, (∀ rest, classifyAll (cs.flatten ++ rest) = (classifyAll rest).map (ks ++ ·)) ∧ ∀ l f, consume (ks ++ l) f = consume l (is.foldl Found.add f) := by
  induction h with
  | nil => exact ⟨[], fun rest => by cases h : classifyAll rest <;> simp [h], fun _ _ => rfl⟩
  | cons h _ ih =>
    obtain ⟨k1, a1, b1⟩ := says_step h
    obtain ⟨k2, a2, b2⟩ := ih
    refine ⟨k1 ++ k2, fun rest => ?_, fun l f => ?_⟩
    · rw [List.flatten_cons, List.append_assoc, a1, a2, Option.map_map]
      congr 1
      funext l
      simp
    · rw [List.append_assoc, b1, b2]
      rfl

theorem foldl_add (is : List Item) (f : Found) :
    is.foldl Found.add f = ⟨(file is).or f.input, f.detailed || is.contains .detailed, f.extras⟩ := by
  induction is generalizing f with
  | nil => simp [file]
  | cons i is ih =>
    rw [List.foldl_cons, ih]
    cases i with
    | input t => cases h : file is <;> simp [file, h, Found.add]
    | detailed => cases h : file is <;> simp [file, h, Found.add]

/-- **C98**: a command line made of any number of requests, each said in any of the ways, in any order, is read as it is meant: the last file named is the
configuration file, and details are shown exactly when asked for. -/
theorem C98_understood (is : List Item) (cs : List (List Text)) (h : List.Forall₂ Says is cs) :
    parseArgs cs.flatten = .args (file is) (is.contains .detailed) := by
  obtain ⟨ks, h1, h2⟩ := says_all h
  have h1' := h1 []
  have h2' := h2 [] {}
  rw [List.append_nil] at h1' h2'
  unfold parseArgs
  rw [h1', classifyAll]
  simp only [Option.map_some, List.append_nil, h2', consume, foldl_add]
  simp

/-- All the ways to say it, in one line: the last file counts. -/
example : parseArgs (["--input-f=a.yml", "-d", "-ib.yml", "--det", "-i", "c=d.yml"].map String.toList) = .args (some "c=d.yml".toList) true := by
  have h := C98_understood [.input "a.yml".toList, .detailed, .input "b.yml".toList, .detailed, .input "c=d.yml".toList]
    [["--input-f=a.yml".toList], ["-d".toList], ["-ib.yml".toList], ["--det".toList], ["-i".toList, "c=d.yml".toList]]
    (.cons (.longEq "--input-f".toList _ ⟨by decide, by decide⟩) (.cons .flag (.cons (.joined "b.yml".toList (by decide) (by decide))
      (.cons (.longFlag "--det".toList ⟨by decide, by decide⟩) (.cons (.short _ (by unfold Plain; decide)) .nil)))))
  exact h

/-! ### C99 -/

/-- **C99**, the command line: a word that belongs to no option makes it a usage error, wherever the word is. -/
theorem C99_stray (is js : List Item) (cs ds : List (List Text)) (h : List.Forall₂ Says is cs) (h' : List.Forall₂ Says js ds) (w : Text) (hw : Plain w) :
    parseArgs (cs.flatten ++ w :: ds.flatten) = .exit 2 := by
  obtain ⟨ks, h1, h2⟩ := says_all h
  obtain ⟨ls, l1, l2⟩ := says_all h'
  have l1' := l1 []
  have l2' := fun f => l2 [] f
  simp only [List.append_nil] at l1' l2'
  unfold parseArgs
  rw [h1, classifyAll, if_neg (plain_ne_sep hw), classify_plain hw, l1', classifyAll]
  simp only [Option.map_some, Option.bind_some, List.append_nil, h2, consume, l2', foldl_add]
  simp

/-- A request for the help text or the version. -/
def Spec.Info (s : Text) : Prop := s ∈ ["-h", "--help", "-v", "--version"].map String.toList

/-- **C99**, the command line: a request for the help text or the version, after any other requests, ends the program with status 0. -/
theorem C99_info (is js : List Item) (cs ds : List (List Text)) (h : List.Forall₂ Says is cs) (h' : List.Forall₂ Says js ds) (s : Text) (hs : Info s) :
    parseArgs (cs.flatten ++ s :: ds.flatten) = .exit 0 := by
  obtain ⟨ks, h1, h2⟩ := says_all h
  obtain ⟨ls, l1, l2⟩ := says_all h'
  have l1' := l1 []
  simp only [List.append_nil] at l1'
  have key : ∀ s ∈ ["-h", "--help", "-v", "--version"].map String.toList, s ≠ "--".toList ∧
      (classify s = some (.opt (some .help) s none) ∨ classify s = some (.opt (some .version) s none)) := by decide
  obtain ⟨k1, k2⟩ := key s hs
  unfold parseArgs
  rcases k2 with k2 | k2 <;>
  · rw [h1, classifyAll, if_neg k1, k2, l1', classifyAll]
    simp only [Option.map_some, Option.bind_some, List.append_nil, h2]
    unfold consume
    simp [Act.takesArg, act, Except.bind]

section
variable {F : Type} [PyMath F] (x : Ext F) (load : Content → Except PyErr (Config F)) (fs : Text → Option Content) (pos : Nat)

/-- **C99**: without arguments the help text is printed; nothing else happens. -/
theorem C99_no_arguments : program x load [] fs pos = some ⟨.normal, [.help], fs⟩ := rfl

/-- **C99**: a command line that is refused, or that asks for the help text or the version, has no effect: no configuration is read and no file is changed. -/
theorem C99_no_effect (argv : List Text) (hne : argv ≠ []) (n : Nat) (h : parseArgs argv = .exit n) :
    program x load argv fs pos = some ⟨.exit n, [], fs⟩ := by
  unfold program
  rw [if_neg (by simpa using hne), h]

/-! ### C101 -/

/-- **C101**, the part that holds: a command line without configuration file has no effect on files.  Missing: it is not refused with a usage message. -/
theorem C101_no_file_partial (is : List Item) (cs : List (List Text)) (h : List.Forall₂ Says is cs) (hne : cs.flatten ≠ []) (hf : file is = none) :
    program x load cs.flatten fs pos = some ⟨.raised .typeError, [], fs⟩ := by
  unfold program
  rw [if_neg (by simpa using hne), C98_understood is cs h, hf]

/-! ### C100 -/

/-- **C100**, the part that holds: without `-d`, a configuration file that does not exist is reported, an exception is raised, and no file is changed.
Missing: with `-d`, see `C100_fails`. -/
theorem C100_missing_partial (argv : List Text) (name : Text) (h : parseArgs argv = .args (some name) false) (he : x.exists_ name = false)
    (hf : fs name = none) : ∃ e, program x load argv fs pos = some ⟨.raised e, [.noInputFile, .help], fs⟩ := by
  have hne : argv ≠ [] := by
    rintro rfl
    have h0 : parseArgs [] = .args none false := by decide
    rw [h0] at h
    cases h
  unfold program
  rw [if_neg (by simpa using hne), h]
  simp only [he, buildLogger, Bool.false_eq_true, if_false, loadContext, hf]
  by_cases h0 : name.isEmpty = true
  · exact ⟨_, by rw [if_pos h0]⟩
  · exact ⟨_, by rw [if_neg h0]⟩

/-! ### C102 -/

/-- **C102**: whatever the command line, the program changes no file except the output files named in the configuration it was given, and `debug.log` if
details are asked for. -/
theorem C102_only_outputs (argv : List Text) (r : Report F) (h : program x load argv fs pos = some r) (q : Text) :
    r.fs q = fs q ∨ ∃ name d, parseArgs argv = .args (some name) d ∧ ((q = logFile ∧ d = true) ∨
      ∃ c cfg, (fs name = some c ∨ name = logFile ∧ d = true) ∧ load c = .ok cfg ∧ Output cfg q) := by
  unfold program at h
  split at h
  · cases h; exact .inl rfl
  · cases hp : parseArgs argv with
    | exit n => rw [hp] at h; cases h; exact .inl rfl
    | crash e => rw [hp] at h; cases h; exact .inl rfl
    | args i d =>
      rw [hp] at h
      cases i with
      | none => cases h; exact .inl rfl
      | some name =>
        simp only at h
        cases hl : buildLogger x d fs with
        | error e => rw [hl] at h; cases h; exact .inl rfl
        | ok fs1 =>
          rw [hl] at h
          simp only at h
          have hfs1 : ∀ q, fs1 q = fs q ∨ (q = logFile ∧ d = true) := by
            intro q
            unfold buildLogger at hl
            split at hl
            · next hd =>
              obtain ⟨_, -, hl⟩ := Nrml.bind_ok hl
              cases hl
              by_cases hq : q = logFile
              · exact .inr ⟨hq, hd⟩
              · exact .inl (by simp [hq])
            · cases hl; exact .inl rfl
          cases hc : loadContext load name fs1 with
          | error e =>
            rw [hc] at h
            cases h
            rcases hfs1 q with h | h
            · exact .inl h
            · exact .inr ⟨name, d, rfl, .inl h⟩
          | ok cfg =>
            rw [hc] at h
            simp only at h
            cases hm : main x cfg fs1 pos with
            | none => rw [hm] at h; cases h
            | some o =>
              rw [hm] at h
              cases h
              by_cases ho : Output cfg q
              · right
                refine ⟨name, d, rfl, .inr ?_⟩
                unfold loadContext at hc
                split at hc
                · cases hc
                · cases hn : fs1 name with
                  | none => rw [hn] at hc; cases hc
                  | some c =>
                    rw [hn] at hc
                    refine ⟨c, cfg, ?_, hc, ho⟩
                    rcases hfs1 name with h | h
                    · exact .inl (h ▸ hn)
                    · exact .inr h
              · rw [show (Report.fs _) q = o.world.fs q from rfl, C95_only_outputs x cfg fs1 pos o hm q ho]
                rcases hfs1 q with h | h
                · exact .inl h
                · exact .inr ⟨name, d, rfl, .inl h⟩

end

/-! ### What does not hold -/

/-- Statement of C100. -/
def Spec.MissingConfiguration : Prop :=
  ∀ (x : Ext ℝ) (load : Content → Except PyErr (Config ℝ)) (argv : List Text) (name : Text) (d : Bool) (fs : Text → Option Content) (pos : Nat),
    parseArgs argv = .args (some name) d → x.exists_ name = false → fs name = none →
    ∃ e, program x load argv fs pos = some ⟨.raised e, [.noInputFile, .help], fs⟩

/-- **C100 fails**: with `-d` the log file is created before the configuration is read. -/
theorem C100_fails : ¬ Spec.MissingConfiguration := by
  intro H
  obtain ⟨e, he⟩ := H { x31 with exists_ := fun _ => false, openable := fun _ => true } (fun _ => .error .keyError) [['-', 'd'], ['-', 'i'], ['c']] ['c'] true
    (fun _ => none) 0 (by decide) rfl rfl
  have : (none : Option Content) = some (.text []) := by
    have h2 : program { x31 with exists_ := fun _ => false, openable := fun _ => true } (fun _ => .error .keyError) [['-', 'd'], ['-', 'i'], ['c']]
        (fun _ => none) 0 = some ⟨.raised .ioError, [.noInputFile, .help], fun q => if q = logFile then some (.text []) else none⟩ := by
      have hp : parseArgs [['-', 'd'], ['-', 'i'], ['c']] = .args (some ['c']) true := by decide
      have hc : ¬ (['c'] : Text) = logFile := by decide
      unfold program
      simp [hp, buildLogger, openWrite, loadContext, bind, Except.bind, hc]
    rw [h2] at he
    have h3 := congrArg Report.fs (Option.some.inj he)
    have h4 := congrFun h3 logFile
    simp at h4
  cases this

/-- Statement of C101. -/
def Spec.NoConfiguration : Prop :=
  ∀ (x : Ext ℝ) (load : Content → Except PyErr (Config ℝ)) (is : List Item) (cs : List (List Text)) (fs : Text → Option Content) (pos : Nat),
    List.Forall₂ Says is cs → cs.flatten ≠ [] → file is = none → ∃ r, program x load cs.flatten fs pos = some r ∧ r.ended = .exit 2

/-- **C101 fails**: `-d` alone ends in an uncaught `TypeError`. -/
theorem C101_fails : ¬ Spec.NoConfiguration := by
  intro H
  obtain ⟨r, h1, h2⟩ := H x31 (fun _ => .error .keyError) [.detailed] [["-d".toList]] (fun _ => none) 0 (.cons .flag .nil) (by simp) rfl
  rw [C101_no_file_partial x31 (fun _ => .error .keyError) (fun _ => none) 0 [.detailed] [["-d".toList]] (.cons .flag .nil) (by simp) rfl] at h1
  cases h1
  cases h2

/-- A run of the program that writes its files. -/
example : ∃ r, program x31 (fun _ => .ok config31) [['-', 'i'], ['c']] (fun q => if q = ['c'] then some (.text []) else fs31 "5" q) 0 = some r ∧
    r.ended = .normal ∧ r.fs "other.txt".toList = none := by
  obtain ⟨w, hw⟩ := run31_exists
  obtain ⟨o, ho, h1, -, -, h2⟩ := C96_inputs x31 config31 (fs31 "5") (fun q => if q = ['c'] then some (.text []) else fs31 "5" q) 0 (by
    intro q hq
    have := inputs31 q hq
    subst this
    exact (if_neg (by decide)).symm) _ hw
  have hp : parseArgs [['-', 'i'], ['c']] = .args (some ['c']) false := by decide
  have he : program x31 (fun _ => .ok config31) [['-', 'i'], ['c']] (fun q => if q = ['c'] then some (.text []) else fs31 "5" q) 0 =
      some ⟨.normal, if x31.exists_ ['c'] then [] else [.noInputFile, .help], o.world.fs⟩ := by
    unfold program
    simp [hp, buildLogger, loadContext, ho, h1]
  refine ⟨_, he, rfl, ?_⟩
  rcases C102_only_outputs x31 _ _ _ _ _ he "other.txt".toList with h | ⟨name, d, h3, h4 | ⟨c, cfg, -, h5, h6⟩⟩
  · exact h.trans ((if_neg (by decide)).trans (if_neg (by decide)))
  · exact absurd h4.1 (by decide)
  · cases h5
    exact absurd h6 (not_output31 _ (by decide) (by decide) (by decide))

example : parseArgs (["-d", "stray", "-ia"].map String.toList) = .exit 2 :=
  C99_stray [.detailed] [.input "a".toList] [["-d".toList]] [["-ia".toList]] (.cons .flag .nil) (.cons (.joined "a".toList (by decide) (by decide)) .nil)
    "stray".toList (by unfold Plain; decide)

example : parseArgs (["-d", "--version", "-ia"].map String.toList) = .exit 0 :=
  C99_info [.detailed] [.input "a".toList] [["-d".toList]] [["-ia".toList]] (.cons .flag .nil) (.cons (.joined "a".toList (by decide) (by decide)) .nil)
    "--version".toList (by unfold Info; decide)

end Verif.Console
