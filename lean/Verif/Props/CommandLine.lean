import Verif.Props.Console

/-!
# C135: what can become of a command line
-/

namespace Verif.Console

open Verif Verif.EqCatalog Verif.Workflow Verif.Workflow.Spec

/-- An argument that begins with a dash contains the letter. -/
def Spec.Mentions (argv : List Text) (c : Char) : Prop := ∃ s ∈ argv, s.head? = some '-' ∧ c ∈ s

open Spec

/-- The letter of the action. -/
def Letter (a : Act) (t : Text) : Prop := (a = .help → 'h' ∈ t) ∧ (a = .version → 'v' ∈ t) ∧ (a = .detailed → 'd' ∈ t)

/-- What is known of a classified argument. -/
def Good (argv : List Text) (p : Kind × Text) : Prop :=
  p.2 ∈ argv ∧ ∀ a n ex, p.1 = .opt (some a) n ex → p.2.head? = some '-' ∧ Letter a p.2 ∧ ∀ e, ex = some e → e <:+ p.2 ∧ (e = [] → p.2.getLast? = some '=')

theorem splitEq_some {s a b : Text} (h : splitEq s = some (a, b)) : s = a ++ '=' :: b := by
  induction s generalizing a with
  | nil => cases h
  | cons c cs ih =>
    unfold splitEq at h
    split_ifs at h with hc
    · cases h; simp [hc]
    · rw [Option.map_eq_some_iff] at h
      obtain ⟨⟨u, v⟩, h1, h2⟩ := h
      cases h2
      rw [ih h1]; rfl

theorem lookup_letter {s : Text} {a : Act} (h : lookup s = some a) : Letter a s ∧ (s, a) ∈ options := by
  unfold lookup at h
  rw [Option.map_eq_some_iff] at h
  obtain ⟨o, h1, h2⟩ := h
  have hm := List.mem_of_find?_eq_some h1
  have he : o.1 = s := by simpa using List.find?_some h1
  subst he h2
  refine ⟨?_, hm⟩
  have key : ∀ o ∈ options, (o.2 = .help → 'h' ∈ o.1) ∧ (o.2 = .version → 'v' ∈ o.1) ∧ (o.2 = .detailed → 'd' ∈ o.1) := by decide
  exact key o hm

theorem letter_append {a : Act} {s u : Text} (h : Letter a s) : Letter a (s ++ u) :=
  ⟨fun e => by simp [h.1 e], fun e => by simp [h.2.1 e], fun e => by simp [h.2.2 e]⟩

/-- An abbreviation of a single option has a letter. -/
theorem abbreviation_letter {pre : Text} {a : Act} {n : Text} {ex ex' : Option Text} (hd : "--".toList.isPrefixOf pre = true)
    (h : (options.filter fun o => pre.isPrefixOf o.1).map (fun o => (o.2, o.1, ex)) = [(a, n, ex')]) : Letter a pre ∧ ex' = ex := by
  have hm : (a, n, ex') ∈ (options.filter fun o => pre.isPrefixOf o.1).map (fun o => (o.2, o.1, ex)) := by rw [h]; simp
  rw [List.mem_map] at hm
  obtain ⟨o, ho, he⟩ := hm
  rw [List.mem_filter] at ho
  obtain ⟨ho, hp⟩ := ho
  simp only [Prod.mk.injEq] at he
  obtain ⟨rfl, rfl, rfl⟩ := he
  refine ⟨?_, rfl⟩
  have hl : 3 ≤ pre.length := by
    by_contra hc
    have : pre = "--".toList := by
      rw [List.isPrefixOf_iff_prefix] at hd
      obtain ⟨u, rfl⟩ := hd
      have : u = [] := by
        have : ("--".toList ++ u).length = 2 + u.length := by simp; omega
        exact List.length_eq_zero_iff.mp (by omega)
      simp [this]
    rw [this] at h
    have h4 := congrArg List.length h
    rw [List.length_map] at h4
    have h5 : (options.filter fun o => "--".toList.isPrefixOf o.1).length = 4 := by decide
    rw [h5] at h4
    simp at h4
  rw [List.isPrefixOf_iff_prefix] at hp
  have e := List.prefix_iff_eq_take.1 hp
  have hlen := hp.length_le
  have key : ∀ o ∈ options, ∀ k ∈ List.range 13, 3 ≤ k → "--".toList.isPrefixOf (o.1.take k) = true →
      (o.2 = .help → 'h' ∈ o.1.take k) ∧ (o.2 = .version → 'v' ∈ o.1.take k) ∧ (o.2 = .detailed → 'd' ∈ o.1.take k) := by decide
  have h12 : ∀ o ∈ options, o.1.length < 13 := by decide
  have := key o ho pre.length (List.mem_range.mpr (lt_of_le_of_lt hlen (h12 o ho))) hl (by rw [← e]; exact hd)
  rw [← e] at this
  exact this

theorem tuples_good {s : Text} {a : Act} {n : Text} {ex : Option Text} (hl : lookup s = none) (h2 : 2 ≤ s.length) (h : optionTuples s = [(a, n, ex)]) :
    Letter a s ∧ ∀ e, ex = some e → e <:+ s ∧ (e = [] → s.getLast? = some '=') := by
  unfold optionTuples at h
  split_ifs at h with hd
  · cases hs : splitEq s with
    | none =>
      rw [hs] at h
      obtain ⟨h1, rfl⟩ := abbreviation_letter hd h
      exact ⟨h1, by simp⟩
    | some p =>
      obtain ⟨u, v⟩ := p
      rw [hs] at h
      have e := splitEq_some hs
      have hd' : "--".toList.isPrefixOf u = true := by
        rw [List.isPrefixOf_iff_prefix] at hd ⊢
        rw [e] at hd
        obtain ⟨w, hw⟩ := hd
        rcases u with _ | ⟨c, _ | ⟨d, u⟩⟩
        · simp at hw
        · simp at hw
        · simp at hw
          obtain ⟨rfl, rfl, _⟩ := hw
          exact ⟨u, by simp⟩
      obtain ⟨h1, rfl⟩ := abbreviation_letter hd' h
      refine ⟨by rw [e]; exact letter_append h1, fun w hw => ?_⟩
      cases hw
      rw [e]
      exact ⟨⟨u ++ ['='], by simp⟩, by rintro rfl; simp⟩
  · have hm : (a, n, ex) ∈ options.filterMap fun o =>
        if o.1 = s.take 2 then some (o.2, o.1, some (s.drop 2)) else if s.isPrefixOf o.1 then some (o.2, o.1, none) else none := by rw [h]; simp
    rw [List.mem_filterMap] at hm
    obtain ⟨o, ho, he⟩ := hm
    split_ifs at he with c1 c2
    · simp only [Option.some.injEq, Prod.mk.injEq] at he
      obtain ⟨rfl, rfl, rfl⟩ := he
      have key : ∀ o ∈ options, (o.2 = .help → 'h' ∈ o.1) ∧ (o.2 = .version → 'v' ∈ o.1) ∧ (o.2 = .detailed → 'd' ∈ o.1) := by decide
      have hs : s = o.1 ++ s.drop 2 := by rw [c1]; simp
      refine ⟨by rw [hs]; exact letter_append (key o ho), fun e he => ?_⟩
      cases he
      refine ⟨List.drop_suffix _ _, fun hn => ?_⟩
      rw [hn, List.append_nil] at hs
      exfalso
      unfold lookup at hl
      rw [Option.map_eq_none_iff, List.find?_eq_none] at hl
      exact hl o ho (by simp [hs])
    · exfalso
      rw [List.isPrefixOf_iff_prefix] at c2
      have e := List.prefix_iff_eq_take.1 c2
      have key : ∀ o ∈ options, ∀ k ∈ List.range 13, 2 ≤ k → k ≤ o.1.length → "--".toList.isPrefixOf (o.1.take k) = true ∨ o.1.take k = o.1 := by decide
      have h12 : ∀ o ∈ options, o.1.length < 13 := by decide
      rcases key o ho s.length (List.mem_range.mpr (lt_of_le_of_lt c2.length_le (h12 o ho))) h2 c2.length_le with k | k
      · rw [← e] at k; exact hd k
      · rw [← e] at k
        unfold lookup at hl
        rw [Option.map_eq_none_iff, List.find?_eq_none] at hl
        exact hl o ho (by simp [k])

theorem classify_good {argv : List Text} {s : Text} {k : Kind} (hs : s ∈ argv) (h : classify s = some k) : Good argv (k, s) := by
  refine ⟨hs, ?_⟩
  rintro a n ex rfl
  unfold classify at h
  cases s with
  | nil => simp at h
  | cons c cs =>
    simp only at h
    have hc : c = '-' := by
      by_contra hc
      rw [if_pos hc] at h
      simp at h
    subst hc
    rw [if_neg (by simp)] at h
    refine ⟨rfl, ?_⟩
    cases hl : lookup ('-' :: cs) with
    | some b =>
      rw [hl] at h
      simp only [Option.some.injEq, Kind.opt.injEq] at h
      obtain ⟨rfl, rfl, rfl⟩ := h
      exact ⟨(lookup_letter hl).1, by simp⟩
    | none =>
      rw [hl] at h
      simp only at h
      have he : ¬ cs.isEmpty = true := by
        intro he
        rw [if_pos he] at h
        simp at h
      rw [if_neg he] at h
      cases hb : (splitEq ('-' :: cs)).bind fun p => (lookup p.1).map fun a => (a, p) with
      | some p =>
        obtain ⟨b, u, v⟩ := p
        rw [hb] at h
        simp only [Option.some.injEq, Kind.opt.injEq] at h
        obtain ⟨rfl, rfl, rfl⟩ := h
        rw [Option.bind_eq_some_iff] at hb
        obtain ⟨⟨u', v'⟩, h1, h2⟩ := hb
        rw [Option.map_eq_some_iff] at h2
        obtain ⟨b', h2, h3⟩ := h2
        simp only [Prod.mk.injEq] at h3
        obtain ⟨rfl, rfl, rfl⟩ := h3
        rw [splitEq_some h1]
        refine ⟨letter_append (lookup_letter h2).1, fun e he => ?_⟩
        cases he
        exact ⟨⟨u' ++ ['='], by simp⟩, by rintro rfl; simp⟩
      | none =>
        rw [hb] at h
        simp only at h
        have hlen : 2 ≤ ('-' :: cs).length := by
          cases cs with
          | nil => simp at he
          | cons => simp
        split at h
        · rename_i hq
          simp only [Option.some.injEq, Kind.opt.injEq] at h
          obtain ⟨rfl, rfl, rfl⟩ := h
          exact tuples_good hl hlen hq
        · cases h
        · split_ifs at h <;> simp at h

theorem classifyAll_good {argv ss : List Text} (hs : ∀ s ∈ ss, s ∈ argv) {l : List (Kind × Text)} (h : classifyAll ss = some l) : ∀ p ∈ l, Good argv p := by
  induction ss generalizing l with
  | nil => cases h; simp
  | cons s ss ih =>
    unfold classifyAll at h
    split_ifs at h with he
    · cases h
      intro p hp
      rcases List.mem_cons.mp hp with rfl | hp
      · exact ⟨hs _ (by simp), by simp⟩
      · rw [List.mem_map] at hp
        obtain ⟨t, ht, rfl⟩ := hp
        exact ⟨hs _ (by simp [ht]), by simp⟩
    · rw [Option.bind_eq_some_iff] at h
      obtain ⟨k, hk, h⟩ := h
      rw [Option.map_eq_some_iff] at h
      obtain ⟨l', hl, rfl⟩ := h
      intro p hp
      rcases List.mem_cons.mp hp with rfl | hp
      · exact classify_good (hs _ (by simp)) hk
      · exact ih (fun s h => hs s (by simp [h])) hl p hp

theorem classifyAll_length {ss : List Text} {l : List (Kind × Text)} (h : classifyAll ss = some l) : l.length = ss.length := by
  induction ss generalizing l with
  | nil => cases h; rfl
  | cons s ss ih =>
    unfold classifyAll at h
    split_ifs at h with he
    · cases h; simp
    · rw [Option.bind_eq_some_iff] at h
      obtain ⟨k, hk, h⟩ := h
      rw [Option.map_eq_some_iff] at h
      obtain ⟨l', hl, rfl⟩ := h
      simp [ih hl]

/-- What a group of options can be. -/
theorem cluster_spec (a : Act) (n v : Text) {t : Text} (ha : Letter a t) (hv : v <:+ t) :
    (∀ p, cluster a n v = .error p → p = .exit 2 ∨ (p = .crash .indexError ∧ v = [])) ∧
    (∀ as, cluster a n v = .ok as → as ≠ [] ∧ (∀ p ∈ as, Letter p.1 t ∧ ∀ x, p.2 = some x → x <:+ t) ∧
      (.input, none) ∉ as.dropLast) := by
  induction hn : v.length using Nat.strong_induction_on generalizing a n v with
  | _ k ih =>
  subst hn
  rw [cluster.eq_def]
  split_ifs with h1 h2
  · refine ⟨by simp, ?_⟩
    rintro as ⟨⟩
    refine ⟨by simp, ?_, by simp⟩
    intro p hp
    simp only [List.mem_singleton] at hp
    subst hp
    exact ⟨ha, fun x hx => by cases hx; exact hv⟩
  · exact ⟨by rintro p ⟨⟩; exact .inl rfl, by simp⟩
  · have hna : a ≠ .input := by rintro rfl; exact h1 rfl
    cases v with
    | nil => exact ⟨by rintro p ⟨⟩; exact .inr ⟨rfl, rfl⟩, by simp⟩
    | cons c cs =>
      simp only
      cases hl : lookup ['-', c] with
      | none => exact ⟨by rintro p ⟨⟩; exact .inl rfl, by simp⟩
      | some b =>
        simp only
        have hc : c ∈ t := hv.subset (by simp)
        have hb : Letter b t := by
          obtain ⟨l1, l2, l3⟩ := (lookup_letter hl).1
          refine ⟨fun e => ?_, fun e => ?_, fun e => ?_⟩
          · have := l1 e; simp at this; rw [this]; exact hc
          · have := l2 e; simp at this; rw [this]; exact hc
          · have := l3 e; simp at this; rw [this]; exact hc
        have hcs : cs <:+ t := (List.suffix_cons c cs).trans hv
        split_ifs with he
        · refine ⟨by simp, ?_⟩
          rintro as ⟨⟩
          refine ⟨by simp, ?_, ?_⟩
          · intro p hp
            simp only [List.mem_cons, List.not_mem_nil, or_false] at hp
            rcases hp with rfl | rfl
            · exact ⟨ha, by simp⟩
            · exact ⟨hb, by simp⟩
          · simp [Ne.symm hna]
        · obtain ⟨i1, i2⟩ := ih cs.length (by simp) b ['-', c] cs hb hcs rfl
          cases hr : cluster b ['-', c] cs with
          | error p =>
            refine ⟨?_, by simp [Except.map]⟩
            intro q hq
            simp only [Except.map, Except.error.injEq] at hq
            subst hq
            rcases i1 p hr with h | ⟨_, h⟩
            · exact .inl h
            · simp [h] at he
          | ok as =>
            obtain ⟨j1, j2, j3⟩ := i2 as hr
            refine ⟨by simp [Except.map], ?_⟩
            intro as' has
            simp only [Except.map, Except.ok.injEq] at has
            subst has
            refine ⟨by simp, ?_, ?_⟩
            · intro p hp
              rcases List.mem_cons.mp hp with rfl | hp
              · exact ⟨ha, by simp⟩
              · exact j2 p hp
            · rw [List.dropLast_cons_of_ne_nil j1]
              simp [Ne.symm hna, j3]

/-- What is known of what has been found. -/
structure Inv (argv : List Text) (f : Found) : Prop where
  detailed : f.detailed = true → Mentions argv 'd'
  input : ∀ name, f.input = some name → ∃ s ∈ argv, name <:+ s

/-- Something has been found. -/
def Found.some (f : Found) : Prop := f.extras = true ∨ f.detailed = true ∨ f.input.isSome = true

/-- How parsing can end early. -/
def BadEnd (argv : List Text) (p : Parsed) : Prop :=
  p = .exit 2 ∨ (p = .exit 0 ∧ (Mentions argv 'h' ∨ Mentions argv 'v')) ∨ (p = .crash .indexError ∧ ∃ s ∈ argv, s.head? = Option.some '-' ∧ s.getLast? = Option.some '=')

/-- Result of a step of the parser. -/
def StepOk (argv : List Text) (g : Prop) : Except Parsed Found → Prop
  | .error p => BadEnd argv p
  | .ok f => Inv argv f ∧ (g → f.some)

theorem act_step {argv : List Text} {a : Act} {v : Option Text} {f : Found} {t : Text} (ht : t ∈ argv) (hh : t.head? = Option.some '-') (hl : Letter a t)
    (hv : ∀ x, v = Option.some x → ∃ s ∈ argv, x <:+ s) (hn : a = .input → v.isSome = true) (hf : Inv argv f) : StepOk argv True (act a v f) := by
  cases a with
  | help => exact .inr (.inl ⟨rfl, .inl ⟨t, ht, hh, hl.1 rfl⟩⟩)
  | version => exact .inr (.inl ⟨rfl, .inr ⟨t, ht, hh, hl.2.1 rfl⟩⟩)
  | detailed => exact ⟨⟨fun _ => ⟨t, ht, hh, hl.2.2 rfl⟩, hf.input⟩, fun _ => .inr (.inl rfl)⟩
  | input => exact ⟨⟨hf.detailed, hv⟩, fun _ => .inr (.inr (hn rfl))⟩

theorem actAll_step {argv : List Text} {as : List (Act × Option Text)} {f : Found} {t : Text} (ht : t ∈ argv) (hh : t.head? = Option.some '-')
    (has : ∀ p ∈ as, Letter p.1 t ∧ (∀ x, p.2 = Option.some x → ∃ s ∈ argv, x <:+ s) ∧ (p.1 = .input → p.2.isSome = true)) (hf : Inv argv f) :
    StepOk argv (as ≠ [] ∨ f.some) (actAll as f) := by
  induction as generalizing f with
  | nil => exact ⟨hf, by simp⟩
  | cons p as ih =>
    obtain ⟨a, v⟩ := p
    obtain ⟨h1, h2, h3⟩ := has (a, v) (by simp)
    have hs := act_step ht hh h1 h2 h3 hf
    unfold actAll
    cases hr : act a v f with
    | error p => rw [hr] at hs; exact hs
    | ok g =>
      rw [hr] at hs
      have := ih (fun p hp => has p (by simp [hp])) hs.1
      simp only [Except.bind]
      cases hr' : actAll as g with
      | error p => rw [hr'] at this; exact this
      | ok f' => rw [hr'] at this; exact ⟨this.1, fun _ => this.2 (.inr (hs.2 trivial))⟩

theorem bind_step {argv : List Text} {g g' : Prop} {r : Except Parsed Found} {k : Found → Except Parsed Found} (hr : StepOk argv g r)
    (hk : ∀ f, Inv argv f → (g → f.some) → StepOk argv g' (k f)) : StepOk argv g' (r.bind k) := by
  cases r with
  | error p => exact hr
  | ok f => exact hk f hr.1 hr.2

theorem consume_step {argv : List Text} (l : List (Kind × Text)) (f : Found) (hl : ∀ p ∈ l, Good argv p) (hf : Inv argv f) :
    StepOk argv (l ≠ [] ∨ f.some) (consume l f) := by
  induction hn : l.length using Nat.strong_induction_on generalizing l f with
  | _ k ih =>
  subst hn
  -- what remains after a step that found something
  have next : ∀ (l' : List (Kind × Text)) (f' : Found), l'.length < l.length → (∀ p ∈ l', p ∈ l) → Inv argv f' → f'.some →
      StepOk argv (l ≠ [] ∨ f.some) (consume l' f') := by
    intro l' f' h1 h2 h3 h4
    have := ih l'.length h1 l' f' (fun p hp => hl p (h2 p hp)) h3 rfl
    cases hr : consume l' f' with
    | error p => rw [hr] at this; exact this
    | ok g => rw [hr] at this; exact ⟨this.1, fun _ => this.2 (.inr h4)⟩
  have extra : ∀ (p : Kind × Text) (l' : List (Kind × Text)), l = p :: l' → StepOk argv (l ≠ [] ∨ f.some) (consume l' { f with extras := true }) := by
    rintro p l' rfl
    exact next l' _ (by simp) (by simp +contextual) ⟨hf.detailed, hf.input⟩ (.inl rfl)
  match l, hl, next, extra with
  | [], _, _, _ => unfold consume; exact ⟨hf, by simp⟩
  | (.arg, t) :: l, _, _, extra => unfold consume; exact extra _ l rfl
  | (.sep, t) :: l, _, _, extra => unfold consume; exact extra _ l rfl
  | (.opt none _ _, t) :: l, _, _, extra => unfold consume; exact extra _ l rfl
  | (.opt (some a) n (some e), t) :: l, hl, next, _ =>
    obtain ⟨ht, hg⟩ := hl _ (List.mem_cons_self ..)
    obtain ⟨hh, hlet, he⟩ := hg a n (some e) rfl
    obtain ⟨hsuf, hempty⟩ := he e rfl
    obtain ⟨c1, c2⟩ := cluster_spec a n e hlet hsuf
    unfold consume
    cases hc : cluster a n e with
    | error p =>
      rcases c1 p hc with rfl | ⟨rfl, h0⟩
      · exact .inl rfl
      · exact .inr (.inr ⟨rfl, t, ht, hh, hempty h0⟩)
    | ok as =>
      obtain ⟨d1, d2, d3⟩ := c2 as hc
      simp only
      split
      · rename_i hlast
        match l, hl, next with
        | (.arg, u) :: l', hl, next =>
          have hu := (hl (.arg, u) (by simp)).1
          refine bind_step (actAll_step (as := as.dropLast ++ [(Act.input, some u)]) ht hh ?_ hf) ?_
          · intro p hp
            rcases List.mem_append.mp hp with hp | hp
            · obtain ⟨q1, q2⟩ := d2 p (List.dropLast_subset _ hp)
              refine ⟨q1, fun x hx => ⟨t, ht, q2 x hx⟩, fun hi => ?_⟩
              obtain ⟨b, v⟩ := p
              cases v with
              | some => rfl
              | none =>
                simp only at hi
                subst hi
                exact absurd hp d3
            · simp only [List.mem_singleton] at hp
              subst hp
              exact ⟨⟨by simp, by simp, by simp⟩, fun x hx => ⟨u, hu, by cases hx; exact List.suffix_refl _⟩, fun _ => rfl⟩
          · intro f' h1 h2
            exact next l' f' (by simp) (by simp +contextual) h1 (h2 (.inl (by simp)))
        | [], _, _ => exact .inl rfl
        | (.sep, _) :: _, _, _ => exact .inl rfl
        | (.opt _ _ _, _) :: _, _, _ => exact .inl rfl
      · rename_i hlast
        refine bind_step (actAll_step (as := as) ht hh ?_ hf) ?_
        · intro p hp
          obtain ⟨q1, q2⟩ := d2 p hp
          refine ⟨q1, fun x hx => ⟨t, ht, q2 x hx⟩, fun hi => ?_⟩
          obtain ⟨b, v⟩ := p
          cases v with
          | some => rfl
          | none =>
            simp only at hi
            subst hi
            exfalso
            rw [← List.dropLast_append_getLast d1, List.mem_append] at hp
            rcases hp with hp | hp
            · exact d3 hp
            · simp only [List.mem_singleton] at hp
              exact hlast (by rw [List.getLast?_eq_some_getLast d1, ← hp])
        · intro f' h1 h2
          exact next l f' (by simp) (by simp +contextual) h1 (h2 (.inl d1))
  | (.opt (some a) n none, t) :: l, hl, next, _ =>
    obtain ⟨ht, hg⟩ := hl _ (List.mem_cons_self ..)
    obtain ⟨hh, hlet, he⟩ := hg a n none rfl
    unfold consume
    split_ifs with hta
    · match l, hl, next with
      | (.arg, u) :: l', hl, next =>
        have hu := (hl (.arg, u) (by simp)).1
        refine bind_step (act_step ht hh hlet (fun x hx => ⟨u, hu, by cases hx; exact List.suffix_refl _⟩) (fun _ => rfl) hf) ?_
        intro f' h1 h2
        exact next l' f' (by simp) (by simp +contextual) h1 (h2 trivial)
      | [], _, _ => exact .inl rfl
      | (.sep, _) :: _, _, _ => exact .inl rfl
      | (.opt _ _ _, _) :: _, _, _ => exact .inl rfl
    · refine bind_step (act_step ht hh hlet (by simp) (fun h => by subst h; exact absurd rfl hta) hf) ?_
      intro f' h1 h2
      exact next l f' (by simp) (by simp +contextual) h1 (h2 trivial)

/-- **C135**: a command line is refused as a usage error (status 2); or it ends the program with status 0, and then help or version was asked for; or, if an
argument ends with an equals sign, the parser may fail; or it is understood, and then the name of the configuration file is (the end of) an argument,
details are shown only if asked for, and something was asked for unless the command line is empty. -/
theorem C135_outcome (argv : List Text) :
    match parseArgs argv with
    | .exit n => n = 2 ∨ (n = 0 ∧ (Mentions argv 'h' ∨ Mentions argv 'v'))
    | .crash e => e = .indexError ∧ ∃ s ∈ argv, s.head? = some '-' ∧ s.getLast? = some '='
    | .args i d => (∀ name, i = some name → ∃ s ∈ argv, name <:+ s) ∧ (d = true → Mentions argv 'd') ∧ (argv ≠ [] → i ≠ none ∨ d = true) := by
  unfold parseArgs
  cases hc : classifyAll argv with
  | none => exact .inl rfl
  | some l =>
    have hs := consume_step l {} (classifyAll_good (argv := argv) (fun _ h => h) hc) ⟨by simp, by simp⟩
    simp only
    cases hr : consume l {} with
    | error p =>
      rw [hr] at hs
      rcases hs with h | ⟨h, h'⟩ | ⟨h, h'⟩
      · subst h; exact .inl rfl
      · subst h; exact .inr ⟨rfl, h'⟩
      · subst h; exact ⟨rfl, h'⟩
    | ok f =>
      rw [hr] at hs
      obtain ⟨h1, h2⟩ := hs
      simp only
      by_cases he : f.extras = true
      · rw [if_pos he]; exact .inl rfl
      · rw [if_neg he]
        refine ⟨h1.input, h1.detailed, fun hne => ?_⟩
        have hl : l ≠ [] := by
          rintro rfl
          exact hne (List.length_eq_zero_iff.mp (classifyAll_length hc).symm)
        rcases h2 (.inl hl) with h | h | h
        · exact absurd h he
        · exact .inr h
        · left; intro hn; rw [hn] at h; cases h

/-- Each of the outcomes occurs. -/
example : parseArgs (["-dv"].map String.toList) = .exit 0 ∧ parseArgs (["--detailed=x"].map String.toList) = .exit 2 ∧
    parseArgs (["-d="].map String.toList) = .crash .indexError ∧ parseArgs (["-di", "a.yml"].map String.toList) = .args (some "a.yml".toList) true := by
  refine ⟨by decide +kernel, by decide +kernel, by decide +kernel, by decide +kernel⟩

end Verif.Console
