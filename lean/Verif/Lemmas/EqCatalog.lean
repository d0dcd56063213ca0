import Verif.Spec.EqCatalog
import Mathlib.Tactic.FinCases
import Mathlib.Data.List.Perm.Basic
import Mathlib.Data.List.Nodup

/-! Helper lemmas about the catalogue reader model. -/

namespace Verif.EqCatalog

open Verif

variable {F : Type} [PyNum F]

@[simp] theorem Entry.set_same (e : Entry F) (f : Fld) (v : Val F) : e.set f v f = v := by
  simp [Entry.set]

theorem Entry.set_ne (e : Entry F) {f g : Fld} (v : Val F) (h : g ≠ f) : e.set f v g = e g := by
  simp [Entry.set, h]

/-- The value computed for one field by the conversion, or the error. -/
def conv1 (env : Env F) (line : Nat) (f : Fld) (v : Val F) : Except PyErr (Val F) :=
  match conv f with
  | .keep => .ok v
  | .toInt =>
    match v with
    | .str s =>
      match env.parseInt s with
      | some i => .ok (.int i)
      | Option.none => .error (.eqValidation f.name line)
    | .none => .error .typeError
    | v => .ok v
  | .toFloat =>
    match v with
    | .str s =>
      match env.parseFloat s with
      | some x => .ok (.flt x)
      | Option.none => if compulsory f then .error .typeError else .ok blank
    | .none => .error .typeError
    | v => .ok v

theorem Entry.set_self (e : Entry F) (f : Fld) : e.set f (e f) = e := by
  funext g; by_cases h : g = f
  · subst h; simp
  · rw [Entry.set_ne _ _ h]

theorem convertField_some (env : Env F) (line : Nat) (f : Fld) (e : Entry F) :
    convertField env line (some f) e = (conv1 env line f (e f)).map (fun v => e.set f v) := by
  unfold convertField conv1
  have hs := Entry.set_self e f
  cases hc : conv f <;> cases hv : e f with
  | str s =>
    first
      | (cases hp : env.parseInt s <;> simp [Except.map, hp, hc, hv]; done)
      | (cases hp : env.parseFloat s
         · by_cases hcp : compulsory f <;> simp [Except.map, hp, hcp, hc, hv]
         · simp [Except.map, hp, hc, hv])
      | (rw [hv] at hs; simp [Except.map, hc, hs])
  | none => rw [hv] at hs; simp [Except.map, hc, hv, hs]
  | int i => rw [hv] at hs; simp [Except.map, hc, hv, hs]
  | flt x => rw [hv] at hs; simp [Except.map, hc, hv, hs]

/-- The conversion pass is pointwise. -/
theorem convertValues_ok (env : Env F) (line : Nat) (ks : List Key) (e e' : Entry F) (hn : ks.Nodup) :
    convertValues env line ks e = .ok e' ↔
      ∀ f, (some f ∈ ks → conv1 env line f (e f) = .ok (e' f)) ∧ (some f ∉ ks → e' f = e f) := by
  induction ks generalizing e with
  | nil =>
    simp only [convertValues, List.foldlM_nil, pure, Except.pure, Except.ok.injEq, List.not_mem_nil,
      false_implies, not_false_eq_true, forall_true_left, true_and]
    constructor
    · rintro rfl f; rfl
    · intro h; funext f; exact (h f).symm
  | cons k ks ih =>
    have hn' := List.nodup_cons.mp hn
    unfold convertValues
    rw [List.foldlM_cons]
    cases k with
    | none =>
      have h0 : convertField env line Option.none e = .ok e := rfl
      rw [h0]
      have := ih e hn'.2
      unfold convertValues at this
      simp only [bind, Except.bind]
      rw [this]
      simp
    | some g =>
      rw [convertField_some]
      cases hc : conv1 env line g (e g) with
      | error err =>
        simp only [Except.map, bind, Except.bind]
        constructor
        · intro h; simp at h
        · intro h
          have := (h g).1 (by simp)
          rw [hc] at this
          simp at this
      | ok v =>
        simp only [Except.map, bind, Except.bind]
        have := ih (e.set g v) hn'.2
        unfold convertValues at this
        rw [this]
        constructor
        · intro h f
          by_cases hf : f = g
          · subst hf
            constructor
            · intro _
              have := (h f).2 hn'.1
              rw [this]; simpa using hc
            · intro hmem; exact absurd (by simp) hmem
          · have hf' : (some f : Key) ≠ some g := by simpa using hf
            have := h f
            rw [Entry.set_ne _ _ hf] at this
            simpa [hf'] using this
        · intro h f
          by_cases hf : f = g
          · subst hf
            constructor
            · intro hmem; exact absurd hmem hn'.1
            · intro _
              have := (h f).1 (by simp)
              rw [hc] at this
              simpa using this.symm
          · have hf' : (some f : Key) ≠ some g := by simpa using hf
            rw [Entry.set_ne _ _ hf]
            have := h f
            simpa [hf'] using this

/-- Errors of the conversion pass come from some field of the (unconverted) row. -/
theorem convertValues_error (env : Env F) (line : Nat) (ks : List Key) (e : Entry F) (err : PyErr) (hn : ks.Nodup)
    (h : convertValues env line ks e = .error err) :
    ∃ f, some f ∈ ks ∧ conv1 env line f (e f) = .error err := by
  induction ks generalizing e with
  | nil => simp [convertValues, pure, Except.pure] at h
  | cons k ks ih =>
    have hn' := List.nodup_cons.mp hn
    unfold convertValues at h
    rw [List.foldlM_cons] at h
    cases k with
    | none =>
      have h0 : convertField env line Option.none e = .ok e := rfl
      rw [h0] at h
      obtain ⟨f, hf, hh⟩ := ih e hn'.2 h
      exact ⟨f, by simp [hf], hh⟩
    | some g =>
      rw [convertField_some] at h
      cases hc : conv1 env line g (e g) with
      | error err' =>
        rw [hc] at h
        simp only [Except.map, bind, Except.bind, Except.error.injEq] at h
        subst h
        exact ⟨g, by simp, hc⟩
      | ok v =>
        rw [hc] at h
        simp only [Except.map, bind, Except.bind] at h
        obtain ⟨f, hf, hh⟩ := ih (e.set g v) hn'.2 h
        have hne : f ≠ g := by
          rintro rfl; exact hn'.1 hf
        rw [Entry.set_ne _ _ hne] at hh
        exact ⟨f, by simp [hf], hh⟩

/-! ### The check pass -/

/-- Result of the check of one field on the truth value side. -/
def chkOK (env : Env F) (f : Fld) (e : Entry F) : Bool := (checkMap env f f e).1

/-- The entry after the check of one key. -/
def chkStep (env : Env F) (e : Entry F) (k : Key) : Entry F :=
  match k with
  | Option.none => e
  | some f => (checkMap env f f e).2

theorem chkStep_compulsory (env : Env F) (e : Entry F) (k : Key) (g : Fld) (hg : compulsory g = true) :
    chkStep env e k g = e g := by
  cases k with
  | none => rfl
  | some f =>
    cases f <;>
      simp only [chkStep, checkMap, checkPositiveValue, noCheck, checkYear, checkMonth, checkDay, checkHour, checkMinute,
        checkSecond, checkLongitude, checkLatitude, checkEpicentreErrorLocation, checkSigmaMw, compulsory, if_true] <;>
      (try split_ifs) <;> (try rfl) <;>
      (try (cases g <;> simp [compulsory] at hg <;> simp [Entry.set]))

theorem chkOK_congr (env : Env F) (f : Fld) (e e' : Entry F) (hf : compulsory f = true)
    (h : ∀ g, compulsory g = true → e g = e' g) : chkOK env f e = chkOK env f e' := by
  have hm := h .month rfl
  have hff := h f hf
  cases f <;> simp only [compulsory, Bool.false_eq_true] at hf <;>
    simp only [chkOK, checkMap, checkPositiveValue, noCheck, checkYear, checkMonth, checkDay, checkHour, checkMinute,
      checkLongitude, checkLatitude, compulsory, if_true] <;>
    first
      | rw [hff, hm]
      | rw [hff]

theorem checkField_ok (env : Env F) (line : Nat) (f : Fld) (e : Entry F) :
    checkField env line (some f) e =
      if compulsory f = true ∧ chkOK env f e = false then .error (.eqValidation f.name line)
      else .ok (chkStep env e (some f)) := by
  unfold checkField chkOK chkStep
  simp only
  cases h : (checkMap env f f e).1 <;> cases h2 : compulsory f <;> simp_all

/-- The check pass succeeds exactly when there is no surplus cell and every compulsory field passes its check on the
converted entry; the result is the fold of the sanitising steps. -/
theorem checkValues_ok (env : Env F) (line : Nat) (ks : List Key) (e e' : Entry F) :
    checkValues env line ks e = .ok e' ↔
      (Option.none ∉ ks) ∧ (∀ f, some f ∈ ks → compulsory f = true → chkOK env f e = true) ∧
        e' = ks.foldl (chkStep env) e := by
  induction ks generalizing e with
  | nil =>
    simp [checkValues, pure, Except.pure]
    exact eq_comm
  | cons k ks ih =>
    unfold checkValues
    rw [List.foldlM_cons]
    cases k with
    | none => simp [checkField, bind, Except.bind]
    | some f =>
      rw [checkField_ok]
      by_cases hbad : compulsory f = true ∧ chkOK env f e = false
      · rw [if_pos hbad]
        simp only [bind, Except.bind]
        constructor
        · intro h; simp at h
        · rintro ⟨_, h, _⟩
          have := h f (by simp) hbad.1
          rw [hbad.2] at this; simp at this
      · rw [if_neg hbad]
        simp only [bind, Except.bind]
        have := ih (chkStep env e (some f))
        unfold checkValues at this
        rw [this]
        have hcong : ∀ g, compulsory g = true → chkOK env g (chkStep env e (some f)) = chkOK env g e := by
          intro g hg
          exact chkOK_congr env g _ _ hg (fun g' hg' => chkStep_compulsory env e _ g' hg')
        constructor
        · rintro ⟨h1, h2, h3⟩
          refine ⟨by simpa using h1, ?_, by simpa using h3⟩
          intro g hg hcg
          rw [List.mem_cons] at hg
          rcases hg with hg | hg
          · have hgf : g = f := by simpa using hg
            subst hgf
            by_contra hne
            exact hbad ⟨hcg, by simpa using hne⟩
          · rw [← hcong g hcg]; exact h2 g hg hcg
        · rintro ⟨h1, h2, h3⟩
          refine ⟨by simpa using h1, ?_, by simpa using h3⟩
          intro g hg hcg
          rw [hcong g hcg]; exact h2 g (by simp [hg]) hcg

/-- Errors of the check pass. -/
theorem checkValues_error (env : Env F) (line : Nat) (ks : List Key) (e : Entry F) (err : PyErr)
    (h : checkValues env line ks e = .error err) :
    (err = .keyError ∧ Option.none ∈ ks) ∨
    ∃ f, some f ∈ ks ∧ compulsory f = true ∧ chkOK env f e = false ∧ err = .eqValidation f.name line := by
  induction ks generalizing e with
  | nil => simp [checkValues, pure, Except.pure] at h
  | cons k ks ih =>
    unfold checkValues at h
    rw [List.foldlM_cons] at h
    cases k with
    | none =>
      simp only [checkField, bind, Except.bind, Except.error.injEq] at h
      exact Or.inl ⟨h.symm, by simp⟩
    | some f =>
      rw [checkField_ok] at h
      by_cases hbad : compulsory f = true ∧ chkOK env f e = false
      · rw [if_pos hbad] at h
        simp only [bind, Except.bind, Except.error.injEq] at h
        exact Or.inr ⟨f, by simp, hbad.1, hbad.2, h.symm⟩
      · rw [if_neg hbad] at h
        simp only [bind, Except.bind] at h
        rcases ih _ h with ⟨h1, h2⟩ | ⟨g, hg, hc, hk, he⟩
        · exact Or.inl ⟨h1, by simp [h2]⟩
        · refine Or.inr ⟨g, by simp [hg], hc, ?_, he⟩
          rw [← hk]
          exact (chkOK_congr env g _ _ hc (fun g' hg' => (chkStep_compulsory env e _ g' hg'))).symm

/-! ### What the check pass leaves in each field -/

/-- Is the field one of the error ellipse trio? -/
def isEllipse : Fld → Bool
  | .semiMajor90 | .semiMinor90 | .errorStrike => true
  | _ => false

/-- Sanitised value of a field outside the error ellipse. -/
def sanit (f : Fld) (v : Val F) : Val F :=
  match f with
  | .second => if Val.le (.int 0) v && Val.le v (.int 59) then v else blank
  | .depthError | .sigmaMs | .sigmamb | .sigmaML => if Val.lt v (.int 0) then blank else v
  | .sigmaMw => if v.isBlank || Val.lt v (.int 0) then .flt 0 else v
  | _ => v

theorem chkStep_other (env : Env F) (e : Entry F) (k : Key) (g : Fld) (hk : k ≠ some g) (hg : isEllipse g = false) :
    chkStep env e k g = e g := by
  cases k with
  | none => rfl
  | some f =>
    have hfg : g ≠ f := by rintro rfl; exact hk rfl
    cases f <;>
      simp only [chkStep, checkMap, checkPositiveValue, noCheck, checkYear, checkMonth, checkDay, checkHour, checkMinute,
        checkSecond, checkLongitude, checkLatitude, checkEpicentreErrorLocation, checkSigmaMw, compulsory, if_true] <;>
      (try split_ifs) <;>
      first
        | rfl
        | (simp [Entry.set, hfg]; done)
        | (cases g <;> simp_all [isEllipse, Entry.set])

theorem chkStep_own (env : Env F) (e : Entry F) (g : Fld) (hg : isEllipse g = false) :
    chkStep env e (some g) g = sanit g (e g) := by
  cases g <;> simp [isEllipse] at hg <;>
    simp only [chkStep, checkMap, checkPositiveValue, noCheck, checkYear, checkMonth, checkDay, checkHour, checkMinute,
        checkSecond, checkLongitude, checkLatitude, checkSigmaMw, compulsory, if_true, sanit] <;>
    (try split_ifs) <;> simp_all

theorem foldl_chkStep_not_mem (env : Env F) (ks : List Key) (e : Entry F) (g : Fld) (hg : isEllipse g = false)
    (h : some g ∉ ks) : ks.foldl (chkStep env) e g = e g := by
  induction ks generalizing e with
  | nil => rfl
  | cons k ks ih =>
    simp only [List.mem_cons, not_or] at h
    rw [List.foldl_cons, ih _ h.2, chkStep_other env e k g (Ne.symm h.1) hg]

theorem foldl_chkStep_mem (env : Env F) (ks : List Key) (e : Entry F) (g : Fld) (hg : isEllipse g = false)
    (hn : ks.Nodup) (h : some g ∈ ks) : ks.foldl (chkStep env) e g = sanit g (e g) := by
  induction ks generalizing e with
  | nil => simp at h
  | cons k ks ih =>
    have hn' := List.nodup_cons.mp hn
    rw [List.foldl_cons]
    by_cases hk : k = some g
    · subst hk
      rw [foldl_chkStep_not_mem env ks _ g hg hn'.1, chkStep_own env e g hg]
    · have hm : some g ∈ ks := by
        rcases List.mem_cons.mp h with h | h
        · exact absurd h.symm hk
        · exact h
      rw [ih _ hn'.2 hm, chkStep_other env e k g hk hg]

/-! #### The error ellipse -/

/-- A semi-axis field is blank, or unchanged, after any step. -/
theorem chkStep_semi (env : Env F) (e : Entry F) (k : Key) (g : Fld) (hg : g = .semiMajor90 ∨ g = .semiMinor90 ∨ g = .errorStrike) :
    chkStep env e k g = blank ∨ chkStep env e k g = e g := by
  cases k with
  | none => right; rfl
  | some f =>
    by_cases hfg : g = f
    · subst hfg
      rcases hg with rfl | rfl | rfl <;>
      simp only [chkStep, checkMap, checkPositiveValue, checkEpicentreErrorLocation, compulsory] <;>
      split_ifs <;> simp [Entry.set]
    · cases f <;>
      simp only [chkStep, checkMap, checkPositiveValue, noCheck, checkYear, checkMonth, checkDay, checkHour, checkMinute,
        checkSecond, checkLongitude, checkLatitude, checkEpicentreErrorLocation, checkSigmaMw, compulsory, if_true] <;>
      (try split_ifs) <;> (try (right; rfl)) <;>
      (rcases hg with rfl | rfl | rfl <;> simp [Entry.set] at * )

theorem foldl_chkStep_semi (env : Env F) (ks : List Key) (e : Entry F) (g : Fld)
    (hg : g = .semiMajor90 ∨ g = .semiMinor90 ∨ g = .errorStrike) :
    ks.foldl (chkStep env) e g = blank ∨ ks.foldl (chkStep env) e g = e g := by
  induction ks generalizing e with
  | nil => right; rfl
  | cons k ks ih =>
    rw [List.foldl_cons]
    rcases ih (chkStep env e k) with h | h
    · left; exact h
    · rcases chkStep_semi env e k g hg with h' | h'
      · left; rw [h, h']
      · right; rw [h, h']

theorem foldl_semi_mem (env : Env F) (ks : List Key) (e : Entry F) (g : Fld)
    (hg : g = .semiMajor90 ∨ g = .semiMinor90) (hm : some g ∈ ks) :
    ks.foldl (chkStep env) e g = blank ∨
      (ks.foldl (chkStep env) e g = e g ∧ Val.lt (e g) (.int 0) = false) := by
  have hg3 : g = .semiMajor90 ∨ g = .semiMinor90 ∨ g = .errorStrike := by
    rcases hg with h | h <;> simp [h]
  obtain ⟨l1, l2, rfl⟩ := List.append_of_mem hm
  rw [List.foldl_append, List.foldl_cons]
  have h1 := foldl_chkStep_semi env l1 e g hg3
  generalize l1.foldl (chkStep env) e = e1 at h1 ⊢
  have h2 := foldl_chkStep_semi env l2 (chkStep env e1 (some g)) g hg3
  have hown : chkStep env e1 (some g) g = if Val.lt (e1 g) (.int 0) then blank else e1 g := by
    rcases hg with rfl | rfl <;>
    simp only [chkStep, checkMap, checkPositiveValue, compulsory] <;> split_ifs <;> simp_all
  rcases h2 with h2 | h2
  · left; exact h2
  · rw [h2, hown]
    rcases h1 with h1 | h1
    · left; rw [h1]; split_ifs <;> rfl
    · rw [h1]
      by_cases hl : Val.lt (e g) (.int 0) = true
      · left; simp [hl]
      · right; simp [hl]

theorem foldl_strike_mem (env : Env F) (ks : List Key) (e : Entry F) (hm : some Fld.errorStrike ∈ ks) :
    ks.foldl (chkStep env) e .errorStrike = blank ∨
      (ks.foldl (chkStep env) e .errorStrike = e .errorStrike ∧
        Val.le (.int 0) (e .errorStrike) = true ∧ Val.le (e .errorStrike) (.int 360) = true) := by
  obtain ⟨l1, l2, rfl⟩ := List.append_of_mem hm
  rw [List.foldl_append, List.foldl_cons]
  have h1 := foldl_chkStep_semi env l1 e .errorStrike (by simp)
  generalize l1.foldl (chkStep env) e = e1 at h1 ⊢
  have h2 := foldl_chkStep_semi env l2 (chkStep env e1 (some .errorStrike)) .errorStrike (by simp)
  rcases h2 with h2 | h2
  · left; exact h2
  · rw [h2]
    simp only [chkStep, checkMap, checkEpicentreErrorLocation]
    split_ifs with hc
    · left; simp [Entry.set]
    · rcases h1 with h1 | h1
      · left; exact h1
      · right
        rw [h1] at hc
        show e1 _ = _ ∧ _
        rw [h1]
        simp only [Bool.or_eq_true, not_or, Bool.not_eq_true', Bool.not_eq_false, Bool.and_eq_true] at hc
        exact ⟨rfl, hc.1.1.1⟩

end Verif.EqCatalog
