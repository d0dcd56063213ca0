import Verif.Model.TextProgram
import Verif.Lemmas.Configuration
import Verif.Props.ConfigExtra
import Verif.Props.Files
import Verif.Props.OutsideEvents

/-!
# The program on the text of its configuration file (C215)
-/

namespace Verif.Console

open Verif Verif.EqCatalog Verif.Nrml Verif.Workflow Verif.Workflow.Spec Verif.Yaml.Spec

namespace Spec

/-- A list of jobs as it is written: an empty one as a key without value. -/
def jobsKey (js : List String) : Key (List String) := if js = [] then .null else .given js

/-- The entries of the file for a configuration: all of its values, sections that are not needed left out. -/
def entries {F : Type} (c : Config F) : RawConfig F := { RawConfig.of c with preprocessingJobs := jobsKey c.preprocessingJobs, processingJobs := jobsKey c.processingJobs }

/-- A file with the entries of a configuration, in some order, spelling and layout and with further entries that are not known. -/
def Describes (t : Text) (c : Config Dbl) : Prop :=
  (Writable (entries c) fun _ => True) ∧ ∃ l m d out, Rearranged (Yaml.Spec.docOf (entries c) given) l ∧ Extended l m ∧ Respelled m d ∧ (∀ e ∈ d, Word e.1 ∧ Good e.2) ∧ d ≠ [] ∧ Laid (docLines d) out ∧ t = ['\n'].intercalate out

end Spec

open Spec

theorem entries_config {F : Type} (c : Config F) : (entries c).config = c := by
  have h := RawConfig.of_config c
  have key : ∀ js : List String, (jobsKey js).toOption.getD [] = js := by
    intro js
    unfold jobsKey
    split_ifs with h
    · rw [h]; rfl
    · rfl
  conv_rhs => rw [← h]
  simp only [RawConfig.config, entries, key]
  rfl

theorem rawMain_entries {F : Type} [PyMath F] (x : Ext F) (c : Config F) (fs : Text → Option Content) (pos : Nat) : rawMain x (entries c) fs pos = main x c fs pos := by
  rw [← rawMain_of]
  have hc : (entries c).config = (RawConfig.of c).config := by rw [entries_config, RawConfig.of_config]
  have hj : ∀ j w, rawJob x (entries c) j w = rawJob x (RawConfig.of c) j w := by
    intro j w
    unfold rawJob
    rw [hc]
    cases j <;> rfl
  refine rawMain_congr (r := entries c) (r' := RawConfig.of c) rfl rfl rfl ?_ (fun _ _ _ j _ w => hj j w) (fun _ _ _ _ j _ w => hj j w) fs pos
  unfold rawBuild
  rw [hc]
  have h1 : preprocessingKeys (entries c) = preprocessingKeys (RawConfig.of c) := by
    unfold preprocessingKeys entries jobsKey
    cases h : c.preprocessingJobs with
    | nil => simp [RawConfig.of, h, Key.get]; rfl
    | cons j js => simp [RawConfig.of, h, Key.get]
  have h2 : ∀ (g : Except PyErr (List Job × List Job)), ((entries c).processingJobs.get >>= fun _ => g) = ((RawConfig.of c).processingJobs.get >>= fun _ => g) := by
    intro g
    unfold entries jobsKey
    cases h : c.processingJobs with
    | nil => simp [RawConfig.of, h, Key.get]; rfl
    | cons j js => simp [RawConfig.of, h, Key.get]
  rw [h1]
  simp only [h2]

section

variable [PyMath Dbl]

/-- **C215**: the program started on a file that describes a configuration, in whatever order, spelling and layout, does what the program does with that configuration. -/
theorem C215_run (x : Ext Dbl) (c : Config Dbl) (argv : List Text) (name : Text) (detailed : Bool) (ha : parseArgs argv = .args (some name) detailed) (hn : name ≠ []) (fs : Text → Option Content)
    (pos : Nat) (t : Text) (hf : fs name = some (.text t)) (ht : Describes t c) : textProgram x argv fs pos = program x (fun _ => .ok c) argv fs pos := by
  obtain ⟨hw, l, m, d, out, hr, hm, hd, hg, hne, hl, rfl⟩ := ht
  have hload := Yaml.C224_load _ hw l m d hr hm hd hg hne out hl
  unfold textProgram program
  split_ifs
  · rfl
  rw [ha]
  simp only
  cases hb : buildLogger x detailed fs with
  | error e => rfl
  | ok fs1 =>
    have hf1 : fs1 name = some (.text (['\n'].intercalate out)) := by
      unfold buildLogger at hb
      split_ifs at hb
      · cases ho : openWrite x logFile with
        | error e => rw [ho] at hb; cases hb
        | ok u =>
          rw [ho] at hb
          obtain rfl := Except.ok.inj hb
          simp only
          split_ifs with hq
          · rw [← hq, hf]; rfl
          · exact hf
      · obtain rfl := Except.ok.inj hb
        exact hf
    have hemp : name.isEmpty = false := by cases name <;> simp_all
    simp only [hemp, Bool.false_eq_true, if_false, hf1, hload, Option.bind_some, rawMain_entries, loadContext]
    rfl

/-- What the program with a configuration does. -/
theorem program_main (x : Ext Dbl) (c : Config Dbl) (argv : List Text) (name : Text) (detailed : Bool) (ha : parseArgs argv = .args (some name) detailed) (hn : name ≠ []) (fs : Text → Option Content)
    (pos : Nat) (t : Text) (hf : fs name = some (.text t)) : program x (fun _ => .ok c) argv fs pos = if argv.isEmpty then some ⟨.normal, [.help], fs⟩ else
      match openWrite x logFile, detailed with
      | .error e, true => some ⟨.raised e, if x.exists_ name then [] else [.noInputFile, .help], fs⟩
      | .ok _, true => (main x c (fun q => if q = logFile then some ((fs logFile).getD (.text [])) else fs q) pos).map (reported (if x.exists_ name then [] else [.noInputFile, .help]))
      | _, false => (main x c fs pos).map (reported (if x.exists_ name then [] else [.noInputFile, .help])) := by
  have hemp : name.isEmpty = false := by cases name <;> simp_all
  unfold program
  split_ifs
  · rfl
  all_goals
    rw [ha]
    simp only [buildLogger]
    cases detailed with
    | false =>
      simp only [Bool.false_eq_true, if_false, loadContext, *]
      cases openWrite x logFile <;> rfl
    | true =>
      cases ho : openWrite x logFile with
      | error e => simp only [if_true, *]; rfl
      | ok u =>
        simp only [if_true, Recurrence.bind_ok, loadContext, hemp, Bool.false_eq_true, if_false]
        by_cases hl : name = logFile
        · subst hl; simp only [if_true, *]; rfl
        · simp only [if_false, *]; rfl

/-- **C215**: two such files lead to the same messages, the same end and the same contents of all other files, if the configuration file is not one of the inputs of the run. -/
theorem C215_same (x : Ext Dbl) (c : Config Dbl) (argv : List Text) (name : Text) (detailed : Bool) (ha : parseArgs argv = .args (some name) detailed) (hn : name ≠ []) (fs fs' : Text → Option Content)
    (hfs : ∀ q, q ≠ name → fs q = fs' q) (hin : ¬ Input c name) (pos : Nat) (t t' : Text) (hf : fs name = some (.text t)) (ht : Describes t c) (hf' : fs' name = some (.text t')) (ht' : Describes t' c)
    (r : Report Dbl) (hr : textProgram x argv fs pos = some r) :
    ∃ r', textProgram x argv fs' pos = some r' ∧ r'.ended = r.ended ∧ r'.printed = r.printed ∧ ∀ q, q ≠ name → r'.fs q = r.fs q := by
  rw [C215_run x c argv name detailed ha hn fs pos t hf ht, program_main x c argv name detailed ha hn fs pos t hf] at hr
  rw [C215_run x c argv name detailed ha hn fs' pos t' hf' ht', program_main x c argv name detailed ha hn fs' pos t' hf']
  have key : ∀ fs1 fs1' : Text → Option Content, (∀ q, q ≠ name → fs1 q = fs1' q) → ∀ printed, (main x c fs1 pos).map (reported printed) = some r →
      ∃ r', (main x c fs1' pos).map (reported printed) = some r' ∧ r'.ended = r.ended ∧ r'.printed = r.printed ∧ ∀ q, q ≠ name → r'.fs q = r.fs q := by
    intro fs1 fs1' h1 printed hr
    cases hm : main x c fs1 pos with
    | none => rw [hm] at hr; cases hr
    | some o =>
      rw [hm] at hr
      obtain rfl := Option.some.inj hr
      obtain ⟨o', ho1, ho2, -, -, ho3⟩ := C96_inputs x c fs1 fs1' pos (fun q hq => h1 q fun hh => hin (hh ▸ hq)) o hm
      rw [ho1]
      refine ⟨_, rfl, ?_, rfl, fun q hq => ?_⟩
      · simp only [reported, ho2]
      · rcases ho3 q with h | h
        · exact h.2
        · simp only [reported, h.1, h.2, h1 q hq]
  by_cases hargv : argv.isEmpty
  · rw [if_pos hargv] at hr ⊢
    obtain rfl := Option.some.inj hr
    exact ⟨_, rfl, rfl, rfl, fun q hq => (hfs q hq).symm⟩
  rw [if_neg hargv] at hr ⊢
  cases ho : openWrite x logFile with
  | error e =>
    cases detailed with
    | false =>
      rw [ho] at hr
      exact key _ _ hfs _ hr
    | true =>
      rw [ho] at hr
      obtain rfl := Option.some.inj hr
      exact ⟨_, rfl, rfl, rfl, fun q hq => (hfs q hq).symm⟩
  | ok u =>
    rw [ho] at hr
    cases detailed with
    | false => exact key _ _ hfs _ hr
    | true =>
      refine key _ _ ?_ _ hr
      intro q hq
      split_ifs with hl
      · rw [← hl, hfs q hq]
      · exact hfs q hq

end

/-! ### Cases -/

theorem describes_plain {c : Config Dbl} (h : Writable (entries c) fun _ => True) : Describes (Yaml.givenFile (entries c)) c :=
  ⟨h, _, _, _, _, ⟨_, .refl _, List.forall₂_same.2 fun _ _ => ⟨rfl, .refl _⟩⟩, .refl _, .refl _, Yaml.good_doc (fun x _ => Yaml.plain_given x) h, by simp [Yaml.Spec.docOf, entries, RawConfig.of, field, keyNode], Yaml.laid_plain _, rfl⟩

/-- **C223**: every configuration, whatever its numbers, has a file with which the program does what it does with that configuration. -/
theorem C223_run [PyMath Dbl] (x : Ext Dbl) (c : Config Dbl) (h : Writable (entries c) fun _ => True) (argv : List Text) (name : Text) (detailed : Bool)
    (ha : parseArgs argv = .args (some name) detailed) (hn : name ≠ []) (fs : Text → Option Content) (pos : Nat) (hf : fs name = some (.text (Yaml.givenFile (entries c)))) :
    textProgram x argv fs pos = program x (fun _ => .ok c) argv fs pos :=
  C215_run x c argv name detailed ha hn fs pos _ hf (describes_plain h)

/-- With a comment, an entry that is not known and other spellings of some values. -/
theorem describes_remark {c : Config Dbl} (h : Writable (entries c) fun _ => True) : Describes ("# seismicity\n".toList ++ Yaml.respelledFile (entries c)) c := by
  refine ⟨h, _, _, _, "# seismicity".toList :: _, ⟨_, .refl _, List.forall₂_same.2 fun _ _ => ⟨rfl, .refl _⟩⟩, Yaml.extended_further _, Yaml.respelled_222 _, Yaml.good_222 (Yaml.good_further h),
    by simp [Yaml.furtherDoc], .noise ⟨0, .inr ⟨" seismicity".toList, by decide, by decide⟩⟩ (Yaml.laid_plain _), ?_⟩
  have hne : (docLines ((Yaml.furtherDoc (entries c)).map fun e => (e.1, Yaml.respelled222 e.2))).map Prod.snd ≠ [] := by
    simp [docLines, nodeLines, Yaml.furtherDoc, Yaml.respelled222]
  unfold Yaml.respelledFile
  cases hl : (docLines ((Yaml.furtherDoc (entries c)).map fun e => (e.1, Yaml.respelled222 e.2))).map Prod.snd with
  | nil => exact absurd hl hne
  | cons l ls => rfl

theorem name215 {t : Text} (h : t ∈ [['c'], ['p'], ['q'], ['m'], ['r'], "MLE".toList, "Recurrence".toList]) : Name t := by
  simp only [List.mem_cons, List.not_mem_nil, or_false] at h
  rcases h with rfl | rfl | rfl | rfl | rfl | rfl | rfl <;>
    exact ⟨⟨by decide, by decide, by decide, ⟨by decide, fun r hh => absurd (List.cons.inj hh).1 (by decide)⟩, by decide⟩, .inl ⟨_, _, rfl, .inl (by decide)⟩, by decide +kernel⟩

theorem writable215 : Writable (entries cfgDbl205) fun _ => True where
  texts := by
    intro k hk t ht
    refine name215 ?_
    subst ht
    revert hk
    simp only [entries, RawConfig.of, cfgDbl205, cfg203, Key.ofOption, List.mem_cons, List.not_mem_nil, or_false, Key.given.injEq]
    tauto
  jobs := by
    intro k hk js hjs
    subst hjs
    have : js = ["Recurrence"] := by
      simpa [entries, jobsKey, cfgDbl205, cfg203] using hk
    subst this
    exact ⟨by simp, fun j hj => by rw [List.mem_singleton.1 hj]; exact name215 (by simp)⟩
  decluster := by
    intro k hk s hs
    subst hs
    simp [entries, RawConfig.of, cfgDbl205, cfg203, Key.ofSection] at hk
  stepp := by
    intro s hs
    cases hs
    refine ⟨fun x hx => ?_, fun x hx => ?_, fun x hx => ?_⟩ <;> trivial
  recurrence := by
    intro s hs
    cases hs
    refine ⟨fun x hx => ?_, fun a ha => ?_, fun x hx => ?_, fun x hx => ?_⟩
    · trivial
    · cases ha; exact name215 (by simp)
    · trivial
    · trivial
  maximum := fun s hs => by cases hs

def fs215 (t : Text) : Text → Option Content := fun n => if n = ['f'] then some (.text t) else fsDbl205 in205 n

/-- C215: the same run from two files, one of them with a comment and with some values spelled otherwise. -/
example : ∃ r r' : Report Dbl, @textProgram (@instPyMathDbl Recurrence.plainLibm) xDbl205 ["-i".toList, ['f']] (fs215 (Yaml.givenFile (entries cfgDbl205))) 0 = some r ∧
    @textProgram (@instPyMathDbl Recurrence.plainLibm) xDbl205 ["-i".toList, ['f']] (fs215 ("# seismicity\n".toList ++ Yaml.respelledFile (entries cfgDbl205))) 0 = some r' ∧
      r.ended = .normal ∧ r'.ended = .normal ∧ r'.fs ['r'] = r.fs ['r'] := by
  let _ := @instPyMathDbl Recurrence.plainLibm
  have ha : parseArgs ["-i".toList, ['f']] = .args (some ['f']) false := by decide +kernel
  have hin : ¬ Input cfgDbl205 ['f'] := by
    intro h
    simp [Input, cfgDbl205, cfg203] at h
  obtain ⟨w, hw⟩ := runDbl205
  have h1 : ∃ r, textProgram xDbl205 ["-i".toList, ['f']] (fs215 (Yaml.givenFile (entries cfgDbl205))) 0 = some r ∧ r.ended = .normal := by
    rw [C215_run xDbl205 cfgDbl205 _ ['f'] false ha (by decide) _ 0 _ (by simp [fs215]) (describes_plain writable215), program_main xDbl205 cfgDbl205 _ ['f'] false ha (by decide) _ 0 _ (by simp [fs215]; rfl)]
    obtain ⟨o, ho, hr, -⟩ := C96_inputs xDbl205 cfgDbl205 _ (fs215 (Yaml.givenFile (entries cfgDbl205))) 0 (fun q hq => by
      have : ¬ q = ['f'] := fun hh => hin (hh ▸ hq)
      simp [fs215, this]) _ hw
    refine ⟨reported [] o, ?_, ?_⟩
    · simp only [List.isEmpty_cons, Bool.false_eq_true, if_false]
      rw [ho]
      rfl
    · simp only [reported, hr]
  obtain ⟨r, hr, he⟩ := h1
  obtain ⟨r', hr', he', -, hfs⟩ := C215_same xDbl205 cfgDbl205 _ ['f'] false ha (by decide) _ (fs215 ("# seismicity\n".toList ++ Yaml.respelledFile (entries cfgDbl205)))
    (fun q hq => by simp [fs215, hq]) hin 0 _ _ (by simp [fs215]) (describes_plain writable215) (by simp [fs215]) (describes_remark writable215) r hr
  exact ⟨r, r', hr, hr', he, he'.trans he, hfs _ (by decide)⟩

end Verif.Console
