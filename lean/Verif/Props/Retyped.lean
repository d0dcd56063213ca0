import Verif.Props.ModelTyped
import Verif.Props.TextRun

/-!
# C220: all files of a run typed in another way
-/

namespace Verif.Console

open Verif Verif.EqCatalog Verif.Format Verif.Nrml Verif.Workflow Verif.Workflow.Spec

namespace Spec

/-- The two contents are texts related in this way. -/
def Texts (R : Text → Text → Prop) (c c' : Option Content) : Prop := ∃ t t', c = some (.text t) ∧ c' = some (.text t') ∧ R t t'

/-- Catalogues with the same rows, up to the way in which numbers, cells and lines are typed. -/
def Catalogues (t t' : Text) : Prop := ∃ rows rows', SaysCatalogue rows t ∧ SaysCatalogue rows' t' ∧ List.Forall₂ EqCatalog.Spec.SameRow rows rows'

/-- Source models with the same texts and tags, or with elements that say the same and are both accepted or both refused by the schema. -/
def Models (schema : Elem → Bool) (t t' : Text) : Prop :=
  (∃ xs last, (∀ y ∈ xs, Xml.Spec.Named y.2) ∧ ('<' ∉ last ∧ '\r' ∉ last) ∧ SaysModel xs last t ∧ SaysModel xs last t') ∨
    ∃ e e', Xml.parse t = some e ∧ Xml.parse t' = some e' ∧ Nrml.Spec.SameElem e e' ∧ schema e = schema e'

/-- Completeness tables with the same numbers. -/
def Tables (t t' : Text) : Prop :=
  ∃ rows rows', Table.Spec.Contains t rows ∧ Table.Spec.Contains t' rows' ∧ List.Forall₂ (List.Forall₂ Format.Spec.SameNumber) rows rows'

/-- The input files of a configuration typed in two ways. -/
structure Retyped {F : Type} (schema : Elem → Bool) (c : Config F) (fs fs' : Text → Option Content) : Prop where
  catalogue : Texts Catalogues (fs c.eqCatalogFile) (fs' c.eqCatalogFile)
  model : ∀ q, Configured c.sourceModelFile → c.sourceModelFile = some q → Texts (Models schema) (fs q) (fs' q)
  table : ∀ q, UsesTable c → c.completenessTableFile = some q → Texts Tables (fs q) (fs' q)

end Spec

open Spec

theorem Spec.Retyped.mono {F : Type} {schema : Elem → Bool} {c : Config F} {fs fs' g g' : Text → Option Content} (h : Retyped schema c fs fs')
    (hg : ∀ q t, fs q = some (.text t) → g q = some (.text t)) (hg' : ∀ q t, fs' q = some (.text t) → g' q = some (.text t)) : Retyped schema c g g' := by
  have key : ∀ R q, Texts R (fs q) (fs' q) → Texts R (g q) (g' q) := fun R q ⟨t, t', e, e', hr⟩ => ⟨t, t', hg q t e, hg' q t' e', hr⟩
  exact ⟨key _ _ h.catalogue, fun q h1 h2 => key _ _ (h.model q h1 h2), fun q h1 h2 => key _ _ (h.table q h1 h2)⟩

section
variable [Libm]

/-- **C220** for a configuration: its input files typed in another way lead to the same end, the same results and the same files. -/
theorem C220_main (x : Ext Dbl) (y : ℤ) (hx : x.env = Csv.dblEnv y) (hf : x.nums.float = floatDbl) (hp : x.parseXml = Xml.parse) (c : Config Dbl) (fs fs' : Text → Option Content)
    (h : Retyped x.schema c fs fs') (pos : Nat) (o : Outcome Dbl) (ho : main x c fs pos = some o) :
    ∃ o', main x c fs' pos = some o' ∧ o'.raised = o.raised ∧ o'.world.ctx = o.world.ctx ∧ o'.world.pos = o.world.pos ∧
      ∀ q, (Output c q ∧ o'.world.fs q = o.world.fs q) ∨ (o.world.fs q = fs q ∧ o'.world.fs q = fs' q) := by
  refine C218_reading x c fs fs' pos ⟨?_, fun q h1 h2 => ?_, fun q h1 h2 => ?_⟩ o ho
  · obtain ⟨t, t', e, e', rows, rows', h1, h2, hs⟩ := h.catalogue
    rw [e, e', reads_catalogue x h1, reads_catalogue x h2, hx]
    exact C219_rows y x.ord rows rows' hs
  · obtain ⟨t, t', e, e', k⟩ := h.model q h1 h2
    rw [e, e']
    rcases k with ⟨xs, last, hn, hl, k, k'⟩ | ⟨d, d', k, k', hs, hv⟩
    · exact C218_model x hp hn hl k k'
    · exact C221_model x hf (by rw [hp, k]) (by rw [hp, k']) hs hv
  · obtain ⟨t, t', e, e', rows, rows', k, k', hs⟩ := h.table q h1 h2
    rw [e, e']
    show Table.loadTable _ _ t = Table.loadTable _ _ t'
    rw [hf]
    exact Table.C219_table x.nan k k' hs

/-- **C220**: the configuration file and all input files of a run typed in another way lead to the same messages and the same end.  Each file ends with the same content
or was not touched by either run, except that an empty log file may have been made; files that were equal before are equal afterwards. -/
theorem C220_run (x : Ext Dbl) (y : ℤ) (hx : x.env = Csv.dblEnv y) (hf : x.nums.float = floatDbl) (hp : x.parseXml = Xml.parse) (c : Config Dbl) (argv : List Text) (name : Text) (detailed : Bool)
    (ha : parseArgs argv = .args (some name) detailed) (hn : name ≠ []) (fs fs' : Text → Option Content) (hconf : Texts (fun t t' => Describes t c ∧ Describes t' c) (fs name) (fs' name))
    (h : Retyped x.schema c fs fs') (pos : Nat) (r : Report Dbl) (hr : textProgram x argv fs pos = some r) :
    ∃ r', textProgram x argv fs' pos = some r' ∧ r'.ended = r.ended ∧ r'.printed = r.printed ∧
      (∀ q, q ≠ logFile → r'.fs q = r.fs q ∨ (r.fs q = fs q ∧ r'.fs q = fs' q)) ∧ ∀ q, fs q = fs' q → r'.fs q = r.fs q := by
  obtain ⟨t, t', e, e', hd, hd'⟩ := hconf
  rw [C215_run x c argv name detailed ha hn fs pos t e hd, program_main x c argv name detailed ha hn fs pos t e] at hr
  rw [C215_run x c argv name detailed ha hn fs' pos t' e' hd', program_main x c argv name detailed ha hn fs' pos t' e']
  have key : ∀ fs1 fs1' : Text → Option Content, Retyped x.schema c fs1 fs1' → (∀ q, q ≠ logFile → fs1 q = fs q ∧ fs1' q = fs' q) → (∀ q, fs q = fs' q → fs1 q = fs1' q) → ∀ printed,
      (main x c fs1 pos).map (reported printed) = some r →
      ∃ r', (main x c fs1' pos).map (reported printed) = some r' ∧ r'.ended = r.ended ∧ r'.printed = r.printed ∧
        (∀ q, q ≠ logFile → r'.fs q = r.fs q ∨ (r.fs q = fs q ∧ r'.fs q = fs' q)) ∧ ∀ q, fs q = fs' q → r'.fs q = r.fs q := by
    intro fs1 fs1' h1 h2 h3 printed hr
    cases hm : main x c fs1 pos with
    | none => rw [hm] at hr; cases hr
    | some o =>
      rw [hm] at hr
      obtain rfl := Option.some.inj hr
      obtain ⟨o', ho1, ho2, -, -, ho3⟩ := C220_main x y hx hf hp c fs1 fs1' h1 pos o hm
      rw [ho1]
      refine ⟨_, rfl, ?_, rfl, fun q hq => ?_, fun q hq => ?_⟩
      · simp only [reported, ho2]
      · exact (ho3 q).imp And.right fun k => ⟨k.1.trans (h2 q hq).1, k.2.trans (h2 q hq).2⟩
      · rcases ho3 q with k | k
        · exact k.2
        · simp only [reported, k.1, k.2, h3 q hq]
  by_cases hargv : argv.isEmpty
  · rw [if_pos hargv] at hr ⊢
    obtain rfl := Option.some.inj hr
    exact ⟨_, rfl, rfl, rfl, fun q hq => .inr ⟨rfl, rfl⟩, fun q hq => hq.symm⟩
  rw [if_neg hargv] at hr ⊢
  have plain := key fs fs' h (fun _ _ => ⟨rfl, rfl⟩) (fun _ hq => hq)
  cases ho : openWrite x logFile with
  | error e =>
    rw [ho] at hr
    cases detailed with
    | false => exact plain _ hr
    | true =>
      obtain rfl := Option.some.inj hr
      exact ⟨_, rfl, rfl, rfl, fun q hq => .inr ⟨rfl, rfl⟩, fun q hq => hq.symm⟩
  | ok u =>
    rw [ho] at hr
    cases detailed with
    | false => exact plain _ hr
    | true =>
      have keep : ∀ (g : Text → Option Content) (q t : Text), g q = some (.text t) → (fun q => if q = logFile then some ((g logFile).getD (.text [])) else g q) q = some (.text t) := by
        intro g q t hg
        simp only
        split_ifs with hl
        · rw [← hl, hg]; rfl
        · exact hg
      refine key _ _ (h.mono (keep fs) (keep fs')) (fun q hq => by simp only [if_neg hq, and_self]) (fun q hq => ?_) _ hr
      split_ifs with hl
      · rw [← hl, hq]
      · exact hq

end

/-! ### Cases -/

/-- All four files typed in two ways. -/
def plain220 : Text → Option Content := fun n => if n = ['f'] then some (.text (Yaml.givenFile (entries cfgDbl205))) else plain218 n

def typed220 : Text → Option Content := fun n =>
  if n = ['f'] then some (.text ("# seismicity\n".toList ++ Yaml.respelledFile (entries cfgDbl205))) else if n = ['c'] then some (.text (fileDbl205 in219))
  else if n = ['m'] then some (.text model218) else if n = ['q'] then some (.text table219) else none

theorem retyped220 : Retyped x218.schema cfgDbl205 plain220 typed220 := by
  refine ⟨⟨fileDbl205 in205, fileDbl205 in219, ?_, ?_, in205, in219, says219.1, says219.2, sameRows219⟩, fun q _ hq => ?_, fun q _ hq => ?_⟩
  · show plain220 ['c'] = _
    rw [plain220, if_neg (by decide), plain218, if_neg (by decide), fsDbl205, if_pos rfl]
  · show typed220 ['c'] = _
    rw [typed220, if_neg (by decide), if_pos rfl]
  · obtain rfl : ['m'] = q := Option.some.inj hq
    refine ⟨Xml.write model205, model218, ?_, ?_, .inl ⟨said218, ['\n'], named218, by decide, says_model218⟩⟩
    · rw [plain220, if_neg (by decide), plain218, if_pos rfl]
    · rw [typed220, if_neg (by decide), if_neg (by decide), if_pos rfl]
  · obtain rfl : ['q'] = q := Option.some.inj hq
    refine ⟨"1980.0,3.3\n1970.0,3.9\n".toList, table219, ?_, ?_, _, _, contains_self _, contains_self _, ?_⟩
    · rw [plain220, if_neg (by decide), plain218, if_neg (by decide), fsDbl205, if_neg (by decide), if_neg (by decide), if_pos rfl]
    · rw [typed220, if_neg (by decide), if_neg (by decide), if_neg (by decide), if_pos rfl]
    · rw [show ((Table.lines (Table.universal "1980.0,3.3\n1970.0,3.9\n".toList)).map Table.splitLine).filter (fun r => r ≠ []) =
          [["1980.0".toList, "3.3".toList], ["1970.0".toList, "3.9".toList]] from by decide +kernel,
        show ((Table.lines (Table.universal table219)).map Table.splitLine).filter (fun r => r ≠ []) =
          [["1980".toList, "33e-1".toList], ["+1970.00".toList, " 3.9".toList]] from by decide +kernel]
      exact .cons (.cons (sameNumber_of (by decide +kernel)) (.cons (sameNumber_of (by decide +kernel)) .nil))
        (.cons (.cons (sameNumber_of (by decide +kernel)) (.cons (sameNumber_of (by decide +kernel)) .nil)) .nil)

/-- Non-vacuity of C220: a run in double precision that ends normally and writes a source model, and the same with all four files typed in another way. -/
example : ∃ r r' : Report Dbl, @textProgram (@instPyMathDbl Recurrence.plainLibm) x218 ["-i".toList, ['f']] plain220 0 = some r ∧
    @textProgram (@instPyMathDbl Recurrence.plainLibm) x218 ["-i".toList, ['f']] typed220 0 = some r' ∧
      r.ended = .normal ∧ r'.ended = .normal ∧ r'.fs ['r'] = r.fs ['r'] ∧ (r.fs ['r']).isSome ∧ ∀ q ∈ [['f'], ['c'], ['m'], ['q']], plain220 q ≠ typed220 q := by
  let _ := Recurrence.plainLibm
  have ha : parseArgs ["-i".toList, ['f']] = .args (some ['f']) false := by decide +kernel
  have e : plain220 ['f'] = some (.text (Yaml.givenFile (entries cfgDbl205))) := by rw [plain220, if_pos rfl]
  have e' : typed220 ['f'] = some (.text ("# seismicity\n".toList ++ Yaml.respelledFile (entries cfgDbl205))) := by rw [typed220, if_pos rfl]
  have h : (@main Dbl (@instPyMathDbl Recurrence.plainLibm) x218 cfgDbl205 plain220 0).map (fun r => (r.raised.isNone, (r.world.fs ['r']).isSome)) = some (true, true) := by decide +kernel
  rcases hm : @main Dbl (@instPyMathDbl Recurrence.plainLibm) x218 cfgDbl205 plain220 0 with _ | ⟨_ | err, w⟩ <;> rw [hm] at h
  · cases h
  · have hr : textProgram x218 ["-i".toList, ['f']] plain220 0 = some (reported [] ⟨none, w⟩) := by
      rw [C215_run x218 cfgDbl205 _ ['f'] false ha (by decide) _ 0 _ e (describes_plain writable215), program_main x218 cfgDbl205 _ ['f'] false ha (by decide) _ 0 _ e]
      simp only [List.isEmpty_cons, Bool.false_eq_true, if_false]
      rw [hm]
      rfl
    obtain ⟨r', hr', he, -, -, hfs⟩ := C220_run x218 2012 rfl rfl rfl cfgDbl205 _ ['f'] false ha (by decide) plain220 typed220
      ⟨_, _, e, e', describes_plain writable215, describes_remark writable215⟩ retyped220 0 _ hr
    have hsome : (w.fs ['r']).isSome = true := by simpa using h
    refine ⟨_, r', hr, hr', rfl, he, hfs _ ?_, hsome, ?_⟩
    · rw [plain220, if_neg (by decide), plain218, if_neg (by decide), fsDbl205, if_neg (by decide), if_neg (by decide), if_neg (by decide), typed220, if_neg (by decide), if_neg (by decide),
        if_neg (by decide), if_neg (by decide)]
    · intro q hq
      simp only [List.mem_cons, List.not_mem_nil, or_false] at hq
      rcases hq with rfl | rfl | rfl | rfl <;> exact fun hh => absurd (Content.text.inj (Option.some.inj hh)) (by decide +kernel)
  · cases h

end Verif.Console
