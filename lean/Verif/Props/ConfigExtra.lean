import Verif.Props.ConfigPointed

/-!
# Further entries in the configuration file (C224)
-/

namespace Verif.Yaml

open Verif Verif.EqCatalog Verif.Format Verif.Format.Spec Verif.Workflow

namespace Spec

/-- The keys of the configuration, and those of its sections. -/
def fileKeys : List String := ["eq_catalog_file", "pprocessing_result_file", "completeness_table_file", "source_model_file", "result_file", "apply_processing_jobs", "preprocessing_jobs",
  "processing_jobs", "GardnerKnopoff", "Afteran", "Stepp", "Recurrence", "MaximumMagnitude"]
def sectionKeys : List String := ["time_dist_windows", "foreshock_time_window", "time_window", "magnitude_windows", "sensitivity", "increment_lock", "magnitude_window", "recurrence_algorithm",
  "reference_magnitude", "maxim_mag_algorithm", "iteration_tolerance", "maximum_iterations", "neq", "number_samples", "number_bootstraps"]

/-- The same entries and further ones under other keys. -/
inductive More {α : Type} (known : List String) : List (Text × α) → List (Text × α) → Prop
  | nil : More known [] []
  | keep {e a b} : More known a b → More known (e :: a) (e :: b)
  | more {k v a b} : k ∉ known.map String.toList → More known a b → More known a ((k, v) :: b)

inductive MoreNode : Node → Node → Prop
  | refl (v) : MoreNode v v
  | map {es es'} : More sectionKeys es es' → MoreNode (.map es) (.map es')

/-- The same entries, and further ones anywhere in the file and in its sections. -/
def Extended (d d' : Doc) : Prop := ∃ m, More fileKeys d m ∧ List.Forall₂ (fun e e' => e.1 = e'.1 ∧ MoreNode e.2 e'.2) m d'

end Spec

open Spec

theorem lookup_more {α : Type} {known : List String} {a b : List (Text × α)} (h : More known a b) {q : String} (hq : q ∈ known) : lookup q a = lookup q b := by
  induction h with
  | nil => rfl
  | keep _ ih => rw [lookup_cons, lookup_cons, ih]
  | more hk _ ih =>
    rw [lookup_cons, ← ih, if_neg, Option.or_none]
    intro hh
    exact hk (List.mem_map.2 ⟨q, hq, hh.symm⟩)

theorem section_more {α : Type} {f : List (Text × Text) → Option α} (hf : ∀ es es', More sectionKeys es es' → f es = f es') {d d' : Doc} (h : Extended d d') {k : String} (hk : k ∈ fileKeys) :
    sectionKey f k d = sectionKey f k d' := by
  obtain ⟨m, hm, hd⟩ := h
  unfold sectionKey
  rw [lookup_more hm hk]
  rcases lookup_forall hd k with ⟨h1, h2⟩ | ⟨v, v', h1, h2, h3⟩
  · rw [h1, h2]
  · rw [h1, h2]
    cases h3 with
    | refl => rfl
    | map h => simp only [hf _ _ h]

theorem keys_more {d d' : Doc} (h : Extended d d') {k : String} (hk : k ∈ fileKeys) : textKey k d = textKey k d' ∧ boolKey k d = boolKey k d' ∧ listKey k d = listKey k d' := by
  obtain ⟨m, hm, hd⟩ := h
  unfold textKey boolKey listKey
  rw [lookup_more hm hk]
  rcases lookup_forall hd k with ⟨h1, h2⟩ | ⟨v, v', h1, h2, h3⟩
  · rw [h1, h2]
    exact ⟨rfl, rfl, rfl⟩
  · rw [h1, h2]
    cases h3 with
    | refl => exact ⟨rfl, rfl, rfl⟩
    | map h => exact ⟨rfl, rfl, rfl⟩

/-- **C224**: entries under keys that the program does not know, in the file and in its sections, do not matter. -/
theorem C224_config {d d' : Doc} (h : Extended d d') : config d = config d' := by
  have hs := fun k hk => keys_more h (k := k) hk
  have hp : ∀ {es es' : List (Text × Text)}, More sectionKeys es es' → ∀ {α : Type} (f : Text → Option α) (k : String), k ∈ sectionKeys → paramKey f k es = paramKey f k es' := by
    intro es es' he α f k hk
    unfold paramKey
    rw [lookup_more he hk]
  unfold config
  rw [(hs "eq_catalog_file" (by decide)).1, (hs "pprocessing_result_file" (by decide)).1, (hs "completeness_table_file" (by decide)).1, (hs "source_model_file" (by decide)).1,
    (hs "result_file" (by decide)).1, (hs "apply_processing_jobs" (by decide)).2.1, (hs "preprocessing_jobs" (by decide)).2.2, (hs "processing_jobs" (by decide)).2.2,
    section_more (fun es es' he => by unfold declusterOf; rw [hp he _ "time_dist_windows" (by decide), hp he _ "foreshock_time_window" (by decide)]) h (k := "GardnerKnopoff") (by decide),
    section_more (fun es es' he => by unfold declusterOf; rw [hp he _ "time_dist_windows" (by decide), hp he _ "time_window" (by decide)]) h (k := "Afteran") (by decide),
    section_more (fun es es' he => by unfold steppOf; rw [hp he _ "magnitude_windows" (by decide), hp he _ "time_window" (by decide), hp he _ "sensitivity" (by decide), hp he _ "increment_lock" (by decide)]) h (k := "Stepp") (by decide),
    section_more (fun es es' he => by unfold recurrenceOf; rw [hp he _ "magnitude_window" (by decide), hp he _ "recurrence_algorithm" (by decide), hp he _ "reference_magnitude" (by decide), hp he _ "time_window" (by decide)]) h (k := "Recurrence") (by decide),
    section_more (fun es es' he => by unfold maximumOf; rw [hp he _ "maxim_mag_algorithm" (by decide), hp he _ "iteration_tolerance" (by decide), hp he _ "maximum_iterations" (by decide), hp he _ "neq" (by decide), hp he _ "number_samples" (by decide), hp he _ "number_bootstraps" (by decide)]) h (k := "MaximumMagnitude") (by decide)]

theorem Spec.Extended.refl (d : Doc) : Extended d d := by
  refine ⟨d, ?_, List.forall₂_same.2 fun _ _ => ⟨rfl, .refl _⟩⟩
  induction d with
  | nil => exact .nil
  | cons e d ih => exact .keep ih

/-- **C224**: a configuration in a file with further entries, in any order, spelling and layout, is the configuration that is used. -/
theorem C224_load (r : RawConfig Dbl) (h : Writable r fun _ => True) (d m d' : Doc) (hd : Rearranged (docOf r given) d) (hm : Extended d m) (hs : Respelled m d') (hg : ∀ e ∈ d', Word e.1 ∧ Good e.2)
    (hne : d' ≠ []) (out : List Text) (ho : Laid (docLines d') out) : load (['\n'].intercalate out) = some r := by
  unfold load
  rw [C209_layout _ hne hg out ho]
  simp only
  rw [← C222_config hs, ← C224_config hm, ← C210_order (docOf_keys r _) hd]
  exact config_doc (fun x _ => scalar_given x) h

/-- The entries of a configuration and an author. -/
def furtherDoc (r : RawConfig Dbl) : Doc := ("author".toList, .scalar "me".toList) :: docOf r given

theorem extended_further (r : RawConfig Dbl) : Extended (docOf r given) (furtherDoc r) := by
  obtain ⟨m, hm, hd⟩ := Extended.refl (docOf r given)
  exact ⟨_, .more (v := .scalar "me".toList) (by decide +kernel) hm, .cons ⟨rfl, .refl _⟩ hd⟩

theorem good_further {r : RawConfig Dbl} (h : Writable r fun _ => True) : ∀ e ∈ furtherDoc r, Word e.1 ∧ Good e.2 := by
  intro e he
  rcases List.mem_cons.1 he with rfl | he
  · exact ⟨by unfold Word; decide, .inr ⟨by decide, by decide, by decide, ⟨by decide, fun r hh => absurd (List.cons.inj hh).1 (by decide)⟩, by decide⟩⟩
  · exact good_doc (fun x _ => plain_given x) h e he

/-- The file of a configuration with an author and some values spelled in other ways. -/
def respelledFile (r : RawConfig Dbl) : Text := ['\n'].intercalate ((docLines ((furtherDoc r).map fun e => (e.1, respelled222 e.2))).map Prod.snd)

/-- Non-vacuity of C224: an author and, in a section, a remark. -/
example : Extended [("result_file".toList, .scalar "r".toList), ("Stepp".toList, .map [("time_window".toList, "5.0".toList)])]
    [("author".toList, .scalar "me".toList), ("result_file".toList, .scalar "r".toList), ("Stepp".toList, .map [("time_window".toList, "5.0".toList), ("remark".toList, "old".toList)])] :=
  ⟨_, .more (k := "author".toList) (v := .scalar "me".toList) (by decide +kernel) (.keep (.keep .nil)),
    .cons ⟨rfl, .refl _⟩ (.cons ⟨rfl, .refl _⟩ (.cons ⟨rfl, .map (.keep (.more (by decide +kernel) .nil))⟩ .nil))⟩

end Verif.Yaml
