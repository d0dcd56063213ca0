import Verif.Props.Nrml
import Verif.Lemmas.Format

/-!
# C83, C84 with the number texts of Python 2.7, and concrete documents
-/

namespace Verif.Nrml

open Verif Verif.EqCatalog Spec

section
variable {K : Type} [Field K] [LinearOrder K] [IsStrictOrderedRing K] [FloorRing K]

/-- The number texts of Python 2.7 (`str(float)` with twelve significant digits), in exact arithmetic. -/
def pyNums : NumText K := ⟨Format.str, Format.pyFloat⟩

/-- They satisfy the laws assumed in `Props/Nrml`, with rounding to twelve significant digits. -/
theorem pyNums_lawful : Lawful (pyNums (K := K)) Format.rnd12 where
  str_ne := Format.str_ne_nil
  str_ws := fun x c hc => Format.numChar_not_ws (Format.str_chars x c hc)
  str_ok := by
    intro x c hc
    rcases Format.str_chars x c hc with h | rfl | rfl | rfl | rfl
    · unfold Format.IsDigit at h
      have : 0x20 ≤ c.toNat := by omega
      exact (xmlChar_iff c).1 (by simp [xmlChar, this])
    all_goals exact (xmlChar_iff _).1 (by decide)
  float_str := Format.pyFloat_str
  str_rnd := Format.str_rnd12

/-- C83 for Python's number texts: sources sharing the header with non-empty lists and texts come back in order, every number rounded to
twelve significant digits. -/
theorem C83_python_partial (valid : Elem → Bool) (ss : List (AreaSource ℝ)) (doc doc' : Elem)
    (hs : serialize pyNums ss = .ok doc) (hr : Reparse doc doc') (hv : valid doc' = true) (hf : ∀ s ∈ ss, Filled s)
    (hid : ∀ s ∈ ss, ∀ s' ∈ ss, s.nrmlId = s'.nrmlId ∧ s.sourceModelId = s'.sourceModelId)
    (hne : ∀ s ∈ ss, s.name ≠ some [] ∧ s.tectonicRegion ≠ some []) :
    readDoc pyNums valid doc' = .ok (ss.map (rndSource Format.rnd12)) ∧
      ∀ x : ℝ, |Format.rnd12 x - x| ≤ |x| * (5 / 10 ^ 12) :=
  ⟨C83_same_list_partial pyNums_lawful valid ss doc doc' hs hr hv hf hid hne, Format.rnd12_error⟩

/-- C84 for Python's number texts. -/
theorem C84_python (valid : Elem → Bool) (ss ss' : List (AreaSource ℝ)) (doc doc' : Elem)
    (hs : serialize pyNums ss = .ok doc) (hr : Reparse doc doc') (hread : readDoc pyNums valid doc' = .ok ss') :
    ∃ doc'', serialize pyNums ss' = .ok doc'' ∧ content doc'' = content doc :=
  C84_stable pyNums_lawful valid ss ss' doc doc' hs hr hread
end

/-! ### A concrete document: tests/data/area_source_model.xml -/

/-- Rational copy of the source of tests/data/area_source_model.xml. -/
def quito : AreaSource ℚ where
  nrmlId := some "n1".toList
  sourceModelId := some "sm1".toList
  areaSourceId := some "src03".toList
  name := some "Quito".toList
  tectonicRegion := some "Active Shallow Crust".toList
  boundary := ⟨some "urn:ogc:def:crs:EPSG::4326".toList,
    [⟨-122.5, 37.5⟩, ⟨-121.5, 37.5⟩, ⟨-121.5, 38.5⟩, ⟨-122.5, 38.5⟩]⟩
  rate := ⟨⟨5, 0.8, 5, 7, some "ML".toList⟩, 0, 90, 0⟩
  depthDist := ⟨⟨some "ML".toList, [6, 6.5, 7]⟩, [5000, 3000, 0]⟩
  hypocentralDepth := 5000

/-- The document after writing and parsing, without indentation. -/
def reparse0 : Elem → Elem := content

/-- Texts of all leaves in document order. -/
def leafTexts (e : Elem) : List Text := e.nodes.filterMap (fun n => if n.children.isEmpty then n.text else none)

#guard (serialize pyNums [quito]).toOption.map (fun d => (leafTexts d).map String.ofList) =
  some ["Quito", "Active Shallow Crust", "-122.5 37.5 -121.5 37.5 -121.5 38.5 -122.5 38.5", "5.0", "0.8", "5.0", "7.0",
    "0.0", "90.0", "0.0", "6.0 6.5 7.0", "5000.0 3000.0 0.0", "5000.0"]

#guard (serialize pyNums [quito]).toOption.bind (fun d => (readDoc pyNums (fun _ => true) (reparse0 d)).toOption) = some [quito]

/-- `quito` meets the hypotheses of the round trip. -/
example : Writable quito ∧ Filled quito ∧ quito.name ≠ some [] ∧ quito.tectonicRegion ≠ some [] := by
  refine ⟨⟨⟨_, rfl, ?_⟩, ?_, ?_, ⟨_, rfl, ?_⟩, ⟨_, rfl, ?_⟩, ⟨_, rfl, ?_⟩⟩, ⟨?_, ?_, ?_⟩, ?_, ?_⟩
  · rw [← xmlOk_iff]; decide
  · rintro t ⟨⟩; rw [← xmlOk_iff]; decide
  · rintro t ⟨⟩; rw [← xmlOk_iff]; decide
  · rw [← xmlOk_iff]; decide
  · rw [← xmlOk_iff]; decide
  · rw [← xmlOk_iff]; decide
  all_goals simp [quito]

/-- Every serialised document can be written and parsed. -/
theorem reparse_exists {F : Type} {nt : NumText F} {rnd : F → F} (H : Lawful nt rnd) (ss : List (AreaSource F)) (doc : Elem)
    (h : serialize nt ss = .ok doc) : ∃ doc', Reparse doc doc' := by
  have leafx : ∀ t a x, ∃ e', Reparse (.mk t a x []) e' := by
    intro t a x
    match x with
    | none => exact ⟨_, .leaf t a⟩
    | some [] => exact ⟨_, .leafEmpty t a⟩
    | some (c :: cs) => exact ⟨_, .leafText t a c cs⟩
  have nodex : ∀ t a cs, (∀ c ∈ cs, ∃ c', Reparse c c') → ∃ e', Reparse (.mk t a none cs) e' := by
    intro t a cs hcs
    have : ∃ cs', List.Forall₂ Reparse cs cs' := by
      induction cs with
      | nil => exact ⟨[], .nil⟩
      | cons c cs ih =>
        obtain ⟨c', hc⟩ := hcs c (by simp)
        obtain ⟨cs', hcs'⟩ := ih (fun d hd => hcs d (by simp [hd]))
        exact ⟨c' :: cs', .cons hc hcs'⟩
    obtain ⟨cs', hcs'⟩ := this
    cases hcs' with
    | nil => exact leafx t a none
    | cons h1 h2 => exact ⟨_, .node t a none _ _ _ _ h1 h2⟩
  have srcx : ∀ s e, areaSourceElem nt s = .ok e → ∃ e', Reparse e e' := by
    intro s e he
    obtain ⟨-, id, srs, tyG, tyM, -, -, -, -, rfl⟩ := areaSourceElem_ok H he
    apply nodex
    simp only [List.mem_cons, List.not_mem_nil, or_false, forall_eq_or_imp, forall_eq]
    refine ⟨leafx _ _ _, leafx _ _ _, ?_, ?_, ?_, leafx _ _ _⟩
    · apply nodex; simp only [List.mem_singleton, forall_eq]
      apply nodex; simp only [List.mem_singleton, forall_eq]
      apply nodex; simp only [List.mem_singleton, forall_eq]
      apply nodex; simp only [List.mem_singleton, forall_eq]
      exact leafx _ _ _
    · apply nodex
      simp only [List.mem_cons, List.not_mem_nil, or_false, forall_eq_or_imp, forall_eq]
      refine ⟨?_, leafx _ _ _, leafx _ _ _, leafx _ _ _⟩
      apply nodex
      simp only [List.mem_cons, List.not_mem_nil, or_false, forall_eq_or_imp, forall_eq]
      exact ⟨leafx _ _ _, leafx _ _ _, leafx _ _ _, leafx _ _ _⟩
    · apply nodex
      simp only [List.mem_cons, List.not_mem_nil, or_false, forall_eq_or_imp, forall_eq]
      exact ⟨leafx _ _ _, leafx _ _ _⟩
  obtain ⟨s0, rest, nid, sid, body, -, -, -, -, -, hb, rfl⟩ := serialize_ok h
  apply nodex
  simp only [List.mem_singleton, forall_eq]
  apply nodex
  simp only [List.mem_cons, forall_eq_or_imp]
  refine ⟨leafx _ _ _, ?_⟩
  intro c hc
  obtain ⟨s, -, hs⟩ := forall₂_mem_right hb hc
  exact srcx s c hs

/-- The statement of C83. -/
def Spec.RoundTrip {F : Type} (nt : NumText F) (rnd : F → F) : Prop :=
  ∀ (valid : Elem → Bool) (ss : List (AreaSource F)) (doc doc' : Elem), ss ≠ [] →
    (∀ s ∈ ss, ∀ s' ∈ ss, s.nrmlId = s'.nrmlId ∧ s.sourceModelId = s'.sourceModelId) →
    serialize nt ss = .ok doc → Reparse doc doc' → valid doc' = true → readDoc nt valid doc' = .ok (ss.map (rndSource rnd))

/-- `quito` without a name. -/
def nameless : AreaSource ℚ := { quito with name := some [] }

/-- C83 as stated is false: an area source with an empty name comes back with the name `None`. -/
theorem C83_fails : ¬ Spec.RoundTrip (pyNums (K := ℚ)) Format.rnd12 := by
  intro h
  have hw : Writable nameless := by
    refine ⟨⟨_, rfl, ?_⟩, ?_, ?_, ⟨_, rfl, ?_⟩, ⟨_, rfl, ?_⟩, ⟨_, rfl, ?_⟩⟩
    · rw [← xmlOk_iff]; decide
    · rintro t ⟨⟩; rw [← xmlOk_iff]; decide
    · rintro t ⟨⟩; rw [← xmlOk_iff]; decide
    · rw [← xmlOk_iff]; decide
    · rw [← xmlOk_iff]; decide
    · rw [← xmlOk_iff]; decide
  obtain ⟨doc, hdoc⟩ := (C83_writer_accepts pyNums_lawful [nameless]).2
    ⟨by simpa using hw, nameless, [], rfl, ⟨_, rfl, by rw [← xmlOk_iff]; decide⟩, ⟨_, rfl, by rw [← xmlOk_iff]; decide⟩⟩
  obtain ⟨doc', hr⟩ := reparse_exists pyNums_lawful _ _ hdoc
  have h1 := h (fun _ => true) [nameless] doc doc' (by simp) (by simp) hdoc hr rfl
  have h2 := C83_round_trip_partial pyNums_lawful (fun _ => true) nameless [] doc doc' hdoc hr rfl
    (by simp [Filled, nameless, quito])
  rw [h1] at h2
  have := congrArg (fun r => r.toOption.map (fun l => l.map AreaSource.name)) h2
  simp [readBack, nameless, rndSource, blankText, Except.toOption] at this

end Verif.Nrml
