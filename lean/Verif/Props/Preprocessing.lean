import Verif.Props.Workflow
import Verif.Props.Completeness
import Verif.Lemmas.Numpy
import Verif.Props.GardnerKnopoffReal
import Verif.Props.Afteran

/-!
# C15, C26, C30: the preprocessing jobs
-/

namespace Verif.Workflow

open Verif Verif.EqCatalog Verif.Csv Verif.Nrml Verif.Declustering Verif.Recurrence Verif.MaxMag Spec

/-! ### C15 -/

/-- **C15**: right after the compulsory jobs, for a catalogue matrix with at least one row, the selection job succeeds and flags no event. -/
theorem C15_defaults_select_all (w : World ℝ) (rows : List (Row ℝ)) (hne : rows ≠ [])
    (hm : w.ctx.catalogMatrix = some ⟨rows, false⟩) (hw : w.ctx.workingCatalog = some ⟨rows, false⟩) :
    ∃ w1 w2, createDefaultValuesJob w = .ok w1 ∧ createSelectedEqVectorJob w1 = .ok w2 ∧
      w2.ctx.selectedEqVector = some (List.replicate rows.length 0) := by
  obtain ⟨my, hy⟩ := Np.npMin_exists (l := rows.map (fun r => r 0)) (by simpa using hne)
  obtain ⟨mm, hmm⟩ := Np.npMin_exists (l := rows.map (fun r => r 5)) (by simpa using hne)
  have h1 : createDefaultValuesJob w = .ok { w with ctx := { w.ctx with
      flagVector := some (List.replicate rows.length 0), completenessTable := some [(my, mm)] } } := by
    unfold createDefaultValuesJob
    simp only [hw, notNone, Matrix.cols, hy, hmm, bind, Except.bind, Bool.false_eq_true, if_false]
  have hl : (List.replicate rows.length (0 : Int)).length = (yearMag rows).length := by simp [yearMag]
  obtain ⟨out, ho, hlen, hget⟩ := Completeness.C27_selection (yearMag rows) [(my, mm)] (List.replicate rows.length 0) hl
  have hout : out = List.replicate rows.length 0 := by
    apply List.ext_getElem (by rw [hlen]; simp [yearMag])
    intro i hi hi'
    rw [List.getElem_replicate]
    have hir : i < (yearMag rows).length := by omega
    obtain ⟨h01, hone⟩ := hget i hir hi
    rcases h01 with h | h
    · exact h
    · exfalso
      rcases hone.1 h with hf | ⟨c, hc, hlt, -⟩
      · simp at hf
      · simp only [List.mem_singleton] at hc
        subst hc
        have hmin := (Np.npMin_ok hy).2
        have hmem : (yearMag rows)[i].1 ∈ rows.map (fun r => r 0) := by
          simp only [yearMag, List.getElem_map]
          exact List.mem_map_of_mem (List.getElem_mem _)
        exact absurd hlt (not_lt.2 (hmin hmem))
  subst hout
  refine ⟨_, { w with ctx := { w.ctx with flagVector := some (List.replicate rows.length 0), completenessTable := some [(my, mm)], selectedEqVector := some (List.replicate rows.length 0) } }, h1, ?_, rfl⟩
  unfold createSelectedEqVectorJob
  simp only [hm, notNone, attr, Matrix.cols, ho, bind, Except.bind, Bool.false_eq_true, if_false]

/-- **C15** from the file on: every accepted catalogue with at least one entry passes the compulsory jobs and the selection with no event
flagged. -/
theorem C15_accepted_catalogue (x : Ext ℝ) (cfg : Config ℝ) (w : World ℝ) (file : Text) (es : List (Entry ℝ)) (hne : es ≠ [])
    (hf : w.fs cfg.eqCatalogFile = some (.text file)) (h : readCatalogFile x.env x.ord file = .ok es) :
    ∃ w', Chain (Succeeds x cfg) [.readEqCatalog, .createDefaultSourceModel, .createCatalogMatrix, .createDefaultValues, .createSelectedEqVector] w w' ∧
      w'.ctx.eqCatalog = some es ∧ w'.ctx.selectedEqVector = some (List.replicate es.length 0) := by
  have h1 : readEqCatalogJob x cfg w = .ok { w with ctx := { w.ctx with eqCatalog := some es } } := by
    unfold readEqCatalogJob
    simp only [hf, h, bind, Except.bind]
  obtain ⟨w2, h2⟩ : ∃ w2, w2 = ({ w with ctx := { w.ctx with eqCatalog := some es, smDefinitions := some [{ area := defaultAreaSource }] } } : World ℝ) := ⟨_, rfl⟩
  obtain ⟨rows, hr, h3⟩ := C14_matrix x.env x.ord file es h w2 (by rw [h2])
  have he : es.isEmpty = false := by cases es with
    | nil => exact absurd rfl hne
    | cons _ _ => rfl
  rw [he] at h3
  have hrne : rows ≠ [] := by rintro rfl; cases hr; exact hne rfl
  obtain ⟨w4, w5, h4, h5, h6⟩ := C15_defaults_select_all (rows := rows) (hne := hrne) (hm := rfl) (hw := rfl) (w := { w2 with ctx := { w2.ctx with catalogMatrix := some ⟨rows, false⟩, workingCatalog := some ⟨rows, false⟩ } })
  refine ⟨w5, .cons _ _ _ _ _ (congrArg some h1) (.cons _ _ _ w2 _ (by rw [h2]; rfl) (.cons _ _ _ _ _ (congrArg some h3)
    (.cons _ _ _ _ _ (congrArg some h4) (.cons _ _ _ _ _ (congrArg some h5) (.nil _))))), ?_, ?_⟩
  · have e4 : w4.ctx.eqCatalog = some es := by
      unfold createDefaultValuesJob at h4
      obtain ⟨_, -, h4⟩ := bind_ok h4
      obtain ⟨_, -, h4⟩ := bind_ok h4
      obtain ⟨_, -, h4⟩ := bind_ok h4
      obtain ⟨_, -, h4⟩ := bind_ok h4
      cases h4
      rw [h2]
    unfold createSelectedEqVectorJob at h5
    obtain ⟨_, -, h5⟩ := bind_ok h5
    obtain ⟨_, -, h5⟩ := bind_ok h5
    obtain ⟨_, -, h5⟩ := bind_ok h5
    obtain ⟨_, -, h5⟩ := bind_ok h5
    obtain ⟨_, -, h5⟩ := bind_ok h5
    cases h5
    exact e4
  · rw [h6, hr.length_eq]

/-- An empty catalogue, by contrast, stops the run in `create_default_values` with `IndexError`. -/
theorem C15_empty_catalogue {F : Type} [PyMath F] (w : World F) (h : w.ctx.eqCatalog = some []) :
    ∃ w1, createCatalogMatrixJob w = .ok w1 ∧ createDefaultValuesJob w1 = .error .indexError := by
  unfold createCatalogMatrixJob
  rw [h]
  exact ⟨_, rfl, rfl⟩

section
variable {F : Type} [PyMath F]

/-! ### C26 -/

theorem zeros_entries (es : List (Entry F)) (flags : List Int) (h : flags.length = es.length) :
    (zeros flags).mapM (entryAt es) = .ok (kept es flags) := by
  apply mapM_of_forall₂
  have key : ∀ (es : List (Entry F)) (flags : List Int), flags.length = es.length →
      List.Forall₂ (fun i e => es[i]? = some e) ((List.range flags.length).filter (fun i => decide (flags[i]? = some 0))) (kept es flags) := by
    intro es flags
    induction flags generalizing es with
    | nil => intro h; cases es with
      | nil => exact .nil
      | cons _ _ => simp at h
    | cons f fs ih =>
      intro h
      cases es with
      | nil => simp at h
      | cons e es =>
        have := ih es (by simpa using h)
        rw [List.length_cons, List.range_succ_eq_map, List.filter_cons]
        have hmap : List.Forall₂ (fun i e' => (e :: es)[i]? = some e')
            ((List.map Nat.succ (List.range fs.length)).filter (fun i => decide ((f :: fs)[i]? = some 0))) (kept es fs) := by
          rw [List.filter_map, List.forall₂_map_left_iff]
          simpa [Function.comp_def] using this
        by_cases hf : f = 0
        · have e1 : kept (e :: es) (f :: fs) = e :: kept es fs := by simp [kept, hf]
          rw [e1]
          simp only [List.getElem?_cons_zero, hf, decide_true, if_true]
          exact .cons (by simp) (by rw [hf] at hmap; exact hmap)
        · have e1 : kept (e :: es) (f :: fs) = kept es fs := by simp [kept, hf]
          rw [e1]
          simp only [List.getElem?_cons_zero, Option.some.injEq, hf, decide_false, Bool.false_eq_true, if_false]
          exact hmap
  refine (key es flags h).imp ?_
  intro i e hi
  simp [entryAt, hi]

/-- **C26**: with a flag vector as long as the catalogue, an existing directory and a writable file, the store job succeeds and the file is the catalogue of
exactly the entries with flag 0, in order; nothing else changes. -/
theorem C26_stored (x : Ext F) (cfg : Config F) (w : World F) (path : Text) (es : List (Entry F)) (flags : List Int)
    (hp : cfg.pprocessingResultFile = some path) (hd : x.exists_ (dirname path) = true) (ho : x.openable path = true)
    (he : w.ctx.eqCatalog = some es) (hs : w.ctx.selectedEqVector = some flags) (hl : flags.length = es.length) :
    storePreprocessedCatalogJob x cfg w =
      .ok { w with fs := fun q => if q = path then some (.text (writeCatalog x.show_ (kept es flags))) else w.fs q } := by
  unfold storePreprocessedCatalogJob
  simp only [hp, mkWriter, hd, if_true, hs, attr, he, notNone, zeros_entries es flags hl, openWrite, ho, World.write, bind, Except.bind]

/-- **C26**, the contents of the file: it starts with the header, and its rows are the cell texts of the kept entries (see also C13 for reading it with the catalogue
reader). -/
theorem C26_contents (s : ShowNum F) (es : List (Entry F)) (flags : List Int) (h0 : ∀ e ∈ es, ∀ f, '\x00' ∉ cellText s (e f) ∧ (cellText s (e f)).length ≤ 131072) :
    ∃ rest, validateCsvCatalog (writeCatalog s (kept es flags)) = .ok rest ∧
      csvRows rest = ((kept es flags).map (fun e => fieldNames.map (fun f => cellText s (e f))), none) := by
  apply C12_catalog_round_trip
  intro e he
  apply h0
  simp only [kept, List.mem_map, List.mem_filter] at he
  obtain ⟨⟨a, b⟩, ⟨h, -⟩, rfl⟩ := he
  exact (List.of_mem_zip h).1

/-- What `kept` keeps. -/
theorem C26_kept (es : List (Entry F)) (flags : List Int) :
    (kept es flags).Sublist es ∧ (flags.length = es.length → ∀ e, e ∈ kept es flags ↔ ∃ i : ℕ, es[i]? = some e ∧ flags[i]? = some 0) := by
  constructor
  · unfold kept
    have : ((es.zip flags).map Prod.fst).Sublist es := by
      clear * -
      induction es generalizing flags with
      | nil => exact .slnil
      | cons e es ih => cases flags with
        | nil => exact List.nil_sublist _
        | cons f fs => exact (ih fs).cons_cons _
    exact (List.Sublist.map _ List.filter_sublist).trans this
  · intro hl e
    simp only [kept, List.mem_map, List.mem_filter, decide_eq_true_eq]
    constructor
    · rintro ⟨⟨a, b⟩, ⟨h, hb⟩, rfl⟩
      obtain ⟨i, hi⟩ := List.getElem?_of_mem h
      rw [List.getElem?_zip_eq_some] at hi
      simp only at hb
      subst hb
      exact ⟨i, hi⟩
    · rintro ⟨i, h1, h2⟩
      exact ⟨(e, 0), ⟨List.mem_of_getElem? (List.getElem?_zip_eq_some.2 ⟨h1, h2⟩), rfl⟩, rfl⟩

/-- Non-vacuity of C26. -/
example : kept ["a", "b", "c"] [0, 1, 0] = ["a", "c"] := by decide

end

end Verif.Workflow
