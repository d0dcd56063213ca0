import Verif.Props.Columns

/-!
# C136: the uncertainty of the magnitudes matters for the maximum magnitude only
-/

namespace Verif.Declustering

open Verif Verif.CatUtil Spec

section
variable {F : Type} [PyMath F] {n : Nat}

/-- The same year, month, day, longitude, latitude and magnitude. -/
def Spec.Six {F : Type} (a b : Row F) : Prop := a 0 = b 0 ∧ a 1 = b 1 ∧ a 2 = b 2 ∧ a 3 = b 3 ∧ a 4 = b 4 ∧ a 5 = b 5

theorem gkStep_six {c c' : Fin n → Row F} (h : ∀ j, Six (c j) (c' j)) (t sp tw : Fin n → F) (fs : F) : gkStep c t sp tw fs = gkStep c' t sp tw fs := by
  have : gkSel c t sp tw fs = gkSel c' t sp tw fs := by
    funext i j
    obtain ⟨-, -, -, a, b, -⟩ := h j
    obtain ⟨-, -, -, a', b', -⟩ := h i
    simp only [gkSel, a, b, a', b']
  unfold gkStep
  rw [this]

theorem afStep_six {c c' : Fin n → Row F} (h : ∀ j, Six (c j) (c' j)) (t sp : Fin n → F) (tw : F) : afStep c t sp tw = afStep c' t sp tw := by
  have : afSel c sp = afSel c' sp := by
    funext s i
    obtain ⟨-, -, -, a', b', -⟩ := h i
    unfold afSel
    congr 1
    funext j
    obtain ⟨-, -, -, a, b, -⟩ := h j
    simp only [a, b, a', b']
  unfold afStep
  rw [this]

/-- Results that differ in the uncertainties of the main shocks only. -/
def Spec.SixResult (r r' : Result F n) : Prop := r.vcl = r'.vcl ∧ r.flag = r'.flag ∧ List.Forall₂ Six r.vmain r'.vmain

omit [PyMath F] in
theorem unflagged_six {c c' : Fin n → Row F} (h : ∀ j, Six (c j) (c' j)) (flag : Fin n → Int) : List.Forall₂ Six (unflagged c flag) (unflagged c' flag) := by
  unfold unflagged
  rw [List.forall₂_map_left_iff, List.forall₂_map_right_iff]
  exact List.forall₂_same.mpr fun j _ => h j

/-- **C136** for the Gardner–Knopoff algorithm: catalogues that differ in the uncertainties only give the same clusters and flags and the same main shocks. -/
theorem C136_gardner_knopoff (c c' : Fin n → Row F) (h : ∀ j, Six (c j) (c' j)) (opt : String) (fs : F) (asc id1 : Equiv.Perm (Fin n)) :
    (∃ e, gardnerKnopoff c opt fs asc id1 = .error e ∧ gardnerKnopoff c' opt fs asc id1 = .error e) ∨
      ∃ r r', gardnerKnopoff c opt fs asc id1 = .ok r ∧ gardnerKnopoff c' opt fs asc id1 = .ok r' ∧ SixResult r r' := by
  have h0 : (fun j => c j 0) = fun j => c' j 0 := funext fun j => (h j).1
  have h1 : (fun j => c j 1) = fun j => c' j 1 := funext fun j => (h j).2.1
  have h2 : (fun j => c j 2) = fun j => c' j 2 := funext fun j => (h j).2.2.1
  have h5 : ∀ j, c j 5 = c' j 5 := fun j => (h j).2.2.2.2.2
  unfold gardnerKnopoff
  simp only [h0, h1, h2, h5]
  cases decimalYears (fun j => c' j 0) (fun j => c' j 1) (fun j => c' j 2) with
  | error e => exact .inl ⟨e, rfl, rfl⟩
  | ok y =>
    simp only [bind, Except.bind]
    cases timeDistWindow (F := F) opt with
    | error e => exact .inl ⟨e, rfl, rfl⟩
    | ok win =>
      refine .inr ⟨_, _, rfl, rfl, ?_⟩
      have hs : ∀ j, Six ((c ∘ flipud asc) j) ((c' ∘ flipud asc) j) := fun j => h _
      simp only [SixResult, gkLoop, gkStep_six hs, true_and]
      exact unflagged_six (fun j => h _) _

/-- **C136** for the Afteran algorithm. -/
theorem C136_afteran (c c' : Fin n → Row F) (h : ∀ j, Six (c j) (c' j)) (opt : String) (tw : F) (asc id1 : Equiv.Perm (Fin n)) :
    (∃ e, afteran c opt tw asc id1 = .error e ∧ afteran c' opt tw asc id1 = .error e) ∨
      ∃ r r', afteran c opt tw asc id1 = .ok r ∧ afteran c' opt tw asc id1 = .ok r' ∧ SixResult r r' := by
  have h0 : (fun j => c j 0) = fun j => c' j 0 := funext fun j => (h j).1
  have h1 : (fun j => c j 1) = fun j => c' j 1 := funext fun j => (h j).2.1
  have h2 : (fun j => c j 2) = fun j => c' j 2 := funext fun j => (h j).2.2.1
  have h5 : ∀ j, c j 5 = c' j 5 := fun j => (h j).2.2.2.2.2
  unfold afteran
  simp only [h0, h1, h2, h5]
  cases decimalYears (fun j => c' j 0) (fun j => c' j 1) (fun j => c' j 2) with
  | error e => exact .inl ⟨e, rfl, rfl⟩
  | ok y =>
    simp only [bind, Except.bind]
    cases timeDistWindow (F := F) opt with
    | error e => exact .inl ⟨e, rfl, rfl⟩
    | ok win =>
      have hs : ∀ j, Six ((c ∘ flipud asc) j) ((c' ∘ flipud asc) j) := fun j => h _
      simp only [afLoop, afStep_six hs]
      cases (List.finRange n).foldlM (afStep (c' ∘ flipud asc) (y ∘ flipud asc) ((fun j => (win (c' j 5)).1) ∘ flipud asc) (tw / ((365 : ℕ) : F))) (State.init n) with
      | error e => exact .inl ⟨e, rfl, rfl⟩
      | ok s =>
        refine .inr ⟨_, _, rfl, rfl, rfl, rfl, ?_⟩
        exact unflagged_six (fun j => h _) _

end

end Verif.Declustering

namespace Verif.Workflow

open Verif Verif.EqCatalog Verif.Csv Verif.Nrml Verif.Declustering Verif.Recurrence Verif.MaxMag Spec Verif.Declustering.Spec

section
variable {F : Type} [PyMath F]

/-! ### Entries and matrices -/

/-- The same year, month, day, longitude, latitude and moment magnitude; the uncertainties are numbers. -/
def Spec.SameSix (e e' : Entry F) : Prop :=
  e .year = e' .year ∧ e .month = e' .month ∧ e .day = e' .day ∧ e .longitude = e' .longitude ∧ e .latitude = e' .latitude ∧
    e .mw = e' .mw ∧ (∃ s, number (e .sigmaMw) = .ok s) ∧ ∃ s, number (e' .sigmaMw) = .ok s

/-- Both fail alike, or give related values. -/
inductive RelE {α β : Type} (R : α → β → Prop) : Except PyErr α → Except PyErr β → Prop
  | error (e) : RelE R (.error e) (.error e)
  | ok (a b) (h : R a b) : RelE R (.ok a) (.ok b)

theorem matrixRow_six {e e' : Entry F} (h : SameSix e e') : RelE Six (matrixRow e) (matrixRow e') := by
  obtain ⟨h1, h2, h3, h4, h5, h6, ⟨s, h7⟩, s', h8⟩ := h
  simp only [matrixRow, fixedColumns, List.mapM_cons, List.mapM_nil, h1, h2, h3, h4, h5, h6, h7, h8]
  cases number (e' .year) with
  | error e => exact .error e
  | ok y =>
  cases number (e' .month) with
  | error e => exact .error e
  | ok m =>
  cases number (e' .day) with
  | error e => exact .error e
  | ok d =>
  cases number (e' .longitude) with
  | error e => exact .error e
  | ok lon =>
  cases number (e' .latitude) with
  | error e => exact .error e
  | ok lat =>
  cases number (e' .mw) with
  | error e => exact .error e
  | ok mw => exact .ok _ _ ⟨rfl, rfl, rfl, rfl, rfl, rfl⟩

theorem matrixRows_six {es es' : List (Entry F)} (h : List.Forall₂ SameSix es es') :
    RelE (List.Forall₂ Six) (es.mapM matrixRow) (es'.mapM matrixRow) := by
  induction h with
  | nil => exact .ok _ _ .nil
  | @cons a b l l' h1 _ ih =>
    simp only [List.mapM_cons]
    have := matrixRow_six h1
    generalize matrixRow a = r at this
    generalize matrixRow b = r' at this
    cases this with
    | error e => exact .error e
    | ok a b hab =>
      simp only [bind, Except.bind]
      generalize l.mapM matrixRow = q at ih
      generalize l'.mapM matrixRow = q' at ih
      cases ih with
      | error e => exact .error e
      | ok l l' hl => exact .ok _ _ (.cons hab hl)

/-- Matrices that differ in the uncertainties only. -/
def SixMatrix (m m' : Matrix F) : Prop := m.oneD = m'.oneD ∧ List.Forall₂ Six m.rows m'.rows

omit [PyMath F] in
theorem six_ofRows {l l' : List (Row F)} (h : List.Forall₂ Six l l') : SixMatrix (.ofRows l) (.ofRows l') := by
  refine ⟨?_, h⟩
  cases h <;> rfl

omit [PyMath F] in
theorem six_cols {m m' : Matrix F} (h : SixMatrix m m') : RelE (List.Forall₂ Six) m.cols m'.cols := by
  obtain ⟨h1, h2⟩ := h
  unfold Matrix.cols
  rw [h1]
  split
  · exact .error _
  · exact .ok _ _ h2

omit [PyMath F] in
theorem six_column {l l' : List (Row F)} (h : List.Forall₂ Six l l') : l.map (fun r => r 0) = l'.map (fun r => r 0) ∧
    l.map (fun r => r 5) = l'.map (fun r => r 5) ∧ yearMag l = yearMag l' := by
  induction h with
  | nil => exact ⟨rfl, rfl, rfl⟩
  | cons h1 _ ih =>
    obtain ⟨a, -, -, -, -, f⟩ := h1
    obtain ⟨i1, i2, i3⟩ := ih
    simp only [yearMag] at i3
    simp [yearMag, a, f, i1, i2, i3]

omit [PyMath F] in
theorem rel_notNone {α : Type} {R : α → α → Prop} {a b : Option α} (h : Option.Rel R a b) : RelE R (notNone a) (notNone b) := by
  cases h with
  | none => exact .error _
  | some h => exact .ok _ _ h

omit [PyMath F] in
theorem rel_attr {α : Type} {R : α → α → Prop} {a b : Option α} (h : Option.Rel R a b) : RelE R (attr a) (attr b) := by
  cases h with
  | none => exact .error _
  | some h => exact .ok _ _ h

/-! ### Declustering of rows -/

/-- What the jobs keep of a declustering. -/
def kept {n : Nat} (r : Declustering.Result F n) : List Int × List (Row F) × List Int := (List.ofFn r.vcl, r.vmain, List.ofFn r.flag)

/-- The Gardner–Knopoff declustering of rows. -/
def gkRows (x : Ext F) (opt : String) (fs : F) (n : Nat) (cat : Fin n → Row F) : Except PyErr (List Int × List (Row F) × List Int) :=
  (gardnerKnopoff cat opt fs (x.argsort fun j => cat j 5) (x.argsortInt (flipud (x.argsort fun j => cat j 5)))).map kept

/-- The Afteran declustering of rows. -/
def afRows (x : Ext F) (opt : String) (tw : F) (n : Nat) (cat : Fin n → Row F) : Except PyErr (List Int × List (Row F) × List Int) :=
  (afteran cat opt tw (x.argsort fun j => cat j 5) (x.argsortInt (flipud (x.argsort fun j => cat j 5)))).map kept

/-- What is kept differs in the uncertainties only. -/
def SixKept (a b : List Int × List (Row F) × List Int) : Prop := a.1 = b.1 ∧ a.2.2 = b.2.2 ∧ List.Forall₂ Six a.2.1 b.2.1

omit [PyMath F] in
theorem kept_six {n : Nat} {r r' : Declustering.Result F n} (h : SixResult r r') : SixKept (kept r) (kept r') := by
  obtain ⟨h1, h2, h3⟩ := h
  exact ⟨by simp only [kept, h1], by simp only [kept, h2], h3⟩

theorem gkRows_six (x : Ext F) (opt : String) (fs : F) (n : Nat) (c c' : Fin n → Row F) (h : ∀ j, Six (c j) (c' j)) :
    RelE SixKept (gkRows x opt fs n c) (gkRows x opt fs n c') := by
  have h5 : (fun j => c j 5) = fun j => c' j 5 := funext fun j => (h j).2.2.2.2.2
  unfold gkRows
  rw [h5]
  rcases C136_gardner_knopoff c c' h opt fs (x.argsort fun j => c' j 5) (x.argsortInt (flipud (x.argsort fun j => c' j 5))) with ⟨e, h1, h2⟩ | ⟨r, r', h1, h2, h3⟩
  · rw [h1, h2]; exact .error e
  · rw [h1, h2]; exact .ok _ _ (kept_six h3)

theorem afRows_six (x : Ext F) (opt : String) (tw : F) (n : Nat) (c c' : Fin n → Row F) (h : ∀ j, Six (c j) (c' j)) :
    RelE SixKept (afRows x opt tw n c) (afRows x opt tw n c') := by
  have h5 : (fun j => c j 5) = fun j => c' j 5 := funext fun j => (h j).2.2.2.2.2
  unfold afRows
  rw [h5]
  rcases C136_afteran c c' h opt tw (x.argsort fun j => c' j 5) (x.argsortInt (flipud (x.argsort fun j => c' j 5))) with ⟨e, h1, h2⟩ | ⟨r, r', h1, h2, h3⟩
  · rw [h1, h2]; exact .error e
  · rw [h1, h2]; exact .ok _ _ (kept_six h3)

omit [PyMath F] in
/-- A function of arrays of any length, on two lists of the same length. -/
theorem rows_six {γ : Type} (R : γ → γ → Prop) (f : (n : Nat) → (Fin n → Row F) → Except PyErr γ)
    (hf : ∀ n c c', (∀ j, Six (c j) (c' j)) → RelE R (f n c) (f n c')) {l l' : List (Row F)} (h : List.Forall₂ Six l l') :
    RelE R (f l.length fun i => l[i]) (f l'.length fun i => l'[i]) := by
  have key : ∀ (n : Nat) (hn : l'.length = n), f l'.length (fun i => l'[i]) = f n (fun i => l'[i.1]'(hn ▸ i.2)) := by
    rintro n rfl; rfl
  rw [key _ h.length_eq.symm]
  exact hf _ _ _ fun j => (List.forall₂_iff_get.mp h).2 j.1 j.2 _

/-! ### Worlds -/

/-- Worlds that differ in the entries of the catalogue outside the six columns, in the last column of the matrices, in the catalogue file and in the file of the
stored catalogue. -/
def SixAlike (cfg : Config F) (w v : World F) : Prop :=
  ∃ fs' c' cm' wc' cf', v = ⟨fs', w.pos, { w.ctx with eqCatalog := c', catalogMatrix := cm', workingCatalog := wc', currentFilteredEq := cf' }⟩ ∧
    Option.Rel (List.Forall₂ SameSix) w.ctx.eqCatalog c' ∧ Option.Rel SixMatrix w.ctx.catalogMatrix cm' ∧ Option.Rel SixMatrix w.ctx.workingCatalog wc' ∧
    Option.Rel SixMatrix w.ctx.currentFilteredEq cf' ∧ ∀ p, p ≠ cfg.eqCatalogFile → cfg.pprocessingResultFile ≠ some p → fs' p = w.fs p

theorem sixUpdate {cfg : Config F} {w v : World F} (h : SixAlike cfg w v) (f : Source F → Source F) :
    RelJob (SixAlike cfg) (some (updateCurrent w f)) (some (updateCurrent v f)) := by
  obtain ⟨fs', c', cm', wc', cf', rfl, hc, hcm, hwc, hcf, hf⟩ := h
  unfold updateCurrent
  simp only
  cases attr w.ctx.curSm with
  | error e => exact .error e
  | ok i =>
    cases notNone w.ctx.smDefinitions with
    | error e => exact .error e
    | ok d =>
      simp only [bind, Except.bind]
      split
      · exact .ok _ _ ⟨fs', c', cm', wc', cf', rfl, hc, hcm, hwc, hcf, hf⟩
      · exact .error _

theorem gkJob_rows (x : Ext F) (cfg : Config F) (w : World F) : gardnerKnopoffJob x cfg w = (do
    let (opt, fs) ← section_ cfg.gardnerKnopoff
    let m ← notNone w.ctx.workingCatalog
    let rows ← m.cols
    let k ← gkRows x opt fs rows.length fun i => rows[i]
    .ok { w with ctx := { w.ctx with vcl := some k.1, workingCatalog := some ⟨k.2.1, false⟩, flagVector := some k.2.2 } }) := by
  unfold gardnerKnopoffJob
  congr 1
  funext ⟨c1, c2⟩
  simp only
  congr 1
  funext m
  congr 1
  funext rows
  unfold gkRows
  simp only
  cases gardnerKnopoff (fun i : Fin rows.length => rows[i]) c1 c2 (x.argsort fun j : Fin rows.length => rows[j] 5)
    (x.argsortInt (flipud (x.argsort fun j : Fin rows.length => rows[j] 5))) <;> rfl

theorem afJob_rows (x : Ext F) (cfg : Config F) (w : World F) : afteranJob x cfg w = (do
    let (opt, tw) ← section_ cfg.afteran
    let m ← notNone w.ctx.catalogMatrix
    let rows ← m.cols
    let k ← afRows x opt tw rows.length fun i => rows[i]
    .ok { w with ctx := { w.ctx with vcl := some k.1, workingCatalog := some ⟨k.2.1, false⟩, flagVector := some k.2.2 } }) := by
  unfold afteranJob
  congr 1
  funext ⟨c1, c2⟩
  simp only
  congr 1
  funext m
  congr 1
  funext rows
  unfold afRows
  simp only
  cases afteran (fun i : Fin rows.length => rows[i]) c1 c2 (x.argsort fun j : Fin rows.length => rows[j] 5)
    (x.argsortInt (flipud (x.argsort fun j : Fin rows.length => rows[j] 5))) <;> rfl

theorem six_job (x : Ext F) (cfg : Config F) (hs : ∀ p, cfg.completenessTableFile = some p → p ≠ cfg.eqCatalogFile ∧ cfg.pprocessingResultFile ≠ some p)
    (hm : ∀ p, cfg.sourceModelFile = some p → p ≠ cfg.eqCatalogFile ∧ cfg.pprocessingResultFile ≠ some p) (j : Job) (h1 : j ≠ .readEqCatalog)
    (hmax : j ≠ .maximumMagnitude) (h2 : j = .readSourceModel → Configured cfg.sourceModelFile) (w v : World F) (h : SixAlike cfg w v) :
    RelJob (SixAlike cfg) (runJob x cfg j w) (runJob x cfg j v) := by
  obtain ⟨fs', c', cm', wc', cf', rfl, hc, hcm, hwc, hcf, hf⟩ := id h
  cases j with
  | readEqCatalog => exact absurd rfl h1
  | maximumMagnitude => exact absurd rfl hmax
  | readSourceModel =>
    obtain ⟨p, hp, -⟩ := h2 rfl
    obtain ⟨k1, k2⟩ := hm p hp
    simp only [runJob, readSourceModelJob, hp, Option.getD_some]
    have hd : document x ⟨fs', w.pos, { w.ctx with eqCatalog := c', catalogMatrix := cm', workingCatalog := wc', currentFilteredEq := cf' }⟩ p = document x w p := by
      unfold document; simp only [hf p k1 k2]
    rw [hd]
    cases document x w p with
    | error e => exact .error _
    | ok doc =>
      simp only [bind, Except.bind]
      cases readDoc x.nums x.schema doc with
      | error e => exact .error _
      | ok areas =>
        simp only
        cases notNone (if areas.isEmpty then w.ctx.smDefinitions else some (areas.map (fun a => ({ area := a } : Source F)))) with
        | error e => exact .error _
        | ok _ => exact .ok _ _ ⟨fs', c', cm', wc', cf', rfl, hc, hcm, hwc, hcf, hf⟩
  | createDefaultSourceModel => exact .ok _ _ ⟨fs', c', cm', wc', cf', rfl, hc, hcm, hwc, hcf, hf⟩
  | createCatalogMatrix =>
    simp only [runJob, createCatalogMatrixJob]
    have r1 := rel_notNone hc
    generalize notNone w.ctx.eqCatalog = q at r1
    generalize notNone c' = q' at r1
    cases r1 with
    | error e => exact .error _
    | ok es es' hes =>
      simp only [bind, Except.bind]
      have r2 := matrixRows_six hes
      generalize es.mapM matrixRow = q at r2
      generalize es'.mapM matrixRow = q' at r2
      cases r2 with
      | error e => exact .error _
      | ok l l' hl => exact .ok _ _ ⟨fs', c', _, _, cf', rfl, hc, .some (six_ofRows hl), .some (six_ofRows hl), hcf, hf⟩
  | createDefaultValues =>
    simp only [runJob, createDefaultValuesJob]
    have r1 := rel_notNone hwc
    generalize notNone w.ctx.workingCatalog = q at r1
    generalize notNone wc' = q' at r1
    cases r1 with
    | error e => exact .error _
    | ok m m' hmm =>
      simp only [bind, Except.bind]
      have r2 := six_cols hmm
      generalize m.cols = q at r2
      generalize m'.cols = q' at r2
      cases r2 with
      | error e => exact .error _
      | ok l l' hl =>
        obtain ⟨e1, e2, -⟩ := six_column hl
        simp only [e1, e2, hl.length_eq]
        cases Np.npMin (l'.map (fun r => r 0)) with
        | error e => exact .error _
        | ok y =>
          simp only
          cases Np.npMin (l'.map (fun r => r 5)) with
          | error e => exact .error _
          | ok _ => exact .ok _ _ ⟨fs', c', cm', wc', cf', rfl, hc, hcm, hwc, hcf, hf⟩
  | gardnerKnopoff =>
    simp only [runJob, gkJob_rows]
    cases section_ cfg.gardnerKnopoff with
    | error e => exact .error _
    | ok c =>
      simp only [bind, Except.bind]
      have r1 := rel_notNone hwc
      generalize notNone w.ctx.workingCatalog = q at r1
      generalize notNone wc' = q' at r1
      cases r1 with
      | error e => exact .error _
      | ok m m' hmm =>
        simp only
        have r2 := six_cols hmm
        generalize m.cols = q at r2
        generalize m'.cols = q' at r2
        cases r2 with
        | error e => exact .error _
        | ok l l' hl =>
          simp only
          have r3 := rows_six SixKept (gkRows x c.1 c.2) (gkRows_six x c.1 c.2) hl
          generalize gkRows x c.1 c.2 l.length (fun i => l[i]) = q at r3
          generalize gkRows x c.1 c.2 l'.length (fun i => l'[i]) = q' at r3
          cases r3 with
          | error e => exact .error _
          | ok k k' hk =>
            obtain ⟨k1, k2, k3⟩ := hk
            simp only [k1, k2]
            exact .ok _ _ ⟨fs', c', cm', _, cf', rfl, hc, hcm, .some ⟨rfl, k3⟩, hcf, hf⟩
  | afteran =>
    simp only [runJob, afJob_rows]
    cases section_ cfg.afteran with
    | error e => exact .error _
    | ok c =>
      simp only [bind, Except.bind]
      have r1 := rel_notNone hcm
      generalize notNone w.ctx.catalogMatrix = q at r1
      generalize notNone cm' = q' at r1
      cases r1 with
      | error e => exact .error _
      | ok m m' hmm =>
        simp only
        have r2 := six_cols hmm
        generalize m.cols = q at r2
        generalize m'.cols = q' at r2
        cases r2 with
        | error e => exact .error _
        | ok l l' hl =>
          simp only
          have r3 := rows_six SixKept (afRows x c.1 c.2) (afRows_six x c.1 c.2) hl
          generalize afRows x c.1 c.2 l.length (fun i => l[i]) = q at r3
          generalize afRows x c.1 c.2 l'.length (fun i => l'[i]) = q' at r3
          cases r3 with
          | error e => exact .error _
          | ok k k' hk =>
            obtain ⟨k1, k2, k3⟩ := hk
            simp only [k1, k2]
            exact .ok _ _ ⟨fs', c', cm', _, cf', rfl, hc, hcm, .some ⟨rfl, k3⟩, hcf, hf⟩
  | stepp =>
    simp only [runJob, steppJob]
    have r1 := rel_notNone hwc
    generalize notNone w.ctx.workingCatalog = q at r1
    generalize notNone wc' = q' at r1
    cases r1 with
    | error e => exact .error _
    | ok m m' hmm =>
      simp only [bind, Except.bind]
      have r2 := six_cols hmm
      generalize m.cols = q at r2
      generalize m'.cols = q' at r2
      cases r2 with
      | error e => exact .error _
      | ok l l' hl =>
        simp only [(six_column hl).2.2]
        cases section_ cfg.stepp with
        | error e => exact .error _
        | ok c =>
          simp only
          cases Completeness.stepp (yearMag l') c.magnitudeWindows c.timeWindow c.sensitivity c.incrementLock with
          | error e => exact .error _
          | ok _ => exact .ok _ _ ⟨fs', c', cm', wc', cf', rfl, hc, hcm, hwc, hcf, hf⟩
  | recurrence =>
    simp only [runJob, recurrenceJob]
    have r1 := rel_attr hcf
    generalize attr w.ctx.currentFilteredEq = q at r1
    generalize attr cf' = q' at r1
    cases r1 with
    | error e => exact .error _
    | ok m m' hmm =>
      simp only [bind, Except.bind]
      have r2 := six_cols hmm
      generalize m.cols = q at r2
      generalize m'.cols = q' at r2
      cases r2 with
      | error e => exact .error _
      | ok l l' hl =>
        simp only
        cases section_ cfg.recurrence with
        | error e => exact .error _
        | ok c =>
          simp only
          cases notNone w.ctx.completenessTable with
          | error e => exact .error _
          | ok t =>
            simp only [(six_column hl).2.2]
            cases recurrenceAnalysis (yearMag l') t c.magnitudeWindow c.algorithm c.referenceMagnitude c.timeWindow x.fuel with
            | error e => exact .error _
            | ok r => cases r with
              | none => exact .none
              | some g => exact sixUpdate h _
  | createSelectedEqVector =>
    simp only [runJob, createSelectedEqVectorJob]
    have r1 := rel_notNone hcm
    generalize notNone w.ctx.catalogMatrix = q at r1
    generalize notNone cm' = q' at r1
    cases r1 with
    | error e => exact .error _
    | ok m m' hmm =>
      simp only [bind, Except.bind]
      have r2 := six_cols hmm
      generalize m.cols = q at r2
      generalize m'.cols = q' at r2
      cases r2 with
      | error e => exact .error _
      | ok l l' hl =>
        simp only [(six_column hl).2.2]
        cases notNone w.ctx.completenessTable with
        | error e => exact .error _
        | ok t =>
          simp only
          cases attr w.ctx.flagVector with
          | error e => exact .error _
          | ok f =>
            simp only
            cases Completeness.selectedEqFlagVector (yearMag l') t f with
            | error e => exact .error _
            | ok _ => exact .ok _ _ ⟨fs', c', cm', wc', cf', rfl, hc, hcm, hwc, hcf, hf⟩
  | storePreprocessedCatalog =>
    simp only [runJob, storePreprocessedCatalogJob]
    cases hpp : cfg.pprocessingResultFile with
    | none => exact .error _
    | some path =>
      simp only [bind, Except.bind]
      cases hw : mkWriter x.exists_ path with
      | error e => exact .error _
      | ok path' =>
        obtain rfl : path' = path := by
          unfold mkWriter at hw
          split_ifs at hw
          all_goals exact (Except.ok.inj hw).symm
        simp only
        cases attr w.ctx.selectedEqVector with
        | error e => exact .error _
        | ok sel =>
          simp only
          have r1 := rel_notNone hc
          generalize notNone w.ctx.eqCatalog = q at r1
          generalize notNone c' = q' at r1
          cases r1 with
          | error e => exact .error _
          | ok es es' hes =>
            simp only
            rcases entryAt_same hes.length_eq (zeros sel) with ⟨e, a1, a2⟩ | ⟨a, b, a1, a2⟩
            · simp only [a1, a2]
              exact .error _
            · simp only [a1, a2]
              cases openWrite x path' with
              | error e => exact .error _
              | ok _ =>
                refine .ok _ _ ⟨_, c', cm', wc', cf', rfl, hc, hcm, hwc, hcf, fun p q1 q2 => ?_⟩
                have : p ≠ path' := fun hh => q2 (by rw [hpp, hh])
                simp only [World.write, if_neg this]
                exact hf p q1 q2
  | storeCompletenessTable =>
    simp only [runJob, storeCompletenessTableJob]
    cases cfg.completenessTableFile with
    | none => exact .error _
    | some path =>
      simp only [bind, Except.bind]
      cases openWrite x path with
      | error e => exact .error _
      | ok _ =>
        simp only
        cases notNone w.ctx.completenessTable with
        | error e => exact .error _
        | ok t =>
          refine .ok _ _ ⟨_, c', cm', wc', cf', rfl, hc, hcm, hwc, hcf, fun p q1 q2 => ?_⟩
          simp only [World.write]
          split_ifs
          · rfl
          · exact hf p q1 q2
  | retrieveCompletenessTable =>
    simp only [runJob, retrieveCompletenessTableJob]
    cases ht : cfg.completenessTableFile with
    | none => exact .error _
    | some path =>
      obtain ⟨k1, k2⟩ := hs path ht
      simp only [notNone, bind, Except.bind, hf path k1 k2]
      cases w.fs path with
      | none => exact .error _
      | some c => cases c with
        | xml _ => exact .error _
        | text t =>
          simp only
          cases Table.loadTable x.nums.float x.nan t with
          | error e => exact .error _
          | ok _ => exact .ok _ _ ⟨fs', c', cm', wc', cf', rfl, hc, hcm, hwc, hcf, hf⟩

omit [PyMath F] in
theorem six_filter (x : Ext F) (cfg : Config F) (s : Source F) {m m' : Matrix F} (h : SixMatrix m m') : RelE SixMatrix (chosenFilter x cfg s m) (chosenFilter x cfg s m') := by
  unfold chosenFilter
  split
  · unfold sourceModelFilter
    simp only [bind, Except.bind]
    split
    · exact .error _
    · split
      · exact .error _
      · refine .ok _ _ (six_ofRows ?_)
        obtain ⟨-, h⟩ := h
        revert h
        generalize m.rows = l
        generalize m'.rows = l'
        intro h
        induction h with
        | nil => exact .nil
        | @cons a b l l' h1 _ ih =>
          obtain ⟨-, -, -, e3, e4, -⟩ := id h1
          simp only [List.filter_cons, e3, e4]
          split
          · exact .cons h1 ih
          · exact ih
  · exact .ok _ _ h

theorem six_sources (x : Ext F) (cfg : Config F) (procs : List Job)
    (hj : ∀ j ∈ procs, ∀ w v, SixAlike cfg w v → RelJob (SixAlike cfg) (runJob x cfg j w) (runJob x cfg j v))
    {m m' : Matrix F} (hm : SixMatrix m m') (is : List Nat) (w v : World F) (h : SixAlike cfg w v) :
    RelOut (SixAlike cfg) (processSources x cfg (chosenFilter x cfg) procs m is w) (processSources x cfg (chosenFilter x cfg) procs m' is v) := by
  induction is generalizing w v with
  | nil => exact .some _ _ _ h
  | cons i is ih =>
    have hd : v.ctx.smDefinitions = w.ctx.smDefinitions := by obtain ⟨_, _, _, _, _, rfl, _⟩ := h; rfl
    rw [processSources, processSources, hd]
    cases w.ctx.smDefinitions.bind (·[i]?) with
    | none => exact .some _ _ _ h
    | some s =>
      simp only
      have r := six_filter x cfg s hm
      generalize chosenFilter x cfg s m = q at r
      generalize chosenFilter x cfg s m' = q' at r
      cases r with
      | error e => exact .some _ _ _ h
      | ok a b hab =>
        refine rel_andThen (rel_pipeline x x cfg cfg procs hj _ _ ?_) (fun w v h => ih w v h)
        obtain ⟨fs', c', cm', wc', cf', rfl, hc, hcm, hwc, hcf, hf⟩ := h
        exact ⟨fs', c', cm', wc', _, rfl, hc, hcm, hwc, .some hab, hf⟩

theorem named_no_maximum {names : List String} {js : List Job} (hn : Named names js) (h : "MaximumMagnitude" ∉ names) : ∀ j ∈ js, j ≠ .maximumMagnitude := by
  rintro j hj rfl
  induction hn with
  | nil => cases hj
  | @cons n j' names js hd _ ih =>
    rcases List.mem_cons.mp hj with rfl | hj
    · simp [documented] at hd
      exact h (by simp [hd])
    · exact ih (fun hm => h (by simp [hm])) hj

/-- **C136**: two runs of a configuration without `MaximumMagnitude`, on file systems that differ in the catalogue file alone, whose entries differ in the
uncertainty of the moment magnitude (or outside the columns of the matrix), end alike. -/
theorem C136_run (x : Ext F) (cfg : Config F) (hsep : SeparateFiles cfg) (hmax : "MaximumMagnitude" ∉ cfg.preprocessingJobs) (hmax' : "MaximumMagnitude" ∉ cfg.processingJobs)
    (fs fs' : Text → Option Content) (pos : Nat) (hfs : ∀ p, p ≠ cfg.eqCatalogFile → fs' p = fs p) (t t' : Text) (ht : fs cfg.eqCatalogFile = some (.text t))
    (ht' : fs' cfg.eqCatalogFile = some (.text t')) (es es' : List (Entry F)) (he : readCatalogFile x.env x.ord t = .ok es)
    (he' : readCatalogFile x.env x.ord t' = .ok es') (hsame : List.Forall₂ SameSix es es') :
    RelOut (SixAlike cfg) (main x cfg fs pos) (main x cfg fs' pos) := by
  have h0 : SixAlike cfg (⟨fs, pos, {}⟩ : World F) ⟨fs', pos, {}⟩ := ⟨fs', none, none, none, none, rfl, .none, .none, .none, .none, fun p h _ => hfs p h⟩
  unfold main
  simp only
  cases hb : buildPreprocessing cfg with
  | error e => exact .some _ _ _ h0
  | ok pre =>
    simp only
    cases hp : buildProcessing cfg with
    | error e => exact .some _ _ _ h0
    | ok procs =>
      simp only
      obtain ⟨js, hn, rfl⟩ := (C16_preprocessing cfg pre).1 hb
      have hn' := (C16_processing cfg procs).1 hp
      have hj := six_job x cfg hsep.table hsep.model
      apply rel_andThen
      · unfold start
        apply rel_andThen
        · simp only [List.cons_append]
          rw [runPipeline, runPipeline]
          simp only [runJob, readEqCatalogJob, ht, ht', he, he', bind, Except.bind]
          refine rel_pipeline x x cfg cfg _ (fun j hjm => ?_) _ _ ⟨fs', some es', none, none, none, rfl, .some hsame, .none, .none, .none, fun p h _ => hfs p h⟩
          have : j ≠ .readEqCatalog ∧ j ≠ .maximumMagnitude ∧ (j = .readSourceModel → Configured cfg.sourceModelFile) := by
            simp only [List.nil_append, List.mem_cons, List.mem_append] at hjm
            rcases hjm with rfl | rfl | rfl | hjm | hjm
            · split_ifs with hc
              · exact ⟨by simp, by simp, fun _ => hc⟩
              · exact ⟨by simp, by simp, by simp⟩
            · exact ⟨by simp, by simp, by simp⟩
            · exact ⟨by simp, by simp, by simp⟩
            · have := named_other hn j hjm
              exact ⟨this.1, named_no_maximum hn hmax j hjm, fun h => absurd h this.2⟩
            · split_ifs at hjm <;> simp only [List.mem_cons, List.not_mem_nil, or_false] at hjm
              · rcases hjm with rfl | rfl | rfl <;> exact ⟨by simp, by simp, by simp⟩
              · subst hjm; exact ⟨by simp, by simp, by simp⟩
          exact hj j this.1 this.2.1 this.2.2
        · intro w v h
          split
          · have e1 : v.ctx.smDefinitions = w.ctx.smDefinitions := by obtain ⟨_, _, _, _, _, rfl, _⟩ := h; rfl
            have e2 : Option.Rel SixMatrix w.ctx.workingCatalog v.ctx.workingCatalog := by obtain ⟨_, _, _, _, _, rfl, _, _, hwc, _⟩ := h; exact hwc
            rw [e1]
            cases w.ctx.smDefinitions with
            | none => exact .some _ _ _ h
            | some d =>
              generalize w.ctx.workingCatalog = q at e2
              generalize v.ctx.workingCatalog = q' at e2
              cases e2 with
              | none => exact .some _ _ _ h
              | some hmm =>
                refine six_sources x cfg procs (fun j hjm => ?_) hmm _ _ _ h
                have := named_other hn' j hjm
                exact hj j this.1 (named_no_maximum hn' hmax' j hjm) (fun h => absurd h this.2)
          · exact .some _ _ _ h
      · intro w v h
        obtain ⟨fs2, c2, cm2, wc2, cf2, rfl, hc, hcm, hwc, hcf, hf⟩ := id h
        unfold writeResult
        cases mkWriter x.exists_ cfg.resultFile with
        | error e => exact .some _ _ _ h
        | ok path =>
          simp only [bind, Except.bind]
          cases notNone w.ctx.smDefinitions with
          | error e => exact .some _ _ _ h
          | ok d =>
            simp only
            cases serialize x.nums (d.map Source.area) with
            | error e => exact .some _ _ _ h
            | ok doc =>
              simp only
              cases openWrite x path with
              | error e => exact .some _ _ _ h
              | ok _ =>
                refine .some _ _ _ ⟨_, c2, cm2, wc2, cf2, rfl, hc, hcm, hwc, hcf, fun p q1 q2 => ?_⟩
                simp only [World.write]
                split_ifs
                · rfl
                · exact hf p q1 q2

/-- **C136** in terms of what can be observed: both runs fail to end, or both raise the same exception (or none), with the same sources, completeness table, clusters
and flags, and the same contents of every file but the catalogue and the stored catalogue; in particular the same result document. -/
theorem C136_observable (x : Ext F) (cfg : Config F) (hsep : SeparateFiles cfg) (hmax : "MaximumMagnitude" ∉ cfg.preprocessingJobs)
    (hmax' : "MaximumMagnitude" ∉ cfg.processingJobs) (fs fs' : Text → Option Content) (pos : Nat) (hfs : ∀ p, p ≠ cfg.eqCatalogFile → fs' p = fs p) (t t' : Text)
    (ht : fs cfg.eqCatalogFile = some (.text t)) (ht' : fs' cfg.eqCatalogFile = some (.text t')) (es es' : List (Entry F)) (he : readCatalogFile x.env x.ord t = .ok es)
    (he' : readCatalogFile x.env x.ord t' = .ok es') (hsame : List.Forall₂ SameSix es es') :
    (main x cfg fs' pos).map (fun o => (o.raised, o.world.fs cfg.resultFile, o.world.ctx.smDefinitions, o.world.ctx.completenessTable, o.world.ctx.vcl, o.world.ctx.flagVector)) =
        (main x cfg fs pos).map (fun o => (o.raised, o.world.fs cfg.resultFile, o.world.ctx.smDefinitions, o.world.ctx.completenessTable, o.world.ctx.vcl, o.world.ctx.flagVector)) ∧
      ∀ o o', main x cfg fs pos = some o → main x cfg fs' pos = some o' → ∀ p, p ≠ cfg.eqCatalogFile → cfg.pprocessingResultFile ≠ some p → o'.world.fs p = o.world.fs p := by
  have h := C136_run x cfg hsep hmax hmax' fs fs' pos hfs t t' ht ht' es es' he he' hsame
  generalize main x cfg fs pos = r at h
  generalize main x cfg fs' pos = r' at h
  cases h with
  | none => exact ⟨rfl, fun _ _ h => by cases h⟩
  | some e w v h =>
    obtain ⟨fs2, c2, _, _, _, rfl, -, -, -, -, hf⟩ := h
    refine ⟨by simp only [Option.map_some, hf _ hsep.result.1 hsep.result.2], ?_⟩
    intro o o' h1 h2 p q1 q2
    cases h1; cases h2
    exact hf p q1 q2

end

/-! ### Example -/

/-- The events of `file31` with other uncertainties. -/
def row136 (lat mag sigma : String) : List Text :=
  ["7", "ZZZ", "20000110110000", "2000", "01", "10", "11", "00", "00", "0.5", "0", lat, "9", "8", "120",
   "33.5", "0.1", mag, sigma, "4.5", "0.2", "6.1", "0.3", "6.2", "0.4"].map String.toList

/-- The other catalogue file. -/
def file136 : Text := writeRow (fieldNames.map (fun f => f.name.toList)) ++ writeRow (row136 "0" "6" "0.2") ++ writeRow (row136 "40" "5" "0.5")

theorem holds136 : (readCatalogFile (ratEnv 2012) cpythonOrder file136).map (fun es => es.map fun e => fixedColumns.map e) =
    .ok [[.int 2000, .int 1, .int 10, .flt 0, .flt 0, .flt 6, .flt 0.2], [.int 2000, .int 1, .int 10, .flt 0, .flt 40, .flt 5, .flt 0.5]] := by
  decide +kernel

/-- The files with the other catalogue. -/
def fs136 : Text → Option Content := fun p => if p = "catalogue.csv".toList then some (.text file136) else none

theorem six_cast {a b : List (Entry ℚ)} {u v : List (Val ℚ × Val ℚ × Val ℚ × Val ℚ × Val ℚ × Val ℚ × ℚ)}
    (ha : (a.map fun e => fixedColumns.map e) = u.map fun r => [r.1, r.2.1, r.2.2.1, r.2.2.2.1, r.2.2.2.2.1, r.2.2.2.2.2.1, .flt r.2.2.2.2.2.2])
    (hb : (b.map fun e => fixedColumns.map e) = v.map fun r => [r.1, r.2.1, r.2.2.1, r.2.2.2.1, r.2.2.2.2.1, r.2.2.2.2.2.1, .flt r.2.2.2.2.2.2])
    (huv : u.map (fun r => (r.1, r.2.1, r.2.2.1, r.2.2.2.1, r.2.2.2.2.1, r.2.2.2.2.2.1)) = v.map fun r => (r.1, r.2.1, r.2.2.1, r.2.2.2.1, r.2.2.2.2.1, r.2.2.2.2.2.1)) :
    List.Forall₂ SameSix (a.map Entry.cast) (b.map Entry.cast) := by
  induction a generalizing b u v with
  | nil =>
    cases u with
    | cons => simp at ha
    | nil =>
      cases v with
      | cons => simp at huv
      | nil =>
        cases b with
        | nil => exact .nil
        | cons => simp at hb
  | cons e a ih =>
    cases u with
    | nil => simp at ha
    | cons r u =>
      cases v with
      | nil => simp at huv
      | cons s v =>
        cases b with
        | nil => simp at hb
        | cons f b =>
          simp only [List.map_cons, List.cons.injEq] at ha hb huv
          refine .cons ?_ (ih ha.2 hb.2 huv.2)
          obtain ⟨a1, -⟩ := ha
          obtain ⟨b1, -⟩ := hb
          obtain ⟨c1, -⟩ := huv
          simp only [fixedColumns, List.map_cons, List.map_nil, List.cons.injEq, and_true, Prod.mk.injEq] at a1 b1 c1
          obtain ⟨a1, a2, a3, a4, a5, a6, a7⟩ := a1
          obtain ⟨b1, b2, b3, b4, b5, b6, b7⟩ := b1
          obtain ⟨c1, c2, c3, c4, c5, c6⟩ := c1
          simp only [SameSix, Entry.cast, a1, a2, a3, a4, a5, a6, a7, b1, b2, b3, b4, b5, b6, b7, c1, c2, c3, c4, c5, c6, true_and, Val.cast, number]
          exact ⟨⟨_, rfl⟩, _, rfl⟩

/-- The run on the other catalogue ends without exception and writes the same result document. -/
example : ∃ o o', main x31 config31 (fs31 "5") 0 = some o ∧ main x31 config31 fs136 0 = some o' ∧ o.raised = none ∧ o'.raised = none ∧
    (∃ doc, o.world.fs "result.xml".toList = some doc) ∧ o'.world.fs "result.xml".toList = o.world.fs "result.xml".toList := by
  obtain ⟨b, s, hb, hmle⟩ := mle31 (((5 : ℚ) : ℝ)) 4 (by norm_num) (by norm_num)
  obtain ⟨t1, hg1⟩ := hmle (((5 : ℚ) : ℝ)) (by norm_num) (by norm_num)
  obtain ⟨w1, es, hmain, hes, -⟩ := first31 holds_five (by norm_num) hg1
  have h1 := holds_five.1
  have h2 := holds136
  have he : readCatalogFile x31.env x31.ord (file31 "5") = _ := readCatalogFile_cast (ratEnv 2012) cpythonOrder (file31 "5")
  have he' : readCatalogFile x31.env x31.ord file136 = _ := readCatalogFile_cast (ratEnv 2012) cpythonOrder file136
  cases r1 : readCatalogFile (ratEnv 2012) cpythonOrder (file31 "5") with
  | error e => rw [r1] at h1; cases h1
  | ok a =>
    cases r2 : readCatalogFile (ratEnv 2012) cpythonOrder file136 with
    | error e => rw [r2] at h2; cases h2
    | ok a' =>
      rw [r1] at h1 he
      rw [r2] at h2 he'
      have hs : SeparateFiles config31 := ⟨by rintro p ⟨⟩; decide, by rintro p ⟨⟩, by decide⟩
      have h := C136_observable x31 config31 hs (by decide) (by decide) (fs31 "5") fs136 0 (by
        intro p hp
        have hp : p ≠ "catalogue.csv".toList := hp
        simp only [fs31, fs136, if_neg hp]) (file31 "5") file136 (fs31_catalogue "5") (by unfold fs136; exact if_pos rfl) _ _ he he'
        (six_cast (u := [(.int 2000, .int 1, .int 10, .flt 0, .flt 0, .flt 6, 0), (.int 2000, .int 1, .int 10, .flt 0, .flt 40, .flt 5, 0)])
          (v := [(.int 2000, .int 1, .int 10, .flt 0, .flt 0, .flt 6, 0.2), (.int 2000, .int 1, .int 10, .flt 0, .flt 40, .flt 5, 0.5)])
          (by simpa [Except.map] using Except.ok.inj h1) (by simpa [Except.map] using Except.ok.inj h2) rfl)
      rw [hmain] at h
      cases hm : main x31 config31 fs136 0 with
      | none => rw [hm] at h; cases h.1
      | some o' =>
        rw [hm] at h
        have h3 := Option.some.inj h.1
        simp only [Prod.mk.injEq] at h3
        refine ⟨_, o', hmain, rfl, rfl, h3.1, ?_, h3.2.1⟩
        obtain ⟨_, _, w2, -, -, -, hw⟩ := main_ok.1 hmain
        obtain ⟨_, doc, -, -, rfl⟩ := writeResult_ok hw
        exact ⟨.xml doc, write_at w2 config31.resultFile (.xml doc)⟩

/-- The declustering algorithms on two catalogues that differ in the uncertainty of one event. -/
example : ∀ j : Fin 2, Six ((![![2000, 1, 1, 10, 40, 5, 0], ![2000, 1, 2, 10, 40, 6, 0]] : Fin 2 → Row ℝ) j)
    ((![![2000, 1, 1, 10, 40, 5, 1], ![2000, 1, 2, 10, 40, 6, 0]] : Fin 2 → Row ℝ) j) := by
  intro j
  fin_cases j <;> simp [Six]

end Verif.Workflow
