import Verif.Props.DoubleRuns
import Verif.Props.DoubleRowOrder
import Verif.Props.DoubleDecluster
import Mathlib.Data.List.NodupEquivFin

/-!
# C204: the order of the rows of the catalogue file does not matter to a run
-/

namespace Verif.Declustering

open Verif Verif.CatUtil

section
variable {F : Type} [PyMath F] {n n' : ℕ}

omit [PyMath F] in
/-- The main shocks of a reordered catalogue are the reordered main shocks. -/
theorem mainshocks_perm {cat : Fin n → Row F} {cat' : Fin n' → Row F} (e : Fin n' ≃ Fin n) (he : ∀ j, cat' j = cat (e j)) {flag : Fin n → Int} {flag' : Fin n' → Int}
    (hf : ∀ j, flag' j = flag (e j)) :
    (((List.finRange n').filter fun j => flag' j = 0).map cat').Perm (((List.finRange n).filter fun j => flag j = 0).map cat) := by
  obtain rfl : n' = n := by simpa using Fintype.card_congr e
  have h1 : ((List.finRange n').filter fun j => flag' j = 0).map cat' = (((List.finRange n').map e).filter fun j => flag j = 0).map cat := by
    rw [List.filter_map, List.map_map]
    refine congrArg₂ List.map (funext he) (List.filter_congr fun j _ => ?_)
    simp [hf]
  rw [h1]
  exact ((Equiv.Perm.map_finRange_perm e).filter _).map _

/-- Gardner-Knopoff ends for the reordered catalogue too, and the flags follow the rows. -/
theorem gk_reordered {key : F → ℝ} (hk : ∀ a b : F, a ≤ b → key a ≤ key b) {cat : Fin n → Row F} {cat' : Fin n' → Row F} (e : Fin n' ≃ Fin n) (he : ∀ j, cat' j = cat (e j))
    (hm : Function.Injective (fun j => key (cat j 5))) {opt : String} {fs : F} {asc id1 : Equiv.Perm (Fin n)} {asc' id1' : Equiv.Perm (Fin n')} {r : Result F n}
    (h0 : IsArgsort (fun j => cat j 5) asc) (h1 : IsArgsort (flipud asc) id1) (h0' : IsArgsort (fun j => cat' j 5) asc') (h1' : IsArgsort (flipud asc') id1')
    (h : gardnerKnopoff cat opt fs asc id1 = .ok r) : ∃ r', gardnerKnopoff cat' opt fs asc' id1' = .ok r' ∧ ∀ j, r'.flag j = r.flag (e j) := by
  obtain rfl : n' = n := by simpa using Fintype.card_congr e
  obtain rfl : cat' = fun j => cat (e j) := funext he
  have hex : ∃ r', gardnerKnopoff (fun j => cat (e j)) opt fs asc' id1' = .ok r' := by
    unfold gardnerKnopoff at h
    obtain ⟨t, ht, h⟩ := Nrml.bind_ok h
    obtain ⟨win, hw, -⟩ := Nrml.bind_ok h
    have ht' : decimalYears (fun j => cat (e j) 0) (fun j => cat (e j) 1) (fun j => cat (e j) 2) = .ok fun j => t (e j) :=
      (decimalYears_times (fun j => cat (e j)) _).mpr fun j => (decimalYears_times _ _).mp ht (e j)
    unfold gardnerKnopoff
    simp only [ht', hw, bind, Except.bind]
    exact ⟨_, rfl⟩
  obtain ⟨r', h'⟩ := hex
  exact ⟨r', h', (gk_equivariant hk cat hm e opt fs asc id1 asc' id1' r r' h0 h1 h0' h1' h h').2⟩

/-- Afteran ends for the reordered catalogue too, and the flags follow the rows. -/
theorem afteran_reordered {key : F → ℝ} (hk : ∀ a b : F, a ≤ b → key a ≤ key b) {cat : Fin n → Row F} {cat' : Fin n' → Row F} (e : Fin n' ≃ Fin n) (he : ∀ j, cat' j = cat (e j))
    (hm : Function.Injective (fun j => key (cat j 5))) {opt : String} {w : F} {asc id1 : Equiv.Perm (Fin n)} {asc' id1' : Equiv.Perm (Fin n')} {r : Result F n}
    (h0 : IsArgsort (fun j => cat j 5) asc) (h1 : IsArgsort (flipud asc) id1) (h0' : IsArgsort (fun j => cat' j 5) asc') (h1' : IsArgsort (flipud asc') id1')
    (h : afteran cat opt w asc id1 = .ok r) : ∃ r', afteran cat' opt w asc' id1' = .ok r' ∧ ∀ j, r'.flag j = r.flag (e j) := by
  obtain rfl : n' = n := by simpa using Fintype.card_congr e
  obtain rfl : cat' = fun j => cat (e j) := funext he
  have hex : ∃ r', afteran (fun j => cat (e j)) opt w asc' id1' = .ok r' := by
    obtain ⟨t, win, s, ht, hw, hs, -⟩ := af_ok _ _ _ _ _ _ h
    have hsort : flipud asc = (flipud asc').trans e := by
      apply sort_unique hm
      · exact fun a b hab => hk _ _ (flipud_desc h0 a b hab)
      · intro a b hab
        exact hk _ _ (flipud_desc h0' a b hab)
    have hp : ∀ a, flipud asc a = e (flipud asc' a) := fun a => by rw [hsort]; rfl
    have ht' : decimalYears (fun j => cat (e j) 0) (fun j => cat (e j) 1) (fun j => cat (e j) 2) = .ok fun j => t (e j) :=
      (decimalYears_times (fun j => cat (e j)) _).mpr fun j => (decimalYears_times _ _).mp ht (e j)
    have e2 : (fun j => cat (e j)) ∘ flipud asc' = cat ∘ flipud asc := by funext j; simp [hp]
    have e3 : (fun j => t (e j)) ∘ flipud asc' = t ∘ flipud asc := by funext j; simp [hp]
    have e4 : (fun j => (win (cat (e j) 5)).1) ∘ flipud asc' = (fun j => (win (cat j 5)).1) ∘ flipud asc := by funext j; simp [hp]
    unfold afteran
    simp only [ht', hw, e2, e3, e4, hs, bind, Except.bind]
    exact ⟨_, rfl⟩
  obtain ⟨r', h'⟩ := hex
  exact ⟨r', h', (afteran_equivariant hk cat hm e opt w asc id1 asc' id1' r r' h0 h1 h0' h1' h h').2⟩

end

end Verif.Declustering

namespace Verif.Workflow

open Verif Verif.Np Verif.EqCatalog Verif.Csv Verif.Nrml Verif.Declustering Verif.Recurrence Verif.Completeness Spec

section
variable {F : Type} [PyMath F]

/-- The files have valid headers, the same rows in different order (blank lines not counted), and both or neither are well-formed csv texts. -/
def Spec.Reordered (file file' : Text) : Prop :=
  ∃ rest rest', validateCsvCatalog file = .ok rest ∧ validateCsvCatalog file' = .ok rest' ∧
    ((csvRows rest').1.filter fun r => r ≠ []).Perm ((csvRows rest).1.filter fun r => r ≠ []) ∧ (csvRows rest').2 = (csvRows rest).2

omit [PyMath F] in
theorem readRows_of [PyNum F] (env : Env F) (ord : DictOrder) {rows : List (List Text)} {es : List (Entry F)} (h : List.Forall₂ (fun r e => ∀ n, readRow env ord n r = .ok e) rows es) (k : ℕ) :
    readRows env ord k rows = .ok es := by
  induction h generalizing k with
  | nil => rfl
  | cons h1 _ ih =>
    unfold readRows
    simp only [h1, ih, bind, Except.bind, pure, Except.pure]

theorem read_reordered {env : Env F} {ord : DictOrder} {file file' : Text} (hr : Reordered file file') {es : List (Entry F)} (h : readCatalogFile env ord file = .ok es) :
    ∃ es', readCatalogFile env ord file' = .ok es' ∧ es'.Perm es := by
  obtain ⟨rest, rest', h1, h2, h3, h4⟩ := hr
  unfold readCatalogFile at h
  obtain ⟨r0, hr0, h⟩ := Nrml.bind_ok h
  rw [h1] at hr0
  cases hr0
  obtain ⟨es0, hes, h⟩ := Nrml.bind_ok h
  rcases hrows : csvRows rest with ⟨rows, err⟩
  rcases hrows' : csvRows rest' with ⟨rows', err'⟩
  simp only [hrows, hrows'] at h3 h4
  change csvRows rest = _ at hrows
  rw [show parse Parser.init false rest = (rows, err) from hrows] at hes h
  cases err with
  | some e => exact absurd h (by simp)
  | none =>
    cases h
    have h10 := C10_order_preserving _ _ _ _ hes
    obtain ⟨es', g1, g2⟩ := List.perm_comp_forall₂ h3 h10
    refine ⟨es', ?_, g2⟩
    have hes' : readEqCatalog env ord rows' = .ok es' := readRows_of env ord g1 2
    unfold readCatalogFile
    simp only [h2, bind, Except.bind, hrows', hes', h4]

omit [PyMath F] in
theorem years_perm {l l' : List (Row F)} (h : l'.Perm l) : (years l').Perm (years l) := h.map _

theorem stepp_reordered (hF : OrderFree F) {l l' : List (Row F)} (h : l'.Perm l) (dm dt ttol : F) (iloc : Bool) : stepp (years l') dm dt ttol iloc = stepp (years l) dm dt ttol iloc := by
  simp only [stepp, steppBins_perm hF (years_perm h)]

theorem recurrence_reordered (hF : OrderFree F) {l l' : List (Row F)} (h : l'.Perm l) (table : List (F × F)) (dmag : F) (algorithm : String) (refMag dt : F) (fuel : ℕ) :
    recurrenceAnalysis (years l') table dmag algorithm refMag dt fuel = recurrenceAnalysis (years l) table dmag algorithm refMag dt fuel := by
  simp only [recurrenceAnalysis, weichertPrep_perm hF (years_perm h), bMaxlikeTime, periods_perm hF (years_perm h)]

/-- Places of the rows in the reordered list. -/
theorem places {α : Type} {l l' : List α} (h : l'.Perm l) (hn : l.Nodup) : ∃ e : Fin l'.length ≃ Fin l.length, ∀ j, l'[j] = l[e j] := by
  classical
  have hn' : l'.Nodup := h.nodup_iff.2 hn
  have e0 : {x // x ∈ l'} ≃ {x // x ∈ l} := Equiv.subtypeEquivRight fun x => h.mem_iff
  refine ⟨((hn'.getEquiv l').trans (Equiv.subtypeEquivRight fun x => h.mem_iff)).trans (hn.getEquiv l).symm, fun j => ?_⟩
  have : ((hn.getEquiv l) ((((hn'.getEquiv l').trans (Equiv.subtypeEquivRight fun x => h.mem_iff)).trans (hn.getEquiv l).symm) j)).1 = l'[j] := by
    simp
  rw [← this]
  rfl

/-- What two runs on reordered catalogues have in common. -/
structure SameUpToOrder (all all' : List (Row F)) (p p' : Prep F) : Prop where
  events : p'.events.Perm p.events
  flags : p'.flags.length = all'.length
  table : p'.table = p.table

theorem stepps_alike (hF : OrderFree F) {x : Ext F} {cfg : Config F} {all all' : List (Row F)} (k : ℕ) {s s' p : Prep F} (h : SameUpToOrder all all' s s')
    (hc : Chain (Prepares x cfg all) (List.replicate k "Stepp") s p) : ∃ p', Chain (Prepares x cfg all') (List.replicate k "Stepp") s' p' ∧ SameUpToOrder all all' p p' := by
  induction k generalizing s s' with
  | zero =>
    cases hc
    exact ⟨s', .nil _, h⟩
  | succ k ih =>
    rw [List.replicate_succ] at hc ⊢
    cases hc with
    | cons _ _ _ s1 _ h1 h2 =>
      generalize hn : "Stepp" = n at h1
      cases h1 with
      | gardnerKnopoff => exact absurd hn (by decide)
      | afteran => exact absurd hn (by decide)
      | stepp _ c t g1 g2 =>
        obtain ⟨p', a1, a2⟩ := ih (s := ⟨s.events, s.flags, t⟩) (s' := ⟨s'.events, s'.flags, t⟩) ⟨h.events, h.flags, rfl⟩ h2
        exact ⟨p', .cons _ _ _ _ _ (.stepp _ c t g1 (by rw [stepp_reordered hF h.events]; exact g2)) a1, a2⟩

theorem chain_alike (hF : OrderFree F) {key : F → ℝ} (hk : ∀ a b : F, a ≤ b → key a ≤ key b) (hk' : Function.Injective key) {x : Ext F} (hx : Sorts x) {cfg : Config F} {all all' : List (Row F)}
    (hp : all'.Perm all) {d : List String} (hd : d = [] ∨ d = ["GardnerKnopoff"] ∨ d = ["Afteran"]) (hdist : d ≠ [] → (all.map fun r => r 5).Nodup) (k : ℕ) {t : List (F × F)} {p : Prep F}
    (hc : Chain (Prepares x cfg all) (d ++ List.replicate k "Stepp") ⟨all, List.replicate all.length 0, t⟩ p) :
    ∃ p', Chain (Prepares x cfg all') (d ++ List.replicate k "Stepp") ⟨all', List.replicate all'.length 0, t⟩ p' ∧ SameUpToOrder all all' p p' := by
  have hinj : (all.map fun r => r 5).Nodup → all.Nodup ∧ Function.Injective fun j : Fin all.length => key (all[j] 5) := by
    intro h
    refine ⟨List.Nodup.of_map _ h, fun i j hij => ?_⟩
    have := hk' hij
    have hi := List.nodup_iff_injective_getElem.1 h
    have e : (⟨i, by simp⟩ : Fin (all.map fun r => r 5).length) = ⟨j, by simp⟩ := hi (by simpa using this)
    exact Fin.ext (Fin.mk.inj e)
  rcases hd with rfl | rfl | rfl
  · exact stepps_alike hF k (s := ⟨all, List.replicate all.length 0, t⟩) (s' := ⟨all', List.replicate all'.length 0, t⟩) ⟨hp, by simp, rfl⟩ hc
  · obtain ⟨n1, n2⟩ := hinj (hdist (by simp))
    obtain ⟨e, he⟩ := places hp n1
    rw [List.singleton_append] at hc ⊢
    cases hc with
    | cons _ _ _ s1 _ h1 h2 =>
      generalize hn : "GardnerKnopoff" = n at h1
      cases h1 with
      | stepp => exact absurd hn (by decide)
      | afteran => exact absurd hn (by decide)
      | gardnerKnopoff _ opt fsw r g1 g2 =>
        obtain ⟨r', g3, g4⟩ := gk_reordered hk e he n2 (hx.1 _) (hx.2 _) (hx.1 _) (hx.2 _) g2
        have m1 := (C34_gk_mainshocks _ opt fsw _ _ r (hx.2 _) g2).2
        have m2 := (C34_gk_mainshocks _ opt fsw _ _ r' (hx.2 _) g3).2
        have hal : SameUpToOrder all all' ⟨r.vmain, List.ofFn r.flag, t⟩ ⟨r'.vmain, List.ofFn r'.flag, t⟩ :=
          ⟨by rw [m1, m2]; exact mainshocks_perm e he g4, by simp, rfl⟩
        obtain ⟨p', a1, a2⟩ := stepps_alike hF k hal h2
        exact ⟨p', .cons _ _ _ _ _ (.gardnerKnopoff _ opt fsw r' g1 g3) a1, a2⟩
  · obtain ⟨n1, n2⟩ := hinj (hdist (by simp))
    obtain ⟨e, he⟩ := places hp n1
    rw [List.singleton_append] at hc ⊢
    cases hc with
    | cons _ _ _ s1 _ h1 h2 =>
      generalize hn : "Afteran" = n at h1
      cases h1 with
      | stepp => exact absurd hn (by decide)
      | gardnerKnopoff => exact absurd hn (by decide)
      | afteran _ opt tw r g1 g2 =>
        obtain ⟨r', g3, g4⟩ := afteran_reordered hk e he n2 (hx.1 _) (hx.2 _) (hx.1 _) (hx.2 _) g2
        have m1 := (C34_afteran_mainshocks _ opt tw _ _ r (hx.2 _) g2).2
        have m2 := (C34_afteran_mainshocks _ opt tw _ _ r' (hx.2 _) g3).2
        have hal : SameUpToOrder all all' ⟨r.vmain, List.ofFn r.flag, t⟩ ⟨r'.vmain, List.ofFn r'.flag, t⟩ :=
          ⟨by rw [m1, m2]; exact mainshocks_perm e he g4, by simp, rfl⟩
        obtain ⟨p', a1, a2⟩ := stepps_alike hF k hal h2
        exact ⟨p', .cons _ _ _ _ _ (.afteran _ opt tw r' g1 g3) a1, a2⟩

theorem source_alike (hF : OrderFree F) {x : Ext F} {cfg : Config F} {table : List (F × F)} {rows rows' : List (Row F)} (hp : rows'.Perm rows) {names : List String}
    (hn : ∀ n ∈ names, n = "Recurrence") {n m n' : ℕ} {s t : AreaSource F} (h : SourceRun x cfg table rows names n s m t) : SourceRun x cfg table rows' names n' s n' t := by
  induction h with
  | nil => exact .nil _ _
  | recurrence names n s _ t c g g1 g2 _ ih =>
    exact .recurrence _ _ _ _ _ c g g1 (by rw [recurrence_reordered hF hp]; exact g2) (ih fun a ha => hn a (List.mem_cons_of_mem _ ha))
  | maximum => exact absurd (hn _ List.mem_cons_self) (by decide)

theorem sources_alike (hF : OrderFree F) {x : Ext F} {cfg : Config F} {p p' : Prep F} (he : p'.events.Perm p.events) (ht : p'.table = p.table) (hn : ∀ n ∈ cfg.processingJobs, n = "Recurrence")
    {n m n' : ℕ} {ss ts : List (AreaSource F)} (h : SourcesRun x cfg p n ss m ts) : SourcesRun x cfg p' n' ss n' ts := by
  induction h with
  | nil => exact .nil _
  | cons n s m t ss n1 ts rows hev hs _ ih =>
    obtain ⟨rows', hev', hp⟩ : ∃ rows', HasEvents x cfg s p'.events rows' ∧ rows'.Perm rows := by
      by_cases hc : Configured cfg.sourceModelFile
      · obtain ⟨a1, a2, rfl, a4⟩ := hev.1 hc
        have hf := he.filter fun r => x.contains s.boundary.posList (r 3) (r 4)
        exact ⟨_, ⟨fun _ => ⟨a1, a2, rfl, fun hh h0 => a4 hh (by rw [h0] at hf; exact hf.symm.eq_nil)⟩, fun hh => absurd hc hh⟩, hf⟩
      · obtain rfl := hev.2 hc
        exact ⟨p'.events, ⟨fun hh => absurd hh hc, fun _ => rfl⟩, he⟩
    exact .cons n' s n' t ss n' ts rows' hev' (by rw [ht]; exact source_alike hF hp hn hs) ih

/-- Reordering the rows of the catalogue, for any number type in which minima and maxima do not depend on the order. -/
theorem run_reordered (hF : OrderFree F) {key : F → ℝ} (hk : ∀ a b : F, a ≤ b → key a ≤ key b) (hk' : Function.Injective key) (x : Ext F) (hx : Sorts x) (cfg : Config F)
    {d : List String} (hd : d = [] ∨ d = ["GardnerKnopoff"] ∨ d = ["Afteran"]) {k : ℕ} (hpre : cfg.preprocessingJobs = d ++ List.replicate k "Stepp")
    (hproc : ∀ n ∈ cfg.processingJobs, n = "Recurrence") {fs fs' : Text → Option Content} {file file' : Text} (hfile : fs cfg.eqCatalogFile = some (.text file))
    (hfile' : fs' cfg.eqCatalogFile = some (.text file')) (hr : Reordered file file') (hrest : ∀ q, q ≠ cfg.eqCatalogFile → fs' q = fs q)
    (hm : ∀ q, cfg.sourceModelFile = some q ∨ cfg.completenessTableFile = some q → q ≠ cfg.eqCatalogFile)
    (hdist : d ≠ [] → ∀ es all, readCatalogFile x.env x.ord file = .ok es → List.Forall₂ RowOf es all → (all.map fun r => r 5).Nodup) (pos pos' : ℕ) {w : World F}
    (h : main x cfg fs pos = some ⟨none, w⟩) :
    ∃ w', main x cfg fs' pos' = some ⟨none, w'⟩ ∧ ∀ q, q ≠ cfg.eqCatalogFile → cfg.pprocessingResultFile ≠ some q → w'.fs q = w.fs q := by
  have hpren : ∀ n ∈ cfg.preprocessingJobs, n = "GardnerKnopoff" ∨ n = "Afteran" ∨ n = "Stepp" := by
    intro n hn
    rw [hpre, List.mem_append] at hn
    rcases hn with hn | hn
    · rcases hd with e | e | e <;> rw [e] at hn <;> simp only [List.mem_cons, List.not_mem_nil, or_false] at hn <;> tauto
    · exact .inr (.inr (List.eq_of_mem_replicate hn))
  have hprocn : ∀ n ∈ cfg.processingJobs, n = "Recurrence" ∨ n = "MaximumMagnitude" := fun n hn => .inl (hproc n hn)
  obtain ⟨es, inputs, all, prep, fs1, n, finals, doc, ⟨file0, ym, mm, pr, a1, a2, a3, a4, a5, a6, a7, a8, a9, a10, a11, a12, a13, a14⟩, b1, b2, b3, b4, b5⟩ :=
    (C145_run x cfg fs w.fs pos hpren hprocn).1 ⟨w, h, rfl⟩
  rw [hfile] at a1
  cases a1
  obtain ⟨es', r1, r2⟩ := read_reordered hr a2
  obtain ⟨all', r3, r4⟩ := List.perm_comp_forall₂ r2 a5
  rw [hpre] at a8
  obtain ⟨pr', c1, c2⟩ := chain_alike hF hk hk' hx r4 hd (fun hh => hdist hh es all a2 a5) k a8
  let prep' : Prep F := ⟨pr'.events, pr'.flags, prep.table⟩
  have hmin : ∀ i, npMin (all'.map fun r => r i) = npMin (all.map fun r => r i) := fun i => hF.npMin (r4.map _)
  obtain ⟨sel, hsel, -⟩ := selected_get (years all') prep.table pr'.flags (by rw [c2.flags]; simp [years])
  have hmS : ∀ m, cfg.sourceModelFile = some m → fs' m = fs m := fun m hh => hrest m (hm m (.inl hh))
  have hstored : ∃ fs1', (cfg.preprocessingJobs ≠ [] ∧ Configured cfg.pprocessingResultFile → Stored x cfg es' all' prep' fs' fs1') ∧
      (¬ (cfg.preprocessingJobs ≠ [] ∧ Configured cfg.pprocessingResultFile) → fs1' = fs') ∧ ∀ q, q ≠ cfg.eqCatalogFile → cfg.pprocessingResultFile ≠ some q → fs1' q = fs1 q := by
    by_cases hc : cfg.preprocessingJobs ≠ [] ∧ Configured cfg.pprocessingResultFile
    · obtain ⟨path, tpath, sel0, g1, g2, g3, g4, g5, g6⟩ := a13 hc
      refine ⟨put (put fs' path (.text (writeCatalog x.show_ (kept es' sel)))) tpath (.text (Table.saveTable x.fmt5 prep.table)),
        fun _ => ⟨path, tpath, sel, g1, g2, hsel, g4, g5, rfl⟩, fun hh => absurd hc hh, fun q hq hq' => ?_⟩
      have : q ≠ path := fun hh => hq' (by rw [g1, hh])
      rw [g6]
      simp only [put, if_neg this, hrest q hq]
    · exact ⟨fs', fun hh => absurd hh hc, fun _ => rfl, fun q hq _ => by rw [a14 hc]; exact hrest q hq⟩
  obtain ⟨fs1', s1, s2, s3⟩ := hstored
  have hprep : Prepared x cfg fs' es' inputs all' prep' fs1' := by
    refine ⟨file', ym, mm, pr', hfile', r1, InputSources.congr rfl hmS a3, a4, r3, by rw [hmin]; exact a6, by rw [hmin]; exact a7, by rw [hpre]; exact c1, rfl, rfl, ?_, ?_, s1, s2⟩
    · intro hh
      obtain ⟨path, txt, t1, t2, t3⟩ := a11 hh
      exact ⟨path, txt, t1, by rw [hrest path (hm path (.inr t1))]; exact t2, t3⟩
    · intro hh
      exact (a12 hh).trans c2.table.symm
  have hev : prep'.events.Perm prep.events := by rw [a9]; exact c2.events
  obtain ⟨w', hw', hfs⟩ := (C145_run x cfg fs' (put fs1' cfg.resultFile (.xml doc)) pos' hpren hprocn).2
    ⟨es', inputs, all', prep', fs1', pos', finals, doc, hprep, fun hh => sources_alike hF hev rfl hproc (b1 hh), b2, b3, b4, rfl⟩
  refine ⟨w', hw', fun q hq hq' => ?_⟩
  rw [hfs, b5]
  simp only [put]
  split
  · rfl
  · exact s3 q hq hq'

/-- **C204** (exact numbers). -/
theorem C204_exact (x : Ext ℝ) (hx : Sorts x) (cfg : Config ℝ) {d : List String} (hd : d = [] ∨ d = ["GardnerKnopoff"] ∨ d = ["Afteran"]) {k : ℕ}
    (hpre : cfg.preprocessingJobs = d ++ List.replicate k "Stepp") (hproc : ∀ n ∈ cfg.processingJobs, n = "Recurrence") {fs fs' : Text → Option Content} {file file' : Text}
    (hfile : fs cfg.eqCatalogFile = some (.text file)) (hfile' : fs' cfg.eqCatalogFile = some (.text file')) (hr : Reordered file file') (hrest : ∀ q, q ≠ cfg.eqCatalogFile → fs' q = fs q)
    (hm : ∀ q, cfg.sourceModelFile = some q ∨ cfg.completenessTableFile = some q → q ≠ cfg.eqCatalogFile)
    (hdist : d ≠ [] → ∀ es all, readCatalogFile x.env x.ord file = .ok es → List.Forall₂ RowOf es all → (all.map fun r => r 5).Nodup) (pos pos' : ℕ) {w : World ℝ}
    (h : main x cfg fs pos = some ⟨none, w⟩) :
    ∃ w', main x cfg fs' pos' = some ⟨none, w'⟩ ∧ ∀ q, q ≠ cfg.eqCatalogFile → cfg.pprocessingResultFile ≠ some q → w'.fs q = w.fs q :=
  run_reordered orderFree_real (key := id) (fun _ _ h => h) Function.injective_id x hx cfg hd hpre hproc hfile hfile' hr hrest hm hdist pos pos' h

/-- **C204** (double precision, any mathematical library). -/
theorem C204_double [Libm] (x : Ext Dbl) (hx : Sorts x) (cfg : Config Dbl) {d : List String} (hd : d = [] ∨ d = ["GardnerKnopoff"] ∨ d = ["Afteran"]) {k : ℕ}
    (hpre : cfg.preprocessingJobs = d ++ List.replicate k "Stepp") (hproc : ∀ n ∈ cfg.processingJobs, n = "Recurrence") {fs fs' : Text → Option Content} {file file' : Text}
    (hfile : fs cfg.eqCatalogFile = some (.text file)) (hfile' : fs' cfg.eqCatalogFile = some (.text file')) (hr : Reordered file file') (hrest : ∀ q, q ≠ cfg.eqCatalogFile → fs' q = fs q)
    (hm : ∀ q, cfg.sourceModelFile = some q ∨ cfg.completenessTableFile = some q → q ≠ cfg.eqCatalogFile)
    (hdist : d ≠ [] → ∀ es all, readCatalogFile x.env x.ord file = .ok es → List.Forall₂ RowOf es all → (all.map fun r => r 5).Nodup) (pos pos' : ℕ) {w : World Dbl}
    (h : main x cfg fs pos = some ⟨none, w⟩) :
    ∃ w', main x cfg fs' pos' = some ⟨none, w'⟩ ∧ ∀ q, q ≠ cfg.eqCatalogFile → cfg.pprocessingResultFile ≠ some q → w'.fs q = w.fs q :=
  run_reordered orderFree_dbl (key := fun x : Dbl => ((x.val : ℚ) : ℝ)) key_mono (fun _ _ hab => Dbl.ext (Rat.cast_injective hab)) x hx cfg hd hpre hproc hfile hfile' hr hrest hm hdist pos pos' h

end

/-! ### A run that meets the hypotheses -/

/-- Number of places of smaller keys. -/
def placeRank {n : ℕ} {α : Type} [LinearOrder α] (key : Fin n → α) (i : Fin n) : ℕ :=
  ((List.finRange n).filter fun j => key j < key i ∨ key j = key i ∧ j < i).length

/-- A sorting permutation that can be computed. -/
def sortPerm {n : ℕ} {α : Type} [LinearOrder α] (key : Fin n → α) : Equiv.Perm (Fin n) :=
  let f : Fin n → Fin n := fun i => (((List.finRange n).find? fun j => placeRank key j = i.1).getD i)
  let g : Fin n → Fin n := fun i => if h : placeRank key i < n then ⟨placeRank key i, h⟩ else i
  if h : ((∀ i, g (f i) = i) ∧ ∀ i, f (g i) = i) ∧ ∀ i j : Fin n, i ≤ j → key (f i) ≤ key (f j) then ⟨f, g, h.1.1, h.1.2⟩ else Tuple.sort key

theorem sortPerm_sorts {n : ℕ} {α : Type} [LinearOrder α] (key : Fin n → α) : IsArgsort key (sortPerm key) := by
  intro a b hab
  unfold sortPerm
  dsimp only
  split
  · rename_i h
    exact h.2 a b hab
  · exact Tuple.monotone_sort key hab

/-- Files and libraries for the example. -/
def x204 : Ext Dbl := { x203 with
  argsort := fun key => sortPerm fun i => (key i).val
  argsortInt := fun key => sortPerm key }

/-- Declustering with the windows of Gardner and Knopoff, Stepp's test and the maximum likelihood method. -/
def cfg204 : Config Dbl := { cfg203 with preprocessingJobs := ["GardnerKnopoff", "Stepp"], gardnerKnopoff := some ("GardnerKnopoff", Dbl.of 0) }

/-- The rows of `file195` in another order. -/
def file204 : Text := writeRow (fieldNames.map (fun f => f.name.toList)) ++ writeRow (row193 "1990" "4.1") ++ writeRow (row193 "1980" "4.5") ++ writeRow (row193 "1985" "3.3")

def fs204 : Text → Option Content := fun n => if n = ['c'] then some (.text file204) else none

/-- The run of the example ends without exception. -/
theorem run204 : ∃ w, @main Dbl (@instPyMathDbl plainLibm) x204 cfg204 fs203 0 = some ⟨none, w⟩ := by
  have h : (@main Dbl (@instPyMathDbl plainLibm) x204 cfg204 fs203 0).map (fun r => r.raised.isNone) = some true := by decide +kernel
  rcases hr : @main Dbl (@instPyMathDbl plainLibm) x204 cfg204 fs203 0 with _ | ⟨_ | e, w⟩ <;> rw [hr] at h
  · cases h
  · exact ⟨w, rfl⟩
  · cases h

/-- The two files of the example have the same rows in different order. -/
theorem reordered204 : Reordered file195 file204 := by
  have h1 : (validateCsvCatalog file195).map csvRows = .ok ([row193 "1980" "4.5", row193 "1985" "3.3", row193 "1990" "4.1"], none) := by decide +kernel
  have h2 : (validateCsvCatalog file204).map csvRows = .ok ([row193 "1990" "4.1", row193 "1980" "4.5", row193 "1985" "3.3"], none) := by decide +kernel
  cases hv : validateCsvCatalog file195 with
  | error e => rw [hv] at h1; cases h1
  | ok rest =>
    cases hv' : validateCsvCatalog file204 with
    | error e => rw [hv'] at h2; cases h2
    | ok rest' =>
      rw [hv] at h1
      rw [hv'] at h2
      have e1 := Except.ok.inj h1
      have e2 := Except.ok.inj h2
      refine ⟨rest, rest', hv, hv', ?_, by rw [e1, e2]⟩
      rw [e1, e2]
      exact List.Perm.filter _ ((List.perm_append_comm (l₁ := [row193 "1990" "4.1"]) (l₂ := [row193 "1980" "4.5", row193 "1985" "3.3"])))

/-- Non-vacuity: a run with declustering on the catalogue of C195 and on the same rows in another order. -/
example : ∃ w w', @main Dbl (@instPyMathDbl plainLibm) x204 cfg204 fs203 0 = some ⟨none, w⟩ ∧ @main Dbl (@instPyMathDbl plainLibm) x204 cfg204 fs204 0 = some ⟨none, w'⟩ ∧
    fs203 ['c'] ≠ fs204 ['c'] ∧ w'.fs ['r'] = w.fs ['r'] ∧ w'.fs ['q'] = w.fs ['q'] := by
  let _ := plainLibm
  obtain ⟨w, h⟩ := run204
  have hsort : Sorts x204 := by
    refine ⟨fun key a b hab => ?_, fun key a b hab => sortPerm_sorts key a b hab⟩
    rw [Dbl.le_def]
    exact sortPerm_sorts (fun i => (key i).val) a b hab
  have hdist : ∀ es all, readCatalogFile (dblEnv 2012) columnOrder file195 = .ok es → List.Forall₂ RowOf es all → (all.map fun r => r 5).Nodup := by
    intro es all hes hall
    have h0 : (readCatalogFile (dblEnv 2012) columnOrder file195).map (fun es => es.map fun e => e .mw) = .ok [.flt (Dbl.of (45 / 10)), .flt (Dbl.of (33 / 10)), .flt (Dbl.of (41 / 10))] := by decide +kernel
    rw [hes] at h0
    replace h0 : es.map (fun e => e .mw) = _ := Except.ok.inj h0
    have h1 : all.map (fun r => Val.flt (r 5)) = es.map fun e => e .mw := by
      have hall' : ∀ v ∈ es.map (fun e => e .mw), ∃ x : Dbl, v = .flt x := by
        intro v hv
        rw [h0] at hv
        simp only [List.mem_cons, List.not_mem_nil, or_false] at hv
        rcases hv with rfl | rfl | rfl <;> exact ⟨_, rfl⟩
      clear hes h0
      induction hall with
      | nil => rfl
      | cons hr _ ih =>
        rw [List.map_cons, List.map_cons, ih fun v hv => hall' v (List.mem_cons_of_mem _ hv)]
        rcases hr.mw with h | ⟨i, h, -⟩
        · rw [h]
        · obtain ⟨y, hy⟩ := hall' _ List.mem_cons_self
          exact absurd (h.symm.trans hy) (by simp)
    rw [h0] at h1
    refine List.Nodup.of_map Val.flt ?_
    rw [List.map_map]
    show (all.map fun r => Val.flt (r 5)).Nodup
    rw [h1]
    decide +kernel
  obtain ⟨w', h', hq⟩ := C204_double x204 hsort cfg204 (d := ["GardnerKnopoff"]) (k := 1) (.inr (.inl rfl)) rfl (by simp [cfg204, cfg203]) (fs := fs203) (fs' := fs204) (file := file195) (file' := file204)
    rfl rfl reordered204 (fun q hq => by
      have hq : ¬ q = ['c'] := hq
      simp only [fs203, fs204, if_neg hq]) (fun q hq => by rcases hq with hq | hq <;> cases hq; decide) (fun _ => hdist) 0 0 h
  exact ⟨w, w', h, h', fun hh => absurd (Content.text.inj (Option.some.inj hh)) (by decide +kernel), hq _ (by decide) (by decide), hq _ (by decide) (by decide)⟩

end Verif.Workflow
