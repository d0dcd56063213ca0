import Verif.Props.RunExamples
import Verif.Props.GardnerKnopoffExamples

/-!
# C30: chaining declustering jobs
-/

namespace Verif.Workflow

open Verif Verif.EqCatalog Verif.Csv Verif.Nrml Verif.Declustering Spec

/-- The argsorts of the environment sort. -/
def Spec.Sorts {F : Type} [PyMath F] (x : Ext F) : Prop :=
  (∀ {n : Nat} (key : Fin n → F), IsArgsort key (x.argsort key)) ∧ ∀ {n : Nat} (key : Fin n → Fin n), IsArgsort key (x.argsortInt key)

/-- The flags describe the rows of the catalogue matrix: one flag per row, and the working catalogue consists of the rows with flag 0. -/
def Spec.FlagsDescribe {F : Type} (w : World F) (rows : List (Row F)) : Prop :=
  w.ctx.catalogMatrix = some ⟨rows, false⟩ ∧ (∃ t, w.ctx.completenessTable = some t) ∧
    ∃ flags, w.ctx.flagVector = some flags ∧ flags.length = rows.length ∧ w.ctx.workingCatalog = some ⟨kept rows flags, false⟩

/-- Statement of C30: starting from the full working catalogue, after any sequence of declustering jobs the flags describe the rows of the original
catalogue and the selection succeeds. -/
def Spec.ChainedDeclustering (F : Type) [PyMath F] : Prop :=
  ∀ (x : Ext F) (cfg : Config F) (names : List String) (js : List Job) (w w' : World F) (rows : List (Row F)), Sorts x → Named names js →
    (∀ j ∈ js, j = .gardnerKnopoff ∨ j = .afteran) → FlagsDescribe w rows →
      w.ctx.workingCatalog = some ⟨rows, false⟩ → Chain (Succeeds x cfg) js w w' →
      FlagsDescribe w' rows ∧ ∃ w'', Succeeds x cfg .createSelectedEqVector w' w''

section
variable {F : Type} [PyMath F]

omit [PyMath F] in
theorem kept_fin (rows : List (Row F)) (flag : Fin rows.length → Int) :
    ((List.finRange rows.length).filter (fun j => flag j = 0)).map (fun i => rows[i]) = kept rows (List.ofFn flag) := by
  have h : rows = (List.finRange rows.length).map (fun i => rows[i]) := by
    rw [← List.ofFn_eq_map]; exact List.ofFn_getElem.symm
  unfold kept
  conv_rhs => rw [show rows.zip (List.ofFn flag) = (List.finRange rows.length).map (fun i => (rows[i], flag i)) from by
    rw [List.ofFn_eq_map]
    conv_lhs => enter [1]; rw [h]
    rw [List.zip_map']]
  rw [List.filter_map, List.map_map]
  rfl

/-- A declustering job that succeeded. -/
def Declustered (w w' : World F) (rows : List (Row F)) : Prop :=
  ∃ flags v, flags.length = rows.length ∧
    w' = { w with ctx := { w.ctx with vcl := v, workingCatalog := some ⟨kept rows flags, false⟩, flagVector := some flags } }

theorem gardnerKnopoffJob_ok {x : Ext F} {cfg : Config F} {w w' : World F} (hx : Sorts x) (h : Succeeds x cfg .gardnerKnopoff w w') :
    ∃ rows, w.ctx.workingCatalog = some ⟨rows, false⟩ ∧ Declustered w w' rows := by
  simp only [Succeeds, runJob, Option.some.injEq] at h
  unfold gardnerKnopoffJob at h
  obtain ⟨⟨opt, fs⟩, -, h⟩ := bind_ok h
  obtain ⟨⟨rows, d⟩, hm, h⟩ := bind_ok h
  obtain ⟨rows', hr, h⟩ := bind_ok h
  obtain ⟨r, hg, h⟩ := bind_ok h
  rw [notNone_ok] at hm
  unfold Matrix.cols at hr
  cases d with
  | true => cases hr
  | false =>
    cases hr
    cases h
    refine ⟨rows, hm, List.ofFn r.flag, some (List.ofFn r.vcl), by simp, ?_⟩
    have := (C34_gk_mainshocks _ opt fs _ _ r (hx.2 _) hg).2
    rw [kept_fin] at this
    simp only [storeDeclustered, this]

theorem afteranJob_ok {x : Ext F} {cfg : Config F} {w w' : World F} (hx : Sorts x) (h : Succeeds x cfg .afteran w w') :
    ∃ rows, w.ctx.catalogMatrix = some ⟨rows, false⟩ ∧ Declustered w w' rows := by
  simp only [Succeeds, runJob, Option.some.injEq] at h
  unfold afteranJob at h
  obtain ⟨⟨opt, fs⟩, -, h⟩ := bind_ok h
  obtain ⟨⟨rows, d⟩, hm, h⟩ := bind_ok h
  obtain ⟨rows', hr, h⟩ := bind_ok h
  obtain ⟨r, hg, h⟩ := bind_ok h
  rw [notNone_ok] at hm
  unfold Matrix.cols at hr
  cases d with
  | true => cases hr
  | false =>
    cases hr
    cases h
    refine ⟨rows, hm, List.ofFn r.flag, some (List.ofFn r.vcl), by simp, ?_⟩
    have := (C34_afteran_mainshocks _ opt fs _ _ r (hx.2 _) hg).2
    rw [kept_fin] at this
    simp only [storeDeclustered, this]

/-- The other jobs that a configuration can name leave the catalogues and the flags alone, and a completeness table in place. -/
theorem other_job_keeps {x : Ext F} {cfg : Config F} {w w' : World F} {n : String} {j : Job} (hn : (n, j) ∈ documented) (hg : j ≠ .gardnerKnopoff)
    (ha : j ≠ .afteran) (h : Succeeds x cfg j w w') :
    w'.ctx.catalogMatrix = w.ctx.catalogMatrix ∧ w'.ctx.workingCatalog = w.ctx.workingCatalog ∧ w'.ctx.flagVector = w.ctx.flagVector ∧
      (w.ctx.completenessTable ≠ none → w'.ctx.completenessTable ≠ none) := by
  unfold Succeeds at h
  cases j with
  | gardnerKnopoff => exact absurd rfl hg
  | afteran => exact absurd rfl ha
  | readSourceModel => simp [documented] at hn
  | createDefaultSourceModel => simp [documented] at hn
  | readEqCatalog => simp [documented] at hn
  | createCatalogMatrix => simp [documented] at hn
  | createDefaultValues => simp [documented] at hn
  | recurrence =>
    obtain ⟨i, d, m, f, hi, hd, hl, -, -, rfl⟩ := recurrenceJob_ok.1 h
    exact ⟨rfl, rfl, rfl, id⟩
  | maximumMagnitude =>
    obtain ⟨i, d, m, f, p', hi, hd, hl, -, -, rfl⟩ := maximumMagnitudeJob_ok.1 h
    exact ⟨rfl, rfl, rfl, id⟩
  | stepp =>
    simp only [runJob, Option.some.injEq] at h
    unfold steppJob at h
    obtain ⟨_, -, h⟩ := bind_ok h
    obtain ⟨_, -, h⟩ := bind_ok h
    obtain ⟨_, -, h⟩ := bind_ok h
    obtain ⟨_, -, h⟩ := bind_ok h
    cases h
    exact ⟨rfl, rfl, rfl, fun _ => by simp⟩
  | createSelectedEqVector =>
    simp only [runJob, Option.some.injEq] at h
    unfold createSelectedEqVectorJob at h
    obtain ⟨_, -, h⟩ := bind_ok h
    obtain ⟨_, -, h⟩ := bind_ok h
    obtain ⟨_, -, h⟩ := bind_ok h
    obtain ⟨_, -, h⟩ := bind_ok h
    obtain ⟨_, -, h⟩ := bind_ok h
    cases h
    exact ⟨rfl, rfl, rfl, id⟩
  | storePreprocessedCatalog =>
    simp only [runJob, Option.some.injEq] at h
    unfold storePreprocessedCatalogJob at h
    simp only at h
    split at h
    · obtain ⟨_, -, h⟩ := bind_ok h
      obtain ⟨_, -, h⟩ := bind_ok h
      obtain ⟨_, -, h⟩ := bind_ok h
      obtain ⟨_, -, h⟩ := bind_ok h
      obtain ⟨_, -, h⟩ := bind_ok h
      obtain ⟨_, -, h⟩ := bind_ok h
      cases h
      exact ⟨rfl, rfl, rfl, id⟩
    · cases h
  | storeCompletenessTable =>
    simp only [runJob, Option.some.injEq] at h
    unfold storeCompletenessTableJob at h
    simp only at h
    split at h
    · obtain ⟨_, -, h⟩ := bind_ok h
      obtain ⟨_, -, h⟩ := bind_ok h
      obtain ⟨_, -, h⟩ := bind_ok h
      cases h
      exact ⟨rfl, rfl, rfl, id⟩
    · cases h
  | retrieveCompletenessTable =>
    simp only [runJob, Option.some.injEq] at h
    unfold retrieveCompletenessTableJob at h
    obtain ⟨_, -, h⟩ := bind_ok h
    split at h
    · cases h
    · cases h
    · obtain ⟨_, -, h⟩ := bind_ok h
      cases h
      exact ⟨rfl, rfl, rfl, fun _ => by simp⟩

theorem describe_other {x : Ext F} {cfg : Config F} {w w' : World F} {n : String} {j : Job} {rows : List (Row F)} (hx : Sorts x)
    (hn : (n, j) ∈ documented) (hg : j ≠ .gardnerKnopoff) (h : Succeeds x cfg j w w') (hd : FlagsDescribe w rows) : FlagsDescribe w' rows := by
  obtain ⟨h1, ⟨t, ht⟩, flags, h2, h3, h4⟩ := hd
  by_cases ha : j = .afteran
  · subst ha
    obtain ⟨rows', hr, flags', v, hl, rfl⟩ := afteranJob_ok hx h
    rw [h1] at hr
    cases hr
    exact ⟨h1, ⟨t, ht⟩, flags', rfl, hl, rfl⟩
  · obtain ⟨k1, k2, k3, k4⟩ := other_job_keeps hn hg ha h
    refine ⟨k1.trans h1, Option.ne_none_iff_exists'.1 (k4 (by rw [ht]; simp)), flags, k3.trans h2, h3, k2.trans h4⟩

theorem selection_succeeds {x : Ext F} {cfg : Config F} {w : World F} {rows : List (Row F)} (hd : FlagsDescribe w rows) :
    ∃ w', Succeeds x cfg .createSelectedEqVector w w' := by
  obtain ⟨h1, ⟨t, ht⟩, flags, h2, h3, h4⟩ := hd
  simp only [Succeeds, runJob, Option.some.injEq]
  unfold createSelectedEqVectorJob
  simp only [h1, ht, h2, notNone, attr, Matrix.cols, Bool.false_eq_true, if_false, bind, Except.bind, Completeness.selectedEqFlagVector, h3, yearMag,
    List.length_map, if_true]
  exact ⟨_, rfl⟩

theorem named_mem {names : List String} {js : List Job} (h : Named names js) {j : Job} (hj : j ∈ js) : ∃ n, (n, j) ∈ documented := by
  unfold Named at h
  induction h with
  | nil => cases hj
  | @cons n j' ns js h _ ih =>
    rcases List.mem_cons.1 hj with rfl | hj
    · exact ⟨n, h⟩
    · exact ih hj

/-- **C30**, the part that holds: if `GardnerKnopoff` occurs at most as the first declustering job of the list (`Afteran` anywhere after it, other named jobs
anywhere), the flags describe the original catalogue afterwards and the selection succeeds. -/
theorem C30_chained_partial (x : Ext F) (hx : Sorts x) (cfg : Config F) (names : List String) (a b : List Job) (d : Job)
    (hn : Named names (a ++ d :: b)) (ha : ∀ j ∈ a, j ≠ .gardnerKnopoff ∧ j ≠ .afteran) (hb : ∀ j ∈ b, j ≠ .gardnerKnopoff) (w w' : World F)
    (rows : List (Row F)) (hw : FlagsDescribe w rows) (hfull : w.ctx.workingCatalog = some ⟨rows, false⟩)
    (h : Chain (Succeeds x cfg) (a ++ d :: b) w w') :
    FlagsDescribe w' rows ∧ ∃ w'', Succeeds x cfg .createSelectedEqVector w' w'' := by
  suffices hs : FlagsDescribe w' rows from ⟨hs, selection_succeeds hs⟩
  obtain ⟨w1, h1, h2⟩ := (Chain.append_iff ..).1 h
  rcases h2 with _ | ⟨_, _, _, w2, _, h2, h3⟩
  have p1 : FlagsDescribe w1 rows ∧ w1.ctx.workingCatalog = some ⟨rows, false⟩ := by
    refine Chain.invariant h1 (P := fun w => FlagsDescribe w rows ∧ w.ctx.workingCatalog = some ⟨rows, false⟩) ?_ ⟨hw, hfull⟩
    intro j hj s s' hs ⟨p, q⟩
    obtain ⟨n, hn'⟩ := named_mem hn (List.mem_append_left _ hj)
    exact ⟨describe_other hx hn' (ha j hj).1 hs p, (other_job_keeps hn' (ha j hj).1 (ha j hj).2 hs).2.1.trans q⟩
  have p2 : FlagsDescribe w2 rows := by
    obtain ⟨n, hn'⟩ := named_mem hn (j := d) (by simp)
    by_cases hd : d = .gardnerKnopoff
    · subst hd
      obtain ⟨rows', hr, flags', v, hl, rfl⟩ := gardnerKnopoffJob_ok hx h2
      rw [p1.2] at hr
      cases hr
      exact ⟨p1.1.1, p1.1.2.1, flags', rfl, hl, rfl⟩
    · exact describe_other hx hn' hd h2 p1.1
  refine Chain.invariant h3 (P := fun w => FlagsDescribe w rows) ?_ p2
  intro j hj s s' hs p
  obtain ⟨n, hn'⟩ := named_mem hn (j := j) (by simp [hj])
  exact describe_other hx hn' (hb j hj) hs p

/-- **C30 fails** in general: `GardnerKnopoff` applied to a working catalogue of another length than the catalogue matrix (both of at least two rows) makes
the selection raise `ValueError`. -/
theorem C30_selection_raises (x : Ext F) (hx : Sorts x) (cfg : Config F) (w w' : World F) (rows work : List (Row F)) (t : List (F × F))
    (hm : w.ctx.catalogMatrix = some ⟨rows, false⟩) (ht : w.ctx.completenessTable = some t) (hw : w.ctx.workingCatalog = some ⟨work, false⟩)
    (h1 : 2 ≤ rows.length) (h2 : 2 ≤ work.length) (hne : work.length ≠ rows.length) (h : Succeeds x cfg .gardnerKnopoff w w') :
    runJob x cfg .createSelectedEqVector w' = some (.error .valueError) := by
  obtain ⟨work', hr, flags, v, hl, rfl⟩ := gardnerKnopoffJob_ok hx h
  rw [hw] at hr
  cases hr
  simp only [runJob]
  unfold createSelectedEqVectorJob
  simp only [hm, ht, notNone, attr, Matrix.cols, Bool.false_eq_true, if_false, bind, Except.bind]
  have e : Completeness.selectedEqFlagVector (yearMag rows) t flags = .error .valueError := by
    unfold Completeness.selectedEqFlagVector
    have hlen : (t.foldl (Completeness.markRow (yearMag rows)) (List.replicate (yearMag rows).length 0)).length = rows.length := by
      rw [Completeness.mark_fold_length _ _ _ (by simp)]
      simp [yearMag]
    simp only
    generalize t.foldl (Completeness.markRow (yearMag rows)) (List.replicate (yearMag rows).length 0) = tf at hlen ⊢
    rw [if_neg (by simp only [yearMag, List.length_map]; omega)]
    match flags, tf, hl, hlen with
    | [], _, hl, _ => simp at hl; omega
    | [_], _, hl, _ => simp at hl; omega
    | _ :: _ :: _, [], _, hlen => simp at hlen; omega
    | _ :: _ :: _, [_], _, hlen => simp at hlen; omega
    | _ :: _ :: _, _ :: _ :: _, _, _ => rfl
  rw [e]

theorem gardnerKnopoffJob_run {x : Ext F} {cfg : Config F} {w : World F} {opt : String} {fs : F} {rows : List (Row F)}
    {r : Declustering.Result F rows.length} (hc : cfg.gardnerKnopoff = some (opt, fs)) (hw : w.ctx.workingCatalog = some ⟨rows, false⟩)
    (hr : gardnerKnopoff (fun i : Fin rows.length => rows[i]) opt fs (x.argsort fun j => rows[j] 5) (x.argsortInt (flipud (x.argsort fun j => rows[j] 5))) =
      .ok r) : Succeeds x cfg .gardnerKnopoff w (storeDeclustered w r) := by
  simp only [Succeeds, runJob, Option.some.injEq]
  unfold gardnerKnopoffJob
  simp only [hc, hw, section_, notNone, Matrix.cols, Bool.false_eq_true, if_false, bind, Except.bind]
  have := hr
  simp only [Fin.getElem_fin] at this ⊢
  rw [this]

end

/-! ### A concrete catalogue -/

/-- Magnitude 6 on 10 January 2000, magnitude 5 two days later at the same place, magnitude 4 at 40 degrees. -/
noncomputable def cat30 : Fin 3 → Row ℝ := evs ![2000, 2000, 2000] ![10, 12, 10] ![0, 0, 40] ![6, 5, 4]

/-- Which of the events (columns) lie in the windows of the first two (rows), without foreshock window. -/
def sel30 : Fin 3 → Fin 3 → Bool := ![![true, true, false], ![false, true, false], ![false, false, false]]

theorem run30 : gardnerKnopoff cat30 "GardnerKnopoff" 0 Fin.revPerm (Equiv.refl _) = .ok ⟨![1, 1, 0], [cat30 0, cat30 2], ![0, 1, 0]⟩ := by
  have h := evs_gk ![2000, 2000, 2000] ![10, 12, 10] ![0, 0, 40] ![6, 5, 4] "GardnerKnopoff" 0 gkWindow gk_opt sel30 (by
    obtain ⟨-, ⟨b1, b2, b3⟩, ⟨c1, c2, c3⟩⟩ := gk_windows_examples
    have h1 := Real.pi_gt_d4
    have h2 := Real.pi_lt_d4
    intro i j hi
    apply bool_eq_of_iff
    rw [evs_windows _ _ _ _ _ _ _ _ (by fin_cases i <;> fin_cases j <;> norm_num)]
    fin_cases i <;> fin_cases j <;> simp [sel30] at hi ⊢ <;> norm_num [abs_of_pos] <;>
      (first | (refine ⟨?_, ?_⟩ <;> linarith) | linarith | (intro _; linarith)))
  simp only at h
  set s := ((List.finRange 3).take (3 - 1)).foldl (genStep sel30 (fun i j => decide
    (0 ≤ 365 * (![(2000 : ℤ), 2000, 2000] j - ![2000, 2000, 2000] i) + (![(10 : ℤ), 12, 10] j - ![10, 12, 10] i)))) (State.init 3) with hs
  have hv : s.vcl = ![1, 1, 0] := by rw [hs]; decide
  have hf : s.flag = ![0, 1, 0] := by rw [hs]; decide
  rw [hv, hf] at h
  have hu : unflagged cat30 ![0, 1, 0] = [cat30 0, cat30 2] := by
    simp [unflagged, List.finRange_succ]
  rw [← hu]
  exact h

theorem exExt_sorts : Sorts exExt := by
  refine ⟨?_, ?_⟩ <;> intro n key a b hab <;> exact Tuple.monotone_sort key hab

/-- Configuration with the Gardner-Knopoff windows. -/
def config30 : Config ℝ :=
  { exConfig none with gardnerKnopoff := some ("GardnerKnopoff", 0) }

/-- Context after the compulsory jobs on that catalogue. -/
noncomputable def context30 (flags : List Int) (vcl : Option (List Int)) (work : List (Row ℝ)) : Context ℝ where
  catalogMatrix := some ⟨[cat30 0, cat30 1, cat30 2], false⟩
  workingCatalog := some ⟨work, false⟩
  completenessTable := some [(2000, 4)]
  flagVector := some flags
  vcl := vcl

/-- The world after the compulsory jobs. -/
noncomputable def world30 : World ℝ := ⟨fun _ => none, 0, context30 [0, 0, 0] none [cat30 0, cat30 1, cat30 2]⟩

/-- The world after one Gardner-Knopoff job. -/
noncomputable def world30' : World ℝ := ⟨fun _ => none, 0, context30 [0, 1, 0] (some [1, 1, 0]) [cat30 0, cat30 2]⟩

theorem world30_describes : FlagsDescribe world30 [cat30 0, cat30 1, cat30 2] :=
  ⟨rfl, ⟨_, rfl⟩, [0, 0, 0], rfl, rfl, by simp [world30, context30, kept]⟩

theorem config30_gk : config30.gardnerKnopoff = some ("GardnerKnopoff", 0) := rfl

theorem sort30 : Tuple.sort (fun j => cat30 j 5) = Fin.revPerm := by
  have hc : (fun j => cat30 j 5) = ![6, 5, 4] := by
    funext j; fin_cases j <;> rfl
  rw [hc]
  refine sort_unique (m := fun j => -(![(6 : ℝ), 5, 4] j)) ?_ _ _ ?_ ?_
  · intro a b h
    fin_cases a <;> fin_cases b <;> first | rfl | simp at h
  · intro a b hab
    exact neg_le_neg (Tuple.monotone_sort (![(6 : ℝ), 5, 4]) hab)
  · intro a b hab
    fin_cases a <;> fin_cases b <;> first | (simp at hab; done) | (simp [Fin.rev]; done) | (simp [Fin.rev]; norm_num)

theorem first30 : Succeeds exExt config30 .gardnerKnopoff world30 world30' := by
  have e : ∀ asc : Equiv.Perm (Fin 3), asc = Fin.revPerm → ∀ id1 : Equiv.Perm (Fin 3), id1 = Equiv.refl _ → ∀ c : Fin 3 → Row ℝ, c = cat30 →
      gardnerKnopoff c "GardnerKnopoff" 0 asc id1 = .ok ⟨![1, 1, 0], [cat30 0, cat30 2], ![0, 1, 0]⟩ := by
    rintro _ rfl _ rfl _ rfl
    exact run30
  have hcat : (fun i : Fin [cat30 0, cat30 1, cat30 2].length => [cat30 0, cat30 1, cat30 2][i]) = cat30 := by
    funext i
    match i with
    | 0 => rfl
    | 1 => rfl
    | 2 => rfl
  have hs : Tuple.sort (flipud (Fin.revPerm : Equiv.Perm (Fin 3))) = Equiv.refl _ := by
    have : (⇑(flipud (Fin.revPerm : Equiv.Perm (Fin 3)))) = id := by
      funext i; fin_cases i <;> rfl
    rw [this]
    exact Tuple.sort_eq_refl_iff_monotone.2 monotone_id
  have hk : (fun j : Fin [cat30 0, cat30 1, cat30 2].length => [cat30 0, cat30 1, cat30 2][j] 5) = fun j => cat30 j 5 :=
    funext fun j => congrFun (congrFun hcat j) 5
  have ha : exExt.argsort (fun j : Fin [cat30 0, cat30 1, cat30 2].length => [cat30 0, cat30 1, cat30 2][j] 5) = Fin.revPerm := by
    rw [hk]; exact sort30
  refine gardnerKnopoffJob_run (x := exExt) (cfg := config30) (w := world30) (rows := [cat30 0, cat30 1, cat30 2])
    (r := (⟨![1, 1, 0], [cat30 0, cat30 2], ![0, 1, 0]⟩ : Declustering.Result ℝ 3)) config30_gk rfl (e _ ha _ ?_ _ hcat)
  rw [ha]
  exact hs

theorem second30 : ∃ w, Succeeds exExt config30 .gardnerKnopoff world30' w := by
  obtain ⟨r, hr⟩ := (C34_gk_succeeds (F := ℝ) (fun i : Fin [cat30 0, cat30 2].length => [cat30 0, cat30 2][i]) "GardnerKnopoff" 0
    (exExt.argsort fun j : Fin [cat30 0, cat30 2].length => [cat30 0, cat30 2][j] 5)
    (exExt.argsortInt (flipud (exExt.argsort fun j : Fin [cat30 0, cat30 2].length => [cat30 0, cat30 2][j] 5)))).2
    ⟨Or.inl rfl, ![2000 + ((10 : ℤ) - 1) / 365, 2000 + ((10 : ℤ) - 1) / 365], by
      intro i
      match i with
      | 0 => exact_mod_cast ev_time 2000 10 0 6
      | 1 => exact_mod_cast ev_time 2000 10 40 4⟩
  exact ⟨_, gardnerKnopoffJob_run config30_gk rfl hr⟩

/-- **C30 fails**: `["GardnerKnopoff", "GardnerKnopoff"]` on the three events above leaves two flags for a catalogue of three events, and the selection
raises `ValueError`. -/
theorem C30_fails : ¬ ChainedDeclustering ℝ := by
  intro h
  obtain ⟨w, hw⟩ := second30
  obtain ⟨-, w', hs⟩ := h exExt config30 ["GardnerKnopoff", "GardnerKnopoff"] [.gardnerKnopoff, .gardnerKnopoff] world30 w _ exExt_sorts
    (.cons (by simp [documented]) (.cons (by simp [documented]) .nil)) (by simp) world30_describes rfl
    (.cons _ _ _ _ _ first30 (.cons _ _ _ _ _ hw (.nil _)))
  have := C30_selection_raises exExt exExt_sorts config30 world30' w [cat30 0, cat30 1, cat30 2] [cat30 0, cat30 2] _ rfl rfl rfl (by simp) (by simp)
    (by simp) hw
  unfold Succeeds at hs
  rw [this] at hs
  cases hs

/-- The hypotheses of `C30_chained_partial` hold for a single Gardner-Knopoff job on this catalogue, which removes an event. -/
example : FlagsDescribe world30' [cat30 0, cat30 1, cat30 2] :=
  (C30_chained_partial exExt exExt_sorts config30 ["GardnerKnopoff"] [] [] .gardnerKnopoff (.cons (by simp [documented]) .nil) (by simp) (by simp)
    world30 world30' _ world30_describes rfl (.cons _ _ _ _ _ first30 (.nil _))).1

end Verif.Workflow
