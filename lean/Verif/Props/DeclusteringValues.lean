import Verif.Props.SpecialValues
import Verif.Props.Outcomes
import Verif.Props.Regions

/-!
# C158: the declusterings computed with infinities and NaN
-/

namespace Verif.Spec

/-- The distance window of an event of magnitude `m` is a number: Gruenthal's formula takes a square root. -/
def HasDistance (opt : String) (m : ℝ) : Prop := opt = "Gruenthal" → 0 ≤ 0.037 + 1.02 * m

/-- Both windows of an event of magnitude `m` are numbers. -/
def HasWindows (opt : String) (m : ℝ) : Prop := opt = "Gruenthal" → 0 ≤ 0.62 + 17.32 * m

end Verif.Spec

namespace Verif.Declustering

open Verif Verif.CatUtil Verif.Np XNum Spec
open Verif.Recurrence (fin_add fin_sub fin_mul fin_neg fin_div fin_nat fin_int fin_zero fin_sci fin_eq fin_floor fin_ceil fin_exp fin_sqrt fin_pow)

variable {n : ℕ}

/-- A row of ordinary numbers. -/
def fr (r : Row ℝ) : Row (XNum ℝ) := fun k => fin (r k)

/-- A catalogue of ordinary numbers. -/
def fc (cat : Fin n → Row ℝ) : Fin n → Row (XNum ℝ) := fun j => fr (cat j)

/-- A result with ordinary numbers. -/
def fres (r : Result ℝ n) : Result (XNum ℝ) n := ⟨r.vcl, r.vmain.map fr, r.flag⟩

theorem HasWindows.distance {opt : String} {m : ℝ} (h : HasWindows opt m) : HasDistance opt m := fun ho => by
  have := h ho
  norm_num at this ⊢
  linarith

theorem sqrt_nan {x : ℝ} (h : x < 0) : PyMath.sqrt (fin x : XNum ℝ) = nan := if_pos h

theorem haversine_fin (a b c d : ℝ) : haversine (fin a) (fin b) (fin c) (fin d) = fin (haversine a b c d) := by
  obtain ⟨h0, h1, -⟩ := C49_defined a b c d
  unfold haversine
  unfold aval at h0 h1
  have hpi : (PyMath.pi : XNum ℝ) = fin Real.pi := rfl
  have hsin : ∀ x : ℝ, PyMath.sin (fin x) = fin (Real.sin x) := fun _ => rfl
  have hcos : ∀ x : ℝ, PyMath.cos (fin x) = fin (Real.cos x) := fun _ => rfl
  have hat : ∀ x y : ℝ, PyMath.atan2 (fin x) (fin y) = fin (PyMath.atan2 x y) := fun _ _ => rfl
  have h180 : ((180 : ℕ) : ℝ) ≠ 0 := by norm_num
  have h2 : ((2 : ℕ) : ℝ) ≠ 0 := by norm_num
  simp only [hpi, fin_nat, fin_sci, fin_div _ _ h180, fin_div _ _ h2, fin_mul, fin_sub, fin_add, hsin, hcos]
  rw [fin_sqrt _ (by push_cast; exact h0), fin_sqrt _ (by push_cast; exact h1), hat, fin_mul]
  rfl

theorem truncZ_fin (x : ℝ) : truncZ (fin x) = truncZ x := by
  unfold truncZ
  simp only [fin_nat, fin_lt, fin_floor, fin_ceil, floorZ_real, ceilZ_real]

theorem decimalYear_fin (y m d : ℝ) : decimalYear (fin y) (fin m) (fin d) = (decimalYear y m d).map fin := by
  unfold decimalYear
  rw [fin_nat, fin_sub, truncZ_fin]
  cases pyIndex marker (truncZ (m - ((1 : ℕ) : ℝ))) with
  | error e => rfl
  | ok k =>
    show Except.ok _ = Except.ok _
    have h365 : ((365 : ℕ) : ℝ) ≠ 0 := by norm_num
    simp only [fin_nat, fin_add, fin_sub, fin_div _ _ h365]

theorem decimalYears_fin (cat : Fin n → Row ℝ) :
    decimalYears (fun j => fc cat j 0) (fun j => fc cat j 1) (fun j => fc cat j 2) =
      (decimalYears (fun j => cat j 0) (fun j => cat j 1) (fun j => cat j 2)).map fun t j => fin (t j) := by
  have hb : ∀ j, (decimalYear (fc cat j 0) (fc cat j 1) (fc cat j 2)).toBool = (decimalYear (cat j 0) (cat j 1) (cat j 2)).toBool := fun j => by
    rw [show decimalYear (fc cat j 0) (fc cat j 1) (fc cat j 2) = _ from decimalYear_fin (cat j 0) (cat j 1) (cat j 2)]
    cases decimalYear (cat j 0) (cat j 1) (cat j 2) <;> rfl
  unfold decimalYears
  simp only [hb]
  split_ifs with h
  · show Except.ok _ = Except.ok _
    congr 1
    funext j
    simp only
    rw [show decimalYear (fc cat j 0) (fc cat j 1) (fc cat j 2) = _ from decimalYear_fin (cat j 0) (cat j 1) (cat j 2)]
    cases decimalYear (cat j 0) (cat j 1) (cat j 2) <;> rfl
  · rfl

/-! ### The windows -/

open Classical in
/-- The windows of an event of magnitude `m`: the published ones, or NaN where Gruenthal's square roots do not exist. -/
noncomputable def windows (opt : String) (win : ℝ → ℝ × ℝ) (m : ℝ) : XNum ℝ × XNum ℝ :=
  (if HasDistance opt m then fin (win m).1 else nan, if HasWindows opt m then fin (win m).2 else nan)

theorem gkWindow_fin (m : ℝ) : gkWindow (fin m) = (fin (gkWindow m).1, fin (gkWindow m).2) := by
  unfold gkWindow
  have h10 : (0 : ℝ) < 10.0 := by norm_num
  have h365 : ((365 : ℕ) : ℝ) ≠ 0 := by norm_num
  simp only [fin_sci, fin_nat, fin_mul, fin_add, fin_sub, fin_pow _ _ h10, fin_div _ _ h365, fin_lt]
  split_ifs <;> rfl

theorem uhrhammerWindow_fin (m : ℝ) : uhrhammerWindow (fin m) = (fin (uhrhammerWindow m).1, fin (uhrhammerWindow m).2) := by
  unfold uhrhammerWindow
  have h365 : ((365 : ℕ) : ℝ) ≠ 0 := by norm_num
  simp only [fin_sci, fin_nat, fin_mul, fin_neg, fin_add, fin_exp, fin_div _ _ h365]
  rfl

theorem pyAbs_fin (x : ℝ) : pyAbs (fin x) = fin (pyAbs x) := by
  unfold pyAbs
  simp only [fin_nat, fin_lt, fin_neg]
  split_ifs <;> rfl

theorem gruenthalWindow_fin (m : ℝ) : gruenthalWindow (fin m) = windows "Gruenthal" gruenthalWindow m := by
  unfold windows gruenthalWindow HasDistance HasWindows
  have h10 : (0 : ℝ) < ((10 : ℕ) : ℝ) := by norm_num
  have h365 : ((365 : ℕ) : ℝ) ≠ 0 := by norm_num
  simp only [fin_sci, fin_nat, fin_mul, fin_neg, fin_add, fin_pow _ _ h10, fin_div _ _ h365, ge_iff_le, fin_le, true_imp_iff]
  refine Prod.ext ?_ ?_
  · simp only
    split_ifs with h
    · rw [fin_sqrt _ h]; rfl
    · rw [sqrt_nan (not_le.mp h)]; rfl
  · simp only
    split_ifs with h6 h h
    · rfl
    · exact absurd (by norm_num at h6 ⊢; linarith) h
    · rw [fin_sqrt _ h, fin_add, fin_exp, fin_div _ _ h365, pyAbs_fin]; rfl
    · rw [sqrt_nan (not_le.mp h)]
      exact if_neg fun h => h

/-- The window function of a type: as published, with NaN where Gruenthal's square roots do not exist. -/
theorem timeDistWindow_fin (opt : String) :
    (∀ e, timeDistWindow (F := ℝ) opt = .error e → timeDistWindow (F := XNum ℝ) opt = .error e) ∧
    ∀ win, timeDistWindow (F := ℝ) opt = .ok win → ∃ winX, timeDistWindow (F := XNum ℝ) opt = .ok winX ∧ ∀ m, winX (fin m) = windows opt win m := by
  unfold timeDistWindow
  constructor
  · intro e h
    split_ifs at h ⊢ with h1 h2 h3
    obtain rfl := Except.error.inj h
    rfl
  · intro win h
    split_ifs at h ⊢ with h1 h2 h3
    · obtain rfl := Except.ok.inj h
      refine ⟨_, rfl, fun m => ?_⟩
      rw [gkWindow_fin, windows, if_pos (by rw [h1]; exact fun h => absurd h (by decide)), if_pos (by rw [h1]; exact fun h => absurd h (by decide))]
    · obtain rfl := Except.ok.inj h
      exact ⟨_, rfl, fun m => by rw [gruenthalWindow_fin, h2]⟩
    · obtain rfl := Except.ok.inj h
      refine ⟨_, rfl, fun m => ?_⟩
      rw [uhrhammerWindow_fin, windows, if_pos (by rw [h3]; exact fun h => absurd h (by decide)), if_pos (by rw [h3]; exact fun h => absurd h (by decide))]

/-! ### Gardner and Knopoff -/

theorem gkSel_nan (cat : Fin n → Row (XNum ℝ)) (t sp tm : Fin n → XNum ℝ) (fs : XNum ℝ) (i j : Fin n) (h : sp i = nan ∨ tm i = nan) : gkSel cat t sp tm fs i j = false := by
  have hx : ∀ x : XNum ℝ, ¬ x ≤ nan := fun x h => by cases x <;> exact h
  unfold gkSel
  rcases h with h | h <;> simp only [h, hx, decide_false, Bool.and_false, Bool.false_and]

open Classical in
/-- Gardner and Knopoff's loop with events without windows: they gather nothing, as if their distance window were negative. -/
theorem gkLoop_fin (cat : Fin n → Row ℝ) (t sp tm : Fin n → ℝ) (fs : ℝ) (P Q : Fin n → Prop) (hQP : ∀ i, Q i → P i) :
    gkLoop (fc cat) (fun j => fin (t j)) (fun j => if P j then fin (sp j) else nan) (fun j => if Q j then fin (tm j) else nan) (fin fs) =
      gkLoop cat t (fun j => if Q j then sp j else -1) tm fs := by
  unfold gkLoop
  congr 1
  funext s i
  unfold gkStep
  have hs : gkSel (fc cat) (fun j => fin (t j)) (fun j => if P j then fin (sp j) else nan) (fun j => if Q j then fin (tm j) else nan) (fin fs) i =
      gkSel cat t (fun j => if Q j then sp j else -1) tm fs i := by
    funext j
    by_cases hq : Q i
    · unfold gkSel
      simp only [if_pos hq, if_pos (hQP i hq)]
      rw [show haversine (fc cat j 3) (fc cat j 4) (fc cat i 3) (fc cat i 4) = fin _ from haversine_fin _ _ _ _]
      simp only [fin_sub, fin_neg, fin_mul, ge_iff_le, fin_le]
    · rw [gkSel_nan _ _ _ _ _ _ _ (.inr (if_neg hq))]
      unfold gkSel
      have := (C49_range (cat j 3) (cat j 4) (cat i 3) (cat i 4)).1
      simp only [if_neg hq]
      rw [decide_eq_false (p := haversine (cat j 3) (cat j 4) (cat i 3) (cat i 4) ≤ -1) (by linarith), Bool.and_false]
  simp only [hs, fin_sub, fin_sci, ge_iff_le, fin_le]

theorem unflagged_fin (cat : Fin n → Row ℝ) (flag : Fin n → ℤ) : unflagged (fc cat) flag = (unflagged cat flag).map fr := by
  unfold unflagged
  rw [List.map_map]
  rfl

open Classical in
/-- **C158** (Gardner and Knopoff): the algorithm returns exactly as in exact arithmetic, and what it returns is the result of its loop with those events that have no window
gathering nothing. -/
theorem C158_gk (cat : Fin n → Row ℝ) (opt : String) (fs : ℝ) (asc id1 : Equiv.Perm (Fin n)) :
    (∀ e, gardnerKnopoff cat opt fs asc id1 = .error e → gardnerKnopoff (fc cat) opt (fin fs) asc id1 = .error e) ∧
    ∀ r, gardnerKnopoff cat opt fs asc id1 = .ok r → ∃ t win, Times cat t ∧ timeDistWindow opt = .ok win ∧
      let s := gkLoop (cat ∘ flipud asc) (t ∘ flipud asc) ((fun j => if HasWindows opt (cat j 5) then (win (cat j 5)).1 else -1) ∘ flipud asc)
        ((fun j => (win (cat j 5)).2) ∘ flipud asc) fs
      gardnerKnopoff (fc cat) opt (fin fs) asc id1 = .ok (fres ⟨s.vcl ∘ id1, unflagged ((cat ∘ flipud asc) ∘ id1) (s.flag ∘ id1), s.flag ∘ id1⟩) := by
  unfold gardnerKnopoff
  rw [decimalYears_fin]
  rcases hd : decimalYears (fun j => cat j 0) (fun j => cat j 1) (fun j => cat j 2) with e | t
  · exact ⟨fun e h => (by cases h; rfl), fun r h => (by cases h)⟩
  rcases hw : timeDistWindow (F := ℝ) opt with e | win
  · rw [(timeDistWindow_fin opt).1 e hw]
    exact ⟨fun e h => (by cases h; rfl), fun r h => (by cases h)⟩
  obtain ⟨winX, hX, hm⟩ := (timeDistWindow_fin opt).2 win hw
  refine ⟨fun e h => (by cases h), fun r _ => ⟨t, win, (decimalYears_times cat t).1 hd, rfl, ?_⟩⟩
  simp only [hX, Except.map, Recurrence.bind_ok]
  have h1 : (fun j => (winX (fc cat j 5)).1) = fun j => if HasDistance opt (cat j 5) then fin (win (cat j 5)).1 else nan := by
    funext j
    rw [show winX (fc cat j 5) = _ from hm (cat j 5)]
    rfl
  have h2 : (fun j => (winX (fc cat j 5)).2) = fun j => if HasWindows opt (cat j 5) then fin (win (cat j 5)).2 else nan := by
    funext j
    rw [show winX (fc cat j 5) = _ from hm (cat j 5)]
    rfl
  rw [h1, h2]
  have hl := gkLoop_fin (cat ∘ flipud asc) (t ∘ flipud asc) (fun j => (win ((cat ∘ flipud asc) j 5)).1) (fun j => (win ((cat ∘ flipud asc) j 5)).2) fs
    (fun j => HasDistance opt ((cat ∘ flipud asc) j 5)) (fun j => HasWindows opt ((cat ∘ flipud asc) j 5)) fun i h => HasWindows.distance h
  have hl' : gkLoop (fc cat ∘ flipud asc) ((fun j => fin (t j)) ∘ flipud asc) ((fun j => if HasDistance opt (cat j 5) then fin (win (cat j 5)).1 else nan) ∘ flipud asc)
      ((fun j => if HasWindows opt (cat j 5) then fin (win (cat j 5)).2 else nan) ∘ flipud asc) (fin fs) = _ := hl
  rw [hl']
  show Except.ok _ = Except.ok _
  congr 1
  unfold fres
  congr 1
  exact unflagged_fin _ _

/-- **C158** (Gardner and Knopoff, partial): if the windows of all events are numbers, the result is that of exact arithmetic. -/
theorem C158_gk_partial (cat : Fin n → Row ℝ) (opt : String) (fs : ℝ) (asc id1 : Equiv.Perm (Fin n)) (h : ∀ j, HasWindows opt (cat j 5)) :
    gardnerKnopoff (fc cat) opt (fin fs) asc id1 = (gardnerKnopoff cat opt fs asc id1).map fres := by
  classical
  rcases hg : gardnerKnopoff cat opt fs asc id1 with e | r
  · exact (C158_gk cat opt fs asc id1).1 e hg
  · obtain ⟨t, win, ht, hw, hr⟩ := (C158_gk cat opt fs asc id1).2 r hg
    rw [hr]
    unfold gardnerKnopoff at hg
    rw [(decimalYears_times cat t).2 ht, hw] at hg
    obtain rfl := Except.ok.inj hg
    simp only [h, if_true]
    rfl

/-! ### Afteran -/

theorem findAftershocksAux_fin (tw : ℝ) (l : List ℝ) (x : ℝ) : findAftershocksAux (fin tw) (fin x) (l.map fin) = findAftershocksAux tw x l := by
  induction l generalizing x with
  | nil => rfl
  | cons t l ih =>
    simp only [List.map_cons, findAftershocksAux, fin_sub, fin_sci, ge_iff_le, fin_le]
    split_ifs <;> rw [ih]

theorem findAftershocks_fin (tw : ℝ) (l : List ℝ) : findAftershocks (fin tw) (l.map fin) = findAftershocks tw l := by
  cases l with
  | nil => rfl
  | cons t l => simp only [List.map_cons, findAftershocks, findAftershocksAux_fin]

theorem findForeshocksAux_fin (tw : ℝ) : ∀ (l : List (ℝ × Bool)) (x : ℝ), findForeshocksAux (fin tw) (fin x) (l.map fun p => (fin p.1, p.2)) = findForeshocksAux tw x l
  | [], _ => rfl
  | [(t, true)], _ => by simp [findForeshocksAux]
  | (t, true) :: q :: l, x => by
    simp only [List.map_cons, findForeshocksAux, if_true]
    rw [findForeshocksAux_fin tw l x]
  | (t, false) :: l, x => by
    rw [List.map_cons, findForeshocksAux.eq_def, findForeshocksAux.eq_def]
    simp only [Bool.false_eq_true, if_false, fin_sub, fin_neg, fin_sci, ge_iff_le, fin_le]
    split_ifs <;> rw [findForeshocksAux_fin tw l]

theorem findForeshocks_fin (tw : ℝ) (l : List ℝ) (a : List Bool) : findForeshocks (fin tw) (l.map fin) a = findForeshocks tw l a := by
  cases l with
  | nil => rfl
  | cons t l =>
    simp only [List.map_cons, findForeshocks]
    rw [← findForeshocksAux_fin]
    congr 3
    rw [List.zip_map_left]
    rfl

open Classical in
theorem afStep_fin (cat : Fin n → Row ℝ) (t sp : Fin n → ℝ) (tw : ℝ) (P : Fin n → Prop) (s : State n) (i : Fin n) :
    afStep (fc cat) (fun j => fin (t j)) (fun j => if P j then fin (sp j) else nan) (fin tw) s i =
      if s.vcl i = 0 ∧ ¬ P i then .error .indexError else afStep cat t sp tw s i := by
  unfold afStep
  by_cases hv : s.vcl i = 0
  swap
  · simp only [hv, if_false, false_and]
  simp only [hv, if_true, true_and]
  by_cases hP : P i
  · have hsel : afSel (fc cat) (fun j => if P j then fin (sp j) else nan) s i = afSel cat sp s i := by
      unfold afSel
      refine List.filter_congr fun j _ => ?_
      rw [show haversine (fc cat j 3) (fc cat j 4) (fc cat i 3) (fc cat i 4) = fin _ from haversine_fin _ _ _ _]
      simp only [if_pos hP, fin_le]
    have hm : (afSel cat sp s i).map (fun j => (fin (t j) - fin (t i) : XNum ℝ)) = ((afSel cat sp s i).map fun j => t j - t i).map fin := by
      rw [List.map_map]
      exact List.map_congr_left fun j _ => fin_sub _ _
    rw [if_neg (fun h => h hP), hsel, hm, findAftershocks_fin]
    simp only [findForeshocks_fin]
  · have hsel : afSel (fc cat) (fun j => if P j then fin (sp j) else nan) s i = [] := by
      unfold afSel
      have hx : ∀ x : XNum ℝ, ¬ x ≤ nan := fun x h => by cases x <;> exact h
      simp only [if_neg hP, hx, decide_false, Bool.false_and, List.filter_false]
    rw [if_pos hP, hsel]
    rfl

open Classical in
/-- Afteran's loop with events without distance window: as exact, or `IndexError`. -/
theorem afFold_fin (cat : Fin n → Row ℝ) (t sp : Fin n → ℝ) (tw : ℝ) (P : Fin n → Prop) (l : List (Fin n)) (s : State n) :
    l.foldlM (afStep (fc cat) (fun j => fin (t j)) (fun j => if P j then fin (sp j) else nan) (fin tw)) s = l.foldlM (afStep cat t sp tw) s ∨
    l.foldlM (afStep (fc cat) (fun j => fin (t j)) (fun j => if P j then fin (sp j) else nan) (fin tw)) s = .error .indexError ∧ ∃ i ∈ l, ¬ P i := by
  induction l generalizing s with
  | nil => exact .inl rfl
  | cons i l ih =>
    rw [List.foldlM_cons, List.foldlM_cons, afStep_fin]
    split_ifs with h
    · exact .inr ⟨rfl, i, List.mem_cons_self, h.2⟩
    · rcases afStep cat t sp tw s i with e | s'
      · exact .inl rfl
      · rcases ih s' with h | ⟨h, j, hj, hP⟩
        · exact .inl h
        · exact .inr ⟨h, j, List.mem_cons_of_mem _ hj, hP⟩

theorem afStep_other (cat : Fin n → Row ℝ) (t sp : Fin n → ℝ) (tw : ℝ) (s : State n) (i k : Fin n) (hnot : s.vcl i = 0 → k ∉ afSel cat sp s i) :
    afStep cat t sp tw s i = .error .indexError ∨ ∃ s', afStep cat t sp tw s i = .ok s' ∧ s'.vcl k = s.vcl k := by
  unfold afStep
  by_cases hv : s.vcl i = 0
  swap
  · exact .inr ⟨s, if_neg hv, rfl⟩
  simp only [if_pos hv]
  have hn := hnot hv
  generalize afSel cat sp s i = sel at *
  cases sel with
  | nil => exact .inl rfl
  | cons x xs =>
    simp only [List.map_cons, findAftershocks, findForeshocks, Recurrence.bind_ok]
    split_ifs with hc
    · exact .inr ⟨_, rfl, by simp only [marked_not_mem _ _ _ hn, Bool.false_eq_true, if_false]⟩
    · exact .inr ⟨s, rfl, rfl⟩

open Classical in
/-- An event without distance window that no other event reaches ends Afteran's loop with `IndexError`. -/
theorem afFold_alone (cat : Fin n → Row ℝ) (t sp : Fin n → ℝ) (tw : ℝ) (P : Fin n → Prop) (k : Fin n) (hk : ¬ P k)
    (hfar : ∀ i, P i → sp i < haversine (cat k 3) (cat k 4) (cat i 3) (cat i 4)) (l : List (Fin n)) (hl : k ∈ l) (s : State n) (hs : s.vcl k = 0) :
    l.foldlM (afStep (fc cat) (fun j => fin (t j)) (fun j => if P j then fin (sp j) else nan) (fin tw)) s = .error .indexError := by
  induction l generalizing s with
  | nil => cases hl
  | cons i l ih =>
    rw [List.foldlM_cons, afStep_fin]
    split_ifs with h
    · rfl
    · have hik : i ≠ k := by rintro rfl; exact h ⟨hs, hk⟩
      have hkl : k ∈ l := (List.mem_cons.mp hl).resolve_left (Ne.symm hik)
      have hnot : s.vcl i = 0 → k ∉ afSel cat sp s i := by
        intro hv
        have hP : P i := by by_contra hP; exact h ⟨hv, hP⟩
        unfold afSel
        simp only [List.mem_filter, List.mem_finRange, true_and, Bool.and_eq_true, decide_eq_true_eq, not_and]
        intro h
        exact absurd h (hfar i hP).not_ge
      rcases afStep_other cat t sp tw s i k hnot with he | ⟨s', he, hs'⟩
      · rw [he]; rfl
      · rw [he]; exact ih hkl s' (hs'.trans hs)

/-- What Afteran returns for a state of its loop. -/
def afResult (cat : Fin n → Row ℝ) (asc id1 : Equiv.Perm (Fin n)) (s : State n) : Result ℝ n :=
  ⟨s.vcl ∘ id1, unflagged ((cat ∘ flipud asc) ∘ id1) (s.flag ∘ id1), s.flag ∘ id1⟩

open Classical in
theorem afteran_run (cat : Fin n → Row ℝ) (opt : String) (w : ℝ) (asc id1 : Equiv.Perm (Fin n)) (t : Fin n → ℝ) (win : ℝ → ℝ × ℝ)
    (hd : decimalYears (fun j => cat j 0) (fun j => cat j 1) (fun j => cat j 2) = .ok t) (hw : timeDistWindow opt = .ok win) :
    afteran cat opt w asc id1 =
      ((List.finRange n).foldlM (afStep (cat ∘ flipud asc) (t ∘ flipud asc) (fun j => (win ((cat ∘ flipud asc) j 5)).1) (w / ((365 : ℕ) : ℝ))) (State.init n)).map
        (afResult cat asc id1) ∧
    afteran (fc cat) opt (fin w) asc id1 =
      ((List.finRange n).foldlM (afStep (fc (cat ∘ flipud asc)) (fun j => fin ((t ∘ flipud asc) j))
        (fun j => if HasDistance opt ((cat ∘ flipud asc) j 5) then fin (win ((cat ∘ flipud asc) j 5)).1 else nan) (fin (w / ((365 : ℕ) : ℝ)))) (State.init n)).map
        (fun s => fres (afResult cat asc id1 s)) := by
  constructor
  · unfold afteran
    simp only [hd, hw, Recurrence.bind_ok]
    show (afLoop (cat ∘ flipud asc) (t ∘ flipud asc) (fun j => (win ((cat ∘ flipud asc) j 5)).1) _ >>= _) = Except.map _ (afLoop _ _ _ _)
    rcases afLoop (cat ∘ flipud asc) (t ∘ flipud asc) (fun j => (win ((cat ∘ flipud asc) j 5)).1) (w / ((365 : ℕ) : ℝ)) with e | s <;> rfl
  · obtain ⟨winX, hX, hm⟩ := (timeDistWindow_fin opt).2 win hw
    have h365 : ((365 : ℕ) : ℝ) ≠ 0 := by norm_num
    unfold afteran
    rw [decimalYears_fin]
    simp only [hd, hX, Except.map, Recurrence.bind_ok, fin_nat, fin_div _ _ h365]
    have h1 : (fun j => (winX (fc cat j 5)).1) ∘ flipud asc = fun j => if HasDistance opt ((cat ∘ flipud asc) j 5) then fin (win ((cat ∘ flipud asc) j 5)).1 else nan := by
      funext j
      show (winX (fin (cat (flipud asc j) 5))).1 = _
      rw [hm]
      rfl
    rw [h1]
    show (afLoop (fc (cat ∘ flipud asc)) (fun j => fin ((t ∘ flipud asc) j)) _ _ >>= _) = Except.map _ (afLoop _ _ _ _)
    rcases afLoop (fc (cat ∘ flipud asc)) (fun j => fin ((t ∘ flipud asc) j))
      (fun j => if HasDistance opt ((cat ∘ flipud asc) j 5) then fin (win ((cat ∘ flipud asc) j 5)).1 else nan) (fin (w / ((365 : ℕ) : ℝ))) with e | s
    · rfl
    · show Except.ok _ = Except.ok _
      congr 1
      unfold fres afResult
      congr 1
      exact unflagged_fin _ _

/-- **C158** (Afteran): the algorithm returns the result, or raises the exception, of exact arithmetic; or it raises `IndexError`, and then some event has no distance window. -/
theorem C158_afteran (cat : Fin n → Row ℝ) (opt : String) (w : ℝ) (asc id1 : Equiv.Perm (Fin n)) :
    afteran (fc cat) opt (fin w) asc id1 = (afteran cat opt w asc id1).map fres ∨
      afteran (fc cat) opt (fin w) asc id1 = .error .indexError ∧ ∃ j, ¬ HasDistance opt (cat j 5) := by
  classical
  rcases hd : decimalYears (fun j => cat j 0) (fun j => cat j 1) (fun j => cat j 2) with e | t
  · left
    unfold afteran
    rw [decimalYears_fin, hd]
    rfl
  rcases hw : timeDistWindow (F := ℝ) opt with e | win
  · left
    unfold afteran
    rw [decimalYears_fin, hd, hw, (timeDistWindow_fin opt).1 e hw]
    rfl
  obtain ⟨h1, h2⟩ := afteran_run cat opt w asc id1 t win hd hw
  rw [h1, h2]
  rcases afFold_fin (cat ∘ flipud asc) (t ∘ flipud asc) (fun j => (win ((cat ∘ flipud asc) j 5)).1) (w / ((365 : ℕ) : ℝ))
    (fun j => HasDistance opt ((cat ∘ flipud asc) j 5)) (List.finRange n) (State.init n) with h | ⟨h, i, -, hi⟩
  · left
    rw [h]
    cases (List.finRange n).foldlM (afStep (cat ∘ flipud asc) (t ∘ flipud asc) (fun j => (win ((cat ∘ flipud asc) j 5)).1) (w / ((365 : ℕ) : ℝ))) (State.init n) <;> rfl
  · right
    rw [h]
    exact ⟨rfl, flipud asc i, hi⟩

/-- **C158** (Afteran, partial): if the distance windows of all events are numbers, the result is that of exact arithmetic. -/
theorem C158_afteran_partial (cat : Fin n → Row ℝ) (opt : String) (w : ℝ) (asc id1 : Equiv.Perm (Fin n)) (h : ∀ j, HasDistance opt (cat j 5)) :
    afteran (fc cat) opt (fin w) asc id1 = (afteran cat opt w asc id1).map fres :=
  (C158_afteran cat opt w asc id1).resolve_right fun ⟨_, j, hj⟩ => hj (h j)

/-- **C158** (Afteran, Gruenthal windows): an event of negative magnitude without distance window that lies in the distance window of no other event makes the algorithm raise
`IndexError`. -/
theorem C158_afteran_alone (cat : Fin n → Row ℝ) (w : ℝ) (asc id1 : Equiv.Perm (Fin n)) (k : Fin n) (hk : 0.037 + 1.02 * cat k 5 < 0)
    (hfar : ∀ i, 0 ≤ 0.037 + 1.02 * cat i 5 → Real.exp (1.77 + Real.sqrt (0.037 + 1.02 * cat i 5)) < eventDist cat i k) :
    afteran (fc cat) "Gruenthal" (fin w) asc id1 = .error .indexError := by
  classical
  rcases hd : decimalYears (fun j => cat j 0) (fun j => cat j 1) (fun j => cat j 2) with e | t
  · have he : e = .indexError := by
      unfold decimalYears at hd
      split_ifs at hd
      exact (Except.error.inj hd).symm
    unfold afteran
    rw [decimalYears_fin, hd, he]
    rfl
  have hw : timeDistWindow (F := ℝ) "Gruenthal" = .ok gruenthalWindow := rfl
  rw [(afteran_run cat "Gruenthal" w asc id1 t _ hd hw).2]
  rw [afFold_alone (cat ∘ flipud asc) (t ∘ flipud asc) (fun j => (gruenthalWindow ((cat ∘ flipud asc) j 5)).1) (w / ((365 : ℕ) : ℝ))
    (fun j => HasDistance "Gruenthal" ((cat ∘ flipud asc) j 5)) ((flipud asc).symm k) ?_ ?_ (List.finRange n) (List.mem_finRange _) (State.init n) rfl]
  · rfl
  · intro h
    have := h rfl
    simp only [Function.comp_apply, Equiv.apply_symm_apply] at this
    linarith
  · intro i hi
    have := hfar (flipud asc i) (hi rfl)
    simp only [Function.comp_apply, Equiv.apply_symm_apply]
    exact this

/-- A single event of magnitude -1. -/
noncomputable def small158 : Fin 1 → Row ℝ := fun _ => ![2000, 6, 1, 10, 45, -1, 0.1]

/-- **C158** (refuted): Afteran does not return for every catalogue with usable months: a single event of magnitude -1 with Gruenthal's windows raises `IndexError`. -/
theorem C158_afteran_fails : ¬ ∀ (n : ℕ) (cat : Fin n → Row ℝ) (opt : String) (w : ℝ) (asc id1 : Equiv.Perm (Fin n)),
    afteran (fc cat) opt (fin w) asc id1 = (afteran cat opt w asc id1).map fres := by
  intro h
  have h1 := h 1 small158 "Gruenthal" 60 (Equiv.refl _) (Equiv.refl _)
  obtain ⟨r, hr⟩ := ((C138_declustering small158 "Gruenthal" 60 (Equiv.refl _) (Equiv.refl _)).2.2
    (fun j => by norm_num [small158, Matrix.cons_val]) (by decide)).2
  have h5 : ∀ i, small158 i 5 = -1 := fun _ => rfl
  rw [C158_afteran_alone small158 60 _ _ 0 (by rw [h5]; norm_num) (fun i hi => by rw [h5] at hi; norm_num at hi), hr] at h1
  cases h1

/-- **C158** (Gardner and Knopoff, Gruenthal windows): a catalogue whose magnitudes are all too small for Gruenthal's time window keeps all its events, however near they are to
each other. -/
theorem C158_gk_small (cat : Fin n → Row ℝ) (fs : ℝ) (asc id1 : Equiv.Perm (Fin n)) (hm : ∀ j, 0.62 + 17.32 * cat j 5 < 0) (r : Result (XNum ℝ) n)
    (h : gardnerKnopoff (fc cat) "Gruenthal" (fin fs) asc id1 = .ok r) : (∀ j, r.flag j = 0 ∧ r.vcl j = 0) ∧ r.vmain.length = n := by
  classical
  rcases hg : gardnerKnopoff cat "Gruenthal" fs asc id1 with e | r0
  · rw [(C158_gk cat _ fs asc id1).1 e hg] at h
    cases h
  obtain ⟨t, win, -, -, hr⟩ := (C158_gk cat _ fs asc id1).2 r0 hg
  have hno : ∀ j, ¬ HasWindows "Gruenthal" (cat j 5) := fun j hj => absurd (hj rfl) (not_le.mpr (hm j))
  have hl : ∀ (sp tm : Fin n → ℝ) (hs : ∀ i, sp i = -1), gkLoop (cat ∘ flipud asc) (t ∘ flipud asc) sp tm fs = State.init n := by
    intro sp tm hs
    unfold gkLoop
    generalize (List.finRange n).take (n - 1) = l
    induction l with
    | nil => rfl
    | cons i l ih =>
      rw [List.foldl_cons]
      have hsel : ∀ j, gkSel (cat ∘ flipud asc) (t ∘ flipud asc) sp tm fs i j = false := fun j => by
        unfold gkSel
        have := (C49_range ((cat ∘ flipud asc) j 3) ((cat ∘ flipud asc) j 4) ((cat ∘ flipud asc) i 3) ((cat ∘ flipud asc) i 4)).1
        rw [hs, decide_eq_false (p := haversine ((cat ∘ flipud asc) j 3) ((cat ∘ flipud asc) j 4) ((cat ∘ flipud asc) i 3) ((cat ∘ flipud asc) i 4) ≤ -1) (by linarith), Bool.and_false]
      have : gkStep (cat ∘ flipud asc) (t ∘ flipud asc) sp tm fs (State.init n) i = State.init n := by
        unfold gkStep
        simp [hsel]
      rw [this, ih]
  simp only at hr
  rw [hl _ _ (fun i => by simp only [Function.comp_apply, if_neg (hno _)])] at hr
  rw [hr] at h
  obtain rfl := Except.ok.inj h
  refine ⟨fun j => ⟨rfl, rfl⟩, ?_⟩
  simp [fres, unflagged, State.init]

/-- **C138** (declustering, with NaN): as `C138_declustering`, except that Afteran needs the distance windows to be numbers. -/
theorem C138_declustering_values (cat : Fin n → Row ℝ) (opt : String) (x : ℝ) (asc id1 : Equiv.Perm (Fin n)) :
    ((∃ j, ¬ (-12 < cat j 1 ∧ cat j 1 < 13)) →
      gardnerKnopoff (fc cat) opt (fin x) asc id1 = .error .indexError ∧ afteran (fc cat) opt (fin x) asc id1 = .error .indexError) ∧
    ((∀ j, -12 < cat j 1 ∧ cat j 1 < 13) → opt ∉ ["GardnerKnopoff", "Gruenthal", "Uhrhammer"] →
      gardnerKnopoff (fc cat) opt (fin x) asc id1 = .error .keyError ∧ afteran (fc cat) opt (fin x) asc id1 = .error .keyError) ∧
    ((∀ j, -12 < cat j 1 ∧ cat j 1 < 13) → opt ∈ ["GardnerKnopoff", "Gruenthal", "Uhrhammer"] →
      (∃ r, gardnerKnopoff (fc cat) opt (fin x) asc id1 = .ok r) ∧
      ((∀ j, HasDistance opt (cat j 5)) → ∃ r, afteran (fc cat) opt (fin x) asc id1 = .ok r) ∧
      ((∃ r, afteran (fc cat) opt (fin x) asc id1 = .ok r) ∨ afteran (fc cat) opt (fin x) asc id1 = .error .indexError)) := by
  classical
  obtain ⟨h1, h2, h3⟩ := C138_declustering cat opt x asc id1
  refine ⟨fun h => ?_, fun h ho => ?_, fun h ho => ?_⟩
  · obtain ⟨a, b⟩ := h1 h
    refine ⟨(C158_gk cat opt x asc id1).1 _ a, ?_⟩
    rcases C158_afteran cat opt x asc id1 with h | ⟨h, -⟩
    · rw [h, b]; rfl
    · exact h
  · obtain ⟨a, b⟩ := h2 h ho
    refine ⟨(C158_gk cat opt x asc id1).1 _ a, ?_⟩
    rw [C158_afteran_partial, b]
    · rfl
    · intro j hg
      rw [hg] at ho
      simp at ho
  · obtain ⟨⟨r, a⟩, r', b⟩ := h3 h ho
    refine ⟨?_, fun hd => ?_, ?_⟩
    · obtain ⟨t, win, -, -, hr⟩ := (C158_gk cat opt x asc id1).2 r a
      exact ⟨_, hr⟩
    · rw [C158_afteran_partial cat opt x asc id1 hd, b]
      exact ⟨_, rfl⟩
    · rcases C158_afteran cat opt x asc id1 with h | ⟨h, -⟩
      · rw [h, b]; exact .inl ⟨_, rfl⟩
      · exact .inr h

/-- Two events of magnitude 5 and 4: the Gruenthal windows are numbers, so that the two computations agree. -/
example : ∃ r : Result ℝ 2, gardnerKnopoff (fc fun j : Fin 2 => if j = 0 then ![2000, 6, 1, 10, 45, 5, 0.1] else ![2000, 6, 2, 10, 45, 4, 0.1]) "Gruenthal" (fin 1) (Equiv.refl _)
    (Equiv.refl _) = .ok (fres r) := by
  obtain ⟨⟨r, hr⟩, -⟩ := (C138_declustering (fun j : Fin 2 => if j = 0 then ![2000, 6, 1, 10, 45, 5, 0.1] else ![2000, 6, 2, 10, 45, 4, 0.1]) "Gruenthal" 1 (Equiv.refl _)
    (Equiv.refl _)).2.2 (fun j => by fin_cases j <;> norm_num [Matrix.cons_val]) (by decide)
  refine ⟨r, ?_⟩
  rw [C158_gk_partial _ _ _ _ _ (fun j _ => by
    fin_cases j
    · show (0 : ℝ) ≤ 0.62 + 17.32 * 5; norm_num
    · show (0 : ℝ) ≤ 0.62 + 17.32 * 4; norm_num), hr]
  rfl

end Verif.Declustering
