import Verif.Lemmas.Invariance

/-! # C93: moving all years by a constant -/

namespace Verif.Spec

/-- The pairs (year, magnitude), `c` years later. -/
def later (c : ℝ) (l : List (ℝ × ℝ)) : List (ℝ × ℝ) := l.map fun e => (e.1 + c, e.2)

end Verif.Spec

namespace Verif.Completeness

open Verif Verif.Np Spec

theorem steppBins_later (c : ℝ) (ev : List (ℝ × ℝ)) (dm dt : ℝ) :
    steppBins (later c ev) dm dt = (steppBins ev dm dt).map fun b => { b with endTime := b.endTime + c } := by
  have e0 : (later c ev).map (fun e : ℝ × ℝ => (e.1, around2 e.2)) = later c (ev.map fun e : ℝ × ℝ => (e.1, around2 e.2)) := by
    simp only [later, List.map_map]; rfl
  have e1 : (later c (ev.map fun e : ℝ × ℝ => (e.1, around2 e.2))).map Prod.snd = (ev.map fun e : ℝ × ℝ => (e.1, around2 e.2)).map Prod.snd := by
    simp only [later, List.map_map]; rfl
  have e2 : (later c (ev.map fun e : ℝ × ℝ => (e.1, around2 e.2))).map Prod.fst = ((ev.map fun e : ℝ × ℝ => (e.1, around2 e.2)).map Prod.fst).map (· + c) := by
    simp only [later, List.map_map]; rfl
  simp only [steppBins, e0, e1, e2, npMin_add, npMax_add]
  generalize ev.map (fun e : ℝ × ℝ => (e.1, around2 e.2)) = ev1
  cases npMin (ev1.map Prod.snd) <;> [rfl; skip]
  cases npMax (ev1.map Prod.snd) <;> [rfl; skip]
  simp only [Recurrence.bind_ok]
  by_cases h1 : PyNum.decEq dm 0 = true
  · simp only [h1, if_true]; rfl
  simp only [h1]
  cases npMax (ev1.map Prod.fst) with
  | error e => rfl
  | ok y1 =>
  cases npMin (ev1.map Prod.fst) with
  | error e => rfl
  | ok y0 =>
  simp only [Except.map, Recurrence.bind_ok, add_sub_add_right_eq_sub]
  by_cases h2 : PyNum.decEq dt 0 = true
  · simp only [h2, if_true]; rfl
  simp only [h2]
  have e3 : ∀ (mb : ℕ → ℝ) (nb ii jj : ℕ), steppCount (later c ev1) mb nb (y1 + c - arangeAt dt dt ii) jj = steppCount ev1 mb nb (y1 - arangeAt dt dt ii) jj := by
    intro mb nb ii jj
    simp only [steppCount, later, List.countP_map]
    congr 1
    funext e
    simp only [Function.comp, ge_iff_le]
    have : (y1 + c - arangeAt dt dt ii ≤ e.1 + c) ↔ (y1 - arangeAt dt dt ii ≤ e.1) := by constructor <;> intro h <;> linarith
    simp only [this]
  simp only [e3]
  split_ifs <;> rfl

/-- **C93**: if all events are `c` years later, the completeness table of Stepp has the same magnitudes and all its years are `c` later (the same exception if there is one). -/
theorem C93_stepp (c : ℝ) (ev : List (ℝ × ℝ)) (dm dt ttol : ℝ) (iloc : Bool) : stepp (later c ev) dm dt ttol iloc = (stepp ev dm dt ttol iloc).map (later c) := by
  simp only [stepp, steppBins_later]
  cases steppBins ev dm dt with
  | error e => rfl
  | ok b =>
  simp only [Except.map, Recurrence.bind_ok]
  generalize List.mapM (compLength b.timeRange b.nt) _ = r
  cases r with
  | error e => rfl
  | ok l =>
  simp only [Recurrence.bind_ok, pure, Except.pure, later, Except.ok.injEq, List.map_zipWith]
  congr 1
  funext x jj
  simp only [Prod.mk.injEq, and_true]
  ring

end Verif.Completeness

namespace Verif.Recurrence

open Verif Verif.Np Spec

theorem later_fst (c : ℝ) (l : List (ℝ × ℝ)) : (later c l).map Prod.fst = (l.map Prod.fst).map (· + c) := by
  simp only [later, List.map_map]; rfl

theorem later_snd (c : ℝ) (l : List (ℝ × ℝ)) : (later c l).map Prod.snd = l.map Prod.snd := by
  simp only [later, List.map_map]; rfl

theorem recurrenceTable_later (c : ℝ) (ev : List (ℝ × ℝ)) (dmag : ℝ) : recurrenceTable (later c ev) dmag = recurrenceTable ev dmag := by
  simp only [recurrenceTable, later_fst, later_snd, npMin_add, npMax_add]
  cases npMax (ev.map Prod.fst) with
  | error e => rfl
  | ok y1 =>
  cases npMin (ev.map Prod.fst) with
  | error e => rfl
  | ok y0 => simp only [Except.map, bind_ok, add_sub_add_right_eq_sub]

theorem periodEvents_later (c : ℝ) (ev : List (ℝ × ℝ)) (ctime mc : ℝ) : periodEvents (later c ev) (ctime + c) mc = later c (periodEvents ev ctime mc) := by
  simp only [periodEvents, later, List.filter_map]
  congr 2
  funext e
  simp only [Function.comp, ge_iff_le, add_le_add_iff_right]

theorem period_later (c : ℝ) (ev : List (ℝ × ℝ)) (dmag refMag ctime : ℝ) (g : List ℝ) :
    period (later c ev) dmag refMag (ctime + c) g = period ev dmag refMag ctime g := by
  simp only [period]
  cases npMin g with
  | error e => rfl
  | ok mc =>
  simp only [bind_ok, periodEvents_later, later_fst, npMin_add, npMax_add, recurrenceTable_later]
  have hl : (later c (periodEvents ev ctime mc)).length = (periodEvents ev ctime mc).length := by simp [later]
  cases npMax ((periodEvents ev ctime mc).map Prod.fst) with
  | error e => rfl
  | ok y1 =>
  cases npMin ((periodEvents ev ctime mc).map Prod.fst) with
  | error e => rfl
  | ok y0 => simp only [Except.map, bind_ok, add_sub_add_right_eq_sub, hl]

theorem groupOf_later (c : ℝ) (table : List (ℝ × ℝ)) (y : ℝ) : groupOf (later c table) (y + c) = groupOf table y := by
  simp only [groupOf, later, List.filter_map, List.map_map]
  congr 1
  congr 1
  funext r
  simp only [Function.comp, add_sub_add_right_eq_sub]

theorem periods_later (c : ℝ) (ev table : List (ℝ × ℝ)) (dmag refMag : ℝ) (i : ℕ) :
    periods (later c ev) (later c table) dmag refMag i = periods ev table dmag refMag i := by
  have hlen : (later c table).length = table.length := by simp [later]
  induction hn : table.length - i using Nat.strong_induction_on generalizing i with
  | _ n ih =>
    rw [periods, periods]
    by_cases hi : i < table.length
    · have hi' : i < (later c table).length := by rwa [hlen]
      have hy : (later c table)[i].1 = table[i].1 + c := by simp [later]
      simp only [hi, hi', dite_true, hy, groupOf_later]
      by_cases hg : (groupOf table table[i].1).length = 0
      · simp only [hg, dite_true]
      · simp only [hg, dite_false, period_later, ih _ (by omega) (i + (groupOf table table[i].1).length) rfl]
    · have hi' : ¬ i < (later c table).length := by rwa [hlen]
      simp only [hi, hi', dite_false]

theorem cells_later (c : ℝ) (ev : List (ℝ × ℝ)) (dm dt : ℝ) : cells (later c ev) dm dt =
    (cells ev dm dt).map fun k => { k with timeInt := fun i => k.timeInt i + c, events := later c k.events, maxYear := k.maxYear + c } := by
  have e0 : (later c ev).map (fun e : ℝ × ℝ => (e.1, around1 e.2)) = later c (ev.map fun e : ℝ × ℝ => (e.1, around1 e.2)) := by
    simp only [later, List.map_map]; rfl
  simp only [cells, e0, later_fst, later_snd, npMin_add, npMax_add]
  generalize ev.map (fun e : ℝ × ℝ => (e.1, around1 e.2)) = ev1
  cases npMin (ev.map Prod.fst) with
  | error e => rfl
  | ok y0 =>
  cases npMax (ev.map Prod.fst) with
  | error e => rfl
  | ok y1 =>
  simp only [Except.map, bind_ok]
  by_cases h1 : PyNum.decEq dt 0 = true
  · simp only [h1, if_true]; rfl
  simp only [h1]
  cases npMin (ev1.map Prod.snd) <;> [rfl; skip]
  cases npMax (ev1.map Prod.snd) <;> [rfl; skip]
  simp only [bind_ok]
  have e1 : y1 + c + 1.5 * dt = y1 + 1.5 * dt + c := by ring
  rw [e1, arangeLen_add]
  have e2 : arangeAt (y0 + c) dt = fun i => arangeAt y0 dt i + c := by funext i; exact arangeAt_add _ _ _ _
  rw [e2]
  split_ifs <;> rfl

theorem weichertPrep_later (c : ℝ) (ev table : List (ℝ × ℝ)) (dm dt : ℝ) : weichertPrep (later c ev) (later c table) dm dt = weichertPrep ev table dm dt := by
  rw [weichertPrep, weichertPrep, cells_later]
  cases cells ev dm dt with
  | error e => rfl
  | ok k =>
  simp only [Except.map, bind_ok]
  have h1 : ∀ a i, Cells.count { k with timeInt := fun i => k.timeInt i + c, events := later c k.events, maxYear := k.maxYear + c } a i = k.count a i := by
    intro a i
    simp only [Cells.count, later, List.countP_map]
    congr 1
    funext e
    simp only [Function.comp, inBin_add (e := k.timeInt) (fun i => rfl)]
  have h2 : ∀ (r : ℝ × ℝ) a i, Cells.removed { k with timeInt := fun i => k.timeInt i + c, events := later c k.events, maxYear := k.maxYear + c } (r.1 + c, r.2) a i =
      k.removed r a i := by
    intro r a i
    simp only [Cells.removed, add_lt_add_iff_right]
  have h3 : ∀ i, Cells.nObs { k with timeInt := fun i => k.timeInt i + c, events := later c k.events, maxYear := k.maxYear + c } (later c table) i = k.nObs table i := by
    intro i
    simp only [Cells.nObs, h1]
    congr 1
    refine List.map_congr_left fun a _ => ?_
    rw [show later c table = table.map fun e => (e.1 + c, e.2) from rfl, List.any_map]
    simp only [Function.comp_def, h2]
  have h4 : ∀ i, Cells.tPer { k with timeInt := fun i => k.timeInt i + c, events := later c k.events, maxYear := k.maxYear + c } (later c table) i = k.tPer table i := by
    intro i
    simp only [Cells.tPer, later, List.filter_map, List.getLast?_map, Function.comp_def]
    cases (List.filter (fun r : ℝ × ℝ => decide (r.2 - k.magInt i < 1e-3)) table).getLast? with
    | some r => simp only [Option.map_some, Option.some_or, add_sub_add_right_eq_sub]
    | none =>
      cases table.getLast? with
      | some r => simp only [Option.map_some, Option.map_none, Option.none_or, add_sub_add_right_eq_sub]
      | none => rfl
  simp only [h3, h4]

/-- **C93**: if all events and all years of the completeness table are `c` years later, the result of the recurrence job is the same, for both algorithms. -/
theorem C93_recurrence (c : ℝ) (ev table : List (ℝ × ℝ)) (dmag : ℝ) (algorithm : String) (refMag dt : ℝ) (fuel : ℕ) :
    recurrenceAnalysis (later c ev) (later c table) dmag algorithm refMag dt fuel = recurrenceAnalysis ev table dmag algorithm refMag dt fuel := by
  simp only [recurrenceAnalysis, weichertPrep_later, bMaxlikeTime, periods_later]

/-- The statements are about catalogues that are analysed: one with a table is in `C63`'s example (`ev63b`), here with the years moved by 100. -/
example : later 100 [(1990, 5), (1991, 4)] = [(2090, 5), (2091, 4)] := by norm_num [later]

end Verif.Recurrence
