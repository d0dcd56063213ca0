import Verif.Lemmas.Invariance

/-! # C91: the order of the rows of a catalogue does not matter to the analyses -/

namespace Verif

open Verif.Np

/-- Smallest and largest number of a list do not depend on its order. -/
structure OrderFree (F : Type) [PyMath F] : Prop where
  npMin : ∀ {l l' : List F}, l'.Perm l → npMin l' = npMin l
  npMax : ∀ {l l' : List F}, l'.Perm l → npMax l' = npMax l

theorem orderFree_real : OrderFree ℝ := ⟨fun h => npMin_congr fun _ => h.mem_iff, fun h => npMax_congr fun _ => h.mem_iff⟩

end Verif

namespace Verif.Completeness

open Verif Verif.Np

theorem steppBins_perm {F : Type} [PyMath F] (hF : OrderFree F) {ev ev' : List (F × F)} (h : ev'.Perm ev) (dm dt : F) : steppBins ev' dm dt = steppBins ev dm dt := by
  have hp := h.map (fun e : F × F => (e.1, around2 e.2))
  have e1 := hF.npMin (hp.map Prod.snd)
  have e2 := hF.npMax (hp.map Prod.snd)
  have e3 := hF.npMin (hp.map Prod.fst)
  have e4 := hF.npMax (hp.map Prod.fst)
  simp only [steppBins, e1, e2, e3, e4, steppCount, hp.countP_eq]

/-- **C91**: the completeness table of Stepp does not depend on the order of the events (nor does the exception raised). -/
theorem C91_stepp {ev ev' : List (ℝ × ℝ)} (h : ev'.Perm ev) (dm dt ttol : ℝ) (iloc : Bool) : stepp ev' dm dt ttol iloc = stepp ev dm dt ttol iloc := by
  simp only [stepp, steppBins_perm orderFree_real h]

end Verif.Completeness

namespace Verif.Recurrence

open Verif Verif.Np

theorem recurrenceTable_perm {F : Type} [PyMath F] (hF : OrderFree F) {ev ev' : List (F × F)} (h : ev'.Perm ev) (dmag : F) : recurrenceTable ev' dmag = recurrenceTable ev dmag := by
  have hs := h.map Prod.snd
  have hu := hs.map (fun m : F => ((PyNum.ceilZ ((10.0 : F) * m) : Int) : F) / 10.0)
  have hl := hs.map (fun m : F => ((PyNum.floorZ ((10.0 : F) * m) : Int) : F) / 10.0)
  have e1 := hF.npMin hl
  have e2 := hF.npMax hu
  have e3 := hF.npMin (h.map Prod.fst)
  have e4 := hF.npMax (h.map Prod.fst)
  simp only [recurrenceTable, e1, e2, e3, e4, histogram, hs.countP_eq]

theorem period_perm {F : Type} [PyMath F] (hF : OrderFree F) {ev ev' : List (F × F)} (h : ev'.Perm ev) (dmag refMag ctime : F) (g : List F) :
    period ev' dmag refMag ctime g = period ev dmag refMag ctime g := by
  have hf : ∀ mc, (periodEvents ev' ctime mc).Perm (periodEvents ev ctime mc) := fun mc => h.filter _
  have e3 := fun mc => hF.npMin ((hf mc).map Prod.fst)
  have e4 := fun mc => hF.npMax ((hf mc).map Prod.fst)
  have e5 := fun mc => recurrenceTable_perm hF (hf mc) dmag
  have e6 := fun mc => (hf mc).length_eq
  simp only [period, e3, e4, e5, e6]

theorem periods_perm {F : Type} [PyMath F] (hF : OrderFree F) {ev ev' : List (F × F)} (h : ev'.Perm ev) (table : List (F × F)) (dmag refMag : F) (i : ℕ) :
    periods ev' table dmag refMag i = periods ev table dmag refMag i := by
  induction hn : table.length - i using Nat.strong_induction_on generalizing i with
  | _ n ih =>
    rw [periods, periods]
    by_cases hi : i < table.length
    · simp only [hi, dite_true]
      by_cases hg : (groupOf table table[i].1).length = 0
      · simp only [hg, dite_true]
      · simp only [hg, dite_false, period_perm hF h, ih _ (by omega) (i + (groupOf table table[i].1).length) rfl]
    · simp only [hi, dite_false]

theorem weichertPrep_perm {F : Type} [PyMath F] (hF : OrderFree F) {ev ev' : List (F × F)} (h : ev'.Perm ev) (table : List (F × F)) (dm dt : F) :
    weichertPrep ev' table dm dt = weichertPrep ev table dm dt := by
  have hp := h.map (fun e : F × F => (e.1, around1 e.2))
  have e1 := hF.npMin (hp.map Prod.snd)
  have e2 := hF.npMax (hp.map Prod.snd)
  have e3 := hF.npMin (h.map Prod.fst)
  have e4 := hF.npMax (h.map Prod.fst)
  have hc : cells ev' dm dt = (cells ev dm dt).map fun c => { c with events := ev'.map fun e => (e.1, around1 e.2) } := by
    simp only [cells, e1, e2, e3, e4]
    cases npMin (ev.map Prod.fst) <;> [rfl; skip]
    cases npMax (ev.map Prod.fst) <;> [rfl; skip]
    simp only [bind_ok]
    by_cases hd : PyNum.decEq dt 0 = true
    · simp only [hd, if_true]; rfl
    simp only [hd]
    cases npMin ((ev.map fun e : F × F => (e.1, around1 e.2)).map Prod.snd) <;> [rfl; skip]
    cases npMax ((ev.map fun e : F × F => (e.1, around1 e.2)).map Prod.snd) <;> [rfl; skip]
    simp only [bind_ok]
    split_ifs <;> rfl
  have he : ∀ c, cells ev dm dt = .ok c → c.events = ev.map fun e => (e.1, around1 e.2) := by
    intro c hc
    simp only [cells] at hc
    cases h1 : npMin (ev.map Prod.fst) <;> rw [h1] at hc <;> [cases hc; skip]
    cases h2 : npMax (ev.map Prod.fst) <;> rw [h2] at hc <;> [cases hc; skip]
    simp only [bind_ok] at hc
    by_cases hd : PyNum.decEq dt 0 = true
    · simp only [hd, if_true] at hc; cases hc
    simp only [hd] at hc
    cases h3 : npMin ((ev.map fun e : F × F => (e.1, around1 e.2)).map Prod.snd) <;> rw [h3] at hc <;> [cases hc; skip]
    cases h4 : npMax ((ev.map fun e : F × F => (e.1, around1 e.2)).map Prod.snd) <;> rw [h4] at hc <;> [cases hc; skip]
    simp only [bind_ok] at hc
    split_ifs at hc <;> cases hc <;> rfl
  rw [weichertPrep, weichertPrep, hc]
  cases hcc : cells ev dm dt with
  | error e => rfl
  | ok c =>
    simp only [Except.map, bind_ok]
    have hcount : ∀ a i, Cells.count { c with events := ev'.map fun e => (e.1, around1 e.2) } a i = c.count a i := by
      intro a i
      simp only [Cells.count, he c hcc, hp.countP_eq]
    have hobs : ∀ i, Cells.nObs { c with events := ev'.map fun e => (e.1, around1 e.2) } table i = c.nObs table i := by
      intro i
      simp only [Cells.nObs, hcount]
      rfl
    simp only [hobs]
    rfl

/-- **C91**: the result of the recurrence job does not depend on the order of the events, for both algorithms (nor does the exception raised). -/
theorem C91_recurrence {ev ev' : List (ℝ × ℝ)} (h : ev'.Perm ev) (table : List (ℝ × ℝ)) (dmag : ℝ) (algorithm : String) (refMag dt : ℝ) (fuel : ℕ) :
    recurrenceAnalysis ev' table dmag algorithm refMag dt fuel = recurrenceAnalysis ev table dmag algorithm refMag dt fuel := by
  simp only [recurrenceAnalysis, weichertPrep_perm orderFree_real h, bMaxlikeTime, periods_perm orderFree_real h]

end Verif.Recurrence
