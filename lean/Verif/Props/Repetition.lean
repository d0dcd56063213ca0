import Verif.Lemmas.Invariance
import Verif.Props.WeichertReturns
import Verif.Props.EquivalenceExamples

/-! # C94: a catalogue with every event `k` times has the same b-value and `k` times the rate -/

namespace Verif.Recurrence

open Verif Verif.Np

/-- A row of the recurrence table with `k` times the events. -/
noncomputable def scaleRow (k : ℕ) (r : RecRow ℝ) : RecRow ℝ :=
  { mval := r.mval, nObs := k * r.nObs, nCum := k * r.nCum, nObsAnnual := k * r.nObsAnnual, nCumAnnual := k * r.nCumAnnual }

theorem getD_range {n i : ℕ} (hi : i < n) (f : ℕ → ℕ) : ((List.range n).map f).getD i 0 = f i := by
  simp [List.getD_eq_getElem?_getD, List.getElem?_map, List.getElem?_range hi]

theorem mapM_map_except {α β γ : Type} (l : List α) (f : α → Except PyErr β) (g : β → γ) :
    (l.mapM fun i => (f i).map g) = (l.mapM f).map (List.map g) := by
  induction l with
  | nil => rfl
  | cons x l ih =>
    simp only [List.mapM_cons, ih]
    cases f x with
    | error e => rfl
    | ok y =>
      cases l.mapM f with
      | error e => rfl
      | ok ys => rfl

theorem recurrenceTable_times {k : ℕ} (hk : 0 < k) {ev ev' : List (ℝ × ℝ)} (h : Times k ev ev') (dmag : ℝ) :
    recurrenceTable ev' dmag = (recurrenceTable ev dmag).map (List.map (scaleRow k)) := by
  have hs := h.map Prod.snd
  have hu := hs.map (fun m : ℝ => ((PyNum.ceilZ ((10.0 : ℝ) * m) : Int) : ℝ) / 10.0)
  have hl := hs.map (fun m : ℝ => ((PyNum.floorZ ((10.0 : ℝ) * m) : Int) : ℝ) / 10.0)
  have e1 := npMin_congr (hl.mem hk)
  have e2 := npMax_congr (hu.mem hk)
  have e3 := npMin_congr ((h.map Prod.fst).mem hk)
  have e4 := npMax_congr ((h.map Prod.fst).mem hk)
  simp only [recurrenceTable, e1, e2, e3, e4, histogram, hs.countP]
  cases npMax (ev.map Prod.fst) <;> [rfl; skip]
  cases npMin (ev.map Prod.fst) <;> [rfl; skip]
  simp only [bind_ok]
  cases npMax ((ev.map Prod.snd).map (fun m : ℝ => ((PyNum.ceilZ ((10.0 : ℝ) * m) : Int) : ℝ) / 10.0)) <;> [rfl; skip]
  cases npMin ((ev.map Prod.snd).map (fun m : ℝ => ((PyNum.floorZ ((10.0 : ℝ) * m) : Int) : ℝ) / 10.0)) <;> [rfl; skip]
  simp only [bind_ok]
  by_cases h1 : PyNum.decEq dmag 0 = true
  · simp only [h1, if_true]; rfl
  rw [if_neg h1]
  split_ifs
  · rfl
  · rfl
  · rfl
  simp only [pure, Except.pure, Except.map, Except.ok.injEq, List.map_map]
  refine List.map_congr_left fun i hi => ?_
  have hi := List.mem_range.mp hi
  have key : ∀ (n : ℕ) (f : ℕ → ℕ) i, (((List.range n).map fun j => k * f j).drop i).sum = k * (((List.range n).map f).drop i).sum := by
    intro n f i
    have : ((List.range n).map fun j => k * f j) = ((List.range n).map f).map (k * ·) := by simp
    rw [this, ← List.map_drop]
    induction ((List.range n).map f).drop i with
    | nil => rfl
    | cons x l ih => simp only [List.map_cons, List.sum_cons, ih]; ring
  simp only [Function.comp, scaleRow, RecRow.mk.injEq, key, true_and]
  refine ⟨?_, ?_, ?_⟩
  · rw [getD_range hi, getD_range hi]
  · rw [getD_range hi, getD_range hi]; push_cast; ring
  · push_cast; ring

theorem bMaxLikelihood_times {k : ℕ} (hk : 0 < k) {h : List (ℝ × ℕ)} {dmag mc b s : ℝ} (hb : bMaxLikelihood h dmag mc = .ok (b, s)) :
    ∃ s', bMaxLikelihood (h.map fun r => (r.1, k * r.2)) dmag mc = .ok (b, s') := by
  have hk' : (k : ℝ) ≠ 0 := by positivity
  simp only [bMaxLikelihood, List.filter_map, Function.comp_def, List.map_map, npSum_real] at hb ⊢
  generalize h.filter (fun r => decide (r.1 ≥ mc)) = l at hb ⊢
  have e1 : (l.map fun r : ℝ × ℕ => (((k * r.2 : ℕ) : ℝ))).sum = k * (l.map fun r : ℝ × ℕ => (r.2 : ℝ)).sum := by
    rw [← sum_map_mul]; congr 1; refine List.map_congr_left fun r _ => ?_; push_cast; ring
  have e2 : (l.map fun r : ℝ × ℕ => r.1 * (((k * r.2 : ℕ) : ℝ))).sum = k * (l.map fun r : ℝ × ℕ => r.1 * (r.2 : ℝ)).sum := by
    rw [← sum_map_mul]; congr 1; refine List.map_congr_left fun r _ => ?_; push_cast; ring
  rw [e1, e2]
  have e0 : (l.map fun r : ℝ × ℕ => r.1) = l.map Prod.fst := rfl
  rw [e0]
  cases hm : npMin (l.map Prod.fst) with
  | error e => rw [hm] at hb; cases hb
  | ok m =>
    rw [hm] at hb
    simp only [bind_ok, pure, Except.pure, Except.ok.injEq, Prod.mk.injEq] at hb ⊢
    rw [mul_div_mul_left _ _ hk']
    exact ⟨_, hb.1, rfl⟩

/-- What the repetition does to a completeness period. -/
def PeriodTimes (k : ℕ) (p p' : Period ℝ) : Prop := p'.b = p.b ∧ p'.rate = k * p.rate ∧ p'.n = k * p.n

theorem period_times {k : ℕ} (hk : 0 < k) {ev ev' : List (ℝ × ℝ)} (h : Times k ev ev') {dmag refMag ctime : ℝ} {g : List ℝ} {p : Period ℝ}
    (hp : period ev dmag refMag ctime g = .ok p) : ∃ p', period ev' dmag refMag ctime g = .ok p' ∧ PeriodTimes k p p' := by
  simp only [period] at hp ⊢
  cases hmc : npMin g with
  | error e => rw [hmc] at hp; cases hp
  | ok mc =>
  rw [hmc] at hp
  simp only [bind_ok] at hp ⊢
  have hf : Times k (periodEvents ev ctime mc) (periodEvents ev' ctime mc) := h.filter _
  have e3 := npMin_congr ((hf.map Prod.fst).mem hk)
  have e4 := npMax_congr ((hf.map Prod.fst).mem hk)
  rw [e3, e4, recurrenceTable_times hk hf, hf.length]
  generalize periodEvents ev ctime mc = sel at hp ⊢
  have hne : sel ≠ [] := by rintro rfl; simp [npMax, bind, Except.bind] at hp
  obtain ⟨y1, hy1⟩ := npMax_exists (l := sel.map Prod.fst) (by simpa using hne)
  obtain ⟨y0, hy0⟩ := npMin_exists (l := sel.map Prod.fst) (by simpa using hne)
  have hyr : 0 < y1 - y0 + ((1 : ℕ) : ℝ) := by
    have := (npMin_ok hy0).2 (npMax_ok hy1).1
    push_cast; linarith
  rw [hy0, hy1] at hp ⊢
  simp only [bind_ok] at hp ⊢
  cases ht : recurrenceTable sel dmag with
  | error e => rw [ht] at hp; cases hp
  | ok t =>
  rw [ht] at hp
  simp only [bind_ok, Except.map] at hp ⊢
  have eh : (t.map (scaleRow k)).map (fun r => (r.mval, r.nObs)) = (t.map fun r => (r.mval, r.nObs)).map fun r => (r.1, k * r.2) := by
    simp only [List.map_map]; rfl
  rw [eh]
  cases hb : bMaxLikelihood (t.map fun r => (r.mval, r.nObs)) dmag mc with
  | error e => rw [hb] at hp; cases hp
  | ok bs =>
  obtain ⟨b, s⟩ := bs
  obtain ⟨s', hs'⟩ := bMaxLikelihood_times hk hb
  rw [hb] at hp
  rw [hs']
  simp only [bind_ok, pure, Except.pure, Except.ok.injEq] at hp
  refine ⟨_, rfl, ?_⟩
  subst hp
  have hn : (0 : ℝ) < sel.length := by exact_mod_cast List.length_pos_of_ne_nil hne
  have hk' : (0 : ℝ) < k := by exact_mod_cast hk
  refine ⟨rfl, ?_, rfl⟩
  simp only [rpow_real, log10_real]
  have hpos : 0 < (sel.length : ℝ) / (y1 - y0 + ((1 : ℕ) : ℝ)) := div_pos hn hyr
  have e5 : (((k * sel.length : ℕ) : ℝ)) / (y1 - y0 + ((1 : ℕ) : ℝ)) = k * ((sel.length : ℝ) / (y1 - y0 + ((1 : ℕ) : ℝ))) := by push_cast; ring
  rw [e5, Real.logb_mul hk'.ne' hpos.ne']
  have e6 : Real.logb 10 k + Real.logb 10 ((sel.length : ℝ) / (y1 - y0 + ((1 : ℕ) : ℝ))) + b * mc - b * refMag =
      Real.logb 10 k + (Real.logb 10 ((sel.length : ℝ) / (y1 - y0 + ((1 : ℕ) : ℝ))) + b * mc - b * refMag) := by ring
  have ten : (10.0 : ℝ) = 10 := by norm_num
  rw [ten, e6, Real.rpow_add (by norm_num), Real.rpow_logb (by norm_num) (by norm_num) hk']

theorem periods_times {k : ℕ} (hk : 0 < k) {ev ev' : List (ℝ × ℝ)} (h : Times k ev ev') {table : List (ℝ × ℝ)} {dmag refMag : ℝ} (i : ℕ) {ps : List (Period ℝ)}
    (hp : periods ev table dmag refMag i = .ok ps) : ∃ ps', periods ev' table dmag refMag i = .ok ps' ∧ List.Forall₂ (PeriodTimes k) ps ps' := by
  induction hn : table.length - i using Nat.strong_induction_on generalizing i ps with
  | _ n ih =>
    rw [periods] at hp ⊢
    by_cases hi : i < table.length
    · simp only [hi, dite_true] at hp ⊢
      by_cases hg : (groupOf table table[i].1).length = 0
      · simp [hg] at hp
      · simp only [hg, dite_false] at hp ⊢
        cases h1 : period ev dmag refMag table[i].1 (groupOf table table[i].1) with
        | error e => rw [h1] at hp; cases hp
        | ok p =>
        cases h2 : periods ev table dmag refMag (i + (groupOf table table[i].1).length) with
        | error e => rw [h1, h2] at hp; cases hp
        | ok ps1 =>
        rw [h1, h2] at hp
        cases hp
        obtain ⟨p', q1, r1⟩ := period_times hk h h1
        obtain ⟨ps', q2, r2⟩ := ih _ (by omega) _ h2 rfl
        exact ⟨p' :: ps', by rw [q1, q2]; rfl, .cons r1 r2⟩
    · simp only [hi, dite_false] at hp ⊢
      cases hp
      exact ⟨[], rfl, .nil⟩

theorem weighted_times {k : ℕ} (hk : 0 < k) {ps ps' : List (Period ℝ)} (h : List.Forall₂ (PeriodTimes k) ps ps') (c : ℝ) (f : Period ℝ → ℝ)
    (hf : ∀ p p', PeriodTimes k p p' → f p' = c * f p) : weighted ps' f = c * weighted ps f := by
  have hk' : (k : ℝ) ≠ 0 := by positivity
  have e1 : (ps'.map fun p => (p.n : ℝ)).sum = k * (ps.map fun p => (p.n : ℝ)).sum := by
    induction h with
    | nil => simp
    | cons h1 _ ih => simp only [List.map_cons, List.sum_cons, ih, h1.2.2]; push_cast; ring
  simp only [weighted, npSum_real, e1]
  generalize (ps.map fun p => (p.n : ℝ)).sum = T
  clear e1
  induction h with
  | nil => simp
  | cons h1 _ ih =>
    simp only [List.map_cons, List.sum_cons, ih, h1.2.2, hf _ _ h1]
    push_cast
    rw [mul_div_mul_left _ _ hk']
    ring

/-- **C94** for the maximum likelihood method: with every event `k` times the b-value is the same and the rate `k` times as large. -/
theorem C94_mle {k : ℕ} (hk : 0 < k) {ev ev' : List (ℝ × ℝ)} (h : ev'.Perm (ev.flatMap (List.replicate k))) {table : List (ℝ × ℝ)} {dmag refMag : ℝ} {r : GR ℝ}
    (hr : bMaxlikeTime ev table dmag refMag = .ok r) : ∃ r', bMaxlikeTime ev' table dmag refMag = .ok r' ∧ r'.b = r.b ∧ r'.a = k * r.a := by
  simp only [bMaxlikeTime] at hr ⊢
  cases hp : periods ev table dmag refMag 0 with
  | error e => rw [hp] at hr; cases hr
  | ok ps =>
  obtain ⟨ps', hp', hrel⟩ := periods_times hk h 0 hp
  rw [hp] at hr
  rw [hp']
  simp only [bind_ok] at hr ⊢
  have hemp : ps'.isEmpty = ps.isEmpty := by cases hrel <;> rfl
  rw [hemp]
  by_cases hc : ps.isEmpty
  · simp only [hc, if_true] at hr; cases hr
  · simp only [hc] at hr ⊢
    cases hr
    refine ⟨_, rfl, ?_, ?_⟩
    · have := weighted_times hk hrel 1 Period.b (fun p p' hh => by rw [hh.1, one_mul])
      simpa using this
    · exact weighted_times hk hrel k Period.rate (fun p p' hh => hh.2.1)

/-- The premise of `C94_mle` is met. -/
example : ∃ r, bMaxlikeTime [((2000 : ℝ), (6 : ℝ)), (2000, 5)] [(2000, 5)] 1 4 = .ok r := by
  obtain ⟨b, s, -, h⟩ := mle31 5 4 le_rfl (by norm_num)
  obtain ⟨t, ht⟩ := h 5 (by norm_num) (by norm_num)
  exact ⟨_, ht⟩

/-! ### Weichert -/

/-- A bin with `k` times the events. -/
def scaleBin (k : ℕ) (x : WBin ℝ) : WBin ℝ := { x with n := k * x.n }

theorem moment_scale (k : ℕ) (w : List (WBin ℝ)) (j : ℕ) (β : ℝ) : moment (w.map (scaleBin k)) j β = moment w j β := by
  simp only [moment, List.map_map]; rfl

theorem total_scale (k : ℕ) (w : List (WBin ℝ)) : total (w.map (scaleBin k)) = k * total w := by
  simp only [total, List.map_map, ← sum_map_mul]
  congr 1
  refine List.map_congr_left fun x _ => ?_
  simp [scaleBin]

theorem magSum_scale (k : ℕ) (w : List (WBin ℝ)) : magSum (w.map (scaleBin k)) = k * magSum w := by
  simp only [magSum, List.map_map, ← sum_map_mul]
  congr 1
  refine List.map_congr_left fun x _ => ?_
  simp only [Function.comp, scaleBin]
  push_cast
  ring

theorem newton_scale {k : ℕ} (hk : 0 < k) (w : List (WBin ℝ)) (β : ℝ) : newton (w.map (scaleBin k)) β = newton w β := by
  have hk' : (k : ℝ) ≠ 0 := by positivity
  simp only [newton, dldb_real, d2ldb2_real, moment_scale, total_scale, magSum_scale]
  rw [show moment w 1 β / moment w 0 β * (k * total w) - k * magSum w = k * (moment w 1 β / moment w 0 β * total w - magSum w) by ring, mul_assoc, mul_div_mul_left _ _ hk']

theorem wResult_scale {k : ℕ} (hk : 0 < k) (w : List (WBin ℝ)) (m0 dM mrate β : ℝ) :
    (wResult (w.map (scaleBin k)) m0 dM mrate β).b = (wResult w m0 dM mrate β).b ∧ (wResult (w.map (scaleBin k)) m0 dM mrate β).a = k * (wResult w m0 dM mrate β).a := by
  have e1 : (wSums (w.map (scaleBin k)) β).nkount = k * (wSums w β).nkount := by
    have := total_scale k w
    simpa only [total, wSums, npSum_real] using this
  have e2 : (wSums (w.map (scaleBin k)) β).sumexp = (wSums w β).sumexp := by simp only [wSums, List.map_map]; rfl
  have e3 : (wSums (w.map (scaleBin k)) β).sumtex = (wSums w β).sumtex := by simp only [wSums, List.map_map]; rfl
  constructor
  · simp only [wResult, newton_scale hk]
  · simp only [wResult, newton_scale hk, e1, e2, e3]
    split_ifs <;> ring

theorem weichertLoop_scale {k : ℕ} (hk : 0 < k) (w : List (WBin ℝ)) (m0 dM mrate itstab : ℝ) (fuel : ℕ) (β : ℝ) {r : GR ℝ}
    (hr : weichertLoop w m0 dM mrate itstab fuel β = some r) :
    ∃ r', weichertLoop (w.map (scaleBin k)) m0 dM mrate itstab fuel β = some r' ∧ r'.b = r.b ∧ r'.a = k * r.a := by
  induction fuel generalizing β with
  | zero => cases hr
  | succ fuel ih =>
    simp only [weichertLoop, newton_scale hk] at hr ⊢
    split_ifs at hr ⊢
    · cases hr
      exact ⟨_, rfl, wResult_scale hk w m0 dM mrate β⟩
    · exact ih _ hr

theorem weichertPrep_times {k : ℕ} (hk : 0 < k) {ev ev' : List (ℝ × ℝ)} (h : Times k ev ev') (table : List (ℝ × ℝ)) (dm dt : ℝ) :
    weichertPrep ev' table dm dt = (weichertPrep ev table dm dt).map (List.map (scaleBin k)) := by
  have hp := h.map (fun e : ℝ × ℝ => (e.1, around1 e.2))
  have e1 := npMin_congr ((hp.map Prod.snd).mem hk)
  have e2 := npMax_congr ((hp.map Prod.snd).mem hk)
  have e3 := npMin_congr ((h.map Prod.fst).mem hk)
  have e4 := npMax_congr ((h.map Prod.fst).mem hk)
  have hc : cells ev' dm dt = (cells ev dm dt).map (fun c => { c with events := ev'.map fun e => (e.1, around1 e.2) }) ∧
      ∀ c, cells ev dm dt = .ok c → c.events = ev.map fun e => (e.1, around1 e.2) := by
    simp only [cells, e1, e2, e3, e4]
    generalize hev : ev.map (fun e : ℝ × ℝ => (e.1, around1 e.2)) = ev1
    generalize npMin (ev.map Prod.fst) = a
    generalize npMax (ev.map Prod.fst) = b
    cases a with
    | error e => exact ⟨rfl, fun c hc => by cases hc⟩
    | ok a =>
    cases b with
    | error e => exact ⟨rfl, fun c hc => by cases hc⟩
    | ok b =>
    simp only [bind_ok]
    by_cases hd : PyNum.decEq dt 0 = true
    · simp only [hd, if_true]; exact ⟨rfl, fun c hc => by cases hc⟩
    simp only [hd]
    generalize npMin (ev1.map Prod.snd) = x
    generalize npMax (ev1.map Prod.snd) = y
    cases x with
    | error e => exact ⟨rfl, fun c hc => by cases hc⟩
    | ok x =>
    cases y with
    | error e => exact ⟨rfl, fun c hc => by cases hc⟩
    | ok y =>
    simp only [bind_ok]
    by_cases hd2 : PyNum.decEq dm 0 = true
    · simp only [hd2, if_true]; exact ⟨rfl, fun c hc => by cases hc⟩
    simp only [hd2]
    by_cases hd3 : arangeLen a (b + 1.5 * dt) dt < 2 ∨ arangeLen x (y + 1.5 * dm) dm < 2 ∨ dt < 0 ∨ dm < 0
    · simp only [hd3, if_true]; exact ⟨rfl, fun c hc => by cases hc⟩
    · simp only [hd3, if_false]; exact ⟨rfl, fun c hc => by cases hc; rfl⟩
  obtain ⟨hc, he⟩ := hc
  rw [weichertPrep, weichertPrep, hc]
  cases hcc : cells ev dm dt with
  | error e => rfl
  | ok c =>
    simp only [Except.map, bind_ok]
    have hcount : ∀ a i, Cells.count { c with events := ev'.map fun e => (e.1, around1 e.2) } a i = k * c.count a i := by
      intro a i
      simp only [Cells.count, he c hcc, hp.countP]
    have hobs : ∀ i, Cells.nObs { c with events := ev'.map fun e => (e.1, around1 e.2) } table i = k * c.nObs table i := by
      intro i
      simp only [Cells.nObs, hcount]
      have : ∀ l : List ℕ, (l.map fun a => if (table.any fun r => c.removed r a i) = true then 0 else k * c.count a i).sum =
          k * (l.map fun a => if (table.any fun r => c.removed r a i) = true then 0 else c.count a i).sum := by
        intro l
        induction l with
        | nil => rfl
        | cons a l ih => simp only [List.map_cons, List.sum_cons, ih]; split_ifs <;> ring
      exact this _
    simp only [hobs]
    have ht : ∀ i, Cells.tPer { c with events := ev'.map fun e => (e.1, around1 e.2) } table i = c.tPer table i := fun i => rfl
    simp only [ht]
    have hfun : (fun i => do
        let t ← c.tPer table i
        pure ({ t := t, m := (c.magInt i + c.magInt (i + 1)) / 2.0, n := k * c.nObs table i } : WBin ℝ)) =
        fun i => (do
          let t ← c.tPer table i
          pure ({ t := t, m := (c.magInt i + c.magInt (i + 1)) / 2.0, n := c.nObs table i } : WBin ℝ)).map (scaleBin k) := by
      funext i
      cases c.tPer table i <;> rfl
    rw [hfun, mapM_map_except]
    rfl

/-- **C94** for Weichert's method: if it returns, then with every event `k` times it returns after as many iterations the same b-value and `k` times the rate. -/
theorem C94_weichert {k : ℕ} (hk : 0 < k) {ev ev' : List (ℝ × ℝ)} (h : ev'.Perm (ev.flatMap (List.replicate k))) {table : List (ℝ × ℝ)} {dm dt mrate : ℝ} {fuel : ℕ} {r : GR ℝ}
    (hr : recurrenceAnalysis ev table dm "Weichert" mrate dt fuel = .ok (some r)) :
    ∃ r', recurrenceAnalysis ev' table dm "Weichert" mrate dt fuel = .ok (some r') ∧ r'.b = r.b ∧ r'.a = k * r.a := by
  simp only [recurrenceAnalysis, if_true] at hr ⊢
  rw [weichertPrep_times hk h]
  cases hw : weichertPrep ev table dm dt with
  | error e => rw [hw] at hr; cases hr
  | ok w =>
  rw [hw] at hr
  simp only [Except.map, bind_ok] at hr ⊢
  match w, hr with
  | x0 :: x1 :: rest, hr =>
    simp only [weichert, Except.ok.injEq] at hr
    obtain ⟨r', h1, h2⟩ := weichertLoop_scale hk _ _ _ _ _ _ _ hr
    exact ⟨r', by simpa only [List.map_cons, weichert, scaleBin, Except.ok.injEq] using h1, h2⟩

/-- The premise of `C94_weichert` is met, for example by the catalogue `ev63b`. -/
example : ∃ fuel r, recurrenceAnalysis ev63b table63b 0.1 "Weichert" 4 1 fuel = .ok (some r) := by
  obtain ⟨w, fuel, r, hw, hr⟩ := returns63b
  exact ⟨fuel, r, by simp only [recurrenceAnalysis, if_true, hw, bind_ok, hr]⟩

end Verif.Recurrence
