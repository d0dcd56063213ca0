import Verif.Props.SpecialValues
import Verif.Props.RecurrenceWeichert

/-!
# C154: the Weichert recurrence computed with infinities and NaN
-/

namespace Verif.Recurrence

open Verif Verif.Np XNum

/-! ### The algorithm -/

/-- A bin of ordinary numbers. -/
def fw (x : WBin ℝ) : WBin (XNum ℝ) := ⟨fin x.t, fin x.m, x.n⟩

/-- Results that are ordinary numbers. -/
def fgr (r : GR ℝ) : GR (XNum ℝ) := ⟨fin r.b, fin r.sigb, fin r.a, fin r.siga⟩

theorem sum_fin (w : List (WBin ℝ)) (f : WBin (XNum ℝ) → XNum ℝ) (g : WBin ℝ → ℝ) (h : ∀ x, f (fw x) = fin (g x)) :
    npSum ((w.map fw).map f) = fin (npSum (w.map g)) := by
  rw [npSum_real, ← npSum_fin, List.map_map, List.map_map]
  congr 1
  exact List.map_congr_left fun x _ => h x

theorem fin_log (x : ℝ) (h : 0 < x) : PyMath.log (fin x : XNum ℝ) = fin (Real.log x) := by
  show (if x < 0 then nan else if x = 0 then inf true else fin (Real.log x)) = _
  rw [if_neg h.not_gt, if_neg h.ne']

theorem wSums_fin (w : List (WBin ℝ)) (β : ℝ) :
    (wSums (w.map fw) (fin β)).snm = fin (wSums w β).snm ∧ (wSums (w.map fw) (fin β)).nkount = fin (wSums w β).nkount ∧
    (wSums (w.map fw) (fin β)).sumexp = fin (wSums w β).sumexp ∧ (wSums (w.map fw) (fin β)).sumtex = fin (wSums w β).sumtex ∧
    (wSums (w.map fw) (fin β)).stmex = fin (wSums w β).stmex ∧ (wSums (w.map fw) (fin β)).stm2x = fin (wSums w β).stm2x := by
  refine ⟨?_, ?_, ?_, ?_, ?_, ?_⟩ <;> refine sum_fin w _ _ fun x => ?_ <;> simp only [fw, fin_nat, fin_mul, fin_neg, fin_exp, exp_real]

theorem d2ldb2_fin {w : List (WBin ℝ)} {β : ℝ} (h : (wSums w β).sumtex ≠ 0) : d2ldb2 (w.map fw) (fin β) = fin (d2ldb2 w β) := by
  obtain ⟨h1, h2, h3, h4, h5, h6⟩ := wSums_fin w β
  simp only [d2ldb2, h2, h4, h5, h6, fin_div _ _ h, fin_mul, fin_sub]

theorem dldb_fin {w : List (WBin ℝ)} {β : ℝ} (h : (wSums w β).sumtex ≠ 0) : dldb (w.map fw) (fin β) = fin (dldb w β) := by
  obtain ⟨h1, h2, h3, h4, h5, h6⟩ := wSums_fin w β
  simp only [dldb, h1, h2, h4, h5, fin_div _ _ h, fin_mul, fin_sub]

theorem newton_fin {w : List (WBin ℝ)} {β : ℝ} (h : (wSums w β).sumtex ≠ 0) (h2 : d2ldb2 w β ≠ 0) : newton (w.map fw) (fin β) = fin (newton w β) := by
  unfold newton
  rw [dldb_fin h, d2ldb2_fin h, fin_div _ _ h2, fin_sub]

theorem wResult_fin {w : List (WBin ℝ)} {m0 dM mrate β : ℝ} (h : (wSums w β).sumtex ≠ 0) (h2 : d2ldb2 w β < 0) (hn : 0 < (wSums w β).nkount) :
    wResult (w.map fw) (fin m0) (fin dM) (fin mrate) (fin β) = fgr (wResult w m0 dM mrate β) := by
  obtain ⟨e1, e2, e3, e4, e5, e6⟩ := wSums_fin w β
  have hl : (0 : ℝ) < Real.log 10.0 := Real.log_pos (by norm_num)
  have h20 : (2.0 : ℝ) ≠ 0 := by norm_num
  have hs : Real.sqrt (wSums w β).nkount ≠ 0 := (Real.sqrt_pos.2 hn).ne'
  have hd : 0 ≤ -(1.0 : ℝ) / d2ldb2 w β := (div_pos_of_neg_of_neg (by norm_num) h2).le
  unfold wResult fgr
  simp only [newton_fin h h2.ne, d2ldb2_fin h, e2, e3, e4, fin_div _ _ h, fin_mul, fin_sub, fin_sci, fin_neg, fin_exp, fin_div _ _ h20, fin_log _ (by norm_num : (0 : ℝ) < 10.0),
    fin_div _ _ hl.ne', fin_div _ _ h2.ne, fin_sqrt _ hd, fin_sqrt _ hn.le, fin_div _ _ hs, fin_zero, fin_eq, decEq_real, exp_real, log_real, sqrt_real]
  by_cases hm : mrate = 0
  · simp [hm]
  · simp [hm]

theorem weichertLoop_fin {w : List (WBin ℝ)} {m0 dM mrate itstab : ℝ} (h : ∀ β, (wSums w β).sumtex ≠ 0) (h2 : ∀ β, d2ldb2 w β < 0)
    (hn : ∀ β, 0 < (wSums w β).nkount) (fuel : ℕ) (β : ℝ) :
    weichertLoop (w.map fw) (fin m0) (fin dM) (fin mrate) (fin itstab) fuel (fin β) = (weichertLoop w m0 dM mrate itstab fuel β).map fgr := by
  induction fuel generalizing β with
  | zero => rfl
  | succ fuel ih =>
    rw [weichertLoop, weichertLoop, newton_fin (h β) (h2 β).ne, fin_sub, npAbs_fin, npAbs_real, ih, wResult_fin (h β) (h2 β) (hn β)]
    simp only [fin_le]
    split_ifs <;> rfl

theorem not_le_nan (x : XNum ℝ) : ¬ (nan : XNum ℝ) ≤ x := by
  rintro h
  cases x <;> exact h

theorem npAbs_nan : npAbs (nan : XNum ℝ) = nan := by
  unfold npAbs
  split_ifs <;> rfl

/-- NaN is never left. -/
theorem weichertLoop_nan (w : List (WBin (XNum ℝ))) (m0 dM mrate itstab : XNum ℝ) (fuel : ℕ) : weichertLoop w m0 dM mrate itstab fuel nan = none := by
  have hnan : newton w nan = nan := rfl
  induction fuel with
  | zero => rfl
  | succ fuel ih =>
    rw [weichertLoop, hnan, show (nan : XNum ℝ) - nan = nan from rfl, npAbs_nan, if_neg (not_le_nan _), ih]

theorem zero_or_nan_mul (x : XNum ℝ) : x * fin 0 = fin 0 ∨ x * fin 0 = nan := by
  cases x with
  | fin x => exact .inl (by rw [fin_mul, mul_zero])
  | inf s => exact .inr (if_pos rfl)
  | nan => exact .inr rfl

theorem zero_mul_or_nan (x : XNum ℝ) : fin 0 * x = fin 0 ∨ fin 0 * x = nan := by
  cases x with
  | fin x => exact .inl (by rw [fin_mul, zero_mul])
  | inf s => exact .inr (if_pos rfl)
  | nan => exact .inr rfl

/-- Without events the first step is 0/0. -/
theorem newton_empty {w : List (WBin ℝ)} {β : ℝ} (hn : ∀ x ∈ w, x.n = 0) : newton (w.map fw) (fin β) = nan := by
  obtain ⟨e1, e2, -⟩ := wSums_real w β
  obtain ⟨f1, f2, -⟩ := wSums_fin w β
  have ht : total w = 0 := by
    unfold total
    rw [List.map_congr_left (g := fun _ => (0 : ℝ)) (fun x hx => by simp [hn x hx])]
    simp
  have hs : magSum w = 0 := by
    unfold magSum
    rw [List.map_congr_left (g := fun _ => (0 : ℝ)) (fun x hx => by simp [hn x hx])]
    simp
  rw [e1, hs] at f1
  rw [e2, ht] at f2
  have h00 : (fin 0 / fin 0 : XNum ℝ) = nan := by
    show XNum.div (fin (0 : ℝ)) (fin 0) = nan
    simp [XNum.div, scaled]
  have hnd : ∀ x : XNum ℝ, (nan / x : XNum ℝ) = nan := fun x => by cases x <;> rfl
  have hdn : ∀ x : XNum ℝ, (x / nan : XNum ℝ) = nan := fun x => by cases x <;> rfl
  have hd : dldb (w.map fw) (fin β) / d2ldb2 (w.map fw) (fin β) = nan := by
    simp only [dldb, d2ldb2, f1, f2]
    rcases zero_or_nan_mul ((wSums (w.map fw) (fin β)).stmex / (wSums (w.map fw) (fin β)).sumtex) with h | h <;> rw [h]
    · rw [fin_sub, sub_zero]
      rcases zero_mul_or_nan ((wSums (w.map fw) (fin β)).stmex / (wSums (w.map fw) (fin β)).sumtex *
        ((wSums (w.map fw) (fin β)).stmex / (wSums (w.map fw) (fin β)).sumtex) - (wSums (w.map fw) (fin β)).stm2x / (wSums (w.map fw) (fin β)).sumtex) with h | h <;> rw [h]
      · exact h00
      · exact hdn _
    · exact hnd _
  unfold newton
  rw [hd]
  rfl

/-! ### The preparation -/

theorem around1_fin (x : ℝ) : around1 (fin x) = fin (around1 x) := by
  unfold around1
  have h10 : (10.0 : ℝ) ≠ 0 := by norm_num
  rw [fin_sci, fin_mul, show PyNum.rintZ (fin (x * 10.0) : XNum ℝ) = rintK (x * 10.0) from rfl, fin_int, fin_div _ _ h10]
  rfl

/-- Cells with ordinary numbers. -/
def fcells (c : Cells ℝ) : Cells (XNum ℝ) := ⟨c.nt, fun i => fin (c.timeInt i), c.nm, fun i => fin (c.magInt i), c.events.map fp, fin c.maxYear⟩

theorem cells_fin (ev : List (ℝ × ℝ)) {dm dt : ℝ} (hdm : 0 < dm) (hdt : 0 < dt) : cells (ev.map fp) (fin dm) (fin dt) = (cells ev dm dt).map fcells := by
  rcases List.eq_nil_or_concat ev with rfl | ⟨_, _, hcon⟩
  · rfl
  have hne : ev ≠ [] := by rw [hcon]; simp
  clear hcon
  have e0 : (ev.map fp).map (fun e => (e.1, around1 e.2)) = (ev.map fun e => (e.1, around1 e.2)).map fp := by
    simp only [List.map_map]
    exact List.map_congr_left fun e _ => by simp [fp, around1_fin]
  obtain ⟨y1, hy1⟩ := npMax_exists (l := ev.map Prod.fst) (by simpa using hne)
  obtain ⟨y0, hy0⟩ := npMin_exists (l := ev.map Prod.fst) (by simpa using hne)
  obtain ⟨m1, hm1⟩ := npMax_exists (l := (ev.map fun e => (e.1, around1 e.2)).map Prod.snd) (by simpa using hne)
  obtain ⟨m0, hm0⟩ := npMin_exists (l := (ev.map fun e => (e.1, around1 e.2)).map Prod.snd) (by simpa using hne)
  have e1 : (ev.map fp).map Prod.fst = (ev.map Prod.fst).map fin := by simp [fp, Function.comp_def]
  have e2 : ((ev.map fun e => (e.1, around1 e.2)).map fp).map Prod.snd = ((ev.map fun e => (e.1, around1 e.2)).map Prod.snd).map fin := by
    simp [fp, Function.comp_def]
  have hat : ∀ a s : ℝ, arangeAt (fin a) (fin s) = fun i => fin (arangeAt a s i) := fun a s => funext (arangeAt_fin a s)
  unfold cells
  simp only [e0, e1, e2, npMax_fin, npMin_fin, hy1, hy0, hm1, hm0, Except.map, Recurrence.bind_ok]
  simp only [fin_zero, fin_eq, decEq_real, hdm.ne', hdt.ne', decide_false, Bool.false_eq_true, if_false, fin_mul, fin_add, fin_sci, arangeLen_fin _ _ _ hdm.ne',
    arangeLen_fin _ _ _ hdt.ne', fin_lt, hdm.not_gt, hdt.not_gt, or_false, hat]
  split_ifs <;> rfl

theorem nObs_fin (c : Cells ℝ) (table : List (ℝ × ℝ)) (i : ℕ) : (fcells c).nObs (table.map fp) i = c.nObs table i := by
  have hrem : ∀ r a, (fcells c).removed (fp r) a i = c.removed r a i := by
    intro r a
    unfold Cells.removed fcells fp
    simp only [fin_lt]
  have hcount : ∀ a, (fcells c).count a i = c.count a i := by
    intro a
    unfold Cells.count fcells
    rw [List.countP_map]
    refine List.countP_congr fun e _ => ?_
    simp only [Function.comp_apply, fp, inBin_fin]
  unfold Cells.nObs
  congr 1
  refine List.map_congr_left fun a _ => ?_
  rw [hcount, List.any_map, show (fun r => (fcells c).removed r a i) ∘ fp = fun r => c.removed r a i from funext fun r => hrem r a]

theorem tPer_fin (c : Cells ℝ) (table : List (ℝ × ℝ)) (i : ℕ) : (fcells c).tPer (table.map fp) i = (c.tPer table i).map fin := by
  have hf : (table.map fp).filter (fun r => decide (r.2 - (fcells c).magInt i < 1e-3)) = (table.filter fun r => decide (r.2 - c.magInt i < 1e-3)).map fp := by
    rw [List.filter_map]
    congr 1
  unfold Cells.tPer
  rw [hf, List.getLast?_map, List.getLast?_map]
  cases (table.filter fun r => decide (r.2 - c.magInt i < 1e-3)).getLast? <;> cases table.getLast? <;>
    simp [fcells, fp, fin_sub, fin_add, fin_nat, Except.map]

theorem mapM_fin {α β γ : Type} (f : α → Except PyErr β) (g : α → Except PyErr γ) (h : β → γ) (hfg : ∀ a, g a = (f a).map h) (l : List α) :
    l.mapM g = (l.mapM f).map (List.map h) := by
  induction l with
  | nil => rfl
  | cons a l ih =>
    rw [List.mapM_cons, List.mapM_cons, ih, hfg a]
    cases f a with
    | error e => rfl
    | ok b => cases l.mapM f <;> rfl

/-- The preparation with special values is the one of exact arithmetic. -/
theorem weichertPrep_fin (ev table : List (ℝ × ℝ)) {dm dt : ℝ} (hdm : 0 < dm) (hdt : 0 < dt) :
    weichertPrep (ev.map fp) (table.map fp) (fin dm) (fin dt) = (weichertPrep ev table dm dt).map (List.map fw) := by
  have h20 : (2.0 : ℝ) ≠ 0 := by norm_num
  unfold weichertPrep
  rw [cells_fin ev hdm hdt]
  cases cells ev dm dt with
  | error e => rfl
  | ok c =>
    refine mapM_fin _ _ fw (fun i => ?_) (List.range c.nm)
    rw [tPer_fin]
    cases c.tPer table i with
    | error e => rfl
    | ok t =>
      simp only [Except.map, Recurrence.bind_ok, nObs_fin, pure, Except.pure, fw]
      simp only [fcells, fin_add, fin_sci, fin_div _ _ h20]

/-! ### The claim -/

/-- The bins of the preparation: with table years up to the year after the last earthquake they have positive periods, and two bins have different magnitudes. -/
theorem prep_usable {ev table : List (ℝ × ℝ)} {dm dt : ℝ} {w : List (WBin ℝ)} (hev : ev ≠ []) (hdm : 0 < dm) (hdt : 0 < dt)
    (h : weichertPrep ev table dm dt = .ok w) (htab : ∀ r ∈ table, ∃ e ∈ ev, r.1 < e.1 + 1) :
    (∀ x ∈ w, 0 < x.t) ∧ (2 ≤ w.length → ∃ x ∈ w, ∃ y ∈ w, x.m ≠ y.m) := by
  obtain ⟨y0, y1, m0, hy0, hy1, hm0, hlen, _, hidx, hw⟩ := weichertPrep_spec hev hdm hdt h
  constructor
  · intro x hx
    obtain ⟨i, hi, rfl⟩ := List.getElem_of_mem hx
    obtain ⟨r, hr, _, ht⟩ := (hw i hi).2.1
    obtain ⟨e, he, hlt⟩ := htab r hr
    have := hy1.2 ⟨e, he, rfl⟩
    rw [ht]; linarith
  · intro h2
    refine ⟨w[0], List.getElem_mem _, w[1], List.getElem_mem _, ?_⟩
    rw [(hw 0 (by omega)).1, (hw 1 (by omega)).1]
    push_cast
    intro hc
    nlinarith

/-- `weichert` on bins without events never returns. -/
theorem weichert_empty {w : List (WBin ℝ)} (h2 : 2 ≤ w.length) (hn : ∀ x ∈ w, x.n = 0) (mrate : XNum ℝ) (fuel : ℕ) :
    weichert (w.map fw) mrate fuel = .ok none := by
  match w, h2, hn with
  | x0 :: x1 :: rest, _, hn =>
    have hne := newton_empty (β := 1.5) hn
    show Except.ok _ = Except.ok _
    congr 1
    cases fuel with
    | zero => rfl
    | succ fuel =>
      show weichertLoop ((x0 :: x1 :: rest).map fw) _ _ _ _ (fuel + 1) _ = none
      simp only [fin_sci]
      rw [weichertLoop, hne, show (nan : XNum ℝ) - fin 1.5 = nan from rfl, npAbs_nan, if_neg (not_le_nan _), weichertLoop_nan]

/-- `weichert` on bins with events computes what it computes in exact arithmetic. -/
theorem weichert_fin {w : List (WBin ℝ)} (ht : ∀ x ∈ w, 0 < x.t) (hd : ∃ x ∈ w, ∃ y ∈ w, x.m ≠ y.m) (hn : ∃ x ∈ w, 0 < x.n) (mrate : ℝ) (fuel : ℕ) :
    weichert (w.map fw) (fin mrate) fuel = (weichert w mrate fuel).map (Option.map fgr) := by
  have hw : w ≠ [] := by obtain ⟨x, hx, _⟩ := hn; exact List.ne_nil_of_mem hx
  have a1 : ∀ β, (wSums w β).sumtex ≠ 0 := fun β => by rw [(wSums_real w β).2.2.1]; exact (moment0_pos ht hw β).ne'
  have a2 : ∀ β, 0 < (wSums w β).nkount := fun β => by rw [(wSums_real w β).2.1]; exact total_pos hn
  match w, hd with
  | [x], hd =>
    obtain ⟨a, ha, b, hb, hab⟩ := hd
    rw [List.mem_singleton] at ha hb
    exact absurd (by rw [ha, hb]) hab
  | x0 :: x1 :: rest, hd =>
    have h := weichertLoop_fin (m0 := x0.m) (dM := x1.m - x0.m) (mrate := mrate) (itstab := 1e-5) a1 (d2_neg ht hd hn) a2 fuel 1.5
    show Except.ok _ = Except.ok _
    congr 1

/-- **C154**: whenever the Weichert recurrence, computed with infinities and NaN, returns, its four results are ordinary numbers, and they are those of exact
arithmetic. -/
theorem C154_numbers {ev table : List (ℝ × ℝ)} {dm dt mrate : ℝ} {fuel : ℕ} {R : GR (XNum ℝ)} (hdm : 0 < dm) (hdt : 0 < dt)
    (htab : ∀ r ∈ table, ∃ e ∈ ev, r.1 < e.1 + 1)
    (h : recurrenceAnalysis (ev.map fp) (table.map fp) (fin dm) "Weichert" (fin mrate) (fin dt) fuel = .ok (some R)) :
    ∃ r : GR ℝ, recurrenceAnalysis ev table dm "Weichert" mrate dt fuel = .ok (some r) ∧ R.b = fin r.b ∧ R.sigb = fin r.sigb ∧ R.a = fin r.a ∧ R.siga = fin r.siga := by
  unfold recurrenceAnalysis at h ⊢
  simp only [if_true] at h ⊢
  rw [weichertPrep_fin ev table hdm hdt] at h
  rcases hp : weichertPrep ev table dm dt with e | w
  · rw [hp] at h; cases h
  rw [hp] at h
  simp only [Except.map, Recurrence.bind_ok] at h ⊢
  have hev : ev ≠ [] := by
    rintro rfl
    cases hp
  obtain ⟨ht, hd⟩ := prep_usable hev hdm hdt hp htab
  have h2 : 2 ≤ w.length := by
    by_contra hc
    match w, hc with
    | [], _ => cases h
    | [x], _ => cases h
    | x0 :: x1 :: rest, hc => exact hc (by simp)
  by_cases hn : ∃ x ∈ w, 0 < x.n
  · rw [weichert_fin ht (hd h2) hn] at h
    rcases hr : weichert w mrate fuel with e | o
    · rw [hr] at h; cases h
    rw [hr] at h
    cases o with
    | none => cases h
    | some r =>
      simp only [Except.map, Option.map_some, Except.ok.injEq, Option.some.injEq] at h
      subst h
      exact ⟨r, rfl, rfl, rfl, rfl, rfl⟩
  · push Not at hn
    rw [weichert_empty h2 (fun x hx => Nat.le_zero.1 (hn x hx))] at h
    cases h

/-- **C154**, the other direction: with at least one kept event the recurrence in exact arithmetic is what is computed, number of iterations included. -/
theorem C154_transfer {ev table : List (ℝ × ℝ)} {dm dt mrate : ℝ} {w : List (WBin ℝ)} (hdm : 0 < dm) (hdt : 0 < dt)
    (htab : ∀ r ∈ table, ∃ e ∈ ev, r.1 < e.1 + 1) (hp : weichertPrep ev table dm dt = .ok w) (h2 : 2 ≤ w.length) (hn : 0 < (w.map WBin.n).sum) (fuel : ℕ) :
    recurrenceAnalysis (ev.map fp) (table.map fp) (fin dm) "Weichert" (fin mrate) (fin dt) fuel =
      (recurrenceAnalysis ev table dm "Weichert" mrate dt fuel).map (Option.map fgr) := by
  have hev : ev ≠ [] := by
    rintro rfl
    cases hp
  obtain ⟨ht, hd⟩ := prep_usable hev hdm hdt hp htab
  unfold recurrenceAnalysis
  simp only [if_true]
  rw [weichertPrep_fin ev table hdm hdt, hp]
  simp only [Except.map, Recurrence.bind_ok]
  refine weichert_fin ht (hd h2) ?_ mrate fuel
  by_contra hcon
  push Not at hcon
  have : (w.map WBin.n).sum = 0 := by
    rw [List.sum_eq_zero_iff]
    intro y hy
    obtain ⟨x, hx, rfl⟩ := List.mem_map.mp hy
    exact Nat.le_zero.1 (hcon x hx)
  omega

/-- **C63 fails** for catalogues without a complete earthquake: if every earthquake lies before the year and below the magnitude of some row of the table, the first step of
the iteration is 0/0, and the iteration goes on with NaN forever. -/
theorem C63_nothing_complete {ev table : List (ℝ × ℝ)} {dm dt : ℝ} {w : List (WBin ℝ)} (hev : ev ≠ []) (hdm : 0 < dm) (hdt : 0 < dt)
    (hp : weichertPrep ev table dm dt = .ok w) (h2 : 2 ≤ w.length) (hc : ∀ e ∈ ev, ∃ r ∈ table, e.1 < r.1 ∧ Spec.mag1 e.2 < r.2) (mrate : XNum ℝ) (fuel : ℕ) :
    recurrenceAnalysis (ev.map fp) (table.map fp) (fin dm) "Weichert" mrate (fin dt) fuel = .ok none := by
  classical
  obtain ⟨y0, m0, hy0, hm0, -, hsum, -⟩ := C60_counts hev hdm hdt hp
  unfold recurrenceAnalysis
  simp only [if_true]
  rw [weichertPrep_fin ev table hdm hdt, hp]
  simp only [Except.map, Recurrence.bind_ok]
  refine weichert_empty h2 ?_ mrate fuel
  have h0 : (w.map WBin.n).sum = 0 := by
    rw [hsum, List.countP_eq_zero]
    intro e he
    obtain ⟨r, hr, h1, h2⟩ := hc e he
    intro hk
    refine of_decide_eq_true hk r hr ⟨?_, ?_⟩
    · exact lt_of_le_of_lt (cellStart_le hdt (hy0.2 ⟨e, he, rfl⟩)).1 h1
    · exact lt_of_le_of_lt (cellStart_le hdm (hm0.2 ⟨e, he, rfl⟩)).1 h2
  intro x hx
  exact List.sum_eq_zero_iff.1 h0 _ (List.mem_map.2 ⟨x, hx, rfl⟩)

/-- The two hypotheses can be met: two earthquakes of 1950 and 1952, complete from magnitude 5 since 1953. -/
example : ∃ w : List (WBin ℝ), weichertPrep [(1950, 4.0), (1952, 4.1)] [(1953, 5)] 0.1 1 = .ok w ∧ 2 ≤ w.length := by
  obtain ⟨w, hw⟩ := weichertPrep_succeeds (ev := [(1950, 4.0), (1952, 4.1)]) (table := [(1953, 5)]) (dm := 0.1) (dt := 1) (by simp) (by simp) (by norm_num) one_pos
  refine ⟨w, hw, ?_⟩
  obtain ⟨y0, y1, m0, hy0, hy1, hm0, hlen, ⟨m1, hm1, hlm⟩, -, -⟩ := weichertPrep_spec (by simp) (by norm_num) one_pos hw
  have ma : Spec.mag1 (4.0 : ℝ) = 4.0 := mag1_of_int 40 (by norm_num)
  have mb : Spec.mag1 (4.1 : ℝ) = 4.1 := mag1_of_int 41 (by norm_num)
  rw [hlm 2]
  have h1 : m0 ≤ 4.0 := hm0.2 ⟨(1950, 4.0), by simp, ma⟩
  have h2 : 4.1 ≤ m1 := hm1.2 ⟨(1952, 4.1), by simp, mb⟩
  norm_num at h1 h2 ⊢
  linarith

end Verif.Recurrence
