import Verif.Props.KijkoOrder
import Verif.Props.WeichertReturns
import Verif.Props.Repetition

/-! # C108, C109: events without influence on the recurrence and the maximum magnitude -/

namespace Verif.Recurrence

open Verif Verif.Np

/-! ### C108 -/

/-- An event outside the catalogue declared complete by the table: for no row is it in the years of the row and large enough (rows whose years
differ by less than 1e-5 form one period; magnitudes are compared with a tolerance of 1e-5). -/
def Spec.Outside (table : List (ℝ × ℝ)) (e : ℝ × ℝ) : Prop :=
  ∀ r ∈ table, ∀ r' ∈ table, |r'.1 - r.1| < 1e-5 → e.1 < r.1 ∨ e.2 < r'.2 - 1e-5

/-- Statement of C108: events outside the completeness table change nothing. -/
def Spec.OutsideIrrelevant (algorithm : String) : Prop :=
  ∀ (ev extra table : List (ℝ × ℝ)) (dmag refMag dt : ℝ) (fuel : ℕ), 0 < dmag → 0 < dt → (∀ e ∈ extra, Spec.Outside table e) →
    recurrenceAnalysis (ev ++ extra) table dmag algorithm refMag dt fuel = recurrenceAnalysis ev table dmag algorithm refMag dt fuel

theorem periodEvents_outside {ev extra table : List (ℝ × ℝ)} (h : ∀ e ∈ extra, Spec.Outside table e) {c : ℝ × ℝ} (hc : c ∈ table) {mc : ℝ}
    (hmc : npMin (groupOf table c.1) = .ok mc) : periodEvents (ev ++ extra) c.1 mc = periodEvents ev c.1 mc := by
  have hm := (npMin_iff.mp hmc).1
  simp only [groupOf, npAbs_real, Set.mem_ofPred_eq, List.mem_map, List.mem_filter, decide_eq_true_eq] at hm
  obtain ⟨r', ⟨hr', hd⟩, rfl⟩ := hm
  have : extra.filter (fun e => decide (e.1 ≥ c.1) && decide (e.2 ≥ r'.2 - 1e-5)) = [] := by
    rw [List.filter_eq_nil_iff]
    intro e he
    rcases h e he c hc r' hr' hd with h1 | h1
    · simp [not_le.mpr h1]
    · simp [not_le.mpr h1]
  rw [periodEvents, List.filter_append, this, List.append_nil]
  rfl

/-- **C108** (maximum likelihood): events outside the completeness table change nothing. -/
theorem C108_mle_partial {algorithm : String} (ha : algorithm ≠ "Weichert") : Spec.OutsideIrrelevant algorithm := by
  intro ev extra table dmag refMag dt fuel _ _ h
  have hp : ∀ k ival, table.length - ival ≤ k → periods (ev ++ extra) table dmag refMag ival = periods ev table dmag refMag ival := by
    intro k
    induction k with
    | zero =>
      intro ival hi
      have : ¬ ival < table.length := by omega
      unfold periods
      simp only [this, dite_false]
    | succ k ih =>
      intro ival hi
      rw [periods, periods]
      by_cases hl : ival < table.length
      · simp only [hl, dite_true]
        by_cases hg : (groupOf table table[ival].1).length = 0
        · simp only [hg, dite_true]
        · simp only [hg, dite_false]
          rw [ih _ (by omega)]
          have : period (ev ++ extra) dmag refMag table[ival].1 (groupOf table table[ival].1) =
              period ev dmag refMag table[ival].1 (groupOf table table[ival].1) := by
            unfold period
            cases hm : npMin (groupOf table table[ival].1) with
            | error e => rfl
            | ok mc => simp only [bind_ok, periodEvents_outside h (List.getElem_mem hl) hm]
          rw [this]
      · simp only [hl, dite_false]
  simp only [recurrenceAnalysis, ha, if_false, bMaxlikeTime, hp _ 0 le_rfl]

/-- Without the events outside the table the catalogue has one magnitude bin and the method fails; with them it does not. -/
theorem prep108 : (∃ x, weichertPrep [((2000 : ℝ), (5 : ℝ))] [(2000, 5)] 1 1 = .ok [x]) ∧
    ∃ x y l, weichertPrep ([((2000 : ℝ), (5 : ℝ))] ++ [(1990, 3)]) [(2000, 5)] 1 1 = .ok (x :: y :: l) := by
  have ma : Spec.mag1 (5 : ℝ) = 5 := mag1_of_int 50 (by norm_num)
  have mb : Spec.mag1 (3 : ℝ) = 3 := mag1_of_int 30 (by norm_num)
  constructor
  · obtain ⟨w, hw⟩ := weichertPrep_succeeds (ev := [((2000 : ℝ), (5 : ℝ))]) (table := [(2000, 5)]) (dm := 1) (dt := 1) (by simp) (by simp) one_pos one_pos
    obtain ⟨y0, y1, m0, hy0, hy1, hm0, hlen, ⟨m1, hm1, hlm⟩, hidx, -⟩ := weichertPrep_spec (by simp) one_pos one_pos hw
    obtain rfl : m0 = 5 := hm0.unique ⟨⟨(2000, 5), by simp, ma⟩, by rintro y ⟨e, he, rfl⟩; simp only [List.mem_singleton] at he; subst he; exact ma.ge⟩
    obtain rfl : m1 = 5 := hm1.unique ⟨⟨(2000, 5), by simp, ma⟩, by rintro y ⟨e, he, rfl⟩; simp only [List.mem_singleton] at he; subst he; exact ma.le⟩
    have l2 : ¬ 2 ≤ w.length := by rw [hlm 2]; norm_num
    match w, hlen, l2 with
    | [x], _, _ => exact ⟨x, hw⟩
    | _ :: _ :: _, _, h => exact absurd (by simp) h
  · obtain ⟨w, hw⟩ := weichertPrep_succeeds (ev := [((2000 : ℝ), (5 : ℝ))] ++ [(1990, 3)]) (table := [(2000, 5)]) (dm := 1) (dt := 1) (by simp) (by simp)
      one_pos one_pos
    obtain ⟨y0, y1, m0, hy0, hy1, hm0, hlen, ⟨m1, hm1, hlm⟩, hidx, -⟩ := weichertPrep_spec (by simp) one_pos one_pos hw
    have h0 : m0 ≤ 3 := hm0.2 ⟨(1990, 3), by simp, mb⟩
    have h1 : 5 ≤ m1 := hm1.2 ⟨(2000, 5), by simp, ma⟩
    have l2 : 2 ≤ w.length := by rw [hlm 2]; norm_num; linarith
    match w, l2 with
    | x :: y :: l, _ => exact ⟨x, y, l, hw⟩

/-- **C108** (refuted for Weichert): the small event of 1990 is ten years older than the completeness table, yet it adds a magnitude bin below the
completeness magnitude; here the analysis fails without the event and succeeds with it. -/
theorem C108_weichert_fails : ¬ Spec.OutsideIrrelevant "Weichert" := by
  intro H
  have h := H [(2000, 5)] [(1990, 3)] [(2000, 5)] 1 4 1 0 one_pos one_pos (by
    intro e he r hr r' hr' _
    simp only [List.mem_singleton] at he hr hr'
    subst he hr hr'
    left
    norm_num)
  obtain ⟨⟨x, hx⟩, y, z, l, hl⟩ := prep108
  simp only [recurrenceAnalysis, if_true, hx, hl, bind_ok, weichert] at h
  cases h

theorem lastIdx_ge {n a : ℕ} {p : ℕ → Bool} (ha : a < n) (hp : p a = true) : ∃ x, lastIdx n p = some x ∧ a ≤ x := by
  have hmem : a ∈ (List.range n).filter p := by simp [ha, hp]
  have hne : (List.range n).filter p ≠ [] := List.ne_nil_of_mem hmem
  refine ⟨_, List.getLast?_eq_some_getLast hne, ?_⟩
  have hs : ((List.range n).filter p).Pairwise (· < ·) := List.pairwise_lt_range.filter _
  obtain ⟨i, hi, rfl⟩ := List.getElem_of_mem hmem
  rw [List.getLast_eq_getElem]
  rcases Nat.lt_or_ge i (((List.range n).filter p).length - 1) with h | h
  · exact (List.pairwise_iff_getElem.mp hs _ _ _ _ h).le
  · have : i = ((List.range n).filter p).length - 1 := by omega
    exact le_of_eq (by congr 1)

theorem mapM_congr_mem {α β : Type} {l : List α} {f g : α → Except PyErr β} (h : ∀ i ∈ l, f i = g i) : l.mapM f = l.mapM g := by
  induction l with
  | nil => rfl
  | cons a l ih => rw [List.mapM_cons, List.mapM_cons, h a (by simp), ih fun i hi => h i (by simp [hi])]

/-- **C108** (Weichert), what holds: events before the completeness year of a larger magnitude change nothing if they are not the first or last, the
smallest or largest event of the catalogue. -/
theorem C108_weichert_partial {ev extra table : List (ℝ × ℝ)} (dmag refMag dt : ℝ) (fuel : ℕ) (h : ∀ e ∈ extra, ∃ r ∈ table, e.1 < r.1 ∧ Spec.mag1 e.2 < r.2)
    (hy : ∀ e ∈ extra, (∃ a ∈ ev, a.1 ≤ e.1) ∧ ∃ b ∈ ev, e.1 ≤ b.1)
    (hm : ∀ e ∈ extra, (∃ a ∈ ev, Spec.mag1 a.2 ≤ Spec.mag1 e.2) ∧ ∃ b ∈ ev, Spec.mag1 e.2 ≤ Spec.mag1 b.2) :
    recurrenceAnalysis (ev ++ extra) table dmag "Weichert" refMag dt fuel = recurrenceAnalysis ev table dmag "Weichert" refMag dt fuel := by
  have key : weichertPrep (ev ++ extra) table dmag dt = weichertPrep ev table dmag dt := by
    have mm : ∀ (f : ℝ × ℝ → ℝ), (∀ e ∈ extra, (∃ a ∈ ev, f a ≤ f e) ∧ ∃ b ∈ ev, f e ≤ f b) →
        npMin (ev.map f ++ extra.map f) = npMin (ev.map f) ∧ npMax (ev.map f ++ extra.map f) = npMax (ev.map f) := by
      intro f hf
      by_cases hne : ev = []
      · have : extra = [] := by
          by_contra hx
          obtain ⟨e, he⟩ := List.exists_mem_of_ne_nil _ hx
          obtain ⟨⟨a, ha, -⟩, -⟩ := hf e he
          rw [hne] at ha
          cases ha
        subst this
        simp
      · obtain ⟨a, ha⟩ := npMin_exists (l := ev.map f) (by simpa using hne)
        obtain ⟨b, hb⟩ := npMax_exists (l := ev.map f) (by simpa using hne)
        obtain ⟨a1, a2⟩ := npMin_iff.mp ha
        obtain ⟨b1, b2⟩ := npMax_iff.mp hb
        rw [ha, hb]
        constructor
        · refine npMin_iff.mpr ⟨List.mem_append_left _ a1, ?_⟩
          intro x hx
          rw [Set.mem_ofPred_eq, ← List.map_append] at hx
          obtain ⟨e, he, rfl⟩ := List.mem_map.mp hx
          rcases List.mem_append.mp he with he | he
          · exact a2 (List.mem_map_of_mem he)
          · obtain ⟨⟨c, hc, hce⟩, -⟩ := hf e he
            exact (a2 (List.mem_map_of_mem hc)).trans hce
        · refine npMax_iff.mpr ⟨List.mem_append_left _ b1, ?_⟩
          intro x hx
          rw [Set.mem_ofPred_eq, ← List.map_append] at hx
          obtain ⟨e, he, rfl⟩ := List.mem_map.mp hx
          rcases List.mem_append.mp he with he | he
          · exact b2 (List.mem_map_of_mem he)
          · obtain ⟨-, c, hc, hce⟩ := hf e he
            exact hce.trans (b2 (List.mem_map_of_mem hc))
    obtain ⟨e1, e2⟩ := mm Prod.fst hy
    have hm' : ∀ e ∈ extra, (∃ a ∈ ev, around1 a.2 ≤ around1 e.2) ∧ ∃ b ∈ ev, around1 e.2 ≤ around1 b.2 := by
      intro e he
      have := hm e he
      simpa only [← around1_real] using this
    obtain ⟨e3, e4⟩ := mm (fun e => around1 e.2) hm'
    have hc : cells (ev ++ extra) dmag dt = (cells ev dmag dt).map fun c => { c with events := c.events ++ extra.map fun e => (e.1, around1 e.2) } := by
      simp only [cells, List.map_map, Function.comp_def, e1, e2, e3, e4, List.map_append]
      cases npMin (ev.map Prod.fst) <;> [rfl; skip]
      cases npMax (ev.map Prod.fst) <;> [rfl; skip]
      simp only [bind_ok]
      by_cases h1 : PyNum.decEq dt 0 = true
      · simp only [h1, if_true]; rfl
      simp only [h1]
      cases npMin (ev.map fun e => around1 e.2) <;> [rfl; skip]
      cases npMax (ev.map fun e => around1 e.2) <;> [rfl; skip]
      simp only [bind_ok]
      by_cases h2 : PyNum.decEq dmag 0 = true
      · simp only [h2, if_true]; rfl
      simp only [h2]
      split_ifs <;> rfl
    rw [weichertPrep, weichertPrep, hc]
    cases cells ev dmag dt with
    | error e => rfl
    | ok c =>
    simp only [Except.map, bind_ok]
    have hn : ∀ i < c.nm, Cells.nObs { c with events := c.events ++ extra.map fun e => (e.1, around1 e.2) } table i = c.nObs table i := by
      intro i hi
      simp only [Cells.nObs]
      congr 1
      refine List.map_congr_left fun a ha => ?_
      have ha := List.mem_range.mp ha
      rw [show (fun r => Cells.removed { c with events := c.events ++ extra.map fun e => (e.1, around1 e.2) } r a i) = fun r => c.removed r a i from rfl]
      by_cases hr : (table.any fun r => c.removed r a i) = true
      · simp only [hr, if_true]
      · simp only [hr, Cells.count, List.countP_append, if_false, Bool.false_eq_true]
        rw [Nat.add_eq_left, List.countP_eq_zero]
        intro x hx
        obtain ⟨e, he, rfl⟩ := List.mem_map.mp hx
        intro hin
        simp only [Bool.and_eq_true, inBin, decide_eq_true_eq] at hin
        obtain ⟨r, hr1, hr2, hr3⟩ := h e he
        apply hr
        rw [List.any_eq_true]
        refine ⟨r, hr1, ?_⟩
        obtain ⟨x, hx, hax⟩ := lastIdx_ge (n := c.nt + 1) (a := a) (p := fun k => decide (c.timeInt k < r.1)) (by omega)
          (decide_eq_true (hin.1.1.trans_lt hr2))
        obtain ⟨y, hy, hay⟩ := lastIdx_ge (n := c.nm + 1) (a := i) (p := fun k => decide (c.magInt k < r.2)) (by omega)
          (decide_eq_true (hin.2.1.trans_lt (by rw [around1_real]; exact hr3)))
        simp only [Cells.removed, hx, hy, Bool.and_eq_true, decide_eq_true_eq]
        omega
    refine mapM_congr_mem fun i hi => ?_
    rw [hn i (List.mem_range.mp hi)]
    rfl
  simp only [recurrenceAnalysis, if_true, key]

/-- Non-vacuity: an event of 1995 with magnitude 4.1 between events of 1990 (magnitude 4) and 2000 (magnitude 5), where magnitude 5 is complete from 2000 on. -/
example : Spec.Outside [((2000 : ℝ), (5 : ℝ))] (1995, 4.1) ∧ (∃ r ∈ [((2000 : ℝ), (5 : ℝ))], (1995 : ℝ) < r.1 ∧ Spec.mag1 (4.1 : ℝ) < r.2) ∧
    ∃ a ∈ [((1990 : ℝ), (4 : ℝ)), (2000, 5)], a.1 ≤ (1995 : ℝ) ∧ Spec.mag1 a.2 ≤ Spec.mag1 (4.1 : ℝ) := by
  have mb : Spec.mag1 (4.1 : ℝ) = 4.1 := mag1_of_int 41 (by norm_num)
  have ma : Spec.mag1 (4 : ℝ) = 4 := mag1_of_int 40 (by norm_num)
  refine ⟨?_, ⟨(2000, 5), by simp, by norm_num, by rw [mb]; norm_num⟩, (1990, 4), by simp, by norm_num, by rw [ma, mb]; norm_num⟩
  intro r hr r' hr' _
  simp only [List.mem_singleton] at hr hr'
  subst hr hr'
  left
  norm_num

end Verif.Recurrence

namespace Verif.MaxMag

open Verif Verif.Np

/-! ### C109 -/

theorem argmaxGo_append {l extra : List ℝ} (best : ℝ) (bi i : ℕ) (h : ∀ x ∈ extra, ∃ y ∈ best :: l, x ≤ y) :
    argmaxGo best bi i (l ++ extra) = argmaxGo best bi i l := by
  induction l generalizing best bi i with
  | nil =>
    have h' : ∀ x ∈ extra, x ≤ best := fun x hx => by simpa using h x hx
    clear h
    induction extra generalizing i with
    | nil => rfl
    | cons x l ih =>
      simp only [List.nil_append, argmaxGo, not_lt.mpr (h' x (by simp)), if_false] at ih ⊢
      exact ih (i + 1) fun y hy => h' y (by simp [hy])
  | cons z l ih =>
    simp only [List.cons_append, argmaxGo]
    split_ifs with hz
    · refine ih _ _ _ fun x hx => ?_
      obtain ⟨y, hy, hxy⟩ := h x hx
      rcases List.mem_cons.mp hy with rfl | hy
      · exact ⟨z, by simp, hxy.trans hz.le⟩
      · exact ⟨y, hy, hxy⟩
    · refine ih _ _ _ fun x hx => ?_
      obtain ⟨y, hy, hxy⟩ := h x hx
      rcases List.mem_cons.mp hy with rfl | hy
      · exact ⟨y, by simp, hxy⟩
      · rcases List.mem_cons.mp hy with rfl | hy
        · exact ⟨best, by simp, hxy.trans (not_lt.mp hz)⟩
        · exact ⟨y, by simp [hy], hxy⟩

theorem argmax_append {l extra : List ℝ} (hne : l ≠ []) (h : ∀ x ∈ extra, ∃ y ∈ l, x ≤ y) : argmax (l ++ extra) = argmax l := by
  match l, hne with
  | x :: l, _ => exact argmaxGo_append x 0 1 h

/-- The `neq` largest magnitudes do not change if the new ones are not larger than `neq` of the old ones. -/
theorem largest_append {mag extra : List ℝ} {neq : ℕ} (hq : 0 < neq) (h : ∀ x ∈ extra, neq ≤ mag.countP fun y => decide (x ≤ y)) :
    (largest (mag ++ extra) neq).1.Perm (largest mag neq).1 ∧ (largest (mag ++ extra) neq).2 = (largest mag neq).2 := by
  by_cases hx : extra = []
  · subst hx
    simp
  have hlen : neq ≤ mag.length := by
    obtain ⟨x, hx⟩ := List.exists_mem_of_ne_nil _ hx
    exact (h x hx).trans List.countP_le_length
  have hxl := List.length_pos_iff.mpr hx
  have hsorted := npSort_sorted mag
  have hperm := npSort_perm mag
  have hsl : (npSort mag).length = mag.length := hperm.length_eq
  set L := npSort mag with hL
  have hcnt : ∀ x ∈ extra, ∀ y ∈ L.drop (mag.length - neq), x ≤ y := by
    intro x hx y hy
    by_contra hlt
    have hlt := not_le.mp hlt
    have hc := h x hx
    rw [← hperm.countP_eq] at hc
    obtain ⟨i, hi, rfl⟩ := List.getElem_of_mem hy
    rw [List.getElem_drop] at hlt
    rw [List.length_drop] at hi
    -- all elements up to that one are smaller than x
    have hz : (L.take (mag.length - neq + i + 1)).countP (fun y => decide (x ≤ y)) = 0 := by
      rw [List.countP_eq_zero]
      intro z hz
      obtain ⟨k, hk, rfl⟩ := List.getElem_of_mem hz
      rw [List.length_take] at hk
      rw [List.getElem_take, decide_eq_true_eq, not_le]
      refine lt_of_le_of_lt ?_ hlt
      rcases Nat.lt_or_ge k (mag.length - neq + i) with hk' | hk'
      · exact List.pairwise_iff_getElem.mp hsorted _ _ _ _ hk'
      · have : k = mag.length - neq + i := by omega
        subst this
        exact le_rfl
    rw [← List.take_append_drop (mag.length - neq + i + 1) L, List.countP_append, hz] at hc
    have := List.countP_le_length (p := fun y => decide (x ≤ y)) (l := L.drop (mag.length - neq + i + 1))
    rw [List.length_drop] at this
    omega
  have hS : npSort (mag ++ extra) = npSort (L.take (mag.length - neq) ++ extra) ++ L.drop (mag.length - neq) := by
    refine ((npSort_perm (mag ++ extra)).trans ?_).eq_of_pairwise (fun _ _ _ _ => le_antisymm) (npSort_sorted _) ?_
    · refine ((hperm.symm.append_right extra).trans ?_).trans ((npSort_perm _).symm.append_right _)
      conv_lhs => rw [← List.take_append_drop (mag.length - neq) L]
      rw [List.append_assoc, List.append_assoc]
      exact List.Perm.append_left _ List.perm_append_comm
    · rw [List.pairwise_append]
      refine ⟨npSort_sorted _, hsorted.sublist (List.drop_sublist _ _), fun a ha b hb => ?_⟩
      rcases List.mem_append.mp ((npSort_perm _).subset ha) with ha | ha
      · rw [← List.take_append_drop (mag.length - neq) L, List.pairwise_append] at hsorted
        exact hsorted.2.2 a ha b hb
      · exact hcnt a ha b hb
  have hdrop : (npSort (mag ++ extra)).drop ((mag ++ extra).length - neq) = L.drop (mag.length - neq) := by
    rw [hS]
    apply List.drop_left'
    rw [(npSort_perm _).length_eq]
    simp only [List.length_append, List.length_take, hsl]
    omega
  have c1 : ¬ (mag ++ extra).length ≤ neq := by
    rw [List.length_append]
    omega
  have c2 : neq ≠ 0 := by omega
  simp only [largest, if_neg c1, if_neg c2]
  split_ifs with c3
  · have : mag.length - neq = 0 := by omega
    rw [hdrop, this, List.drop_zero]
    exact ⟨hperm, by congr 1; omega⟩
  · rw [hdrop]
    exact ⟨.refl _, rfl⟩

/-- **C109**: events not larger than `neq` events of the catalogue change neither the maximum magnitude of Kijko nor its error (nor the exception if there is one). -/
theorem C109_largest_only (ev extra : List (ℝ × ℝ)) {neq : ℕ} (hq : 0 < neq) (h : ∀ x ∈ extra, neq ≤ ev.countP fun y => decide (x.1 ≤ y.1))
    (nsamp tol : ℝ) (maxIter fuel : ℕ) :
    kijko (mags (ev ++ extra)) (sigmas (ev ++ extra)) neq nsamp tol maxIter fuel = kijko (mags ev) (sigmas ev) neq nsamp tol maxIter fuel := by
  by_cases hx : extra = []
  · subst hx
    simp
  have hmem : ∀ x ∈ extra, ∃ y ∈ ev, x.1 ≤ y.1 := by
    intro x hx
    by_contra hc
    push Not at hc
    have : ev.countP (fun y => decide (x.1 ≤ y.1)) = 0 := by
      rw [List.countP_eq_zero]
      intro y hy
      simpa using hc y hy
    have := h x hx
    omega
  have hne : ev ≠ [] := by
    rintro rfl
    obtain ⟨x, hx⟩ := List.exists_mem_of_ne_nil _ hx
    obtain ⟨y, hy, -⟩ := hmem x hx
    cases hy
  have hne' : mags ev ≠ [] := by simpa [mags] using hne
  have hmem' : ∀ x ∈ mags extra, ∃ y ∈ mags ev, x ≤ y := by
    intro x hx
    obtain ⟨e, he, rfl⟩ := List.mem_map.mp hx
    obtain ⟨y, hy, hle⟩ := hmem e he
    exact ⟨y.1, List.mem_map_of_mem hy, hle⟩
  have e0 : mags (ev ++ extra) = mags ev ++ mags extra := by simp [mags]
  obtain ⟨h1, h2⟩ := largest_append (mag := mags ev) (extra := mags extra) hq (by
    intro x hx
    obtain ⟨e, he, rfl⟩ := List.mem_map.mp hx
    rw [mags, List.countP_map]
    exact h e he)
  have ha := argmax_append hne' hmem'
  have hmax : npMax (mags ev ++ mags extra) = npMax (mags ev) := by
    obtain ⟨b, hb⟩ := npMax_exists hne'
    obtain ⟨b1, b2⟩ := npMax_iff.mp hb
    rw [hb]
    refine npMax_iff.mpr ⟨List.mem_append_left _ b1, ?_⟩
    intro x hx
    rcases List.mem_append.mp hx with hx | hx
    · exact b2 hx
    · obtain ⟨y, hy, hle⟩ := hmem' x hx
      exact hle.trans (b2 hy)
  have hs : (sigmas (ev ++ extra))[argmax (mags ev)]? = (sigmas ev)[argmax (mags ev)]? := by
    have : argmax (mags ev) < (sigmas ev).length := by
      have := argmax_lt hne'
      simpa [mags, sigmas] using this
    rw [show sigmas (ev ++ extra) = sigmas ev ++ sigmas extra by simp [sigmas], List.getElem?_append_left this]
  have e2 := npMin_congr (fun y => h1.mem_iff (a := y))
  simp only [kijko, e0, hmax, ha, hs, e2, hSmooth_congr h1, intFunc_congr h1, h2]

/-- Non-vacuity: the two largest of three events decide, a fourth event smaller than both has no influence. -/
example : ∀ x ∈ [((5 : ℝ), (0.1 : ℝ))], 2 ≤ ([((6 : ℝ), (0.1 : ℝ)), (4, 0.1), (5.5, 0.1)]).countP fun y => decide (x.1 ≤ y.1) := by
  intro x hx
  simp only [List.mem_singleton] at hx
  subst hx
  simp only [List.countP_cons, List.countP_nil]
  norm_num

end Verif.MaxMag
