import Verif.Props.Repetition

/-! # C106: moving all magnitudes by a constant (completeness and recurrence) -/

namespace Verif.Spec

/-- The pairs (year, magnitude), `c` magnitude units larger. -/
def larger (c : ℝ) (l : List (ℝ × ℝ)) : List (ℝ × ℝ) := l.map fun e => (e.1, e.2 + c)

end Verif.Spec

namespace Verif

theorem rintK_add_even (x : ℝ) (k : ℤ) : rintK (x + ((2 * k : ℤ) : ℝ)) = rintK x + 2 * k := by
  simp only [rintK, Int.floor_add_intCast]
  have e1 : x + ((2 * k : ℤ) : ℝ) - ((⌊x⌋ + 2 * k : ℤ) : ℝ) = x - ⌊x⌋ := by push_cast; ring
  have e2 : (⌊x⌋ + 2 * k) % 2 = ⌊x⌋ % 2 := by omega
  rw [e1, e2]
  split_ifs <;> ring

end Verif

namespace Verif.Completeness

open Verif Verif.Np Spec

theorem around2_larger (x : ℝ) (k : ℤ) : around2 (x + k / 10) = around2 x + k / 10 := by
  have e : (100 : ℝ) * (x + k / 10) = 100 * x + ((2 * (5 * k) : ℤ) : ℝ) := by push_cast; ring
  simp only [around2, rintZ_real, show (100.0 : ℝ) = 100 by norm_num, e, rintK_add_even]
  push_cast
  ring

theorem floor10_larger (x : ℝ) (k : ℤ) : ((PyNum.floorZ ((10.0 : ℝ) * (x + k / 10)) : Int) : ℝ) / 10.0 =
    ((PyNum.floorZ ((10.0 : ℝ) * x) : Int) : ℝ) / 10.0 + k / 10 := by
  have e : (10 : ℝ) * (x + k / 10) = 10 * x + k := by ring
  simp only [floorZ_real, show (10.0 : ℝ) = 10 by norm_num, e, Int.floor_add_intCast]
  push_cast
  ring

theorem ceil10_larger (x : ℝ) (k : ℤ) : ((PyNum.ceilZ ((10.0 : ℝ) * (x + k / 10)) : Int) : ℝ) / 10.0 =
    ((PyNum.ceilZ ((10.0 : ℝ) * x) : Int) : ℝ) / 10.0 + k / 10 := by
  have e : (10 : ℝ) * (x + k / 10) = 10 * x + k := by ring
  simp only [ceilZ_real, show (10.0 : ℝ) = 10 by norm_num, e, Int.ceil_add_intCast]
  push_cast
  ring

theorem larger_fst (c : ℝ) (l : List (ℝ × ℝ)) : (larger c l).map Prod.fst = l.map Prod.fst := by
  simp only [larger, List.map_map]; rfl

theorem larger_snd (c : ℝ) (l : List (ℝ × ℝ)) : (larger c l).map Prod.snd = (l.map Prod.snd).map (· + c) := by
  simp only [larger, List.map_map]; rfl

theorem steppBins_larger (k : ℤ) (ev : List (ℝ × ℝ)) (dm dt : ℝ) :
    steppBins (larger (k / 10) ev) dm dt = (steppBins ev dm dt).map fun b => { b with mbin := fun i => b.mbin i + k / 10 } := by
  have e0 : (larger (k / 10) ev).map (fun e : ℝ × ℝ => (e.1, around2 e.2)) = larger (k / 10) (ev.map fun e : ℝ × ℝ => (e.1, around2 e.2)) := by
    simp only [larger, List.map_map, Function.comp_def, around2_larger]
  simp only [steppBins, e0, larger_fst, larger_snd, npMin_add, npMax_add]
  generalize ev.map (fun e : ℝ × ℝ => (e.1, around2 e.2)) = ev1
  cases npMin (ev1.map Prod.snd) with
  | error e => rfl
  | ok m0 =>
  cases npMax (ev1.map Prod.snd) with
  | error e => rfl
  | ok m1 =>
  simp only [Except.map, Recurrence.bind_ok, floor10_larger, ceil10_larger]
  by_cases h1 : PyNum.decEq dm 0 = true
  · simp only [h1, if_true]; rfl
  simp only [h1]
  cases npMax (ev1.map Prod.fst) <;> [rfl; skip]
  cases npMin (ev1.map Prod.fst) <;> [rfl; skip]
  simp only [Recurrence.bind_ok]
  by_cases h2 : PyNum.decEq dt 0 = true
  · simp only [h2, if_true]; rfl
  simp only [h2]
  generalize ((PyNum.floorZ ((10.0 : ℝ) * m0) : Int) : ℝ) / 10.0 = lo
  generalize ((PyNum.ceilZ ((10.0 : ℝ) * m1) : Int) : ℝ) / 10.0 = hi
  have e1 : hi + (k : ℝ) / 10 + dm = hi + dm + k / 10 := by ring
  have e2 : arangeAt (lo + (k : ℝ) / 10) dm = fun i => arangeAt lo dm i + k / 10 := funext fun i => arangeAt_add _ _ _ _
  rw [e1, arangeLen_add, e2]
  have e3 : ∀ (mb : ℕ → ℝ) (nb : ℕ) (y : ℝ) (jj : ℕ), steppCount (larger (k / 10) ev1) (fun i => mb i + k / 10) nb y jj = steppCount ev1 mb nb y jj := by
    intro mb nb y jj
    simp only [steppCount, larger, List.countP_map]
    congr 1
    funext e
    simp only [Function.comp, ge_iff_le, add_le_add_iff_right, add_lt_add_iff_right]
  simp only [e3]
  split_ifs <;> rfl

/-- **C106** (Stepp): if all magnitudes are `k` tenths larger, the completeness table has the same years and all its magnitudes are `k`
tenths larger (the same exception if there is one). -/
theorem C106_stepp (k : ℤ) (ev : List (ℝ × ℝ)) (dm dt ttol : ℝ) (iloc : Bool) :
    stepp (larger (k / 10) ev) dm dt ttol iloc = (stepp ev dm dt ttol iloc).map (larger (k / 10)) := by
  simp only [stepp, steppBins_larger]
  cases steppBins ev dm dt with
  | error e => rfl
  | ok b =>
  simp only [Except.map, Recurrence.bind_ok]
  generalize List.mapM (compLength b.timeRange b.nt) _ = r
  cases r with
  | error e => rfl
  | ok l =>
  simp only [Recurrence.bind_ok, pure, Except.pure, larger, List.map_zipWith]

end Verif.Completeness

namespace Verif.Recurrence

open Verif Verif.Np Spec Completeness

/-! ### Maximum likelihood -/

/-- A row of the recurrence table with a larger magnitude. -/
noncomputable def largerRow (c : ℝ) (r : RecRow ℝ) : RecRow ℝ := { r with mval := r.mval + c }

theorem recurrenceTable_larger (k : ℤ) (ev : List (ℝ × ℝ)) (dmag : ℝ) :
    recurrenceTable (larger (k / 10) ev) dmag = (recurrenceTable ev dmag).map (List.map (largerRow (k / 10))) := by
  have eu : ((ev.map Prod.snd).map (· + (k : ℝ) / 10)).map (fun m : ℝ => ((PyNum.ceilZ ((10.0 : ℝ) * m) : Int) : ℝ) / 10.0) =
      ((ev.map Prod.snd).map (fun m : ℝ => ((PyNum.ceilZ ((10.0 : ℝ) * m) : Int) : ℝ) / 10.0)).map (· + (k : ℝ) / 10) := by
    simp only [List.map_map, Function.comp_def, ceil10_larger]
  have el : ((ev.map Prod.snd).map (· + (k : ℝ) / 10)).map (fun m : ℝ => ((PyNum.floorZ ((10.0 : ℝ) * m) : Int) : ℝ) / 10.0) =
      ((ev.map Prod.snd).map (fun m : ℝ => ((PyNum.floorZ ((10.0 : ℝ) * m) : Int) : ℝ) / 10.0)).map (· + (k : ℝ) / 10) := by
    simp only [List.map_map, Function.comp_def, floor10_larger]
  simp only [recurrenceTable, larger_fst, larger_snd, eu, el, npMin_add, npMax_add]
  cases npMax (ev.map Prod.fst) <;> [rfl; skip]
  cases npMin (ev.map Prod.fst) <;> [rfl; skip]
  simp only [bind_ok]
  cases npMax ((ev.map Prod.snd).map (fun m : ℝ => ((PyNum.ceilZ ((10.0 : ℝ) * m) : Int) : ℝ) / 10.0)) with
  | error e => rfl
  | ok hi =>
  cases npMin ((ev.map Prod.snd).map (fun m : ℝ => ((PyNum.floorZ ((10.0 : ℝ) * m) : Int) : ℝ) / 10.0)) with
  | error e => rfl
  | ok lo =>
  simp only [Except.map, bind_ok]
  by_cases h1 : PyNum.decEq dmag 0 = true
  · simp only [h1, if_true]; rfl
  rw [if_neg h1, if_neg h1]
  have e1 : hi + (k : ℝ) / 10 + ((2 : ℕ) : ℝ) * dmag = hi + ((2 : ℕ) : ℝ) * dmag + k / 10 := by ring
  have e2 : arangeAt (lo + (k : ℝ) / 10) dmag = fun i => arangeAt lo dmag i + k / 10 := funext fun i => arangeAt_add _ _ _ _
  rw [e1, arangeLen_add, e2]
  split_ifs
  · rfl
  · rfl
  · rfl
  have e3 : ∀ nb, histogram (fun i => arangeAt lo dmag i + (k : ℝ) / 10) nb ((ev.map Prod.snd).map (· + (k : ℝ) / 10)) =
      histogram (arangeAt lo dmag) nb (ev.map Prod.snd) := by
    intro nb
    simp only [histogram]
    refine List.map_congr_left fun j _ => ?_
    rw [List.countP_map]
    congr 1
    funext x
    exact inBin_add (fun i => rfl) nb j x
  simp only [e3]
  simp only [pure, Except.pure, Except.ok.injEq, List.map_map]
  refine List.map_congr_left fun i _ => ?_
  simp only [Function.comp, largerRow, RecRow.mk.injEq, and_true]
  exact add_right_comm _ _ _

theorem bMaxLikelihood_larger (h : List (ℝ × ℕ)) (dmag mc c : ℝ) (hex : ∃ r ∈ h, mc ≤ r.1 ∧ 0 < r.2) :
    bMaxLikelihood (h.map fun r => (r.1 + c, r.2)) dmag (mc + c) = bMaxLikelihood h dmag mc := by
  have hf : (h.map fun r => (r.1 + c, r.2)).filter (fun r => decide (r.1 ≥ mc + c)) = (h.filter fun r => decide (r.1 ≥ mc)).map fun r => (r.1 + c, r.2) := by
    rw [List.filter_map]
    congr 2
    funext r
    simp only [Function.comp, ge_iff_le, add_le_add_iff_right]
  have hS : 0 < ((h.filter fun r => decide (r.1 ≥ mc)).map fun r => (r.2 : ℝ)).sum := by
    obtain ⟨r, hr, hmc, hn⟩ := hex
    refine list_sum_pos ?_ ⟨_, List.mem_map.mpr ⟨r, List.mem_filter.mpr ⟨hr, by simpa using hmc⟩, rfl⟩, by exact_mod_cast hn⟩
    intro x hx
    obtain ⟨r, -, rfl⟩ := List.mem_map.mp hx
    positivity
  simp only [bMaxLikelihood, hf]
  generalize h.filter (fun r => decide (r.1 ≥ mc)) = l at hS ⊢
  simp only [List.map_map, Function.comp_def, npSum_real]
  have e0 : (l.map fun r : ℝ × ℕ => r.1 + c) = (l.map Prod.fst).map (· + c) := by simp only [List.map_map]; rfl
  have e1 : (l.map fun r : ℝ × ℕ => (r.1 + c) * (r.2 : ℝ)).sum = (l.map fun r : ℝ × ℕ => r.1 * (r.2 : ℝ)).sum + c * (l.map fun r : ℝ × ℕ => (r.2 : ℝ)).sum := by
    rw [← sum_map_mul, ← sum_map_add]
    congr 1
    refine List.map_congr_left fun r _ => ?_
    ring
  rw [e0, e1, npMin_add]
  cases npMin (l.map Prod.fst) with
  | error e => rfl
  | ok m =>
  simp only [Except.map, bind_ok, add_div, mul_div_assoc, div_self hS.ne', mul_one, add_sub_add_right_eq_sub]

/-- What moving the magnitudes does to a completeness period: everything is kept but the error of the rate. -/
def PeriodSame (p p' : Period ℝ) : Prop := p'.b = p.b ∧ p'.sigb = p.sigb ∧ p'.rate = p.rate ∧ p'.n = p.n

/-- An event at least half a bin above the completeness magnitude lies in a bin with central magnitude above it. -/
theorem counted {sel : List (ℝ × ℝ)} {dmag mc : ℝ} {t : List (RecRow ℝ)} (hd : 0 < dmag) (ht : recurrenceTable sel dmag = .ok t)
    (he : ∃ e ∈ sel, mc + dmag / 2 ≤ e.2) : ∃ r ∈ t.map (fun r => (r.mval, r.nObs)), mc ≤ r.1 ∧ 0 < r.2 := by
  obtain ⟨e, he, hm⟩ := he
  obtain ⟨rows, low, ny, h1, -, h2, -, h3, -, h4⟩ := recurrenceTable_spec (List.ne_nil_of_mem he) hd
  rw [ht] at h1
  cases h1
  have hlo := h2 e he
  have hhi := h3 e he
  set i := ⌊(e.2 - low) / dmag⌋₊ with hi
  have hq : 0 ≤ (e.2 - low) / dmag := div_nonneg (by linarith) hd.le
  have i1 : (i : ℝ) ≤ (e.2 - low) / dmag := Nat.floor_le hq
  have i2 : (e.2 - low) / dmag < i + 1 := Nat.lt_floor_add_one _
  rw [le_div_iff₀ hd] at i1
  rw [div_lt_iff₀ hd] at i2
  have hil : i < t.length := by
    have : (i : ℝ) * dmag < t.length * dmag := by linarith
    exact_mod_cast lt_of_mul_lt_mul_right this hd.le
  obtain ⟨g1, g2, -⟩ := h4 i hil
  refine ⟨(t[i].mval, t[i].nObs), List.mem_map.mpr ⟨t[i], List.getElem_mem hil, rfl⟩, ?_, ?_⟩
  · dsimp only
    rw [g1]
    nlinarith
  · dsimp only
    rw [g2, magCount, List.countP_pos_iff]
    exact ⟨e, he, by simp only [decide_eq_true_eq]; constructor <;> linarith⟩

theorem periodEvents_larger (c : ℝ) (ev : List (ℝ × ℝ)) (ctime mc : ℝ) : periodEvents (larger c ev) ctime (mc + c) = larger c (periodEvents ev ctime mc) := by
  simp only [periodEvents, larger, List.filter_map]
  congr 2
  funext e
  have : mc + c - 1e-5 ≤ e.2 + c ↔ mc - 1e-5 ≤ e.2 := by constructor <;> intro h <;> linarith
  simp only [Function.comp, ge_iff_le, this]

theorem period_larger (k : ℤ) {ev : List (ℝ × ℝ)} {dmag refMag ctime : ℝ} {g : List ℝ} {p : Period ℝ} (hd : 0 < dmag)
    (he : ∃ m ∈ g, ∃ e ∈ ev, ctime ≤ e.1 ∧ m + dmag / 2 ≤ e.2) (hp : period ev dmag refMag ctime g = .ok p) :
    ∃ p', period (larger (k / 10) ev) dmag (refMag + k / 10) ctime (g.map (· + (k : ℝ) / 10)) = .ok p' ∧ PeriodSame p p' ∧
      ∃ mc x, npMin g = .ok mc ∧ p.sigrate = (10 : ℝ) ^ |x| ∧ p'.sigrate = (10 : ℝ) ^ |x + p.sigb * (k / 10)| ∧ x = (p.b + p.sigb) * refMag - p.b * mc := by
  simp only [period] at hp ⊢
  rw [npMin_add]
  cases hmc : npMin g with
  | error e => rw [hmc] at hp; cases hp
  | ok mc =>
  rw [hmc] at hp
  simp only [bind_ok, Except.map, periodEvents_larger, larger_fst, recurrenceTable_larger] at hp ⊢
  have hsel : ∃ e ∈ periodEvents ev ctime mc, mc + dmag / 2 ≤ e.2 := by
    obtain ⟨m, hm, e, hev, h1, h2⟩ := he
    have hle : mc ≤ m := (npMin_ok hmc).2 hm
    refine ⟨e, List.mem_filter.mpr ⟨hev, ?_⟩, by linarith⟩
    simp only [Bool.and_eq_true, decide_eq_true_eq, ge_iff_le]
    refine ⟨h1, ?_⟩
    have : (0 : ℝ) ≤ 1e-5 := by norm_num
    linarith
  have hl : (larger (k / 10) (periodEvents ev ctime mc)).length = (periodEvents ev ctime mc).length := by simp [larger]
  rw [hl]
  generalize periodEvents ev ctime mc = sel at hp hsel ⊢
  cases hy1 : npMax (sel.map Prod.fst) with
  | error e => rw [hy1] at hp; cases hp
  | ok y1 =>
  cases hy0 : npMin (sel.map Prod.fst) with
  | error e => rw [hy1, hy0] at hp; cases hp
  | ok y0 =>
  cases ht : recurrenceTable sel dmag with
  | error e => rw [hy1, hy0, ht] at hp; cases hp
  | ok t =>
  rw [hy1, hy0, ht] at hp
  simp only [bind_ok] at hp ⊢
  have eh : (t.map (largerRow (k / 10))).map (fun r => (r.mval, r.nObs)) = (t.map fun r => (r.mval, r.nObs)).map fun r => (r.1 + (k : ℝ) / 10, r.2) := by
    simp only [List.map_map]; rfl
  rw [eh, bMaxLikelihood_larger _ _ _ _ (counted hd ht hsel)]
  cases hb : bMaxLikelihood (t.map fun r => (r.mval, r.nObs)) dmag mc with
  | error e => rw [hb] at hp; cases hp
  | ok bs =>
  obtain ⟨b, s⟩ := bs
  rw [hb] at hp
  simp only [bind_ok, pure, Except.pure, Except.ok.injEq] at hp
  subst hp
  have ten : (10.0 : ℝ) = 10 := by norm_num
  generalize PyMath.log10 ((sel.length : ℝ) / (y1 - y0 + ((1 : ℕ) : ℝ))) = L
  have hlog : ∀ x : ℝ, Real.logb 10 ((10 : ℝ) ^ x) = x := fun x => Real.logb_rpow (by norm_num) (by norm_num)
  refine ⟨_, rfl, ⟨rfl, rfl, ?_, rfl⟩, mc, (b + s) * refMag - b * mc, rfl, ?_, ?_, rfl⟩
  · simp only [rpow_real]
    congr 1
    ring
  · simp only [rpow_real, log10_real, npAbs_real, ten, hlog]
    congr 1
    rw [show L + (b + s) * refMag - (L + b * mc) = (b + s) * refMag - b * mc by ring]
    ring
  · simp only [rpow_real, log10_real, npAbs_real, ten, hlog]
    congr 1
    rw [show L + (b + s) * (refMag + (k : ℝ) / 10) - (L + b * (mc + (k : ℝ) / 10)) = (b + s) * refMag - b * mc + s * ((k : ℝ) / 10) by ring]
    ring

theorem groupOf_larger (c : ℝ) (table : List (ℝ × ℝ)) (y : ℝ) : groupOf (larger c table) y = (groupOf table y).map (· + c) := by
  simp only [groupOf, larger, List.filter_map, List.map_map]
  rfl

theorem mem_groupOf_self {table : List (ℝ × ℝ)} {r : ℝ × ℝ} (h : r ∈ table) : r.2 ∈ groupOf table r.1 := by
  refine List.mem_map.mpr ⟨r, List.mem_filter.mpr ⟨h, ?_⟩, rfl⟩
  simp only [sub_self, npAbs_real, abs_zero, decide_eq_true_eq]
  norm_num

theorem periods_larger (k : ℤ) {ev table : List (ℝ × ℝ)} {dmag refMag : ℝ} (hd : 0 < dmag)
    (he : ∀ r ∈ table, ∃ e ∈ ev, r.1 ≤ e.1 ∧ r.2 + dmag / 2 ≤ e.2) (i : ℕ) {ps : List (Period ℝ)} (hp : periods ev table dmag refMag i = .ok ps) :
    ∃ ps', periods (larger (k / 10) ev) (larger (k / 10) table) dmag (refMag + k / 10) i = .ok ps' ∧ List.Forall₂ PeriodSame ps ps' := by
  have hlen : (larger (k / 10) table).length = table.length := by simp [larger]
  induction hn : table.length - i using Nat.strong_induction_on generalizing i ps with
  | _ n ih =>
    rw [periods] at hp ⊢
    by_cases hi : i < table.length
    · have hi' : i < (larger (k / 10) table).length := by rwa [hlen]
      have hy : (larger (k / 10) table)[i].1 = table[i].1 := by simp [larger]
      simp only [hi, hi', dite_true, hy, groupOf_larger, List.length_map] at hp ⊢
      by_cases hg : (groupOf table table[i].1).length = 0
      · simp [hg] at hp
      · simp only [hg, dite_false] at hp ⊢
        cases h1 : period ev dmag refMag table[i].1 (groupOf table table[i].1) with
        | error e => rw [h1] at hp; cases hp
        | ok p =>
        cases h2 : periods ev table dmag refMag (i + (groupOf table table[i].1).length) with
        | error e => rw [h1, h2] at hp; cases hp
        | ok ps1 =>
        rw [h1, h2] at hp
        cases hp
        obtain ⟨e, hev, q0⟩ := he table[i] (List.getElem_mem hi)
        obtain ⟨p', q1, r1, -⟩ := period_larger k hd ⟨table[i].2, mem_groupOf_self (List.getElem_mem hi), e, hev, q0⟩ h1
        obtain ⟨ps', q2, r2⟩ := ih _ (by omega) _ h2 rfl
        exact ⟨p' :: ps', by rw [q1, q2]; rfl, .cons r1 r2⟩
    · have hi' : ¬ i < (larger (k / 10) table).length := by rwa [hlen]
      simp only [hi, hi', dite_false] at hp ⊢
      cases hp
      exact ⟨[], rfl, .nil⟩

theorem weighted_same {ps ps' : List (Period ℝ)} (h : List.Forall₂ PeriodSame ps ps') (f : Period ℝ → ℝ)
    (hf : ∀ p p', PeriodSame p p' → f p' = f p) : weighted ps' f = weighted ps f := by
  have e1 : (ps'.map fun p => (p.n : ℝ)) = ps.map fun p => (p.n : ℝ) := by
    induction h with
    | nil => rfl
    | cons h1 _ ih => simp only [List.map_cons, ih, h1.2.2.2]
  simp only [weighted, e1]
  generalize npSum (ps.map fun p => (p.n : ℝ)) = T
  congr 1
  clear e1
  induction h with
  | nil => rfl
  | cons h1 _ ih => simp only [List.map_cons, ih, h1.2.2.2, hf _ _ h1]

/-- **C106** (maximum likelihood, part that holds): if the events, the completeness table and the reference magnitude are `k` tenths larger,
the b-value, its error and the rate are the same.  Every completeness period must have an event half a bin above its magnitude (otherwise
no bin may be left and the mean is 0/0).  Missing: the error of the rate, see `C106_fails`. -/
theorem C106_mle_partial (k : ℤ) {ev table : List (ℝ × ℝ)} {dmag refMag : ℝ} {r : GR ℝ} (hd : 0 < dmag)
    (he : ∀ c ∈ table, ∃ e ∈ ev, c.1 ≤ e.1 ∧ c.2 + dmag / 2 ≤ e.2) (hr : bMaxlikeTime ev table dmag refMag = .ok r) :
    ∃ r', bMaxlikeTime (larger (k / 10) ev) (larger (k / 10) table) dmag (refMag + k / 10) = .ok r' ∧ r'.b = r.b ∧ r'.sigb = r.sigb ∧ r'.a = r.a := by
  simp only [bMaxlikeTime] at hr ⊢
  cases hp : periods ev table dmag refMag 0 with
  | error e => rw [hp] at hr; cases hr
  | ok ps =>
  obtain ⟨ps', hp', hrel⟩ := periods_larger k hd he 0 hp
  rw [hp] at hr
  rw [hp']
  simp only [bind_ok] at hr ⊢
  have hemp : ps'.isEmpty = ps.isEmpty := by cases hrel <;> rfl
  rw [hemp]
  by_cases hc : ps.isEmpty
  · simp only [hc, if_true] at hr; cases hr
  · simp only [hc] at hr ⊢
    cases hr
    exact ⟨_, rfl, weighted_same hrel _ fun _ _ h => h.1, weighted_same hrel _ fun _ _ h => h.2.1, weighted_same hrel _ fun _ _ h => h.2.2.1⟩

/-! ### Weichert -/

/-- A bin with a larger magnitude. -/
noncomputable def largerBin (c : ℝ) (x : WBin ℝ) : WBin ℝ := { x with m := x.m + c }

theorem around1_larger (x : ℝ) (k : ℤ) : around1 (x + k / 5) = around1 x + k / 5 := by
  have e : (x + k / 5) * (10 : ℝ) = x * 10 + ((2 * k : ℤ) : ℝ) := by push_cast; ring
  simp only [around1, rintZ_real, show (10.0 : ℝ) = 10 by norm_num, e, rintK_add_even]
  push_cast
  ring

theorem cells_larger (k : ℤ) (ev : List (ℝ × ℝ)) (dm dt : ℝ) : cells (larger (k / 5) ev) dm dt =
    (cells ev dm dt).map fun c => { c with magInt := fun i => c.magInt i + k / 5, events := larger (k / 5) c.events } := by
  have e0 : (larger (k / 5) ev).map (fun e : ℝ × ℝ => (e.1, around1 e.2)) = larger (k / 5) (ev.map fun e : ℝ × ℝ => (e.1, around1 e.2)) := by
    simp only [larger, List.map_map, Function.comp_def, around1_larger]
  simp only [cells, e0, larger_fst, larger_snd, npMin_add, npMax_add]
  generalize ev.map (fun e : ℝ × ℝ => (e.1, around1 e.2)) = ev1
  cases npMin (ev.map Prod.fst) <;> [rfl; skip]
  cases npMax (ev.map Prod.fst) <;> [rfl; skip]
  simp only [bind_ok]
  by_cases h1 : PyNum.decEq dt 0 = true
  · simp only [h1, if_true]; rfl
  simp only [h1]
  cases npMin (ev1.map Prod.snd) with
  | error e => rfl
  | ok m0 =>
  cases npMax (ev1.map Prod.snd) with
  | error e => rfl
  | ok m1 =>
  simp only [Except.map, bind_ok]
  by_cases h2 : PyNum.decEq dm 0 = true
  · simp only [h2, if_true]; rfl
  simp only [h2]
  have e1 : m1 + (k : ℝ) / 5 + 1.5 * dm = m1 + 1.5 * dm + k / 5 := add_right_comm _ _ _
  have e2 : arangeAt (m0 + (k : ℝ) / 5) dm = fun i => arangeAt m0 dm i + k / 5 := funext fun i => arangeAt_add _ _ _ _
  rw [e1, arangeLen_add, e2]
  split_ifs <;> rfl

theorem weichertPrep_larger (k : ℤ) (ev table : List (ℝ × ℝ)) (dm dt : ℝ) :
    weichertPrep (larger (k / 5) ev) (larger (k / 5) table) dm dt = (weichertPrep ev table dm dt).map (List.map (largerBin (k / 5))) := by
  rw [weichertPrep, weichertPrep, cells_larger]
  cases cells ev dm dt with
  | error e => rfl
  | ok c =>
  simp only [Except.map, bind_ok]
  have h1 : ∀ a i, Cells.count { c with magInt := fun i => c.magInt i + (k : ℝ) / 5, events := larger (k / 5) c.events } a i = c.count a i := by
    intro a i
    simp only [Cells.count, larger, List.countP_map]
    congr 1
    funext e
    simp only [Function.comp, inBin_add (e := c.magInt) (fun i => rfl)]
  have h2 : ∀ (r : ℝ × ℝ) a i, Cells.removed { c with magInt := fun i => c.magInt i + (k : ℝ) / 5, events := larger (k / 5) c.events } (r.1, r.2 + (k : ℝ) / 5) a i =
      c.removed r a i := by
    intro r a i
    simp only [Cells.removed, add_lt_add_iff_right]
  have h3 : ∀ i, Cells.nObs { c with magInt := fun i => c.magInt i + (k : ℝ) / 5, events := larger (k / 5) c.events } (larger (k / 5) table) i = c.nObs table i := by
    intro i
    simp only [Cells.nObs, h1]
    congr 1
    refine List.map_congr_left fun a _ => ?_
    rw [show larger ((k : ℝ) / 5) table = table.map fun e => (e.1, e.2 + (k : ℝ) / 5) from rfl, List.any_map]
    simp only [Function.comp_def, h2]
  have h4 : ∀ i, Cells.tPer { c with magInt := fun i => c.magInt i + (k : ℝ) / 5, events := larger (k / 5) c.events } (larger (k / 5) table) i = c.tPer table i := by
    intro i
    simp only [Cells.tPer, larger, List.filter_map, List.getLast?_map, Function.comp_def, add_sub_add_right_eq_sub]
    cases (List.filter (fun r : ℝ × ℝ => decide (r.2 - c.magInt i < 1e-3)) table).getLast? with
    | some r => simp only [Option.map_some, Option.some_or]
    | none =>
      cases table.getLast? with
      | some r => simp only [Option.map_some, Option.map_none, Option.none_or]
      | none => rfl
  have h5 : ∀ i, (c.magInt i + (k : ℝ) / 5 + (c.magInt (i + 1) + (k : ℝ) / 5)) / 2.0 = (c.magInt i + c.magInt (i + 1)) / 2.0 + (k : ℝ) / 5 := by
    intro i
    rw [show (2.0 : ℝ) = 2 by norm_num]
    ring
  simp only [h3, h4, h5]
  have hfun : (fun i => do
      let t ← c.tPer table i
      pure ({ t := t, m := (c.magInt i + c.magInt (i + 1)) / 2.0 + (k : ℝ) / 5, n := c.nObs table i } : WBin ℝ)) =
      fun i => (do
        let t ← c.tPer table i
        pure ({ t := t, m := (c.magInt i + c.magInt (i + 1)) / 2.0, n := c.nObs table i } : WBin ℝ)).map (largerBin (k / 5)) := by
    funext i
    cases c.tPer table i <;> rfl
  rw [hfun, mapM_map_except]
  rfl

theorem total_larger (c : ℝ) (w : List (WBin ℝ)) : total (w.map (largerBin c)) = total w := by
  simp only [total, List.map_map]; rfl

theorem magSum_larger (c : ℝ) (w : List (WBin ℝ)) : magSum (w.map (largerBin c)) = magSum w + c * total w := by
  simp only [magSum, total, List.map_map, ← sum_map_mul, ← sum_map_add]
  congr 1
  refine List.map_congr_left fun x _ => ?_
  simp only [Function.comp, largerBin]
  ring

theorem moment_larger (c : ℝ) (w : List (WBin ℝ)) (β : ℝ) :
    moment (w.map (largerBin c)) 0 β = Real.exp (-β * c) * moment w 0 β ∧
    moment (w.map (largerBin c)) 1 β = Real.exp (-β * c) * (moment w 1 β + c * moment w 0 β) ∧
    moment (w.map (largerBin c)) 2 β = Real.exp (-β * c) * (moment w 2 β + (2 * c) * moment w 1 β + (c * c) * moment w 0 β) := by
  have e : ∀ x : ℝ, Real.exp (-β * (x + c)) = Real.exp (-β * c) * Real.exp (-β * x) := fun x => by rw [← Real.exp_add]; ring_nf
  simp only [moment, List.map_map, ← sum_map_mul, ← sum_map_add]
  refine ⟨?_, ?_, ?_⟩ <;>
  · congr 1
    refine List.map_congr_left fun x _ => ?_
    simp only [Function.comp, largerBin, e]
    ring

theorem newton_larger (c : ℝ) (w : List (WBin ℝ)) (β : ℝ) (h0 : moment w 0 β ≠ 0) :
    dldb (w.map (largerBin c)) β = dldb w β ∧ d2ldb2 (w.map (largerBin c)) β = d2ldb2 w β ∧ newton (w.map (largerBin c)) β = newton w β := by
  obtain ⟨m0, m1, m2⟩ := moment_larger c w β
  have he : Real.exp (-β * c) ≠ 0 := (Real.exp_pos _).ne'
  have a1 : dldb (w.map (largerBin c)) β = dldb w β := by
    simp only [dldb_real, total_larger, magSum_larger, m0, m1]
    rw [mul_div_mul_left _ _ he]
    field_simp
    ring
  have a2 : d2ldb2 (w.map (largerBin c)) β = d2ldb2 w β := by
    simp only [d2ldb2_real, total_larger, m0, m1, m2]
    rw [mul_div_mul_left _ _ he, mul_div_mul_left _ _ he]
    field_simp
    ring
  exact ⟨a1, a2, by simp only [newton, a1, a2]⟩

theorem wResult_larger (c : ℝ) (w : List (WBin ℝ)) (m0 dM mrate β : ℝ) (h0 : moment w 0 β ≠ 0) (h1 : mrate ≠ 0) (h2 : mrate + c ≠ 0) :
    wResult (w.map (largerBin c)) (m0 + c) dM (mrate + c) β = wResult w m0 dM mrate β := by
  obtain ⟨-, n2, n3⟩ := newton_larger c w β h0
  have he : Real.exp (-β * c) ≠ 0 := (Real.exp_pos _).ne'
  have e : ∀ x : ℝ, Real.exp (-β * (x + c)) = Real.exp (-β * c) * Real.exp (-β * x) := fun x => by rw [← Real.exp_add]; ring_nf
  have s1 : (wSums (w.map (largerBin c)) β).nkount = (wSums w β).nkount := by simp only [wSums, List.map_map]; rfl
  have s2 : (wSums (w.map (largerBin c)) β).sumexp / (wSums (w.map (largerBin c)) β).sumtex = (wSums w β).sumexp / (wSums w β).sumtex := by
    simp only [wSums, npSum_real, exp_real, List.map_map]
    rw [show (w.map ((fun x : WBin ℝ => Real.exp (-β * x.m)) ∘ largerBin c)) = w.map fun x => Real.exp (-β * c) * Real.exp (-β * x.m) from
        List.map_congr_left fun x _ => e x.m,
      show (w.map ((fun x : WBin ℝ => x.t * Real.exp (-β * x.m)) ∘ largerBin c)) = w.map fun x => Real.exp (-β * c) * (x.t * Real.exp (-β * x.m)) from
        List.map_congr_left fun x _ => by simp only [Function.comp, largerBin, e]; ring, sum_map_mul, sum_map_mul, mul_div_mul_left _ _ he]
  have s3 : mrate + c - (m0 + c - dM / 2.0) = mrate - (m0 - dM / 2.0) := by
    generalize dM / 2.0 = d
    ring
  simp only [wResult, n2, n3, s1, s2, s3, decEq_real, h1, h2, decide_false, Bool.false_eq_true, if_false]

theorem weichertLoop_larger (c : ℝ) (w : List (WBin ℝ)) (m0 dM mrate itstab : ℝ) (h0 : ∀ β, moment w 0 β ≠ 0) (h1 : mrate ≠ 0) (h2 : mrate + c ≠ 0)
    (fuel : ℕ) (β : ℝ) : weichertLoop (w.map (largerBin c)) (m0 + c) dM (mrate + c) itstab fuel β = weichertLoop w m0 dM mrate itstab fuel β := by
  induction fuel generalizing β with
  | zero => rfl
  | succ fuel ih => simp only [weichertLoop, (newton_larger c w β (h0 β)).2.2, wResult_larger c w m0 dM mrate β (h0 β) h1 h2, ih]

/-- **C106** (Weichert): if the events, the completeness table and the reference magnitude are larger by `k` fifths, all four results are
the same (or the same exception, or neither returns).  No completeness year may be later than the last event, and the reference magnitude must not be
zero before or after (zero stands for "no reference magnitude"). -/
theorem C106_weichert_partial (k : ℤ) {ev table : List (ℝ × ℝ)} {dm dt mrate : ℝ} (hev : ev ≠ []) (hdm : 0 < dm) (hdt : 0 < dt)
    (htab : ∀ r ∈ table, ∃ e ∈ ev, r.1 < e.1 + 1) (h1 : mrate ≠ 0) (h2 : mrate + k / 5 ≠ 0) (fuel : ℕ) :
    recurrenceAnalysis (larger (k / 5) ev) (larger (k / 5) table) dm "Weichert" (mrate + k / 5) dt fuel =
      recurrenceAnalysis ev table dm "Weichert" mrate dt fuel := by
  simp only [recurrenceAnalysis, if_true, weichertPrep_larger]
  cases hw : weichertPrep ev table dm dt with
  | error e => rfl
  | ok w =>
  obtain ⟨-, ht⟩ := prep_spaced hev hdm hdt hw htab
  simp only [Except.map, bind_ok]
  match w, ht with
  | [], _ => rfl
  | [_], _ => rfl
  | x0 :: x1 :: rest, ht =>
    have := weichertLoop_larger (k / 5) (x0 :: x1 :: rest) x0.m (x1.m - x0.m) mrate 1e-5 (fun β => (moment0_pos ht (by simp) β).ne') h1 h2 fuel 1.5
    simp only [List.map_cons] at this ⊢
    simp only [weichert]
    rw [← this]
    simp only [largerBin, add_sub_add_right_eq_sub]

/-! ### The error of the rate -/

/-- Statement of C106 for the recurrence: with the events, the completeness table and the reference magnitude larger by a multiple of 0.2 the
result is the same. -/
def Spec.MagnitudeOrigin : Prop :=
  ∀ (k : ℤ) (ev table : List (ℝ × ℝ)) (dmag refMag dt : ℝ) (algorithm : String) (fuel : ℕ), 0 < dmag → 0 < dt → refMag ≠ 0 → refMag + k / 5 ≠ 0 →
    (∀ c ∈ table, ∃ e ∈ ev, c.1 ≤ e.1 ∧ c.2 + dmag / 2 ≤ e.2) →
    recurrenceAnalysis (larger (k / 5) ev) (larger (k / 5) table) dmag algorithm (refMag + k / 5) dt fuel =
      recurrenceAnalysis ev table dmag algorithm refMag dt fuel

/-- A histogram with one event in each of two bins has a b-value with a positive error. -/
theorem sigb_pos : ∃ b s : ℝ, bMaxLikelihood [((5.5 : ℝ), 1), (6.5, 1)] 1 5 = .ok (b, s) ∧ 0 < s := by
  obtain ⟨b, s, hb, hpos, -, -⟩ := C58_b_value (h := [((5.5 : ℝ), 1), (6.5, 1)]) (dmag := 1) (mc := 5) (by norm_num)
    ⟨(5.5, 1), by simp, by norm_num, by norm_num⟩
  refine ⟨b, s, hb, ?_⟩
  have hf : ([((5.5 : ℝ), 1), (6.5, 1)] : List (ℝ × ℕ)).filter (fun r => decide (r.1 ≥ (5 : ℝ))) = [((5.5 : ℝ), 1), (6.5, 1)] := by
    simp only [List.filter_cons, List.filter_nil]
    norm_num
  simp only [bMaxLikelihood, hf] at hb
  obtain ⟨m, hm⟩ := npMin_exists (l := [((5.5 : ℝ), 1), ((6.5 : ℝ), 1)].map Prod.fst) (by simp)
  rw [hm] at hb
  simp only [bind_ok, pure, Except.pure, Except.ok.injEq, Prod.mk.injEq] at hb
  obtain ⟨hb1, hb2⟩ := hb
  rw [hb1] at hb2
  rw [← hb2, sqrt_real]
  have h0 : 0 < 2.3 * (b * b) := by positivity
  refine mul_pos h0 (Real.sqrt_pos.mpr ?_)
  simp only [npSum_real, List.map_cons, List.map_nil, List.sum_cons, List.sum_nil]
  norm_num

/-- **C106** (refuted in general): the error of the maximum likelihood rate, `10 ** |(b + sigma_b) * mref - b * mc|`, depends on the origin
of the magnitude scale. -/
theorem C106_fails : ¬ Spec.MagnitudeOrigin := by
  intro H
  obtain ⟨b, s, hb, hs⟩ := sigb_pos
  have hg : groupOf [((2000 : ℝ), (5 : ℝ))] 2000 = [5] := by
    simp only [groupOf, npAbs_real, List.filter_cons, List.filter_nil, sub_self, abs_zero]
    norm_num
  have hsel : periodEvents [((2000 : ℝ), (6 : ℝ)), (2000, 5)] 2000 5 = [(2000, 6), (2000, 5)] := by
    simp only [periodEvents, List.filter_cons, List.filter_nil, ge_iff_le, le_refl]
    norm_num
  obtain ⟨pd, hpd, hps, hpn⟩ : ∃ pd, period [((2000 : ℝ), (6 : ℝ)), (2000, 5)] 1 4 2000 [5] = .ok pd ∧ pd.sigb = s ∧ pd.n = 2 := by
    unfold period
    simp only [npMin, List.foldl_nil, bind, Except.bind, hsel, List.map_cons, List.map_nil]
    have e := npMax_two (le_refl (2000 : ℝ))
    have e' := npMin_two (le_refl (2000 : ℝ))
    simp only [npMin] at e'
    rw [e]
    simp only [table31 5 le_rfl (by norm_num), List.map_cons, List.map_nil, hb, pure, Except.pure, Except.ok.injEq, exists_eq_left']
    exact ⟨trivial, rfl⟩
  have key : ∀ k : ℤ, (4 : ℝ) + k / 5 ≠ 0 → ∃ x, x = (pd.b + pd.sigb) * 4 - pd.b * 5 ∧ |x + s * (k / 5)| = |x| := by
    intro k hk
    have h0 := H k [((2000 : ℝ), (6 : ℝ)), (2000, 5)] [(2000, 5)] 1 4 1 "MLE" 0 one_pos one_pos (by norm_num) hk
      (by
        intro c hc
        simp only [List.mem_singleton] at hc
        subst hc
        exact ⟨(2000, 6), by simp, le_rfl, by norm_num⟩)
    obtain ⟨p', hp', hsame, mc, x, hmc, h1, h2, hx⟩ := period_larger (2 * k) one_pos
      ⟨5, by simp, (2000, 6), by simp, le_rfl, by norm_num⟩ hpd
    have hk2 : ((2 * k : ℤ) : ℝ) / 10 = k / 5 := by push_cast; ring
    rw [hk2] at hp' h2
    obtain rfl : (5 : ℝ) = mc := by simpa [npMin] using hmc
    refine ⟨x, hx, ?_⟩
    have one : ∀ (ev : List (ℝ × ℝ)) (mc ref : ℝ) (p : Period ℝ), period ev 1 ref 2000 [mc] = .ok p → p.n = 2 →
        bMaxlikeTime ev [(2000, mc)] 1 ref = .ok ⟨p.b, p.sigb, p.rate, p.sigrate⟩ := by
      intro ev mc ref p hp hn
      have hg : groupOf [((2000 : ℝ), mc)] 2000 = [mc] := by
        simp only [groupOf, npAbs_real, List.filter_cons, List.filter_nil, sub_self, abs_zero]
        norm_num
      have hn0 : p.n ≠ 0 := by omega
      unfold bMaxlikeTime
      have hper : periods ev [(2000, mc)] 1 ref 0 = .ok [p] := by
        unfold periods
        simp only [List.length_cons, List.length_nil, Nat.zero_add, Nat.lt_one_iff, dite_true, List.getElem_cons_zero, hg, one_ne_zero, dite_false, hp]
        have : periods ev [(2000, mc)] 1 ref 1 = .ok [] := by
          unfold periods
          simp
        rw [this]
        rfl
      rw [hper]
      simp only [bind, Except.bind, List.isEmpty_cons, Bool.false_eq_true, if_false, weighted_one p _ hn0]
      rfl
    have b1 := one _ 5 4 pd hpd hpn
    have b2 := one _ (5 + k / 5) _ p' (by simpa using hp') (by rw [hsame.2.2.2, hpn])
    have hm : ("MLE" : String) ≠ "Weichert" := by decide
    simp only [recurrenceAnalysis, hm, if_false] at h0
    rw [b1, show larger ((k : ℝ) / 5) [((2000 : ℝ), (5 : ℝ))] = [(2000, 5 + (k : ℝ) / 5)] from rfl, b2] at h0
    simp only [bind_ok, pure, Except.pure, Except.ok.injEq, Option.some.injEq, GR.mk.injEq] at h0
    have h3 := h0.2.2.2
    rw [h1, h2, hps] at h3
    have := congrArg (Real.logb 10) h3
    rwa [Real.logb_rpow (by norm_num) (by norm_num), Real.logb_rpow (by norm_num) (by norm_num)] at this
  obtain ⟨x, hx, hx1⟩ := key 1 (by norm_num)
  obtain ⟨y, hy, hx2⟩ := key 2 (by norm_num)
  obtain rfl : x = y := hx.trans hy.symm
  push_cast at hx1 hx2
  rcases abs_eq_abs.mp hx1 with h | h <;> rcases abs_eq_abs.mp hx2 with h' | h' <;> linarith

/-- Non-vacuity of C106: the premises of the partial theorems for a catalogue with two events; `returns63b` is a run of Weichert. -/
example : (∃ r, bMaxlikeTime [((2000 : ℝ), (6 : ℝ)), (2000, 5)] [(2000, 5)] 1 4 = .ok r) ∧
    (∀ c ∈ [((2000 : ℝ), (5 : ℝ))], ∃ e ∈ [((2000 : ℝ), (6 : ℝ)), (2000, 5)], c.1 ≤ e.1 ∧ c.2 + 1 / 2 ≤ e.2) ∧
    larger ((2 : ℤ) / 5) [((2000 : ℝ), (5 : ℝ))] = [(2000, 5.4)] := by
  refine ⟨?_, ?_, by norm_num [larger]⟩
  · obtain ⟨b, s, -, h⟩ := mle31 5 4 le_rfl (by norm_num)
    obtain ⟨t, ht⟩ := h 5 (by norm_num) (by norm_num)
    exact ⟨_, ht⟩
  · intro c hc
    simp only [List.mem_singleton] at hc
    subst hc
    exact ⟨(2000, 6), by simp, le_rfl, by norm_num⟩

end Verif.Recurrence
