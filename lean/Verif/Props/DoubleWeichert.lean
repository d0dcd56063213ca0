import Verif.Lemmas.DoubleArange
import Verif.Props.RecurrenceWeichert

/-!
# C173, C174: the preparation of the Weichert method in double precision
-/

namespace Verif.Recurrence

open Verif Verif.Np Verif.Dbl Verif.Format

/-! ### The edges -/

theorem arange_close {S : Dbl} {q : ℚ} (hS : |S.val| ≤ 10000) (q0 : 1 / 100 ≤ q) (q1 : q ≤ 1000) {i : ℕ} (hi : i * q ≤ 30000) :
    |(arangeAt S (Dbl.of q) i).val - (S.val + i * q)| ≤ 1 / 10 ^ 5 := by
  have hq : |q| ≤ 1000 := abs_le.2 ⟨by linarith, q1⟩
  have hi0 : (0 : ℚ) ≤ i := by positivity
  have hi' : (i : ℚ) ≤ 3000000 := by nlinarith
  have hin : i ≤ 2 ^ 53 := by
    have : i ≤ 3000000 := by exact_mod_cast hi'
    omega
  have eD := of_near hq
  set D := Dbl.of q with hD
  have eS : |(S + D).val - (S.val + q)| ≤ 12100 / 2 ^ 53 := by
    rw [val_add]
    refine (rnd_near (ε := 1001 / 2 ^ 53) (B := 11000) ?_ ?_ (by norm_num)).trans (by norm_num)
    · rw [show S.val + D.val - (S.val + q) = D.val - q by ring]
      exact eD.trans (by norm_num)
    · exact (abs_add_le _ _).trans (by linarith)
  have ed : |((S + D) - S).val - q| ≤ 13200 / 2 ^ 53 := by
    rw [val_sub]
    refine (rnd_near (ε := 12100 / 2 ^ 53) (B := 1000) ?_ hq (by norm_num)).trans (by norm_num)
    rw [show (S + D).val - S.val - q = (S + D).val - (S.val + q) by ring]
    exact eS
  have hprod : |(i : ℚ) * q| ≤ 30000 := by
    rw [abs_of_nonneg (by positivity)]
    exact hi
  have ep : |((i : Dbl) * ((S + D) - S)).val - i * q| ≤ 1 / 10 ^ 6 * 5 := by
    rw [val_mul, val_nat_exact hin]
    refine (rnd_near (ε := 3000000 * (13200 / 2 ^ 53)) (B := 30000) ?_ hprod (by norm_num)).trans (by norm_num)
    rw [← mul_sub, abs_mul, abs_of_nonneg hi0]
    exact mul_le_mul hi' ed (abs_nonneg _) (by norm_num)
  unfold arangeAt
  rw [val_add]
  refine (rnd_near (ε := 1 / 10 ^ 6 * 5) (B := 40000) ?_ ?_ (by norm_num)).trans (by norm_num)
  · rw [show S.val + ((i : Dbl) * ((S + D) - S)).val - (S.val + i * q) = ((i : Dbl) * ((S + D) - S)).val - i * q by ring]
    exact ep
  · exact (abs_add_le _ _).trans (by linarith)

theorem threehalves_val : ((1.5 : Dbl)).val = 3 / 2 := by decide +kernel

/-- The last edge is above the maximum. -/
theorem last_edge {S T : Dbl} {q : ℚ} (hS : |S.val| ≤ 10000) (hT : |T.val| ≤ 10000) (hST : S.val ≤ T.val) (q0 : 1 / 100 ≤ q) (q1 : q ≤ 1000) {len : ℕ}
    (hl : len = arangeLen S (T + (1.5 : Dbl) * Dbl.of q) (Dbl.of q)) :
    2 ≤ len ∧ T.val < (arangeAt S (Dbl.of q) (len - 1)).val ∧ ((len - 1 : ℕ) : ℚ) * q ≤ T.val - S.val + 2 * q := by
  have hq : |q| ≤ 1000 := abs_le.2 ⟨by linarith, q1⟩
  have eD := of_near hq
  obtain ⟨s1, s2⟩ := abs_le.1 hS
  obtain ⟨t1, t2⟩ := abs_le.1 hT
  have e4 : |((1.5 : Dbl) * Dbl.of q).val - 3 / 2 * q| ≤ 3100 / 2 ^ 53 := by
    rw [val_mul, threehalves_val]
    refine (rnd_near (ε := 1502 / 2 ^ 53) (B := 1500) ?_ ?_ (by norm_num)).trans (by norm_num)
    · rw [← mul_sub, abs_mul, abs_of_pos (by norm_num : (0 : ℚ) < 3 / 2)]
      linarith
    · rw [abs_of_nonneg (by linarith)]; linarith
  have eT : |(T + (1.5 : Dbl) * Dbl.of q).val - (T.val + 3 / 2 * q)| ≤ 1 / 10 ^ 11 := by
    rw [val_add]
    refine (rnd_near (ε := 3100 / 2 ^ 53) (B := 11500) ?_ ?_ (by norm_num)).trans (by norm_num)
    · rw [show T.val + ((1.5 : Dbl) * Dbl.of q).val - (T.val + 3 / 2 * q) = ((1.5 : Dbl) * Dbl.of q).val - 3 / 2 * q by ring]
      exact e4
    · rw [abs_le]; constructor <;> linarith
  obtain ⟨X, hX, he⟩ := arangeLen_near (S := S) (s := S.val) (q := q) (by simp) eT (by linarith) (by linarith) (by linarith)
  have hq0 : 0 < q := by linarith
  rw [show (T.val + 3 / 2 * q - S.val) / q = (T.val - S.val) / q + 3 / 2 by field_simp; ring] at he
  have hr0 : 0 ≤ (T.val - S.val) / q := div_nonneg (by linarith) hq0.le
  have hrq : (T.val - S.val) / q * q = T.val - S.val := by field_simp
  obtain ⟨r, hr⟩ : ∃ r, r = (T.val - S.val) / q := ⟨_, rfl⟩
  rw [← hr] at he hr0 hrq
  obtain ⟨x1, x2⟩ := abs_le.1 he
  have c1 := Int.le_ceil X
  have c2 := Int.ceil_lt_add_one X
  have u : (1 : ℚ) / 10 ^ 6 < 1 / 4 := by norm_num
  have h2 : (1 : ℤ) < ⌈X⌉ := by
    have : ((1 : ℤ) : ℚ) < ⌈X⌉ := by push_cast; linarith
    exact_mod_cast this
  rw [hX] at hl
  have hlq : ((len - 1 : ℕ) : ℚ) = ⌈X⌉ - 1 := by
    have : ((len - 1 : ℕ) : ℤ) = ⌈X⌉ - 1 := by omega
    exact_mod_cast this
  have hup : ((len - 1 : ℕ) : ℚ) * q ≤ T.val - S.val + 2 * q := by
    rw [hlq]
    have : (⌈X⌉ : ℚ) - 1 ≤ r + 2 := by linarith
    have := mul_le_mul_of_nonneg_right this hq0.le
    linarith
  refine ⟨by omega, ?_, hup⟩
  have b := (abs_le.1 (arange_close hS q0 q1 (hup.trans (by linarith)))).1
  have : r + 1 / 4 ≤ ((len - 1 : ℕ) : ℚ) := by rw [hlq]; linarith
  have := mul_le_mul_of_nonneg_right this hq0.le
  linarith [show (1 : ℚ) / 10 ^ 5 < 1 / 1000 by norm_num]

theorem step_pos {q : ℚ} (q0 : 1 / 100 ≤ q) (q1 : q ≤ 1000) : 0 < (Dbl.of q).val := by
  have := (abs_le.1 (of_near (abs_le.2 ⟨by linarith, q1⟩ : |q| ≤ 1000))).1
  linarith [show ((1000 : ℚ) + 1) / 2 ^ 53 < 1 / 1000 by norm_num]

/-- A value between the first and the last edge is in one bin. -/
theorem one_bin {S T : Dbl} {q : ℚ} (hS : |S.val| ≤ 10000) (hT : |T.val| ≤ 10000) (q0 : 1 / 100 ≤ q) (q1 : q ≤ 1000) {len : ℕ}
    (hl : len = arangeLen S (T + (1.5 : Dbl) * Dbl.of q) (Dbl.of q)) {x : Dbl} (h1 : S.val ≤ x.val) (h2 : x.val ≤ T.val) :
    ((List.range (len - 1)).map fun j => if inBin (arangeAt S (Dbl.of q)) (len - 1) j x = true then 1 else 0).sum = 1 := by
  have := inBin_mono_sum (fun j => (((arangeAt S (Dbl.of q) j).val : ℚ) : ℝ)) (fun i j hij => by
    simp only [Rat.cast_le]
    exact arange_mono (step_pos q0 q1).le hij) [((x.val : ℚ) : ℝ)] (len - 1) (by
      intro y hy
      rw [List.mem_singleton] at hy
      subst hy
      have := (last_edge hS hT (h1.trans h2) q0 q1 hl).2.1
      exact_mod_cast lt_of_le_of_lt h2 this)
  simp only [List.countP_singleton, ← inBin_cast, arange_zero, Rat.cast_le, h1, decide_true, if_true] at this
  exact this

/-- If every element is in one row and in one column, the cells add up. -/
theorem grid_sum {α : Type} (ev : List α) (nt nm : ℕ) (P Q : ℕ → α → Bool) (hP : ∀ e ∈ ev, ((List.range nt).map fun a => if P a e = true then 1 else 0).sum = 1)
    (hQ : ∀ e ∈ ev, ((List.range nm).map fun i => if Q i e = true then 1 else 0).sum = 1) :
    ((List.range nm).map fun i => ((List.range nt).map fun a => ev.countP fun e => P a e && Q i e).sum).sum = ev.length := by
  induction ev with
  | nil => simp
  | cons e ev ih =>
    have h1 := hP e List.mem_cons_self
    have h2 := hQ e List.mem_cons_self
    simp only [List.countP_cons, List.sum_map_add, List.length_cons]
    rw [ih (fun e he => hP e (List.mem_cons_of_mem _ he)) (fun e he => hQ e (List.mem_cons_of_mem _ he))]
    congr 1
    refine Eq.trans ?_ h2
    congr 1
    refine List.map_congr_left fun i _ => ?_
    cases hq : Q i e with
    | false => simp
    | true => simpa using h1

/-! ### Rounding to one decimal -/

section
variable [Libm]

theorem around1_dbl {x : Dbl} (h : |x.val| ≤ 10) : |(around1 x).val| ≤ 11 ∧ |(around1 x).val - x.val| ≤ 1 / 10 := by
  obtain ⟨h1, h2⟩ := abs_le.1 h
  obtain ⟨k, hk⟩ : ∃ k, k = rintK (rnd53 (x.val * 10)) := ⟨_, rfl⟩
  have e1 : |rnd53 (x.val * 10) - x.val * 10| ≤ 101 / 2 ^ 53 := by
    have := rnd_near (x := x.val * 10) (a := x.val * 10) (ε := 0) (B := 100) (by simp) (by rw [abs_le]; constructor <;> linarith) (by norm_num)
    exact this.trans (by norm_num)
  obtain ⟨a1, a2⟩ := abs_le.1 e1
  obtain ⟨b1, b2⟩ := rintK_bounds (rnd53 (x.val * 10))
  rw [← hk] at b1 b2
  have u : (101 : ℚ) / 2 ^ 53 < 1 / 100 := by norm_num
  have hk1 : |(k : ℚ)| ≤ 101 := abs_le.2 ⟨by linarith, by linarith⟩
  have hk2 : |k| ≤ 2 ^ 53 := by
    have : |k| ≤ 101 := by rw [← Int.cast_abs] at hk1; exact_mod_cast hk1
    exact this.trans (by norm_num)
  have hv : (around1 x).val = (Dbl.of ((k : ℚ) / 10)).val := by
    unfold around1
    have e : PyNum.rintZ (x * (10.0 : Dbl)) = k := by
      show rintK (x * (10.0 : Dbl)).val = _
      rw [val_mul, val_ten, hk]
    rw [e, tenth_val hk2]
  have e2 := of_near (a := (k : ℚ) / 10) (B := 11) (by
    rw [abs_div, abs_of_pos (by norm_num : (0 : ℚ) < 10), div_le_iff₀ (by norm_num)]
    linarith)
  obtain ⟨c1, c2⟩ := abs_le.1 (e2.trans (show _ ≤ (1 : ℚ) / 100 by norm_num))
  rw [hv]
  constructor <;> rw [abs_le] <;> constructor <;> linarith

omit [Libm] in
theorem cells_elim {F : Type} [PyMath F] {ev : List (F × F)} {dm dt : F} {c : Cells F} (hc : cells ev dm dt = .ok c) :
    ∃ y0 y1 m0 m1, npMin (ev.map Prod.fst) = .ok y0 ∧ npMax (ev.map Prod.fst) = .ok y1 ∧ npMin ((ev.map fun e => (e.1, around1 e.2)).map Prod.snd) = .ok m0 ∧
      npMax ((ev.map fun e => (e.1, around1 e.2)).map Prod.snd) = .ok m1 ∧
      c = { nt := arangeLen y0 (y1 + (1.5 : F) * dt) dt - 1, timeInt := arangeAt y0 dt, nm := arangeLen m0 (m1 + (1.5 : F) * dm) dm - 1, magInt := arangeAt m0 dm,
            events := ev.map fun e => (e.1, around1 e.2), maxYear := y1 } := by
  unfold cells at hc
  simp only [bind, Except.bind] at hc
  rcases hy0 : npMin (ev.map Prod.fst) with _ | y0 <;> rw [hy0] at hc <;> [cases hc; skip]
  rcases hy1 : npMax (ev.map Prod.fst) with _ | y1 <;> rw [hy1] at hc <;> [cases hc; skip]
  simp only [throw, throwThe, MonadExceptOf.throw, pure, Except.pure] at hc
  by_cases g1 : PyNum.decEq (dt) 0 = true
  · rw [if_pos g1] at hc; cases hc
  rw [if_neg g1] at hc
  rcases hm0 : npMin ((ev.map fun e => (e.1, around1 e.2)).map Prod.snd) with _ | m0 <;> rw [hm0] at hc <;> [cases hc; skip]
  rcases hm1 : npMax ((ev.map fun e => (e.1, around1 e.2)).map Prod.snd) with _ | m1 <;> rw [hm1] at hc <;> [cases hc; skip]
  simp only at hc
  by_cases g2 : PyNum.decEq (dm) 0 = true
  · rw [if_pos g2] at hc; cases hc
  rw [if_neg g2] at hc
  split_ifs at hc with g3
  simp only [Except.ok.injEq] at hc
  subst hc
  exact ⟨y0, y1, m0, m1, rfl, rfl, hm0, hm1, rfl⟩

/-- The prepared bins in double precision. -/
theorem cells_dbl {ev : List (Dbl × Dbl)} (hev : ∀ e ∈ ev, |e.1.val| ≤ 10000 ∧ |e.2.val| ≤ 10) {q r : ℚ} (q0 : 1 / 100 ≤ q) (q1 : q ≤ 1000) (r0 : 1 / 100 ≤ r) (r1 : r ≤ 1000)
    {c : Cells Dbl} (hc : cells ev (Dbl.of q) (Dbl.of r) = .ok c) :
    ((List.range c.nm).map fun i => ((List.range c.nt).map fun a => c.count a i).sum).sum = ev.length ∧
      (∃ e ∈ ev, c.timeInt 0 = e.1) ∧ (∃ e ∈ ev, c.magInt 0 = around1 e.2) ∧ (∀ i j, i ≤ j → (c.timeInt i).val ≤ (c.timeInt j).val) ∧ ∀ i j, i ≤ j → (c.magInt i).val ≤ (c.magInt j).val := by
  obtain ⟨y0, y1, m0, m1, hy0, hy1, hm0, hm1, rfl⟩ := cells_elim hc
  obtain ⟨a1, a2⟩ := npMin_spec hy0
  obtain ⟨b1, b2⟩ := npMax_spec hy1
  obtain ⟨c1, c2⟩ := npMin_spec hm0
  obtain ⟨d1, d2⟩ := npMax_spec hm1
  rw [List.map_map] at c1 d1 c2 d2
  obtain ⟨ea, hea, rfl⟩ := List.mem_map.1 a1
  obtain ⟨eb, heb, rfl⟩ := List.mem_map.1 b1
  obtain ⟨ec, hec, rfl⟩ := List.mem_map.1 c1
  obtain ⟨ed, hed, rfl⟩ := List.mem_map.1 d1
  have hmag : ∀ e ∈ ev, |(around1 e.2).val| ≤ 10000 := fun e he => (around1_dbl (hev e he).2).1.trans (by norm_num)
  refine ⟨?_, ⟨ea, hea, arange_zero _ _⟩, ⟨ec, hec, arange_zero _ _⟩, fun i j hij => arange_mono (step_pos r0 r1).le hij, fun i j hij => arange_mono (step_pos q0 q1).le hij⟩
  simp only [Cells.count, List.countP_map]
  refine grid_sum ev _ _ (fun a e => inBin _ _ a e.1) (fun i e => inBin _ _ i (around1 e.2)) ?_ ?_
  · intro e he
    exact one_bin (hev _ hea).1 (hev _ heb).1 r0 r1 rfl (a2 _ (List.mem_map_of_mem he)) (b2 _ (List.mem_map_of_mem he))
  · intro e he
    exact one_bin (hmag _ hec) (hmag _ hed) q0 q1 rfl (c2 _ (List.mem_map.2 ⟨e, he, rfl⟩)) (d2 _ (List.mem_map.2 ⟨e, he, rfl⟩))

omit [Libm] in
theorem lastIdx_eq_none {n : ℕ} {p : ℕ → Bool} (h : ∀ k, p k = false) : lastIdx n p = none := by
  simp [lastIdx, h]

omit [Libm] in
theorem prep_counts {F : Type} [PyMath F] {ev table : List (F × F)} {dm dt : F} {w : List (WBin F)} (h : weichertPrep ev table dm dt = .ok w) :
    ∃ c, cells ev dm dt = .ok c ∧ w.length = c.nm ∧ w.map WBin.n = (List.range c.nm).map (c.nObs table) := by
  unfold weichertPrep at h
  rcases hc : cells ev dm dt with _ | c <;> simp only [hc, bind, Except.bind] at h <;> [cases h; skip]
  obtain ⟨hl, hg⟩ := mapM_ok h
  rw [List.length_range] at hl
  have hn : w.map WBin.n = (List.range c.nm).map (c.nObs table) := by
    refine List.ext_getElem (by simp [hl]) fun i hi hi' => ?_
    simp only [List.getElem_map, List.getElem_range]
    simp only [List.length_map] at hi
    have := hg i (by simpa [hl] using hi) hi
    rw [List.getElem_range] at this
    rcases ht : c.tPer table i with e | t
    · simp [ht] at this
    simp only [ht, pure, Except.pure, Except.ok.injEq] at this
    rw [← this]
  exact ⟨c, rfl, hl, hn⟩

/-- Without a row that removes anything all cells are counted. -/
theorem obs_all {ev table : List (Dbl × Dbl)} (hev : ∀ e ∈ ev, |e.1.val| ≤ 10000 ∧ |e.2.val| ≤ 10) {q r : ℚ} (q0 : 1 / 100 ≤ q) (q1 : q ≤ 1000) (r0 : 1 / 100 ≤ r) (r1 : r ≤ 1000)
    {c : Cells Dbl} (hc : cells ev (Dbl.of q) (Dbl.of r) = .ok c) (hno : ∀ c ∈ table, (∀ e ∈ ev, c.1 ≤ e.1) ∨ ∀ e ∈ ev, c.2.val + 1 / 10 ≤ e.2.val) (i : ℕ) :
    c.nObs table i = ((List.range c.nt).map fun a => c.count a i).sum := by
  obtain ⟨-, ⟨e1, he1, ht0⟩, ⟨e2, he2, hm0⟩, htm, hmm⟩ := cells_dbl hev q0 q1 r0 r1 hc
  unfold Cells.nObs
  congr 1
  refine List.map_congr_left fun a _ => ?_
  rw [if_neg]
  rw [List.any_eq_true]
  rintro ⟨x, hx, hrem⟩
  unfold Cells.removed at hrem
  rcases hno x hx with hy | hm
  · rw [lastIdx_eq_none (p := fun k => decide (c.timeInt k < x.1))] at hrem
    · simp at hrem
    · intro k
      rw [decide_eq_false_iff_not, lt_def, not_lt]
      refine le_trans ?_ (htm 0 k (Nat.zero_le _))
      rw [ht0]
      exact hy e1 he1
  · rw [lastIdx_eq_none (p := fun k => decide (c.magInt k < x.2))] at hrem
    · split at hrem <;> simp_all
    · intro k
      rw [decide_eq_false_iff_not, lt_def, not_lt]
      refine le_trans ?_ (hmm 0 k (Nat.zero_le _))
      rw [hm0]
      have := (abs_le.1 (around1_dbl (hev e2 he2).2).2).1
      have := hm e2 he2
      linarith

/-- **C173**: in double precision the numbers of earthquakes handed to Weichert add up to at most the number of earthquakes, and to exactly that number if every row of the completeness table
is not later than the earthquakes or has a magnitude that is smaller by a tenth. -/
theorem C173_counts {ev table : List (Dbl × Dbl)} (hev : ∀ e ∈ ev, |e.1.val| ≤ 10000 ∧ |e.2.val| ≤ 10) {q r : ℚ} (q0 : 1 / 100 ≤ q) (q1 : q ≤ 1000) (r0 : 1 / 100 ≤ r) (r1 : r ≤ 1000)
    {w : List (WBin Dbl)} (h : weichertPrep ev table (Dbl.of q) (Dbl.of r) = .ok w) :
    (w.map WBin.n).sum ≤ ev.length ∧
      ((∀ c ∈ table, (∀ e ∈ ev, c.1 ≤ e.1) ∨ ∀ e ∈ ev, c.2.val + 1 / 10 ≤ e.2.val) → (w.map WBin.n).sum = ev.length) := by
  obtain ⟨c, hc, -, hn⟩ := prep_counts h
  obtain ⟨hsum, ⟨e1, he1, ht0⟩, ⟨e2, he2, hm0⟩, htm, hmm⟩ := cells_dbl hev q0 q1 r0 r1 hc
  rw [hn]
  constructor
  · rw [← hsum]
    refine List.sum_le_sum fun i _ => List.sum_le_sum fun a _ => ?_
    split_ifs
    · exact Nat.zero_le _
    · exact le_refl _
  · intro hno
    rw [← hsum]
    congr 1
    refine List.map_congr_left fun i _ => ?_
    exact obs_all hev q0 q1 r0 r1 hc hno i

/-! ### The bins of single earthquakes -/

namespace Spec

/-- An earthquake of the year `e.1` and the magnitude `e.2 / 10`, in double precision. -/
def tenthQuake (e : Dbl × ℤ) : Dbl × Dbl := (e.1, .of (e.2 / 10))

/-- The number of earthquakes with a magnitude from `lo` on and below `hi`. -/
def tenthsBetween (ev : List (Dbl × ℤ)) (lo hi : ℚ) : ℕ := ev.countP fun e => decide (lo ≤ (e.2 : ℚ) / 10 ∧ (e.2 : ℚ) / 10 < hi)

/-- Some magnitude is closer than 0.00000001 to `x`. -/
def NearTenth (ev : List (Dbl × ℤ)) (x : ℚ) : Prop := ∃ e ∈ ev, |(e.2 : ℚ) / 10 - x| < 1 / 10 ^ 8

end Spec

open Spec (tenthQuake tenthsBetween NearTenth)

theorem around1_tenth {k : ℤ} (hk : |k| ≤ 100) : around1 (Dbl.of (k / 10)) = Dbl.of (k / 10) := by
  have hk' : |(k : ℚ)| ≤ 100 := by rw [← Int.cast_abs]; exact_mod_cast hk
  have e1 : |(Dbl.of ((k : ℚ) / 10)).val - k / 10| ≤ 11 / 2 ^ 53 := by
    refine (of_near (B := 10) ?_).trans (by norm_num)
    rw [abs_div, abs_of_pos (by norm_num : (0 : ℚ) < 10), div_le_iff₀ (by norm_num)]
    linarith
  have e2 : |rnd53 ((Dbl.of ((k : ℚ) / 10)).val * 10) - k| ≤ 1 / 10 := by
    refine (rnd_near (ε := 110 / 2 ^ 53) (B := 100) ?_ hk' (by norm_num)).trans (by norm_num)
    rw [show (Dbl.of ((k : ℚ) / 10)).val * 10 - k = 10 * ((Dbl.of ((k : ℚ) / 10)).val - k / 10) by ring, abs_mul, abs_of_pos (by norm_num : (0 : ℚ) < 10)]
    linarith
  obtain ⟨a, b⟩ := abs_le.1 e2
  obtain ⟨c, d⟩ := rintK_bounds (rnd53 ((Dbl.of ((k : ℚ) / 10)).val * 10))
  have e : PyNum.rintZ (Dbl.of ((k : ℚ) / 10) * (10.0 : Dbl)) = k := by
    show rintK (Dbl.of ((k : ℚ) / 10) * (10.0 : Dbl)).val = _
    rw [val_mul, val_ten]
    have u1 : (rintK (rnd53 ((Dbl.of ((k : ℚ) / 10)).val * 10)) : ℚ) < (k + 1 : ℤ) := by push_cast; linarith
    have u2 : ((k - 1 : ℤ) : ℚ) < (rintK (rnd53 ((Dbl.of ((k : ℚ) / 10)).val * 10)) : ℚ) := by push_cast; linarith
    have u1' := Int.cast_lt.1 u1
    have u2' := Int.cast_lt.1 u2
    omega
  unfold around1
  rw [e, tenth_val (hk.trans (by norm_num))]

omit [Libm] in
theorem rows_sum {α : Type} (ev : List α) (nt : ℕ) (P : ℕ → α → Bool) (Q : α → Bool) (hP : ∀ e ∈ ev, ((List.range nt).map fun a => if P a e = true then 1 else 0).sum = 1) :
    ((List.range nt).map fun a => ev.countP fun e => P a e && Q e).sum = ev.countP Q := by
  induction ev with
  | nil => simp
  | cons e ev ih =>
    have h1 := hP e List.mem_cons_self
    simp only [List.countP_cons, List.sum_map_add]
    rw [ih fun e he => hP e (List.mem_cons_of_mem _ he)]
    congr 1
    cases hq : Q e with
    | false => simp
    | true => simpa using h1

/-- **C174, part that holds**: when no row of the completeness table removes anything, a bin counts the earthquakes whose magnitude lies in it, unless there is an earthquake closer than
0.00000001 to one of its ends (other than the lower end of the first bin).  Missing: the other bins, see `C174_fails`. -/
theorem C174_bin_partial {ev : List (Dbl × ℤ)} {table : List (Dbl × Dbl)} (hev : ∀ e ∈ ev, |e.1.val| ≤ 10000 ∧ |e.2| ≤ 100) {q r : ℚ} (q0 : 1 / 100 ≤ q) (q1 : q ≤ 10) (r0 : 1 / 100 ≤ r)
    (r1 : r ≤ 1000) (hno : ∀ c ∈ table, ∀ e ∈ ev, c.1 ≤ e.1) {w : List (WBin Dbl)} (h : weichertPrep (ev.map tenthQuake) table (Dbl.of q) (Dbl.of r) = .ok w) :
    ∃ lo, IsLeast {z | ∃ e ∈ ev, e.2 = z} lo ∧ ∀ i (hi : i < w.length), (i ≠ 0 → ¬ NearTenth ev (lo / 10 + i * q)) → ¬ NearTenth ev (lo / 10 + (i + 1) * q) →
      w[i].n = tenthsBetween ev (lo / 10 + i * q) (lo / 10 + (i + 1) * q) := by
  have hten : ∀ {k : ℤ}, |k| ≤ 100 → |(k : ℚ) / 10| ≤ 10 := by
    intro K hK
    rw [abs_div, abs_of_pos (by norm_num : (0 : ℚ) < 10), div_le_iff₀ (by norm_num), ← Int.cast_abs]
    have : ((|K| : ℤ) : ℚ) ≤ 100 := by exact_mod_cast hK
    linarith
  have hof : ∀ {k : ℤ}, |k| ≤ 100 → |(Dbl.of ((k : ℚ) / 10)).val| ≤ 10 := by
    intro k hk
    obtain ⟨a, b⟩ := abs_le.1 (hten hk)
    have a' := rnd53_mono (show ((-10 : ℤ) : ℚ) ≤ (k : ℚ) / 10 by push_cast; exact a)
    have b' := rnd53_mono (show (k : ℚ) / 10 ≤ ((10 : ℤ) : ℚ) by push_cast; exact b)
    rw [rnd53_int (by norm_num)] at a' b'
    push_cast at a' b'
    exact abs_le.2 ⟨a', b'⟩
  have hmono : ∀ {a b : ℤ}, (Dbl.of ((a : ℚ) / 10)).val ≤ (Dbl.of ((b : ℚ) / 10)).val → |a| ≤ 100 → |b| ≤ 100 → a ≤ b := by
    intro a b hab ha hb
    by_contra hlt
    have hlt : (b : ℚ) + 1 ≤ a := by exact_mod_cast not_le.1 hlt
    have h1 := (abs_le.1 (of_near (hten ha))).1
    have h2 := (abs_le.1 (of_near (hten hb))).2
    linarith [show ((10 : ℚ) + 1) / 2 ^ 53 < 1 / 100 by norm_num]
  have hev' : ∀ e ∈ ev.map tenthQuake, |e.1.val| ≤ 10000 ∧ |e.2.val| ≤ 10 := by
    intro e he
    obtain ⟨e', he', rfl⟩ := List.mem_map.1 he
    exact ⟨(hev e' he').1, hof (hev e' he').2⟩
  obtain ⟨c, hc, hl, hn⟩ := prep_counts h
  have hobs := obs_all (table := table) hev' q0 (by linarith) r0 r1 hc (fun c hc => Or.inl fun e he => by
    obtain ⟨e', he', rfl⟩ := List.mem_map.1 he
    exact hno c hc e' he')
  obtain ⟨y0, y1, m0, m1, hy0, hy1, hm0, hm1, rfl⟩ := cells_elim hc
  have hround : (ev.map tenthQuake).map (fun e => (e.1, around1 e.2)) = ev.map tenthQuake := by
    rw [List.map_map]
    refine List.map_congr_left fun e he => ?_
    simp only [Function.comp_apply, tenthQuake]
    rw [around1_tenth (hev e he).2]
  rw [hround] at hm0 hm1
  obtain ⟨a1, a2⟩ := npMin_spec hy0
  obtain ⟨b1, b2⟩ := npMax_spec hy1
  obtain ⟨c1, c2⟩ := npMin_spec hm0
  obtain ⟨d1, d2⟩ := npMax_spec hm1
  rw [List.map_map] at a1 b1 c1 d1 a2 b2 c2 d2
  obtain ⟨ea, hea, rfl⟩ := List.mem_map.1 a1
  obtain ⟨eb, heb, rfl⟩ := List.mem_map.1 b1
  obtain ⟨ec, hec, rfl⟩ := List.mem_map.1 c1
  obtain ⟨ed, hed, rfl⟩ := List.mem_map.1 d1
  refine ⟨ec.2, ⟨⟨ec, hec, rfl⟩, ?_⟩, ?_⟩
  · rintro z ⟨e, he, rfl⟩
    exact hmono (c2 _ (List.mem_map.2 ⟨e, he, rfl⟩)) (hev _ hec).2 (hev _ he).2
  intro i hi hn0 hn1
  have hi' : i < (w.map WBin.n).length := by simpa using hi
  have e0 : w[i].n = (w.map WBin.n)[i] := by simp
  rw [e0]
  simp only [hn, List.getElem_map, List.getElem_range]
  rw [hobs]
  simp only [Cells.count, hround]
  simp only at hl
  rw [← hl]
  simp only [List.countP_map]
  have hrow := rows_sum ev (arangeLen ea.1 (eb.1 + (1.5 : Dbl) * Dbl.of r) (Dbl.of r) - 1) (fun a e => inBin (arangeAt ea.1 (Dbl.of r)) (arangeLen ea.1 (eb.1 + (1.5 : Dbl) * Dbl.of r) (Dbl.of r) - 1) a e.1)
    (fun e => inBin (arangeAt (Dbl.of ((ec.2 : ℚ) / 10)) (Dbl.of q)) w.length i (Dbl.of ((e.2 : ℚ) / 10))) (by
      intro e he
      exact one_bin (hev _ hea).1 (hev _ heb).1 r0 r1 rfl (a2 _ (List.mem_map.2 ⟨e, he, rfl⟩)) (b2 _ (List.mem_map.2 ⟨e, he, rfl⟩)))
  refine Eq.trans hrow ?_
  refine List.countP_congr fun e he => ?_
  have hq : 0 < q := by linarith
  have hK100 := (hev _ hec).2
  have hmax : (w.length : ℚ) * q ≤ 100 := by
    have hb : ∀ {k : ℤ}, |k| ≤ 100 → |(Dbl.of ((k : ℚ) / 10)).val| ≤ 10000 := fun hk => (hof hk).trans (by norm_num)
    have := (last_edge (hb (hev _ hec).2) (hb (hev _ hed).2) (c2 _ (List.mem_map.2 ⟨ed, hed, rfl⟩)) q0 (by linarith) rfl).2.2
    rw [hl]
    refine this.trans ?_
    have h1 := (abs_le.1 (hof (hev _ hec).2)).1
    have h2 := (abs_le.1 (hof (hev _ hed).2)).2
    linarith
  have hiq : ((i + 1 : ℕ) : ℚ) * q ≤ 100 := by
    have : ((i + 1 : ℕ) : ℚ) ≤ w.length := by exact_mod_cast hi
    nlinarith
  have hiq' : (i : ℚ) * q ≤ 100 := by push_cast at hiq; linarith
  have b0 := abs_le.1 (arange_near hK100 (by linarith) q1 hiq')
  have b1 := abs_le.1 (arange_near hK100 (by linarith) q1 hiq)
  have b2 := abs_le.1 ((of_near (hten (hev e he).2)).trans (show _ ≤ (1 : ℚ) / 10 ^ 9 by norm_num))
  push_cast at b1
  have n1 : 1 / 10 ^ 8 ≤ |(e.2 : ℚ) / 10 - (ec.2 / 10 + (i + 1) * q)| := not_lt.1 fun h => hn1 ⟨e, he, h⟩
  have lower : (arangeAt (Dbl.of (ec.2 / 10)) (Dbl.of q) i).val ≤ (Dbl.of ((e.2 : ℚ) / 10)).val ↔ (ec.2 : ℚ) / 10 + i * q ≤ e.2 / 10 := by
    by_cases h0 : i = 0
    · subst h0
      have h := c2 _ (List.mem_map.2 ⟨e, he, rfl⟩)
      have h' : (ec.2 : ℚ) ≤ e.2 := by exact_mod_cast hmono h (hev _ hec).2 (hev _ he).2
      rw [arange_zero]
      exact iff_of_true h (by push_cast; linarith)
    · have n0 : 1 / 10 ^ 8 ≤ |(e.2 : ℚ) / 10 - (ec.2 / 10 + i * q)| := not_lt.1 fun h => hn0 h0 ⟨e, he, h⟩
      rcases le_abs.1 n0 with h | h
      · exact iff_of_true (by linarith) (by linarith)
      · exact iff_of_false (by intro h'; linarith) (by intro h'; linarith)
  have upper : ((Dbl.of ((e.2 : ℚ) / 10)).val < (arangeAt (Dbl.of (ec.2 / 10)) (Dbl.of q) (i + 1)).val ↔ (e.2 : ℚ) / 10 < ec.2 / 10 + (i + 1) * q) ∧
      ((Dbl.of ((e.2 : ℚ) / 10)).val ≤ (arangeAt (Dbl.of (ec.2 / 10)) (Dbl.of q) (i + 1)).val ↔ (e.2 : ℚ) / 10 < ec.2 / 10 + (i + 1) * q) := by
    rcases le_abs.1 n1 with h | h
    · exact ⟨iff_of_false (by intro h'; linarith) (by intro h'; linarith), iff_of_false (by intro h'; linarith) (by intro h'; linarith)⟩
    · exact ⟨iff_of_true (by linarith) (by linarith), iff_of_true (by linarith) (by linarith)⟩
  unfold inBin
  simp only [Bool.and_eq_true, decide_eq_true_eq, le_def, lower]
  split_ifs
  · simp only [decide_eq_true_eq, upper.2]
  · simp only [decide_eq_true_eq, lt_def, upper.1]

omit [Libm] in
/-- The preparation does not depend on the functions of the C library. -/
theorem prep_libm (L L' : Libm) (ev table : List (Dbl × Dbl)) (dm dt : Dbl) : @weichertPrep Dbl (@instPyMathDbl L) ev table dm dt = @weichertPrep Dbl (@instPyMathDbl L') ev table dm dt := rfl

omit [Libm] in
theorem prep_noLibm [L : Libm] {α : Type} {f : List (WBin Dbl) → α} {ev table : List (Dbl × Dbl)} {dm dt : Dbl} {v : α}
    (h : (@weichertPrep Dbl (@instPyMathDbl noLibm) ev table dm dt).map f = .ok v) : ∃ w, weichertPrep ev table dm dt = .ok w ∧ f w = v := by
  rw [prep_libm noLibm L] at h
  rcases hb : weichertPrep ev table dm dt with _ | b <;> rw [hb] at h
  · cases h
  · simp only [Except.map, Except.ok.injEq] at h
    exact ⟨b, rfl, h⟩

/-- **C174 is false**: with the magnitudes 3.0 and 3.3 and bins of 0.1 the earthquake of magnitude 3.3 is counted in the bin from 3.2 to 3.3. -/
theorem C174_fails : ¬ ∀ (ev : List (Dbl × ℤ)) (table : List (Dbl × Dbl)) (q r : ℚ) (w : List (WBin Dbl)) (lo : ℤ), (∀ e ∈ ev, |e.1.val| ≤ 10000 ∧ |e.2| ≤ 100) → 1 / 100 ≤ q → q ≤ 10 → 1 / 100 ≤ r →
    r ≤ 1000 → (∀ c ∈ table, ∀ e ∈ ev, c.1 ≤ e.1) → weichertPrep (ev.map tenthQuake) table (Dbl.of q) (Dbl.of r) = .ok w → IsLeast {z | ∃ e ∈ ev, e.2 = z} lo →
      ∀ i (hi : i < w.length), w[i].n = tenthsBetween ev (lo / 10 + i * q) (lo / 10 + (i + 1) * q) := by
  intro H
  obtain ⟨w, hw, hn⟩ := prep_noLibm (ev := [((2000.0 : Dbl), (30 : ℤ)), (2000.0, 33)].map tenthQuake) (table := [((1990.0 : Dbl), (3.0 : Dbl))]) (dm := Dbl.of (1 / 10)) (dt := Dbl.of 1)
    (f := List.map WBin.n) (v := [1, 0, 1, 0]) (by decide +kernel)
  have hl : w.length = 4 := by simpa using congrArg List.length hn
  have h2 : w[2].n = 1 := by
    have : (w.map WBin.n)[2]? = some 1 := by rw [hn]; rfl
    simpa [List.getElem?_map, List.getElem?_eq_getElem (show 2 < w.length by omega)] using this
  have hy : |(2000.0 : Dbl).val| ≤ 10000 := by decide +kernel
  have hle : (1990.0 : Dbl) ≤ (2000.0 : Dbl) := by decide +kernel
  have := H _ _ _ _ w 30 ?_ (by norm_num) (by norm_num) (by norm_num) (by norm_num) ?_ hw ⟨⟨_, List.mem_cons_self, rfl⟩, ?_⟩ 2 (by omega)
  · rw [h2] at this
    norm_num [tenthsBetween] at this
  · intro e he
    simp only [List.mem_cons, List.not_mem_nil, or_false] at he
    rcases he with rfl | rfl <;> exact ⟨hy, by norm_num⟩
  · intro c hc e he
    simp only [List.mem_cons, List.not_mem_nil, or_false] at he hc
    subst hc
    rcases he with rfl | rfl <;> exact hle
  · rintro z ⟨e, he, rfl⟩
    simp only [List.mem_cons, List.not_mem_nil, or_false] at he
    rcases he with rfl | rfl <;> norm_num

/-- **C174** (consequence): a complete earthquake is lost.  The completeness table says that magnitudes from 3.3 on are complete for all years, those below since 1990; the earthquake of 1985 with
magnitude 3.3 is counted in exact arithmetic and is removed with the bin from 3.2 to 3.3 in double precision. -/
theorem C174_complete_lost : (∃ w, weichertPrep ([((1985.0 : Dbl), (33 : ℤ)), (2000.0, 30)].map tenthQuake) [((1990.0 : Dbl), Dbl.of (33 / 10))] (Dbl.of (1 / 10)) (Dbl.of 1) = .ok w ∧ (w.map WBin.n).sum = 1) ∧
    ∃ w, weichertPrep [((1985 : ℝ), (3.3 : ℝ)), (2000, 3)] [(1990, 3.3)] 0.1 1 = .ok w ∧ (w.map WBin.n).sum = 2 := by
  constructor
  · obtain ⟨w, hw, hn⟩ := prep_noLibm (ev := [((1985.0 : Dbl), (33 : ℤ)), (2000.0, 30)].map tenthQuake) (table := [((1990.0 : Dbl), Dbl.of (33 / 10))]) (dm := Dbl.of (1 / 10)) (dt := Dbl.of 1)
      (f := fun w => (w.map WBin.n).sum) (v := 1) (by decide +kernel)
    exact ⟨w, hw, hn⟩
  · obtain ⟨w, hw⟩ := weichertPrep_succeeds (ev := [((1985 : ℝ), (3.3 : ℝ)), (2000, 3)]) (table := [(1990, 3.3)]) (dm := 0.1) (dt := 1) (by simp) (by simp) (by norm_num) (by norm_num)
    refine ⟨w, hw, ?_⟩
    obtain ⟨y0, m0, hy0, hm0, -, -, -, hiff⟩ := C60_counts (by simp) (by norm_num) (by norm_num) hw
    have e1 : Spec.mag1 (3.3 : ℝ) = 3.3 := by
      simp only [Spec.mag1, rintK]
      norm_num
    have e2 : Spec.mag1 (3 : ℝ) = 3 := by
      simp only [Spec.mag1, rintK]
      norm_num
    obtain rfl : y0 = 1985 := by
      refine hy0.unique ⟨⟨_, List.mem_cons_self, rfl⟩, ?_⟩
      rintro z ⟨e, he, rfl⟩
      simp only [List.mem_cons, List.not_mem_nil, or_false] at he
      rcases he with rfl | rfl <;> norm_num
    obtain rfl : m0 = 3 := by
      refine hm0.unique ⟨⟨_, List.mem_cons_of_mem _ List.mem_cons_self, e2⟩, ?_⟩
      rintro z ⟨e, he, rfl⟩
      simp only [List.mem_cons, List.not_mem_nil, or_false] at he
      rcases he with rfl | rfl
      · rw [e1]; norm_num
      · rw [e2]
    refine (hiff.2 ?_).trans rfl
    intro e he r hr
    simp only [List.mem_cons, List.not_mem_nil, or_false] at he hr
    subst hr
    rcases he with rfl | rfl
    · rintro ⟨-, h⟩
      simp only [e1, cellStart, cellIdx] at h
      norm_num at h
    · rintro ⟨h, -⟩
      simp only [cellStart, cellIdx] at h
      norm_num at h

/-- Non-vacuity of C173: nothing is removed by the table (1980, 3.0). -/
example : ∃ w, weichertPrep ([((1985.0 : Dbl), (33 : ℤ)), (2000.0, 30)].map tenthQuake) [((1980.0 : Dbl), (3.0 : Dbl))] (Dbl.of (1 / 10)) (Dbl.of 1) = .ok w ∧ (w.map WBin.n).sum = 2 := by
  obtain ⟨w, hw, -⟩ := prep_noLibm (ev := [((1985.0 : Dbl), (33 : ℤ)), (2000.0, 30)].map tenthQuake) (table := [((1980.0 : Dbl), (3.0 : Dbl))]) (dm := Dbl.of (1 / 10)) (dt := Dbl.of 1)
    (f := fun w => w.length) (v := 4) (by decide +kernel)
  refine ⟨w, hw, (C173_counts (ev := [((1985.0 : Dbl), (33 : ℤ)), (2000.0, 30)].map tenthQuake) (by decide +kernel) (by norm_num) (by norm_num) (by norm_num) (by norm_num) hw).2 ?_⟩
  intro c hc
  left
  simp only [List.mem_cons, List.not_mem_nil, or_false] at hc
  subst hc
  decide +kernel

/-- Non-vacuity of C174: bins of 0.4 from 3.0, with an earthquake of 3.5. -/
example : ∃ w, weichertPrep ([((1985.0 : Dbl), (35 : ℤ)), (2000.0, 30)].map tenthQuake) [((1980.0 : Dbl), (3.0 : Dbl))] (Dbl.of (2 / 5)) (Dbl.of 1) = .ok w ∧ ∃ h : 1 < w.length, w[1].n = 1 := by
  obtain ⟨w, hw, hl⟩ := prep_noLibm (ev := [((1985.0 : Dbl), (35 : ℤ)), (2000.0, 30)].map tenthQuake) (table := [((1980.0 : Dbl), (3.0 : Dbl))]) (dm := Dbl.of (2 / 5)) (dt := Dbl.of 1)
    (f := fun w => w.length) (v := 2) (by decide +kernel)
  obtain ⟨lo, hlo, h⟩ := C174_bin_partial (ev := [((1985.0 : Dbl), (35 : ℤ)), (2000.0, 30)]) (by decide +kernel) (by norm_num) (by norm_num) (by norm_num) (by norm_num) (by decide +kernel) hw
  obtain rfl : lo = 30 := by
    refine hlo.unique ⟨⟨_, List.mem_cons_of_mem _ List.mem_cons_self, rfl⟩, ?_⟩
    rintro z ⟨e, he, rfl⟩
    simp only [List.mem_cons, List.not_mem_nil, or_false] at he
    rcases he with rfl | rfl <;> norm_num
  refine ⟨w, hw, by omega, ?_⟩
  rw [h 1 (by omega) ?_ ?_]
  · norm_num [tenthsBetween]
  · rintro - ⟨e, he, h⟩
    simp only [List.mem_cons, List.not_mem_nil, or_false] at he
    rcases he with rfl | rfl <;> norm_num [abs_lt] at h
  · rintro ⟨e, he, h⟩
    simp only [List.mem_cons, List.not_mem_nil, or_false] at he
    rcases he with rfl | rfl <;> norm_num [abs_lt] at h

end

end Verif.Recurrence
