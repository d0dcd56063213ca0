import Verif.Lemmas.Double
import Verif.Model.Fault

/-!
# C166, C167: the weights of a tectonic region in double precision
-/

namespace Verif.Fault

open Verif Verif.Dbl

namespace Spec

/-- Weights as they are written: not negative, adding up to one. -/
def AddUp (w : List ℚ) : Prop := (∀ x ∈ w, 0 ≤ x) ∧ w.sum = 1

/-- The numbers, in double precision. -/
def inDouble (w : List ℚ) : List Dbl := w.map Dbl.of

/-- One or two weights, or weights that are binary fractions (halves, quarters, ...). -/
def FewOrBinary (w : List ℚ) : Prop := w.length ≤ 2 ∨ ∀ x ∈ w, ∃ n : ℤ, x = n / 2 ^ 53

/-- The numbers that the weights belong to are all right. -/
def GoodValues (models : List String) (sv dv : List Dbl) : Prop := (∀ m ∈ models, m = "Peer" ∨ m = "WC1994") ∧ (∀ v ∈ sv, (0 : Dbl) < v) ∧ (∀ v ∈ dv, (0 : Dbl) < v)

end Spec

open Spec

/-! ### Rounding of numbers up to one -/

theorem rnd_half {p : ℚ} (h0 : 1 / 2 ≤ p) (h1 : p ≤ 1) : (∃ k : ℤ, rnd53 p = k / 2 ^ 53 ∧ 0 ≤ k ∧ k ≤ 2 ^ 53) ∧ |rnd53 p - p| ≤ 1 / 2 ^ 54 := by
  rcases h1.eq_or_lt with rfl | h1
  · have : rnd53 1 = 1 := by simpa using rnd53_int (n := 1) (by norm_num)
    rw [this]
    exact ⟨⟨2 ^ 53, by norm_num, by norm_num, le_rfl⟩, by norm_num⟩
  have hp : p ≠ 0 := by linarith
  have habs : |p| = p := abs_of_nonneg (by linarith)
  have hi : ilog2 p = -1 := by
    have a : ilog2 p < 0 := (ilog2_lt hp).2 (by rw [habs]; exact h1)
    have b : ¬ ilog2 p < -1 := by
      rw [ilog2_lt hp, habs, show pow2 (-1) = 1 / 2 from by rw [pow2_eq]; norm_num]
      linarith
    omega
  have hr : rnd53 p = (rintK (p * 2 ^ 53) : ℚ) / 2 ^ 53 := by
    conv_lhs => unfold rnd53
    rw [if_neg hp, hi, show pow2 (-1 - 52) = 1 / 2 ^ 53 from by rw [pow2_eq]; norm_num]
    rw [div_div_eq_mul_div, div_one]
    ring
  obtain ⟨b1, b2⟩ := Format.rintK_bounds (p * 2 ^ 53)
  constructor
  · refine ⟨_, hr, ?_, ?_⟩
    · have := Format.rintK_mono (x := ((0 : ℤ) : ℚ)) (y := p * 2 ^ 53) (by simp; linarith)
      rwa [Format.rintK_int] at this
    · have := Format.rintK_mono (x := p * 2 ^ 53) (y := ((2 ^ 53 : ℤ) : ℚ)) (by push_cast; linarith)
      rwa [Format.rintK_int] at this
  · rw [hr, abs_le]
    constructor <;> linarith

theorem rnd_grid {n : ℤ} (h : |n| ≤ 2 ^ 53) (k : ℕ) : rnd53 ((n : ℚ) / 2 ^ k) = (n : ℚ) / 2 ^ k := by
  have := rnd53_repr h (-(k : ℤ))
  rwa [pow2_eq, zpow_neg, zpow_natCast, ← div_eq_mul_inv] at this

theorem rnd_one_near {s : ℚ} (h0 : 1 - 1 / 2 ^ 54 ≤ s) (h1 : s ≤ 1 + 1 / 2 ^ 54) : rnd53 s = 1 := by
  have a : rnd53 (1 - 1 / 2 ^ 54) = 1 := by decide +kernel
  have b : rnd53 (1 + 1 / 2 ^ 54) = 1 := by decide +kernel
  exact le_antisymm (b ▸ rnd53_mono h1) (a ▸ rnd53_mono h0)

/-- Two weights that add up to one add up to one after rounding. -/
theorem two_weights {p : ℚ} (h0 : 0 ≤ p) (h1 : p ≤ 1) : rnd53 (rnd53 p + rnd53 (1 - p)) = 1 := by
  have key : ∀ {p : ℚ}, 1 / 2 ≤ p → p ≤ 1 → rnd53 (rnd53 p + rnd53 (1 - p)) = 1 := by
    intro p h0 h1
    obtain ⟨⟨k, hk, k0, k1⟩, he⟩ := rnd_half h0 h1
    obtain ⟨e1, e2⟩ := abs_le.1 he
    have hpk : (2 : ℤ) ^ 52 ≤ k := by
      have : (2 : ℚ) ^ 52 ≤ k := by
        have := rnd53_mono h0
        rw [show rnd53 (1 / 2) = 1 / 2 from by decide +kernel, hk, le_div_iff₀ (by norm_num)] at this
        linarith
      exact_mod_cast this
    have g : ∀ d : ℤ, |2 * (2 ^ 53 - k) + d| ≤ 2 ^ 53 → rnd53 (1 - rnd53 p + d / 2 ^ 54) = 1 - rnd53 p + d / 2 ^ 54 := by
      intro d hb
      have e : 1 - rnd53 p + d / 2 ^ 54 = ((2 * (2 ^ 53 - k) + d : ℤ) : ℚ) / 2 ^ 54 := by
        rw [hk]; push_cast; ring
      rw [e, rnd_grid hb]
    have l := rnd53_mono (x := 1 - rnd53 p + ((-1 : ℤ) : ℚ) / 2 ^ 54) (y := 1 - p) (by push_cast; linarith)
    rw [g _ (abs_le.2 ⟨by omega, by omega⟩)] at l
    push_cast at l
    have u : rnd53 (1 - p) ≤ 1 - rnd53 p + 1 / 2 ^ 54 := by
      rcases hpk.eq_or_lt with hk' | hk'
      · have u := rnd53_mono (x := 1 - p) (y := 1 / 2) (by linarith)
        rw [show rnd53 (1 / 2) = 1 / 2 from by decide +kernel] at u
        rw [hk, ← hk']
        push_cast
        refine u.trans (by norm_num)
      · have u := rnd53_mono (x := 1 - p) (y := 1 - rnd53 p + ((1 : ℤ) : ℚ) / 2 ^ 54) (by push_cast; linarith)
        rw [g _ (abs_le.2 ⟨by omega, by omega⟩)] at u
        push_cast at u
        exact u
    exact rnd_one_near (by linarith) (by linarith)
  rcases le_total (1 / 2) p with h | h
  · exact key h h1
  · have := key (p := 1 - p) (by linarith) (by linarith)
    rwa [sub_sub_cancel, add_comm] at this

/-! ### Sums -/

theorem foldl_binary {l : List Dbl} : ∀ {a : Dbl} {n : ℤ}, a.val = n / 2 ^ 53 → 0 ≤ n → (∀ x ∈ l, ∃ m : ℤ, x.val = m / 2 ^ 53 ∧ 0 ≤ m) → a.val + (l.map Dbl.val).sum ≤ 1 →
    (l.foldl (· + ·) a).val = a.val + (l.map Dbl.val).sum := by
  induction l with
  | nil => intro a n _ _ _ _; simp
  | cons x l ih =>
    intro a n ha hn hl hs
    obtain ⟨m, hm, m0⟩ := hl x List.mem_cons_self
    have hs' : 0 ≤ (l.map Dbl.val).sum := by
      refine List.sum_nonneg fun y hy => ?_
      obtain ⟨z, hz, rfl⟩ := List.mem_map.1 hy
      obtain ⟨j, hj, j0⟩ := hl z (List.mem_cons_of_mem _ hz)
      rw [hj]; positivity
    rw [List.map_cons, List.sum_cons] at hs ⊢
    have hx : (a + x).val = a.val + x.val := by
      rw [val_add, ha, hm, ← add_div]
      have := rnd_grid (n := n + m) (k := 53) (by
        rw [abs_of_nonneg (by omega)]
        have : (n : ℚ) / 2 ^ 53 + m / 2 ^ 53 ≤ 1 := by rw [← ha, ← hm]; linarith
        rw [← add_div, div_le_one (by norm_num)] at this
        exact_mod_cast this)
      exact_mod_cast this
    rw [List.foldl_cons, ih (n := n + m) (by rw [hx, ha, hm]; push_cast; ring) (by omega) (fun y hy => hl y (List.mem_cons_of_mem _ hy)) (by rw [hx]; linarith), hx]
    ring

theorem foldl_near {l : List Dbl} : ∀ {a : Dbl}, 0 ≤ a.val → (∀ x ∈ l, 0 ≤ x.val) →
    a.val ≤ (l.foldl (· + ·) a).val ∧ |(l.foldl (· + ·) a).val - (a.val + (l.map Dbl.val).sum)| ≤ l.length * ((l.foldl (· + ·) a).val / 2 ^ 52) := by
  induction l with
  | nil => intro a _ _; simp
  | cons x l ih =>
    intro a ha hl
    have hx := hl x List.mem_cons_self
    have hax : a.val ≤ (a + x).val := by
      rw [val_add]
      conv_lhs => rw [← a.ok]
      exact rnd53_mono (by linarith)
    obtain ⟨h1, h2⟩ := ih (a := a + x) (ha.trans hax) (fun y hy => hl y (List.mem_cons_of_mem _ hy))
    rw [List.foldl_cons, List.map_cons, List.sum_cons, List.length_cons]
    refine ⟨hax.trans h1, ?_⟩
    set R := (l.foldl (· + ·) (a + x)).val
    have he := rnd53_error (a.val + x.val)
    rw [← val_add, abs_of_nonneg (show 0 ≤ a.val + x.val by linarith)] at he
    obtain ⟨e1, e2⟩ := abs_le.1 he
    have ht : (a.val + x.val) / 2 ^ 53 ≤ R / 2 ^ 52 := by
      have : a.val + x.val ≤ 2 * R := by
        have : (a.val + x.val) / 2 ^ 53 ≤ (a.val + x.val) / 2 := div_le_div_of_nonneg_left (by linarith) (by norm_num) (by norm_num)
        linarith
      rw [div_le_div_iff₀ (by norm_num) (by norm_num)]
      linarith
    obtain ⟨f1, f2⟩ := abs_le.1 h2
    push_cast
    rw [abs_le]
    constructor <;> linarith

theorem one_val : ((1.0 : Dbl)).val = 1 := by
  show rnd53 (1.0 : ℚ) = 1
  rw [show (1.0 : ℚ) = ((1 : ℤ) : ℚ) by norm_num, rnd53_int (by norm_num)]
  norm_num

/-- When a region is constructed. -/
theorem region_iff {F : Type} [PyMath F] (id : String) (models : List String) (mw sv sw dv dw : List F) (o1 o2 o3 : Bool) :
    (∃ r, mkRegion id ⟨some models, some mw, o1⟩ ⟨some sv, some sw, o2⟩ ⟨some dv, some dw, o3⟩ = .ok r) ↔
      (models.length = mw.length ∧ sv.length = sw.length ∧ dv.length = dw.length) ∧ (∀ m ∈ models, m = "Peer" ∨ m = "WC1994") ∧ (∀ v ∈ sv, ((0 : ℕ) : F) < v) ∧
        (∀ v ∈ dv, ((0 : ℕ) : F) < v) ∧ ∀ w ∈ [mw, sw, dw], ∃ a, reduceSum w = .ok a ∧ PyNum.decEq a (1.0 : F) = true := by
  have e1 : (models.all fun m => decide (m ∈ supportedMsr)) = decide (∀ m ∈ models, m = "Peer" ∨ m = "WC1994") := by
    rw [Bool.eq_iff_iff]; simp [supportedMsr]
  have e2 : ∀ v : List F, (v.all fun v => decide (((0 : ℕ) : F) < v)) = decide (∀ x ∈ v, ((0 : ℕ) : F) < x) := by
    intro v; rw [Bool.eq_iff_iff]; simp
  have e3 : ∀ b : Bool, ensure b = if b = true then .ok () else .error .valueError := by intro b; cases b <;> rfl
  simp only [mkRegion, checkLen, WDict.getVals, WDict.getWeight, bind, Except.bind, checkWeights, e1, e2, e3, decide_eq_true_eq, pure, Except.pure]
  constructor
  · rintro ⟨r, h⟩
    split_ifs at h with a1 a2 a3 a4 a5 a6
    refine ⟨⟨a1, a2, a3⟩, a4, a5, a6, ?_⟩
    rcases hA : reduceSum mw with _ | a <;> rw [hA] at h <;> [cases h; skip]
    rcases hB : reduceSum sw with _ | b <;> rw [hB] at h <;> [cases h; skip]
    rcases hC : reduceSum dw with _ | c <;> rw [hC] at h <;> [cases h; skip]
    simp only at h
    split_ifs at h with b1 b2 b3
    intro w hw
    simp only [List.mem_cons, List.not_mem_nil, or_false] at hw
    rcases hw with rfl | rfl | rfl
    exacts [⟨a, hA, b1⟩, ⟨b, hB, b2⟩, ⟨c, hC, b3⟩]
  · rintro ⟨⟨a1, a2, a3⟩, a4, a5, a6, h⟩
    obtain ⟨a, hA, b1⟩ := h mw (by simp)
    obtain ⟨b, hB, b2⟩ := h sw (by simp)
    obtain ⟨c, hC, b3⟩ := h dw (by simp)
    simp [a1, a2, a3, if_pos a4, if_pos a5, if_pos a6, hA, hB, hC, b1, b2, b3]

theorem three_weights : (Dbl.of 0.7 + Dbl.of 0.2 + Dbl.of 0.1).val ≠ 1 := by decide +kernel

variable [Libm]

/-- **C166, what holds**: three lists of weights, each with one or two weights or with binary fractions only, that add up to one as written are accepted in double precision.
Missing: other lists of three and more weights (`C166_fails`). -/
theorem C166_accepted_partial (id : String) (models : List String) (mw sw dw : List ℚ) (sv dv : List Dbl) (o1 o2 o3 : Bool) (hlen : models.length = mw.length ∧ sv.length = sw.length ∧ dv.length = dw.length)
    (hv : GoodValues models sv dv) (hw : ∀ w ∈ [mw, sw, dw], AddUp w ∧ FewOrBinary w) :
    ∃ r, mkRegion id ⟨some models, some (inDouble mw), o1⟩ ⟨some sv, some (inDouble sw), o2⟩ ⟨some dv, some (inDouble dw), o3⟩ = .ok r := by
  have key : ∀ w : List ℚ, AddUp w ∧ FewOrBinary w → ∃ a, reduceSum (inDouble w) = .ok a ∧ PyNum.decEq a (1.0 : Dbl) = true := by
    rintro w ⟨⟨h0, h1⟩, hw⟩
    cases w with
    | nil => simp at h1
    | cons x w =>
      refine ⟨_, rfl, ?_⟩
      rw [decEq_def, one_val, decide_eq_true_eq]
      by_cases hl : (x :: w).length ≤ 2
      · match w, hl with
        | [], _ =>
          simp only [List.sum_cons, List.sum_nil, add_zero] at h1
          subst h1
          show rnd53 1 = 1
          simpa using rnd53_int (n := 1) (by norm_num)
        | [y], _ =>
          simp only [List.sum_cons, List.sum_nil, add_zero] at h1
          have hx := h0 x (by simp)
          have hy := h0 y (by simp)
          obtain rfl : y = 1 - x := by linarith
          exact two_weights hx (by linarith)
      · have hw := hw.resolve_left hl
        have hex : ∀ y ∈ x :: w, ∃ n : ℤ, (Dbl.of y).val = n / 2 ^ 53 ∧ 0 ≤ n ∧ (Dbl.of y).val = y := by
          intro y hy
          obtain ⟨n, rfl⟩ := hw y hy
          have y0 := h0 _ hy
          have y1 : ((n : ℚ) / 2 ^ 53) ≤ 1 := h1 ▸ List.single_le_sum h0 _ hy
          have n0 : 0 ≤ n := by
            rw [le_div_iff₀ (by norm_num), zero_mul] at y0
            exact_mod_cast y0
          have n1 : n ≤ 2 ^ 53 := by
            rw [div_le_one (by norm_num)] at y1
            exact_mod_cast y1
          have := rnd_grid (n := n) (k := 53) (by rw [abs_of_nonneg n0]; exact n1)
          exact ⟨n, this, n0, this⟩
        obtain ⟨n, hn, n0, hx⟩ := hex x List.mem_cons_self
        have hsum : ((inDouble w).map Dbl.val).sum = w.sum := by
          rw [inDouble, List.map_map]
          congr 1
          conv_rhs => rw [← List.map_id w]
          refine List.map_congr_left fun y hy => ?_
          obtain ⟨_, _, _, h⟩ := hex y (List.mem_cons_of_mem _ hy)
          exact h
        rw [List.sum_cons] at h1
        show ((inDouble w).foldl (· + ·) (Dbl.of x)).val = 1
        rw [foldl_binary hn n0 ?_ (by rw [hsum, hx, h1]), hsum, hx, h1]
        intro y hy
        obtain ⟨z, hz, rfl⟩ := List.mem_map.1 hy
        obtain ⟨m, hm, m0, _⟩ := hex z (List.mem_cons_of_mem _ hz)
        exact ⟨m, hm, m0⟩
  refine (region_iff ..).2 ⟨by simpa [inDouble] using hlen, hv.1, hv.2.1, hv.2.2, ?_⟩
  intro w hmem
  simp only [List.mem_cons, List.not_mem_nil, or_false] at hmem
  rcases hmem with rfl | rfl | rfl <;> exact key _ (hw _ (by simp))

/-- **C166 is false**: the weights 0.7, 0.2 and 0.1 are refused. -/
theorem C166_fails : ¬ ∀ (id : String) (models : List String) (mw sw dw : List ℚ) (sv dv : List Dbl) (o1 o2 o3 : Bool), models.length = mw.length ∧ sv.length = sw.length ∧ dv.length = dw.length →
    GoodValues models sv dv → (∀ w ∈ [mw, sw, dw], AddUp w) →
    ∃ r, mkRegion id ⟨some models, some (inDouble mw), o1⟩ ⟨some sv, some (inDouble sw), o2⟩ ⟨some dv, some (inDouble dw), o3⟩ = .ok r := by
  intro H
  have h := H "001" ["WC1994"] [1] [0.7, 0.2, 0.1] [1] [29.0, 30.0, 31.0] [1.25e-5] false false false ⟨rfl, rfl, rfl⟩ ⟨by decide, by decide +kernel, by decide +kernel⟩ (by
    intro w hw
    simp only [List.mem_cons, List.not_mem_nil, or_false] at hw
    rcases hw with rfl | rfl | rfl
    · norm_num [AddUp]
    · constructor
      · intro x hx
        simp only [List.mem_cons, List.not_mem_nil, or_false] at hx
        rcases hx with rfl | rfl | rfl <;> norm_num
      · norm_num
    · norm_num [AddUp])
  obtain ⟨a, ha, h1⟩ := ((region_iff ..).1 h).2.2.2.2 (inDouble [0.7, 0.2, 0.1]) (by simp)
  simp only [inDouble, List.map_cons, List.map_nil, reduceSum, Except.ok.injEq] at ha
  subst ha
  rw [decEq_def, one_val, decide_eq_true_eq] at h1
  exact three_weights h1

/-- **C167**: if a region with weights that are not negative is accepted, the weights of each list add up to one, up to 2^-52 for each weight but the first. -/
theorem C167_sum_near_one {id : String} {models : List String} {mw sv sw dv dw : List Dbl} {o1 o2 o3 : Bool} {r : Region Dbl}
    (h : mkRegion id ⟨some models, some mw, o1⟩ ⟨some sv, some sw, o2⟩ ⟨some dv, some dw, o3⟩ = .ok r) :
    ∀ w ∈ [mw, sw, dw], (∀ x ∈ w, 0 ≤ x.val) → |(w.map Dbl.val).sum - 1| ≤ (w.length - 1) / 2 ^ 52 := by
  intro w hw hpos
  obtain ⟨a, ha, h1⟩ := ((region_iff ..).1 ⟨r, h⟩).2.2.2.2 w hw
  rw [decEq_def, one_val, decide_eq_true_eq] at h1
  cases w with
  | nil => simp [reduceSum] at ha
  | cons x w =>
    simp only [reduceSum, Except.ok.injEq] at ha
    have := (foldl_near (a := x) (l := w) (hpos x List.mem_cons_self) (fun y hy => hpos y (List.mem_cons_of_mem _ hy))).2
    rw [ha, h1] at this
    rw [List.map_cons, List.sum_cons, abs_sub_comm, List.length_cons]
    refine this.trans (le_of_eq ?_)
    push_cast; ring

/-- Non-vacuity: two weights, and four quarters. -/
example : ∃ r : Region Dbl, mkRegion "001" ⟨some ["WC1994", "Peer"], some (inDouble [0.9, 0.1]), false⟩ ⟨some [29.0, 30.0, 31.0, 32.0], some (inDouble [0.25, 0.25, 0.25, 0.25]), false⟩
    ⟨some [1.25e-5], some (inDouble [1]), false⟩ = .ok r := by
  refine C166_accepted_partial "001" ["WC1994", "Peer"] [0.9, 0.1] [0.25, 0.25, 0.25, 0.25] [1] _ _ _ _ _ ⟨rfl, rfl, rfl⟩ ⟨by decide, by decide +kernel, by decide +kernel⟩ ?_
  intro w hw
  simp only [List.mem_cons, List.not_mem_nil, or_false] at hw
  rcases hw with rfl | rfl | rfl
  · refine ⟨⟨?_, by norm_num⟩, .inl le_rfl⟩
    intro x hx
    simp only [List.mem_cons, List.not_mem_nil, or_false] at hx
    rcases hx with rfl | rfl <;> norm_num
  · refine ⟨⟨?_, by norm_num⟩, .inr ?_⟩ <;> intro x hx <;> simp only [List.mem_cons, List.not_mem_nil, or_false, or_self] at hx <;> subst hx
    · norm_num
    · exact ⟨2 ^ 51, by norm_num⟩
  · exact ⟨by norm_num [AddUp], .inl (by simp)⟩

/-- Non-vacuity of C167: the weights 0.9 and 0.1, which are accepted, do not add up to one exactly. -/
example {r : Region Dbl} (h : mkRegion "001" ⟨some ["WC1994", "Peer"], some [Dbl.of 0.9, Dbl.of 0.1], false⟩ ⟨some [29.0], some [Dbl.of 1], false⟩ ⟨some [1.25e-5], some [Dbl.of 1], false⟩ = .ok r) :
    |(([Dbl.of 0.9, Dbl.of 0.1] : List Dbl).map Dbl.val).sum - 1| ≤ 1 / 2 ^ 52 ∧ (([Dbl.of 0.9, Dbl.of 0.1] : List Dbl).map Dbl.val).sum ≠ 1 := by
  refine ⟨?_, by decide +kernel⟩
  have := C167_sum_near_one h [Dbl.of 0.9, Dbl.of 0.1] (by simp) (by decide +kernel)
  norm_num at this ⊢
  exact this

end Verif.Fault
