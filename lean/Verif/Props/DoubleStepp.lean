import Verif.Lemmas.DoubleArange
import Verif.Lemmas.Completeness

/-!
# C170, C171, C172: Stepp's analysis in double precision
-/

namespace Verif.Completeness

open Verif Verif.Np Verif.Dbl Verif.Format

namespace Spec

/-- An earthquake of the year `e.1` and the magnitude `e.2 / 100`, in double precision. -/
def quake (e : Dbl × ℤ) : Dbl × Dbl := (e.1, .of (e.2 / 100))

/-- `lo / 10` is the smallest magnitude rounded down, `hi / 10` the largest magnitude rounded up to one decimal. -/
structure Tenths (ev : List (Dbl × ℤ)) (lo hi : ℤ) : Prop where
  low : IsLeast {z | ∃ e ∈ ev, e.2 / 10 = z} lo
  high : IsGreatest {z | ∃ e ∈ ev, -(-e.2 / 10) = z} hi

/-- The number of bins of width `q` that it takes to get from `lo / 10` to `hi / 10`. -/
def bins (lo hi : ℤ) (q : ℚ) : ℕ := ⌈((hi : ℚ) / 10 - lo / 10) / q⌉.toNat

/-- The range is (up to a millionth of a bin) a whole number of bins. -/
def Even (lo hi : ℤ) (q : ℚ) : Prop := ∃ z : ℤ, |((hi : ℚ) / 10 - lo / 10) / q - z| ≤ 1 / 10 ^ 6

end Spec

open Spec (quake)

/-- The magnitude in hundredths, as `np.around` finds it. -/
def cents (x : Dbl) : ℤ := rintK (rnd53 (100 * x.val))

theorem hundred_val : ((100.0 : Dbl)).val = 100 := by
  show rnd53 (100.0 : ℚ) = 100
  have := rnd53_int (n := 100) (by norm_num)
  rw [show (100.0 : ℚ) = ((100 : ℤ) : ℚ) by norm_num, this]
  norm_num

theorem cents_le {x : Dbl} (h : |x.val| ≤ 10) : |cents x| ≤ 1000 := by
  obtain ⟨h1, h2⟩ := abs_le.1 h
  have key : ∀ n : ℤ, |n| ≤ 1000 → rnd53 n = n := fun n hn => rnd53_int (hn.trans (by norm_num))
  have a := rnd53_mono (show ((-1000 : ℤ) : ℚ) ≤ 100 * x.val by push_cast; linarith)
  have b := rnd53_mono (show 100 * x.val ≤ ((1000 : ℤ) : ℚ) by push_cast; linarith)
  rw [key _ (by norm_num)] at a b
  have a' := rintK_mono a
  have b' := rintK_mono b
  rw [rintK_int] at a' b'
  exact abs_le.2 ⟨a', b'⟩

theorem cents_two {k : ℤ} (hk : |k| ≤ 1000) : cents (Dbl.of (k / 100)) = k := by
  have hk' : |(k : ℚ)| ≤ 1000 := by rw [← Int.cast_abs]; exact_mod_cast hk
  have e1 : |(Dbl.of ((k : ℚ) / 100)).val - k / 100| ≤ 11 / 2 ^ 53 := by
    refine (of_near (B := 10) ?_).trans (by norm_num)
    rw [abs_div, abs_of_pos (by norm_num : (0 : ℚ) < 100), div_le_iff₀ (by norm_num)]
    linarith
  have e2 : |rnd53 (100 * (Dbl.of ((k : ℚ) / 100)).val) - k| ≤ 1 / 10 := by
    refine (rnd_near (ε := 1100 / 2 ^ 53) (B := 1000) ?_ hk' (by norm_num)).trans (by norm_num)
    rw [show 100 * (Dbl.of ((k : ℚ) / 100)).val - k = 100 * ((Dbl.of ((k : ℚ) / 100)).val - k / 100) by ring, abs_mul, abs_of_pos (by norm_num : (0 : ℚ) < 100)]
    linarith
  obtain ⟨a, b⟩ := abs_le.1 e2
  obtain ⟨c, d⟩ := rintK_bounds (rnd53 (100 * (Dbl.of ((k : ℚ) / 100)).val))
  unfold cents
  have u1 : (rintK (rnd53 (100 * (Dbl.of ((k : ℚ) / 100)).val)) : ℚ) < (k + 1 : ℤ) := by push_cast; linarith
  have u2 : ((k - 1 : ℤ) : ℚ) < (rintK (rnd53 (100 * (Dbl.of ((k : ℚ) / 100)).val)) : ℚ) := by push_cast; linarith
  have u1' := Int.cast_lt.1 u1
  have u2' := Int.cast_lt.1 u2
  omega

section
variable [Libm]

theorem around2_cents {x : Dbl} (h : |cents x| ≤ 1000) : around2 x = Dbl.of (cents x / 100) := by
  apply Dbl.ext
  unfold around2
  have e : PyNum.rintZ ((100.0 : Dbl) * x) = cents x := by
    show rintK ((100.0 : Dbl) * x).val = _
    rw [val_mul, hundred_val]; rfl
  rw [e, val_div, val_int_exact (h.trans (by norm_num)), hundred_val, val_of]

/-- The bins, with the edges in double precision. -/
theorem steppBins_dbl {ev : List (Dbl × Dbl)} {dm dt : Dbl} {b : SteppBins Dbl} (h : ∀ e ∈ ev, |cents e.2| ≤ 1000) (hb : steppBins ev dm dt = .ok b) :
    ∃ K U, IsLeast {z | ∃ e ∈ ev, cents e.2 / 10 = z} K ∧ IsGreatest {z | ∃ e ∈ ev, -(-cents e.2 / 10) = z} U ∧ |K| ≤ 100 ∧ |U| ≤ 100 ∧ K ≤ U ∧
      b.mbin = arangeAt (Dbl.of (K / 10)) dm ∧ b.nb = arangeLen (Dbl.of (K / 10)) (Dbl.of (U / 10) + dm) dm - 1 ∧
      ∀ ii jj, b.obs ii jj = ev.countP fun e => decide (e.1 ≥ b.endTime - b.timeRange ii) && (if jj + 1 = b.nb then decide (Dbl.of (cents e.2 / 100) ≥ b.mbin jj) else
        decide (Dbl.of (cents e.2 / 100) ≥ b.mbin jj) && decide (Dbl.of (cents e.2 / 100) < b.mbin (jj + 1))) := by
  have hmw : ev.map (fun e => (e.1, around2 e.2)) = ev.map fun e => (e.1, Dbl.of (cents e.2 / 100)) :=
    List.map_congr_left fun e he => by rw [around2_cents (h e he)]
  unfold steppBins at hb
  simp only [hmw, bind, Except.bind] at hb
  set mw := (ev.map fun e => (e.1, Dbl.of (cents e.2 / 100))).map Prod.snd with hmwd
  rcases hmin : npMin mw with _ | m <;> rw [hmin] at hb <;> [cases hb; skip]
  rcases hmax : npMax mw with _ | M <;> rw [hmax] at hb <;> [cases hb; skip]
  simp only [throw, throwThe, MonadExceptOf.throw, pure, Except.pure] at hb
  by_cases g1 : PyNum.decEq dm 0 = true
  · rw [if_pos g1] at hb; cases hb
  rw [if_neg g1] at hb
  rcases hy1 : npMax ((ev.map fun e => (e.1, Dbl.of (cents e.2 / 100))).map Prod.fst) with _ | y1 <;> rw [hy1] at hb <;> [cases hb; skip]
  rcases hy0 : npMin ((ev.map fun e => (e.1, Dbl.of (cents e.2 / 100))).map Prod.fst) with _ | y0 <;> rw [hy0] at hb <;> [cases hb; skip]
  simp only at hb
  by_cases g2 : PyNum.decEq dt 0 = true
  · rw [if_pos g2] at hb; cases hb
  rw [if_neg g2] at hb
  split_ifs at hb with g3
  obtain ⟨hm, hml⟩ := npMin_spec hmin
  obtain ⟨hM, hMl⟩ := npMax_spec hmax
  have hmem : ∀ x, x ∈ mw ↔ ∃ e ∈ ev, Dbl.of (cents e.2 / 100) = x := by
    intro x
    simp [hmwd]
  obtain ⟨e0, he0, rfl⟩ := (hmem m).1 hm
  obtain ⟨e1, he1, rfl⟩ := (hmem M).1 hM
  have mono : ∀ {x y : Dbl}, x.val ≤ y.val → ((10.0 : Dbl) * x).val ≤ ((10.0 : Dbl) * y).val := by
    intro x y hxy
    rw [val_mul, val_mul, val_ten]
    exact rnd53_mono (by linarith)
  have tenth : ∀ e ∈ ev, |cents e.2 / 10| ≤ 100 ∧ |-(-cents e.2 / 10)| ≤ 100 := by
    intro e he
    have h := abs_le.1 (h e he)
    constructor <;> rw [abs_le] <;> constructor <;> omega
  have hfl := (tenths (h e0 he0)).1
  have hce := (tenths (h e1 he1)).2
  rw [hfl, hce, tenth_val ((tenth e0 he0).1.trans (by norm_num)), tenth_val ((tenth e1 he1).2.trans (by norm_num))] at hb
  simp only [Except.ok.injEq] at hb
  subst hb
  refine ⟨_, _, ⟨⟨e0, he0, rfl⟩, ?_⟩, ⟨⟨e1, he1, rfl⟩, ?_⟩, (tenth e0 he0).1, (tenth e1 he1).2, ?_, rfl, rfl, ?_⟩
  · rintro z ⟨e, he, rfl⟩
    have := Int.floor_le_floor (mono (hml _ ((hmem _).2 ⟨e, he, rfl⟩)))
    rw [← floorZ_def, ← floorZ_def, (tenths (h e he)).1, hfl] at this
    exact this
  · rintro z ⟨e, he, rfl⟩
    have := Int.ceil_le_ceil (mono (hMl _ ((hmem _).2 ⟨e, he, rfl⟩)))
    rw [← ceilZ_def, ← ceilZ_def, (tenths (h e he)).2, hce] at this
    exact this
  · have := Int.floor_le_floor (mono (hml _ ((hmem _).2 ⟨e1, he1, rfl⟩)))
    rw [← floorZ_def, ← floorZ_def, (tenths (h e1 he1)).1, hfl] at this
    omega
  · intro ii jj
    simp only [steppCount, List.countP_map]
    rfl

omit [Libm] in
theorem stepp_length {F : Type} [PyMath F] {ev : List (F × F)} {dm dt ttol : F} {iloc : Bool} {table : List (F × F)} (h : stepp ev dm dt ttol iloc = .ok table) :
    ∃ b, steppBins ev dm dt = .ok b ∧ table.length = b.nb ∧ ∀ i (hi : i < table.length), table[i].2 = b.mbin i := by
  rcases hb : steppBins ev dm dt with _ | b
  · simp only [stepp, hb, bind, Except.bind] at h
    cases h
  refine ⟨b, rfl, ?_⟩
  rw [stepp_eq hb] at h
  simp only at h
  split_ifs at h
  simp only [Except.ok.injEq] at h
  subst h
  refine ⟨by simp [steppTlocs_length], fun i hi => ?_⟩
  simp

end

/-- How many edges there are. -/
theorem edges_number {K U : ℤ} (hK : |K| ≤ 100) (hU : |U| ≤ 100) (hKU : K ≤ U) {q : ℚ} (q0 : 1 / 1000 ≤ q) (q1 : q ≤ 10) :
    ∃ X : ℚ, arangeLen (Dbl.of (K / 10)) (Dbl.of (U / 10) + Dbl.of q) (Dbl.of q) = ⌈X⌉.toNat ∧ |X - (((U : ℚ) / 10 - K / 10) / q + 1)| ≤ 1 / 10 ^ 6 := by
  have hten : ∀ {K : ℤ}, |K| ≤ 100 → |(K : ℚ) / 10| ≤ 10 := by
    intro K hK
    rw [abs_div, abs_of_pos (by norm_num : (0 : ℚ) < 10), div_le_iff₀ (by norm_num), ← Int.cast_abs]
    have : ((|K| : ℤ) : ℚ) ≤ 100 := by exact_mod_cast hK
    linarith
  have hq : |q| ≤ 10 := abs_le.2 ⟨by linarith, q1⟩
  have eL := of_near (hten hK)
  have eU := of_near (hten hU)
  have eD := of_near hq
  obtain ⟨k1, k2⟩ := abs_le.1 (hten hK)
  obtain ⟨u1, u2⟩ := abs_le.1 (hten hU)
  have hKU' : (K : ℚ) ≤ U := by exact_mod_cast hKU
  have eS : |(Dbl.of ((U : ℚ) / 10) + Dbl.of q).val - (U / 10 + q)| ≤ 1 / 10 ^ 11 := by
    rw [val_add]
    refine (rnd_near (ε := 22 / 2 ^ 53) (B := 20) ?_ ?_ (by norm_num)).trans (by norm_num)
    · rw [show (Dbl.of ((U : ℚ) / 10)).val + (Dbl.of q).val - (U / 10 + q) = ((Dbl.of ((U : ℚ) / 10)).val - U / 10) + ((Dbl.of q).val - q) by ring]
      exact (abs_add_le _ _).trans ((add_le_add eU eD).trans (by norm_num))
    · rw [abs_le]; constructor <;> linarith
  obtain ⟨X, h1, h2⟩ := arangeLen_near (q := q) (eL.trans (by norm_num)) eS (by linarith) (by linarith) q0
  refine ⟨X, h1, ?_⟩
  rwa [show ((U : ℚ) / 10 + q - K / 10) / q = ((U : ℚ) / 10 - K / 10) / q + 1 by field_simp; ring] at h2

/-- The events of a window and their bins: each in one. -/
theorem bins_sum {α : Type} (ev : List α) (p : α → Bool) (x : α → Dbl) (edge : ℕ → Dbl) (n : ℕ) (hmono : ∀ i j, i ≤ j → (edge i).val ≤ (edge j).val)
    (h0 : ∀ e ∈ ev, (edge 0).val ≤ (x e).val) :
    ∑ jj ∈ Finset.range (n + 1), ev.countP (fun e => p e && (if jj + 1 = n + 1 then decide (x e ≥ edge jj) else decide (x e ≥ edge jj) && decide (x e < edge (jj + 1)))) = ev.countP p := by
  induction ev with
  | nil => simp
  | cons e ev ih =>
    simp only [List.countP_cons, Finset.sum_add_distrib]
    rw [ih fun e he => h0 e (List.mem_cons_of_mem _ he)]
    congr 1
    have he0 := h0 e List.mem_cons_self
    cases hp : p e with
    | false => simp
    | true =>
      simp only [Bool.true_and, if_true]
      clear ih h0
      induction n with
      | zero =>
        rw [Finset.sum_range_one]
        simp [le_def, he0]
      | succ n ih =>
        rw [Finset.sum_range_succ]
        by_cases hx : (edge (n + 1)).val ≤ (x e).val
        · rw [Finset.sum_eq_zero]
          · simp [le_def, hx]
          · intro j hj
            have hj : j ≤ n := by have := Finset.mem_range.1 hj; omega
            have := hmono (j + 1) (n + 1) (by omega)
            simp only [show ¬ (j + 1 = n + 1 + 1) by omega, if_false, lt_def, ge_iff_le, le_def, Bool.and_eq_true, decide_eq_true_eq]
            rw [if_neg]
            rintro ⟨-, h⟩
            linarith
        · refine Eq.trans ?_ ih
          simp only [if_true, ge_iff_le, le_def, hx, decide_false, Bool.false_eq_true, if_false, add_zero]
          refine Finset.sum_congr rfl fun j hj => ?_
          have hj : j ≤ n := by have := Finset.mem_range.1 hj; omega
          simp only [show ¬ (j + 1 = n + 1 + 1) by omega, if_false]
          by_cases hjn : j = n
          · subst hjn
            simp [lt_def, not_le.1 hx]
          · simp [hjn]

section
variable [Libm]

/-- **C170, what holds**: in double precision the table has a row for every bin it takes to get from the smallest to the largest magnitude, or one more; it has exactly one for every bin
unless the magnitude range is a whole number of bins.  The magnitudes of the rows are those of exact arithmetic up to 0.000000001, the first one exactly. -/
theorem C170_rows_partial {ev : List (Dbl × ℤ)} (hk : ∀ e ∈ ev, |e.2| ≤ 1000) {q : ℚ} (q0 : 1 / 1000 ≤ q) (q1 : q ≤ 10) {dt ttol : Dbl} {iloc : Bool}
    {table : List (Dbl × Dbl)} (h : stepp (ev.map quake) (Dbl.of q) dt ttol iloc = .ok table) :
    ∃ lo hi, Spec.Tenths ev lo hi ∧ (∀ n : ℕ, (hi : ℚ) / 10 - lo / 10 = n * q → table.length = n ∨ table.length = n + 1) ∧
      (¬ Spec.Even lo hi q → table.length = Spec.bins lo hi q) ∧
      (∀ i (hi : i < table.length), |(table[i].2).val - ((lo : ℚ) / 10 + i * q)| ≤ 1 / 10 ^ 9) ∧ ∀ hi : 0 < table.length, table[0].2 = Dbl.of ((lo : ℚ) / 10) := by
  obtain ⟨b, hb, hl, hm⟩ := stepp_length h
  have hc : ∀ e ∈ ev, cents (quake e).2 = e.2 := fun e he => cents_two (hk e he)
  obtain ⟨K, U, hK, hU, hK100, hU100, hKU, hmb, hnb, -⟩ := steppBins_dbl (by
    intro e he
    obtain ⟨e', he', rfl⟩ := List.mem_map.1 he
    rw [hc e' he']; exact hk e' he') hb
  have hset : ∀ f : ℤ → ℤ, {z | ∃ e ∈ ev.map quake, f (cents e.2) = z} = {z | ∃ e ∈ ev, f e.2 = z} := by
    intro f
    ext z
    simp only [Set.mem_ofPred_eq, List.mem_map, exists_exists_and_eq_and]
    constructor
    · rintro ⟨e, he, h⟩; exact ⟨e, he, by rw [← h, hc e he]⟩
    · rintro ⟨e, he, h⟩; exact ⟨e, he, by rw [hc e he, h]⟩
  rw [hset (fun k => k / 10)] at hK
  rw [hset (fun k => -(-k / 10))] at hU
  obtain ⟨X, hX, he⟩ := edges_number hK100 hU100 hKU q0 q1
  rw [hX] at hnb
  rw [← hl] at hnb
  have hq0 : 0 < q := by linarith
  have hKU' : (K : ℚ) ≤ U := by exact_mod_cast hKU
  obtain ⟨r, hr⟩ : ∃ r, r = ((U : ℚ) / 10 - K / 10) / q := ⟨_, rfl⟩
  have hr0 : 0 ≤ r := by rw [hr]; exact div_nonneg (by linarith) hq0.le
  rw [← hr] at he
  obtain ⟨x1, x2⟩ := abs_le.1 he
  have c1 := Int.le_ceil X
  have c2 := Int.ceil_lt_add_one X
  have hX0 : (0 : ℤ) < ⌈X⌉ := Int.ceil_pos.2 (by linarith [show (1 : ℚ) / 10 ^ 6 < 1 by norm_num])
  refine ⟨K, U, ⟨hK, hU⟩, ?_, ?_, ?_, ?_⟩
  · intro n hn
    have hnq : r = n := by rw [hr, hn]; field_simp
    rw [hnq] at x1 x2
    have k1 : (n : ℤ) < ⌈X⌉ := by
      have : ((n : ℤ) : ℚ) < ⌈X⌉ := by push_cast; linarith
      exact_mod_cast this
    have k2 : ⌈X⌉ < (n : ℤ) + 3 := by
      have : (⌈X⌉ : ℚ) < ((n : ℤ) + 3 : ℤ) := by push_cast; linarith
      exact_mod_cast this
    omega
  · intro hne
    have hc : ⌈X⌉ = ⌈r⌉ + 1 := by
      rw [Int.ceil_eq_iff]
      have d1 := Int.le_ceil r
      have d2 := Int.ceil_lt_add_one r
      have f1 : 1 / 10 ^ 6 < |r - (⌈r⌉ : ℤ)| := by
        by_contra hcon
        exact hne ⟨_, hr ▸ not_lt.1 hcon⟩
      have f2 : 1 / 10 ^ 6 < |r - ((⌈r⌉ - 1 : ℤ) : ℚ)| := by
        by_contra hcon
        refine hne ⟨⌈r⌉ - 1, ?_⟩
        rw [← hr]
        exact not_lt.1 hcon
      rw [abs_of_nonpos (by linarith)] at f1
      push_cast at f2 ⊢
      rw [abs_of_nonneg (by linarith)] at f2
      constructor <;> linarith
    have := Int.ceil_nonneg hr0
    unfold Spec.bins
    rw [← hr]
    omega
  · intro i hi
    rw [hm i hi, hmb]
    refine arange_near hK100 q0 q1 ?_
    have h1 : (i : ℚ) ≤ X := by
      have : ((i : ℤ) : ℚ) + 1 ≤ ⌈X⌉ - 1 := by
        have : (i : ℤ) + 1 ≤ ⌈X⌉ - 1 := by omega
        exact_mod_cast this
      push_cast at this
      linarith
    have h2 : (i : ℚ) ≤ r + 2 := by linarith [show (1 : ℚ) / 10 ^ 6 < 1 by norm_num]
    have h3 : r * q = (U : ℚ) / 10 - K / 10 := by rw [hr]; field_simp
    have a1 : (U : ℚ) ≤ 100 := by exact_mod_cast (abs_le.1 hU100).2
    have a2 : (-100 : ℚ) ≤ K := by exact_mod_cast (abs_le.1 hK100).1
    calc (i : ℚ) * q ≤ (r + 2) * q := mul_le_mul_of_nonneg_right h2 hq0.le
      _ = r * q + 2 * q := by ring
      _ ≤ 100 := by rw [h3]; linarith
  · intro hi
    rw [hm 0 hi, hmb, arange_zero]

/-- **C171**: in double precision every earthquake of a time window is counted in exactly one magnitude bin, for all magnitudes between -10 and 10 and all positive bin widths. -/
theorem C171_counts {ev : List (Dbl × Dbl)} {dm dt : Dbl} {b : SteppBins Dbl} (hk : ∀ e ∈ ev, |e.2.val| ≤ 10) (hdm : 0 < dm) (hb : steppBins ev dm dt = .ok b) (hnb : 0 < b.nb) (ii : ℕ) :
    ∑ jj ∈ Finset.range b.nb, b.obs ii jj = ev.countP fun e => decide (b.endTime - b.timeRange ii ≤ e.1) := by
  obtain ⟨K, U, hK, -, -, -, -, hmb, -, hobs⟩ := steppBins_dbl (fun e he => cents_le (hk e he)) hb
  obtain ⟨n, hn⟩ : ∃ n, b.nb = n + 1 := ⟨b.nb - 1, by omega⟩
  simp only [hobs, hn]
  refine bins_sum ev _ (fun e => Dbl.of (cents e.2 / 100)) b.mbin n ?_ ?_
  · intro i j hij
    rw [hmb]
    refine arange_mono ?_ hij
    rw [lt_def, val_zero] at hdm
    exact hdm.le
  · intro e he
    rw [hmb, arange_zero]
    refine rnd53_mono ?_
    have := hK.2 ⟨e, he, rfl⟩
    have h : 10 * K ≤ cents e.2 := by omega
    have h' : 10 * (K : ℚ) ≤ cents e.2 := by exact_mod_cast h
    linarith

omit [Libm] in
/-- The bins do not depend on the functions of the C library. -/
theorem steppBins_libm (L L' : Libm) (ev : List (Dbl × Dbl)) (dm dt : Dbl) : @steppBins Dbl (@instPyMathDbl L) ev dm dt = @steppBins Dbl (@instPyMathDbl L') ev dm dt := rfl

omit [Libm] in
theorem steppBins_noLibm [L : Libm] {α : Type} {f : SteppBins Dbl → α} {ev : List (Dbl × Dbl)} {dm dt : Dbl} {v : α} (h : (@steppBins Dbl (@instPyMathDbl noLibm) ev dm dt).map f = .ok v) :
    ∃ b, steppBins ev dm dt = .ok b ∧ f b = v := by
  rw [steppBins_libm noLibm L] at h
  rcases hb : steppBins ev dm dt with _ | b <;> rw [hb] at h
  · cases h
  · simp only [Except.map, Except.ok.injEq] at h
    exact ⟨b, rfl, h⟩

/-- With few time steps the table is complete since the first duration before the end. -/
theorem stepp_short {ev : List (Dbl × Dbl)} {dm dt ttol : Dbl} {iloc : Bool} {b : SteppBins Dbl} (hb : steppBins ev dm dt = .ok b) (h0 : 0 < b.nt) (h3 : b.nt ≤ 3) :
    ∃ table, stepp ev dm dt ttol iloc = .ok table ∧ ∀ i (hi : i < table.length), table[i] = (b.endTime - b.timeRange 0, b.mbin i) := by
  rw [stepp_eq hb]
  simp only
  have hz := tlocs_lt (b := b) (iloc := iloc) (ttol := ttol)
  rw [if_pos fun t ht => by have := hz t ht; omega]
  refine ⟨_, rfl, fun i hi => ?_⟩
  rw [List.getElem_zipWith, List.getElem_range]
  have := hz _ (List.getElem_mem (by simp only [List.length_zipWith] at hi; omega : i < _))
  rw [show (steppTlocs iloc b.nt none _)[i]'_ = 0 by omega]

/-- **C170 is false**: for the magnitudes 3.0 and 3.1 and bins of 0.1 there are two rows for one bin. -/
theorem C170_fails : ¬ ∀ (ev : List (Dbl × ℤ)) (q : ℚ) (dt ttol : Dbl) (iloc : Bool) (table : List (Dbl × Dbl)) (lo hi : ℤ), (∀ e ∈ ev, |e.2| ≤ 1000) → 1 / 1000 ≤ q → q ≤ 10 →
    stepp (ev.map quake) (Dbl.of q) dt ttol iloc = .ok table → Spec.Tenths ev lo hi → table.length = Spec.bins lo hi q := by
  intro H
  obtain ⟨b, hb, hn⟩ := steppBins_noLibm (ev := [((2000.0 : Dbl), (300 : ℤ)), (2000.0, 310)].map quake) (dm := Dbl.of (1 / 10)) (dt := 1.0) (f := fun b => (b.nb, b.nt)) (v := (2, 1)) (by decide +kernel)
  simp only [Prod.mk.injEq] at hn
  obtain ⟨table, ht, -⟩ := stepp_short (ttol := 0.2) (iloc := true) hb (by omega) (by omega)
  obtain ⟨b', hb', hl, -⟩ := stepp_length ht
  obtain rfl : b = b' := by rw [hb] at hb'; exact Except.ok.inj hb'
  have := H _ _ _ _ _ table 30 31 ?_ (by norm_num) (by norm_num) ht ⟨⟨⟨_, List.mem_cons_self, by norm_num⟩, ?_⟩, ⟨⟨_, List.mem_cons_of_mem _ List.mem_cons_self, by norm_num⟩, ?_⟩⟩
  · rw [hl, hn.1] at this
    norm_num [Spec.bins] at this
  · intro e he
    simp only [List.mem_cons, List.not_mem_nil, or_false] at he
    rcases he with rfl | rfl <;> norm_num
  · rintro z ⟨e, he, rfl⟩
    simp only [List.mem_cons, List.not_mem_nil, or_false] at he
    rcases he with rfl | rfl <;> norm_num
  · rintro z ⟨e, he, rfl⟩
    simp only [List.mem_cons, List.not_mem_nil, or_false] at he
    rcases he with rfl | rfl <;> norm_num

/-- **C172, what holds**: with the table of Stepp computed in double precision an earthquake is removed exactly if it was removed before or there is a row of a later year and a larger magnitude,
the magnitudes of the rows taken as in exact arithmetic, unless its magnitude is closer than 0.00000001 to the one of a row. -/
theorem C172_flag_partial {ev : List (Dbl × ℤ)} (hk : ∀ e ∈ ev, |e.2| ≤ 1000) {q : ℚ} (q0 : 1 / 1000 ≤ q) (q1 : q ≤ 10) {dt ttol : Dbl} {iloc : Bool}
    {table : List (Dbl × Dbl)} (h : stepp (ev.map quake) (Dbl.of q) dt ttol iloc = .ok table) {flag : List Int} (hf : flag.length = ev.length) :
    ∃ lo hi out, Spec.Tenths ev lo hi ∧ selectedEqFlagVector (ev.map quake) table flag = .ok out ∧ out.length = ev.length ∧
      ∀ i (hi : i < ev.length) (ho : i < out.length), (∀ j, j < table.length → 1 / 10 ^ 8 < |(ev[i].2 : ℚ) / 100 - (lo / 10 + j * q)|) →
        (out[i] = 1 ↔ flag[i] ≠ 0 ∨ ∃ j, ∃ hj : j < table.length, ev[i].1 < table[j].1 ∧ (ev[i].2 : ℚ) / 100 < lo / 10 + j * q) := by
  obtain ⟨lo, hi, hT, -, -, hrow, -⟩ := C170_rows_partial hk q0 q1 h
  obtain ⟨out, hout, hlen, hget⟩ := selected_get (ev.map quake) table flag (by simpa using hf)
  refine ⟨lo, hi, out, hT, hout, by simpa using hlen, fun i hi ho hfar => ?_⟩
  rw [(hget i (by simpa using hi) ho).2]
  refine or_congr_right ?_
  have e1 := of_near (a := (ev[i].2 : ℚ) / 100) (B := 10) (by
    rw [abs_div, abs_of_pos (by norm_num : (0 : ℚ) < 100), div_le_iff₀ (by norm_num), ← Int.cast_abs]
    exact_mod_cast hk _ (List.getElem_mem hi))
  obtain ⟨a1, a2⟩ := abs_le.1 (e1.trans (show _ ≤ (1 : ℚ) / 10 ^ 9 by norm_num))
  have key : ∀ j (hj : j < table.length), (Dbl.of ((ev[i].2 : ℚ) / 100) < table[j].2 ↔ (ev[i].2 : ℚ) / 100 < lo / 10 + j * q) := by
    intro j hj
    obtain ⟨b1, b2⟩ := abs_le.1 (hrow j hj)
    rw [lt_def]
    rcases lt_abs.1 (hfar j hj) with h | h
    · exact iff_of_false (by intro h'; linarith) (by intro h'; linarith)
    · exact iff_of_true (by linarith) (by linarith)
  constructor
  · rintro ⟨c, hc, h1, h2⟩
    obtain ⟨j, hj, rfl⟩ := List.getElem_of_mem hc
    simp only [List.getElem_map, quake] at h1 h2
    exact ⟨j, hj, h1, (key j hj).1 h2⟩
  · rintro ⟨j, hj, h1, h2⟩
    refine ⟨_, List.getElem_mem hj, ?_, ?_⟩ <;> simp only [List.getElem_map, quake]
    · exact h1
    · exact (key j hj).2 h2

/-- **C172 is false**: the row for magnitude 3.3 has the magnitude 3.3000000000000003 if the smallest magnitude is 3.0, so that it removes an earthquake of magnitude 3.3. -/
theorem C172_fails : ¬ ∀ (ev : List (Dbl × ℤ)) (q : ℚ) (dt ttol : Dbl) (iloc : Bool) (table : List (Dbl × Dbl)) (lo hi : ℤ) (flag out : List Int), (∀ e ∈ ev, |e.2| ≤ 1000) → 1 / 1000 ≤ q → q ≤ 10 →
    stepp (ev.map quake) (Dbl.of q) dt ttol iloc = .ok table → Spec.Tenths ev lo hi → flag.length = ev.length → selectedEqFlagVector (ev.map quake) table flag = .ok out →
      ∀ i (hi : i < ev.length) (hf : i < flag.length) (ho : i < out.length), out[i] = 1 → flag[i] ≠ 0 ∨ ∃ j, ∃ hj : j < table.length, ev[i].1 < table[j].1 ∧ (ev[i].2 : ℚ) / 100 < lo / 10 + j * q := by
  intro H
  obtain ⟨b, hb, hn⟩ := steppBins_noLibm (ev := [((1985.0 : Dbl), (330 : ℤ)), (1985.0, 300), (2000.0, 340)].map quake) (dm := Dbl.of (1 / 10)) (dt := 10.0)
    (f := fun b => ((b.nb, b.nt), decide ((1985.0 : Dbl) < b.endTime - b.timeRange 0), decide (Dbl.of (330 / 100) < b.mbin 3))) (v := ((4, 1), true, true)) (by decide +kernel)
  simp only [Prod.mk.injEq, decide_eq_true_eq] at hn
  obtain ⟨table, ht, hrow⟩ := stepp_short (ttol := 0.2) (iloc := true) hb (by omega) (by omega)
  obtain ⟨b', hb', hl, -⟩ := stepp_length ht
  obtain rfl : b = b' := by rw [hb] at hb'; exact Except.ok.inj hb'
  obtain ⟨out, hout, hlen, hget⟩ := selected_get ([((1985.0 : Dbl), (330 : ℤ)), (1985.0, 300), (2000.0, 340)].map quake) table [0, 0, 0] rfl
  have h3 : 3 < table.length := by omega
  have h0 : 0 < out.length := by rw [hlen]; simp
  have := H _ _ _ _ _ table 30 34 [0, 0, 0] out ?_ (by norm_num) (by norm_num) ht ⟨⟨⟨_, List.mem_cons_of_mem _ List.mem_cons_self, by norm_num⟩, ?_⟩,
    ⟨⟨_, List.mem_cons_of_mem _ (List.mem_cons_of_mem _ List.mem_cons_self), by norm_num⟩, ?_⟩⟩ rfl hout 0 (by simp) (by simp) h0
    ((hget 0 (by simp) h0).2.2 (Or.inr ⟨_, List.getElem_mem h3, by rw [hrow 3 h3]; exact ⟨hn.2.1, hn.2.2⟩⟩))
  · rcases this with h | ⟨j, hj, -, h⟩
    · simp at h
    · have : (j : ℚ) ≤ 3 := by exact_mod_cast (by omega : j ≤ 3)
      norm_num at h
      linarith
  · intro e he
    simp only [List.mem_cons, List.not_mem_nil, or_false] at he
    rcases he with rfl | rfl | rfl <;> norm_num
  · rintro z ⟨e, he, rfl⟩
    simp only [List.mem_cons, List.not_mem_nil, or_false] at he
    rcases he with rfl | rfl | rfl <;> norm_num
  · rintro z ⟨e, he, rfl⟩
    simp only [List.mem_cons, List.not_mem_nil, or_false] at he
    rcases he with rfl | rfl | rfl <;> norm_num

/-- Non-vacuity of C171: four bins, the earthquake of magnitude 3.4 in the last one, the one of 3.3 in the third one. -/
example : ∃ b, steppBins ([((1985.0 : Dbl), (330 : ℤ)), (1985.0, 300), (2000.0, 340)].map quake) (Dbl.of (1 / 10)) 10.0 = .ok b ∧ b.nb = 4 ∧ b.obs 0 3 = 1 ∧ b.obs 1 2 = 1 := by
  obtain ⟨b, hb, hn⟩ := steppBins_noLibm (ev := [((1985.0 : Dbl), (330 : ℤ)), (1985.0, 300), (2000.0, 340)].map quake) (dm := Dbl.of (1 / 10)) (dt := 10.0)
    (f := fun b => (b.nb, b.obs 0 3, b.obs 1 2)) (v := (4, 1, 1)) (by decide +kernel)
  simp only [Prod.mk.injEq] at hn
  exact ⟨b, hb, hn.1, hn.2.1, hn.2.2⟩

/-- Non-vacuity of C170: from 3.0 to 3.5 it takes two bins of 0.3, and there are two rows. -/
example : ∃ table, stepp ([((1985.0 : Dbl), (305 : ℤ)), (2000.0, 349)].map quake) (Dbl.of (3 / 10)) 10.0 0.2 true = .ok table ∧ table.length = 2 := by
  obtain ⟨b, hb, hn⟩ := steppBins_noLibm (ev := [((1985.0 : Dbl), (305 : ℤ)), (2000.0, 349)].map quake) (dm := Dbl.of (3 / 10)) (dt := 10.0)
    (f := fun b => (b.nb, b.nt)) (v := (2, 1)) (by decide +kernel)
  simp only [Prod.mk.injEq] at hn
  obtain ⟨table, ht, -⟩ := stepp_short (ttol := 0.2) (iloc := true) hb (by omega) (by omega)
  obtain ⟨b', hb', hl, -⟩ := stepp_length ht
  obtain rfl : b = b' := by rw [hb] at hb'; exact Except.ok.inj hb'
  exact ⟨table, ht, by omega⟩

end

end Verif.Completeness
