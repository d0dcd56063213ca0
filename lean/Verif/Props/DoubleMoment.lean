import Verif.Props.DoubleJulian
import Verif.Props.CumulativeMoment

/-!
# C183: the years of the cumulative moment in double precision
-/

namespace Verif.MaxMag

open Verif Verif.Np Verif.Dbl Verif.CatUtil

/-! ### Specification -/

/-- A catalogue with whole years and magnitudes that are doubles, as given to the program. -/
def dblEvents (cat : List (ℤ × Dbl)) : List (Dbl × Dbl) := cat.map fun e => ((e.1 : Dbl), e.2)

/-- The magnitudes of the earthquakes of one year, in the order of the catalogue. -/
def Spec.ofYear (cat : List (ℤ × Dbl)) (t : ℤ) : List Dbl := (cat.filter fun e => e.1 = t).map Prod.snd

/-- The moments of earthquakes added in the order given. -/
def Spec.released [Libm] (mags : List Dbl) : Dbl := npSum (mags.map fun m => PyMath.rpow (10.0 : Dbl) ((9.05 : Dbl) + (1.5 : Dbl) * m))

/-! ### The years -/

theorem small_ok {z : ℤ} (h : |z| ≤ 10 ^ 6) : |z| ≤ 2 ^ 52 := by linarith

theorem int_inj {a b : ℤ} (ha : |a| ≤ 2 ^ 53) (hb : |b| ≤ 2 ^ 53) (h : (a : Dbl).val = (b : Dbl).val) : a = b := by
  rw [val_int_exact ha, val_int_exact hb] at h
  exact_mod_cast h

theorem npMin_years [Libm] {cat : List (ℤ × Dbl)} {y0 : ℤ} (hb : ∀ e ∈ cat, |e.1| ≤ 10 ^ 6) (h0 : IsLeast {y | y ∈ cat.map Prod.fst} y0) :
    npMin ((dblEvents cat).map Prod.fst) = .ok (y0 : Dbl) := by
  obtain ⟨e0, he0, rfl⟩ := List.mem_map.1 h0.1
  rcases hm : npMin ((dblEvents cat).map Prod.fst) with err | m
  · exfalso
    cases cat with
    | nil => simp at he0
    | cons a l => simp [dblEvents, npMin] at hm
  · obtain ⟨h1, h2⟩ := npMin_spec hm
    simp only [dblEvents, List.map_map, List.mem_map, Function.comp] at h1 h2
    obtain ⟨e, he, rfl⟩ := h1
    have h3 := h2 _ ⟨e0, he0, rfl⟩
    have h4 : e0.1 ≤ e.1 := h0.2 (List.mem_map_of_mem he)
    have b1 := hb e he
    have b2 := hb e0 he0
    rw [val_int_exact (by linarith), val_int_exact (by linarith)] at h3
    have h5 : e.1 ≤ e0.1 := by exact_mod_cast h3
    rw [le_antisymm h5 h4]

theorem npMax_years [Libm] {cat : List (ℤ × Dbl)} {y1 : ℤ} (hb : ∀ e ∈ cat, |e.1| ≤ 10 ^ 6) (h1 : IsGreatest {y | y ∈ cat.map Prod.fst} y1) :
    npMax ((dblEvents cat).map Prod.fst) = .ok (y1 : Dbl) := by
  obtain ⟨e0, he0, rfl⟩ := List.mem_map.1 h1.1
  rcases hm : npMax ((dblEvents cat).map Prod.fst) with err | m
  · exfalso
    cases cat with
    | nil => simp at he0
    | cons a l => simp [dblEvents, npMax] at hm
  · obtain ⟨h2, h3⟩ := npMax_spec hm
    simp only [dblEvents, List.map_map, List.mem_map, Function.comp] at h2 h3
    obtain ⟨e, he, rfl⟩ := h2
    have h3 := h3 _ ⟨e0, he0, rfl⟩
    have h4 : e.1 ≤ e0.1 := h1.2 (List.mem_map_of_mem he)
    have b1 := hb e he
    have b2 := hb e0 he0
    rw [val_int_exact (by linarith), val_int_exact (by linarith)] at h3
    have h5 : e0.1 ≤ e.1 := by exact_mod_cast h3
    rw [le_antisymm h4 h5]

theorem one_int : ((1 : ℕ) : Dbl) = ((1 : ℤ) : Dbl) := nat_int 1

theorem year_at [Libm] {y0 : ℤ} (h : |y0| ≤ 10 ^ 6) {i : ℕ} (hi : i ≤ 2 * 10 ^ 6) : arangeAt (y0 : Dbl) ((1 : ℕ) : Dbl) i = ((y0 + (i : ℤ) : ℤ) : Dbl) := by
  have hh := abs_le.1 h
  unfold arangeAt
  rw [one_int, int_add (by linarith) (by norm_num), int_sub (abs_le.2 (by constructor <;> omega)) (by linarith), nat_int i]
  rw [show (y0 + 1 - y0 : ℤ) = 1 by ring, CatUtil.int_mul (abs_le.2 (by constructor <;> omega)) (by norm_num), mul_one,
    int_add (by linarith) (abs_le.2 (by constructor <;> omega))]

theorem years_len [Libm] {y0 y1 : ℤ} (h0 : |y0| ≤ 10 ^ 6) (h1 : |y1| ≤ 10 ^ 6) :
    arangeLen (y0 : Dbl) ((y1 : Dbl) + ((1 : ℕ) : Dbl)) ((1 : ℕ) : Dbl) = (y1 - y0 + 1).toNat := by
  have a0 := abs_le.1 h0
  have a1 := abs_le.1 h1
  unfold arangeLen
  rw [one_int, int_add (by linarith) (by norm_num), int_sub (abs_le.2 (by constructor <;> omega)) (by linarith)]
  rw [ceilZ_def, val_div, val_int_exact (abs_le.2 (by constructor <;> omega)), val_int_exact (n := 1) (by norm_num)]
  rw [Int.cast_one, div_one, rnd53_int (abs_le.2 (by constructor <;> omega)), Int.ceil_intCast]
  congr 1
  ring

theorem year_test [Libm] {a b : ℤ} (ha : |a| ≤ 10 ^ 7) (hb : |b| ≤ 10 ^ 7) : npAbs ((a : Dbl) - (b : Dbl)) < (1e-5 : Dbl) ↔ a = b := by
  have a0 := abs_le.1 ha
  have a1 := abs_le.1 hb
  rw [int_sub (by linarith) (by linarith)]
  have hd : |a - b| ≤ 2 ^ 53 := abs_le.2 (by constructor <;> omega)
  have he : (1e-5 : Dbl).val < 1 := by
    show rnd53 (1e-5 : ℚ) < 1
    decide +kernel
  have hp : 0 < (1e-5 : Dbl).val := by
    show 0 < rnd53 (1e-5 : ℚ)
    decide +kernel
  have hz : (((0 : ℕ) : Dbl)).val = 0 := val_nat_exact (by norm_num)
  have hneg : (-((a - b : ℤ) : Dbl)).val = -((a - b : ℤ) : ℚ) := by
    show rnd53 (-(((a - b : ℤ) : Dbl)).val) = _
    rw [val_int_exact hd, ← Int.cast_neg, rnd53_int (by rwa [abs_neg])]
  unfold npAbs
  by_cases g : ((a - b : ℤ) : Dbl) < ((0 : ℕ) : Dbl)
  · rw [if_pos g, lt_def, hneg]
    rw [lt_def, hz, val_int_exact hd] at g
    have g' : a - b < 0 := by exact_mod_cast g
    constructor
    · intro h
      have : (-((a - b : ℤ) : ℚ)) < 1 := lt_trans h he
      have : -(a - b) < 1 := by exact_mod_cast this
      omega
    · intro h; omega
  · rw [if_neg g, lt_def, val_int_exact hd]
    rw [lt_def, hz, val_int_exact hd, not_lt] at g
    have g' : 0 ≤ a - b := by exact_mod_cast g
    constructor
    · intro h
      have : ((a - b : ℤ) : ℚ) < 1 := lt_trans h he
      have : a - b < 1 := by exact_mod_cast this
      omega
    · intro h
      rw [h, sub_self, Int.cast_zero]; exact hp

/-- **C183**: in double precision, with any mathematical library, for any catalogue with whole years (between -10^6 and 10^6): the cumulative moment has exactly one value for every calendar year from
the first to the last one of the catalogue; the value of a year is the sum, in the order of the catalogue, of the moments of exactly the earthquakes of that year; every earthquake is in exactly
one of the years, and the earthquakes of all the years together are those of the catalogue. -/
theorem C183_years [Libm] {cat : List (ℤ × Dbl)} (hne : cat ≠ []) (hb : ∀ e ∈ cat, |e.1| ≤ 10 ^ 6) :
    ∃ (y0 y1 : ℤ), IsLeast {y | y ∈ cat.map Prod.fst} y0 ∧ IsGreatest {y | y ∈ cat.map Prod.fst} y1 ∧
      moRate (dblEvents cat) = .ok ((List.range (y1 - y0 + 1).toNat).map fun i : ℕ => Spec.released (Spec.ofYear cat (y0 + i))) ∧
      (∀ e ∈ cat, ∃! i, i < (y1 - y0 + 1).toNat ∧ e.1 = y0 + (i : ℤ)) ∧
      ((List.range (y1 - y0 + 1).toNat).map fun i : ℕ => (Spec.ofYear cat (y0 + i)).length).sum = cat.length := by
  have hne' : (cat.map Prod.fst).toFinset.Nonempty := by
    rw [List.toFinset_nonempty_iff]
    simpa using hne
  obtain ⟨y0, h0⟩ : ∃ y0, IsLeast {y | y ∈ cat.map Prod.fst} y0 := by
    refine ⟨(cat.map Prod.fst).toFinset.min' hne', ?_, ?_⟩
    · exact List.mem_toFinset.1 (Finset.min'_mem _ hne')
    · intro y hy
      exact Finset.min'_le _ _ (List.mem_toFinset.2 hy)
  obtain ⟨y1, h1⟩ : ∃ y1, IsGreatest {y | y ∈ cat.map Prod.fst} y1 := by
    refine ⟨(cat.map Prod.fst).toFinset.max' hne', ?_, ?_⟩
    · exact List.mem_toFinset.1 (Finset.max'_mem _ hne')
    · intro y hy
      exact Finset.le_max' _ _ (List.mem_toFinset.2 hy)
  have b0 : |y0| ≤ 10 ^ 6 := by
    obtain ⟨e, he, rfl⟩ := List.mem_map.1 h0.1
    exact hb e he
  have b1 : |y1| ≤ 10 ^ 6 := by
    obtain ⟨e, he, rfl⟩ := List.mem_map.1 h1.1
    exact hb e he
  have a0 := abs_le.1 b0
  have a1 := abs_le.1 b1
  have hex : ∀ e ∈ cat, ∃! i, i < (y1 - y0 + 1).toNat ∧ e.1 = y0 + (i : ℤ) := by
    intro e he
    have h2 : y0 ≤ e.1 := h0.2 (List.mem_map_of_mem he)
    have h3 : e.1 ≤ y1 := h1.2 (List.mem_map_of_mem he)
    refine ⟨(e.1 - y0).toNat, ⟨by omega, by omega⟩, ?_⟩
    rintro i ⟨_, h⟩
    omega
  refine ⟨y0, y1, h0, h1, ?_, hex, ?_⟩
  · unfold moRate
    simp only [npMin_years hb h0, npMax_years hb h1, bind, Except.bind, pure, Except.pure]
    have hs : PyNum.decEq ((1 : ℕ) : Dbl) 0 = false := by
      rw [decEq_def, val_nat_exact (by norm_num), val_zero]; simp
    rw [arange, hs, years_len b0 b1]
    simp only [Bool.false_eq_true, if_false, List.map_map, Except.ok.injEq]
    refine List.map_congr_left fun i hi => ?_
    have hi' := List.mem_range.1 hi
    simp only [Function.comp]
    rw [year_at b0 (by omega)]
    simp only [Spec.released, Spec.ofYear, dblEvents, List.filter_map, List.map_map]
    congr 1
    rw [List.filter_congr (q := fun e : ℤ × Dbl => decide (e.1 = y0 + (i : ℤ)))]
    · rfl
    · intro e he
      have hh := abs_le.1 (hb e he)
      simp only [Function.comp]
      rw [decide_eq_decide]
      exact year_test (abs_le.2 (by constructor <;> omega)) (abs_le.2 (by constructor <;> omega))
  · clear hne hne' hb h0 h1 b0 b1 a0 a1
    induction cat with
    | nil => simp [Spec.ofYear]
    | cons e l ih =>
      have h := ih (fun x hx => hex x (by simp [hx]))
      obtain ⟨k, ⟨hk, hk2⟩, hu⟩ := hex e (by simp)
      have hl : ∀ i : ℕ, (Spec.ofYear (e :: l) (y0 + i)).length = (if i = k then 1 else 0) + (Spec.ofYear l (y0 + i)).length := by
        intro i
        simp only [Spec.ofYear, List.filter_cons, List.length_map]
        by_cases g : i = k
        · subst g; rw [if_pos rfl, if_pos (by simpa using hk2)]; simp [add_comm]
        · rw [if_neg g, if_neg (by simp only [decide_eq_true_eq]; omega)]; simp
      simp only [hl]
      rw [List.sum_map_add, h]
      have : ((List.range (y1 - y0 + 1).toNat).map fun i : ℕ => if i = k then 1 else 0).sum = 1 := by
        rw [← List.sum_toFinset _ List.nodup_range, List.toFinset_range]
        simp [hk]
      rw [this, List.length_cons]; omega

example : ∃ cat : List (ℤ × Dbl), cat ≠ [] ∧ (∀ e ∈ cat, |e.1| ≤ 10 ^ 6) ∧ (cat.map Prod.fst).dedup.length = 2 :=
  ⟨[(1960, Dbl.of 5), (1962, Dbl.of 6), (1960, Dbl.of 4)], by simp, by simp, by decide⟩

end Verif.MaxMag
