import Verif.Props.DoubleAfteran

/-!
# C187: Gardner–Knopoff in double precision and in exact arithmetic, and its largest earthquake
-/

namespace Verif.Declustering

open Verif Verif.CatUtil Verif.Dbl Spec

/-! ### Specification -/

/-- The computed windows hold the same events as the exact ones. -/
def Spec.SameWindows [Libm] {n : ℕ} (cat : Fin n → Row Dbl) (opt : String) (fs : Dbl) : Prop :=
  ∀ t win t' win', Times cat t → Times (Spec.exactly cat) t' → timeDistWindow (F := Dbl) opt = .ok win → timeDistWindow (F := ℝ) opt = .ok win' →
    ∀ i j, InWindows cat t win fs i j ↔ InWindows (Spec.exactly cat) t' win' ((fs.val : ℚ) : ℝ) i j

/-- The sine of the opposite angle is the opposite, in the mathematical library. -/
def Spec.OddSine [Libm] : Prop := ∀ x : Dbl, PyMath.sin (-x) = -PyMath.sin x

/-! ### The same result -/

section
variable {n : ℕ}

/-- The order of two times in double precision is that of the days. -/
theorem late_iff [Libm] {cat : Fin n → Row Dbl} {y m d : Fin n → ℤ} {t : Fin n → Dbl} (hd : Spec.Dated cat y m d) (ht : Times cat t) (i j : Fin n) :
    t j - t i ≥ (0.0 : Dbl) ↔ Spec.dayNo (y i) (m i) (d i) ≤ Spec.dayNo (y j) (m j) (d j) := by
  have h := (step_tests hd ht (w := 0) (by norm_num) i i j).1
  have e : (t j - t i) - (t i - t i) = t j - t i := by
    rw [sub_self_dbl, sub_zero_dbl]
  simp only [e] at h
  exact h

/-- **C187** (same result): for a catalogue of calendar dates, if the computed windows of time and distance hold the same events as the exact ones, Gardner–Knopoff in double precision finds the
clusters and flags of exact arithmetic: the order in time of two earthquakes, which tells foreshocks from aftershocks, is never mistaken. -/
theorem C187_gk_same [Libm] {cat : Fin n → Row Dbl} {y m d : Fin n → ℤ} (hd : Spec.Dated cat y m d) (opt : String)
    (ho : opt = "GardnerKnopoff" ∨ opt = "Gruenthal" ∨ opt = "Uhrhammer") (fs : Dbl) (hsame : Spec.SameWindows cat opt fs) (asc id1 : Equiv.Perm (Fin n)) :
    ∃ r r', gardnerKnopoff cat opt fs asc id1 = .ok r ∧ gardnerKnopoff (Spec.exactly cat) opt ((fs.val : ℚ) : ℝ) asc id1 = .ok r' ∧ r.vcl = r'.vcl ∧ r.flag = r'.flag := by
  obtain ⟨t, ht⟩ : ∃ t : Fin n → Dbl, Times cat t := by
    have : ∀ j, ∃ x : Dbl, decimalYear (cat j 0) (cat j 1) (cat j 2) = .ok x := by
      intro j
      obtain ⟨k, -, -, -, h⟩ := date_time (hd.date j)
      exact ⟨_, by rw [hd.year, hd.month, hd.day]; exact h⟩
    choose t ht using this
    exact ⟨t, ht⟩
  have ht' := exactly_times hd
  have hto : ∀ {F : Type} [PyMath F], ∃ win : F → F × F, timeDistWindow opt = .ok win := by
    intro F _
    rcases ho with rfl | rfl | rfl
    · exact ⟨_, rfl⟩
    · exact ⟨_, rfl⟩
    · exact ⟨_, rfl⟩
  obtain ⟨win, hwin⟩ := hto (F := Dbl)
  obtain ⟨win', hwin'⟩ := hto (F := ℝ)
  have hs := hsame t win _ win' ht ht' hwin hwin'
  have hS : Sel cat t win fs = Sel (Spec.exactly cat) (fun j => (Spec.dayNo (y j) (m j) (d j) : ℝ) / 365) win' ((fs.val : ℚ) : ℝ) := by
    funext i j
    apply bool_eq_of_iff
    rw [sel_iff, sel_iff]
    exact hs i j
  have hL : Late t = Late (fun j => (Spec.dayNo (y j) (m j) (d j) : ℝ) / 365) := by
    funext i j
    refine decide_eq_decide.2 ((late_iff hd ht i j).trans ?_)
    have e : (Spec.dayNo (y j) (m j) (d j) : ℝ) / 365 - (Spec.dayNo (y i) (m i) (d i) : ℝ) / 365 = ((Spec.dayNo (y j) (m j) (d j) - Spec.dayNo (y i) (m i) (d i) : ℤ) : ℝ) / 365 := by
      push_cast; ring
    rw [e, show (0.0 : ℝ) = 0 by norm_num, ge_iff_le, le_div_iff₀ (by norm_num), zero_mul, Int.cast_nonneg_iff]
    omega
  have r1 := gk_run cat opt fs asc id1 t win ((decimalYears_times _ _).mpr ht) hwin
  have r2 := gk_run (Spec.exactly cat) opt ((fs.val : ℚ) : ℝ) asc id1 _ win' ((decimalYears_times _ _).mpr ht') hwin'
  simp only at r1 r2
  refine ⟨_, _, r1, r2, ?_, ?_⟩
  · simp only [hS, hL]
  · simp only [hS, hL]

/-! ### The largest earthquake -/

theorem sub_neg_dbl (a b : Dbl) : a - b = -(b - a) := by
  apply Dbl.ext
  rw [neg_val, val_sub, val_sub, ← Format.rnd53_neg, neg_sub]

theorem neg_div_dbl (a b : Dbl) : -a / b = -(a / b) := by
  apply Dbl.ext
  rw [neg_val, val_div, val_div, neg_val, ← Format.rnd53_neg, neg_div]

theorem neg_mul_dbl (a b : Dbl) : -a * b = -(a * b) := by
  apply Dbl.ext
  rw [neg_val, val_mul, val_mul, neg_val, ← Format.rnd53_neg, neg_mul]

theorem neg_mul_neg_dbl (a : Dbl) : -a * -a = a * a := by
  apply Dbl.ext
  rw [val_mul, val_mul, neg_val, neg_mul_neg]

theorem mul_comm_dbl (a b : Dbl) : a * b = b * a := by
  apply Dbl.ext
  rw [val_mul, val_mul, mul_comm]

/-- **C187** (distances): with an odd sine the computed distance does not depend on the direction. -/
theorem C187_distance_symmetric [Libm] (hs : Spec.OddSine) (lon1 lat1 lon2 lat2 : Dbl) : haversine lon1 lat1 lon2 lat2 = haversine lon2 lat2 lon1 lat1 := by
  unfold haversine
  simp only
  rw [sub_neg_dbl (PyMath.pi / ((180 : ℕ) : Dbl) * lat1), sub_neg_dbl (PyMath.pi / ((180 : ℕ) : Dbl) * lon1), neg_div_dbl, neg_div_dbl, hs, hs, neg_mul_neg_dbl, neg_mul_neg_dbl,
    mul_comm_dbl (PyMath.cos (PyMath.pi / ((180 : ℕ) : Dbl) * lat1))]

/-- **C187** (largest earthquake): in double precision, with an odd sine, the largest event is kept by Gardner–Knopoff if, as computed, the distance window of no other event is larger than its own and
the time windows are not larger in either direction (compare `C39_largest_survives_partial`). -/
theorem C187_gk_largest [Libm] (hs : Spec.OddSine) (cat : Fin n → Row Dbl) (opt : String) (fs : Dbl) (asc id1 : Equiv.Perm (Fin n)) (r : Result Dbl n)
    (h0 : IsArgsort (fun j => cat j 5) asc) (h1 : IsArgsort (flipud asc) id1)
    (h : gardnerKnopoff cat opt fs asc id1 = .ok r) (e : Fin n) (hmax : ∀ j, j ≠ e → cat j 5 < cat e 5)
    (hwin : ∀ win, timeDistWindow opt = .ok win → ∀ j, j ≠ e → (win (cat j 5)).1 ≤ (win (cat e 5)).1 ∧
      (win (cat j 5)).2 ≤ (win (cat e 5)).2 * fs ∧ (win (cat j 5)).2 * fs ≤ (win (cat e 5)).2) :
    cat e ∈ r.vmain := by
  refine gk_largest (key := fun x : Dbl => ((x.val : ℚ) : ℝ)) key_mono cat opt fs asc id1 r h0 h1 h e (fun j hj => by exact_mod_cast hmax j hj) ?_
  rintro t win hw j hj ⟨w1, w2, w3⟩
  obtain ⟨b1, b2, b3⟩ := hwin win hw j hj
  rw [ge_iff_le, neg_mul_dbl, le_def, neg_val] at w1
  rw [le_def] at w2 w3 b1 b2 b3
  refine ⟨?_, ?_, ?_⟩
  · rw [ge_iff_le, neg_mul_dbl, sub_neg_dbl, le_def, neg_val, neg_val]; linarith
  · rw [sub_neg_dbl, le_def, neg_val]; linarith
  · rw [eventDist, C187_distance_symmetric hs]
    exact le_def.2 (le_trans w3 b1)

end

/-! ### Concrete runs -/

/-- A library with the usual values and an odd sine. -/
theorem someLibm_odd : @Spec.OddSine someLibm := fun _ => rfl

/-- Non-vacuity of C187: the two earthquakes of `tenDays` with a library whose windows are all zero; the largest is kept. -/
example : ∃ r : Result Dbl 2, @gardnerKnopoff Dbl (@instPyMathDbl someLibm) 2 tenDays "Uhrhammer" 0 Fin.revPerm (Equiv.refl _) = .ok r ∧ tenDays 0 ∈ r.vmain := by
  let _ := someLibm
  obtain ⟨r, hr⟩ := (C34_gk_succeeds tenDays "Uhrhammer" 0 Fin.revPerm (Equiv.refl _)).mpr ⟨Or.inr (Or.inr rfl), _, tenDays_times⟩
  refine ⟨r, hr, C187_gk_largest someLibm_odd tenDays "Uhrhammer" 0 Fin.revPerm (Equiv.refl _) r tenDays_sorted (by rw [rev_refl]; exact fun a b hab => hab) hr 0 ?_ ?_⟩
  · intro j hj
    fin_cases j
    · exact absurd rfl hj
    · show ((5 : ℤ) : Dbl) < ((6 : ℤ) : Dbl)
      rw [lt_def, val_int_exact (by norm_num), val_int_exact (by norm_num)]; norm_num
  · intro win hw j _
    cases hw
    refine ⟨le_def.2 le_rfl, ?_, ?_⟩
    · rw [mul_zero_dbl]; exact le_def.2 le_rfl
    · rw [mul_zero_dbl]; exact le_def.2 le_rfl

/-- A library with the usual values and large powers. -/
@[reducible] def bigLibm : Libm := ⟨fun _ => 0, id, id, id, id, id, fun x _ => x, fun _ _ => Dbl.of (10 ^ 6), .of 0⟩

theorem bigLibm_usual : @Spec.Usual bigLibm := by
  let _ := bigLibm
  refine ⟨rfl, rfl, rfl, rfl, fun _ _ _ => ?_, fun _ => le_def.2 le_rfl⟩
  show (0 : Dbl).val ≤ (Dbl.of (10 ^ 6)).val
  decide +kernel

/-- Non-vacuity of C187 (same result): with large computed windows, which hold the two earthquakes of `tenDays` as the exact ones do. -/
example : @Spec.SameWindows bigLibm 2 tenDays "GardnerKnopoff" (Dbl.of 1) := by
  let _ := bigLibm
  intro t win t' win' ht ht' hw hw' i j
  cases hw; cases hw'
  have e := times_unique _ _ _ ht tenDays_times
  have e' := times_unique _ _ _ ht' (exactly_times tenDays_dated)
  subst e e'
  have hm : ∀ i : Fin 2, Spec.exactly tenDays i 5 = 5 ∨ Spec.exactly tenDays i 5 = 6 := by
    intro i
    fin_cases i
    · right
      show ((((6 : ℤ) : Dbl).val : ℚ) : ℝ) = 6
      rw [val_int_exact (by norm_num)]; norm_num
    · left
      show ((((5 : ℤ) : Dbl).val : ℚ) : ℝ) = 5
      rw [val_int_exact (by norm_num)]; norm_num
  have hten : (10 : ℝ) / 365 ≤ (gkWindow (Spec.exactly tenDays i 5)).2 := by
    rw [gk_time]
    rcases hm i with h | h <;> rw [h, if_pos (by norm_num)] <;> refine div_le_div_of_nonneg_right ?_ (by norm_num)
    · exact le_ten_rpow _ _ 2 1 (by norm_num) (by norm_num) (by norm_num) (by norm_num)
    · exact le_ten_rpow _ _ 2 1 (by norm_num) (by norm_num) (by norm_num) (by norm_num)
  have hone : ((((Dbl.of 1).val : ℚ)) : ℝ) = 1 := by
    have : (Dbl.of 1).val = 1 := by rw [val_of]; exact_mod_cast rnd53_int (n := 1) (by norm_num)
    rw [this]; norm_num
  have hdiff : ∀ i j : Fin 2, |(Spec.dayNo ((![2000, 2000] : Fin 2 → ℤ) j) ((![1, 1] : Fin 2 → ℤ) j) ((![1, 11] : Fin 2 → ℤ) j) : ℝ) / 365 -
      (Spec.dayNo ((![2000, 2000] : Fin 2 → ℤ) i) ((![1, 1] : Fin 2 → ℤ) i) ((![1, 11] : Fin 2 → ℤ) i) : ℝ) / 365| ≤ 10 / 365 := by
    intro i j
    rw [abs_le]
    fin_cases i <;> fin_cases j <;> simp [Spec.dayNo, Spec.daysBefore] <;> norm_num
  have hd := abs_le.1 (hdiff i j)
  refine iff_of_true ⟨?_, ?_, (tenDays_near bigLibm_usual i j).1⟩ ⟨?_, ?_, (tenDays_near bigLibm_usual i j).2⟩
  · show (-(gkWindow (tenDays i 5)).2 * Dbl.of 1).val ≤ (tenDaysTimes j - tenDaysTimes i).val
    clear hd hten ht ht'
    revert i j
    decide +kernel
  · show (tenDaysTimes j - tenDaysTimes i).val ≤ ((gkWindow (tenDays i 5)).2).val
    clear hd hten ht ht'
    revert i j
    decide +kernel
  · rw [hone, mul_one]
    exact le_trans (neg_le_neg hten) hd.1
  · exact le_trans hd.2 hten

end Verif.Declustering
