import Verif.Props.DoubleDecluster

/-!
# C186: Afteran in double precision and in exact arithmetic
-/

namespace Verif.Declustering

open Verif Verif.CatUtil Verif.Dbl Spec

/-! ### Specification -/

/-- What every mathematical library does: the sine and the square root of zero, the square root of one, the angle of the positive axis, and no negative powers of ten and exponentials. -/
structure Spec.Usual [Libm] : Prop where
  sin_zero : PyMath.sin (0 : Dbl) = 0
  sqrt_zero : PyMath.sqrt (0 : Dbl) = 0
  sqrt_one : PyMath.sqrt ((1 : ℕ) : Dbl) = ((1 : ℕ) : Dbl)
  atan2_axis : PyMath.atan2 (0 : Dbl) ((1 : ℕ) : Dbl) = 0
  rpow_nonneg : ∀ b x : Dbl, ((0 : ℕ) : Dbl) < b → 0 ≤ PyMath.rpow b x
  exp_nonneg : ∀ x : Dbl, 0 ≤ PyMath.exp x

/-- The same catalogue in exact arithmetic. -/
def Spec.exactly {n : ℕ} (cat : Fin n → Row Dbl) : Fin n → Row ℝ := fun j k => (((cat j k).val : ℚ) : ℝ)

/-- The computed distance windows hold the same events as the exact ones. -/
def Spec.SameDistances [Libm] {n : ℕ} (cat : Fin n → Row Dbl) (opt : String) : Prop :=
  ∀ win win', timeDistWindow (F := Dbl) opt = .ok win → timeDistWindow (F := ℝ) opt = .ok win' →
    ∀ i j, eventDist cat i j ≤ (win (cat i 5)).1 ↔ eventDist (Spec.exactly cat) i j ≤ (win' (Spec.exactly cat i 5)).1

/-! ### The exact times -/

theorem exact_time {y m d : ℤ} (h : IsDate y m d) : decimalYear (y : ℝ) (m : ℝ) (d : ℝ) = .ok ((Spec.dayNo y m d : ℝ) / 365) := by
  obtain ⟨q, hq, hx⟩ := decimalYear_date y m d h.1 h.2.1
  rw [hx, daysBefore_marker h.1 h.2.1 hq, Spec.dayNo]
  congr 1
  push_cast; ring

theorem month_le {y m d : ℤ} (h : IsDate y m d) : |m| ≤ 12 ∧ |d| ≤ 31 := by
  obtain ⟨h1, h2, h3, h4⟩ := h
  have : monthLen y m ≤ 31 := by unfold monthLen; split_ifs <;> norm_num
  exact ⟨abs_le.2 ⟨by omega, by omega⟩, abs_le.2 ⟨by omega, by omega⟩⟩

section
variable {n : ℕ} {cat : Fin n → Row Dbl} {y m d : Fin n → ℤ}

theorem exactly_times (h : Spec.Dated cat y m d) : Times (Spec.exactly cat) (fun j => (Spec.dayNo (y j) (m j) (d j) : ℝ) / 365) := by
  intro j
  have hy := h.range j
  obtain ⟨hm, hd⟩ := month_le (h.date j)
  rw [← exact_time (h.date j)]
  simp only [Spec.exactly]
  rw [h.year, h.month, h.day, val_int_exact (by linarith), val_int_exact (by linarith), val_int_exact (by linarith)]
  simp

/-- The decisions in exact arithmetic, in days. -/
theorem exact_tests (D : Fin n → ℤ) (w : ℕ) (i a b : Fin n) :
    (((D b : ℝ) / 365 - (D i : ℝ) / 365) - ((D a : ℝ) / 365 - (D i : ℝ) / 365) ≥ 0.0 ↔ D a ≤ D b) ∧
    (((D b : ℝ) / 365 - (D i : ℝ) / 365) - ((D a : ℝ) / 365 - (D i : ℝ) / 365) ≤ 0.0 ↔ D b ≤ D a) ∧
    (((D b : ℝ) / 365 - (D i : ℝ) / 365) - ((D a : ℝ) / 365 - (D i : ℝ) / 365) ≤ (w : ℝ) / ((365 : ℕ) : ℝ) ↔ D b - D a ≤ w) ∧
    (((D b : ℝ) / 365 - (D i : ℝ) / 365) - ((D a : ℝ) / 365 - (D i : ℝ) / 365) ≥ -((w : ℝ) / ((365 : ℕ) : ℝ)) ↔ D a - D b ≤ w) := by
  have e : ((D b : ℝ) / 365 - (D i : ℝ) / 365) - ((D a : ℝ) / 365 - (D i : ℝ) / 365) = ((D b - D a : ℤ) : ℝ) / 365 := by push_cast; ring
  have z : (0.0 : ℝ) = 0 := by norm_num
  rw [e, z]
  refine ⟨?_, ?_, ?_, ?_⟩
  · rw [ge_iff_le, le_div_iff₀ (by norm_num), zero_mul, Int.cast_nonneg_iff]; omega
  · rw [div_le_iff₀ (by norm_num), zero_mul, Int.cast_nonpos]; omega
  · rw [Nat.cast_ofNat, div_le_div_iff_of_pos_right (by norm_num)]; exact_mod_cast Iff.rfl
  · rw [ge_iff_le, Nat.cast_ofNat, ← neg_div, div_le_div_iff_of_pos_right (by norm_num)]
    have : (-(w : ℝ) ≤ ((D b - D a : ℤ) : ℝ)) ↔ (-(w : ℤ) ≤ D b - D a) := by
      rw [← Int.cast_natCast (R := ℝ) w, ← Int.cast_neg, Int.cast_le]
    rw [this]; omega

/-- A run from tables that select every event for itself succeeds. -/
theorem tabLoop_some (D P Q : Fin n → Fin n → Bool) (hD : ∀ i, D i i = true) : ∃ s, (List.finRange n).foldlM (tabStep D P Q) (State.init n) = some s := by
  generalize State.init n = s0
  generalize List.finRange n = l
  induction l generalizing s0 with
  | nil => exact ⟨s0, rfl⟩
  | cons i l ih =>
    have h1 : ∃ s1, tabStep D P Q s0 i = some s1 := by
      unfold tabStep
      by_cases g : s0.vcl i = 0
      · rw [if_pos g]
        have hm : i ∈ (List.finRange n).filter (fun j => D i j && decide (s0.vcl j = 0)) := by simp [hD, g]
        rcases hl : (List.finRange n).filter (fun j => D i j && decide (s0.vcl j = 0)) with _ | ⟨x, L⟩
        · rw [hl] at hm; simp at hm
        · simp only
          split_ifs <;> exact ⟨_, rfl⟩
      · rw [if_neg g]; exact ⟨_, rfl⟩
    obtain ⟨s1, h1⟩ := h1
    obtain ⟨s, hs⟩ := ih s1
    exact ⟨s, by rw [List.foldlM_cons, h1]; exact hs⟩

/-- A run of Afteran from its loop. -/
theorem af_run {F : Type} [PyMath F] (cat : Fin n → Row F) (opt : String) (w : F) (asc id1 : Equiv.Perm (Fin n)) (t : Fin n → F) (win : F → F × F) (s : State n)
    (ht : Times cat t) (hw : timeDistWindow opt = .ok win)
    (hs : afLoop (cat ∘ flipud asc) (t ∘ flipud asc) ((fun j => (win (cat j 5)).1) ∘ flipud asc) (w / ((365 : ℕ) : F)) = .ok s) :
    afteran cat opt w asc id1 = .ok ⟨s.vcl ∘ id1, unflagged ((cat ∘ flipud asc) ∘ id1) (s.flag ∘ id1), s.flag ∘ id1⟩ := by
  unfold afteran
  simp only [(decimalYears_times _ _).mpr ht, hw, bind, Except.bind]
  rw [hs]

/-- **C186, the part that holds**: with a time window of `w` days, for a catalogue of calendar dates of which no two are exactly `w` days apart, and if the computed distance windows hold the same
events as the exact ones: Afteran in double precision finds the clusters and flags of exact arithmetic.  Missing: earthquakes exactly `w` days apart (`C186_fails`). -/
theorem C186_same_partial [Libm] (hd : Spec.Dated cat y m d) (opt : String) (ho : opt = "GardnerKnopoff" ∨ opt = "Gruenthal" ∨ opt = "Uhrhammer") {w : ℕ} (hw : w ≤ 10 ^ 6)
    (hedge : ∀ a b, Spec.dayNo (y b) (m b) (d b) - Spec.dayNo (y a) (m a) (d a) ≠ w) (hsame : Spec.SameDistances cat opt) (asc id1 : Equiv.Perm (Fin n)) :
    ∃ r r', afteran cat opt (w : Dbl) asc id1 = .ok r ∧ afteran (Spec.exactly cat) opt (w : ℝ) asc id1 = .ok r' ∧ r.vcl = r'.vcl ∧ r.flag = r'.flag := by
  obtain ⟨D, hDdef⟩ : ∃ D : Fin n → ℤ, D = fun j => Spec.dayNo (y j) (m j) (d j) := ⟨_, rfl⟩
  have hDj : ∀ j, Spec.dayNo (y j) (m j) (d j) = D j := fun j => by rw [hDdef]
  obtain ⟨t, ht⟩ : ∃ t : Fin n → Dbl, Times cat t := by
    have : ∀ j, ∃ x : Dbl, decimalYear (cat j 0) (cat j 1) (cat j 2) = .ok x := by
      intro j
      obtain ⟨k, -, -, -, h⟩ := date_time (hd.date j)
      exact ⟨_, by rw [hd.year, hd.month, hd.day]; exact h⟩
    choose t ht using this
    exact ⟨t, ht⟩
  have hto : ∀ {F : Type} [PyMath F], ∃ win : F → F × F, timeDistWindow opt = .ok win := by
    intro F _
    rcases ho with rfl | rfl | rfl
    · exact ⟨_, rfl⟩
    · exact ⟨_, rfl⟩
    · exact ⟨_, rfl⟩
  obtain ⟨win, hwin⟩ := hto (F := Dbl)
  obtain ⟨win', hwin'⟩ := hto (F := ℝ)
  have hs := hsame win win' hwin hwin'
  have hself : ∀ i, eventDist (Spec.exactly cat) i i ≤ (win' (Spec.exactly cat i 5)).1 := by
    intro i
    rw [eventDist, C49_self]
    exact (C47_windows_positive opt win' hwin' _).1.le
  obtain ⟨p, hp⟩ : ∃ p, p = flipud asc := ⟨_, rfl⟩
  obtain ⟨s, hrun⟩ := tabLoop_some (n := n) (fun i j => decide (eventDist cat (p i) (p j) ≤ (win (cat (p i) 5)).1))
    (fun a b => decide (D (p a) ≤ D (p b)) && decide (D (p b) - D (p a) ≤ w)) (fun a b => decide (D (p b) ≤ D (p a)) && decide (D (p a) - D (p b) ≤ w))
    (fun i => by rw [decide_eq_true_eq, hs]; exact hself _)
  have l1 : afLoop (cat ∘ p) (t ∘ p) ((fun j => (win (cat j 5)).1) ∘ p) ((w : Dbl) / ((365 : ℕ) : Dbl)) = .ok s := by
    refine tabLoop_eq _ _ _ _ _ _ _ ?_ ?_ ?_ s hrun
    · intro i j; rfl
    · intro i a b
      obtain ⟨s1, -, s3, s4, -, -⟩ := step_tests hd ht hw (p i) (p a) (p b)
      have := hedge (p a) (p b)
      simp only [hDj] at s1 s3 s4 this
      simp only [Function.comp]
      congr 1
      · exact decide_eq_decide.2 s1.symm
      · exact decide_eq_decide.2 ⟨fun h => s4 (lt_of_le_of_ne h this), s3⟩
    · intro i a b
      obtain ⟨-, s2, -, -, s5, s6⟩ := step_tests hd ht hw (p i) (p a) (p b)
      have := hedge (p b) (p a)
      simp only [hDj] at s2 s5 s6 this
      simp only [Function.comp]
      congr 1
      · exact decide_eq_decide.2 s2.symm
      · exact decide_eq_decide.2 ⟨fun h => s6 (lt_of_le_of_ne h this), s5⟩
  have ht' := exactly_times hd
  simp only [hDj] at ht'
  have l2 : afLoop (Spec.exactly cat ∘ p) ((fun j => (D j : ℝ) / 365) ∘ p) ((fun j => (win' (Spec.exactly cat j 5)).1) ∘ p) ((w : ℝ) / ((365 : ℕ) : ℝ)) = .ok s := by
    refine tabLoop_eq _ _ _ _ _ _ _ ?_ ?_ ?_ s hrun
    · intro i j; exact decide_eq_decide.2 (hs (p i) (p j))
    · intro i a b
      obtain ⟨s1, -, s3, -⟩ := exact_tests D w (p i) (p a) (p b)
      simp only [Function.comp]
      congr 1
      · exact decide_eq_decide.2 s1.symm
      · exact decide_eq_decide.2 s3.symm
    · intro i a b
      obtain ⟨-, s2, -, s4⟩ := exact_tests D w (p i) (p a) (p b)
      simp only [Function.comp]
      congr 1
      · exact decide_eq_decide.2 s2.symm
      · exact decide_eq_decide.2 s4.symm
  subst hp
  exact ⟨_, _, af_run cat opt _ asc id1 t win s ht hwin l1, af_run (Spec.exactly cat) opt _ asc id1 _ win' s ht' hwin' l2, rfl, rfl⟩

end

/-! ### Ordinary libraries, and two earthquakes ten days apart -/

theorem zero_add_dbl (x : Dbl) : (0 : Dbl) + x = x := by
  apply Dbl.ext
  rw [val_add, val_zero, zero_add, x.ok]

theorem mul_zero_dbl (x : Dbl) : x * (0 : Dbl) = 0 := by
  apply Dbl.ext
  rw [val_mul, val_zero, mul_zero, rnd53_zero]

theorem sub_self_dbl (x : Dbl) : x - x = 0 := by
  apply Dbl.ext
  rw [val_sub, sub_self, rnd53_zero, val_zero]

theorem sub_zero_dbl (x : Dbl) : x - 0 = x := by
  apply Dbl.ext
  rw [val_sub, val_zero, sub_zero, x.ok]

theorem zero_div_dbl (x : Dbl) : (0 : Dbl) / x = 0 := by
  apply Dbl.ext
  rw [val_div, val_zero, zero_div, rnd53_zero]

theorem dist_self [Libm] (hl : Spec.Usual) (a b : Dbl) : haversine a b a b = 0 := by
  unfold haversine
  simp only [sub_self_dbl, zero_div_dbl, hl.sin_zero, mul_zero_dbl, zero_add_dbl, hl.sqrt_zero, sub_zero_dbl, hl.sqrt_one, hl.atan2_axis]

/-- **C186** (totality): with an ordinary library Afteran ends well in double precision for every catalogue of calendar dates and every documented window. -/
theorem C186_succeeds [Libm] (hl : Spec.Usual) {n : ℕ} {cat : Fin n → Row Dbl} {y m d : Fin n → ℤ} (hd : Spec.Dated cat y m d) (opt : String)
    (ho : opt = "GardnerKnopoff" ∨ opt = "Gruenthal" ∨ opt = "Uhrhammer") (w : Dbl) (asc id1 : Equiv.Perm (Fin n)) : ∃ r, afteran cat opt w asc id1 = .ok r := by
  obtain ⟨t, ht⟩ : ∃ t : Fin n → Dbl, Times cat t := by
    have : ∀ j, ∃ x : Dbl, decimalYear (cat j 0) (cat j 1) (cat j 2) = .ok x := by
      intro j
      obtain ⟨k, -, -, -, h⟩ := date_time (hd.date j)
      exact ⟨_, by rw [hd.year, hd.month, hd.day]; exact h⟩
    choose t ht using this
    exact ⟨t, ht⟩
  have hten : ((0 : ℕ) : Dbl) < (10.0 : Dbl) := by rw [lt_def, val_ten, val_nat_exact (by norm_num)]; norm_num
  obtain ⟨win, hwin, hpos⟩ : ∃ win : Dbl → Dbl × Dbl, timeDistWindow opt = .ok win ∧ ∀ x, 0 ≤ (win x).1 := by
    rcases ho with rfl | rfl | rfl
    · exact ⟨_, rfl, fun x => hl.rpow_nonneg _ _ hten⟩
    · exact ⟨_, rfl, fun x => hl.exp_nonneg _⟩
    · exact ⟨_, rfl, fun x => hl.exp_nonneg _⟩
  obtain ⟨s, hs⟩ := afLoop_ok (cat ∘ flipud asc) (t ∘ flipud asc) ((fun j => (win (cat j 5)).1) ∘ flipud asc) (w / ((365 : ℕ) : Dbl))
    (fun i => by rw [dist_self hl]; exact hpos _)
  exact ⟨_, af_run cat opt w asc id1 t win s ht hwin hs⟩

/-- An earthquake of magnitude 6 on 1 January 2000 and one of magnitude 5 at the same place on 11 January. -/
def tenDays : Fin 2 → Row Dbl := ![![((2000 : ℤ) : Dbl), ((1 : ℤ) : Dbl), ((1 : ℤ) : Dbl), 0, 0, ((6 : ℤ) : Dbl), 0], ![((2000 : ℤ) : Dbl), ((1 : ℤ) : Dbl), ((11 : ℤ) : Dbl), 0, 0, ((5 : ℤ) : Dbl), 0]]

theorem tenDays_dated : Spec.Dated tenDays ![2000, 2000] ![1, 1] ![1, 11] := by
  constructor
  · intro j; fin_cases j <;> rfl
  · intro j; fin_cases j <;> rfl
  · intro j; fin_cases j <;> rfl
  · intro j; fin_cases j <;> simp [IsDate, monthLen]
  · intro j; fin_cases j <;> simp

theorem tenDays_sorted : IsArgsort (fun j => tenDays j 5) Fin.revPerm := by
  intro a b hab
  have h56 : ((5 : ℤ) : Dbl) ≤ ((6 : ℤ) : Dbl) := by rw [le_def, val_int_exact (by norm_num), val_int_exact (by norm_num)]; norm_num
  have h : ∀ x : Dbl, x ≤ x := fun x => le_def.2 le_rfl
  revert hab
  fin_cases a <;> fin_cases b <;> simp [tenDays] <;> first | exact h _ | exact h56

/-- The times of the two earthquakes. -/
def tenDaysTimes : Fin 2 → Dbl := ![((2000 : ℤ) : Dbl) + ((0 : ℤ) : Dbl) / ((365 : ℕ) : Dbl), ((2000 : ℤ) : Dbl) + ((10 : ℤ) : Dbl) / ((365 : ℕ) : Dbl)]

theorem tenDays_times [Libm] : Times tenDays tenDaysTimes := by
  intro j
  have h := date_time (tenDays_dated.date j)
  obtain ⟨k, k0, k1, hk, hx⟩ := h
  fin_cases j
  · have : k = 0 := by simp [Spec.dayNo, Spec.daysBefore] at hk; omega
    subst this; exact hx
  · have : k = 10 := by simp [Spec.dayNo, Spec.daysBefore] at hk; omega
    subst this; exact hx

theorem tenDays_tests : ∀ i a b : Fin 2, (decide (a = b) = (decide ((tenDaysTimes b - tenDaysTimes i) - (tenDaysTimes a - tenDaysTimes i) ≥ (0.0 : Dbl)) &&
      decide ((tenDaysTimes b - tenDaysTimes i) - (tenDaysTimes a - tenDaysTimes i) ≤ ((10 : ℕ) : Dbl) / ((365 : ℕ) : Dbl)))) ∧
    (decide (a = b) = (decide ((tenDaysTimes b - tenDaysTimes i) - (tenDaysTimes a - tenDaysTimes i) ≤ (0.0 : Dbl)) &&
      decide ((tenDaysTimes b - tenDaysTimes i) - (tenDaysTimes a - tenDaysTimes i) ≥ -(((10 : ℕ) : Dbl) / ((365 : ℕ) : Dbl))))) := by
  show ∀ i a b : Fin 2, (decide (a = b) = (decide (((0.0 : Dbl)).val ≤ ((tenDaysTimes b - tenDaysTimes i) - (tenDaysTimes a - tenDaysTimes i)).val) &&
      decide (((tenDaysTimes b - tenDaysTimes i) - (tenDaysTimes a - tenDaysTimes i)).val ≤ (((10 : ℕ) : Dbl) / ((365 : ℕ) : Dbl)).val))) ∧
    (decide (a = b) = (decide (((tenDaysTimes b - tenDaysTimes i) - (tenDaysTimes a - tenDaysTimes i)).val ≤ (0.0 : Dbl).val) &&
      decide ((-(((10 : ℕ) : Dbl) / ((365 : ℕ) : Dbl))).val ≤ ((tenDaysTimes b - tenDaysTimes i) - (tenDaysTimes a - tenDaysTimes i)).val)))
  decide +kernel

theorem tenDays_near [Libm] (hl : Spec.Usual) (i j : Fin 2) :
    eventDist tenDays i j ≤ (gkWindow (tenDays i 5)).1 ∧ eventDist (Spec.exactly tenDays) i j ≤ (gkWindow (Spec.exactly tenDays i 5)).1 := by
  have hten : ((0 : ℕ) : Dbl) < (10.0 : Dbl) := by rw [lt_def, val_ten, val_nat_exact (by norm_num)]; norm_num
  have e : ∀ j : Fin 2, tenDays j 3 = 0 ∧ tenDays j 4 = 0 := by intro j; fin_cases j <;> exact ⟨rfl, rfl⟩
  constructor
  · rw [eventDist, (e i).1, (e i).2, (e j).1, (e j).2, dist_self hl]
    exact hl.rpow_nonneg _ _ hten
  · simp only [eventDist, Spec.exactly]
    rw [(e i).1, (e i).2, (e j).1, (e j).2, C49_self]
    exact (C47_windows_positive "GardnerKnopoff" gkWindow rfl _).1.le

theorem rev_refl : flipud (Fin.revPerm : Equiv.Perm (Fin 2)) = Equiv.refl _ := by
  ext a; simp [flipud]

/-- In double precision both earthquakes are kept. -/
theorem tenDays_dbl [Libm] (hl : Spec.Usual) : ∃ r, afteran tenDays "GardnerKnopoff" ((10 : ℕ) : Dbl) Fin.revPerm (Equiv.refl _) = .ok r ∧ r.flag = ![0, 0] := by
  have hs : ∃ s, (List.finRange 2).foldlM (tabStep (fun _ _ => true) (fun a b => decide (a = b)) (fun a b => decide (a = b))) (State.init 2) = some s ∧ s.flag = ![0, 0] := by
    have : ((List.finRange 2).foldlM (tabStep (fun _ _ => true) (fun a b => decide (a = b)) (fun a b => decide (a = b))) (State.init 2)).any (fun s => decide (s.flag = ![0, 0])) = true := by decide
    simpa [Option.any_eq_true] using this
  obtain ⟨s, hs, hf⟩ := hs
  refine ⟨_, af_run tenDays "GardnerKnopoff" _ Fin.revPerm (Equiv.refl _) tenDaysTimes gkWindow s tenDays_times rfl ?_, hf⟩
  rw [rev_refl]
  refine tabLoop_eq _ _ _ _ _ _ _ ?_ ?_ ?_ s hs
  · intro i j; exact (decide_eq_true (tenDays_near hl i j).1).symm
  · intro i a b; exact (tenDays_tests i a b).1
  · intro i a b; exact (tenDays_tests i a b).2

/-- In exact arithmetic the smaller one is removed. -/
theorem tenDays_exact [Libm] (hl : Spec.Usual) : ∃ r, afteran (Spec.exactly tenDays) "GardnerKnopoff" ((10 : ℕ) : ℝ) Fin.revPerm (Equiv.refl _) = .ok r ∧ r.flag = ![0, 1] := by
  have hs : ∃ s, (List.finRange 2).foldlM (tabStep (fun _ _ => true) (fun a b : Fin 2 => decide ((![730000, 730010] : Fin 2 → ℤ) a ≤ ![730000, 730010] b) &&
      decide ((![730000, 730010] : Fin 2 → ℤ) b - ![730000, 730010] a ≤ (10 : ℕ)))
      (fun a b => decide ((![730000, 730010] : Fin 2 → ℤ) b ≤ ![730000, 730010] a) && decide ((![730000, 730010] : Fin 2 → ℤ) a - ![730000, 730010] b ≤ (10 : ℕ)))) (State.init 2) = some s ∧ s.flag = ![0, 1] := by
    have : ((List.finRange 2).foldlM (tabStep (fun _ _ => true) (fun a b : Fin 2 => decide ((![730000, 730010] : Fin 2 → ℤ) a ≤ ![730000, 730010] b) &&
      decide ((![730000, 730010] : Fin 2 → ℤ) b - ![730000, 730010] a ≤ (10 : ℕ)))
      (fun a b => decide ((![730000, 730010] : Fin 2 → ℤ) b ≤ ![730000, 730010] a) && decide ((![730000, 730010] : Fin 2 → ℤ) a - ![730000, 730010] b ≤ (10 : ℕ)))) (State.init 2)).any
      (fun s => decide (s.flag = ![0, 1])) = true := by decide
    simpa [Option.any_eq_true] using this
  obtain ⟨s, hs, hf⟩ := hs
  have ht := exactly_times tenDays_dated
  have e : (fun j : Fin 2 => (Spec.dayNo ((![2000, 2000] : Fin 2 → ℤ) j) ((![1, 1] : Fin 2 → ℤ) j) ((![1, 11] : Fin 2 → ℤ) j) : ℝ) / 365) = fun j => (((![730000, 730010] : Fin 2 → ℤ) j : ℤ) : ℝ) / 365 := by
    funext j; fin_cases j <;> simp [Spec.dayNo, Spec.daysBefore]
  rw [e] at ht
  refine ⟨_, af_run (Spec.exactly tenDays) "GardnerKnopoff" _ Fin.revPerm (Equiv.refl _) _ gkWindow s ht rfl ?_, hf⟩
  rw [rev_refl]
  refine tabLoop_eq _ _ _ _ _ _ _ ?_ ?_ ?_ s hs
  · intro i j; exact (decide_eq_true (tenDays_near hl i j).2).symm
  · intro i a b
    obtain ⟨s1, -, s3, -⟩ := exact_tests ![730000, 730010] 10 i a b
    exact congrArg₂ _ (decide_eq_decide.2 s1.symm) (decide_eq_decide.2 s3.symm)
  · intro i a b
    obtain ⟨-, s2, -, s4⟩ := exact_tests ![730000, 730010] 10 i a b
    exact congrArg₂ _ (decide_eq_decide.2 s2.symm) (decide_eq_decide.2 s4.symm)

/-- **C186 is false of the code**, with any ordinary mathematical library: with a time window of ten days, an earthquake of magnitude 5 ten days after one of magnitude 6 at the same place is an
aftershock in exact arithmetic, and kept in double precision: the difference of the decimal years 2000 and 2000 + 10/365 is larger than the quotient 10/365. -/
theorem C186_fails [Libm] (hl : Spec.Usual) :
    ¬ ∀ (n : ℕ) (cat : Fin n → Row Dbl) (y m d : Fin n → ℤ) (opt : String) (w : ℕ) (asc id1 : Equiv.Perm (Fin n)) (r : Result Dbl n) (r' : Result ℝ n),
      Spec.Dated cat y m d → Spec.SameDistances cat opt → IsArgsort (fun j => cat j 5) asc → IsArgsort (flipud asc) id1 →
      afteran cat opt (w : Dbl) asc id1 = .ok r → afteran (Spec.exactly cat) opt (w : ℝ) asc id1 = .ok r' → r.flag = r'.flag := by
  intro hall
  obtain ⟨r, h1, f1⟩ := tenDays_dbl hl
  obtain ⟨r', h2, f2⟩ := tenDays_exact hl
  have h := hall 2 tenDays _ _ _ "GardnerKnopoff" 10 Fin.revPerm (Equiv.refl _) r r' tenDays_dated ?_ tenDays_sorted ?_ h1 h2
  · rw [f1, f2] at h
    exact absurd (congrFun h 1) (by decide)
  · intro win win' hw hw' i j
    cases hw; cases hw'
    exact iff_of_true (tenDays_near hl i j).1 (tenDays_near hl i j).2
  · rw [rev_refl]; intro a b hab; exact hab

/-- A library with the usual values. -/
@[reducible] def someLibm : Libm := ⟨fun _ => 0, id, id, id, id, id, fun x _ => x, fun _ _ => 0, .of 0⟩

theorem someLibm_usual : @Spec.Usual someLibm := by
  let _ := someLibm
  exact ⟨rfl, rfl, rfl, rfl, fun _ _ _ => le_def.2 le_rfl, fun _ => le_def.2 le_rfl⟩

/-- Non-vacuity of C184, C185 and C186: the earthquakes of `tenDays` are sorted and dated, a run with a window of eleven days succeeds and no two of them are eleven days apart. -/
example : ∃ r, (@afteran Dbl (@instPyMathDbl someLibm) 2 tenDays "GardnerKnopoff" ((11 : ℕ) : Dbl) Fin.revPerm (Equiv.refl _) = .ok r) ∧
    (∀ a b : Fin 2, Spec.dayNo ((![2000, 2000] : Fin 2 → ℤ) b) ((![1, 1] : Fin 2 → ℤ) b) ((![1, 11] : Fin 2 → ℤ) b) -
      Spec.dayNo ((![2000, 2000] : Fin 2 → ℤ) a) ((![1, 1] : Fin 2 → ℤ) a) ((![1, 11] : Fin 2 → ℤ) a) ≠ (11 : ℕ)) ∧ IsArgsort (fun j => tenDays j 5) Fin.revPerm := by
  let _ := someLibm
  obtain ⟨r, h⟩ := C186_succeeds someLibm_usual tenDays_dated "GardnerKnopoff" (Or.inl rfl) ((11 : ℕ) : Dbl) Fin.revPerm (Equiv.refl _)
  exact ⟨r, h, by decide, tenDays_sorted⟩

end Verif.Declustering
