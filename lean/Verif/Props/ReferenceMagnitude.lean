import Verif.Props.MagnitudeShift

/-!
# Property C119: the reference magnitude of the recurrence analysis
-/

namespace Verif.Recurrence

open Verif Verif.Np

/-- What a Gutenberg-Richter relation demands of the results for two reference magnitudes: same b-value and error, rates on one line. -/
def Spec.OneLine (ref ref' : ℝ) (r r' : GR ℝ) : Prop :=
  r'.b = r.b ∧ r'.sigb = r.sigb ∧ r'.a = r.a * (10 : ℝ) ^ (-r.b * (ref' - ref))

/-- C119 for one algorithm. -/
def Spec.ReferenceMagnitude (algorithm : String) : Prop :=
  ∀ (ev table : List (ℝ × ℝ)) (dmag ref ref' dt : ℝ) (fuel : ℕ) (r r' : GR ℝ), 0 < dmag → 0 < dt →
    recurrenceAnalysis ev table dmag algorithm ref dt fuel = .ok (some r) →
    recurrenceAnalysis ev table dmag algorithm ref' dt fuel = .ok (some r') → Spec.OneLine ref ref' r r'

/-! ### Weichert -/

theorem ten_rpow_b (x y : ℝ) : (10 : ℝ) ^ (-(x / Real.log 10) * y) = Real.exp (-x * y) := by
  have hl : Real.log 10 ≠ 0 := (Real.log_pos (by norm_num)).ne'
  rw [Real.rpow_def_of_pos (by norm_num)]
  congr 1
  field_simp

theorem wResult_b (w : List (WBin ℝ)) (m0 dM mrate β : ℝ) : (wResult w m0 dM mrate β).b = newton w β / Real.log 10 := by
  simp only [wResult, log_real]
  rw [show (10.0 : ℝ) = 10 by norm_num]

/-- The results of an iteration for two reference magnitudes. -/
theorem wResult_reference (w : List (WBin ℝ)) (m0 dM ref ref' β : ℝ) :
    (wResult w m0 dM ref' β).b = (wResult w m0 dM ref β).b ∧ (wResult w m0 dM ref' β).sigb = (wResult w m0 dM ref β).sigb ∧
    (ref ≠ 0 → ref' ≠ 0 → (wResult w m0 dM ref' β).a = (wResult w m0 dM ref β).a * (10 : ℝ) ^ (-(wResult w m0 dM ref β).b * (ref' - ref)) ∧
      (wResult w m0 dM ref' β).siga * (wResult w m0 dM ref β).a = (wResult w m0 dM ref β).siga * (wResult w m0 dM ref' β).a) := by
  refine ⟨rfl, rfl, fun h h' => ⟨?_, ?_⟩⟩
  · rw [wResult_b, ten_rpow_b]
    simp only [wResult, decEq_real, h, h', decide_false, Bool.false_eq_true, if_false, exp_real]
    rw [show (2.0 : ℝ) = 2 by norm_num]
    rw [mul_assoc (_ * _) (Real.exp _) (Real.exp _), ← Real.exp_add]
    congr 2
    ring
  · simp only [wResult, decEq_real, h, h', decide_false, Bool.false_eq_true, if_false]
    rw [show (2.0 : ℝ) = 2 by norm_num]
    ring

theorem weichertLoop_reference (w : List (WBin ℝ)) (m0 dM ref ref' itstab : ℝ) (fuel : ℕ) (β : ℝ) {r : GR ℝ}
    (h : weichertLoop w m0 dM ref itstab fuel β = some r) :
    ∃ β', npAbs (newton w β' - β') ≤ itstab ∧ r = wResult w m0 dM ref β' ∧ weichertLoop w m0 dM ref' itstab fuel β = some (wResult w m0 dM ref' β') := by
  induction fuel generalizing β with
  | zero => simp [weichertLoop] at h
  | succ fuel ih =>
    simp only [weichertLoop] at h ⊢
    split_ifs at h ⊢ with hc
    · exact ⟨β, hc, (Option.some.inj h).symm, rfl⟩
    · exact ih _ h

theorem weichert_reference {ev table : List (ℝ × ℝ)} {dmag ref ref' dt : ℝ} {fuel : ℕ} {r : GR ℝ}
    (h : recurrenceAnalysis ev table dmag "Weichert" ref dt fuel = .ok (some r)) :
    ∃ x0 x1 rest β, weichertPrep ev table dmag dt = .ok (x0 :: x1 :: rest) ∧
      |newton (x0 :: x1 :: rest) β - β| ≤ 1e-5 ∧ r = wResult (x0 :: x1 :: rest) x0.m (x1.m - x0.m) ref β ∧
      recurrenceAnalysis ev table dmag "Weichert" ref' dt fuel =
        .ok (some (wResult (x0 :: x1 :: rest) x0.m (x1.m - x0.m) ref' β)) := by
  simp only [recurrenceAnalysis, if_true] at h
  cases hw : weichertPrep ev table dmag dt with
  | error e => rw [hw] at h; cases h
  | ok w =>
  rw [hw] at h
  simp only [bind_ok] at h
  match w, hw, h with
  | x0 :: x1 :: rest, hw, h =>
    simp only [weichert, Except.ok.injEq] at h
    obtain ⟨β, hs, h1, h2⟩ := weichertLoop_reference _ _ _ _ ref' _ _ _ h
    rw [npAbs_real] at hs
    refine ⟨x0, x1, rest, β, rfl, hs, h1, ?_⟩
    simp only [recurrenceAnalysis, if_true, hw, bind_ok, weichert, h2]

/-- **C119 (Weichert, part that holds)**: if the analysis returns for one reference magnitude, it does for any other; b-value and error are the
same; for reference magnitudes other than 0 the rates lie on the line of the b-value and have the same relative error.  Missing: the reference
magnitude 0 (`C119_weichert_fails`). -/
theorem C119_weichert_partial {ev table : List (ℝ × ℝ)} {dmag ref : ℝ} (ref' : ℝ) {dt : ℝ} {fuel : ℕ} {r : GR ℝ}
    (h : recurrenceAnalysis ev table dmag "Weichert" ref dt fuel = .ok (some r)) :
    ∃ r', recurrenceAnalysis ev table dmag "Weichert" ref' dt fuel = .ok (some r') ∧ r'.b = r.b ∧ r'.sigb = r.sigb ∧
      (ref ≠ 0 → ref' ≠ 0 → Spec.OneLine ref ref' r r' ∧ r'.siga * r.a = r.siga * r'.a) := by
  obtain ⟨x0, x1, rest, β, -, -, rfl, h'⟩ := weichert_reference (ref' := ref') h
  obtain ⟨h1, h2, h3⟩ := wResult_reference (x0 :: x1 :: rest) x0.m (x1.m - x0.m) ref ref' β
  exact ⟨_, h', h1, h2, fun a b => ⟨⟨h1, h2, (h3 a b).1⟩, (h3 a b).2⟩⟩

/-- The premise is met, for example, by the catalogue `ev63b`. -/
example : ∃ fuel r, recurrenceAnalysis ev63b table63b 0.1 "Weichert" 4 1 fuel = .ok (some r) := by
  obtain ⟨w, fuel, r, hw, hr⟩ := returns63b
  exact ⟨fuel, r, by simp only [recurrenceAnalysis, if_true, hw, bind_ok, hr]⟩

/-- The likelihood of the bins of `ev63b` is not stationary near zero: the b-value is not 0. -/
theorem newton63b_ne_zero (β : ℝ) (hs : |newton [⟨51, 4.05, 2⟩, ⟨51, 4.15, 1⟩] β - β| ≤ 1e-5) : newton [⟨51, 4.05, 2⟩, ⟨51, 4.15, 1⟩] β ≠ 0 := by
  intro h0
  rw [h0] at hs
  have hβ : |β| ≤ 1e-5 := by simpa using hs
  obtain ⟨hl, hu⟩ := abs_le.mp hβ
  have hN : newton [⟨51, 4.05, 2⟩, ⟨51, 4.15, 1⟩] β = 0 := h0
  rw [newton, dldb_real, d2ldb2_real] at hN
  simp only [moment, total, magSum, List.map_cons, List.map_nil, List.sum_cons, List.sum_nil, pow_zero, pow_one, mul_one, add_zero] at hN
  have e1 : Real.exp (-β * 4.15) = Real.exp (-β * 4.05) * Real.exp (-0.1 * β) := by rw [← Real.exp_add]; congr 1; norm_num; ring
  have q1 : (0.9 : ℝ) ≤ Real.exp (-0.1 * β) := by
    have := Real.add_one_le_exp (-0.1 * β)
    norm_num at hl hu this ⊢
    linarith
  have q2 : Real.exp (-0.1 * β) ≤ 1.1 := by
    have h1 := Real.add_one_le_exp (0.1 * β)
    have h2 : Real.exp (-0.1 * β) * Real.exp (0.1 * β) = 1 := by rw [← Real.exp_add]; simp
    have h3 : (0.95 : ℝ) ≤ Real.exp (0.1 * β) := by norm_num at hl hu h1 ⊢; linarith
    have h4 := Real.exp_pos (-0.1 * β)
    nlinarith
  rw [e1] at hN
  have hp := Real.exp_pos (-β * 4.05)
  generalize Real.exp (-β * 4.05) = p at *
  generalize Real.exp (-0.1 * β) = q at *
  have hq : 0 < 1 + q := by linarith
  have m1 : (51 * 4.05 * p + 51 * 4.15 * (p * q)) / (51 * p + 51 * (p * q)) = (4.05 + 4.15 * q) / (1 + q) := by field_simp
  have m2 : (51 * 4.05 ^ 2 * p + 51 * 4.15 ^ 2 * (p * q)) / (51 * p + 51 * (p * q)) = (4.05 ^ 2 + 4.15 ^ 2 * q) / (1 + q) := by field_simp
  rw [m1, m2] at hN
  have d1 : (4.05 + 4.15 * q) / (1 + q) * (((2 : ℕ) : ℝ) + ((1 : ℕ) : ℝ)) - (((2 : ℕ) : ℝ) * 4.05 + ((1 : ℕ) : ℝ) * 4.15) = (0.2 * q - 0.1) / (1 + q) := by
    push_cast; field_simp; ring
  have d2 : (((2 : ℕ) : ℝ) + ((1 : ℕ) : ℝ)) * ((4.05 + 4.15 * q) / (1 + q) * ((4.05 + 4.15 * q) / (1 + q)) - (4.05 ^ 2 + 4.15 ^ 2 * q) / (1 + q)) =
      -(0.03 * q) / (1 + q) ^ 2 := by
    push_cast; field_simp; ring
  rw [d1, d2] at hN
  have d3 : (0.2 * q - 0.1) / (1 + q) / (-(0.03 * q) / (1 + q) ^ 2) = -((0.2 * q - 0.1) * (1 + q) / (0.03 * q)) := by field_simp
  rw [d3] at hN
  have : 1 ≤ (0.2 * q - 0.1) * (1 + q) / (0.03 * q) := by
    rw [le_div_iff₀ (by linarith)]; nlinarith
  norm_num at hu hl
  linarith

/-- **C119 (refuted for Weichert)**: at the reference magnitude 0 the code returns the rate above the lower edge of the bins.  For `ev63b` that
is the rate at magnitude 4. -/
theorem C119_weichert_fails : ¬ Spec.ReferenceMagnitude "Weichert" := by
  intro H
  obtain ⟨w, fuel, r, hw, hr⟩ := returns63b
  obtain rfl := prep63b hw
  have h4 : recurrenceAnalysis ev63b table63b 0.1 "Weichert" 4 1 fuel = .ok (some r) := by
    simp only [recurrenceAnalysis, if_true, hw, bind_ok, hr]
  obtain ⟨x0, x1, rest, β, hw', hs, rfl, h0⟩ := weichert_reference (ref' := 0) h4
  obtain ⟨rfl, rfl, rfl⟩ : x0 = ⟨51, 4.05, 2⟩ ∧ x1 = ⟨51, 4.15, 1⟩ ∧ rest = [] := by
    rw [hw] at hw'
    simpa [eq_comm] using hw'
  have e := (H _ _ _ 4 0 _ _ _ _ (by norm_num) (by norm_num) h4 h0).2.2
  have hne := newton63b_ne_zero β hs
  rw [wResult_b, ten_rpow_b] at e
  have hd : PyNum.decEq (4 : ℝ) 0 = false := by rw [decEq_real]; norm_num
  have hd0 : PyNum.decEq (0 : ℝ) 0 = true := by rw [decEq_real]; norm_num
  simp only [wResult, hd, hd0, Bool.false_eq_true, if_false, if_true, exp_real] at e
  generalize newton [⟨51, 4.05, 2⟩, ⟨51, 4.15, 1⟩] β = b at *
  rw [mul_assoc _ (Real.exp _) (Real.exp _), ← Real.exp_add] at e
  have hpos : 0 < (wSums [⟨51, 4.05, 2⟩, ⟨51, 4.15, 1⟩] β).nkount *
      ((wSums [⟨51, 4.05, 2⟩, ⟨51, 4.15, 1⟩] β).sumexp / (wSums [⟨51, 4.05, 2⟩, ⟨51, 4.15, 1⟩] β).sumtex) := by
    simp only [wSums, npSum_real, exp_real, List.map_cons, List.map_nil, List.sum_cons, List.sum_nil]
    positivity
  have e1 : Real.exp (-b * (4 - (4.05 - (4.15 - 4.05) / 2.0)) + -b * (0 - 4)) = 1 := by
    have := mul_left_cancel₀ hpos.ne' ((mul_one _).trans e)
    exact this.symm
  rw [Real.exp_eq_one_iff] at e1
  norm_num at e1
  exact hne e1

/-! ### Maximum likelihood -/

/-- A period for two reference magnitudes. -/
def PeriodLine (ref ref' : ℝ) (p p' : Period ℝ) : Prop :=
  p'.b = p.b ∧ p'.sigb = p.sigb ∧ p'.n = p.n ∧ p'.rate = p.rate * (10 : ℝ) ^ (-p.b * (ref' - ref))

theorem period_reference {ev : List (ℝ × ℝ)} {dmag ref c : ℝ} (ref' : ℝ) {g : List ℝ} {p : Period ℝ} (h : period ev dmag ref c g = .ok p) :
    ∃ p', period ev dmag ref' c g = .ok p' ∧ PeriodLine ref ref' p p' := by
  obtain ⟨p', hp'⟩ : ∃ p', period ev dmag ref' c g = .ok p' := by
    unfold period at h ⊢
    simp only [bind, Except.bind] at h ⊢
    rcases hg : npMin g with e | mc
    · simp [hg] at h
    simp only [hg] at h ⊢
    rcases hM : npMax ((periodEvents ev c mc).map Prod.fst) with e | y1
    · simp [hM] at h
    simp only [hM] at h ⊢
    rcases hm : npMin ((periodEvents ev c mc).map Prod.fst) with e | y0
    · simp [hm] at h
    simp only [hm] at h ⊢
    rcases ht : recurrenceTable (periodEvents ev c mc) dmag with e | t
    · simp [ht] at h
    simp only [ht] at h ⊢
    rcases hb : bMaxLikelihood (t.map fun r => (r.mval, r.nObs)) dmag mc with e | b
    · simp [hb] at h
    rw [hb]
    exact ⟨_, rfl⟩
  obtain ⟨h1, h2, h3, h4⟩ := C64_reference h hp'
  exact ⟨p', hp', h1.symm, h2.symm, h3.symm, h4⟩

theorem periods_reference {ev table : List (ℝ × ℝ)} {dmag ref : ℝ} (ref' : ℝ) (i : ℕ) {ps : List (Period ℝ)}
    (hp : periods ev table dmag ref i = .ok ps) :
    ∃ ps', periods ev table dmag ref' i = .ok ps' ∧ List.Forall₂ (PeriodLine ref ref') ps ps' := by
  induction hn : table.length - i using Nat.strong_induction_on generalizing i ps with
  | _ n ih =>
    rw [periods] at hp ⊢
    by_cases hi : i < table.length
    · simp only [hi, dite_true] at hp ⊢
      by_cases hg : (groupOf table table[i].1).length = 0
      · simp [hg] at hp
      · simp only [hg, dite_false] at hp ⊢
        cases h1 : period ev dmag ref table[i].1 (groupOf table table[i].1) with
        | error e => rw [h1] at hp; cases hp
        | ok p =>
        cases h2 : periods ev table dmag ref (i + (groupOf table table[i].1).length) with
        | error e => rw [h1, h2] at hp; cases hp
        | ok ps1 =>
        rw [h1, h2] at hp
        cases hp
        obtain ⟨p', q1, r1⟩ := period_reference ref' h1
        obtain ⟨ps', q2, r2⟩ := ih _ (by omega) _ h2 rfl
        exact ⟨p' :: ps', by rw [q1, q2]; rfl, .cons r1 r2⟩
    · simp only [hi, dite_false] at hp ⊢
      cases hp
      exact ⟨[], rfl, .nil⟩

/-- Weighted means over the periods for two reference magnitudes. -/
theorem weighted_line {ref ref' : ℝ} {ps ps' : List (Period ℝ)} (h : List.Forall₂ (PeriodLine ref ref') ps ps') (f g : Period ℝ → ℝ)
    (hf : ∀ p p', PeriodLine ref ref' p p' → f p' = g p) : weighted ps' f = weighted ps g := by
  have e1 : (ps'.map fun p => (p.n : ℝ)) = ps.map fun p => (p.n : ℝ) := by
    induction h with
    | nil => rfl
    | cons h1 _ ih => simp only [List.map_cons, ih, h1.2.2.1]
  simp only [weighted, e1]
  generalize npSum (ps.map fun p => (p.n : ℝ)) = T
  congr 1
  clear e1
  induction h with
  | nil => rfl
  | cons h1 _ ih => simp only [List.map_cons, ih, h1.2.2.1, hf _ _ h1]

theorem mle_reference {ev table : List (ℝ × ℝ)} {dmag ref : ℝ} (ref' : ℝ) {r : GR ℝ} (h : bMaxlikeTime ev table dmag ref = .ok r) :
    ∃ ps r', periods ev table dmag ref 0 = .ok ps ∧ bMaxlikeTime ev table dmag ref' = .ok r' ∧ r'.b = r.b ∧ r'.sigb = r.sigb ∧
      r.b = weighted ps Period.b ∧ r.a = weighted ps Period.rate ∧
      r'.a = weighted ps fun p => p.rate * (10 : ℝ) ^ (-p.b * (ref' - ref)) := by
  unfold bMaxlikeTime at h ⊢
  simp only [bind, Except.bind] at h ⊢
  rcases hp : periods ev table dmag ref 0 with e | ps
  · simp [hp] at h
  obtain ⟨ps', hp', hl⟩ := periods_reference ref' 0 hp
  simp only [hp, hp'] at h ⊢
  split_ifs at h with he
  have he' : ps'.isEmpty ≠ true := by
    cases hl with
    | nil => exact he
    | cons => simp
  rw [if_neg he']
  simp only [pure, Except.pure, Except.ok.injEq] at h
  subst h
  exact ⟨ps, _, rfl, rfl, weighted_line hl _ _ fun p p' h => h.1, weighted_line hl _ _ fun p p' h => h.2.1, rfl, rfl,
    weighted_line hl _ _ fun p p' h => h.2.2.2⟩

/-- **C119 (maximum likelihood, part that holds)**: if the analysis returns for one reference magnitude, it does for any other; b-value and error
are the same; the rate changes by a factor between the ones of the smallest and of the largest b-value of the completeness periods.  So the rates
lie on the line of the b-value if the table has one completeness year.  Missing: the line for several completeness years (`C119_mle_fails`). -/
theorem C119_mle_partial {ev table : List (ℝ × ℝ)} {dmag ref : ℝ} (ref' : ℝ) {dt : ℝ} {fuel : ℕ} {algorithm : String} (ha : algorithm ≠ "Weichert")
    {r : GR ℝ} (h : recurrenceAnalysis ev table dmag algorithm ref dt fuel = .ok (some r)) :
    ∃ r', recurrenceAnalysis ev table dmag algorithm ref' dt fuel = .ok (some r') ∧ r'.b = r.b ∧ r'.sigb = r.sigb ∧
      (∃ c ∈ table, ∃ c' ∈ table, ∃ p p', period ev dmag ref c.1 (groupOf table c.1) = .ok p ∧
        period ev dmag ref c'.1 (groupOf table c'.1) = .ok p' ∧ r.a * (10 : ℝ) ^ (-p.b * (ref' - ref)) ≤ r'.a ∧
        r'.a ≤ r.a * (10 : ℝ) ^ (-p'.b * (ref' - ref))) ∧
      ((∀ c ∈ table, ∀ c' ∈ table, c.1 = c'.1) → Spec.OneLine ref ref' r r') := by
  simp only [recurrenceAnalysis, ha, if_false] at h ⊢
  cases hb : bMaxlikeTime ev table dmag ref with
  | error e => rw [hb] at h; cases h
  | ok r0 =>
  rw [hb] at h
  simp only [bind_ok, pure, Except.pure, Except.ok.injEq, Option.some.injEq] at h
  subst h
  obtain ⟨ps, r', hps, hr', h1, h2, h3, h4, h5⟩ := mle_reference ref' hb
  obtain ⟨ps1, hps1, hne, hn, -, -, hrow, -, -, -, -⟩ := C59_average hb
  obtain rfl : ps = ps1 := by rw [hps] at hps1; exact Except.ok.inj hps1
  have hpos : ∀ p ∈ ps, 0 < p.rate := by
    intro p hp
    obtain ⟨c, -, hc⟩ := hrow p hp
    obtain ⟨mc, ny, -, -, -, -, hr, -⟩ := period_ok hc
    rw [hr]; exact Real.rpow_pos_of_pos (by norm_num) _
  have hS : 0 < (ps.map fun p => p.rate * (p.n : ℝ)).sum := by
    obtain ⟨p, hp⟩ := List.exists_mem_of_ne_nil ps hne
    refine list_sum_pos ?_ ⟨_, List.mem_map.mpr ⟨p, hp, rfl⟩, mul_pos (hpos p hp) (by exact_mod_cast hn p hp)⟩
    intro x hx
    simp only [List.mem_map] at hx
    obtain ⟨y, hy, rfl⟩ := hx
    exact mul_nonneg (hpos y hy).le (Nat.cast_nonneg _)
  have hN : 0 < (ps.map fun p => (p.n : ℝ)).sum := by
    obtain ⟨p, hp⟩ := List.exists_mem_of_ne_nil ps hne
    refine list_sum_pos ?_ ⟨_, List.mem_map.mpr ⟨p, hp, rfl⟩, by exact_mod_cast hn p hp⟩
    intro x hx
    simp only [List.mem_map] at hx
    obtain ⟨y, hy, rfl⟩ := hx
    exact Nat.cast_nonneg _
  rw [weighted_eq] at h4 h5
  have hfac : r'.a = r0.a * ((ps.map fun p => (10 : ℝ) ^ (-p.b * (ref' - ref)) * (p.rate * (p.n : ℝ))).sum / (ps.map fun p => p.rate * (p.n : ℝ)).sum) := by
    rw [h5, h4, div_mul_div_comm, mul_comm (List.sum (ps.map fun p => (p.n : ℝ))), mul_div_mul_left _ _ hS.ne']
    congr 2
    exact List.map_congr_left fun p _ => by ring
  have ha0 : 0 < r0.a := by rw [h4]; positivity
  obtain ⟨p, hp, hmin⟩ := exists_min hne fun p => (10 : ℝ) ^ (-p.b * (ref' - ref))
  obtain ⟨q, hq, hmax⟩ := exists_max hne fun p => (10 : ℝ) ^ (-p.b * (ref' - ref))
  have hw : ∀ x ∈ ps, 0 ≤ x.rate * (x.n : ℝ) := fun x hx => mul_nonneg (hpos x hx).le (Nat.cast_nonneg _)
  refine ⟨r', by rw [hr']; rfl, h1, h2, ?_, ?_⟩
  · obtain ⟨c, hc, hcp⟩ := hrow p hp
    obtain ⟨c', hc', hcq⟩ := hrow q hq
    refine ⟨c, hc, c', hc', p, q, hcp, hcq, ?_, ?_⟩
    · rw [hfac]; exact mul_le_mul_of_nonneg_left (mean_ge hw hS hmin) ha0.le
    · rw [hfac]; exact mul_le_mul_of_nonneg_left (mean_le hw hS hmax) ha0.le
  · intro hone
    have hsame : ∀ x ∈ ps, x.b = p.b := by
      intro x hx
      obtain ⟨c, hc, hcp⟩ := hrow p hp
      obtain ⟨c', hc', hcx⟩ := hrow x hx
      rw [hone c' hc' c hc, hcp] at hcx
      rw [Except.ok.inj hcx]
    have hb' : r0.b = p.b := by
      rw [h3, weighted_eq, List.map_congr_left (g := fun x : Period ℝ => p.b * (x.n : ℝ)) (fun x hx => by rw [hsame x hx]), sum_map_mul]
      field_simp
    refine ⟨h1, h2, ?_⟩
    rw [hfac, List.map_congr_left (g := fun x : Period ℝ => (10 : ℝ) ^ (-p.b * (ref' - ref)) * (x.rate * (x.n : ℝ))) (fun x hx => by rw [hsame x hx]),
      sum_map_mul, hb']
    field_simp

/-- The premise is met, with one completeness year. -/
example : ∃ r, recurrenceAnalysis [((2000 : ℝ), (6 : ℝ)), (2000, 5)] [(2000, 5)] 1 "MLE" 4 1 0 = .ok (some r) := by
  obtain ⟨b, s, -, h⟩ := mle31 5 4 le_rfl (by norm_num)
  obtain ⟨t, ht⟩ := h 5 (by norm_num) (by norm_num)
  exact ⟨_, by simp only [recurrenceAnalysis, show ("MLE" : String) ≠ "Weichert" by decide, if_false, ht, bind_ok]; rfl⟩

/-! A catalogue with two completeness years and two b-values -/

/-- The recurrence table of two events of magnitude 6. -/
theorem table119 : recurrenceTable [((2000 : ℝ), (6 : ℝ)), (1990, 6)] 1 = .ok [⟨6.5, 2, 2, 2 / 11, 2 / 11⟩] := by
  have hc6 : PyNum.ceilZ ((10.0 : ℝ) * 6) = 60 := by
    show ⌈(10.0 : ℝ) * 6⌉ = 60
    rw [show (10.0 : ℝ) * 6 = ((60 : ℤ) : ℝ) by norm_num, Int.ceil_intCast]
  have hf6 : PyNum.floorZ ((10.0 : ℝ) * 6) = 60 := by
    show ⌊(10.0 : ℝ) * 6⌋ = 60
    rw [show (10.0 : ℝ) * 6 = ((60 : ℤ) : ℝ) by norm_num, Int.floor_intCast]
  have hlen : arangeLen (((60 : ℤ) : ℝ) / 10.0) (((60 : ℤ) : ℝ) / 10.0 + (((2 : ℕ) : ℝ) * 1)) 1 = 2 := by
    unfold arangeLen
    show (⌈_⌉).toNat = 2
    rw [show ((((60 : ℤ) : ℝ) / 10.0 + (((2 : ℕ) : ℝ) * 1)) - ((60 : ℤ) : ℝ) / 10.0) / 1 = ((2 : ℤ) : ℝ) by norm_num, Int.ceil_intCast]
    rfl
  have hd : PyNum.decEq (1 : ℝ) 0 = false := by
    show decide ((1 : ℝ) = 0) = false
    simp
  have ha : ∀ i, arangeAt (((60 : ℤ) : ℝ) / 10.0) (1 : ℝ) i = 6 + i := by
    intro i
    rw [arangeAt_real]
    norm_num
  have hh : histogram (arangeAt (((60 : ℤ) : ℝ) / 10.0) (1 : ℝ)) 1 [6, 6] = [2] := by
    unfold histogram inBin
    simp only [ha, List.range_succ, List.range_zero, List.nil_append, List.map_cons, List.map_nil, List.countP_cons, List.countP_nil]
    norm_num
  unfold recurrenceTable
  simp only [List.map_cons, List.map_nil]
  rw [npMax_two (by norm_num), npMin_two (by norm_num), hc6, hf6, npMax_two le_rfl, npMin_two le_rfl]
  simp only [bind, Except.bind, hd, Bool.false_eq_true, if_false, hlen, show (2 : ℕ) ≠ 0 by decide, show 2 - 1 = 1 from rfl, hh, ha, List.range_succ,
    List.range_zero, List.nil_append, List.map_cons, List.map_nil, pure, Except.pure]
  norm_num

/-- Three events. -/
noncomputable def ev119 : List (ℝ × ℝ) := [(2000, 6), (2000, 5), (1990, 6)]

/-- Two completeness years. -/
noncomputable def table119t : List (ℝ × ℝ) := [(2000, 5), (1990, 6)]

/-- Their periods for any reference magnitude: b-values in the ratio of 1 to 2, two events each. -/
theorem periods119 (ref : ℝ) : ∃ p q : Period ℝ, periods ev119 table119t 1 ref 0 = .ok [p, q] ∧ p.n = 2 ∧ q.n = 2 ∧ 0 < p.b ∧ q.b = 2 * p.b ∧
    0 < p.rate ∧ 0 < q.rate := by
  have hsel1 : periodEvents ev119 2000 5 = [(2000, 6), (2000, 5)] := by
    simp only [periodEvents, ev119, List.filter_cons, List.filter_nil, ge_iff_le, le_refl]
    norm_num
  have hsel2 : periodEvents ev119 1990 6 = [(2000, 6), (1990, 6)] := by
    simp only [periodEvents, ev119, List.filter_cons, List.filter_nil, ge_iff_le, le_refl]
    norm_num
  have ok : ∀ (h : List (ℝ × ℕ)) (mc : ℝ), (∃ r ∈ h, mc ≤ r.1 ∧ 0 < r.2) → ∃ b s, bMaxLikelihood h 1 mc = .ok (b, s) ∧ 0 < b := by
    intro h mc hex
    obtain ⟨b, s, hb, hpos, -, -⟩ := C58_b_value one_pos hex
    exact ⟨b, s, hb, hpos⟩
  obtain ⟨b1, s1, hb1, hp1⟩ := ok [((5.5 : ℝ), 1), (6.5, 1)] 5 ⟨(5.5, 1), by simp, by norm_num, by norm_num⟩
  obtain ⟨b2, s2, hb2, hp2⟩ := ok [((6.5 : ℝ), 2)] 6 ⟨(6.5, 2), by simp, by norm_num, by norm_num⟩
  have e : b2 = 2 * b1 := by
    obtain ⟨m1, hm1, e1⟩ := C58_value hb1
    obtain ⟨m2, hm2, e2⟩ := C58_value hb2
    obtain rfl : m1 = 5.5 := hm1.unique ⟨⟨by norm_num, 1, by simp⟩, by
      rintro x ⟨-, n, hx⟩
      simp only [List.mem_cons, Prod.mk.injEq, List.not_mem_nil, or_false] at hx
      rcases hx with ⟨rfl, -⟩ | ⟨rfl, -⟩ <;> norm_num⟩
    obtain rfl : m2 = 6.5 := hm2.unique ⟨⟨by norm_num, 2, by simp⟩, by
      rintro x ⟨-, n, hx⟩
      simp only [List.mem_cons, Prod.mk.injEq, List.not_mem_nil, or_false] at hx
      rcases hx with ⟨rfl, -⟩; norm_num⟩
    have f1 : ([((5.5 : ℝ), 1), (6.5, 1)] : List (ℝ × ℕ)).filter (fun r => decide ((5 : ℝ) ≤ r.1)) = [((5.5 : ℝ), 1), (6.5, 1)] := by
      simp only [List.filter_cons, List.filter_nil]; norm_num
    have f2 : ([((6.5 : ℝ), 2)] : List (ℝ × ℕ)).filter (fun r => decide ((6 : ℝ) ≤ r.1)) = [((6.5 : ℝ), 2)] := by
      simp only [List.filter_cons, List.filter_nil]; norm_num
    rw [f1] at e1
    rw [f2] at e2
    rw [e1, e2]
    simp only [List.map_cons, List.map_nil, List.sum_cons, List.sum_nil]
    norm_num
    ring
  obtain ⟨p, hp, hpb, hpn⟩ : ∃ p, period ev119 1 ref 2000 [5] = .ok p ∧ p.b = b1 ∧ p.n = 2 := by
    unfold period
    simp only [npMin, List.foldl_nil, bind, Except.bind, hsel1, List.map_cons, List.map_nil]
    have e := npMax_two (le_refl (2000 : ℝ))
    have e' := npMin_two (le_refl (2000 : ℝ))
    simp only [npMin] at e'
    rw [e]
    simp only [table31 5 le_rfl (by norm_num), List.map_cons, List.map_nil, hb1, pure, Except.pure, Except.ok.injEq, exists_eq_left']
    exact ⟨trivial, rfl⟩
  obtain ⟨q, hq, hqb, hqn⟩ : ∃ q, period ev119 1 ref 1990 [6] = .ok q ∧ q.b = b2 ∧ q.n = 2 := by
    unfold period
    simp only [npMin, List.foldl_nil, bind, Except.bind, hsel2, List.map_cons, List.map_nil]
    have e := npMax_two (show (1990 : ℝ) ≤ 2000 by norm_num)
    rw [e]
    simp only [table119, List.map_cons, List.map_nil, hb2, pure, Except.pure, Except.ok.injEq, exists_eq_left']
    exact ⟨trivial, rfl⟩
  have hpos : ∀ {c : ℝ} {g : List ℝ} {p : Period ℝ}, period ev119 1 ref c g = .ok p → 0 < p.rate := by
    intro c g p h
    obtain ⟨mc, ny, -, -, -, -, hr, -⟩ := period_ok h
    rw [hr]; exact Real.rpow_pos_of_pos (by norm_num) _
  refine ⟨p, q, ?_, hpn, hqn, hpb ▸ hp1, by rw [hpb, hqb, e], hpos hp, hpos hq⟩
  have hb := C59_periods (ev := ev119) (dmag := 1) (ref := ref) (blocks := [(2000, [5]), (1990, [6])]) (by simp) (by norm_num)
  rw [show blockTable [((2000 : ℝ), [(5 : ℝ)]), (1990, [6])] = table119t from rfl] at hb
  rw [hb]
  simp only [List.mapM_cons, List.mapM_nil, hp, hq]
  rfl

/-- **C119 (refuted for maximum likelihood)**: with two completeness years of different b-values the averaged rates are not on the line of the
averaged b-value. -/
theorem C119_mle_fails : ¬ Spec.ReferenceMagnitude "MLE" := by
  intro H
  obtain ⟨p, q, hps, hpn, hqn, hb, hqb, hp, hq⟩ := periods119 0
  obtain ⟨r, hr⟩ : ∃ r, bMaxlikeTime ev119 table119t 1 0 = .ok r := by
    unfold bMaxlikeTime
    rw [hps]
    exact ⟨_, rfl⟩
  have lift : ∀ (ref : ℝ) (r : GR ℝ), bMaxlikeTime ev119 table119t 1 ref = .ok r →
      recurrenceAnalysis ev119 table119t 1 "MLE" ref 1 0 = .ok (some r) := by
    intro ref r h
    simp only [recurrenceAnalysis, show ("MLE" : String) ≠ "Weichert" by decide, if_false, h, bind_ok]
    rfl
  have key : ∀ d : ℝ, p.rate * (10 : ℝ) ^ (-p.b * d) + q.rate * (10 : ℝ) ^ (-q.b * d) =
      (p.rate + q.rate) * (10 : ℝ) ^ (-(3 / 2 * p.b) * d) := by
    intro d
    obtain ⟨ps, r', hps', hr', -, -, h3, h4, h5⟩ := mle_reference d hr
    obtain rfl : [p, q] = ps := by rw [hps] at hps'; exact Except.ok.inj hps'
    have e := (H _ _ _ _ _ _ _ _ _ one_pos one_pos (lift _ _ hr) (lift _ _ hr')).2.2
    rw [weighted_eq] at h3 h4 h5
    simp only [List.map_cons, List.map_nil, List.sum_cons, List.sum_nil, hpn, hqn, sub_zero, add_zero] at h3 h4 h5 e
    rw [h3, h4, h5, hqb] at e
    push_cast at e
    rw [hqb]
    rw [show (p.b * 2 + 2 * p.b * 2) / (2 + 2) = 3 / 2 * p.b by ring] at e
    linarith
  have k1 := key 1
  have k2 := key 2
  have hu : (10 : ℝ) ^ (-p.b * 1) ≠ (10 : ℝ) ^ (-q.b * 1) := by
    intro h
    rw [Real.rpow_right_inj (by norm_num) (by norm_num), hqb] at h
    linarith
  have sq : ∀ x : ℝ, (10 : ℝ) ^ (-x * 2) = ((10 : ℝ) ^ (-x * 1)) ^ 2 := by
    intro x
    rw [← Real.rpow_natCast, ← Real.rpow_mul (by norm_num)]
    push_cast
    rw [mul_one]
  rw [sq, sq, sq] at k2
  generalize (10 : ℝ) ^ (-p.b * 1) = u at *
  generalize (10 : ℝ) ^ (-q.b * 1) = v at *
  generalize (10 : ℝ) ^ (-(3 / 2 * p.b) * 1) = g at *
  have h1 : p.rate * q.rate * (u - v) ^ 2 = 0 := by
    have : (p.rate + q.rate) * (p.rate * u ^ 2 + q.rate * v ^ 2) = (p.rate * u + q.rate * v) ^ 2 := by
      rw [k1, k2]; ring
    linarith
  have h2 : 0 < p.rate * q.rate * (u - v) ^ 2 := by
    have : u - v ≠ 0 := sub_ne_zero.mpr hu
    positivity
  exact h2.ne' h1

end Verif.Recurrence
