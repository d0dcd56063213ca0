import Verif.Model.MaxObserved
import Verif.Props.KijkoOrder

/-!
# C127, C128, C129: a maximum observed magnitude given to the estimator of Kijko
-/

namespace Verif.MaxMag

open Verif Verif.Np

/-- Without a given maximum the model is that of `Model/MaximumMagnitude`. -/
theorem kijkoObserved_none {F : Type} [PyMath F] (mag sig : List F) (neq : ℕ) (nsamp tol : F) (maxIter fuel : ℕ) :
    kijkoObserved mag sig neq nsamp tol maxIter none fuel = kijko mag sig neq nsamp tol maxIter fuel := by
  unfold kijkoObserved kijko
  rcases npMax mag with e | obsmax
  · rfl
  rcases sig[argmax mag]? with _ | s <;> rfl

/-- A successful run with a given maximum. -/
theorem kijkoObserved_ok {mag sig : List ℝ} {neq maxIter fuel : ℕ} {nsamp tol obsmax obssig m s : ℝ}
    (h : kijkoObserved mag sig neq nsamp tol maxIter (some (obsmax, obssig)) fuel = some (.ok (m, s))) :
    tol < 1e8 ∧ ∃ mmin hf d, npMin (largest mag neq).1 = .ok mmin ∧ hSmooth (largest mag neq).1 = .ok hf ∧
      kijkoLoop (fun mmax => intFunc (expSpaced mmin mmax nsamp) (largest mag neq).1 hf (largest mag neq).2) obsmax tol maxIter fuel obsmax 0 = some (.ok (m, d)) ∧
      s = Real.sqrt (obssig * obssig + d * d) := by
  unfold kijkoObserved at h
  simp only at h
  rcases h3 : npMin (largest mag neq).1 with e | mmin
  · simp [h3] at h
  rcases h4 : hSmooth (largest mag neq).1 with e | hf
  · simp [h3, h4] at h
  simp only [h3, h4] at h
  split_ifs at h with ht
  · rcases h5 : kijkoLoop (fun mmax => intFunc (expSpaced mmin mmax nsamp) (largest mag neq).1 hf (largest mag neq).2) obsmax tol maxIter fuel obsmax 0 with _ | (e | ⟨m', d⟩)
    · simp [h5] at h
    · simp [h5] at h
    · simp only [h5, Option.some.injEq, Except.ok.injEq, Prod.mk.injEq, sqrt_real] at h
      obtain ⟨rfl, rfl⟩ := h
      exact ⟨ht, mmin, hf, d, rfl, rfl, h5, rfl⟩
  · simp at h

/-- **C127**: in a catalogue whose largest event is unique (or whose largest events have the same uncertainty), giving its magnitude and uncertainty as
`max_observed` changes nothing. -/
theorem C127_own_maximum {ev : List (ℝ × ℝ)} {e : ℝ × ℝ} (he : e ∈ ev) (hmax : ∀ x ∈ ev, x.1 ≤ e.1) (hsame : ∀ x ∈ ev, x.1 = e.1 → x.2 = e.2)
    (neq maxIter fuel : ℕ) (nsamp tol : ℝ) :
    kijkoObserved (mags ev) (sigmas ev) neq nsamp tol maxIter (some e) fuel = kijkoObserved (mags ev) (sigmas ev) neq nsamp tol maxIter none fuel := by
  obtain ⟨e', he', hmax', hs⟩ := sigma_at_max (List.ne_nil_of_mem he)
  have h1 : e'.1 = e.1 := le_antisymm (hmax e' he') (hmax' e he)
  have h2 := hsame e' he' h1
  have hm : npMax (mags ev) = .ok e.1 := npMax_iff.mpr ⟨List.mem_map.mpr ⟨e, he, rfl⟩, by
    intro y hy
    obtain ⟨x, hx, rfl⟩ := List.mem_map.mp hy
    exact hmax x hx⟩
  unfold kijkoObserved
  simp only [hm, hs, h2]
  rfl

/-- **C127**: with a given maximum the uncertainties of the catalogue are not used. -/
theorem C127_uncertainties_unused {F : Type} [PyMath F] (mag sig sig' : List F) (neq maxIter fuel : ℕ) (nsamp tol : F) (o : F × F) :
    kijkoObserved mag sig neq nsamp tol maxIter (some o) fuel = kijkoObserved mag sig' neq nsamp tol maxIter (some o) fuel := rfl

/-- **C127**: the uncertainty of the estimate combines the given uncertainty with the distance of the estimate from the given maximum; in particular it is not
below either of them. -/
theorem C127_uncertainty {mag sig : List ℝ} {neq maxIter fuel : ℕ} {nsamp tol obsmax obssig m s : ℝ}
    (h : kijkoObserved mag sig neq nsamp tol maxIter (some (obsmax, obssig)) fuel = some (.ok (m, s))) :
    s = Real.sqrt (obssig ^ 2 + (m - obsmax) ^ 2) ∧ |obssig| ≤ s ∧ |m - obsmax| ≤ s := by
  obtain ⟨_, mmin, hf, d, h3, h4, h5, rfl⟩ := kijkoObserved_ok h
  have hm := (kijkoLoop_inv (fun _ => True) (fun _ _ _ _ => trivial) fuel obsmax 0 trivial h5).2
  have hd : m - obsmax = d := by rw [hm]; ring
  rw [hd]
  refine ⟨by congr 1; ring, ?_, ?_⟩
  · rw [← Real.sqrt_mul_self_eq_abs]
    exact Real.sqrt_le_sqrt (by nlinarith [mul_self_nonneg d])
  · rw [← Real.sqrt_mul_self_eq_abs]
    exact Real.sqrt_le_sqrt (by nlinarith [mul_self_nonneg obssig])

/-- **C127**: the uncertainty given with the maximum has no effect on the estimated magnitude. -/
theorem C127_magnitude_independent {mag sig : List ℝ} {neq maxIter fuel : ℕ} {nsamp tol obsmax obssig m s : ℝ} (obssig' : ℝ)
    (h : kijkoObserved mag sig neq nsamp tol maxIter (some (obsmax, obssig)) fuel = some (.ok (m, s))) :
    ∃ s', kijkoObserved mag sig neq nsamp tol maxIter (some (obsmax, obssig')) fuel = some (.ok (m, s')) := by
  obtain ⟨ht, mmin, hf, d, h3, h4, h5, rfl⟩ := kijkoObserved_ok h
  refine ⟨Real.sqrt (obssig' * obssig' + d * d), ?_⟩
  unfold kijkoObserved
  simp only [h3, h4, if_pos ht, h5]
  rfl

/-- **C127**: with or without a given maximum the estimator stops after at most `maximum_iterations + 1` iterations, whatever the arithmetic does (a tolerance that is
not smaller than its half: every non-negative double and NaN). -/
theorem C127_terminates {F : Type} [PyMath F] (mag sig : List F) (neq : ℕ) (nsamp tol : F) (maxIter : ℕ) (htol : ¬ tol < (0.5 : F) * tol) (observed : Option (F × F)) :
    ∃ r, ∀ fuel, maxIter + 1 ≤ fuel → kijkoObserved mag sig neq nsamp tol maxIter observed fuel = some r := by
  rcases observed with _ | ⟨obsmax, s⟩
  · simp only [kijkoObserved_none]
    exact C69_terminates mag sig neq nsamp tol maxIter htol
  unfold kijkoObserved
  simp only
  rcases npMin (largest mag neq).1 with e | mmin
  · exact ⟨_, fun _ _ => rfl⟩
  rcases hSmooth (largest mag neq).1 with e | h
  · exact ⟨_, fun _ _ => rfl⟩
  simp only
  by_cases ht : tol < (1e8 : F)
  · simp only [ht, if_true]
    obtain ⟨r, hr⟩ := kijkoLoop_returns (fun mmax => intFunc (expSpaced mmin mmax nsamp) (largest mag neq).1 h (largest mag neq).2) obsmax tol maxIter htol (maxIter + 1) obsmax 0
      (by omega) (by omega)
    have hr' := fun fuel hf => kijkoLoop_fuel _ _ _ _ _ _ _ hr fuel hf
    rcases r with e | ⟨a, b⟩
    · exact ⟨.error e, fun fuel hf => by rw [hr' fuel hf]⟩
    · exact ⟨.ok (a, PyMath.sqrt (s * s + b * b)), fun fuel hf => by rw [hr' fuel hf]⟩
  · simp only [ht, if_false]
    exact ⟨_, fun _ _ => rfl⟩

/-- **C129**, what holds of the claim that the estimate is not below the given maximum: it holds if the smoothing factor is positive, the given maximum is not below the
smallest event used and the events used lie within five smoothing factors of each other.  Missing: other catalogues (`C129_not_below_fails`). -/
theorem C129_not_below_partial {mag sig : List ℝ} {neq maxIter fuel n : ℕ} {tol obsmax obssig m s hf : ℝ} (hn : 2 ≤ n)
    (h : kijkoObserved mag sig neq (n : ℝ) tol maxIter (some (obsmax, obssig)) fuel = some (.ok (m, s)))
    (hhf : hSmooth (largest mag neq).1 = .ok hf) (hpos : 0 < hf) (hsmall : ∃ g ∈ (largest mag neq).1, g ≤ obsmax)
    (htail : ∀ g ∈ (largest mag neq).1, ∀ g' ∈ (largest mag neq).1, g - g' ≤ 5 * hf) : obsmax ≤ m := by
  obtain ⟨_, mmin, hf', d, h3, h4, h5, _⟩ := kijkoObserved_ok h
  obtain rfl : hf' = hf := by rw [h4] at hhf; exact Except.ok.inj hhf
  have hmn := npMin_ok h3
  obtain ⟨g, hg, hgo⟩ := hsmall
  have hmo : mmin ≤ obsmax := (hmn.2 hg).trans hgo
  have hnn : 0 ≤ (largest mag neq).2 := by
    unfold largest; split_ifs <;> exact Nat.cast_nonneg _
  refine (kijkoLoop_inv (fun x => obsmax ≤ x) ?_ fuel obsmax 0 le_rfl h5).1
  intro x d hx hd
  obtain ⟨_, hhead, _, hsort, _⟩ := C67_spaced_points (l := mmin) (u := x) hn
  have hs := hsort (hmo.trans hx)
  have hmm : ∀ y ∈ expSpaced mmin x (n : ℝ), mmin ≤ y := by
    rcases he : expSpaced mmin x (n : ℝ) with _ | ⟨a, l⟩
    · simp
    · rw [he] at hhead hs
      simp only [List.head?_cons, Option.some.injEq] at hhead
      subst hhead
      intro y hy
      rcases List.mem_cons.mp hy with rfl | hy
      · exact le_rfl
      · exact (List.pairwise_cons.mp hs).1 y hy
  obtain ⟨a, b, _, _, hd0, _⟩ := C68_integral_partial hpos hnn hs (fun y hy g hg' => by
    have := htail g hg' mmin hmn.1
    have := hmm y hy
    linarith) hd
  linarith

/-- The catalogue of C70 with its own maximum as the given one. -/
theorem observed70 : kijkoObserved mag70 (List.replicate 11 0.1) 100 ((3 : ℕ) : ℝ) 0.1 1000 (some (6.3, 0.1)) 1001 =
    some (.ok (6.3 + -(mid70 - 6) / 2, Real.sqrt (0.1 * 0.1 + -(mid70 - 6) / 2 * (-(mid70 - 6) / 2)))) := by
  have h := C127_own_maximum (ev := ev92 0.1 0.1) (e := (6.3, 0.1)) (by simp [ev92]) (by
      intro x hx
      simp only [ev92, List.mem_cons, List.not_mem_nil, or_false] at hx
      rcases hx with rfl | rfl | rfl | rfl | rfl | rfl | rfl | rfl | rfl | rfl | rfl <;> norm_num) (by
      intro x hx _
      simp only [ev92, List.mem_cons, List.not_mem_nil, or_false] at hx
      rcases hx with rfl | rfl | rfl | rfl | rfl | rfl | rfl | rfl | rfl | rfl | rfl <;> rfl) 100 1000 1001 ((3 : ℕ) : ℝ) 0.1
  rw [kijkoObserved_none] at h
  exact h.trans kijko70

/-- **C129 fails**: the estimate can be below the maximum given. -/
theorem C129_not_below_fails : ¬ ∀ (mag sig : List ℝ) (neq n maxIter fuel : ℕ) (tol obsmax obssig m s : ℝ), 2 ≤ n → 0 < tol → (∀ g ∈ mag, g ≤ obsmax) →
    kijkoObserved mag sig neq (n : ℝ) tol maxIter (some (obsmax, obssig)) fuel = some (.ok (m, s)) → obsmax ≤ m := by
  intro hall
  have := hall mag70 (List.replicate 11 0.1) 100 3 1000 1001 0.1 6.3 0.1 _ _ (by norm_num) (by norm_num) (by
    intro x hx; simp only [mag70, List.mem_cons, List.not_mem_nil, or_false] at hx
    rcases hx with rfl | rfl | rfl | rfl | rfl | rfl | rfl | rfl | rfl | rfl | rfl <;> norm_num) observed70
  obtain ⟨hb1, _⟩ := mid70_bounds
  norm_num at hb1
  linarith

/-! ### C128 -/

theorem kijkoLoop_succeeds {delta : ℝ → Except PyErr ℝ} (hd : ∀ m, ∃ d, delta m = .ok d) {obsmax tol : ℝ} {maxIter : ℕ} (fuel : ℕ) (mmax : ℝ) (j : ℕ) {r : Except PyErr (ℝ × ℝ)}
    (h : kijkoLoop delta obsmax tol maxIter fuel mmax j = some r) : ∃ md, r = .ok md := by
  induction fuel generalizing mmax j with
  | zero => simp [kijkoLoop] at h
  | succ fuel ih =>
    rw [kijkoLoop] at h
    obtain ⟨d, hd'⟩ := hd mmax
    simp only [hd'] at h
    split_ifs at h with h1 h2
    · exact ih _ _ h
    · exact ⟨_, (Option.some.inj h).symm⟩
    · exact ih _ _ h
    · exact ⟨_, (Option.some.inj h).symm⟩

theorem intFunc_succeeds {mval : List ℝ} (h2 : 2 ≤ mval.length) (mag : List ℝ) (h n : ℝ) : ∃ d, intFunc mval mag h n = .ok d := by
  match mval, h2 with
  | x :: y :: l, _ =>
    obtain ⟨a, ha⟩ := npMin_exists (l := x :: y :: l) (by simp)
    obtain ⟨b, hb⟩ := npMax_exists (l := x :: y :: l) (by simp)
    unfold intFunc
    rw [ha, hb, Recurrence.bind_ok, Recurrence.bind_ok]
    exact ⟨_, rfl⟩

theorem mquantile_succeeds {l : List ℝ} (hl : l ≠ []) (p : ℝ) : ∃ q, mquantile l p = .ok q := by
  unfold mquantile
  have : npSort l ≠ [] := fun h => hl (by have := (npSort_perm l).length_eq; rw [h] at this; exact List.length_eq_zero_iff.mp this.symm)
  match h : npSort l, this with
  | [a], _ => exact ⟨_, rfl⟩
  | a :: b :: t, _ => exact ⟨_, rfl⟩

theorem hSmooth_succeeds {l : List ℝ} (hl : l ≠ []) : ∃ h, hSmooth l = .ok h := by
  obtain ⟨a, ha⟩ := mquantile_succeeds hl 0.25
  obtain ⟨b, hb⟩ := mquantile_succeeds hl 0.75
  unfold hSmooth
  simp only [ha, hb, bind, Except.bind, pure, Except.pure]
  exact ⟨_, rfl⟩

theorem largest_ne_nil {l : List ℝ} (hl : l ≠ []) (neq : ℕ) : (largest l neq).1 ≠ [] := by
  have h0 : 0 < l.length := List.length_pos_iff.mpr hl
  have hp := (npSort_perm l).length_eq
  unfold largest
  split_ifs with h1 h2
  · exact hl
  · exact List.ne_nil_of_length_pos (by rw [hp]; exact h0)
  · exact List.ne_nil_of_length_pos (by simp only [List.length_drop, hp]; omega)

theorem observed_succeeds {mag : List ℝ} (hne : mag ≠ []) (sig : List ℝ) (neq maxIter : ℕ) {n : ℕ} (hn : 2 ≤ n) {tol : ℝ} (h0 : 0 ≤ tol) (h1 : tol < 1e8) (o : ℝ × ℝ) :
    ∃ r, ∀ fuel, maxIter + 1 ≤ fuel → kijkoObserved mag sig neq (n : ℝ) tol maxIter (some o) fuel = some (.ok r) := by
  obtain ⟨r, hr⟩ := C127_terminates mag sig neq (n : ℝ) tol maxIter (by norm_num; linarith) (some o)
  obtain ⟨mmin, hmin⟩ := npMin_exists (largest_ne_nil hne neq)
  obtain ⟨hf, hhf⟩ := hSmooth_succeeds (largest_ne_nil hne neq)
  suffices ∃ r', r = .ok r' by
    obtain ⟨r', rfl⟩ := this
    exact ⟨r', hr⟩
  have h := hr (maxIter + 1) le_rfl
  unfold kijkoObserved at h
  simp only [hmin, hhf, if_pos h1] at h
  rcases h5 : kijkoLoop (fun mmax => intFunc (expSpaced mmin mmax (n : ℝ)) (largest mag neq).1 hf (largest mag neq).2) o.1 tol maxIter (maxIter + 1) o.1 0 with _ | r'
  · rw [h5] at h; simp at h
  obtain ⟨⟨m, d⟩, rfl⟩ := kijkoLoop_succeeds (fun m => intFunc_succeeds (by rw [(C67_spaced_points (l := mmin) (u := m) hn).1]; exact hn) _ _ _) _ _ _ h5
  rw [h5] at h
  simp only [Option.some.injEq] at h
  exact ⟨_, h.symm⟩

/-- **C128**: for every catalogue with at least one event and an uncertainty for each event, two or more sample points and a non-negative tolerance below `1E8`, the estimator
returns a magnitude and an uncertainty, with or without a given maximum; without a catalogue it raises an error. -/
theorem C128_succeeds (ev : List (ℝ × ℝ)) (neq maxIter : ℕ) {n : ℕ} (hn : 2 ≤ n) {tol : ℝ} (h0 : 0 ≤ tol) (h1 : tol < 1e8) (observed : Option (ℝ × ℝ)) :
    (∃ r, ∀ fuel, maxIter + 1 ≤ fuel → kijkoObserved (mags ev) (sigmas ev) neq (n : ℝ) tol maxIter observed fuel = some (.ok r)) ↔ ev ≠ [] := by
  constructor
  · rintro ⟨r, hr⟩ rfl
    have h := hr (maxIter + 1) le_rfl
    have hl : (largest (mags []) neq).1 = [] := by simp [largest, mags]
    rcases observed with _ | o
    · simp [kijkoObserved, mags, npMax, bind, Except.bind] at h
    · simp [kijkoObserved, hl, npMin] at h
  · intro hne
    have hm : mags ev ≠ [] := by simpa [mags] using hne
    rcases observed with _ | o
    · obtain ⟨e, he, hmax, hs⟩ := sigma_at_max hne
      obtain ⟨m, hm'⟩ := npMax_exists hm
      obtain ⟨r, hr⟩ := observed_succeeds hm (sigmas ev) neq maxIter hn h0 h1 (m, e.2)
      refine ⟨r, fun fuel hf => ?_⟩
      rw [← hr fuel hf]
      unfold kijkoObserved
      simp only [hm', hs]
      rfl
    · exact observed_succeeds hm (sigmas ev) neq maxIter hn h0 h1 o

/-- **C128** for the call that `maximum_magnitude_analysis` makes. -/
theorem C128_default_succeeds {ev : List (ℝ × ℝ)} (hne : ev ≠ []) (neq maxIter : ℕ) {n : ℕ} (hn : 2 ≤ n) {tol : ℝ} (h0 : 0 ≤ tol) (h1 : tol < 1e8) :
    ∃ r, ∀ fuel, maxIter + 1 ≤ fuel → kijko (mags ev) (sigmas ev) neq (n : ℝ) tol maxIter fuel = some (.ok r) := by
  have := (C128_succeeds ev neq maxIter hn h0 h1 none).mpr hne
  simpa only [kijkoObserved_none] using this

/-- One event is enough. -/
example : ∃ r, ∀ fuel, 1001 ≤ fuel → kijko (mags [(6.1, 0.2)]) (sigmas [(6.1, 0.2)]) 100 ((51 : ℕ) : ℝ) 0.05 1000 fuel = some (.ok r) :=
  C128_default_succeeds (by simp) 100 1000 (by norm_num) (by norm_num) (by norm_num)

/-- The smoothing factor of the magnitudes 5, 5, 6, 6. -/
theorem smooth127 : ∃ h : ℝ, hSmooth [(5 : ℝ), 5, 6, 6] = .ok h ∧ 0.2 ≤ h := by
  obtain ⟨h0, h1⟩ := quartiles71
  obtain ⟨h, hok⟩ := hSmooth_succeeds (l := [(5 : ℝ), 5, 6, 6]) (by simp)
  refine ⟨h, hok, ?_⟩
  have hA := (C71_silverman_partial h0 h1 hok).1
  have a := abs_round2 (0.9 * ((6 - 5) / 1.34) * (([(5 : ℝ), 5, 6, 6].length : ℕ) : ℝ) ^ (-1 / 5 : ℝ))
  rw [← hA] at a
  have ht : (0.7 : ℝ) ≤ (([(5 : ℝ), 5, 6, 6].length : ℕ) : ℝ) ^ (-1 / 5 : ℝ) := by
    simp only [List.length_cons, List.length_nil, zero_add, Nat.reduceAdd]
    have : (0.7 : ℝ) = ((0.7 : ℝ) ^ (5 : ℝ)) ^ (1 / 5 : ℝ) := by rw [← Real.rpow_mul (by norm_num)]; norm_num
    rw [this, show (-1 / 5 : ℝ) = -(1 / 5) by norm_num, Real.rpow_neg (by norm_num), ← Real.inv_rpow (by norm_num)]
    refine Real.rpow_le_rpow (by positivity) ?_ (by norm_num)
    norm_num
  generalize (([(5 : ℝ), 5, 6, 6].length : ℕ) : ℝ) ^ (-1 / 5 : ℝ) = t at *
  rw [abs_le] at a
  norm_num at a ht ⊢
  linarith [a.1]

/-- The hypotheses of `C129_not_below_partial` (and with it those of the second part of C70) are met: the magnitudes 5, 5, 6, 6 and a historical event of magnitude 6.5. -/
example : ∃ m s hf, kijkoObserved [(5 : ℝ), 5, 6, 6] [] 100 ((51 : ℕ) : ℝ) 0.05 1000 (some (6.5, 0.3)) 1001 = some (.ok (m, s)) ∧
    hSmooth (largest [(5 : ℝ), 5, 6, 6] 100).1 = .ok hf ∧ 0 < hf ∧ (∃ g ∈ (largest [(5 : ℝ), 5, 6, 6] 100).1, g ≤ 6.5) ∧
    (∀ g ∈ (largest [(5 : ℝ), 5, 6, 6] 100).1, ∀ g' ∈ (largest [(5 : ℝ), 5, 6, 6] 100).1, g - g' ≤ 5 * hf) ∧ 6.5 ≤ m := by
  obtain ⟨⟨m, s⟩, hr⟩ := observed_succeeds (mag := [(5 : ℝ), 5, 6, 6]) (by simp) [] 100 1000 (n := 51) (by norm_num) (tol := 0.05) (by norm_num) (by norm_num) (6.5, 0.3)
  obtain ⟨hf, hhf, hpos⟩ := smooth127
  have hl : (largest [(5 : ℝ), 5, 6, 6] 100).1 = [5, 5, 6, 6] := by simp [largest]
  have hp : 0 < hf := lt_of_lt_of_le (by norm_num) hpos
  have hsm : ∃ g ∈ (largest [(5 : ℝ), 5, 6, 6] 100).1, g ≤ 6.5 := ⟨5, by rw [hl]; simp, by norm_num⟩
  have htail : ∀ g ∈ (largest [(5 : ℝ), 5, 6, 6] 100).1, ∀ g' ∈ (largest [(5 : ℝ), 5, 6, 6] 100).1, g - g' ≤ 5 * hf := by
    rw [hl]
    norm_num at hpos
    intro g hg g' hg'
    simp only [List.mem_cons, List.not_mem_nil, or_false] at hg hg'
    rcases hg with rfl | rfl | rfl | rfl <;> rcases hg' with rfl | rfl | rfl | rfl <;> linarith
  rw [← hl] at hhf
  exact ⟨m, s, hf, hr 1001 le_rfl, hhf, hp, hsm, htail, C129_not_below_partial (by norm_num) (hr 1001 le_rfl) hhf hp hsm htail⟩

end Verif.MaxMag
