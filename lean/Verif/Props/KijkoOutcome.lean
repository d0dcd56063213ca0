import Verif.Props.KijkoValues
import Verif.Props.KijkoExamples

/-!
# C155, continued: what the estimator of Kijko returns when some events lie far away from the others
-/

namespace Verif.MaxMag

open Verif Verif.Np XNum Verif.Recurrence

namespace Spec

/-- The smoothed number of events between `a` and `b`: the sum of the differences of the distribution functions as the code approximates them (`H`, with the value 1 below -5). -/
noncomputable def mass (l : List ℝ) (h a b : ℝ) : ℝ := (l.map fun g => H ((b - g) / h) - H ((a - g) / h)).sum

end Spec

open Spec

theorem fin_pow_nat (x : ℝ) (k : ℕ) : PyMath.rpow (fin x : XNum ℝ) (fin (k : ℝ)) = fin (x ^ (k : ℝ)) := by
  classical
  show (if (k : ℝ) = 0 then fin 1 else if x = 0 then (if (k : ℝ) < 0 then inf false else fin 0) else if x < 0 ∧ ¬ (∃ n : ℤ, (k : ℝ) = n) then nan else fin (x ^ (k : ℝ))) = _
  by_cases hk : (k : ℝ) = 0
  · rw [if_pos hk, hk, Real.rpow_zero]
  · rw [if_neg hk]
    by_cases hx : x = 0
    · rw [if_pos hx, if_neg (Nat.cast_nonneg k).not_gt, hx, Real.zero_rpow hk]
    · rw [if_neg hx, if_neg]
      rintro ⟨-, h⟩
      exact h ⟨(k : ℤ), by norm_cast⟩

theorem differences_fin {mag : List ℝ} {h : ℝ} (hh : h ≠ 0) (a t : ℝ) :
    npSum ((mag.map fin).map fun mg : XNum ℝ => gaussCdf ((fin t - mg) / fin h) 0.0 1.0 - gaussCdf ((fin a - mg) / fin h) 0.0 1.0) = fin (mass mag h a t) := by
  rw [mass, ← npSum_fin, List.map_map, List.map_map]
  congr 1
  refine List.map_congr_left fun g _ => ?_
  simp only [Function.comp_apply, fin_sub, fin_div _ _ hh, gaussCdf_fin, gaussCdf_real]
  norm_num

theorem cdfFunc_number {mag : List ℝ} {h a b m : ℝ} {k : ℕ} (hh : h ≠ 0) (hden : mass mag h a b ≠ 0) :
    cdfFunc (mag.map fin) (fin h) (fin (k : ℝ)) (fin a) (fin b) (fin m) = fin (cdfFunc mag h (k : ℝ) a b m) := by
  rw [cdfFunc_real]
  simp only [cdfFunc, differences_fin hh, fin_div _ _ hden, fin_pow_nat]
  rfl

theorem cdfFunc_vanishes {mag : List ℝ} {h a b : ℝ} {k : ℕ} (hh : h ≠ 0) (hk : 1 ≤ k) (hden : mass mag h a b = 0) :
    cdfFunc (mag.map fin) (fin h) (fin (k : ℝ)) (fin a) (fin b) (fin a) = nan := by
  have h0 : mass mag h a a = 0 := by
    simp only [mass, sub_self]
    exact List.sum_eq_zero fun x hx => by obtain ⟨_, _, rfl⟩ := List.mem_map.1 hx; rfl
  simp only [cdfFunc, differences_fin hh, hden, h0]
  have e : (fin 0 / fin 0 : XNum ℝ) = nan := by
    show (if (0 : ℝ) = 0 then scaled false (0 : ℝ) else _) = _
    rw [if_pos rfl, scaled, if_pos rfl]
  rw [e]
  show (if (k : ℝ) = 0 then fin 1 else nan) = nan
  rw [if_neg (by exact_mod_cast (by omega : k ≠ 0))]

theorem trapTail_nan_mem {f : XNum ℝ → XNum ℝ} {l : List (XNum ℝ)} {x : XNum ℝ} (hx : x ∈ l) (h : f x = nan) (acc prev : XNum ℝ) : trapTail f acc prev l = nan := by
  induction l generalizing acc prev with
  | nil => cases hx
  | cons y l ih =>
    rcases l with _ | ⟨z, l⟩
    · rw [List.mem_singleton] at hx
      rw [trapTail, ← hx, h, mul_nan, nan_mul, add_nan]
    · rw [trapTail]
      rcases List.mem_cons.1 hx with rfl | hx
      · rw [h, mul_nan, nan_mul, add_nan, trapTail_nan]
      · exact ih hx _ _

theorem intFunc_number {mval mag : List ℝ} {h : ℝ} {k : ℕ} (hh : h ≠ 0) {a b : ℝ} (ha : npMin mval = .ok a) (hb : npMax mval = .ok b) (hden : mass mag h a b ≠ 0) :
    intFunc (mval.map fin) (mag.map fin) (fin h) (fin (k : ℝ)) = (intFunc mval mag h (k : ℝ)).map fin := by
  rcases mval with _ | ⟨x, _ | ⟨y, l⟩⟩
  · rfl
  · rfl
  unfold intFunc
  rw [npMin_fin, npMax_fin, ha, hb]
  simp only [Except.map, bind, Except.bind, pure, Except.pure, List.map_cons]
  rw [cdfFunc_number hh hden, ← List.map_cons]
  simp only [fin_sci, fin_mul, fin_sub]
  rw [trapTail_fin (y :: l) (fun z _ => cdfFunc_number hh hden)]

theorem intFunc_vanishes {mval mag : List ℝ} {h : ℝ} {k : ℕ} (hh : h ≠ 0) (hk : 1 ≤ k) (hl : 2 ≤ mval.length) {a b : ℝ} (ha : npMin mval = .ok a) (hb : npMax mval = .ok b) (hden : mass mag h a b = 0) :
    intFunc (mval.map fin) (mag.map fin) (fin h) (fin (k : ℝ)) = .ok nan := by
  rcases mval with _ | ⟨x, _ | ⟨y, l⟩⟩
  · simp at hl
  · simp at hl
  have hmem := (npMin_ok ha).1
  have hnan := cdfFunc_vanishes hh hk hden
  unfold intFunc
  rw [npMin_fin, npMax_fin, ha, hb]
  simp only [Except.map, bind, Except.bind, pure, Except.pure, List.map_cons]
  rcases List.mem_cons.1 hmem with rfl | hmem
  · rw [hnan, mul_nan, nan_mul, trapTail_nan]
  · rw [← List.map_cons, trapTail_nan_mem (List.mem_map_of_mem hmem) hnan]

theorem kijkoLoop_outcome {delta : ℝ → Except PyErr ℝ} {delta' : XNum ℝ → Except PyErr (XNum ℝ)} {obsmax tol : ℝ} {maxIter : ℕ} (ht : 0 ≤ tol) (bad : ℝ → Prop)
    (hbad : ∀ m, bad m → delta' (fin m) = .ok nan) (hgood : ∀ m, ¬ bad m → delta' (fin m) = (delta m).map fin) (fuel : ℕ) (mmax : ℝ) (j : ℕ) :
    (kijkoLoop delta' (fin obsmax) (fin tol) maxIter fuel (fin mmax) j = some (.ok (nan, nan)) ∧ ∃ x, bad x) ∨
      kijkoLoop delta' (fin obsmax) (fin tol) maxIter fuel (fin mmax) j = (kijkoLoop delta obsmax tol maxIter fuel mmax j).map (Except.map fp2) := by
  induction fuel generalizing mmax j with
  | zero => exact .inr rfl
  | succ fuel ih =>
    by_cases hb : bad mmax
    · refine .inl ⟨?_, mmax, hb⟩
      rw [kijkoLoop, hbad _ hb]
      have h0 : ¬ fin tol < (if j + 1 > maxIter then (0.5 : XNum ℝ) * fin tol else npAbs (nan - fin mmax : XNum ℝ)) := by
        split_ifs
        · rw [fin_sci, fin_mul, fin_lt]
          norm_num
          linarith
        · rw [show (nan - fin mmax : XNum ℝ) = nan from rfl, npAbs_nan]
          exact not_lt_nan _
      simp only [add_nan, h0, if_false]
    · rw [kijkoLoop, kijkoLoop, hgood _ hb]
      rcases e : delta mmax with e | d
      · exact .inr rfl
      simp only [Except.map, fin_add, fin_sub, npAbs_fin, npAbs_real, fin_sci, fin_mul]
      by_cases h1 : j + 1 > maxIter
      · simp only [h1, if_true, fin_lt]
        split_ifs
        · exact ih _ _
        · exact .inr rfl
      · simp only [h1, if_false, fin_lt]
        split_ifs
        · exact ih _ _
        · exact .inr rfl

theorem largest_nat {mag : List ℝ} (hne : mag ≠ []) {neq : ℕ} (h : 1 ≤ neq) : ∃ k : ℕ, 1 ≤ k ∧ (largest mag neq).2 = (k : ℝ) := by
  have : 0 < mag.length := List.length_pos_of_ne_nil hne
  unfold largest
  split_ifs
  · exact ⟨mag.length, this, rfl⟩
  · exact ⟨neq, h, rfl⟩
  · exact ⟨neq, h, rfl⟩

theorem expSpaced_between (l u : ℝ) {n : ℕ} (hn : 2 ≤ n) {z : ℝ} (hz : z ∈ expSpaced l u (n : ℝ)) : min l u ≤ z ∧ z ≤ max l u := by
  rw [expSpaced_eq hn] at hz
  obtain ⟨i, hi, rfl⟩ := List.mem_map.1 hz
  have hi := List.mem_range.1 hi
  have hn1 : (0 : ℝ) < n - 1 := by
    have : (2 : ℝ) ≤ n := by exact_mod_cast hn
    linarith
  have t0 : (0 : ℝ) ≤ i / ((n : ℝ) - 1) := div_nonneg (Nat.cast_nonneg i) hn1.le
  have t1 : (i : ℝ) / ((n : ℝ) - 1) ≤ 1 := by
    rw [div_le_one hn1]
    have : ((i + 1 : ℕ) : ℝ) ≤ n := by exact_mod_cast hi
    push_cast at this
    linarith
  have e : Real.exp l + i * ((Real.exp u - Real.exp l) / ((n : ℝ) - 1)) = (1 - i / ((n : ℝ) - 1)) * Real.exp l + i / ((n : ℝ) - 1) * Real.exp u := by
    field_simp
    ring
  rw [e]
  generalize (i : ℝ) / ((n : ℝ) - 1) = t at t0 t1
  have hl := Real.exp_pos l
  have hu := Real.exp_pos u
  have lo : Real.exp (min l u) ≤ (1 - t) * Real.exp l + t * Real.exp u := by
    have a := mul_le_mul_of_nonneg_left (Real.exp_le_exp.2 (min_le_left l u)) (sub_nonneg.2 t1)
    have b := mul_le_mul_of_nonneg_left (Real.exp_le_exp.2 (min_le_right l u)) t0
    linarith
  have hi' : (1 - t) * Real.exp l + t * Real.exp u ≤ Real.exp (max l u) := by
    have a := mul_le_mul_of_nonneg_left (Real.exp_le_exp.2 (le_max_left l u)) (sub_nonneg.2 t1)
    have b := mul_le_mul_of_nonneg_left (Real.exp_le_exp.2 (le_max_right l u)) t0
    linarith
  have hp := (Real.exp_pos _).trans_le lo
  exact ⟨(Real.le_log_iff_exp_le hp).2 lo, (Real.log_le_iff_le_exp hp).2 hi'⟩

theorem expSpaced_range (l u : ℝ) {n : ℕ} (hn : 2 ≤ n) : npMin (expSpaced l u (n : ℝ)) = .ok (min l u) ∧ npMax (expSpaced l u (n : ℝ)) = .ok (max l u) := by
  obtain ⟨-, h1, h2, -⟩ := C67_spaced_points (l := l) (u := u) hn
  have m1 : l ∈ expSpaced l u (n : ℝ) := List.mem_of_mem_head? h1
  have m2 : u ∈ expSpaced l u (n : ℝ) := List.mem_of_getLast? h2
  constructor
  · refine npMin_iff.2 ⟨?_, fun z hz => (expSpaced_between l u hn hz).1⟩
    rcases min_choice l u with h | h <;> rw [h] <;> assumption
  · refine npMax_iff.2 ⟨?_, fun z hz => (expSpaced_between l u hn hz).2⟩
    rcases max_choice l u with h | h <;> rw [h] <;> assumption

/-- **C155**, the outcome in all cases of a positive smoothing factor, wherever the events lie: either both results are NaN, and then the smoothed number of events between the smallest event used and
one of the values of the iteration vanishes; or the computation with infinities and NaN is the one of exact arithmetic. -/
theorem C155_outcome {mag : List ℝ} (sig : List ℝ) {neq n : ℕ} (h1 : 1 ≤ neq) (hn : 2 ≤ n) {hf mmin : ℝ} (hs : hSmooth (largest mag neq).1 = .ok hf) (hpos : 0 < hf) (hmin : npMin (largest mag neq).1 = .ok mmin)
    {tol : ℝ} (ht : 0 ≤ tol) (maxIter fuel : ℕ) :
    (kijko (mag.map fin) (sig.map fin) neq (fin (n : ℝ)) (fin tol) maxIter fuel = some (.ok (nan, nan)) ∧ ∃ x, mass (largest mag neq).1 hf (min mmin x) (max mmin x) = 0) ∨
      kijko (mag.map fin) (sig.map fin) neq (fin (n : ℝ)) (fin tol) maxIter fuel = (kijko mag sig neq (n : ℝ) tol maxIter fuel).map (Except.map fp2) := by
  rcases eq_or_ne mag [] with rfl | hne
  · exact .inr rfl
  obtain ⟨obsmax, hmax⟩ := npMax_exists hne
  obtain ⟨k, hk1, hk⟩ := largest_nat hne h1
  have hloop := kijkoLoop_outcome (delta := fun mmax => intFunc (expSpaced mmin mmax (n : ℝ)) (largest mag neq).1 hf (largest mag neq).2)
    (delta' := fun mmax => intFunc (expSpaced (fin mmin) mmax (fin (n : ℝ))) ((largest mag neq).1.map fin) (fin hf) (fin (largest mag neq).2))
    (obsmax := obsmax) (tol := tol) (maxIter := maxIter) ht (fun x => mass (largest mag neq).1 hf (min mmin x) (max mmin x) = 0) ?_ ?_ fuel obsmax 0
  · unfold kijko
    simp only [npMax_fin, hmax, Except.map, argmax_fin, List.getElem?_map, largest_fin, npMin_fin, hmin, hSmooth_fin, hs, fin_sci, fin_lt]
    rcases sig[argmax mag]? with _ | obssig
    · exact .inr rfl
    simp only [Option.map_some]
    by_cases ht : tol < 1e8
    · simp only [if_pos ht]
      rcases hloop with ⟨h, hx⟩ | h
      · refine .inl ⟨?_, hx⟩
        simp only [h, mul_nan, add_nan]
        rfl
      · refine .inr ?_
        simp only [h]
        rcases kijkoLoop (fun mmax => intFunc (expSpaced mmin mmax (n : ℝ)) (largest mag neq).1 hf (largest mag neq).2) obsmax tol maxIter fuel obsmax 0 with _ | (e | ⟨m, d⟩)
        · rfl
        · rfl
        · simp only [Option.map_some, Except.map, fin_mul, fin_add, fin_sqrt _ (add_nonneg (mul_self_nonneg obssig) (mul_self_nonneg d)), sqrt_real]
    · simp only [if_neg ht]
      exact .inr rfl
  · intro x hx
    obtain ⟨a, b⟩ := expSpaced_range mmin x hn
    show intFunc (expSpaced (fin mmin) (fin x) (fin (n : ℝ))) _ _ _ = _
    rw [expSpaced_fin _ _ hn, hk]
    exact intFunc_vanishes hpos.ne' hk1 (by rw [(C67_spaced_points hn).1]; exact hn) a b hx
  · intro x hx
    obtain ⟨a, b⟩ := expSpaced_range mmin x hn
    show intFunc (expSpaced (fin mmin) (fin x) (fin (n : ℝ))) _ _ _ = _
    rw [expSpaced_fin _ _ hn, hk]
    exact intFunc_number hpos.ne' a b hx

/-- The smoothed number of events vanishes if one event is at each end and the others are more than five smoothing factors away from both. -/
theorem mass_outliers {l rest : List ℝ} {h lo hi : ℝ} (hpos : 0 < h) (hp : l.Perm (lo :: hi :: rest)) (hgap : lo + 5 * h < hi) (hrest : ∀ g ∈ rest, lo + 5 * h < g ∧ g + 5 * h < hi) :
    mass l h lo hi = 0 := by
  have up : ∀ a b : ℝ, a + 5 * h < b → H ((b - a) / h) = 1 := fun a b hab => H_gt (by rw [lt_div_iff₀ hpos]; linarith)
  have down : ∀ a b : ℝ, a + 5 * h < b → H ((a - b) / h) = 1 := fun a b hab => H_lt (by rw [div_lt_iff₀ hpos]; linarith)
  rw [mass, (hp.map _).sum_eq, List.map_cons, List.map_cons, List.sum_cons, List.sum_cons, List.sum_eq_zero]
  · rw [sub_self, zero_div, up _ _ hgap, sub_self, zero_div, down _ _ hgap, H_zero]
    norm_num
  · intro x hx
    obtain ⟨g, hg, rfl⟩ := List.mem_map.1 hx
    rw [up _ _ (hrest g hg).2, down _ _ (hrest g hg).1, sub_self]

/-- **C155**: if the smallest and the largest event are more than five smoothing factors away from each other and from all other events used, both results are NaN, and no error is reported. -/
theorem C155_outliers {mag sig rest : List ℝ} (hsig : mag.length ≤ sig.length) {neq n : ℕ} (h1 : 1 ≤ neq) (hn : 2 ≤ n) {hf lo hi : ℝ} (hs : hSmooth (largest mag neq).1 = .ok hf) (hpos : 0 < hf)
    (hp : (largest mag neq).1.Perm (lo :: hi :: rest)) (hgap : lo + 5 * hf < hi) (hrest : ∀ g ∈ rest, lo + 5 * hf < g ∧ g + 5 * hf < hi) (hmax : npMax mag = .ok hi) {tol : ℝ} (ht : 0 ≤ tol) (ht' : tol < 1e8) (maxIter fuel : ℕ) :
    kijko (mag.map fin) (sig.map fin) neq (fin (n : ℝ)) (fin tol) maxIter (fuel + 1) = some (.ok (nan, nan)) := by
  have hne : mag ≠ [] := by
    rintro rfl
    simp [npMax] at hmax
  obtain ⟨hka, _⟩ := argmax_spec hne
  obtain ⟨k, hk1, hk⟩ := largest_nat hne h1
  have hmin : npMin (largest mag neq).1 = .ok lo := by
    refine npMin_iff.2 ⟨hp.symm.subset (by simp), fun z hz => ?_⟩
    rcases List.mem_cons.1 (hp.subset hz) with rfl | hz
    · exact le_rfl
    · rcases List.mem_cons.1 hz with rfl | hz
      · linarith
      · linarith [(hrest z hz).1]
  have hlh : lo ≤ hi := by linarith
  have hi' : intFunc (expSpaced (fin lo) (fin hi) (fin (n : ℝ))) ((largest mag neq).1.map fin) (fin hf) (fin (largest mag neq).2) = .ok nan := by
    obtain ⟨a, b⟩ := expSpaced_range lo hi hn
    rw [min_eq_left hlh] at a
    rw [max_eq_right hlh] at b
    rw [expSpaced_fin _ _ hn, hk]
    exact intFunc_vanishes hpos.ne' hk1 (by rw [(C67_spaced_points hn).1]; exact hn) a b (mass_outliers hpos hp hgap hrest)
  unfold kijko
  simp only [npMax_fin, hmax, Except.map, argmax_fin, List.getElem?_map, List.getElem?_eq_getElem (lt_of_lt_of_le hka hsig), Option.map_some, largest_fin, npMin_fin, hmin, hSmooth_fin, hs,
    fin_sci, fin_lt, if_pos ht']
  rw [kijkoLoop]
  simp only [hi', add_nan]
  have h0 : ∀ j, ¬ fin tol < (if j + 1 > maxIter then (0.5 : XNum ℝ) * fin tol else npAbs (nan - fin hi : XNum ℝ)) := by
    intro j
    split_ifs
    · rw [fin_sci, fin_mul, fin_lt]
      norm_num
      linarith
    · rw [show (nan - fin hi : XNum ℝ) = nan from rfl, npAbs_nan]
      exact not_lt_nan _
  simp only [h0, if_false, mul_nan, add_nan]
  rfl

theorem quartiles155 : mquantile [(3.5 : ℝ), 5, 5, 5.4, 5.4, 7] 0.25 = .ok 4.925 ∧ mquantile [(3.5 : ℝ), 5, 5, 5.4, 5.4, 7] 0.75 = .ok 5.48 := by
  have hs : npSort [(3.5 : ℝ), 5, 5, 5.4, 5.4, 7] = [3.5, 5, 5, 5.4, 5.4, 7] := npSort_of_sorted (by norm_num)
  constructor
  · unfold mquantile
    simp only [hs]
    have e1 : clip (((6 : ℕ) : ℝ) * 0.25 + (0.4 + 0.25 * (((1 : ℕ) : ℝ) - 0.4 - 0.4))) ((1 : ℕ) : ℝ) ((6 - 1 : ℕ) : ℝ) = 1.95 := by
      simp only [clip]; norm_num
    have e2 : ⌊(1.95 : ℝ)⌋ = 1 := by rw [Int.floor_eq_iff]; norm_num
    have e3 : clip (((6 : ℕ) : ℝ) * 0.25 + (0.4 + 0.25 * (((1 : ℕ) : ℝ) - 0.4 - 0.4)) - ((1 : ℤ) : ℝ)) ((0 : ℕ) : ℝ) ((1 : ℕ) : ℝ) = 0.95 := by
      simp only [clip]; norm_num
    simp only [List.length_cons, List.length_nil, zero_add, Nat.reduceAdd, e1, floorZ_real, e2, e3]
    norm_num
  · unfold mquantile
    simp only [hs]
    have e1 : clip (((6 : ℕ) : ℝ) * 0.75 + (0.4 + 0.75 * (((1 : ℕ) : ℝ) - 0.4 - 0.4))) ((1 : ℕ) : ℝ) ((6 - 1 : ℕ) : ℝ) = 5 := by
      simp only [clip]; norm_num
    have e2 : ⌊(5 : ℝ)⌋ = 5 := by norm_num
    have e3 : clip (((6 : ℕ) : ℝ) * 0.75 + (0.4 + 0.75 * (((1 : ℕ) : ℝ) - 0.4 - 0.4)) - ((5 : ℤ) : ℝ)) ((0 : ℕ) : ℝ) ((1 : ℕ) : ℝ) = 0.05 := by
      simp only [clip]; norm_num
    simp only [List.length_cons, List.length_nil, zero_add, Nat.reduceAdd, e1, floorZ_real, e2, e3, show Int.toNat 5 = 5 from rfl]
    norm_num

theorem smooth155 : ∃ h : ℝ, hSmooth [(3.5 : ℝ), 5, 5, 5.4, 5.4, 7] = .ok h ∧ 0.1 ≤ h ∧ h ≤ 0.27 := by
  obtain ⟨h0, h1⟩ := quartiles155
  obtain ⟨h, hok⟩ := hSmooth_succeeds (l := [(3.5 : ℝ), 5, 5, 5.4, 5.4, 7]) (by simp)
  refine ⟨h, hok, ?_⟩
  have hA := (C71_silverman_partial h0 h1 hok).1
  have a := abs_round2 (0.9 * ((5.48 - 4.925) / 1.34) * (([(3.5 : ℝ), 5, 5, 5.4, 5.4, 7].length : ℕ) : ℝ) ^ (-1 / 5 : ℝ))
  rw [← hA] at a
  have ht : (0.5 : ℝ) ≤ (([(3.5 : ℝ), 5, 5, 5.4, 5.4, 7].length : ℕ) : ℝ) ^ (-1 / 5 : ℝ) ∧ (([(3.5 : ℝ), 5, 5, 5.4, 5.4, 7].length : ℕ) : ℝ) ^ (-1 / 5 : ℝ) ≤ 0.7 := by
    simp only [List.length_cons, List.length_nil, zero_add, Nat.reduceAdd]
    rw [show (-1 / 5 : ℝ) = -(1 / 5) by norm_num, Real.rpow_neg (by norm_num), ← Real.inv_rpow (by norm_num)]
    constructor
    · have : (0.5 : ℝ) = ((0.5 : ℝ) ^ (5 : ℝ)) ^ (1 / 5 : ℝ) := by rw [← Real.rpow_mul (by norm_num)]; norm_num
      rw [this]
      exact Real.rpow_le_rpow (by positivity) (by norm_num) (by norm_num)
    · have : (0.7 : ℝ) = ((0.7 : ℝ) ^ (5 : ℝ)) ^ (1 / 5 : ℝ) := by rw [← Real.rpow_mul (by norm_num)]; norm_num
      rw [this]
      exact Real.rpow_le_rpow (by positivity) (by norm_num) (by norm_num)
  generalize (([(3.5 : ℝ), 5, 5, 5.4, 5.4, 7].length : ℕ) : ℝ) ^ (-1 / 5 : ℝ) = t at *
  rw [abs_le] at a
  norm_num at a ht ⊢
  constructor <;> linarith [a.1, a.2, ht.1, ht.2]

/-- **C155** fails also with a positive smoothing factor: the estimate for the magnitudes 3.5, 5.0, 5.0, 5.4, 5.4 and 7.0 is NaN, with the default parameters. -/
theorem C155_outliers_fails : ¬ ∀ (mag sig : List ℝ) (neq n maxIter fuel : ℕ) (tol hf : ℝ) (m s : XNum ℝ), mag ≠ [] → mag.length = sig.length → 1 ≤ neq → 2 ≤ n → 0 ≤ tol →
    hSmooth (largest mag neq).1 = .ok hf → 0 < hf →
    kijko (mag.map fin) (sig.map fin) neq (fin (n : ℝ)) (fin tol) maxIter fuel = some (.ok (m, s)) → ∃ m' s', m = fin m' ∧ s = fin s' := by
  intro hall
  obtain ⟨h, hok, h1, h2⟩ := smooth155
  norm_num at h1 h2
  have hl : (largest [(3.5 : ℝ), 5, 5, 5.4, 5.4, 7] 100).1 = [3.5, 5, 5, 5.4, 5.4, 7] := by simp [largest]
  have hpos : 0 < h := by linarith
  have hmax : npMax [(3.5 : ℝ), 5, 5, 5.4, 5.4, 7] = .ok 7 := by
    refine npMax_iff.2 ⟨by simp, fun z hz => ?_⟩
    simp only [List.mem_cons, List.not_mem_nil, or_false, Set.mem_ofPred_eq] at hz
    rcases hz with rfl | rfl | rfl | rfl | rfl | rfl <;> norm_num
  have hnan := C155_outliers (mag := [(3.5 : ℝ), 5, 5, 5.4, 5.4, 7]) (sig := [0.1, 0.1, 0.1, 0.1, 0.1, 0.1]) (rest := [5, 5, 5.4, 5.4]) (lo := 3.5) (hi := 7) (by simp) (neq := 100) (n := 51) (by norm_num) (by norm_num)
    (by rw [hl]; exact hok) hpos
    (by
      rw [hl]
      exact ((List.perm_append_comm (l₁ := [5, 5, 5.4, 5.4]) (l₂ := [7])).cons 3.5))
    (by norm_num; linarith) (by
      intro g hg
      simp only [List.mem_cons, List.not_mem_nil, or_false] at hg
      rcases hg with rfl | rfl | rfl | rfl <;> norm_num <;> constructor <;> linarith) hmax (tol := 0.05) (by norm_num) (by norm_num) 1000 1000
  obtain ⟨m', _, hm, _⟩ := hall [(3.5 : ℝ), 5, 5, 5.4, 5.4, 7] [0.1, 0.1, 0.1, 0.1, 0.1, 0.1] 100 51 1000 1001 0.05 h _ _ (by simp) rfl (by norm_num) (by norm_num) (by norm_num) (by rw [hl]; exact hok) hpos hnan
  cases hm

end Verif.MaxMag
