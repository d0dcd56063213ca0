import Verif.Lemmas.Double

/-!
# C163, C164: the recurrence table in double precision
-/

namespace Verif.Recurrence

open Verif Verif.Np Verif.Dbl

namespace Spec

/-- An earthquake of the year `e.1` and the magnitude `e.2 / 100`, in double precision. -/
def quake (e : Dbl × ℤ) : Dbl × Dbl := (e.1, .of (e.2 / 100))

/-- `tenths / 10` is the smallest magnitude rounded down to one decimal. -/
def LowestTenth (ev : List (Dbl × ℤ)) (tenths : ℤ) : Prop := IsLeast {z | ∃ e ∈ ev, e.2 / 10 = z} tenths

/-- The number of earthquakes with a magnitude from `lo` on and below `hi`. -/
def between (ev : List (Dbl × ℤ)) (lo hi : ℚ) : ℕ := ev.countP fun e => decide (lo ≤ (e.2 : ℚ) / 100 ∧ (e.2 : ℚ) / 100 < hi)

/-- Some magnitude is closer than 0.00000001 to `x`. -/
def Near (ev : List (Dbl × ℤ)) (x : ℚ) : Prop := ∃ e ∈ ev, |(e.2 : ℚ) / 100 - x| < 1 / 10 ^ 8

end Spec

open Spec

theorem hundredth_near {k : ℤ} (hk : |k| ≤ 1000) : |(Dbl.of ((k : ℚ) / 100)).val - k / 100| ≤ 1 / 10 ^ 9 := by
  refine (of_near (B := 10) ?_).trans (by norm_num)
  rw [abs_div, abs_of_pos (by norm_num : (0 : ℚ) < 100), div_le_iff₀ (by norm_num), ← Int.cast_abs]
  exact_mod_cast hk

/-- How far the edges reach. -/
theorem reach {K U : ℤ} (hK : |K| ≤ 100) (hU : |U| ≤ 100) (hKU : K ≤ U) {q : ℚ} (h1 : 1 / 1000 ≤ q) (h2 : q ≤ 10) {len : ℕ}
    (hl : len = arangeLen (Dbl.of (K / 10)) (Dbl.of (U / 10) + ((2 : ℕ) : Dbl) * Dbl.of q) (Dbl.of q)) :
    1 < len ∧ ((len - 1 : ℕ) : ℚ) * q ≤ 100 ∧ (U : ℚ) / 10 + q - 1 / 10 ^ 7 ≤ K / 10 + ((len - 1 : ℕ) : ℚ) * q := by
  have hten : ∀ {K : ℤ}, |K| ≤ 100 → |(K : ℚ) / 10| ≤ 10 := by
    intro K hK
    rw [abs_div, abs_of_pos (by norm_num : (0 : ℚ) < 10), div_le_iff₀ (by norm_num), ← Int.cast_abs]
    have : ((|K| : ℤ) : ℚ) ≤ 100 := by exact_mod_cast hK
    linarith
  have hq : |q| ≤ 10 := abs_le.2 ⟨by linarith, h2⟩
  have eL := of_near (hten hK)
  have eU := of_near (hten hU)
  have eD := of_near hq
  set L := Dbl.of ((K : ℚ) / 10)
  set V := Dbl.of ((U : ℚ) / 10)
  set D := Dbl.of q
  have bK := abs_le.1 (hten hK)
  have bU := abs_le.1 (hten hU)
  have bD := abs_le.1 eD
  have hKU' : (K : ℚ) ≤ U := by exact_mod_cast hKU
  have e2D : |(((2 : ℕ) : Dbl) * D).val - 2 * q| ≤ 43 / 2 ^ 53 := by
    rw [val_mul, val_nat_exact (by norm_num)]
    refine (rnd_near (ε := 22 / 2 ^ 53) (B := 20) ?_ ?_ (by norm_num)).trans (by norm_num)
    · rw [show ((2 : ℕ) : ℚ) * D.val - 2 * q = 2 * (D.val - q) by push_cast; ring, abs_mul, abs_of_pos (by norm_num : (0 : ℚ) < 2)]
      linarith
    · rw [abs_of_nonneg (by linarith)]; linarith
  have eS : |(V + ((2 : ℕ) : Dbl) * D).val - (U / 10 + 2 * q)| ≤ 85 / 2 ^ 53 := by
    rw [val_add]
    refine (rnd_near (ε := 54 / 2 ^ 53) (B := 30) ?_ ?_ (by norm_num)).trans (by norm_num)
    · rw [show V.val + (((2 : ℕ) : Dbl) * D).val - (U / 10 + 2 * q) = (V.val - U / 10) + ((((2 : ℕ) : Dbl) * D).val - 2 * q) by ring]
      refine (abs_add_le _ _).trans ((add_le_add eU e2D).trans (by norm_num))
    · rw [abs_le]; constructor <;> linarith
  have eN : |(V + ((2 : ℕ) : Dbl) * D - L).val - (U / 10 + 2 * q - K / 10)| ≤ 137 / 2 ^ 53 := by
    rw [val_sub]
    refine (rnd_near (ε := 96 / 2 ^ 53) (B := 40) ?_ ?_ (by norm_num)).trans (by norm_num)
    · rw [show (V + ((2 : ℕ) : Dbl) * D).val - L.val - (U / 10 + 2 * q - K / 10) = ((V + ((2 : ℕ) : Dbl) * D).val - (U / 10 + 2 * q)) - (L.val - K / 10) by ring]
      refine (abs_sub _ _).trans ((add_le_add eS eL).trans (by norm_num))
    · rw [abs_le]; constructor <;> linarith
  set N := (V + ((2 : ℕ) : Dbl) * D - L).val with hN
  have bN := abs_le.1 eN
  have u1 : (137 : ℚ) / 2 ^ 53 ≤ 1 / 10 ^ 12 := by norm_num
  have u2 : ((10 : ℚ) + 1) / 2 ^ 53 ≤ 1 / 10 ^ 14 := by norm_num
  have hD1 : 1 / 2000 ≤ D.val := by linarith
  have hD2 : D.val ≤ 11 := by linarith
  have hDpos : 0 < D.val := by linarith
  have hN0 : 0 < N := by linarith
  have hN41 : N ≤ 41 := by linarith
  have hr : N / D.val ≤ 82000 := by rw [div_le_iff₀ hDpos]; linarith
  have hr0 : 0 < N / D.val := div_pos hN0 hDpos
  obtain ⟨X, hX⟩ : ∃ X, X = (V + ((2 : ℕ) : Dbl) * D - L) / D := ⟨_, rfl⟩
  have eX : |X.val - N / D.val| ≤ 1 / 10 ^ 10 := by
    rw [hX, val_div, ← hN]
    refine (rnd53_error _).trans ?_
    rw [abs_of_pos hr0, div_le_iff₀ (by norm_num)]
    exact hr.trans (by norm_num)
  have bX := abs_le.1 eX
  have hlen : len = (⌈X.val⌉).toNat := by rw [hl, hX]; rfl
  have hXpos : 0 < X.val := by
    have : 0 < N / D.val - 1 / 10 ^ 10 := by
      have : 1 / 1000 ≤ N / D.val := by rw [le_div_iff₀ hDpos]; linarith
      linarith [show (1 : ℚ) / 10 ^ 10 < 1 / 1000 by norm_num]
    linarith
  have hc : (0 : ℤ) < ⌈X.val⌉ := Int.ceil_pos.2 hXpos
  have hlq : (len : ℚ) = (⌈X.val⌉ : ℚ) := by
    have : (len : ℤ) = ⌈X.val⌉ := by rw [hlen]; omega
    exact_mod_cast this
  have c1 := Int.le_ceil X.val
  have c2 := Int.ceil_lt_add_one X.val
  rw [← hlq] at c1 c2
  have hlen1 : 1 ≤ len := by omega
  have hpred : ((len - 1 : ℕ) : ℚ) = len - 1 := by push_cast [hlen1]; ring
  have hlow : N - 1 / 10 ^ 8 ≤ len * D.val := by
    have : N / D.val - 1 / 10 ^ 10 ≤ len := by linarith
    have := mul_le_mul_of_nonneg_right this hDpos.le
    rw [sub_mul, div_mul_cancel₀ _ hDpos.ne'] at this
    linarith
  have hup : ((len : ℚ) - 1) * D.val ≤ N + 1 / 10 ^ 8 := by
    have : (len : ℚ) - 1 ≤ N / D.val + 1 / 10 ^ 10 := by linarith
    have := mul_le_mul_of_nonneg_right this hDpos.le
    rw [add_mul, div_mul_cancel₀ _ hDpos.ne'] at this
    linarith
  have hlen90 : (len : ℚ) ≤ 90000 := by linarith
  have hlq0 : (0 : ℚ) ≤ len := by positivity
  have d1 : (len : ℚ) * D.val - len * q ≤ 1 / 10 ^ 8 := by
    rw [← mul_sub]
    exact (mul_le_mul_of_nonneg_left (show D.val - q ≤ 1 / 10 ^ 14 by linarith) hlq0).trans (by linarith)
  have d2 : ((len : ℚ) - 1) * q - ((len : ℚ) - 1) * D.val ≤ 1 / 10 ^ 8 := by
    rw [← mul_sub]
    have hl1 : (0 : ℚ) ≤ len - 1 := by
      have : (1 : ℚ) ≤ len := by exact_mod_cast hlen1
      linarith
    exact (mul_le_mul_of_nonneg_left (show q - D.val ≤ 1 / 10 ^ 14 by linarith) hl1).trans (by linarith)
  rw [hpred]
  refine ⟨?_, by linarith, by linarith⟩
  by_contra hle
  have : len = 1 := by omega
  rw [this] at hlow d1
  norm_num at hlow d1
  linarith

variable [Libm]

/-- The table, with the edges in double precision. -/
theorem table_dbl {ev : List (Dbl × ℤ)} (hev : ev ≠ []) (hk : ∀ e ∈ ev, |e.2| ≤ 1000) {q : ℚ} (h1 : 1 / 1000 ≤ q) (h2 : q ≤ 10) :
    ∃ rows K, recurrenceTable (ev.map quake) (Dbl.of q) = .ok rows ∧ LowestTenth ev K ∧ |K| ≤ 100 ∧ rows.length * q ≤ 100 ∧
      (∀ e ∈ ev, (Dbl.of ((e.2 : ℚ) / 100)).val < (arangeAt (Dbl.of (K / 10)) (Dbl.of q) rows.length).val) ∧ 0 < rows.length ∧
      ∀ i (hi : i < rows.length), rows[i].nObs = ev.countP fun e => inBin (arangeAt (Dbl.of (K / 10)) (Dbl.of q)) rows.length i (Dbl.of ((e.2 : ℚ) / 100)) := by
  have hq : 0 < q := by linarith
  have ht : ∀ e ∈ ev, |e.2 / 10| ≤ 100 ∧ |-(-e.2 / 10)| ≤ 100 := by
    intro e he
    have h := abs_le.1 (hk e he)
    constructor <;> rw [abs_le] <;> constructor <;> omega
  have hsmall : ∀ {z : ℤ}, |z| ≤ 100 → |z| ≤ 2 ^ 53 := fun h => h.trans (by norm_num)
  have elow : ((ev.map quake).map Prod.snd).map (fun m => ((PyNum.floorZ ((10.0 : Dbl) * m) : Int) : Dbl) / 10.0) = ev.map fun e => Dbl.of (((e.2 / 10 : ℤ) : ℚ) / 10) := by
    rw [List.map_map, List.map_map]
    refine List.map_congr_left fun e he => ?_
    simp only [Function.comp_apply, quake]
    rw [(tenths (hk e he)).1, tenth_val (hsmall (ht e he).1)]
  have eup : ((ev.map quake).map Prod.snd).map (fun m => ((PyNum.ceilZ ((10.0 : Dbl) * m) : Int) : Dbl) / 10.0) = ev.map fun e => Dbl.of (((-(-e.2 / 10) : ℤ) : ℚ) / 10) := by
    rw [List.map_map, List.map_map]
    refine List.map_congr_left fun e he => ?_
    simp only [Function.comp_apply, quake]
    rw [(tenths (hk e he)).2, tenth_val (hsmall (ht e he).2)]
  have hfin : ∀ f : Dbl × ℤ → ℤ, ∃ K, IsLeast {z | ∃ e ∈ ev, f e = z} K := by
    intro f
    have hne : (ev.map f) ≠ [] := by simpa using hev
    refine ⟨(ev.map f).min hne, ?_, ?_⟩
    · obtain ⟨e, he, h⟩ := List.mem_map.1 (List.min_mem hne)
      exact ⟨e, he, h⟩
    · rintro z ⟨e, he, rfl⟩
      exact List.min_le_of_mem (List.mem_map_of_mem he)
  obtain ⟨K, hK⟩ := hfin fun e => e.2 / 10
  obtain ⟨U', hU'⟩ := hfin fun e => -e.2 / 10
  obtain ⟨⟨eK, heK, hKe⟩, hKmin⟩ := hK
  obtain ⟨⟨eU, heU, hUe⟩, hUmin⟩ := hU'
  have hK100 : |K| ≤ 100 := by rw [← hKe]; exact (ht eK heK).1
  have hU100 : |-U'| ≤ 100 := by rw [← hUe]; exact (ht eU heU).2
  have hmono : ∀ {a b : ℤ}, a ≤ b → rnd53 ((a : ℚ) / 10) ≤ rnd53 ((b : ℚ) / 10) := by
    intro a b h
    have : (a : ℚ) ≤ b := by exact_mod_cast h
    exact rnd53_mono (by linarith)
  have hne1 : (ev.map fun e => Dbl.of (((e.2 / 10 : ℤ) : ℚ) / 10)) ≠ [] := by simpa using hev
  have hne2 : (ev.map fun e => Dbl.of (((-(-e.2 / 10) : ℤ) : ℚ) / 10)) ≠ [] := by simpa using hev
  have hlow : npMin (ev.map fun e => Dbl.of (((e.2 / 10 : ℤ) : ℚ) / 10)) = .ok (Dbl.of ((K : ℚ) / 10)) := by
    obtain ⟨m, hm⟩ := npMin_exists hne1
    rw [hm]
    obtain ⟨h1, h2⟩ := npMin_spec hm
    obtain ⟨e, he, rfl⟩ := List.mem_map.1 h1
    refine congrArg Except.ok (Dbl.ext (le_antisymm (h2 _ (List.mem_map.2 ⟨eK, heK, by rw [hKe]⟩)) ?_))
    exact hmono (hKmin ⟨e, he, rfl⟩)
  have hup : npMax (ev.map fun e => Dbl.of (((-(-e.2 / 10) : ℤ) : ℚ) / 10)) = .ok (Dbl.of (((-U' : ℤ) : ℚ) / 10)) := by
    obtain ⟨m, hm⟩ := npMax_exists hne2
    rw [hm]
    obtain ⟨h1, h2⟩ := npMax_spec hm
    obtain ⟨e, he, rfl⟩ := List.mem_map.1 h1
    refine congrArg Except.ok (Dbl.ext (le_antisymm ?_ (h2 _ (List.mem_map.2 ⟨eU, heU, by rw [hUe]⟩))))
    have := hUmin ⟨e, he, rfl⟩
    exact hmono (by omega)
  have hKU : K ≤ -U' := by
    have h1 := hKmin ⟨eU, heU, rfl⟩
    omega
  obtain ⟨y1, hy1⟩ := npMax_exists (show (ev.map quake).map Prod.fst ≠ [] by simpa using hev)
  obtain ⟨y0, hy0⟩ := npMin_exists (show (ev.map quake).map Prod.fst ≠ [] by simpa using hev)
  obtain ⟨len, hlen⟩ : ∃ len, len = arangeLen (Dbl.of ((K : ℚ) / 10)) (Dbl.of (((-U' : ℤ) : ℚ) / 10) + ((2 : ℕ) : Dbl) * Dbl.of q) (Dbl.of q) := ⟨_, rfl⟩
  obtain ⟨r1, r2, r3⟩ := reach hK100 hU100 hKU h1 h2 hlen
  have hDpos : 0 < (Dbl.of q).val := by
    have := rnd53_mono (show (1 : ℚ) / 2 ^ 20 ≤ q by norm_num at h1 ⊢; linarith)
    have e : rnd53 (1 / 2 ^ 20) = 1 / 2 ^ 20 := by
      have := rnd53_repr (n := 1) (by norm_num) (-20)
      rw [show ((1 : ℤ) : ℚ) * pow2 (-20) = 1 / 2 ^ 20 by rw [pow2_eq]; norm_num] at this
      exact this
    rw [e] at this
    exact lt_of_lt_of_le (by norm_num) this
  have hd0 : PyNum.decEq (Dbl.of q) 0 = false := by
    rw [decEq_def, val_zero]
    simpa using hDpos.ne'
  have hdn : ¬ (1 < len ∧ Dbl.of q < 0) := by
    rintro ⟨-, h⟩
    rw [lt_def, val_zero] at h
    exact absurd hDpos (not_lt.2 h.le)
  unfold recurrenceTable
  simp only [elow, eup, hlow, hup, hy1, hy0, bind, Except.bind, pure, Except.pure, hd0, ← hlen, Bool.false_eq_true, if_false, if_neg (show len ≠ 0 by omega), if_neg hdn]
  refine ⟨_, K, rfl, ⟨⟨eK, heK, hKe⟩, hKmin⟩, hK100, ?_, ?_, ?_, ?_⟩
  · simpa using r2
  · intro e he
    simp only [List.length_map, List.length_range]
    have b1 := abs_le.1 (arange_near hK100 h1 h2 r2)
    have b2 := abs_le.1 (hundredth_near (hk e he))
    have hu : (e.2 : ℚ) / 100 ≤ ((-U' : ℤ) : ℚ) / 10 := by
      have := hUmin ⟨e, he, rfl⟩
      have h : e.2 ≤ 10 * (-U') := by omega
      have h' : (e.2 : ℚ) ≤ 10 * ((-U' : ℤ) : ℚ) := by exact_mod_cast h
      linarith
    linarith
  · simp only [List.length_map, List.length_range]; omega
  · intro i hi
    simp only [List.length_map, List.length_range] at hi ⊢
    rw [List.getElem_map, List.getElem_range]
    simp only
    rw [List.getD_eq_getElem?_getD, List.getElem?_eq_getElem (by simpa [histogram] using hi), Option.getD_some]
    simp only [histogram, List.getElem_map, List.getElem_range, List.countP_map]
    rfl

/-- **C163, part that holds**: for magnitudes with two decimals between -10 and 10 and bins between 0.001 and 10 the table computed in double precision counts every earthquake exactly once.
Missing: other magnitudes, see `C163_fails`. -/
theorem C163_total_partial {ev : List (Dbl × ℤ)} (hev : ev ≠ []) (hk : ∀ e ∈ ev, |e.2| ≤ 1000) {q : ℚ} (h1 : 1 / 1000 ≤ q) (h2 : q ≤ 10) :
    ∃ rows, recurrenceTable (ev.map quake) (Dbl.of q) = .ok rows ∧ (rows.map RecRow.nObs).sum = ev.length := by
  obtain ⟨rows, K, hr, hK, hK100, -, hlast, hpos, hobs⟩ := table_dbl hev hk h1 h2
  refine ⟨rows, hr, ?_⟩
  have hD : 0 ≤ (Dbl.of q).val := by
    have := rnd53_mono (show (0 : ℚ) ≤ q by linarith)
    rwa [rnd53_zero] at this
  have e1 : rows.map RecRow.nObs = (List.range rows.length).map fun i => (ev.map fun e => (((Dbl.of ((e.2 : ℚ) / 100)).val : ℚ) : ℝ)).countP
      (inBin (fun j => (((arangeAt (Dbl.of (K / 10)) (Dbl.of q) j).val : ℚ) : ℝ)) rows.length i) := by
    refine List.ext_getElem (by simp) fun i hi hi' => ?_
    have hi2 : i < rows.length := by simpa using hi
    simp only [List.getElem_map, List.getElem_range]
    rw [hobs i hi2, List.countP_map]
    refine List.countP_congr fun e he => ?_
    simp only [Function.comp_apply]
    rw [inBin_cast]
  rw [e1, inBin_mono_sum]
  · rw [show ev.length = (ev.map fun e => (((Dbl.of ((e.2 : ℚ) / 100)).val : ℚ) : ℝ)).length by simp, List.countP_eq_length]
    intro x hx
    obtain ⟨e, he, rfl⟩ := List.mem_map.1 hx
    rw [arange_zero, decide_eq_true_eq, Rat.cast_le]
    refine rnd53_mono ?_
    have := hK.2 ⟨e, he, rfl⟩
    have h : 10 * K ≤ e.2 := by omega
    have h' : 10 * (K : ℚ) ≤ e.2 := by exact_mod_cast h
    linarith
  · intro i j hij
    simp only [Rat.cast_le]
    exact arange_mono hD hij
  · intro x hx
    obtain ⟨e, he, rfl⟩ := List.mem_map.1 hx
    exact_mod_cast hlast e he

/-- **C164, part that holds**: a bin counts the earthquakes whose magnitude lies in it, unless there is an earthquake closer than 0.00000001 to one of its ends (other than the lower end of
the first bin).  Missing: the other bins, see `C164_fails`. -/
theorem C164_bin_partial {ev : List (Dbl × ℤ)} (hev : ev ≠ []) (hk : ∀ e ∈ ev, |e.2| ≤ 1000) {q : ℚ} (h1 : 1 / 1000 ≤ q) (h2 : q ≤ 10) :
    ∃ rows K, recurrenceTable (ev.map quake) (Dbl.of q) = .ok rows ∧ LowestTenth ev K ∧ ∀ i (hi : i < rows.length),
      (i ≠ 0 → ¬ Near ev (K / 10 + i * q)) → ¬ Near ev (K / 10 + (i + 1) * q) → rows[i].nObs = between ev (K / 10 + i * q) (K / 10 + (i + 1) * q) := by
  obtain ⟨rows, K, hr, hK, hK100, hmax, hlast, hpos, hobs⟩ := table_dbl hev hk h1 h2
  refine ⟨rows, K, hr, hK, fun i hi hn0 hn1 => ?_⟩
  rw [hobs i hi, between]
  refine List.countP_congr fun e he => ?_
  have hq : 0 < q := by linarith
  have hiq : ((i + 1 : ℕ) : ℚ) * q ≤ 100 := by
    have : ((i + 1 : ℕ) : ℚ) ≤ rows.length := by exact_mod_cast hi
    nlinarith
  have hiq' : (i : ℚ) * q ≤ 100 := by push_cast at hiq; linarith
  have b0 := abs_le.1 (arange_near hK100 h1 h2 hiq')
  have b1 := abs_le.1 (arange_near hK100 h1 h2 hiq)
  have b2 := abs_le.1 (hundredth_near (hk e he))
  push_cast at b1
  have n1 : 1 / 10 ^ 8 ≤ |(e.2 : ℚ) / 100 - (K / 10 + (i + 1) * q)| := not_lt.1 fun h => hn1 ⟨e, he, h⟩
  have lower : (arangeAt (Dbl.of (K / 10)) (Dbl.of q) i).val ≤ (Dbl.of ((e.2 : ℚ) / 100)).val ↔ (K : ℚ) / 10 + i * q ≤ e.2 / 100 := by
    by_cases h0 : i = 0
    · subst h0
      have := hK.2 ⟨e, he, rfl⟩
      have h : 10 * K ≤ e.2 := by omega
      have h' : 10 * (K : ℚ) ≤ e.2 := by exact_mod_cast h
      rw [arange_zero]
      refine iff_of_true (rnd53_mono (by linarith)) (by push_cast; linarith)
    · have n0 : 1 / 10 ^ 8 ≤ |(e.2 : ℚ) / 100 - (K / 10 + i * q)| := not_lt.1 fun h => hn0 h0 ⟨e, he, h⟩
      rcases le_abs.1 n0 with h | h
      · exact iff_of_true (by linarith) (by linarith)
      · exact iff_of_false (by intro h'; linarith) (by intro h'; linarith)
  have upper : ((Dbl.of ((e.2 : ℚ) / 100)).val < (arangeAt (Dbl.of (K / 10)) (Dbl.of q) (i + 1)).val ↔ (e.2 : ℚ) / 100 < K / 10 + (i + 1) * q) ∧
      ((Dbl.of ((e.2 : ℚ) / 100)).val ≤ (arangeAt (Dbl.of (K / 10)) (Dbl.of q) (i + 1)).val ↔ (e.2 : ℚ) / 100 < K / 10 + (i + 1) * q) := by
    rcases le_abs.1 n1 with h | h
    · exact ⟨iff_of_false (by intro h'; linarith) (by intro h'; linarith), iff_of_false (by intro h'; linarith) (by intro h'; linarith)⟩
    · exact ⟨iff_of_true (by linarith) (by linarith), iff_of_true (by linarith) (by linarith)⟩
  unfold inBin
  simp only [Bool.and_eq_true, decide_eq_true_eq, le_def, lower]
  split_ifs
  · simp only [decide_eq_true_eq, upper.2]
  · simp only [decide_eq_true_eq, lt_def, upper.1]

omit [Libm] in
/-- The table does not depend on the functions of the C library. -/
theorem table_libm (L L' : Libm) (ev : List (Dbl × Dbl)) (dm : Dbl) : @recurrenceTable Dbl (@instPyMathDbl L) ev dm = @recurrenceTable Dbl (@instPyMathDbl L') ev dm := rfl

/-- **C163 is false**: ten times the double next below 3.6 rounds to 36, so that the lowest edge of the table is above the earthquake and the table is empty. -/
theorem C163_fails : ¬ ∀ (ev : List (Dbl × Dbl)) (dm : Dbl) (rows : List (RecRow Dbl)), 0 < dm → recurrenceTable ev dm = .ok rows → (rows.map RecRow.nObs).sum = ev.length := by
  intro H
  have h : (@recurrenceTable Dbl (@instPyMathDbl noLibm) [(2000.0, 3.5999999999999996)] 0.1).map (fun rows => (rows.map RecRow.nObs).sum) = .ok 0 := by decide +kernel
  rw [table_libm noLibm ‹Libm›] at h
  cases hr : recurrenceTable [((2000.0 : Dbl), (3.5999999999999996 : Dbl))] 0.1 with
  | error err => rw [hr] at h; cases h
  | ok rows =>
    rw [hr] at h
    simp only [Except.map, Except.ok.injEq] at h
    have := H _ _ rows (by decide +kernel) hr
    rw [h] at this
    cases this

/-- **C164 is false**: in a catalogue with the magnitudes 3.0 and 3.3 the earthquake of magnitude 3.3 is counted in the bin from 3.2 to 3.3. -/
theorem C164_fails : ¬ ∀ (ev : List (Dbl × ℤ)) (q : ℚ) (rows : List (RecRow Dbl)) (K : ℤ), (∀ e ∈ ev, |e.2| ≤ 1000) → 1 / 1000 ≤ q → q ≤ 10 →
    recurrenceTable (ev.map quake) (Dbl.of q) = .ok rows → LowestTenth ev K → ∀ i (hi : i < rows.length), rows[i].nObs = between ev (K / 10 + i * q) (K / 10 + (i + 1) * q) := by
  intro H
  have h : (@recurrenceTable Dbl (@instPyMathDbl noLibm) ([((2000.0 : Dbl), (300 : ℤ)), (2000.0, 330)].map quake) (Dbl.of (1 / 10))).map (List.map RecRow.nObs) = .ok [1, 0, 1, 0] := by
    decide +kernel
  rw [table_libm noLibm ‹Libm›] at h
  cases hr : recurrenceTable ([((2000.0 : Dbl), (300 : ℤ)), (2000.0, 330)].map quake) (Dbl.of (1 / 10)) with
  | error err => rw [hr] at h; cases h
  | ok rows =>
    rw [hr] at h
    simp only [Except.map, Except.ok.injEq] at h
    have hl : rows.length = 4 := by simpa using congrArg List.length h
    have h2 : rows[2].nObs = 1 := by
      have : (rows.map RecRow.nObs)[2]? = some 1 := by rw [h]; rfl
      simpa [List.getElem?_map, List.getElem?_eq_getElem (show 2 < rows.length by omega)] using this
    have hK : LowestTenth [((2000.0 : Dbl), (300 : ℤ)), (2000.0, 330)] 30 := by
      refine ⟨⟨_, List.mem_cons_self, by norm_num⟩, ?_⟩
      rintro z ⟨e, he, rfl⟩
      simp only [List.mem_cons, List.not_mem_nil, or_false] at he
      rcases he with rfl | rfl <;> norm_num
    have := H _ (1 / 10) rows 30 (by intro e he; simp only [List.mem_cons, List.not_mem_nil, or_false] at he; rcases he with rfl | rfl <;> norm_num) (by norm_num) (by norm_num) hr hK 2
      (by omega)
    rw [h2] at this
    norm_num [between] at this

/-- Every earthquake of this catalogue is counted, though not in its bin. -/
example : ∃ rows, recurrenceTable ([((2000.0 : Dbl), (300 : ℤ)), (2000.0, 330)].map quake) (Dbl.of (1 / 10)) = .ok rows ∧ (rows.map RecRow.nObs).sum = 2 :=
  C163_total_partial (by simp) (by intro e he; simp only [List.mem_cons, List.not_mem_nil, or_false] at he; rcases he with rfl | rfl <;> norm_num) (by norm_num) (by norm_num)

/-- Bins without an earthquake at their ends. -/
example : ∃ rows, recurrenceTable ([((2000.0 : Dbl), (305 : ℤ)), (2000.0, 317)].map quake) (Dbl.of (1 / 10)) = .ok rows ∧ ∃ h : 1 < rows.length, rows[1].nObs = 1 := by
  have hk : ∀ e ∈ [((2000.0 : Dbl), (305 : ℤ)), (2000.0, 317)], |e.2| ≤ 1000 := by
    intro e he; simp only [List.mem_cons, List.not_mem_nil, or_false] at he; rcases he with rfl | rfl <;> norm_num
  obtain ⟨rows, K, hr, hK, h⟩ := C164_bin_partial (ev := [((2000.0 : Dbl), (305 : ℤ)), (2000.0, 317)]) (q := 1 / 10) (by simp) hk (by norm_num) (by norm_num)
  obtain rfl : K = 30 := by
    refine hK.unique ⟨⟨_, List.mem_cons_self, by norm_num⟩, ?_⟩
    rintro z ⟨e, he, rfl⟩
    simp only [List.mem_cons, List.not_mem_nil, or_false] at he
    rcases he with rfl | rfl <;> norm_num
  have hl : (@recurrenceTable Dbl (@instPyMathDbl noLibm) ([((2000.0 : Dbl), (305 : ℤ)), (2000.0, 317)].map quake) (Dbl.of (1 / 10))).map List.length = .ok 4 := by decide +kernel
  rw [table_libm noLibm ‹Libm›, hr] at hl
  simp only [Except.map, Except.ok.injEq] at hl
  refine ⟨rows, hr, by omega, ?_⟩
  have := h 1 (by omega) ?_ ?_
  · rw [this]; norm_num [between]
  · rintro - ⟨e, he, h⟩
    simp only [List.mem_cons, List.not_mem_nil, or_false] at he
    rcases he with rfl | rfl <;> norm_num [abs_lt] at h
  · rintro ⟨e, he, h⟩
    simp only [List.mem_cons, List.not_mem_nil, or_false] at he
    rcases he with rfl | rfl <;> norm_num [abs_lt] at h

end Verif.Recurrence
