import Verif.Lemmas.DoubleSum
import Verif.Props.Recurrence
import Verif.Props.DoubleMle
import Verif.Lemmas.Nrml

/-!
# C188, C189: the maximum likelihood b-value in double precision
-/

namespace Verif.Recurrence

open Verif Verif.Np Verif.Dbl

/-! ### Specification -/

/-- The bins at or above the completeness magnitude, with exact magnitudes. -/
def Spec.above (h : List (Dbl × ℕ)) (mc : Dbl) : List (ℚ × ℕ) := (h.filter fun r => mc.val ≤ r.1.val).map fun r => (r.1.val, r.2)

/-- Number of earthquakes of bins. -/
def Spec.number (h : List (ℚ × ℕ)) : ℕ := (h.map Prod.snd).sum

/-- Mean magnitude of bins. -/
def Spec.mean (h : List (ℚ × ℕ)) : ℚ := (h.map fun r => r.1 * (r.2 : ℚ)).sum / Spec.number h

/-- The decimal logarithm of `e` as the library computes it. -/
def Spec.logE [Libm] : ℚ := (PyMath.log10 (PyMath.exp (1.0 : Dbl))).val

/-! ### The mean magnitude -/

theorem half_near {x B : ℚ} (d : Dbl) (hd : d.val = x) (hB : |x| ≤ B) : |(d / (2.0 : Dbl)).val - x / 2| ≤ (B + 1) / 2 ^ 53 := by
  have h2 : ((2.0 : Dbl)).val = 2 := by
    show rnd53 (2.0 : ℚ) = 2
    have := rnd53_int (n := 2) (by norm_num)
    rw [show (2.0 : ℚ) = ((2 : ℤ) : ℚ) by norm_num, this]
    norm_num
  rw [val_div, h2, hd]
  refine of_near ?_
  rw [abs_div, abs_of_pos (by norm_num : (0 : ℚ) < 2)]
  have := abs_nonneg x
  linarith

theorem abs_sum_le (l : List (ℚ × ℕ)) {M : ℚ} (hM : ∀ r ∈ l, |r.1| ≤ M) : (l.map fun r => |r.1 * (r.2 : ℚ)|).sum ≤ M * Spec.number l := by
  induction l with
  | nil => simp [Spec.number]
  | cons r l ih =>
    have h1 := ih fun r hr => hM r (by simp [hr])
    have h2 := hM r (by simp)
    simp only [Spec.number, List.map_cons, List.sum_cons] at h1 ⊢
    rw [abs_mul, abs_of_nonneg (show (0 : ℚ) ≤ (r.2 : ℚ) by positivity)]
    push_cast
    have := mul_le_mul_of_nonneg_right h2 (show (0 : ℚ) ≤ (r.2 : ℚ) by positivity)
    push_cast at h1
    linarith

/-- The sum of the magnitudes. -/
theorem moment_near {g : List (Dbl × ℕ)} {M : ℚ} (hM : ∀ r ∈ g, |r.1.val| ≤ M) (hM0 : 0 ≤ M) (hN : (g.map Prod.snd).sum ≤ 2 ^ 53) (hlen : g.length ≤ 10 ^ 5) :
    |(npSum (g.map fun r => r.1 * (r.2 : Dbl))).val - (g.map fun r => r.1.val * (r.2 : ℚ)).sum| ≤ M * ((g.map Prod.snd).sum : ℕ) * (2 * g.length + 1) / 2 ^ 52 := by
  have hle : ∀ r ∈ g, r.2 ≤ 2 ^ 53 := fun r hr => (List.single_le_sum (by simp) _ (List.mem_map_of_mem hr)).trans hN
  have key : ∀ g : List (Dbl × ℕ), (∀ r ∈ g, |r.1.val| ≤ M) → (∀ r ∈ g, r.2 ≤ 2 ^ 53) →
      |((g.map fun r => r.1 * (r.2 : Dbl)).map Dbl.val).sum - (g.map fun r => r.1.val * (r.2 : ℚ)).sum| ≤ M * ((g.map Prod.snd).sum : ℕ) / 2 ^ 53 ∧
      ((g.map fun r => r.1 * (r.2 : Dbl)).map fun x => |x.val|).sum ≤ 2 * (M * ((g.map Prod.snd).sum : ℕ)) := by
    intro g
    induction g with
    | nil => intro _ _; simp
    | cons r g ih =>
      intro h1 h2
      obtain ⟨i1, i2⟩ := ih (fun r hr => h1 r (by simp [hr])) (fun r hr => h2 r (by simp [hr]))
      have hr := h1 r (by simp)
      have hv : (r.1 * (r.2 : Dbl)).val = rnd53 (r.1.val * (r.2 : ℚ)) := by rw [val_mul, val_nat_exact (h2 r (by simp))]
      have he := rnd53_error (r.1.val * (r.2 : ℚ))
      have hn : (0 : ℚ) ≤ (r.2 : ℚ) := by positivity
      have ha : |r.1.val * (r.2 : ℚ)| ≤ M * r.2 := by
        rw [abs_mul, abs_of_nonneg hn]
        exact mul_le_mul_of_nonneg_right hr hn
      have hd : |r.1.val * (r.2 : ℚ)| / 2 ^ 53 ≤ M * r.2 / 2 ^ 53 := div_le_div_of_nonneg_right ha (by norm_num)
      have hp : 0 ≤ M * (r.2 : ℚ) := mul_nonneg hM0 hn
      simp only [List.map_cons, List.sum_cons, hv]
      push_cast
      push_cast at i1 i2
      constructor
      · have e : rnd53 (r.1.val * (r.2 : ℚ)) + ((g.map fun r => r.1 * (r.2 : Dbl)).map Dbl.val).sum - (r.1.val * (r.2 : ℚ) + (g.map fun r => r.1.val * (r.2 : ℚ)).sum) =
          (rnd53 (r.1.val * (r.2 : ℚ)) - r.1.val * (r.2 : ℚ)) + (((g.map fun r => r.1 * (r.2 : Dbl)).map Dbl.val).sum - (g.map fun r => r.1.val * (r.2 : ℚ)).sum) := by ring
        rw [e]
        refine (abs_add_le _ _).trans ?_
        have : M * ((r.2 : ℚ) + ((g.map Prod.snd).map (Nat.cast (R := ℚ))).sum) / 2 ^ 53 = M * r.2 / 2 ^ 53 + M * ((g.map Prod.snd).map (Nat.cast (R := ℚ))).sum / 2 ^ 53 := by ring
        rw [this]
        exact add_le_add (he.trans hd) i1
      · have : |rnd53 (r.1.val * (r.2 : ℚ))| ≤ 2 * (M * r.2) := by
          have := abs_sub_abs_le_abs_sub (rnd53 (r.1.val * (r.2 : ℚ))) (r.1.val * (r.2 : ℚ))
          have h3 : M * (r.2 : ℚ) / 2 ^ 53 ≤ M * r.2 := div_le_self hp (by norm_num)
          linarith
        linarith
  obtain ⟨k1, k2⟩ := key g hM hle
  have h := sum_near (l := g.map fun r => r.1 * (r.2 : Dbl)) (by rw [List.length_map]; omega)
  rw [List.length_map] at h
  have h' : (g.length : ℚ) * ((g.map fun r => r.1 * (r.2 : Dbl)).map fun x => |x.val|).sum / 2 ^ 52 ≤ g.length * (2 * (M * ((g.map Prod.snd).sum : ℕ))) / 2 ^ 52 :=
    div_le_div_of_nonneg_right (mul_le_mul_of_nonneg_left k2 (by positivity)) (by norm_num)
  have e : M * ((g.map Prod.snd).sum : ℕ) * (2 * (g.length : ℚ) + 1) / 2 ^ 52 = g.length * (2 * (M * ((g.map Prod.snd).sum : ℕ))) / 2 ^ 52 + M * ((g.map Prod.snd).sum : ℕ) / 2 ^ 53 + M * ((g.map Prod.snd).sum : ℕ) / 2 ^ 53 := by ring
  have hnn : 0 ≤ M * (((g.map Prod.snd).sum : ℕ) : ℚ) / 2 ^ 53 := by positivity
  refine (abs_sub_le _ ((g.map fun r => r.1 * (r.2 : Dbl)).map Dbl.val).sum _).trans ?_
  rw [e]
  linarith

/-- The mean magnitude is accurate to 1e-9. -/
theorem mean_near {g : List (Dbl × ℕ)} (hM : ∀ r ∈ g, |r.1.val| ≤ 128) (hN : (g.map Prod.snd).sum ≤ 2 ^ 53) (hpos : 0 < (g.map Prod.snd).sum) (hlen : g.length ≤ 10 ^ 4) :
    |(npSum (g.map fun r => r.1 * (r.2 : Dbl)) / npSum (g.map fun r => (r.2 : Dbl))).val - Spec.mean (g.map fun r => (r.1.val, r.2))| ≤ 1 / 10 ^ 9 ∧
    |Spec.mean (g.map fun r => (r.1.val, r.2))| ≤ 128 := by
  have h1 := moment_near hM (by norm_num) hN (by omega)
  have h2 : (npSum (g.map fun r => (r.2 : Dbl))).val = ((g.map Prod.snd).sum : ℕ) := by
    have := sum_nat hN
    rw [List.map_map] at this
    exact this
  have hnum : Spec.number (g.map fun r => (r.1.val, r.2)) = (g.map Prod.snd).sum := by simp [Spec.number, Function.comp_def]
  obtain ⟨N, hNd⟩ : ∃ N : ℚ, N = ((g.map Prod.snd).sum : ℕ) := ⟨_, rfl⟩
  have hNp : 0 < N := by rw [hNd]; exact_mod_cast hpos
  have hS : Spec.mean (g.map fun r => (r.1.val, r.2)) = (g.map fun r => r.1.val * (r.2 : ℚ)).sum / N := by
    rw [Spec.mean, hnum, ← hNd, List.map_map]; rfl
  have hb : |(g.map fun r => r.1.val * (r.2 : ℚ)).sum| ≤ 128 * N := by
    have e := abs_sum_le (g.map fun r => (r.1.val, r.2)) (M := 128) (by
      intro r hr
      obtain ⟨q, hq, rfl⟩ := List.mem_map.1 hr
      exact hM q hq)
    rw [hnum, ← hNd, List.map_map] at e
    refine le_trans ?_ e
    have : ∀ l : List (Dbl × ℕ), |(l.map fun r => r.1.val * (r.2 : ℚ)).sum| ≤ (l.map ((fun r : ℚ × ℕ => |r.1 * (r.2 : ℚ)|) ∘ fun r => (r.1.val, r.2))).sum := by
      intro l
      induction l with
      | nil => simp
      | cons r l ih =>
        simp only [List.map_cons, List.sum_cons, Function.comp]
        refine (abs_add_le _ _).trans (add_le_add le_rfl ih)
    exact this g
  generalize (g.map fun r => r.1.val * (r.2 : ℚ)).sum = S at *
  have hmean : |S / N| ≤ 128 := by
    rw [abs_div, abs_of_pos hNp, div_le_iff₀ hNp]; exact hb
  rw [hS]
  refine ⟨?_, hmean⟩
  rw [val_div, h2, ← hNd]
  rw [← hNd] at h1
  have hl : (g.length : ℚ) ≤ 10 ^ 4 := by exact_mod_cast hlen
  have h3 : |(npSum (g.map fun r => r.1 * (r.2 : Dbl))).val / N - S / N| ≤ 128 * (2 * 10 ^ 4 + 1) / 2 ^ 52 := by
    rw [← sub_div, abs_div, abs_of_pos hNp, div_le_iff₀ hNp]
    refine h1.trans ?_
    have : (128 : ℚ) * N * (2 * g.length + 1) ≤ 128 * N * (2 * 10 ^ 4 + 1) := mul_le_mul_of_nonneg_left (by linarith) (by positivity)
    have := div_le_div_of_nonneg_right this (show (0 : ℚ) ≤ 2 ^ 52 by norm_num)
    refine this.trans (le_of_eq ?_)
    ring
  exact (rnd_near h3 hmean (by norm_num)).trans (by norm_num)

/-- A mean is not below the least value. -/
theorem binMean_ge {g : List (ℚ × ℕ)} {m : ℚ} (hm : ∀ r ∈ g, m ≤ r.1) (hpos : 0 < Spec.number g) : m ≤ Spec.mean g := by
  have key : ∀ g : List (ℚ × ℕ), (∀ r ∈ g, m ≤ r.1) → m * Spec.number g ≤ (g.map fun r => r.1 * (r.2 : ℚ)).sum := by
    intro g
    induction g with
    | nil => intro _; simp [Spec.number]
    | cons r g ih =>
      intro h
      have h1 := ih fun r hr => h r (by simp [hr])
      have h2 := mul_le_mul_of_nonneg_right (h r (by simp)) (show (0 : ℚ) ≤ (r.2 : ℚ) by positivity)
      simp only [Spec.number, List.map_cons, List.sum_cons] at h1 ⊢
      push_cast at h1 ⊢
      linarith
  rw [Spec.mean, le_div_iff₀ (by exact_mod_cast hpos)]
  exact key g hm

/-- A rounded quotient by a perturbed divisor. -/
theorem quot_near {L d D : ℚ} (hL : 0 < L) (hD : 1 / 200 ≤ D) (hd : |d - D| ≤ 2 / 10 ^ 9) : |rnd53 (L / d) - L / D| ≤ L / D / 10 ^ 6 ∧ 0 < rnd53 (L / d) := by
  have hD0 : 0 < D := by linarith
  obtain ⟨h1, h2⟩ := abs_le.1 hd
  have hd0 : 0 < d := by norm_num at h1; linarith
  have hq : 0 < L / D := div_pos hL hD0
  have e : L / d - L / D = L / D * ((D - d) / d) := by field_simp
  have hr : |(D - d) / d| ≤ 5 / 10 ^ 7 := by
    rw [abs_div, abs_of_pos hd0, div_le_iff₀ hd0, abs_sub_comm]
    norm_num at h1 hd ⊢
    linarith
  have h3 : |L / d - L / D| ≤ L / D * (5 / 10 ^ 7) := by
    rw [e, abs_mul, abs_of_pos hq]
    exact mul_le_mul_of_nonneg_left hr hq.le
  have h4 := rnd53_error (L / d)
  have h5 : |L / d| ≤ L / D * 2 := by
    have := abs_sub_abs_le_abs_sub (L / d) (L / D)
    rw [abs_of_pos hq] at this
    linarith
  have h6 : |L / d| / 2 ^ 53 ≤ L / D * 2 / 2 ^ 53 := div_le_div_of_nonneg_right h5 (by norm_num)
  have h7 := abs_sub_le (rnd53 (L / d)) (L / d) (L / D)
  have h8 : |rnd53 (L / d) - L / D| ≤ L / D / 10 ^ 6 := by
    refine h7.trans ((add_le_add (h4.trans h6) h3).trans ?_)
    have : L / D * 2 / 2 ^ 53 + L / D * (5 / 10 ^ 7) = L / D * (2 / 2 ^ 53 + 5 / 10 ^ 7) := by ring
    rw [this, div_eq_mul_inv (L / D) (10 ^ 6)]
    exact mul_le_mul_of_nonneg_left (by norm_num) hq.le
  refine ⟨h8, ?_⟩
  have := (abs_le.1 h8).1
  linarith

/-- **C188.** The maximum likelihood b-value of `b_max_likelihood` in double precision: with bins of 0.01 to 16, magnitudes up to 128 and at most 2^53 earthquakes in at most 10000 bins, of which one at or
above the completeness magnitude holds an earthquake, the function succeeds, and the b-value is positive, differs by at most a millionth from Aki's value `log10(e) / (mean - least + width / 2)` of the
exact mean and the least of the magnitudes at or above completeness, and exceeds `2 log10(e) / width` by at most a millionth of it. -/
theorem C188_b_value [Libm] (hL : 0 < Spec.logE) {h : List (Dbl × ℕ)} {dmag mc : Dbl} (hd : 1 / 100 ≤ dmag.val) (hd' : dmag.val ≤ 16) (hM : ∀ r ∈ h, |r.1.val| ≤ 128) (hN : (h.map Prod.snd).sum ≤ 2 ^ 53)
    (hlen : h.length ≤ 10 ^ 4) (hex : ∃ r ∈ h, mc.val ≤ r.1.val ∧ 0 < r.2) :
    ∃ b s : Dbl, bMaxLikelihood h dmag mc = .ok (b, s) ∧ 0 < b.val ∧ b.val ≤ 2 * Spec.logE / dmag.val * (1 + 1 / 10 ^ 6) ∧
      ∀ m ∈ (Spec.above h mc).map Prod.fst, (∀ r ∈ Spec.above h mc, m ≤ r.1) →
        |b.val - Spec.logE / (Spec.mean (Spec.above h mc) - m + dmag.val / 2)| ≤ Spec.logE / (Spec.mean (Spec.above h mc) - m + dmag.val / 2) / 10 ^ 6 := by
  obtain ⟨g, hg⟩ : ∃ g, g = h.filter fun r => decide (r.1 ≥ mc) := ⟨_, rfl⟩
  have hab : Spec.above h mc = g.map fun r => (r.1.val, r.2) := by rw [hg]; rfl
  have hsub : g.Sublist h := by rw [hg]; exact List.filter_sublist
  have hgM : ∀ r ∈ g, |r.1.val| ≤ 128 := fun r hr => hM r (hsub.subset hr)
  have hgN : (g.map Prod.snd).sum ≤ 2 ^ 53 := ((hsub.map Prod.snd).sum_le_sum (by simp)).trans hN
  have hgl : g.length ≤ 10 ^ 4 := hsub.length_le.trans hlen
  obtain ⟨q, hq, hq1, hq2⟩ := hex
  have hqg : q ∈ g := by rw [hg]; exact List.mem_filter.2 ⟨hq, by simpa using le_def.2 hq1⟩
  have hpos : 0 < (g.map Prod.snd).sum := lt_of_lt_of_le hq2 (List.single_le_sum (by simp) _ (List.mem_map_of_mem hqg))
  obtain ⟨mn, hmn⟩ : ∃ mn, npMin (g.map Prod.fst) = .ok mn := by
    cases g with
    | nil => simp at hqg
    | cons x l => exact ⟨_, rfl⟩
  obtain ⟨hm1, hm2⟩ := npMin_spec hmn
  obtain ⟨k1, k2⟩ := mean_near hgM hgN hpos hgl
  have hnum : Spec.number (Spec.above h mc) = (g.map Prod.snd).sum := by rw [hab]; simp [Spec.number, Function.comp_def]
  have hge : mn.val ≤ Spec.mean (Spec.above h mc) := by
    refine binMean_ge ?_ (by rw [hnum]; exact hpos)
    intro r hr
    rw [hab] at hr
    obtain ⟨x, hx, rfl⟩ := List.mem_map.1 hr
    exact hm2 _ (List.mem_map_of_mem hx)
  have hmnB : |mn.val| ≤ 128 := by
    obtain ⟨x, hx, rfl⟩ := List.mem_map.1 hm1
    exact hgM x hx
  rw [← hab] at k1 k2
  generalize hμ : Spec.mean (Spec.above h mc) = μ at *
  obtain ⟨D, hD⟩ : ∃ D, D = μ - mn.val + dmag.val / 2 := ⟨_, rfl⟩
  obtain ⟨av, hav⟩ : ∃ av, av = npSum (g.map fun r => r.1 * (r.2 : Dbl)) / npSum (g.map fun r => (r.2 : Dbl)) := ⟨_, rfl⟩
  rw [← hav] at k1
  have hden : |(av - mn + dmag / 2.0).val - D| ≤ 2 / 10 ^ 9 := by
    have h1 : |(av - mn).val - (μ - mn.val)| ≤ 1 / 10 ^ 9 + (256 + 1) / 2 ^ 53 := by
      rw [val_sub]
      refine rnd_near (by rw [show av.val - mn.val - (μ - mn.val) = av.val - μ by ring]; exact k1) ?_ (by norm_num)
      refine (abs_sub _ _).trans ?_
      linarith
    have h2 := half_near dmag rfl (B := 16) (abs_le.2 ⟨by linarith, hd'⟩)
    rw [val_add, hD]
    refine (rnd_near (ε := 1 / 10 ^ 9 + 280 / 2 ^ 53) (B := 280) ?_ ?_ (by norm_num)).trans (by norm_num)
    · rw [show (av - mn).val + (dmag / 2.0).val - (μ - mn.val + dmag.val / 2) = ((av - mn).val - (μ - mn.val)) + ((dmag / 2.0).val - dmag.val / 2) by ring]
      refine (abs_add_le _ _).trans ?_
      norm_num at h1 h2 ⊢
      linarith
    · obtain ⟨a1, a2⟩ := abs_le.1 k2
      obtain ⟨b1, b2⟩ := abs_le.1 hmnB
      rw [abs_le]
      constructor <;> linarith
  have hD5 : 1 / 200 ≤ D := by rw [hD]; linarith
  obtain ⟨q1, q2⟩ := quot_near hL hD5 hden
  have hDd : Spec.logE / D ≤ 2 * Spec.logE / dmag.val := by
    rw [div_le_div_iff₀ (by linarith) (by linarith)]
    have : dmag.val ≤ 2 * D := by rw [hD]; linarith
    nlinarith
  refine ⟨_, _, by rw [bMaxLikelihood]; simp only [← hg, hmn]; rfl, ?_, ?_, ?_⟩
  · rw [← hav, val_div]; exact q2
  · rw [← hav, val_div]
    have := (abs_le.1 q1).2
    change rnd53 (Spec.logE / _) ≤ _
    refine (show rnd53 (Spec.logE / _) ≤ Spec.logE / D * (1 + 1 / 10 ^ 6) by linarith).trans ?_
    exact mul_le_mul_of_nonneg_right hDd (by norm_num)
  · intro m hm hml
    have : m = mn.val := by
      rw [hab] at hm hml
      refine le_antisymm ?_ ?_
      · obtain ⟨x, hx, hx'⟩ := List.mem_map.1 hm1
        rw [← hx']
        exact hml _ (List.mem_map_of_mem hx)
      · rw [List.map_map] at hm
        obtain ⟨x, hx, rfl⟩ := List.mem_map.1 hm
        exact hm2 _ (List.mem_map_of_mem hx)
    subst this
    rw [← hav, val_div, ← hD]
    exact q1

/-! ### The average over the completeness periods -/

theorem rel_near {x a δ : ℚ} (ha : 0 ≤ a) (hδ : δ ≤ 1) (h : |x - a| ≤ δ * a) : |rnd53 x - a| ≤ (δ + 1 / 2 ^ 52) * a := by
  have h1 := rnd53_error x
  have h2 : |x| ≤ 2 * a := by
    have := abs_sub_abs_le_abs_sub x a
    rw [abs_of_nonneg ha] at this
    have : δ * a ≤ 1 * a := mul_le_mul_of_nonneg_right hδ ha
    linarith
  have h3 : |x| / 2 ^ 53 ≤ 2 * a / 2 ^ 53 := div_le_div_of_nonneg_right h2 (by norm_num)
  have h4 := abs_sub_le (rnd53 x) x a
  have : (2 : ℚ) * a / 2 ^ 53 = 1 / 2 ^ 52 * a := by ring
  rw [add_mul]
  linarith

/-- A weighted average of values that are not negative is accurate to a relative 1e-9. -/
theorem weighted_near [Libm] {ps : List (Period Dbl)} {f : Period Dbl → Dbl} (hf : ∀ p ∈ ps, 0 ≤ (f p).val) (hN : (ps.map Period.n).sum ≤ 2 ^ 53) (hlen : ps.length ≤ 10 ^ 5) :
    |(weighted ps f).val - (ps.map fun p => (p.n : ℚ) * (f p).val).sum / ((ps.map Period.n).sum : ℕ)| ≤
      (ps.map fun p => (p.n : ℚ) * (f p).val).sum / ((ps.map Period.n).sum : ℕ) / 10 ^ 9 := by
  have h2 : (npSum (ps.map fun p => (p.n : Dbl))).val = ((ps.map Period.n).sum : ℕ) := by
    have := sum_nat hN
    rw [List.map_map] at this
    exact this
  obtain ⟨N, hNd⟩ : ∃ N : ℚ, N = ((ps.map Period.n).sum : ℕ) := ⟨_, rfl⟩
  have hN0 : 0 ≤ N := by rw [hNd]; positivity
  obtain ⟨t, ht⟩ : ∃ t, t = npSum (ps.map fun p => (p.n : Dbl)) := ⟨_, rfl⟩
  have htv : t.val = N := by rw [ht, h2, hNd]
  have hle : ∀ p ∈ ps, p.n ≤ 2 ^ 53 := fun r hr => (List.single_le_sum (by simp) _ (List.mem_map_of_mem hr)).trans hN
  have key : ∀ l : List (Period Dbl), (∀ p ∈ l, 0 ≤ (f p).val) → (∀ p ∈ l, p.n ≤ 2 ^ 53) →
      0 ≤ (l.map fun p => (p.n : ℚ) * (f p).val).sum / N ∧
      |((l.map fun p => ((p.n : Dbl) / t) * f p).map Dbl.val).sum - (l.map fun p => (p.n : ℚ) * (f p).val).sum / N| ≤ (2 / 2 ^ 52) * ((l.map fun p => (p.n : ℚ) * (f p).val).sum / N) ∧
      ((l.map fun p => ((p.n : Dbl) / t) * f p).map fun x => |x.val|).sum ≤ 2 * ((l.map fun p => (p.n : ℚ) * (f p).val).sum / N) := by
    intro l
    induction l with
    | nil => intro _ _; simp
    | cons p l ih =>
      intro h1 h2
      obtain ⟨i0, i1, i2⟩ := ih (fun r hr => h1 r (by simp [hr])) (fun r hr => h2 r (by simp [hr]))
      have hfp := h1 p (by simp)
      have hq : (0 : ℚ) ≤ (p.n : ℚ) / N := by positivity
      have hv : ((p.n : Dbl) / t * f p).val = rnd53 (rnd53 ((p.n : ℚ) / N) * (f p).val) := by rw [val_mul, val_div, val_nat_exact (h2 p (by simp)), htv]
      have e1 := rel_near (x := (p.n : ℚ) / N) (δ := 0) hq (by norm_num) (by simp)
      have e2 : |rnd53 ((p.n : ℚ) / N) * (f p).val - (p.n : ℚ) / N * (f p).val| ≤ (0 + 1 / 2 ^ 52) * ((p.n : ℚ) / N * (f p).val) := by
        rw [← sub_mul, abs_mul, abs_of_nonneg hfp, ← mul_assoc]
        exact mul_le_mul_of_nonneg_right e1 hfp
      have hw : 0 ≤ (p.n : ℚ) / N * (f p).val := mul_nonneg hq hfp
      have e3 := rel_near hw (by norm_num) e2
      rw [← hv] at e3
      simp only [List.map_cons, List.sum_cons]
      rw [add_div, mul_div_right_comm (p.n : ℚ)]
      generalize (l.map fun p => (p.n : ℚ) * (f p).val).sum / N = T at *
      generalize ((p.n : Dbl) / t * f p).val = v at *
      generalize (p.n : ℚ) / N * (f p).val = w at *
      refine ⟨add_nonneg hw i0, ?_, ?_⟩
      · rw [add_sub_add_comm]
        refine (abs_add_le _ _).trans ?_
        norm_num at e3 i1 ⊢
        linarith
      · have := abs_sub_abs_le_abs_sub v w
        rw [abs_of_nonneg hw] at this
        norm_num at e3
        linarith
  obtain ⟨k0, k1, k2⟩ := key ps hf hle
  have h := sum_near (l := ps.map fun p => ((p.n : Dbl) / t) * f p) (by rw [List.length_map]; omega)
  rw [List.length_map] at h
  have hw : weighted ps f = npSum (ps.map fun p => ((p.n : Dbl) / t) * f p) := by rw [weighted, ht]
  rw [← hNd, hw]
  generalize (ps.map fun p => (p.n : ℚ) * (f p).val).sum / N = T at *
  have hl : (ps.length : ℚ) ≤ 10 ^ 5 := by exact_mod_cast hlen
  have h3 : (ps.length : ℚ) * ((ps.map fun p => ((p.n : Dbl) / t) * f p).map fun x => |x.val|).sum / 2 ^ 52 ≤ 10 ^ 5 * (2 * T) / 2 ^ 52 :=
    div_le_div_of_nonneg_right (mul_le_mul hl k2 (List.sum_nonneg (by simp)) (by norm_num)) (by norm_num)
  refine (abs_sub_le _ _ _).trans ((add_le_add (h.trans h3) k1).trans ?_)
  norm_num
  linarith

/-- Between lower and upper bounds of the values. -/
theorem average_between {ps : List (Period Dbl)} {f : Period Dbl → Dbl} {lo hi : ℚ} (h : ∀ p ∈ ps, lo ≤ (f p).val ∧ (f p).val ≤ hi) (hpos : 0 < (ps.map Period.n).sum) :
    lo ≤ (ps.map fun p => (p.n : ℚ) * (f p).val).sum / ((ps.map Period.n).sum : ℕ) ∧ (ps.map fun p => (p.n : ℚ) * (f p).val).sum / ((ps.map Period.n).sum : ℕ) ≤ hi := by
  have key : ∀ l : List (Period Dbl), (∀ p ∈ l, lo ≤ (f p).val ∧ (f p).val ≤ hi) → lo * ((l.map Period.n).sum : ℕ) ≤ (l.map fun p => (p.n : ℚ) * (f p).val).sum ∧
      (l.map fun p => (p.n : ℚ) * (f p).val).sum ≤ hi * ((l.map Period.n).sum : ℕ) := by
    intro l
    induction l with
    | nil => intro _; simp
    | cons p l ih =>
      intro h
      obtain ⟨i1, i2⟩ := ih fun r hr => h r (by simp [hr])
      obtain ⟨j1, j2⟩ := h p (by simp)
      have hn : (0 : ℚ) ≤ (p.n : ℚ) := by positivity
      have a1 := mul_le_mul_of_nonneg_left j1 hn
      have a2 := mul_le_mul_of_nonneg_left j2 hn
      simp only [List.map_cons, List.sum_cons]
      push_cast at i1 i2 ⊢
      constructor <;> linarith
  obtain ⟨k1, k2⟩ := key ps h
  have hp : (0 : ℚ) < ((ps.map Period.n).sum : ℕ) := by exact_mod_cast hpos
  exact ⟨(le_div_iff₀ hp).2 k1, (div_le_iff₀ hp).2 k2⟩

theorem period_events [Libm] {ev : List (Dbl × Dbl)} {dmag ref c : Dbl} {g : List Dbl} {p : Period Dbl} (h : period ev dmag ref c g = .ok p) : 0 < p.n ∧ p.n ≤ ev.length := by
  rw [period] at h
  obtain ⟨mc, _, h⟩ := Nrml.bind_ok h
  obtain ⟨y1, hy1, h⟩ := Nrml.bind_ok h
  obtain ⟨y0, _, h⟩ := Nrml.bind_ok h
  obtain ⟨t, _, h⟩ := Nrml.bind_ok h
  obtain ⟨⟨b, s⟩, _, h⟩ := Nrml.bind_ok h
  simp only [pure, Except.pure, Except.ok.injEq] at h
  subst h
  refine ⟨?_, List.length_filter_le _ _⟩
  obtain ⟨x, hx, _⟩ := List.mem_map.1 (npMax_spec hy1).1
  exact List.length_pos_of_mem hx

theorem periods_number [Libm] {ev table : List (Dbl × Dbl)} {dmag ref : Dbl} (i : ℕ) : ∀ {ps : List (Period Dbl)}, periods ev table dmag ref i = .ok ps →
    (∀ p ∈ ps, 0 < p.n ∧ p.n ≤ ev.length) ∧ ps.length ≤ table.length - i := by
  refine periods.induct table (fun i => ∀ {ps : List (Period Dbl)}, periods ev table dmag ref i = .ok ps →
    (∀ p ∈ ps, 0 < p.n ∧ p.n ≤ ev.length) ∧ ps.length ≤ table.length - i) ?_ ?_ ?_ i
  · intro i hi g hg ps h
    rw [periods] at h
    simp only [hi, dif_pos] at h
    rw [dif_pos hg] at h
    cases h
  · intro i hi g hg ih ps h
    rw [periods] at h
    simp only [hi, dif_pos] at h
    rw [dif_neg hg] at h
    obtain ⟨p, hp, h⟩ := Nrml.bind_ok h
    obtain ⟨l, hl, h⟩ := Nrml.bind_ok h
    simp only [pure, Except.pure, Except.ok.injEq] at h
    subst h
    obtain ⟨i1, i2⟩ := ih hl
    refine ⟨?_, by rw [List.length_cons]; omega⟩
    intro q hq
    rcases List.mem_cons.1 hq with rfl | hq
    · exact period_events hp
    · exact i1 q hq
  · intro i hi ps h
    rw [periods] at h
    rw [dif_neg hi] at h
    simp only [Except.ok.injEq] at h
    subst h
    simp

/-- **C189.** The results of `b_maxlike_time` in double precision are the averages over the completeness periods, weighted with the numbers of earthquakes, to a relative accuracy of 1e-9: a result whose values in
the periods are all between `lo ≥ 0` and `hi` is between `lo (1 - 1e-9)` and `hi (1 + 1e-9)`, for at most 100000 periods and 10^10 earthquakes. -/
theorem C189_average [Libm] {ev table : List (Dbl × Dbl)} {dmag ref : Dbl} {r : GR Dbl} (h : bMaxlikeTime ev table dmag ref = .ok r) (ht : table.length ≤ 10 ^ 5) (hev : ev.length ≤ 10 ^ 10) :
    ∃ ps, periods ev table dmag ref 0 = .ok ps ∧ ∀ x ∈ [(r.b, Period.b), (r.sigb, Period.sigb), (r.a, Period.rate), (r.siga, Period.sigrate)], (∀ p ∈ ps, 0 ≤ (x.2 p).val) →
      |x.1.val - (ps.map fun p => (p.n : ℚ) * (x.2 p).val).sum / (ps.map fun p => (p.n : ℚ)).sum| ≤ (ps.map fun p => (p.n : ℚ) * (x.2 p).val).sum / (ps.map fun p => (p.n : ℚ)).sum / 10 ^ 9 ∧
      ∀ lo hi : ℚ, (∀ p ∈ ps, lo ≤ (x.2 p).val ∧ (x.2 p).val ≤ hi) → 0 ≤ lo → lo * (1 - 1 / 10 ^ 9) ≤ x.1.val ∧ x.1.val ≤ hi * (1 + 1 / 10 ^ 9) := by
  rw [bMaxlikeTime] at h
  obtain ⟨ps, hps, h⟩ := Nrml.bind_ok h
  by_cases hE : ps.isEmpty
  · simp [hE, throw, throwThe, MonadExceptOf.throw, bind, Except.bind] at h
  simp only [hE, Bool.false_eq_true, if_false] at h
  simp only [pure, Except.pure, Except.ok.injEq] at h
  obtain ⟨n1, n2⟩ := periods_number 0 hps
  have hpos : 0 < (ps.map Period.n).sum := by
    cases ps with
    | nil => simp at hE
    | cons p l => exact lt_of_lt_of_le (n1 p (by simp)).1 (List.single_le_sum (by simp) _ (List.mem_map_of_mem (by simp)))
  have hN : (ps.map Period.n).sum ≤ 2 ^ 53 := by
    have : (ps.map Period.n).sum ≤ (ps.map Period.n).length • ev.length := List.sum_le_card_nsmul _ _ (by
      intro x hx
      obtain ⟨p, hp, rfl⟩ := List.mem_map.1 hx
      exact (n1 p hp).2)
    rw [List.length_map, smul_eq_mul] at this
    have h3 : ps.length * ev.length ≤ 10 ^ 5 * 10 ^ 10 := Nat.mul_le_mul (by omega) hev
    omega
  have hcast : (ps.map fun p => (p.n : ℚ)).sum = ((ps.map Period.n).sum : ℕ) := by
    push_cast
    rw [List.map_map]
    rfl
  refine ⟨ps, hps, ?_⟩
  have main : ∀ (v : Dbl) (f : Period Dbl → Dbl), v = weighted ps f → (∀ p ∈ ps, 0 ≤ (f p).val) →
      |v.val - (ps.map fun p => (p.n : ℚ) * (f p).val).sum / (ps.map fun p => (p.n : ℚ)).sum| ≤ (ps.map fun p => (p.n : ℚ) * (f p).val).sum / (ps.map fun p => (p.n : ℚ)).sum / 10 ^ 9 ∧
      ∀ lo hi : ℚ, (∀ p ∈ ps, lo ≤ (f p).val ∧ (f p).val ≤ hi) → 0 ≤ lo → lo * (1 - 1 / 10 ^ 9) ≤ v.val ∧ v.val ≤ hi * (1 + 1 / 10 ^ 9) := by
    intro v f hv hf
    have h1 := weighted_near hf hN (by omega)
    rw [hcast, hv]
    refine ⟨h1, ?_⟩
    intro lo hi hb hlo
    obtain ⟨a1, a2⟩ := average_between hb hpos
    obtain ⟨b1, b2⟩ := abs_le.1 h1
    constructor <;> linarith
  subst h
  intro x hx
  simp only [List.mem_cons, List.not_mem_nil, or_false] at hx
  rcases hx with rfl | rfl | rfl | rfl <;> exact main _ _ rfl

/-! ### The b-value of a run -/

open Spec (quake completeCents)

/-- The b-value of a completeness period. -/
theorem period_b [Libm] (hL : 0 < Spec.logE) {ev : List (Dbl × ℤ)} (hk : ∀ e ∈ ev, |e.2| ≤ 1000) (hev : ev.length ≤ 10 ^ 10) {q : ℚ} (q0 : 1 / 100 ≤ q) (q1 : q ≤ 10) {C : ℤ} (hC : |C| ≤ 100)
    {g : List Dbl} {mc y ref : Dbl} (hg : npMin g = .ok mc) (hmc : |mc.val - C / 10| ≤ 1 / 10 ^ 9) (hex : ∃ e ∈ ev, y ≤ e.1 ∧ 10 * C ≤ e.2) :
    ∃ p, period (ev.map quake) (Dbl.of q) ref y g = .ok p ∧ 0 < p.b.val ∧ p.b.val ≤ 2 * Spec.logE / (Dbl.of q).val * (1 + 1 / 10 ^ 6) := by
  obtain ⟨rows, hr, hall, hcount⟩ := C177_used hk (by linarith) q1 hC hmc hex
  have hsel := selected_list hk y (g := 10 * C) (mc := mc) (by push_cast; rwa [show (10 * C : ℚ) / 100 = C / 10 by ring])
  have hne : completeCents ev y (10 * C) ≠ [] := by
    obtain ⟨e, he, h⟩ := hex
    exact List.ne_nil_of_mem (List.mem_filter.2 ⟨he, by simpa using h⟩)
  have hk' : ∀ e ∈ completeCents ev y (10 * C), |e.2| ≤ 1000 := fun e he => hk e (List.mem_of_mem_filter he)
  obtain ⟨rows', K, hr', hK, hK100, hlen, -⟩ := table_dbl hne hk' (q := q) (by linarith) q1
  rw [← hsel] at hr'
  obtain rfl : rows = rows' := by rw [hr] at hr'; exact Except.ok.inj hr'
  have hw : |(Dbl.of q).val - q| ≤ (10 + 1) / 2 ^ 53 := of_near (abs_le.2 ⟨by linarith, q1⟩)
  have hw0 : 1 / 100 ≤ (Dbl.of q).val := by
    have h1 : (1 / 100 : ℚ) ≤ rnd53 (1 / 100) := by decide +kernel
    exact h1.trans (rnd53_mono q0)
  have hw1 : (Dbl.of q).val ≤ 16 := by
    have := (abs_le.1 hw).2
    norm_num at this
    linarith
  have hfil : (rows.map fun r => (r.mval, r.nObs)).filter (fun r => decide (r.1 ≥ mc)) = rows.map fun r => (r.mval, r.nObs) := by
    rw [List.filter_eq_self]
    intro r hrm
    obtain ⟨r', hr', rfl⟩ := List.mem_map.1 hrm
    simpa using hall r' hr'
  rw [hfil] at hcount
  have hpos : 0 < ev.countP fun e => decide (y ≤ e.1 ∧ 10 * C ≤ e.2) := by
    rw [List.countP_pos_iff]
    obtain ⟨e, he, h⟩ := hex
    exact ⟨e, he, by simpa using h⟩
  have hmval : ∀ r ∈ rows.map fun r => (r.mval, r.nObs), |r.1.val| ≤ 128 := by
    intro r hrm
    obtain ⟨r', hr', rfl⟩ := List.mem_map.1 hrm
    rw [hsel] at hr
    obtain ⟨low, hlow, hmv⟩ := table_mval hr
    obtain ⟨i, hi, rfl⟩ := List.getElem_of_mem hr'
    show |(rows[i].mval).val| ≤ 128
    rw [hmv i hi]
    obtain ⟨hm, -⟩ := npMin_spec hlow
    rw [List.map_map, List.map_map] at hm
    obtain ⟨e, he, rfl⟩ := List.mem_map.1 hm
    simp only [Function.comp_apply, quake]
    have hb := abs_le.1 (hk' e he)
    rw [(tenths (hk' e he)).1, tenth_val (abs_le.2 ⟨by omega, by omega⟩)]
    have hKe : |e.2 / 10| ≤ 100 := abs_le.2 ⟨by omega, by omega⟩
    have hKq : |((e.2 / 10 : ℤ) : ℚ)| ≤ 100 := by rw [← Int.cast_abs]; exact_mod_cast hKe
    have hiq : (i : ℚ) * q ≤ 100 := by
      refine le_trans (mul_le_mul_of_nonneg_right ?_ (by linarith)) hlen
      exact_mod_cast hi.le
    have hi0 : 0 ≤ (i : ℚ) * q := mul_nonneg (by positivity) (by linarith)
    have h1 := abs_le.1 (arange_near hKe (q := q) (by linarith) q1 hiq)
    have h2 := abs_le.1 (half_near (Dbl.of q) rfl (B := 16) (abs_le.2 ⟨by linarith, hw1⟩))
    obtain ⟨k1, k2⟩ := abs_le.1 hKq
    rw [val_add]
    have h3 := rnd53_error ((arangeAt (Dbl.of (((e.2 / 10 : ℤ) : ℚ) / 10)) (Dbl.of q) i).val + (Dbl.of q / 2.0).val)
    generalize (arangeAt (Dbl.of (((e.2 / 10 : ℤ) : ℚ) / 10)) (Dbl.of q) i).val = A at *
    generalize (Dbl.of q / 2.0).val = B at *
    have h4 : |A + B| ≤ 120 := by
      norm_num at h1 h2
      rw [abs_le]
      constructor <;> linarith
    have h5 := abs_sub_abs_le_abs_sub (rnd53 (A + B)) (A + B)
    have h6 : |A + B| / 2 ^ 53 ≤ |A + B| / 1 := div_le_div_of_nonneg_left (abs_nonneg _) (by norm_num) (by norm_num)
    have h7 : |A + B| / 2 ^ 53 ≤ 120 / 2 ^ 53 := div_le_div_of_nonneg_right h4 (by norm_num)
    norm_num at h3 h7
    linarith
  obtain ⟨b, s, hb, b0, b1, -⟩ := C188_b_value hL (h := rows.map fun r => (r.mval, r.nObs)) (dmag := Dbl.of q) (mc := mc) hw0 hw1 hmval
    (by rw [hcount]; exact List.countP_le_length.trans (by omega))
    (by
      rw [List.length_map]
      have h1 : (rows.length : ℚ) * (1 / 100) ≤ rows.length * q := mul_le_mul_of_nonneg_left q0 (by positivity)
      have h2 : (rows.length : ℚ) ≤ 10 ^ 4 := by linarith
      exact_mod_cast h2)
    (by
      rw [← hcount] at hpos
      by_contra hno
      push Not at hno
      refine hpos.ne' (List.sum_eq_zero ?_)
      intro n hn
      obtain ⟨r, hrm, rfl⟩ := List.mem_map.1 hn
      obtain ⟨r', hr', rfl⟩ := List.mem_map.1 hrm
      have := hno _ hrm (le_def.1 (hall r' hr'))
      omega)
  obtain ⟨y1, hy1⟩ : ∃ y1, npMax ((periodEvents (ev.map quake) y mc).map Prod.fst) = .ok y1 := by
    rw [hsel]
    cases hc : completeCents ev y (10 * C) with
    | nil => exact absurd hc hne
    | cons x l => exact ⟨_, rfl⟩
  obtain ⟨y0, hy0⟩ : ∃ y0, npMin ((periodEvents (ev.map quake) y mc).map Prod.fst) = .ok y0 := by
    rw [hsel]
    cases hc : completeCents ev y (10 * C) with
    | nil => exact absurd hc hne
    | cons x l => exact ⟨_, rfl⟩
  refine ⟨_, by rw [period]; simp only [hg, hr, hb, hy1, hy0, Recurrence.bind_ok]; rfl, b0, b1⟩

/-- The periods of a table. -/
theorem periods_b [Libm] (hL : 0 < Spec.logE) {ev : List (Dbl × ℤ)} (hk : ∀ e ∈ ev, |e.2| ≤ 1000) (hev : ev.length ≤ 10 ^ 10) {q : ℚ} (q0 : 1 / 100 ≤ q) (q1 : q ≤ 10) {table : List (Dbl × Dbl)} {ref : Dbl}
    (ht : ∀ r ∈ table, ∃ C : ℤ, |C| ≤ 100 ∧ |r.2.val - C / 10| ≤ 1 / 10 ^ 9 ∧ ∃ e ∈ ev, r.1 ≤ e.1 ∧ 10 * C ≤ e.2) (i : ℕ) :
    ∃ ps, periods (ev.map quake) table (Dbl.of q) ref i = .ok ps ∧ (i < table.length → ps ≠ []) ∧ ∀ p ∈ ps, 0 < p.b.val ∧ p.b.val ≤ 2 * Spec.logE / (Dbl.of q).val * (1 + 1 / 10 ^ 6) := by
  have gmem : ∀ r ∈ table, r.2 ∈ groupOf table r.1 := by
    intro r hr
    refine List.mem_map.2 ⟨r, List.mem_filter.2 ⟨hr, ?_⟩, rfl⟩
    have e : r.1 - r.1 = (0 : Dbl) := Dbl.ext (by rw [val_sub, sub_self, rnd53_zero, val_zero])
    rw [e, decide_eq_true_eq]
    have key : @npAbs Dbl (@instPyMathDbl noLibm).toPyNum (0 : Dbl) < (1e-5 : Dbl) := by decide +kernel
    exact key
  refine periods.induct table (fun i => ∃ ps, periods (ev.map quake) table (Dbl.of q) ref i = .ok ps ∧ (i < table.length → ps ≠ []) ∧
    ∀ p ∈ ps, 0 < p.b.val ∧ p.b.val ≤ 2 * Spec.logE / (Dbl.of q).val * (1 + 1 / 10 ^ 6)) ?_ ?_ ?_ i
  · intro i hi g hg
    exact absurd hg (List.length_pos_of_mem (gmem _ (List.getElem_mem hi))).ne'
  · intro i hi g hg ih
    have hmem := gmem _ (List.getElem_mem hi)
    obtain ⟨mc, hmc⟩ : ∃ mc, npMin (groupOf table table[i].1) = .ok mc := by
      cases hc : groupOf table table[i].1 with
      | nil => rw [hc] at hmem; simp at hmem
      | cons x l => exact ⟨_, rfl⟩
    obtain ⟨hm1, hm2⟩ := npMin_spec hmc
    obtain ⟨r, hr, hrm⟩ := List.mem_map.1 hm1
    obtain ⟨C, hC, hCm, -⟩ := ht r (List.mem_of_mem_filter hr)
    rw [hrm] at hCm
    obtain ⟨C', hC', hCm', e, he, he1, he2⟩ := ht _ (List.getElem_mem hi)
    have hCC : C ≤ C' := by
      have h1 := hm2 _ hmem
      have h2 := (abs_le.1 hCm).1
      have h3 := (abs_le.1 hCm').2
      have h4 : (C : ℚ) < C' + 1 := by norm_num at h2 h3; linarith
      have : C < C' + 1 := by exact_mod_cast h4
      omega
    obtain ⟨p, hp, hpb⟩ := period_b hL hk hev q0 q1 hC (ref := ref) hmc hCm ⟨e, he, he1, by omega⟩
    obtain ⟨ps, hps, -, hpsb⟩ := ih
    refine ⟨p :: ps, ?_, fun _ => by simp, by rintro x (_ | ⟨_, hx⟩); exacts [hpb, hpsb x hx]⟩
    rw [periods]
    simp only [hi, dif_pos]
    rw [dif_neg hg, hp, Recurrence.bind_ok, hps]
    rfl
  · intro i hi
    refine ⟨[], ?_, fun h => absurd h hi, by simp⟩
    rw [periods, dif_neg hi]

/-- **C190.** The b-value of `b_maxlike_time` in double precision: for a catalogue with magnitudes of at most two decimals, bins of width 0.01 to 10 and a completeness table whose magnitudes have one decimal (up to
rounding) and of which every row has an earthquake to its right, the function succeeds and the b-value is positive and not above `2 log10(e) / width` by more than two millionths of it. -/
theorem C190_run [Libm] (hL : 0 < Spec.logE) {ev : List (Dbl × ℤ)} (hk : ∀ e ∈ ev, |e.2| ≤ 1000) (hev : ev.length ≤ 10 ^ 10) {q : ℚ} (q0 : 1 / 100 ≤ q) (q1 : q ≤ 10) {table : List (Dbl × Dbl)}
    (hne : table ≠ []) (hlen : table.length ≤ 10 ^ 5) (ht : ∀ r ∈ table, ∃ C : ℤ, |C| ≤ 100 ∧ |r.2.val - C / 10| ≤ 1 / 10 ^ 9 ∧ ∃ e ∈ ev, r.1 ≤ e.1 ∧ 10 * C ≤ e.2) (ref : Dbl) :
    ∃ r, bMaxlikeTime (ev.map quake) table (Dbl.of q) ref = .ok r ∧ 0 < r.b.val ∧ r.b.val ≤ 2 * Spec.logE / (Dbl.of q).val * (1 + 2 / 10 ^ 6) := by
  obtain ⟨ps, hps, hpne, hpb⟩ := periods_b hL hk hev q0 q1 (ref := ref) ht 0
  have hps0 := hpne (List.length_pos_iff.2 hne)
  obtain ⟨r, hr⟩ : ∃ r, bMaxlikeTime (ev.map quake) table (Dbl.of q) ref = .ok r := by
    rw [bMaxlikeTime, hps, Recurrence.bind_ok]
    cases ps with
    | nil => exact absurd rfl hps0
    | cons p l => exact ⟨_, rfl⟩
  obtain ⟨ps', hps', hall⟩ := C189_average hr hlen (by rw [List.length_map]; exact hev)
  obtain rfl : ps = ps' := by rw [hps] at hps'; exact Except.ok.inj hps'
  have hpart := (hall (r.b, Period.b) (by simp) fun p hp => (hpb p hp).1.le).2
  have hq : 0 < (Dbl.of q).val := by
    have h1 : (1 / 100 : ℚ) ≤ rnd53 (1 / 100) := by decide +kernel
    have := h1.trans (rnd53_mono q0)
    rw [val_of]
    linarith
  obtain ⟨lo, hlo0, hlo⟩ : ∃ lo : ℚ, 0 < lo ∧ ∀ p ∈ ps, lo ≤ p.b.val := by
    clear hpart hall hps' hr hps hpne hps0
    induction ps with
    | nil => exact ⟨1, by norm_num, by simp⟩
    | cons p l ih =>
      obtain ⟨lo, h0, h⟩ := ih fun p hp => hpb p (by simp [hp])
      refine ⟨min lo p.b.val, lt_min h0 (hpb p (by simp)).1, ?_⟩
      rintro x (_ | ⟨_, hx⟩)
      · exact min_le_right _ _
      · exact (min_le_left _ _).trans (h x hx)
  obtain ⟨h1, h2⟩ := hpart lo _ (fun p hp => ⟨hlo p hp, (hpb p hp).2⟩) hlo0.le
  refine ⟨r, hr, lt_of_lt_of_le (mul_pos hlo0 (by norm_num)) h1, h2.trans ?_⟩
  have hU : 0 ≤ 2 * Spec.logE / (Dbl.of q).val := by positivity
  rw [mul_assoc]
  exact mul_le_mul_of_nonneg_left (by norm_num) hU

/-! ### Examples -/

/-- Elementary functions for the examples: `log10(exp(1))` is 1. -/
@[reducible] def plainLibm : Libm := ⟨id, id, id, id, id, id, fun x _ => x, fun _ _ => .of 1, .of 3⟩

theorem plainLibm_logE : @Spec.logE plainLibm = 1 := by
  show ((1.0 : Dbl)).val = 1
  decide +kernel

/-- Non-vacuity of C188: two bins, of which the first is below the completeness magnitude; Aki's value is `1 / (4.2 - 4.05 + 0.05) = 5` up to the rounding of the magnitudes. -/
example : ∃ b s : Dbl, @bMaxLikelihood Dbl (@instPyMathDbl plainLibm) [(.of (39 / 10), 7), (.of (41 / 10), 3), (.of (42 / 10), 1)] (.of (1 / 10)) (.of 4) = .ok (b, s) ∧ 0 < b.val ∧ b.val ≤ 21 := by
  let _ := plainLibm
  obtain ⟨b, s, h, h0, h1, -⟩ := C188_b_value (by rw [plainLibm_logE]; norm_num) (h := [(.of (39 / 10), 7), (.of (41 / 10), 3), (.of (42 / 10), 1)]) (dmag := .of (1 / 10)) (mc := .of 4)
    (by decide +kernel) (by decide +kernel) (by decide +kernel) (by decide +kernel) (by simp) ⟨(.of (41 / 10), 3), by simp, by decide +kernel, by decide⟩
  refine ⟨b, s, h, h0, h1.trans ?_⟩
  rw [plainLibm_logE]
  decide +kernel

/-- Non-vacuity of C189 and C190: two completeness periods. -/
example : ∃ r : GR Dbl, @bMaxlikeTime Dbl (@instPyMathDbl plainLibm) ([((1985.0 : Dbl), (430 : ℤ)), (1990.0, 400), (2000.0, 340)].map quake) [(.of 1980, .of (40 / 10)), (.of 1995, .of (33 / 10))] (.of (1 / 10)) (.of 5) = .ok r ∧
    0 < r.b.val ∧ r.b.val ≤ 21 := by
  let _ := plainLibm
  obtain ⟨r, h, h0, h1⟩ := C190_run (by rw [plainLibm_logE]; norm_num) (ev := [((1985.0 : Dbl), (430 : ℤ)), (1990.0, 400), (2000.0, 340)]) (by decide) (by simp) (q := 1 / 10) (by norm_num) (by norm_num)
    (table := [(.of 1980, .of (40 / 10)), (.of 1995, .of (33 / 10))]) (by simp) (by simp)
    (by
      intro r hr
      simp only [List.mem_cons, List.not_mem_nil, or_false] at hr
      rcases hr with rfl | rfl
      · exact ⟨40, by decide, by decide +kernel, _, List.mem_cons_self, by decide +kernel, by decide⟩
      · exact ⟨33, by decide, by decide +kernel, (2000.0, 340), by simp, by decide +kernel, by decide⟩) (.of 5)
  refine ⟨r, h, h0, h1.trans ?_⟩
  rw [plainLibm_logE]
  decide +kernel

end Verif.Recurrence
