import Verif.Lemmas.Invariance
import Verif.Props.KijkoExamples

/-! # C92: the order of the events and the maximum magnitude -/

namespace Verif.MaxMag

open Verif Verif.Np

theorem npSort_congr {l l' : List ℝ} (h : l'.Perm l) : npSort l' = npSort l :=
  (((npSort_perm l').trans h).trans (npSort_perm l).symm).eq_of_pairwise (fun _ _ _ _ => le_antisymm) (npSort_sorted l') (npSort_sorted l)

theorem hSmooth_congr {l l' : List ℝ} (h : l'.Perm l) : hSmooth l' = hSmooth l := by
  simp only [hSmooth, mquantile, npSort_congr h, h.length_eq]

theorem intFunc_congr {mag mag' : List ℝ} (hp : mag'.Perm mag) (mval : List ℝ) (h n : ℝ) : intFunc mval mag' h n = intFunc mval mag h n := by
  have : ∀ a b, cdfFunc mag' h n a b = cdfFunc mag h n a b := by
    intro a b
    funext m
    simp only [cdfFunc_real, (hp.map _).sum_eq]
  simp only [intFunc, this]

theorem largest_congr {mag mag' : List ℝ} (hp : mag'.Perm mag) (neq : ℕ) :
    (largest mag' neq).1.Perm (largest mag neq).1 ∧ (largest mag' neq).2 = (largest mag neq).2 := by
  simp only [largest, hp.length_eq, npSort_congr hp]
  split_ifs
  · exact ⟨hp, rfl⟩
  · exact ⟨.refl _, rfl⟩
  · exact ⟨.refl _, rfl⟩

/-- The outcome depends on the order only through the uncertainty found at `argmax`. -/
theorem kijko_congr {mag mag' sig sig' : List ℝ} (hp : mag'.Perm mag) (hs : sig'[argmax mag']? = sig[argmax mag]?) (neq : ℕ) (nsamp tol : ℝ) (maxIter fuel : ℕ) :
    kijko mag' sig' neq nsamp tol maxIter fuel = kijko mag sig neq nsamp tol maxIter fuel := by
  obtain ⟨h1, h2⟩ := largest_congr hp neq
  have e1 := npMax_congr (fun y => hp.mem_iff (a := y))
  have e2 := npMin_congr (fun y => h1.mem_iff (a := y))
  simp only [kijko, e1, hs, e2, hSmooth_congr h1, intFunc_congr h1, h2]

/-- The magnitude does not depend on the uncertainties. -/
theorem kijko_sig {mag sig sig' : List ℝ} {neq maxIter fuel : ℕ} {nsamp tol m s σ σ' : ℝ} (h0 : sig[argmax mag]? = some σ) (h1 : sig'[argmax mag]? = some σ')
    (h : kijko mag sig neq nsamp tol maxIter fuel = some (.ok (m, s))) :
    ∃ d, s = Real.sqrt (σ * σ + d * d) ∧ kijko mag sig' neq nsamp tol maxIter fuel = some (.ok (m, Real.sqrt (σ' * σ' + d * d))) := by
  obtain ⟨obsmax, obssig, mmin, hf, d, k1, k2, k3, k4, k5, rfl⟩ := kijko_ok h
  obtain rfl : σ = obssig := by simpa [h0] using k2
  refine ⟨d, rfl, ?_⟩
  have ht : tol < 1e8 := by
    by_contra hc
    simp only [kijko, k1, k2, k3, k4, if_neg hc] at h
    cases h
  simp only [kijko, k1, h1, k3, k4, if_pos ht, k5]
  rfl

/-- Magnitudes of a catalogue of events (magnitude, uncertainty). -/
def mags (ev : List (ℝ × ℝ)) : List ℝ := ev.map Prod.fst

/-- Uncertainties of a catalogue of events (magnitude, uncertainty). -/
def sigmas (ev : List (ℝ × ℝ)) : List ℝ := ev.map Prod.snd

theorem sigma_at_max {ev : List (ℝ × ℝ)} (hne : ev ≠ []) : ∃ e ∈ ev, (∀ x ∈ ev, x.1 ≤ e.1) ∧ (sigmas ev)[argmax (mags ev)]? = some e.2 := by
  obtain ⟨hk, hmax⟩ := argmax_spec (l := mags ev) (by simpa [mags] using hne)
  have hk' : argmax (mags ev) < ev.length := by simpa [mags] using hk
  refine ⟨ev[argmax (mags ev)], List.getElem_mem _, fun x hx => ?_, ?_⟩
  · have := hmax x.1 (by simp only [mags, List.mem_map]; exact ⟨x, hx, rfl⟩)
    simpa [mags] using this
  · simp [sigmas, hk']

/-- **C92**, what holds: the estimated maximum magnitude does not depend on the order of the events; neither does its uncertainty if the events of the
largest magnitude have the same uncertainty (in particular if there is only one). -/
theorem C92_order_partial {ev ev' : List (ℝ × ℝ)} (hp : ev'.Perm ev) {neq maxIter fuel : ℕ} {nsamp tol m s : ℝ}
    (h : kijko (mags ev) (sigmas ev) neq nsamp tol maxIter fuel = some (.ok (m, s))) :
    (∃ s', kijko (mags ev') (sigmas ev') neq nsamp tol maxIter fuel = some (.ok (m, s'))) ∧
      ((∀ e ∈ ev, ∀ e' ∈ ev, (∀ x ∈ ev, x.1 ≤ e.1) → (∀ x ∈ ev, x.1 ≤ e'.1) → e.2 = e'.2) →
        kijko (mags ev') (sigmas ev') neq nsamp tol maxIter fuel = some (.ok (m, s))) := by
  have hne : ev ≠ [] := by rintro rfl; simp [kijko, mags, npMax] at h
  have hne' : ev' ≠ [] := fun hh => hne (by subst hh; exact hp.symm.eq_nil)
  obtain ⟨e, he, hmax, hs⟩ := sigma_at_max hne
  obtain ⟨e', he', hmax', hs'⟩ := sigma_at_max hne'
  have hpm : (mags ev').Perm (mags ev) := hp.map _
  set pad : List ℝ := List.replicate (mags ev).length e'.2
  have hpad : pad[argmax (mags ev)]? = some e'.2 := by
    rw [List.getElem?_replicate, if_pos (argmax_lt (by simpa [mags] using hne))]
  have key := kijko_congr (sig := pad) (sig' := sigmas ev') hpm (by rw [hs', hpad]) neq nsamp tol maxIter fuel
  obtain ⟨d, hd, hk⟩ := kijko_sig hs hpad h
  refine ⟨⟨_, key.trans hk⟩, fun hall => ?_⟩
  have : e'.2 = e.2 := hall e' (hp.subset he') e he (fun x hx => hmax' x (hp.symm.subset hx)) hmax
  rw [key, hk, this, hd]

/-- Two catalogues with the same events: the two largest ones have different uncertainties. -/
noncomputable def ev92 (a b : ℝ) : List (ℝ × ℝ) :=
  [(6.0, 0.1), (6.08, 0.1), (6.08, 0.1), (6.08, 0.1), (6.08, 0.1), (6.1, 0.1), (6.1, 0.1), (6.1, 0.1), (6.1, 0.1), (6.3, a), (6.3, b)]

theorem argmax92 : argmax mag70 = 9 := by
  simp only [mag70, argmax, argmaxGo]
  norm_num

/-- **C92 is false of the code** for the uncertainty: exchanging two events of the same magnitude changes it. -/
theorem C92_order_fails : ¬ ∀ (ev ev' : List (ℝ × ℝ)), ev'.Perm ev → ∀ (neq maxIter fuel : ℕ) (nsamp tol : ℝ),
    kijko (mags ev') (sigmas ev') neq nsamp tol maxIter fuel = kijko (mags ev) (sigmas ev) neq nsamp tol maxIter fuel := by
  intro hall
  have hm : ∀ a b, mags (ev92 a b) = mag70 := fun a b => rfl
  have hs : ∀ a b, (sigmas (ev92 a b))[argmax mag70]? = some a := by intro a b; rw [argmax92]; rfl
  have hp : (ev92 0.2 0.1).Perm (ev92 0.1 0.2) := by
    simp only [ev92]
    repeat' first | exact List.Perm.swap _ _ _ | apply List.Perm.cons
  have hk := kijko70
  have h0 : (List.replicate 11 (0.1 : ℝ))[argmax mag70]? = some 0.1 := by rw [argmax92]; rfl
  obtain ⟨d1, hd1, h1⟩ := kijko_sig h0 (hs 0.1 0.2) hk
  obtain ⟨d2, hd2, h2⟩ := kijko_sig h0 (hs 0.2 0.1) hk
  have := hall _ _ hp 100 1000 1001 ((3 : ℕ) : ℝ) 0.1
  rw [hm, hm, h1, h2] at this
  simp only [Option.some.injEq, Except.ok.injEq, Prod.mk.injEq, true_and] at this
  rw [← hd1, hd2, Real.sqrt_inj (by nlinarith [mul_self_nonneg d2]) (by nlinarith [mul_self_nonneg d2])] at this
  norm_num at this

/-- The hypotheses of `C92_order_partial` are met: the catalogue above with equal uncertainties. -/
example : ∃ m s, kijko (mags (ev92 0.1 0.1)) (sigmas (ev92 0.1 0.1)) 100 ((3 : ℕ) : ℝ) 0.1 1000 1001 = some (.ok (m, s)) ∧
    ∀ e ∈ ev92 0.1 0.1, ∀ e' ∈ ev92 0.1 0.1, e.2 = e'.2 := by
  refine ⟨_, _, kijko70, ?_⟩
  have : ∀ e ∈ ev92 0.1 0.1, e.2 = 0.1 := by intro e he; simp [ev92] at he; aesop
  intro e he e' he'
  rw [this e he, this e' he']

end Verif.MaxMag
