import Verif.Lemmas.Recurrence

/-! # The time-magnitude cells of `weichert_prep` -/

namespace Verif.Recurrence

open Verif Verif.Np

theorem around1_real (x : ℝ) : around1 x = Spec.mag1 x := by
  simp only [around1, Spec.mag1, rintZ_real]
  norm_num

/-- The cells and their edges. -/
theorem cells_spec {ev : List (ℝ × ℝ)} {dm dt : ℝ} (hev : ev ≠ []) (hdm : 0 < dm) (hdt : 0 < dt) :
    ∃ (c : Cells ℝ) (y0 y1 m0 m1 : ℝ), cells ev dm dt = .ok c ∧ IsLeast {y | ∃ e ∈ ev, e.1 = y} y0 ∧ IsGreatest {y | ∃ e ∈ ev, e.1 = y} y1 ∧
      IsLeast {m | ∃ e ∈ ev, Spec.mag1 e.2 = m} m0 ∧ IsGreatest {m | ∃ e ∈ ev, Spec.mag1 e.2 = m} m1 ∧
      c.maxYear = y1 ∧ c.events = ev.map (fun e => (e.1, Spec.mag1 e.2)) ∧
      (∀ k, c.timeInt k = y0 + k * dt) ∧ (∀ k, c.magInt k = m0 + k * dm) ∧ 1 ≤ c.nt ∧ 1 ≤ c.nm ∧
      (∀ k, k ≤ c.nt ↔ y0 + k * dt < y1 + 1.5 * dt) ∧ (∀ k, k ≤ c.nm ↔ m0 + k * dm < m1 + 1.5 * dm) := by
  have hev2 : ev.map (fun e => (e.1, (around1 e.2 : ℝ))) = ev.map (fun e => (e.1, Spec.mag1 e.2)) := by
    simp only [around1_real]
  have hyne : ev.map Prod.fst ≠ [] := by simpa using hev
  have hmne : ((ev.map (fun e => (e.1, Spec.mag1 e.2))).map Prod.snd) ≠ [] := by simpa using hev
  obtain ⟨y0, hy0⟩ := npMin_exists hyne
  obtain ⟨y1, hy1⟩ := npMax_exists hyne
  obtain ⟨m0, hm0⟩ := npMin_exists hmne
  obtain ⟨m1, hm1⟩ := npMax_exists hmne
  have hy0' := npMin_ok hy0
  have hy1' := npMax_ok hy1
  have hm0' := npMin_ok hm0
  have hm1' := npMax_ok hm1
  have e1 : {y | y ∈ (ev.map (fun e => (e.1, Spec.mag1 e.2))).map Prod.snd} = {x | ∃ e ∈ ev, Spec.mag1 e.2 = x} := by
    ext x; simp
  have e2 : {y | y ∈ ev.map Prod.fst} = {x | ∃ e ∈ ev, e.1 = x} := by
    ext x; simp
  rw [e1] at hm0' hm1'
  rw [e2] at hy0' hy1'
  have hy : y0 ≤ y1 := hy1'.2 hy0'.1
  have hm : m0 ≤ m1 := hm1'.2 hm0'.1
  have hlt : 2 ≤ arangeLen y0 (y1 + (1.5 : ℝ) * dt) dt := by
    have : 1 < arangeLen y0 (y1 + (1.5 : ℝ) * dt) dt := by
      rw [lt_arangeLen hdt]; push_cast; linarith
    omega
  have hlm : 2 ≤ arangeLen m0 (m1 + (1.5 : ℝ) * dm) dm := by
    have : 1 < arangeLen m0 (m1 + (1.5 : ℝ) * dm) dm := by
      rw [lt_arangeLen hdm]; push_cast; linarith
    omega
  refine ⟨{ nt := arangeLen y0 (y1 + (1.5 : ℝ) * dt) dt - 1, timeInt := arangeAt y0 dt, nm := arangeLen m0 (m1 + (1.5 : ℝ) * dm) dm - 1,
            magInt := arangeAt m0 dm, events := ev.map (fun e => (e.1, Spec.mag1 e.2)), maxYear := y1 },
    y0, y1, m0, m1, ?_, hy0', hy1', hm0', hm1', rfl, rfl, fun k => arangeAt_real _ _ _, fun k => arangeAt_real _ _ _, ?_, ?_, ?_, ?_⟩
  · unfold cells
    simp only [hev2, hy0, hy1, hm0, hm1, bind, Except.bind, decEq_real, hdm.ne', hdt.ne', decide_false, Bool.false_eq_true, if_false]
    rw [if_neg (by rintro (h | h | h | h) <;> first | omega | linarith)]
    rfl
  · show 1 ≤ _ - 1
    omega
  · show 1 ≤ _ - 1
    omega
  · intro k
    rw [← lt_arangeLen hdt]
    show k ≤ _ - 1 ↔ _
    omega
  · intro k
    rw [← lt_arangeLen hdm]
    show k ≤ _ - 1 ↔ _
    omega

/-- Every value below the last edge and not below the first lies in exactly one bin. -/
theorem existsUnique_bin (e : ℕ → ℝ) (he : Monotone e) (k : ℕ) (x : ℝ) (h0 : e 0 ≤ x) (hk : x < e k) :
    ∃! j, j < k ∧ inBin e k j x = true := by
  have h := inBin_mono_sum e he [x] k (by simpa using hk)
  rw [← List.sum_toFinset _ List.nodup_range, List.toFinset_range] at h
  simp only [List.countP_cons, List.countP_nil, zero_add, decide_eq_true_eq, h0, if_true] at h
  rw [← Finset.sum_filter, Finset.sum_const, smul_eq_mul, mul_one, Finset.card_eq_one] at h
  obtain ⟨j, hj⟩ := h
  refine ⟨j, ?_, ?_⟩
  · have : j ∈ Finset.filter (fun a => inBin e k a x = true) (Finset.range k) := by rw [hj]; simp
    simpa using this
  · rintro j' ⟨h1, h2⟩
    have : j' ∈ Finset.filter (fun a => inBin e k a x = true) (Finset.range k) := by simp [h1, h2]
    rw [hj] at this
    simpa using this

/-- Cell counts add up. -/
theorem cells_sum {ev : List (ℝ × ℝ)} {dm dt : ℝ} {c : Cells ℝ} (hev : ev ≠ []) (hdm : 0 < dm) (hdt : 0 < dt) (hc : cells ev dm dt = .ok c) :
    Monotone c.timeInt ∧ Monotone c.magInt ∧ (∀ e ∈ c.events, c.timeInt 0 ≤ e.1 ∧ e.1 < c.timeInt c.nt ∧ c.magInt 0 ≤ e.2 ∧ e.2 < c.magInt c.nm) ∧
      c.events.length = ev.length ∧
      ((List.range c.nm).map fun i => ((List.range c.nt).map fun a => c.count a i).sum).sum = ev.length := by
  obtain ⟨c', y0, y1, m0, m1, hc', hy0, hy1, hm0, hm1, hmy, hevs, hti, hmi, hnt, hnm, hlt, hlm⟩ := cells_spec hev hdm hdt
  obtain rfl : c = c' := by rw [hc] at hc'; exact Except.ok.inj hc'
  have mt : Monotone c.timeInt := by
    intro i j hij
    have : (i : ℝ) ≤ j := by exact_mod_cast hij
    rw [hti, hti]; nlinarith
  have mm : Monotone c.magInt := by
    intro i j hij
    have : (i : ℝ) ≤ j := by exact_mod_cast hij
    rw [hmi, hmi]; nlinarith
  have h1 : y1 + 1.5 * dt ≤ y0 + ((c.nt : ℝ) + 1) * dt := by
    by_contra hcon
    have := (hlt (c.nt + 1)).mpr (by push_cast; exact not_le.mp hcon)
    omega
  have h2 : m1 + 1.5 * dm ≤ m0 + ((c.nm : ℝ) + 1) * dm := by
    by_contra hcon
    have := (hlm (c.nm + 1)).mpr (by push_cast; exact not_le.mp hcon)
    omega
  have hin : ∀ e ∈ c.events, c.timeInt 0 ≤ e.1 ∧ e.1 < c.timeInt c.nt ∧ c.magInt 0 ≤ e.2 ∧ e.2 < c.magInt c.nm := by
    intro e he
    rw [hevs] at he
    simp only [List.mem_map] at he
    obtain ⟨x, hx, rfl⟩ := he
    have a1 := hy0.2 ⟨x, hx, rfl⟩
    have a2 := hy1.2 ⟨x, hx, rfl⟩
    have a3 := hm0.2 ⟨x, hx, rfl⟩
    have a4 := hm1.2 ⟨x, hx, rfl⟩
    rw [hti, hti, hmi, hmi]
    simp only [Nat.cast_zero, zero_mul, add_zero]
    exact ⟨a1, by linarith, a3, by linarith⟩
  refine ⟨mt, mm, hin, by rw [hevs]; simp, ?_⟩
  have hinner : ∀ i ∈ List.range c.nm, ((List.range c.nt).map fun a => c.count a i).sum =
      (c.events.map Prod.snd).countP (inBin c.magInt c.nm i) := by
    intro i _
    have e1 : ∀ a ∈ List.range c.nt, c.count a i =
        ((c.events.filter fun e => inBin c.magInt c.nm i e.2).map Prod.fst).countP (inBin c.timeInt c.nt a) := by
      intro a _
      rw [Cells.count, List.countP_map, List.countP_filter]
      rfl
    rw [List.map_congr_left e1, inBin_mono_sum c.timeInt mt _ c.nt]
    · rw [List.countP_map, List.countP_map, List.countP_filter]
      refine List.countP_congr fun e he => ?_
      simp [(hin e he).1]
    · intro x hx
      simp only [List.mem_map, List.mem_filter] at hx
      obtain ⟨e, ⟨he, _⟩, rfl⟩ := hx
      exact (hin e he).2.1
  rw [List.map_congr_left hinner, inBin_mono_sum c.magInt mm _ c.nm]
  · rw [List.countP_map, hevs]
    rw [show ev.length = (ev.map (fun e => (e.1, Spec.mag1 e.2))).length by simp, List.countP_eq_length]
    intro e he
    rw [← hevs] at he
    simp [(hin e he).2.2.1]
  · intro x hx
    simp only [List.mem_map] at hx
    obtain ⟨e, he, rfl⟩ := hx
    exact (hin e he).2.2.2

end Verif.Recurrence
