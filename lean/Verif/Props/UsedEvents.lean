import Verif.Props.SteppTable

/-!
# The earthquakes behind a maximum likelihood b-value

`b_max_likelihood` drops the bins whose centre lies below the completeness magnitude, although
`b_maxlike_time` selects events from the completeness magnitude on.
-/

namespace Verif.Recurrence

open Verif Verif.Np

/-- The centre of the magnitude bin `[low + i * dmag, low + (i + 1) * dmag)` which holds `m`. -/
noncomputable def Spec.centre (low dmag m : ℝ) : ℝ := low + ((⌊(m - low) / dmag⌋ : ℝ) + 1 / 2) * dmag

/-- `low` is the smallest magnitude of the events, rounded down to one decimal. -/
def Spec.Lowest (E : List (ℝ × ℝ)) (low : ℝ) : Prop := IsLeast {m | ∃ e ∈ E, m = (⌊10 * e.2⌋ : ℝ) / 10} low

/-- The maximum likelihood b-value of the events `E` (Utsu 1965), each one taken at the centre of its bin, for
bins which start at `bottom`. -/
noncomputable def Spec.utsu (E : List (ℝ × ℝ)) (low dmag bottom : ℝ) : ℝ :=
  Real.logb 10 (Real.exp 1) / ((E.map fun e => Spec.centre low dmag e.2).sum / E.length - bottom)

/-- The events whose bin has its centre at or above `mc`. -/
noncomputable def Spec.used (E : List (ℝ × ℝ)) (low dmag mc : ℝ) : List (ℝ × ℝ) :=
  E.filter fun e => decide (mc ≤ Spec.centre low dmag e.2)

theorem bin_sum {α : Type} (E : List α) (N : ℕ) (idx : α → ℕ) (hidx : ∀ e ∈ E, idx e < N) (g : ℕ → ℝ) :
    ((List.range N).map fun i => g i * (E.countP (fun e => decide (idx e = i)) : ℝ)).sum = (E.map fun e => g (idx e)).sum := by
  induction E with
  | nil => simp
  | cons e E ih =>
    have h1 := ih fun x hx => hidx x (by simp [hx])
    have h2 := hidx e (by simp)
    rw [List.map_cons, List.sum_cons, ← h1]
    have : ∀ i, g i * ((e :: E).countP (fun e => decide (idx e = i)) : ℝ) =
        (if i = idx e then g i else 0) + g i * (E.countP (fun e => decide (idx e = i)) : ℝ) := by
      intro i
      rw [List.countP_cons]
      by_cases hi : idx e = i
      · simp [hi]; ring
      · simp [hi, Ne.symm hi]
    simp only [this]
    rw [List.sum_map_add]
    congr 1
    have e : ((List.range N).map fun i => if i = idx e then g i else 0).sum = ∑ i ∈ Finset.range N, if i = idx e then g i else 0 := by
      simp [Finset.sum, Finset.range, Multiset.range]
    rw [e, Finset.sum_ite_eq']
    simp [h2]

theorem sum_filter_map {α : Type} (l : List α) (p : α → Bool) (f : α → ℝ) :
    ((l.filter p).map f).sum = (l.map fun x => if p x then f x else 0).sum := by
  induction l with
  | nil => simp
  | cons a l ih => by_cases h : p a <;> simp [h, ih]

/-- The b-value of one period in terms of the earthquakes. -/
theorem period_used {ev : List (ℝ × ℝ)} {dmag ref c : ℝ} {g : List ℝ} {p : Period ℝ} (hd : 0 < dmag) (h : period ev dmag ref c g = .ok p) :
    ∃ mc low, ∃ k : ℕ, IsLeast {m | m ∈ g} mc ∧ Spec.Lowest (Spec.completeEvents ev c mc) low ∧ mc ≤ low + (k + 1 / 2) * dmag ∧
      (∀ j < k, low + (j + 1 / 2) * dmag < mc) ∧
      p.b = Spec.utsu (Spec.used (Spec.completeEvents ev c mc) low dmag mc) low dmag (low + k * dmag) := by
  obtain ⟨mc, ny, hmc, hny, hn, hn0, _, rows, hrows, hb⟩ := period_ok h
  set E := Spec.completeEvents ev c mc with hE
  have hEn : E ≠ [] := by
    intro h0
    rw [hn, h0] at hn0
    simp at hn0
  obtain ⟨rows', low, ny', hr', _, hlow, ⟨e0, he0, hle⟩, hup, hpos, hrow⟩ := recurrenceTable_spec hEn hd
  rw [hrows] at hr'
  obtain rfl : rows = rows' := by simpa using hr'
  obtain ⟨mmin, hmin, hbv⟩ := C58_value hb
  -- the bottom of the bins
  have hmval : ∀ i (hi : i < rows.length), rows[i].mval = low + (i + 1 / 2) * dmag := fun i hi => (hrow i hi).1
  obtain ⟨hm1, n0, hm2⟩ := hmin.1
  rw [List.mem_map] at hm2
  obtain ⟨r0, hr0, hr0e⟩ := hm2
  obtain ⟨k, hk, rfl⟩ := List.getElem_of_mem hr0
  have hmk : mmin = low + (k + 1 / 2) * dmag := by
    rw [← hmval k hk]
    exact (congrArg Prod.fst hr0e).symm
  have hlowest : Spec.Lowest E low := by
    refine ⟨⟨e0, he0, hle⟩, ?_⟩
    rintro _ ⟨e, he, rfl⟩
    have h1 := hlow e he
    rw [hle] at h1 ⊢
    have h2 : ⌊10 * e0.2⌋ ≤ ⌊10 * e.2⌋ := by
      rw [Int.le_floor]
      linarith
    have h3 : (⌊10 * e0.2⌋ : ℝ) ≤ (⌊10 * e.2⌋ : ℝ) := by exact_mod_cast h2
    linarith
  -- the bin of an event
  have hfl : ∀ e ∈ E, 0 ≤ ⌊(e.2 - low) / dmag⌋ := by
    intro e he
    rw [Int.floor_nonneg]
    exact div_nonneg (by linarith [hlow e he]) hd.le
  let idx : ℝ × ℝ → ℕ := fun e => ⌊(e.2 - low) / dmag⌋.toNat
  have hidx : ∀ e ∈ E, ((idx e : ℕ) : ℝ) = (⌊(e.2 - low) / dmag⌋ : ℝ) := by
    intro e he
    have := Int.toNat_of_nonneg (hfl e he)
    exact_mod_cast this
  have hbin : ∀ e ∈ E, ∀ i : ℕ, idx e = i ↔ low + i * dmag ≤ e.2 ∧ e.2 < low + (i + 1) * dmag := by
    intro e he i
    have h1 : idx e = i ↔ ⌊(e.2 - low) / dmag⌋ = (i : ℤ) := by
      have := Int.toNat_of_nonneg (hfl e he)
      constructor
      · intro h
        rw [← this]
        exact_mod_cast h
      · intro h
        show ⌊(e.2 - low) / dmag⌋.toNat = i
        rw [h]
        simp
    rw [h1, Int.floor_eq_iff, le_div_iff₀ hd, div_lt_iff₀ hd]
    push_cast
    constructor <;> rintro ⟨a, b⟩ <;> constructor <;> linarith
  have hlt : ∀ e ∈ E, idx e < rows.length := by
    intro e he
    have h1 := ((hbin e he (idx e)).1 rfl).1
    have h2 := hup e he
    have h3 : ((idx e : ℕ) : ℝ) < rows.length := by
      by_contra h3
      push Not at h3
      have := mul_le_mul_of_nonneg_right h3 hd.le
      linarith
    exact_mod_cast h3
  have hobs : ∀ i (hi : i < rows.length), rows[i].nObs = E.countP (fun e => decide (idx e = i)) := by
    intro i hi
    rw [(hrow i hi).2.1, Spec.magCount]
    exact List.countP_congr fun e he => by simp [hbin e he i]
  -- the two sums
  have hsum : ∀ f : ℝ → ℝ, (((rows.map fun r => (r.mval, r.nObs)).filter fun r => decide (mc ≤ r.1)).map fun r => f r.1 * (r.2 : ℝ)).sum =
      ((Spec.used E low dmag mc).map fun e => f (Spec.centre low dmag e.2)).sum := by
    intro f
    rw [sum_filter_map, Spec.used, sum_filter_map]
    have e1 : ((rows.map fun r => (r.mval, r.nObs)).map fun x : ℝ × ℕ => if decide (mc ≤ x.1) = true then f x.1 * (x.2 : ℝ) else 0) =
        (List.range rows.length).map fun i : ℕ => (if mc ≤ low + ((i : ℝ) + 1 / 2) * dmag then f (low + ((i : ℝ) + 1 / 2) * dmag) else 0) *
          (E.countP (fun e => decide (idx e = i)) : ℝ) := by
      refine List.ext_getElem (by simp) fun i hi _ => ?_
      have hi' : i < rows.length := by simpa using hi
      simp only [List.getElem_map, List.getElem_range, hmval i hi', hobs i hi', decide_eq_true_eq]
      split_ifs <;> ring
    rw [e1, bin_sum E _ idx hlt]
    congr 1
    refine List.map_congr_left fun e he => ?_
    rw [hidx e he]
    simp [Spec.centre]
  have hs1 := hsum id
  have hs2 := hsum fun _ => 1
  simp only [id, one_mul, List.map_const', List.sum_replicate, nsmul_eq_mul, mul_one] at hs1 hs2
  refine ⟨mc, low, k, hmc, hlowest, by rw [← hmk]; exact hm1, ?_, ?_⟩
  · intro j hj
    by_contra hc
    push Not at hc
    have hj' : j < rows.length := hj.trans hk
    have := hmin.2 ⟨hc, rows[j].nObs, by rw [← hmval j hj']; exact List.mem_map.2 ⟨rows[j], List.getElem_mem hj', rfl⟩⟩
    rw [hmk] at this
    have h1 : (j : ℝ) < k := by exact_mod_cast hj
    have := mul_lt_mul_of_pos_right h1 hd
    linarith
  · rw [hbv, Spec.utsu]
    rw [hs1, hs2, hmk]
    congr 1
    ring

/-- Events at least half a magnitude interval above the completeness magnitude are always used. -/
theorem used_of_le {E : List (ℝ × ℝ)} {low dmag mc : ℝ} (hd : 0 < dmag) {e : ℝ × ℝ} (he : e ∈ E) (hm : mc + dmag / 2 ≤ e.2) :
    e ∈ Spec.used E low dmag mc := by
  rw [Spec.used, List.mem_filter]
  refine ⟨he, ?_⟩
  have h1 := Int.lt_floor_add_one ((e.2 - low) / dmag)
  rw [div_lt_iff₀ hd] at h1
  refine decide_eq_true ?_
  rw [Spec.centre]
  linarith

/-- A table of one row: one period. -/
theorem one_period {ev : List (ℝ × ℝ)} {dmag ref y mc : ℝ} {r : GR ℝ} (h : bMaxlikeTime ev [(y, mc)] dmag ref = .ok r) :
    ∃ p, period ev dmag ref y [mc] = .ok p ∧ r.b = p.b := by
  obtain ⟨ps, hps, _, hn, hb, _⟩ := C59_average h
  have hp := C59_periods (ev := ev) (dmag := dmag) (ref := ref) (blocks := [(y, [mc])]) (by simp) (by simp)
  rw [show blockTable [(y, [mc])] = [(y, mc)] from rfl, hps] at hp
  rcases hq : period ev dmag ref y [mc] with e | p
  · rw [List.mapM_cons, hq] at hp
    cases hp
  · rw [List.mapM_cons, hq] at hp
    have hps' : ps = [p] := by simpa [bind, Except.bind, pure, Except.pure] using hp
    refine ⟨p, rfl, ?_⟩
    have : (0 : ℝ) < p.n := by exact_mod_cast hn p (by simp [hps'])
    rw [hb, hps']
    simp [this.ne']

/-- **C142** (what holds): the b-value for one completeness period is the maximum likelihood estimate from the events
whose bin has its centre at or above the completeness magnitude, and those are at least the events half a
magnitude interval above it. -/
theorem C142_used_partial {ev : List (ℝ × ℝ)} {dmag ref y mc : ℝ} {r : GR ℝ} (hd : 0 < dmag)
    (hex : ∃ e ∈ ev, y ≤ e.1 ∧ mc + dmag / 2 ≤ e.2) (h : bMaxlikeTime ev [(y, mc)] dmag ref = .ok r) :
    ∃ low, ∃ k : ℕ, Spec.Lowest (Spec.completeEvents ev y mc) low ∧ mc ≤ low + (k + 1 / 2) * dmag ∧ (∀ j < k, low + (j + 1 / 2) * dmag < mc) ∧
      (∀ e ∈ ev, y ≤ e.1 → mc + dmag / 2 ≤ e.2 → e ∈ Spec.used (Spec.completeEvents ev y mc) low dmag mc) ∧
      Spec.used (Spec.completeEvents ev y mc) low dmag mc ≠ [] ∧
      r.b = Spec.utsu (Spec.used (Spec.completeEvents ev y mc) low dmag mc) low dmag (low + k * dmag) := by
  obtain ⟨p, hp, hb⟩ := one_period h
  obtain ⟨mc', low, k, hmc, hlow, hk, hj, hu⟩ := period_used hd hp
  obtain rfl : mc' = mc := by simpa using hmc.1
  have hall : ∀ e ∈ ev, y ≤ e.1 → mc' + dmag / 2 ≤ e.2 → e ∈ Spec.used (Spec.completeEvents ev y mc') low dmag mc' := by
    intro e he h1 h2
    refine used_of_le hd ?_ h2
    rw [Spec.completeEvents, List.mem_filter]
    refine ⟨he, ?_⟩
    simp only [decide_eq_true_eq]
    refine ⟨h1, ?_⟩
    have : (0 : ℝ) < 1e-5 := by norm_num
    linarith
  obtain ⟨e, he, h1, h2⟩ := hex
  exact ⟨low, k, hlow, hk, hj, hall, List.ne_nil_of_mem (hall e he h1 h2), hb.trans hu⟩

/-- **C142** (what holds): every complete event is used if the completeness magnitude is not above the centre of
the lowest bin, for instance if it is the lower end of that bin. -/
theorem C142_all_partial {ev : List (ℝ × ℝ)} {dmag ref y mc low : ℝ} {r : GR ℝ} (hd : 0 < dmag) (h : bMaxlikeTime ev [(y, mc)] dmag ref = .ok r)
    (hlow : Spec.Lowest (Spec.completeEvents ev y mc) low) (hmc : mc ≤ low + dmag / 2) :
    r.b = Spec.utsu (Spec.completeEvents ev y mc) low dmag low := by
  obtain ⟨p, hp, hb⟩ := one_period h
  obtain ⟨mc', low', k, hmc', hlow', hk, hj, hu⟩ := period_used hd hp
  obtain rfl : mc' = mc := by simpa using hmc'.1
  obtain rfl : low' = low := hlow'.unique hlow
  have hk0 : k = 0 := by
    by_contra h0
    have := hj 0 (Nat.pos_of_ne_zero h0)
    norm_num at this
    linarith
  have hall : Spec.used (Spec.completeEvents ev y mc') low' dmag mc' = Spec.completeEvents ev y mc' := by
    rw [Spec.used, List.filter_eq_self]
    intro e he
    have h1 : low' ≤ e.2 := by
      refine (hlow.2 ⟨e, he, rfl⟩).trans ?_
      have := Int.floor_le (10 * e.2)
      linarith
    have h2 : (0 : ℝ) ≤ (⌊(e.2 - low') / dmag⌋ : ℝ) := by
      exact_mod_cast Int.floor_nonneg.2 (div_nonneg (by linarith) hd.le)
    have := mul_nonneg h2 hd.le
    refine decide_eq_true ?_
    rw [Spec.centre]
    linarith
  rw [hb, hu, hall, hk0]
  simp

/-- Two earthquakes, magnitudes 4.08 and 4.18. -/
noncomputable def cat142 : List (ℝ × ℝ) := [(2000, 4.08), (2001, 4.18)]

theorem complete142 : Spec.completeEvents cat142 2000 4.08 = cat142 := by
  rw [Spec.completeEvents, List.filter_eq_self]
  simp only [cat142, List.mem_cons, List.not_mem_nil, or_false, forall_eq_or_imp, forall_eq, decide_eq_true_eq]
  norm_num

theorem lowest142 : Spec.Lowest cat142 4 := by
  have f1 : ⌊(10 : ℝ) * 4.08⌋ = 40 := by rw [Int.floor_eq_iff]; norm_num
  have f2 : ⌊(10 : ℝ) * 4.18⌋ = 41 := by rw [Int.floor_eq_iff]; norm_num
  refine ⟨⟨_, List.mem_cons_self, ?_⟩, ?_⟩
  · simp only [f1]; norm_num
  · rintro _ ⟨e, he, rfl⟩
    simp only [cat142, List.mem_cons, List.not_mem_nil, or_false] at he
    rcases he with rfl | rfl
    · simp only [f1]; norm_num
    · simp only [f2]; norm_num

theorem centre142 : Spec.centre 4 0.1 4.08 = 4.05 ∧ Spec.centre 4 0.1 4.18 = 4.15 := by
  have f1 : ⌊((4.08 : ℝ) - 4) / 0.1⌋ = 0 := by rw [Int.floor_eq_iff]; norm_num
  have f2 : ⌊((4.18 : ℝ) - 4) / 0.1⌋ = 1 := by rw [Int.floor_eq_iff]; norm_num
  constructor
  · rw [Spec.centre, f1]; norm_num
  · rw [Spec.centre, f2]; norm_num

theorem used142 : Spec.used cat142 4 0.1 4.08 = [(2001, 4.18)] := by
  rw [Spec.used, cat142, List.filter_cons, List.filter_cons, centre142.1, centre142.2]
  norm_num

/-- **C142** fails: with the default completeness table (first year and smallest magnitude of the catalogue) the
b-value is not the estimate from all earthquakes. -/
theorem C142_fails : ¬ ∀ (ev : List (ℝ × ℝ)) (dmag ref y mc low : ℝ) (r : GR ℝ), 0 < dmag → IsLeast {m | ∃ e ∈ ev, e.1 = m} y →
    IsLeast {m | ∃ e ∈ ev, e.2 = m} mc → Spec.Lowest ev low → bMaxlikeTime ev [(y, mc)] dmag ref = .ok r → r.b = Spec.utsu ev low dmag low := by
  intro H
  have hex : ∃ e ∈ cat142, (2000 : ℝ) ≤ e.1 ∧ 4.08 + 0.1 / 2 ≤ e.2 := ⟨(2001, 4.18), by simp [cat142], by norm_num, by norm_num⟩
  obtain ⟨r, hr, _⟩ := C125_periods_partial (ev := cat142) (table := [(2000, 4.08)]) (dmag := 0.1) (ref := 0) (by norm_num) (by simp)
    (by simpa using hex)
  have h1 := H cat142 0.1 0 2000 4.08 4 r (by norm_num) ⟨⟨_, List.mem_cons_self, rfl⟩, by
      rintro _ ⟨e, he, rfl⟩
      simp only [cat142, List.mem_cons, List.not_mem_nil, or_false] at he
      rcases he with rfl | rfl <;> norm_num⟩ ⟨⟨_, List.mem_cons_self, rfl⟩, by
      rintro _ ⟨e, he, rfl⟩
      simp only [cat142, List.mem_cons, List.not_mem_nil, or_false] at he
      rcases he with rfl | rfl <;> norm_num⟩ lowest142 hr
  obtain ⟨low, k, hlow, hk, hj, _, _, hb⟩ := C142_used_partial (by norm_num) hex hr
  rw [complete142] at hlow hb
  obtain rfl := hlow.unique lowest142
  have hk1 : k = 1 := by
    rcases k with _ | _ | k
    · norm_num at hk
    · rfl
    · have := hj 1 (by omega)
      norm_num at this
  rw [used142, hk1] at hb
  have e1 : Spec.utsu [(2001, 4.18)] 4 0.1 (4 + (1 : ℕ) * 0.1) = Real.logb 10 (Real.exp 1) / 0.05 := by
    simp only [Spec.utsu, List.map_cons, List.map_nil, centre142.2]
    norm_num
  have e2 : Spec.utsu cat142 4 0.1 4 = Real.logb 10 (Real.exp 1) / 0.1 := by
    simp only [Spec.utsu, cat142, List.map_cons, List.map_nil, centre142.1, centre142.2]
    norm_num
  rw [hb, e1, e2] at h1
  have hl : 0 < Real.logb 10 (Real.exp 1) := Real.logb_pos (by norm_num) (by simp)
  have : Real.logb 10 (Real.exp 1) / 0.05 = 2 * (Real.logb 10 (Real.exp 1) / 0.1) := by ring
  rw [this] at h1
  have : 0 < Real.logb 10 (Real.exp 1) / 0.1 := by positivity
  linarith

/-- The same earthquakes with completeness magnitude 4: both are used. -/
example : ∃ r, bMaxlikeTime cat142 [(2000, 4)] 0.1 0 = .ok r ∧ r.b = Spec.utsu cat142 4 0.1 4 := by
  obtain ⟨r, hr, _⟩ := C125_periods_partial (ev := cat142) (table := [(2000, 4)]) (dmag := 0.1) (ref := 0) (by norm_num) (by simp)
    (by simp only [List.mem_cons, List.not_mem_nil, or_false, forall_eq]; exact ⟨(2001, 4.18), by simp [cat142], by norm_num, by norm_num⟩)
  have hc : Spec.completeEvents cat142 2000 4 = cat142 := by
    rw [Spec.completeEvents, List.filter_eq_self]
    simp only [cat142, List.mem_cons, List.not_mem_nil, or_false, forall_eq_or_imp, forall_eq, decide_eq_true_eq]
    norm_num
  have := C142_all_partial (by norm_num) hr (by rw [hc]; exact lowest142) (by norm_num)
  rw [hc] at this
  exact ⟨r, hr, this⟩

end Verif.Recurrence
