import Verif.Props.Outcomes

/-!
# C138: when the maximum likelihood recurrence returns, for every table and every positive magnitude interval

`C138_maxlike` (in `Outcomes.lean`) decides the empty table, intervals that are not positive, and the usual tables.  Here the remaining inputs: tables whose years go
up and down, so that the loop of the code passes over some rows, and intervals so small that no bin has its centre above the completeness magnitude.
-/

namespace Verif.Recurrence

open Verif Np

namespace Spec

/-- How many rows of the table have the completeness year `y`, up to 1e-5. -/
noncomputable def sameYear (table : List (ℝ × ℝ)) (y : ℝ) : ℕ := (table.filter fun d => decide (|d.1 - y| < 1e-5)).length

/-- The rows that are looked at: the first one, and after each the one that lies as many rows further down as there are rows of its year. -/
inductive Visited (table : List (ℝ × ℝ)) : ℕ → Prop
  | first : Visited table 0
  | next {i : ℕ} {c : ℝ × ℝ} : Visited table i → table[i]? = some c → Visited table (i + sameYear table c.1)

/-- The years of the row `c` have complete events, and one of the bins of width `dmag` that cover their magnitudes (from `low`, as long as they start before `up + dmag`) has its
centre at or above the completeness magnitude `mc`. -/
def Usable (ev table : List (ℝ × ℝ)) (dmag : ℝ) (c : ℝ × ℝ) : Prop :=
  ∃ mc low up, IsLeast {m | ∃ d ∈ table, |d.1 - c.1| < 1e-5 ∧ d.2 = m} mc ∧ Extent (Verif.Spec.completeEvents ev c.1 mc) low up ∧
    ∃ k : ℕ, low + k * dmag < up + dmag ∧ mc ≤ low + (k + 1 / 2) * dmag

end Spec

theorem groupOf_length (table : List (ℝ × ℝ)) (y : ℝ) : (groupOf table y).length = Spec.sameYear table y := by
  simp only [groupOf, Spec.sameYear, List.length_map, npAbs_real]

/-- One period returns exactly if it is usable. -/
theorem period_iff {ev table : List (ℝ × ℝ)} {dmag ref : ℝ} {c : ℝ × ℝ} (hc : c ∈ table) (hd : 0 < dmag) :
    (∃ p, period ev dmag ref c.1 (groupOf table c.1) = .ok p) ↔ Spec.Usable ev table dmag c := by
  obtain ⟨mc, hmc⟩ := npMin_exists (List.ne_nil_of_mem (groupOf_mem hc))
  have hleast : IsLeast {m | ∃ d ∈ table, |d.1 - c.1| < 1e-5 ∧ d.2 = m} mc := by
    have h := npMin_ok hmc
    have e : {y | y ∈ groupOf table c.1} = {m | ∃ d ∈ table, |d.1 - c.1| < 1e-5 ∧ d.2 = m} := by
      ext m
      simp only [groupOf, List.mem_map, List.mem_filter, npAbs_real, decide_eq_true_eq, and_assoc, Set.mem_ofPred_eq]
    rwa [e] at h
  by_cases hE : Spec.completeEvents ev c.1 mc = []
  · constructor
    · rintro ⟨p, hp⟩
      rw [(period_any hmc).1 hE] at hp
      cases hp
    · rintro ⟨mc', low, up, hmc', hx, -⟩
      obtain rfl := hleast.unique hmc'
      obtain ⟨e, he, -⟩ := hx.low.1
      rw [hE] at he
      simp at he
  have hE' : (Spec.completeEvents ev c.1 mc).map Prod.fst ≠ [] := by simpa using hE
  obtain ⟨y1, hy1⟩ := npMax_exists hE'
  obtain ⟨y0, hy0⟩ := npMin_exists hE'
  obtain ⟨low, up, hx, hlu, -, -, -, -, hok⟩ := recurrenceTable_any hE dmag
  have h0 : 0 < arangeLen low (up + 2 * dmag) dmag := by rw [lt_arangeLen hd]; push_cast; linarith
  obtain ⟨rows, hrows, hl, hval⟩ := hok hd.ne' h0.ne' (fun h => by linarith [h.2])
  have hper : (∃ p, period ev dmag ref c.1 (groupOf table c.1) = .ok p) ↔ ∃ p, bMaxLikelihood (rows.map fun r => (r.mval, r.nObs)) dmag mc = .ok p := by
    unfold period
    simp only [hmc, periodEvents_eq, hy0, hy1, Recurrence.bind_ok, hrows]
    cases hb : bMaxLikelihood (rows.map fun r => (r.mval, r.nObs)) dmag mc with
    | error e =>
      constructor
      · rintro ⟨p, hp⟩; cases hp
      · rintro ⟨p, hp⟩; cases hp
    | ok q => exact ⟨fun _ => ⟨q, rfl⟩, fun _ => ⟨_, rfl⟩⟩
  have hml : (∃ p, bMaxLikelihood (rows.map fun r => (r.mval, r.nObs)) dmag mc = .ok p) ↔ ∃ r ∈ rows, mc ≤ r.mval := by
    constructor
    · rintro ⟨p, hp⟩
      by_contra hcon
      push Not at hcon
      have : (rows.map fun r => (r.mval, r.nObs)).filter (fun r => decide (r.1 ≥ mc)) = [] := by
        rw [List.filter_eq_nil_iff]
        intro r hr
        obtain ⟨q, hq, rfl⟩ := List.mem_map.1 hr
        simpa using hcon q hq
      unfold bMaxLikelihood at hp
      simp only [this] at hp
      cases hp
    · rintro ⟨r, hr, hm⟩
      have hne : ((rows.map fun r => (r.mval, r.nObs)).filter (fun r => decide (r.1 ≥ mc))).map Prod.fst ≠ [] := by
        refine List.ne_nil_of_mem (List.mem_map.2 ⟨(r.mval, r.nObs), List.mem_filter.2 ⟨List.mem_map.2 ⟨r, hr, rfl⟩, by simpa using hm⟩, rfl⟩)
      obtain ⟨m, hm⟩ := npMin_exists hne
      unfold bMaxLikelihood
      simp only [hm, Recurrence.bind_ok]
      exact ⟨_, rfl⟩
  have hk : ∀ k : ℕ, k < rows.length ↔ low + k * dmag < up + dmag := by
    intro k
    have : k + 1 < arangeLen low (up + 2 * dmag) dmag ↔ low + k * dmag < up + dmag := by
      rw [lt_arangeLen hd]
      push_cast
      constructor <;> intro h <;> linarith
    rw [← this]
    omega
  rw [hper, hml]
  constructor
  · rintro ⟨r, hr, hm⟩
    obtain ⟨k, hkl, rfl⟩ := List.getElem_of_mem hr
    exact ⟨mc, low, up, hleast, hx, k, (hk k).1 hkl, (hval k hkl) ▸ hm⟩
  · rintro ⟨mc', low', up', hmc', hx', k, h1, h2⟩
    obtain rfl := hleast.unique hmc'
    obtain rfl := hx.low.unique hx'.low
    obtain rfl := hx.up.unique hx'.up
    exact ⟨rows[k]'((hk k).2 h1), List.getElem_mem _, (hval k ((hk k).2 h1)).symm ▸ h2⟩

/-- The rows that are looked at from row `i` on. -/
inductive From (table : List (ℝ × ℝ)) (i : ℕ) : ℕ → Prop
  | here : From table i i
  | next {j : ℕ} {c : ℝ × ℝ} : From table i j → table[j]? = some c → From table i (j + Spec.sameYear table c.1)

theorem from_zero (table : List (ℝ × ℝ)) (j : ℕ) : From table 0 j ↔ Spec.Visited table j := by
  constructor
  · intro h
    induction h with
    | here => exact .first
    | next _ hc ih => exact .next ih hc
  · intro h
    induction h with
    | first => exact .here
    | next _ hc ih => exact .next ih hc

theorem from_step {table : List (ℝ × ℝ)} {i : ℕ} {c : ℝ × ℝ} (hc : table[i]? = some c) (j : ℕ) :
    From table i j ↔ j = i ∨ From table (i + Spec.sameYear table c.1) j := by
  constructor
  · intro h
    induction h with
    | here => exact .inl rfl
    | next h' hd ih =>
      rcases ih with rfl | ih
      · rw [hc] at hd
        cases hd
        exact .inr .here
      · exact .inr (.next ih hd)
  · rintro (rfl | h)
    · exact .here
    · induction h with
      | here => exact .next .here hc
      | next _ hd ih => exact .next ih hd

theorem from_beyond {table : List (ℝ × ℝ)} {i : ℕ} (hi : ¬ i < table.length) {j : ℕ} (h : From table i j) : j = i := by
  induction h with
  | here => rfl
  | next _ hd ih =>
    subst ih
    rw [List.getElem?_eq_none (by omega)] at hd
    cases hd

theorem periods_iff {ev table : List (ℝ × ℝ)} {dmag ref : ℝ} (i : ℕ) :
    (∃ ps, periods ev table dmag ref i = .ok ps) ↔
      ∀ j c, From table i j → table[j]? = some c → ∃ p, period ev dmag ref c.1 (groupOf table c.1) = .ok p := by
  refine periods.induct table (fun i => (∃ ps, periods ev table dmag ref i = .ok ps) ↔
      ∀ j c, From table i j → table[j]? = some c → ∃ p, period ev dmag ref c.1 (groupOf table c.1) = .ok p) ?_ ?_ ?_ i
  · intro i hi g hg
    have := List.length_pos_of_mem (groupOf_mem (List.getElem_mem hi))
    exact absurd hg this.ne'
  · intro i hi g hg ih
    have hci : table[i]? = some table[i] := List.getElem?_eq_getElem hi
    have hlen : g.length = Spec.sameYear table table[i].1 := groupOf_length _ _
    rw [hlen] at ih
    rw [periods]
    simp only [hi, dif_pos]
    rw [dif_neg hg]
    constructor
    · rintro ⟨ps, hps⟩ j c hj hc
      cases hp : period ev dmag ref table[i].1 (groupOf table table[i].1) with
      | error e => rw [hp] at hps; cases hps
      | ok p =>
        rw [hp, Recurrence.bind_ok, groupOf_length] at hps
        rcases (from_step hci j).1 hj with rfl | hj
        · rw [hci] at hc
          cases hc
          exact ⟨p, hp⟩
        · refine ih.1 ?_ j c hj hc
          cases hq : periods ev table dmag ref (i + Spec.sameYear table table[i].1) with
          | error e => rw [hq] at hps; cases hps
          | ok qs => exact ⟨qs, rfl⟩
    · intro h
      obtain ⟨p, hp⟩ := h i _ .here hci
      obtain ⟨ps, hps⟩ := ih.2 fun j c hj hc => h j c ((from_step hci j).2 (.inr hj)) hc
      rw [hp, Recurrence.bind_ok, groupOf_length, hps]
      exact ⟨p :: ps, rfl⟩
  · intro i hi
    rw [periods]
    simp only [hi, dif_neg, not_false_eq_true]
    refine ⟨fun _ j c hj hc => ?_, fun _ => ⟨[], rfl⟩⟩
    obtain rfl := from_beyond hi hj
    rw [List.getElem?_eq_none (by omega)] at hc
    cases hc

/-- **C138** (maximum likelihood recurrence, every table and every positive interval).  The recurrence returns exactly if every row that is looked at is usable, and raises
`ValueError` otherwise. -/
theorem C138_maxlike_iff (ev table : List (ℝ × ℝ)) (dmag ref : ℝ) (hne : table ≠ []) (hd : 0 < dmag) :
    ((∀ i c, Spec.Visited table i → table[i]? = some c → Spec.Usable ev table dmag c) → ∃ r, bMaxlikeTime ev table dmag ref = .ok r) ∧
    ((∃ i c, Spec.Visited table i ∧ table[i]? = some c ∧ ¬ Spec.Usable ev table dmag c) → bMaxlikeTime ev table dmag ref = .error .valueError) := by
  have hper : (∃ ps, periods ev table dmag ref 0 = .ok ps) ↔ ∀ i c, Spec.Visited table i → table[i]? = some c → Spec.Usable ev table dmag c := by
    rw [periods_iff]
    simp only [from_zero]
    exact forall_congr' fun i => forall_congr' fun c => forall_congr' fun _ => forall_congr' fun hc => period_iff (List.mem_of_getElem? hc) hd
  constructor
  · intro h
    obtain ⟨ps, hps⟩ := hper.2 h
    have hp : ps ≠ [] := (periods_ok hps).1 (List.length_pos_of_ne_nil hne)
    unfold bMaxlikeTime
    rw [hps, Recurrence.bind_ok, if_neg (by simpa using hp)]
    exact ⟨_, rfl⟩
  · rintro ⟨i, c, hi, hc, hn⟩
    cases hb : bMaxlikeTime ev table dmag ref with
    | error e => rw [(C138_maxlike ev table dmag ref).2.2.2.1 hne hd e hb]
    | ok r =>
      refine absurd (hper.1 ?_ i c hi hc) hn
      cases hp : periods ev table dmag ref 0 with
      | ok ps => exact ⟨ps, rfl⟩
      | error e =>
        unfold bMaxlikeTime at hb
        rw [hp] at hb
        cases hb

/-- The years 2001, 2002 and 2001 again: the row of 2002 is passed over, so it does no harm that 2002 has no event. -/
example : ∃ r, bMaxlikeTime [((2001 : ℝ), 5)] [(2001, 4), (2002, 4), (2001, 4.5)] 0.1 4 = .ok r := by
  have hs : Spec.sameYear [((2001 : ℝ), (4 : ℝ)), (2002, 4), (2001, 4.5)] 2001 = 2 := by
    simp only [Spec.sameYear, List.filter_cons, List.filter_nil]
    norm_num
  have hx : Spec.Extent (Spec.completeEvents [((2001 : ℝ), (5 : ℝ))] 2001 4) 5 5 := by
    have f5 : ⌊(10 : ℝ) * 5⌋ = 50 := by rw [Int.floor_eq_iff]; norm_num
    have c5 : ⌈(10 : ℝ) * 5⌉ = 50 := by rw [Int.ceil_eq_iff]; norm_num
    have he : Spec.completeEvents [((2001 : ℝ), (5 : ℝ))] 2001 4 = [(2001, 5)] := by
      simp only [Spec.completeEvents, List.filter_cons, List.filter_nil]
      norm_num
    rw [he]
    refine ⟨⟨⟨(2001, 5), by simp, by simp only [f5]; norm_num⟩, ?_⟩, ⟨⟨(2001, 5), by simp, by simp only [c5]; norm_num⟩, ?_⟩⟩
    · rintro x ⟨e, he, rfl⟩
      simp only [List.mem_cons, List.not_mem_nil, or_false] at he
      subst he
      simp only [f5]; norm_num
    · rintro x ⟨e, he, rfl⟩
      simp only [List.mem_cons, List.not_mem_nil, or_false] at he
      subst he
      simp only [c5]; norm_num
  have hu : ∀ c : ℝ × ℝ, c.1 = 2001 → Spec.Usable [((2001 : ℝ), (5 : ℝ))] [(2001, 4), (2002, 4), (2001, 4.5)] 0.1 c := by
    intro c hc
    refine ⟨4, 5, 5, ?_, by rw [hc]; exact hx, 0, by norm_num, by norm_num⟩
    rw [hc]
    refine ⟨⟨(2001, 4), by simp, by norm_num, rfl⟩, ?_⟩
    rintro m ⟨d, hd, -, rfl⟩
    simp only [List.mem_cons, List.not_mem_nil, or_false] at hd
    rcases hd with rfl | rfl | rfl <;> norm_num
  refine (C138_maxlike_iff _ _ _ _ (by simp) (by norm_num)).1 ?_
  have hv : ∀ i, Spec.Visited [((2001 : ℝ), (4 : ℝ)), (2002, 4), (2001, 4.5)] i → i = 0 ∨ 2 ≤ i := by
    intro i hi
    induction hi with
    | first => exact .inl rfl
    | next _ hc ih =>
      rcases ih with rfl | ih
      · simp only [List.getElem?_cons_zero, Option.some.injEq] at hc
        subst hc
        rw [hs]; omega
      · omega
  intro i c hi hc
  rcases hv i hi with rfl | h
  · simp only [List.getElem?_cons_zero, Option.some.injEq] at hc
    subst hc
    exact hu _ rfl
  · match i, h with
    | 2, _ => simp at hc; subst hc; exact hu _ rfl
    | (j + 3), _ => simp at hc

/-- An interval of 1e-6 and an event 5e-6 below the completeness magnitude: the event is complete, but no bin is. -/
example : bMaxlikeTime [((2001 : ℝ), 5)] [(2001, 5.000005)] 1e-6 4 = .error .valueError := by
  refine (C138_maxlike_iff _ _ _ _ (by simp) (by norm_num)).2 ⟨0, (2001, 5.000005), .first, rfl, ?_⟩
  rintro ⟨mc, low, up, hmc, hx, k, h1, h2⟩
  have hm : mc = 5.000005 := by
    obtain ⟨d, hd, -, rfl⟩ := hmc.1
    simp only [List.mem_cons, List.not_mem_nil, or_false] at hd
    rw [hd]
  have f5 : ⌊(10 : ℝ) * 5⌋ = 50 := by rw [Int.floor_eq_iff]; norm_num
  have c5 : ⌈(10 : ℝ) * 5⌉ = 50 := by rw [Int.ceil_eq_iff]; norm_num
  have hl : low = 5 := by
    obtain ⟨e, he, rfl⟩ := hx.low.1
    have := (List.mem_filter.1 he).1
    simp only [List.mem_cons, List.not_mem_nil, or_false] at this
    subst this
    simp only [f5]; norm_num
  have hu : up = 5 := by
    obtain ⟨e, he, rfl⟩ := hx.up.1
    have := (List.mem_filter.1 he).1
    simp only [List.mem_cons, List.not_mem_nil, or_false] at this
    subst this
    simp only [c5]; norm_num
  subst hm hl hu
  have : (k : ℝ) < 1 := by
    by_contra hc
    norm_num at h1
    nlinarith
  norm_num at h2
  nlinarith

end Verif.Recurrence
