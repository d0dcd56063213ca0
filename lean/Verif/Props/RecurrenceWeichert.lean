import Verif.Props.Recurrence
import Mathlib.Analysis.SpecialFunctions.Trigonometric.DerivHyp
import Mathlib.Analysis.Complex.ExponentialBounds

/-! # C60, C61 and C63: the Weichert method on the bins prepared from a catalogue -/

namespace Verif.Recurrence

open Verif Verif.Np

/-! ### The counts -/

theorem lastIdx_mono {n : ℕ} {p : ℕ → Bool} (hp : ∀ i j, i ≤ j → p j = true → p i = true) {x : ℕ} (h : lastIdx n p = some x) :
    x < n ∧ ∀ a < n, a ≤ x ↔ p a = true := by
  rw [lastIdx, List.getLast?_eq_some_iff] at h
  obtain ⟨l, hl⟩ := h
  have hx : x ∈ (List.range n).filter p := by rw [hl]; simp
  rw [List.mem_filter, List.mem_range] at hx
  refine ⟨hx.1, fun a ha => ⟨fun hax => hp _ _ hax hx.2, fun hpa => ?_⟩⟩
  have ha' : a ∈ l ++ [x] := by rw [← hl, List.mem_filter, List.mem_range]; exact ⟨ha, hpa⟩
  have hs : (l ++ [x]).Pairwise (· < ·) := by
    rw [← hl]; exact List.pairwise_lt_range.filter _
  rcases List.mem_append.mp ha' with h | h
  · exact ((List.pairwise_append.mp hs).2.2 a h x (by simp)).le
  · simp at h; omega

theorem lastIdx_none {n : ℕ} {p : ℕ → Bool} (h : lastIdx n p = none) : ∀ a < n, p a = false := by
  rw [lastIdx, List.getLast?_eq_none_iff, List.filter_eq_nil_iff] at h
  intro a ha
  have := h a (List.mem_range.mpr ha)
  simpa using this

/-- A cell is removed by a row of the completeness table iff both its lower edges are below the row. -/
theorem removed_iff {c : Cells ℝ} (mt : Monotone c.timeInt) (mm : Monotone c.magInt) (r : ℝ × ℝ) {a i : ℕ} (ha : a < c.nt) (hi : i < c.nm) :
    c.removed r a i = true ↔ c.timeInt a < r.1 ∧ c.magInt i < r.2 := by
  have h1 : ∀ i j, i ≤ j → decide (c.timeInt j < r.1) = true → decide (c.timeInt i < r.1) = true := by
    intro i j hij hj
    simp only [decide_eq_true_eq] at hj ⊢
    exact lt_of_le_of_lt (mt hij) hj
  have h2 : ∀ i j, i ≤ j → decide (c.magInt j < r.2) = true → decide (c.magInt i < r.2) = true := by
    intro i j hij hj
    simp only [decide_eq_true_eq] at hj ⊢
    exact lt_of_le_of_lt (mm hij) hj
  unfold Cells.removed
  rcases hx : lastIdx (c.nt + 1) (fun k => decide (c.timeInt k < r.1)) with _ | x
  · have := lastIdx_none hx a (by omega)
    simp only [decide_eq_false_iff_not] at this
    simp [this]
  rcases hy : lastIdx (c.nm + 1) (fun k => decide (c.magInt k < r.2)) with _ | y
  · have := lastIdx_none hy i (by omega)
    simp only [decide_eq_false_iff_not] at this
    simp [this]
  have hx' := (lastIdx_mono h1 hx).2 a (by omega)
  have hy' := (lastIdx_mono h2 hy).2 i (by omega)
  simp only [decide_eq_true_eq] at hx' hy'
  simp only [Bool.and_eq_true, decide_eq_true_eq, ← hx', ← hy']
  omega

theorem sum_countP_index {α : Type} (l : List α) (n : ℕ) (f : α → ℕ) (Q : ℕ → α → Bool) (hf : ∀ x ∈ l, f x < n) :
    ((List.range n).map fun a => l.countP fun x => decide (f x = a) && Q a x).sum = l.countP fun x => Q (f x) x := by
  induction l with
  | nil => simp
  | cons x l ih =>
    have h1 := ih fun y hy => hf y (by simp [hy])
    simp only [List.countP_cons]
    rw [List.sum_map_add, h1]
    congr 1
    rw [← List.sum_toFinset _ List.nodup_range, List.toFinset_range, Finset.sum_eq_single (f x)]
    · simp
    · intro b _ hb
      simp [Ne.symm hb]
    · intro hb
      exact absurd (Finset.mem_range.mpr (hf x (by simp))) hb

theorem inBin_floor {x0 d x : ℝ} {n j : ℕ} (hd : 0 < d) (h0 : x0 ≤ x) (hn : x < x0 + n * d) (hj : j < n) :
    inBin (fun k : ℕ => x0 + (k : ℝ) * d) n j x = decide (⌊(x - x0) / d⌋₊ = j) := by
  have hq : 0 ≤ (x - x0) / d := div_nonneg (by linarith) hd.le
  have key : ⌊(x - x0) / d⌋₊ = j ↔ x0 + j * d ≤ x ∧ x < x0 + ((j : ℝ) + 1) * d := by
    rw [Nat.floor_eq_iff hq, le_div_iff₀ hd, div_lt_iff₀ hd]
    constructor <;> rintro ⟨a, b⟩ <;> constructor <;> linarith
  simp only [inBin]
  by_cases hl : j + 1 = n
  · subst hl
    rw [if_pos rfl]
    have hn' : x < x0 + ((j : ℝ) + 1) * d := by push_cast at hn; exact hn
    have : (⌊(x - x0) / d⌋₊ = j) ↔ x0 + j * d ≤ x := by rw [key]; exact ⟨fun h => h.1, fun h => ⟨h, hn'⟩⟩
    simp only [this, Nat.cast_add, Nat.cast_one]
    simp [hn'.le]
  · rw [if_neg hl]
    simp only [key, Nat.cast_add, Nat.cast_one]
    simp [Bool.decide_and]

/-- Index of the cell (time or magnitude) of a value. -/
noncomputable def cellIdx (x0 d x : ℝ) : ℕ := ⌊(x - x0) / d⌋₊

/-- Lower edge of the cell of a value. -/
noncomputable def cellStart (x0 d x : ℝ) : ℝ := x0 + cellIdx x0 d x * d

theorem cellStart_le {x0 d x : ℝ} (hd : 0 < d) (h : x0 ≤ x) : cellStart x0 d x ≤ x ∧ x < cellStart x0 d x + d := by
  have hq : 0 ≤ (x - x0) / d := div_nonneg (by linarith) hd.le
  have h1 := Nat.floor_le hq
  have h2 := Nat.lt_floor_add_one ((x - x0) / d)
  rw [le_div_iff₀ hd] at h1
  rw [div_lt_iff₀ hd] at h2
  simp only [cellStart, cellIdx]
  constructor <;> linarith

/-- An event is kept unless a row of the table starts later and at a larger magnitude than its cell. -/
def Kept (table : List (ℝ × ℝ)) (y0 dt m0 dm : ℝ) (e : ℝ × ℝ) : Prop :=
  ∀ r ∈ table, ¬ (cellStart y0 dt e.1 < r.1 ∧ cellStart m0 dm (Spec.mag1 e.2) < r.2)

theorem nObs_spec {ev table : List (ℝ × ℝ)} {dm dt : ℝ} (hev : ev ≠ []) (hdm : 0 < dm) (hdt : 0 < dt) :
    ∃ (c : Cells ℝ) (y0 m0 : ℝ), cells ev dm dt = .ok c ∧ IsLeast {y | ∃ e ∈ ev, e.1 = y} y0 ∧ IsGreatest {y | ∃ e ∈ ev, e.1 = y} c.maxYear ∧
      IsLeast {m | ∃ e ∈ ev, Spec.mag1 e.2 = m} m0 ∧ 1 ≤ c.nm ∧ (∀ k, c.magInt k = m0 + k * dm) ∧
      (∃ m1, IsGreatest {m | ∃ e ∈ ev, Spec.mag1 e.2 = m} m1 ∧ ∀ k, k ≤ c.nm ↔ m0 + k * dm < m1 + 1.5 * dm) ∧
      (∀ e ∈ ev, cellIdx y0 dt e.1 < c.nt ∧ cellIdx m0 dm (Spec.mag1 e.2) < c.nm) ∧
      ∀ i < c.nm, c.nObs table i = (open Classical in ev.countP fun e => decide (cellIdx m0 dm (Spec.mag1 e.2) = i) && decide (Kept table y0 dt m0 dm e)) := by
  classical
  obtain ⟨c, y0, y1, m0, m1, hc, hy0, hy1, hm0, hm1, hmy, hevs, hti, hmi, hnt, hnm, hlt, hlm⟩ := cells_spec hev hdm hdt
  obtain ⟨mt, mm, hin, _, _⟩ := cells_sum hev hdm hdt hc
  have hti' : c.timeInt = fun k : ℕ => y0 + (k : ℝ) * dt := funext hti
  have hmi' : c.magInt = fun k : ℕ => m0 + (k : ℝ) * dm := funext hmi
  have hb : ∀ e ∈ ev, (y0 ≤ e.1 ∧ e.1 < y0 + c.nt * dt) ∧ (m0 ≤ Spec.mag1 e.2 ∧ Spec.mag1 e.2 < m0 + c.nm * dm) := by
    intro e he
    have := hin (e.1, Spec.mag1 e.2) (by rw [hevs]; exact List.mem_map.mpr ⟨e, he, rfl⟩)
    simp only [hti, hmi, Nat.cast_zero, zero_mul, add_zero] at this
    exact ⟨⟨this.1, this.2.1⟩, this.2.2⟩
  have hidx : ∀ e ∈ ev, cellIdx y0 dt e.1 < c.nt ∧ cellIdx m0 dm (Spec.mag1 e.2) < c.nm := by
    intro e he
    obtain ⟨⟨a1, a2⟩, b1, b2⟩ := hb e he
    constructor
    · rw [cellIdx, Nat.floor_lt (div_nonneg (by linarith) hdt.le), div_lt_iff₀ hdt]; linarith
    · rw [cellIdx, Nat.floor_lt (div_nonneg (by linarith) hdm.le), div_lt_iff₀ hdm]; linarith
  refine ⟨c, y0, m0, hc, hy0, hmy ▸ hy1, hm0, hnm, hmi, ⟨m1, hm1, hlm⟩, hidx, fun i hi => ?_⟩
  have step : ∀ a ∈ List.range c.nt, (if table.any (fun r => c.removed r a i) = true then 0 else c.count a i) =
      ev.countP fun e => decide (cellIdx y0 dt e.1 = a) &&
        (decide (cellIdx m0 dm (Spec.mag1 e.2) = i) && decide (∀ r ∈ table, ¬ (y0 + (a : ℝ) * dt < r.1 ∧ m0 + (i : ℝ) * dm < r.2))) := by
    intro a ha
    have ha' := List.mem_range.mp ha
    have hrem : table.any (fun r => c.removed r a i) = true ↔ ¬ ∀ r ∈ table, ¬ (y0 + (a : ℝ) * dt < r.1 ∧ m0 + (i : ℝ) * dm < r.2) := by
      rw [List.any_eq_true]
      push Not
      refine exists_congr fun r => and_congr_right fun _ => ?_
      rw [removed_iff mt mm r ha' hi, hti, hmi]
    split_ifs with hh
    · symm
      rw [List.countP_eq_zero]
      intro e _
      simp only [hrem.mp hh, decide_false, Bool.and_false, Bool.false_eq_true, not_false_eq_true]
    · have hh' : ∀ r ∈ table, ¬ (y0 + (a : ℝ) * dt < r.1 ∧ m0 + (i : ℝ) * dm < r.2) := by
        by_contra hcon; exact hh (hrem.mpr hcon)
      rw [Cells.count, hevs, List.countP_map]
      refine List.countP_congr fun e he => ?_
      obtain ⟨⟨a1, a2⟩, b1, b2⟩ := hb e he
      simp only [Function.comp, hti', hmi']
      rw [inBin_floor hdt a1 a2 ha', inBin_floor hdm b1 b2 hi]
      simp only [decide_eq_true hh', Bool.and_true]
      rfl
  rw [Cells.nObs, List.map_congr_left step, sum_countP_index ev c.nt (fun e => cellIdx y0 dt e.1)
    (fun a e => decide (cellIdx m0 dm (Spec.mag1 e.2) = i) && decide (∀ r ∈ table, ¬ (y0 + (a : ℝ) * dt < r.1 ∧ m0 + (i : ℝ) * dm < r.2)))
    (fun e he => (hidx e he).1)]
  refine List.countP_congr fun e he => ?_
  by_cases hq : cellIdx m0 dm (Spec.mag1 e.2) = i
  · simp only [hq, decide_true, Bool.true_and, Kept, cellStart]
  · simp [hq]

theorem mapM_ok {α β : Type} {f : α → Except PyErr β} {l : List α} {w : List β} (h : l.mapM f = .ok w) :
    w.length = l.length ∧ ∀ i (h1 : i < l.length) (h2 : i < w.length), f l[i] = .ok w[i] := by
  induction l generalizing w with
  | nil =>
    simp only [List.mapM_nil, pure, Except.pure, Except.ok.injEq] at h
    subst h
    simp
  | cons a l ih =>
    simp only [List.mapM_cons, bind, Except.bind] at h
    rcases ha : f a with e | b
    · simp [ha] at h
    simp only [ha] at h
    rcases hl : l.mapM f with e | w'
    · simp [hl] at h
    simp only [hl, pure, Except.pure, Except.ok.injEq] at h
    subst h
    obtain ⟨h1, h2⟩ := ih hl
    refine ⟨by simp [h1], ?_⟩
    intro i hi hi'
    cases i with
    | zero => exact ha
    | succ i => exact h2 i (by simpa using hi) (by simpa using hi')

/-- The prepared bins: consecutive bins of width `dm`, the number of kept events of each, a period ending with the last year of the catalogue and starting
with the year of a row of the table. -/
theorem weichertPrep_spec {ev table : List (ℝ × ℝ)} {dm dt : ℝ} {w : List (WBin ℝ)} (hev : ev ≠ []) (hdm : 0 < dm) (hdt : 0 < dt)
    (h : weichertPrep ev table dm dt = .ok w) :
    ∃ y0 y1 m0 : ℝ, IsLeast {y | ∃ e ∈ ev, e.1 = y} y0 ∧ IsGreatest {y | ∃ e ∈ ev, e.1 = y} y1 ∧ IsLeast {m | ∃ e ∈ ev, Spec.mag1 e.2 = m} m0 ∧
      1 ≤ w.length ∧ (∃ m1, IsGreatest {m | ∃ e ∈ ev, Spec.mag1 e.2 = m} m1 ∧ ∀ k, k ≤ w.length ↔ m0 + k * dm < m1 + 1.5 * dm) ∧
      (∀ e ∈ ev, cellIdx m0 dm (Spec.mag1 e.2) < w.length) ∧
      ∀ i (hi : i < w.length), w[i].m = m0 + (i + 1 / 2) * dm ∧
        (∃ r ∈ table, ((table.filter fun r => r.2 - (m0 + i * dm) < 1e-3).getLast?).or table.getLast? = some r ∧ w[i].t = y1 - r.1 + 1) ∧
        w[i].n = (open Classical in ev.countP fun e => decide (cellIdx m0 dm (Spec.mag1 e.2) = i) && decide (Kept table y0 dt m0 dm e)) := by
  obtain ⟨c, y0, m0, hc, hy0, hy1, hm0, hnm, hmi, hm1, hidx, hcount⟩ := nObs_spec (table := table) hev hdm hdt
  unfold weichertPrep at h
  simp only [hc, bind, Except.bind] at h
  obtain ⟨hl, hg⟩ := mapM_ok h
  rw [List.length_range] at hl
  refine ⟨y0, c.maxYear, m0, hy0, hy1, hm0, by omega, by rw [hl]; exact hm1, fun e he => by rw [hl]; exact (hidx e he).2, fun i hi => ?_⟩
  have := hg i (by simpa [hl] using hi) hi
  rw [List.getElem_range] at this
  rcases ht : c.tPer table i with e | t
  · simp [ht] at this
  simp only [ht, pure, Except.pure, Except.ok.injEq] at this
  rw [← this]
  refine ⟨?_, ?_, hcount i (by omega)⟩
  · simp only [hmi]; push_cast; norm_num; ring
  · unfold Cells.tPer at ht
    split at ht
    · rename_i r hr
      have hr' := hr
      simp only [hmi] at hr'
      refine ⟨r, ?_, hr', ?_⟩
      · rw [Option.or_eq_some_iff] at hr
        rcases hr with hr | ⟨_, hr⟩
        · exact (List.mem_filter.mp (List.mem_of_getLast? hr)).1
        · exact List.mem_of_getLast? hr
      · rw [← Except.ok.inj ht]; simp
    · simp at ht

/-- The preparation succeeds for non-empty catalogues and tables. -/
theorem weichertPrep_succeeds {ev table : List (ℝ × ℝ)} {dm dt : ℝ} (hev : ev ≠ []) (htab : table ≠ []) (hdm : 0 < dm) (hdt : 0 < dt) :
    ∃ w, weichertPrep ev table dm dt = .ok w := by
  obtain ⟨c, y0, m0, hc, _⟩ := nObs_spec (table := table) hev hdm hdt
  unfold weichertPrep
  simp only [hc, bind, Except.bind]
  generalize List.range c.nm = l
  induction l with
  | nil => exact ⟨[], rfl⟩
  | cons i l ih =>
    obtain ⟨w, hw⟩ := ih
    have ht : ∃ t, c.tPer table i = .ok t := by
      unfold Cells.tPer
      rcases hh : ((table.filter fun r => decide (r.2 - c.magInt i < 1e-3)).getLast?).or table.getLast? with _ | r
      · rw [Option.or_eq_none_iff, List.getLast?_eq_none_iff] at hh
        exact absurd (List.getLast?_eq_none_iff.mp hh.2) htab
      · exact ⟨c.maxYear - r.1 + ((1 : ℕ) : ℝ), by simp only [hh]⟩
    obtain ⟨t, ht⟩ := ht
    simp only [List.mapM_cons, ht, bind, Except.bind, pure, Except.pure]
    simp only [pure, Except.pure] at hw
    rw [hw]
    exact ⟨_, rfl⟩

/-- **C60**: bin `i` handed to Weichert counts the events of that magnitude bin that are kept, every event being in exactly one cell (index `cellIdx`) whose edges
enclose it; the counts add up to the number of kept events: at most the number of events, and exactly that if no row removes anything. -/
theorem C60_counts {ev table : List (ℝ × ℝ)} {dm dt : ℝ} {w : List (WBin ℝ)} (hev : ev ≠ []) (hdm : 0 < dm) (hdt : 0 < dt)
    (h : weichertPrep ev table dm dt = .ok w) :
    ∃ y0 m0 : ℝ, IsLeast {y | ∃ e ∈ ev, e.1 = y} y0 ∧ IsLeast {m | ∃ e ∈ ev, Spec.mag1 e.2 = m} m0 ∧
      (∀ e ∈ ev, (cellStart y0 dt e.1 ≤ e.1 ∧ e.1 < cellStart y0 dt e.1 + dt) ∧
        ∃! i : ℕ, i < w.length ∧ m0 + i * dm ≤ Spec.mag1 e.2 ∧ Spec.mag1 e.2 < m0 + (i + 1) * dm) ∧
      (w.map WBin.n).sum = (open Classical in ev.countP fun e => decide (Kept table y0 dt m0 dm e)) ∧
      (w.map WBin.n).sum ≤ ev.length ∧ ((w.map WBin.n).sum = ev.length ↔ ∀ e ∈ ev, Kept table y0 dt m0 dm e) := by
  classical
  obtain ⟨y0, y1, m0, hy0, hy1, hm0, hlen, _, hidx, hw⟩ := weichertPrep_spec hev hdm hdt h
  have hsum : (w.map WBin.n).sum = ev.countP fun e => decide (Kept table y0 dt m0 dm e) := by
    rw [← sum_countP_index ev w.length (fun e => cellIdx m0 dm (Spec.mag1 e.2)) (fun _ e => decide (Kept table y0 dt m0 dm e)) hidx]
    congr 1
    refine List.ext_getElem (by simp) fun i hi hi' => ?_
    simp only [List.getElem_map, List.getElem_range]
    rw [(hw i (by simpa using hi)).2.2]
  refine ⟨y0, m0, hy0, hm0, ?_, by rw [hsum], by rw [hsum]; exact List.countP_le_length, ?_⟩
  · intro e he
    refine ⟨cellStart_le hdt (hy0.2 ⟨e, he, rfl⟩), cellIdx m0 dm (Spec.mag1 e.2), ⟨hidx e he, ?_⟩, ?_⟩
    · have := cellStart_le hdm (hm0.2 ⟨e, he, rfl⟩)
      simp only [cellStart] at this
      constructor <;> linarith [this.1, this.2]
    · rintro j ⟨_, h1, h2⟩
      symm
      rw [cellIdx, Nat.floor_eq_iff (div_nonneg (by linarith [hm0.2 ⟨e, he, rfl⟩]) hdm.le), le_div_iff₀ hdm, div_lt_iff₀ hdm]
      constructor <;> linarith
  · rw [hsum, List.countP_eq_length]
    simp

/-- **C61** for the prepared bins: if the table starts before the end of the catalogue, there are two magnitude bins and an event is kept, the hypotheses of
`C61_concave` hold, so every Newton step has a strictly negative second derivative. -/
theorem C61_prepared {ev table : List (ℝ × ℝ)} {dm dt : ℝ} {w : List (WBin ℝ)} (hev : ev ≠ []) (hdm : 0 < dm) (hdt : 0 < dt)
    (h : weichertPrep ev table dm dt = .ok w) (htab : ∀ r ∈ table, ∃ e ∈ ev, r.1 < e.1 + 1) (h2 : 2 ≤ w.length) (hn : 0 < (w.map WBin.n).sum) (β : ℝ) :
    HasDerivAt (Spec.logLik (triples w)) (dldb w β) β ∧ HasDerivAt (dldb w) (d2ldb2 w β) β ∧ d2ldb2 w β < 0 ∧ 0 < -1 / d2ldb2 w β ∧
      (dldb w β = 0 → ∀ β', dldb w β' = 0 → β' = β) := by
  obtain ⟨y0, y1, m0, hy0, hy1, hm0, hlen, _, hidx, hw⟩ := weichertPrep_spec hev hdm hdt h
  refine C61_concave ?_ ⟨w[0], List.getElem_mem _, w[1], List.getElem_mem _, ?_⟩ ?_ β
  · intro x hx
    obtain ⟨i, hi, rfl⟩ := List.getElem_of_mem hx
    obtain ⟨r, hr, _, ht⟩ := (hw i hi).2.1
    obtain ⟨e, he, hlt⟩ := htab r hr
    have := hy1.2 ⟨e, he, rfl⟩
    rw [ht]; linarith
  · rw [(hw 0 (by omega)).1, (hw 1 (by omega)).1]
    push_cast
    intro hc
    nlinarith
  · by_contra hcon
    push Not at hcon
    have : (w.map WBin.n).sum = 0 := by
      rw [List.sum_eq_zero_iff]
      intro y hy
      obtain ⟨x, hx, rfl⟩ := List.mem_map.mp hy
      have := hcon x hx
      omega
    omega

/-! ### C63 -/

theorem two_bins {t0 t1 m0 m1 β : ℝ} (h0 : 0 < t0) (h1 : 0 < t1) (hm : m0 < m1) :
    newton [⟨t0, m0, 1⟩, ⟨t1, m1, 1⟩] β - β = -Real.sinh (Real.log (t0 / t1) + β * (m1 - m0)) / (m1 - m0) := by
  have ha : 0 < t0 * Real.exp (-β * m0) := by positivity
  have hb : 0 < t1 * Real.exp (-β * m1) := by positivity
  have hd : 0 < m1 - m0 := by linarith
  have hx : Real.exp (Real.log (t0 / t1) + β * (m1 - m0)) = t0 * Real.exp (-β * m0) / (t1 * Real.exp (-β * m1)) := by
    rw [Real.exp_add, Real.exp_log (by positivity), show β * (m1 - m0) = -β * m0 - -β * m1 by ring, Real.exp_sub]
    field_simp
  simp only [newton, dldb_real, d2ldb2_real, moment, total, magSum, List.map_cons, List.map_nil, List.sum_cons, List.sum_nil, Nat.cast_one, pow_zero, mul_one, pow_one, one_mul, add_zero]
  rw [Real.sinh_eq, Real.exp_neg, hx]
  rw [show t0 * m0 * Real.exp (-β * m0) = m0 * (t0 * Real.exp (-β * m0)) by ring, show t1 * m1 * Real.exp (-β * m1) = m1 * (t1 * Real.exp (-β * m1)) by ring,
    show t0 * m0 ^ 2 * Real.exp (-β * m0) = m0 ^ 2 * (t0 * Real.exp (-β * m0)) by ring,
    show t1 * m1 ^ 2 * Real.exp (-β * m1) = m1 ^ 2 * (t1 * Real.exp (-β * m1)) by ring]
  generalize t0 * Real.exp (-β * m0) = a at *
  generalize t1 * Real.exp (-β * m1) = b at *
  have e1 : (m0 * a + m1 * b) / (a + b) * (1 + 1) - (m0 + m1) = (m1 - m0) * (b - a) / (a + b) := by
    field_simp; ring
  have e2 : (1 + 1) * ((m0 * a + m1 * b) / (a + b) * ((m0 * a + m1 * b) / (a + b)) - (m0 ^ 2 * a + m1 ^ 2 * b) / (a + b)) = -(2 * (m1 - m0) ^ 2 * (a * b)) / (a + b) ^ 2 := by
    field_simp; ring
  rw [e1, e2]
  field_simp
  ring

theorem two_le_sinh {y : ℝ} (hy : 3 ≤ y) : 2 * y ≤ Real.sinh y := by
  rw [Real.sinh_eq]
  have h1 : Real.exp (-y) ≤ 1 := Real.exp_le_one_iff.mpr (by linarith)
  have h2 := Real.quadratic_le_exp_of_nonneg (x := y / 2) (by linarith)
  have h3 : Real.exp y = Real.exp (y / 2) * Real.exp (y / 2) := by rw [← Real.exp_add]; congr 1; ring
  have h4 := mul_self_le_mul_self (by positivity) h2
  rw [← h3] at h4
  obtain ⟨s, hs, rfl⟩ : ∃ s, 0 ≤ s ∧ y = 3 + s := ⟨y - 3, by linarith, by ring⟩
  have h5 : 0 ≤ s * s := mul_self_nonneg s
  have h6 : 0 ≤ s * s * s := mul_nonneg h5 hs
  have h7 : 0 ≤ s * s * (s * s) := mul_self_nonneg _
  have h8 : (1 + (3 + s) / 2 + ((3 + s) / 2) ^ 2 / 2) * (1 + (3 + s) / 2 + ((3 + s) / 2) ^ 2 / 2) =
      841 / 64 + 145 / 16 * s + 79 / 32 * (s * s) + 5 / 16 * (s * s * s) + 1 / 64 * (s * s * (s * s)) := by ring
  rw [h8] at h4
  linarith

theorem abs_sub_sinh {x : ℝ} (hx : 3 ≤ |x|) : 3 ≤ |x - Real.sinh x| ∧ 6 ≤ |Real.sinh x| := by
  rcases le_total 0 x with h | h
  · rw [abs_of_nonneg h] at hx
    have := two_le_sinh hx
    rw [abs_of_nonpos (by linarith), abs_of_nonneg (by linarith)]
    constructor <;> linarith
  · rw [abs_of_nonpos h] at hx
    have := two_le_sinh hx
    rw [Real.sinh_neg] at this
    rw [abs_of_nonneg (by linarith), abs_of_nonpos (by linarith)]
    constructor <;> linarith

/-- Newton's method for two bins with one event each never stops when it starts far from the solution. -/
theorem two_bins_diverge {t0 t1 m0 m1 mrate : ℝ} (h0 : 0 < t0) (h1 : 0 < t1) (hm : m0 < m1) (hm1 : m1 - m0 ≤ 1) (hx : 3 ≤ |Real.log (t0 / t1) + 1.5 * (m1 - m0)|) (fuel : ℕ) :
    weichert [⟨t0, m0, 1⟩, ⟨t1, m1, 1⟩] mrate fuel = .ok none := by
  have hd : 0 < m1 - m0 := by linarith
  have inv : ∀ k, 3 ≤ |Real.log (t0 / t1) + (newton [⟨t0, m0, 1⟩, ⟨t1, m1, 1⟩])^[k] 1.5 * (m1 - m0)| := by
    intro k
    induction k with
    | zero => exact hx
    | succ k ih =>
      rw [Function.iterate_succ_apply']
      have hs := two_bins (β := (newton [⟨t0, m0, 1⟩, ⟨t1, m1, 1⟩])^[k] 1.5) h0 h1 hm
      generalize (newton [⟨t0, m0, 1⟩, ⟨t1, m1, 1⟩])^[k] 1.5 = β at *
      have : Real.log (t0 / t1) + newton [⟨t0, m0, 1⟩, ⟨t1, m1, 1⟩] β * (m1 - m0) =
          (Real.log (t0 / t1) + β * (m1 - m0)) - Real.sinh (Real.log (t0 / t1) + β * (m1 - m0)) := by
        have h2 : newton [⟨t0, m0, 1⟩, ⟨t1, m1, 1⟩] β = β + -Real.sinh (Real.log (t0 / t1) + β * (m1 - m0)) / (m1 - m0) := by linarith
        rw [h2]; field_simp; ring
      rw [this]
      exact (abs_sub_sinh ih).1
  simp only [weichert]
  congr 1
  refine weichertLoop_none fun k => ?_
  rw [npAbs_real, two_bins h0 h1 hm, abs_div, abs_neg, abs_of_pos hd, not_le, lt_div_iff₀ hd]
  have := (abs_sub_sinh (inv k)).2
  nlinarith

/-- Catalogue of two events. -/
noncomputable def ev63 : List (ℝ × ℝ) := [(2000, 4.0), (1950, 4.1)]

/-- Completeness table: magnitude 4.0 since 1999, 4.1 since 1800. -/
noncomputable def table63 : List (ℝ × ℝ) := [(1999, 4.0), (1800, 4.1)]

theorem mag1_of_int {x : ℝ} (k : ℤ) (h : x * 10 = k) : Spec.mag1 x = x := by
  have : rintK ((k : ℤ) : ℝ) = k := by simp [rintK]
  rw [Spec.mag1, h, this, ← h]
  ring

theorem prep63 {w : List (WBin ℝ)} (h : weichertPrep ev63 table63 0.1 1 = .ok w) : w = [⟨2, 4.05, 1⟩, ⟨201, 4.15, 1⟩] := by
  classical
  obtain ⟨y0, y1, m0, hy0, hy1, hm0, hlen, ⟨m1, hm1, hlm⟩, hidx, hw⟩ := weichertPrep_spec (by simp [ev63]) (by norm_num) one_pos h
  have ma : Spec.mag1 (4.0 : ℝ) = 4.0 := mag1_of_int 40 (by norm_num)
  have mb : Spec.mag1 (4.1 : ℝ) = 4.1 := mag1_of_int 41 (by norm_num)
  obtain rfl : y0 = 1950 := hy0.unique ⟨⟨(1950, 4.1), by simp [ev63], rfl⟩, by rintro y ⟨e, he, rfl⟩; simp [ev63] at he; rcases he with rfl | rfl <;> norm_num⟩
  obtain rfl : y1 = 2000 := hy1.unique ⟨⟨(2000, 4.0), by simp [ev63], rfl⟩, by rintro y ⟨e, he, rfl⟩; simp [ev63] at he; rcases he with rfl | rfl <;> norm_num⟩
  obtain rfl : m0 = 4.0 := hm0.unique ⟨⟨(2000, 4.0), by simp [ev63], ma⟩, by rintro y ⟨e, he, rfl⟩; simp only [ev63, List.mem_cons, List.not_mem_nil, or_false] at he; rcases he with rfl | rfl <;> simp only [ma, mb] <;> norm_num⟩
  obtain rfl : m1 = 4.1 := hm1.unique ⟨⟨(1950, 4.1), by simp [ev63], mb⟩, by rintro y ⟨e, he, rfl⟩; simp only [ev63, List.mem_cons, List.not_mem_nil, or_false] at he; rcases he with rfl | rfl <;> simp only [ma, mb] <;> norm_num⟩
  have l2 : 2 ≤ w.length := (hlm 2).mpr (by norm_num)
  have l3 : ¬ 3 ≤ w.length := by rw [hlm 3]; norm_num
  have hl : w.length = 2 := by omega
  have i0 : cellIdx 4.0 0.1 4.0 = 0 := by simp [cellIdx]
  have i1 : cellIdx 4.0 0.1 4.1 = 1 := by rw [cellIdx, show ((4.1 : ℝ) - 4.0) / 0.1 = ((1 : ℕ) : ℝ) by norm_num, Nat.floor_natCast]
  have hk : ∀ e ∈ ev63, Kept table63 1950 1 4.0 0.1 e := by
    intro e he r hr
    have c1 : (1950 : ℝ) ≤ cellStart 1950 1 e.1 := by simp [cellStart]
    have c2 : (4.0 : ℝ) ≤ cellStart 4.0 0.1 (Spec.mag1 e.2) := by
      have : (0 : ℝ) ≤ cellIdx 4.0 0.1 (Spec.mag1 e.2) := Nat.cast_nonneg _
      rw [cellStart]; linarith
    simp only [table63, List.mem_cons, List.not_mem_nil, or_false] at hr
    rintro ⟨h1, h2⟩
    rcases hr with rfl | rfl
    · linarith
    · simp only at h1; linarith
  have ka := hk (2000, 4.0) (by simp [ev63])
  have kb := hk (1950, 4.1) (by simp [ev63])
  match w, hl, hw with
  | [a, b], _, hw =>
    obtain ⟨am, ⟨ra, _, hra, at'⟩, an⟩ := hw 0 (by simp)
    obtain ⟨bm, ⟨rb, _, hrb, bt⟩, bn⟩ := hw 1 (by simp)
    simp only [List.getElem_cons_zero, List.getElem_cons_succ] at am at' an bm bt bn
    have fa : (table63.filter fun r => r.2 - (4.0 + ((0 : ℕ) : ℝ) * 0.1) < 1e-3) = [(1999, 4.0)] := by
      simp only [table63, List.filter_cons, List.filter_nil]
      norm_num
    have fb : (table63.filter fun r => r.2 - (4.0 + ((1 : ℕ) : ℝ) * 0.1) < 1e-3) = table63 := by
      simp only [table63, List.filter_cons, List.filter_nil]
      norm_num
    rw [fa] at hra
    rw [fb] at hrb
    simp only [List.getLast?_singleton, Option.some_or, Option.some.injEq] at hra
    simp only [table63, List.getLast?_cons_cons, List.getLast?_singleton, Option.some_or, Option.some.injEq] at hrb
    subst hra hrb
    have hna : a.n = 1 := by
      rw [an]
      simp only [ev63, List.countP_cons, List.countP_nil, ma, mb, i0, i1, decide_eq_true ka, decide_eq_true kb]
      simp
    have hnb : b.n = 1 := by
      rw [bn]
      simp only [ev63, List.countP_cons, List.countP_nil, ma, mb, i0, i1, decide_eq_true ka, decide_eq_true kb]
      simp
    obtain ⟨t, m, n⟩ := a
    obtain ⟨t', m', n'⟩ := b
    simp only at am at' hna bm bt hnb
    subst am at' hna bm bt hnb
    norm_num

/-- **C63 fails**: for this catalogue and table, a positive bin width and time step, the analysis succeeds in preparing two bins with an event each and then iterates forever:
no number of iterations is enough. -/
theorem C63_weichert_terminates_fails :
    ¬ ∀ (ev table : List (ℝ × ℝ)) (dm dt mrate : ℝ) (w : List (WBin ℝ)), 0 < dm → 0 < dt → (∀ r ∈ table, ∃ e ∈ ev, r.1 < e.1 + 1) →
      weichertPrep ev table dm dt = .ok w → 2 ≤ w.length → 0 < (w.map WBin.n).sum → ∃ fuel r, weichert w mrate fuel = .ok (some r) := by
  intro H
  obtain ⟨w, hw⟩ := weichertPrep_succeeds (ev := ev63) (table := table63) (dm := 0.1) (dt := 1) (by simp [ev63]) (by simp [table63]) (by norm_num) one_pos
  obtain ⟨fuel, r, hr⟩ := H ev63 table63 0.1 1 4 w (by norm_num) one_pos
    (by intro r hr; refine ⟨(2000, 4.0), by simp [ev63], ?_⟩; simp [table63] at hr; rcases hr with rfl | rfl <;> norm_num)
    hw (by rw [prep63 hw]; simp) (by rw [prep63 hw]; simp)
  rw [prep63 hw, two_bins_diverge (by norm_num) (by norm_num) (by norm_num) (by norm_num)] at hr
  · simp at hr
  · have hl : Real.log (2 / 201) ≤ -4 := by
      rw [Real.log_le_iff_le_exp (by norm_num), Real.exp_neg]
      have h1 := Real.exp_one_lt_d9
      have h2 : Real.exp 4 = Real.exp 1 * Real.exp 1 * (Real.exp 1 * Real.exp 1) := by
        rw [← Real.exp_add, ← Real.exp_add]; norm_num
      have h0 : 0 < Real.exp 1 := Real.exp_pos 1
      have h3 : Real.exp 1 * Real.exp 1 ≤ 7.4 := by nlinarith
      have h4 : Real.exp 4 ≤ 7.4 * 7.4 := by rw [h2]; exact mul_le_mul h3 h3 (by positivity) (by norm_num)
      rw [div_le_iff₀ (by norm_num), ← div_eq_inv_mul, le_div_iff₀ (Real.exp_pos 4)]
      linarith
    rw [abs_of_nonpos (by norm_num at hl ⊢; linarith)]
    norm_num at hl ⊢
    linarith

/-- **C63**, what holds: `weichert` fails exactly for fewer than two bins, and returns whenever the Newton iterates converge. -/
theorem C63_weichert_terminates_partial {w : List (WBin ℝ)} {mrate : ℝ} :
    (w.length < 2 → ∀ fuel, weichert w mrate fuel = .error .indexError) ∧
      (2 ≤ w.length → (∃ β, Filter.Tendsto (fun k => (newton w)^[k] 1.5) Filter.atTop (nhds β)) → ∃ fuel r, weichert w mrate fuel = .ok (some r)) := by
  constructor
  · intro h fuel
    match w, h with
    | [], _ => rfl
    | [_], _ => rfl
  · rintro h ⟨β, hβ⟩
    match w, h with
    | x0 :: x1 :: rest, _ =>
      have hc := hβ.cauchySeq
      rw [Metric.cauchySeq_iff] at hc
      obtain ⟨N, hN⟩ := hc 1e-5 (by norm_num)
      have := hN (N + 1) (by omega) N (le_refl _)
      rw [Function.iterate_succ_apply', Real.dist_eq] at this
      obtain ⟨r, hr⟩ := weichertLoop_returns (w := x0 :: x1 :: rest) (m0 := x0.m) (dM := x1.m - x0.m) (mrate := mrate) (itstab := 1e-5) (beta := 1.5) (k := N)
        (by rw [npAbs_real]; exact this.le)
      exact ⟨N + 1, r, by simp only [weichert, hr]⟩

end Verif.Recurrence
