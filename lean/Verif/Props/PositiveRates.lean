import Verif.Props.WeichertValues
import Verif.Props.SteppValues

/-!
# C161: the rates of the Weichert recurrence are positive
-/

namespace Verif.Recurrence

open Verif Verif.Np XNum

/-! ### The rate and the sign of the periods -/

theorem sumexp_pos {w : List (WBin ℝ)} (hw : w ≠ []) (β : ℝ) : 0 < (wSums w β).sumexp := by
  simp only [wSums, npSum_real, exp_real]
  match w, hw with
  | x :: xs, _ =>
    rw [List.map_cons, List.sum_cons]
    refine add_pos_of_pos_of_nonneg (Real.exp_pos _) (List.sum_nonneg ?_)
    intro y hy
    obtain ⟨z, -, rfl⟩ := List.mem_map.1 hy
    exact (Real.exp_pos _).le

/-- The rate has the sign of the weighted sum of the periods. -/
theorem wResult_sign {w : List (WBin ℝ)} (hw : w ≠ []) (hn : ∃ x ∈ w, 0 < x.n) (m0 dM mrate β : ℝ) :
    (0 < moment w 0 β → 0 < (wResult w m0 dM mrate β).a ∧ 0 < (wResult w m0 dM mrate β).siga) ∧
      (moment w 0 β < 0 → (wResult w m0 dM mrate β).a < 0 ∧ (wResult w m0 dM mrate β).siga < 0) := by
  have hs := sumexp_pos hw β
  have hN := total_pos hn
  obtain ⟨-, e2, e3, -⟩ := wSums_real w β
  have hq : 0 < Real.sqrt (total w) := Real.sqrt_pos.2 hN
  constructor
  · intro hm
    have h1 : 0 < total w * ((wSums w β).sumexp / moment w 0 β) := mul_pos hN (div_pos hs hm)
    simp only [wResult, e2, e3, decEq_real, exp_real, sqrt_real]
    split
    · exact ⟨h1, div_pos (mul_pos h1 (Real.exp_pos _)) hq⟩
    · exact ⟨mul_pos h1 (Real.exp_pos _), div_pos (mul_pos h1 (Real.exp_pos _)) hq⟩
  · intro hm
    have h1 : total w * ((wSums w β).sumexp / moment w 0 β) < 0 := mul_neg_of_pos_of_neg hN (div_neg_of_pos_of_neg hs hm)
    simp only [wResult, e2, e3, decEq_real, exp_real, sqrt_real]
    split
    · exact ⟨h1, div_neg_of_neg_of_pos (mul_neg_of_neg_of_pos h1 (Real.exp_pos _)) hq⟩
    · exact ⟨mul_neg_of_neg_of_pos h1 (Real.exp_pos _), div_neg_of_neg_of_pos (mul_neg_of_neg_of_pos h1 (Real.exp_pos _)) hq⟩

/-- The bins with the periods negated. -/
def negate (w : List (WBin ℝ)) : List (WBin ℝ) := w.map fun x => ⟨-x.t, x.m, x.n⟩

theorem moment_negate (w : List (WBin ℝ)) (k : ℕ) (β : ℝ) : moment (negate w) k β = -moment w k β := by
  induction w with
  | nil => simp [moment, negate]
  | cons x w ih =>
    simp only [moment, negate, List.map_cons, List.sum_cons, List.map_map] at ih ⊢
    rw [ih]; ring

theorem total_negate (w : List (WBin ℝ)) : total (negate w) = total w := by
  simp [total, negate, Function.comp_def]

/-- Only the ratios of the periods matter to the b-value. -/
theorem d2_negate (w : List (WBin ℝ)) (β : ℝ) : d2ldb2 (negate w) β = d2ldb2 w β := by
  rw [d2ldb2_real, d2ldb2_real, total_negate, moment_negate, moment_negate, moment_negate, neg_div_neg_eq, neg_div_neg_eq]

/-- `weichert` on bins with negative periods computes what it computes in exact arithmetic. -/
theorem weichert_fin_late {w : List (WBin ℝ)} (ht : ∀ x ∈ w, x.t < 0) (hd : ∃ x ∈ w, ∃ y ∈ w, x.m ≠ y.m) (hn : ∃ x ∈ w, 0 < x.n) (mrate : ℝ) (fuel : ℕ) :
    weichert (w.map fw) (fin mrate) fuel = (weichert w mrate fuel).map (Option.map fgr) := by
  have hw : w ≠ [] := by obtain ⟨x, hx, _⟩ := hn; exact List.ne_nil_of_mem hx
  have ht' : ∀ x ∈ negate w, 0 < x.t := by
    intro x hx
    obtain ⟨y, hy, rfl⟩ := List.mem_map.1 hx
    exact neg_pos.2 (ht y hy)
  have hd' : ∃ x ∈ negate w, ∃ y ∈ negate w, x.m ≠ y.m := by
    obtain ⟨x, hx, y, hy, h⟩ := hd
    exact ⟨_, List.mem_map_of_mem hx, _, List.mem_map_of_mem hy, h⟩
  have hn' : ∃ x ∈ negate w, 0 < x.n := by
    obtain ⟨x, hx, h⟩ := hn
    exact ⟨_, List.mem_map_of_mem hx, h⟩
  have hw' : negate w ≠ [] := by simpa [negate] using hw
  have a1 : ∀ β, (wSums w β).sumtex ≠ 0 := fun β => by
    rw [(wSums_real w β).2.2.1]
    have := moment0_pos ht' hw' β
    rw [moment_negate] at this
    exact (neg_pos.1 this).ne
  have a2 : ∀ β, 0 < (wSums w β).nkount := fun β => by rw [(wSums_real w β).2.1]; exact total_pos hn
  have a3 : ∀ β, d2ldb2 w β < 0 := fun β => by rw [← d2_negate]; exact d2_neg ht' hd' hn' β
  match w, hd with
  | [x], hd =>
    obtain ⟨a, ha, b, hb, hab⟩ := hd
    rw [List.mem_singleton] at ha hb
    exact absurd (by rw [ha, hb]) hab
  | x0 :: x1 :: rest, hd =>
    have h := weichertLoop_fin (m0 := x0.m) (dM := x1.m - x0.m) (mrate := mrate) (itstab := 1e-5) a1 a3 a2 fuel 1.5
    show Except.ok _ = Except.ok _
    congr 1

/-! ### The property -/

/-- What the analysis gives, by the sign of the periods. -/
theorem weichert_rate {w : List (WBin ℝ)} (h2 : 2 ≤ w.length) (hd : ∃ x ∈ w, ∃ y ∈ w, x.m ≠ y.m) {mrate : ℝ} {fuel : ℕ} {R : GR (XNum ℝ)}
    (h : weichert (w.map fw) (fin mrate) fuel = .ok (some R)) :
    ((∀ x ∈ w, 0 < x.t) → ∃ r : GR ℝ, R = fgr r ∧ 0 < r.a ∧ 0 < r.siga ∧ 0 < r.sigb) ∧
      ((∀ x ∈ w, x.t < 0) → ∃ r : GR ℝ, R = fgr r ∧ r.a < 0 ∧ r.siga < 0) := by
  have hn : ∃ x ∈ w, 0 < x.n := by
    by_contra hn
    push Not at hn
    rw [weichert_empty h2 (fun x hx => Nat.le_zero.1 (hn x hx))] at h
    cases h
  have hw : w ≠ [] := by rintro rfl; simp at h2
  have key : weichert (w.map fw) (fin mrate) fuel = (weichert w mrate fuel).map (Option.map fgr) →
      ∃ m0 dM β, R = fgr (wResult w m0 dM mrate β) := by
    intro he
    rw [he] at h
    rcases hr : weichert w mrate fuel with e | o
    · rw [hr] at h; cases h
    rw [hr] at h
    cases o with
    | none => cases h
    | some r =>
      simp only [Except.map, Option.map_some, Except.ok.injEq, Option.some.injEq] at h
      obtain ⟨x0, x1, rest, -, k, -, -, rfl⟩ := C62_first_stable hr
      exact ⟨_, _, _, h.symm⟩
  constructor
  · intro ht
    obtain ⟨m0, dM, β, rfl⟩ := key (weichert_fin ht hd hn mrate fuel)
    obtain ⟨ha, hs⟩ := (wResult_sign hw hn m0 dM mrate β).1 (moment0_pos ht hw β)
    refine ⟨_, rfl, ha, hs, ?_⟩
    simp only [wResult, sqrt_real, log_real]
    refine div_pos (Real.sqrt_pos.2 (div_pos_of_neg_of_neg (by norm_num) (d2_neg ht hd hn β))) (Real.log_pos (by norm_num))
  · intro ht
    obtain ⟨m0, dM, β, rfl⟩ := key (weichert_fin_late ht hd hn mrate fuel)
    have hm : moment w 0 β < 0 := by
      have := moment0_pos (w := negate w) (by
        intro x hx
        obtain ⟨y, hy, rfl⟩ := List.mem_map.1 hx
        exact neg_pos.2 (ht y hy)) (by simpa [negate] using hw) β
      rw [moment_negate] at this
      linarith
    exact ⟨_, rfl, (wResult_sign hw hn m0 dM mrate β).2 hm⟩

/-- The steps of the analysis before the iteration. -/
theorem analysis_prep {ev table : List (ℝ × ℝ)} {dm dt mrate : ℝ} {fuel : ℕ} {R : GR (XNum ℝ)} (hdm : 0 < dm) (hdt : 0 < dt)
    (h : recurrenceAnalysis (ev.map fp) (table.map fp) (fin dm) "Weichert" (fin mrate) (fin dt) fuel = .ok (some R)) :
    ev ≠ [] ∧ ∃ w, weichertPrep ev table dm dt = .ok w ∧ 2 ≤ w.length ∧ (∃ x ∈ w, ∃ y ∈ w, x.m ≠ y.m) ∧ weichert (w.map fw) (fin mrate) fuel = .ok (some R) := by
  unfold recurrenceAnalysis at h
  simp only [if_true] at h
  rw [weichertPrep_fin ev table hdm hdt] at h
  rcases hp : weichertPrep ev table dm dt with e | w
  · rw [hp] at h; cases h
  rw [hp] at h
  simp only [Except.map, Recurrence.bind_ok] at h
  have hev : ev ≠ [] := by
    rintro rfl
    cases hp
  have h2 : 2 ≤ w.length := by
    by_contra hc
    match w, hc with
    | [], _ => cases h
    | [x], _ => cases h
    | x0 :: x1 :: rest, hc => exact hc (by simp)
  obtain ⟨y0, y1, m0, -, -, -, -, -, -, hw⟩ := weichertPrep_spec hev hdm hdt hp
  refine ⟨hev, w, rfl, h2, ⟨w[0], List.getElem_mem _, w[1], List.getElem_mem _, ?_⟩, h⟩
  rw [(hw 0 (by omega)).1, (hw 1 (by omega)).1]
  push_cast
  intro hc
  nlinarith

/-- **C161**, what holds: whenever the Weichert recurrence returns, its rate and the uncertainties are positive numbers, if the completeness years are not later than the year after the
last earthquake. -/
theorem C161_rate_partial {ev table : List (ℝ × ℝ)} {dm dt mrate : ℝ} {fuel : ℕ} {R : GR (XNum ℝ)} (hdm : 0 < dm) (hdt : 0 < dt)
    (htab : ∀ r ∈ table, ∃ e ∈ ev, r.1 < e.1 + 1)
    (h : recurrenceAnalysis (ev.map fp) (table.map fp) (fin dm) "Weichert" (fin mrate) (fin dt) fuel = .ok (some R)) :
    ∃ b sb a sa : ℝ, R = ⟨fin b, fin sb, fin a, fin sa⟩ ∧ 0 < a ∧ 0 < sa ∧ 0 < sb := by
  obtain ⟨hev, w, hp, h2, hd, hR⟩ := analysis_prep hdm hdt h
  obtain ⟨r, rfl, h1, h3, h4⟩ := (weichert_rate h2 hd hR).1 (prep_usable hev hdm hdt hp htab).1
  exact ⟨r.b, r.sigb, r.a, r.siga, rfl, h1, h3, h4⟩

/-- **C161** with the default completeness table (first year and smallest magnitude of a catalogue), for the catalogue and for each of its zones. -/
theorem C161_default {ev zone : List (ℝ × ℝ)} {dm dt mrate y m : ℝ} {fuel : ℕ} {R : GR (XNum ℝ)} (hdm : 0 < dm) (hdt : 0 < dt)
    (hy : IsLeast {y | ∃ e ∈ ev, e.1 = y} y) (hz : ∀ e ∈ zone, e ∈ ev)
    (h : recurrenceAnalysis (zone.map fp) [fp (y, m)] (fin dm) "Weichert" (fin mrate) (fin dt) fuel = .ok (some R)) :
    ∃ b sb a sa : ℝ, R = ⟨fin b, fin sb, fin a, fin sa⟩ ∧ 0 < a ∧ 0 < sa ∧ 0 < sb := by
  have hne := (analysis_prep (table := [(y, m)]) hdm hdt h).1
  refine C161_rate_partial (table := [(y, m)]) hdm hdt ?_ h
  intro r hr
  rw [List.mem_singleton] at hr
  subst hr
  obtain ⟨e, he⟩ := List.exists_mem_of_ne_nil _ hne
  exact ⟨e, he, lt_of_le_of_lt (hy.2 ⟨e, hz e he, rfl⟩) (by simp)⟩

/-- **C161** with the completeness table that Stepp's test gives for the same catalogue. -/
theorem C161_stepp {ev : List (ℝ × ℝ)} {T : List (XNum ℝ × XNum ℝ)} {dm dt mrate sm st tol : ℝ} {lock : Bool} {fuel : ℕ} {R : GR (XNum ℝ)} (hdm : 0 < dm) (hdt : 0 < dt)
    (hsm : 0 < sm) (hst : 0 < st) (hT : Completeness.stepp (ev.map fp) (fin sm) (fin st) (fin tol) lock = .ok T)
    (h : recurrenceAnalysis (ev.map fp) T (fin dm) "Weichert" (fin mrate) (fin dt) fuel = .ok (some R)) :
    ∃ b sb a sa : ℝ, R = ⟨fin b, fin sb, fin a, fin sa⟩ ∧ 0 < a ∧ 0 < sa ∧ 0 < sb := by
  rw [Completeness.C157_stepp_numbers] at hT
  rcases hs : Completeness.stepp ev sm st tol lock with e | table
  · rw [hs] at hT; cases hT
  rw [hs] at hT
  simp only [Except.map, Except.ok.injEq] at hT
  subst hT
  have hev := (analysis_prep hdm hdt h).1
  refine C161_rate_partial hdm hdt (fun r hr => ?_) h
  obtain ⟨low, high, y0, y1, hb, hrow⟩ := Completeness.C52_years hev hsm hst hs
  obtain ⟨k, -, h1, -⟩ := hrow r hr
  obtain ⟨e, he, hy⟩ := hb.last.1
  exact ⟨e, he, by linarith⟩

/-- With a completeness table that only starts after the last earthquake, a returned rate is negative. -/
theorem C161_late {ev table : List (ℝ × ℝ)} {dm dt mrate : ℝ} {fuel : ℕ} {R : GR (XNum ℝ)} (hdm : 0 < dm) (hdt : 0 < dt)
    (htab : ∀ r ∈ table, ∀ e ∈ ev, e.1 + 1 < r.1)
    (h : recurrenceAnalysis (ev.map fp) (table.map fp) (fin dm) "Weichert" (fin mrate) (fin dt) fuel = .ok (some R)) :
    ∃ a sa : ℝ, R.a = fin a ∧ R.siga = fin sa ∧ a < 0 ∧ sa < 0 := by
  obtain ⟨hev, w, hp, h2, hd, hR⟩ := analysis_prep hdm hdt h
  obtain ⟨y0, y1, m0, -, hy1, -, -, -, -, hw⟩ := weichertPrep_spec hev hdm hdt hp
  obtain ⟨r, rfl, h1, h3⟩ := (weichert_rate h2 hd hR).2 (by
    intro x hx
    obtain ⟨i, hi, rfl⟩ := List.getElem_of_mem hx
    obtain ⟨r, hr, -, ht⟩ := (hw i hi).2.1
    obtain ⟨e, he, rfl⟩ := hy1.1
    have := htab r hr e he
    rw [ht]; linarith)
  exact ⟨r.a, r.siga, rfl, rfl, h1, h3⟩

/-! ### A zone without earthquakes since the completeness year -/

/-- Earthquakes of a zone. -/
noncomputable def zone161 : List (ℝ × ℝ) := [(1980, 5.0), (1985, 5.0), (1990, 5.5)]

/-- Bins as wide as the increase of the magnitude that halves the number of earthquakes at the first value of the iteration. -/
noncomputable def dm161 : ℝ := Real.log 2 / 1.5

theorem dm161_bounds : 0.46 < dm161 ∧ dm161 < 0.47 := by
  have h1 := Real.log_two_gt_d9
  have h2 := Real.log_two_lt_d9
  unfold dm161
  constructor
  · rw [lt_div_iff₀ (by norm_num)]; linarith
  · rw [div_lt_iff₀ (by norm_num)]; linarith

/-- The bins prepared for this zone and a table with one year. -/
theorem prep161 {table : List (ℝ × ℝ)} {Y : ℝ} (h0 : table ≠ []) (hY : ∀ r ∈ table, r.1 = Y) (hm : ∀ r ∈ table, r.2 ≤ 5.0 ∨ Y ≤ 1980) :
    weichertPrep zone161 table dm161 1 = .ok [⟨1991 - Y, 5 + dm161 / 2, 2⟩, ⟨1991 - Y, 5 + 3 * dm161 / 2, 1⟩] := by
  classical
  obtain ⟨b1, b2⟩ := dm161_bounds
  have hpos : 0 < dm161 := by linarith
  obtain ⟨w, h⟩ := weichertPrep_succeeds (ev := zone161) (table := table) (dm := dm161) (dt := 1) (by simp [zone161]) h0 hpos one_pos
  obtain ⟨y0, y1, m0, hy0, hy1, hm0, hlen, ⟨m1, hm1, hlm⟩, hidx, hw⟩ := weichertPrep_spec (by simp [zone161]) hpos one_pos h
  have ma : Spec.mag1 (5.0 : ℝ) = 5.0 := mag1_of_int 50 (by norm_num)
  have mb : Spec.mag1 (5.5 : ℝ) = 5.5 := mag1_of_int 55 (by norm_num)
  obtain rfl : y0 = 1980 := hy0.unique ⟨⟨(1980, 5.0), by simp [zone161], rfl⟩, by rintro y ⟨e, he, rfl⟩; simp [zone161] at he; rcases he with rfl | rfl | rfl <;> norm_num⟩
  obtain rfl : y1 = 1990 := hy1.unique ⟨⟨(1990, 5.5), by simp [zone161], rfl⟩, by rintro y ⟨e, he, rfl⟩; simp [zone161] at he; rcases he with rfl | rfl | rfl <;> norm_num⟩
  obtain rfl : m0 = 5.0 := hm0.unique ⟨⟨(1980, 5.0), by simp [zone161], ma⟩, by rintro y ⟨e, he, rfl⟩; simp only [zone161, List.mem_cons, List.not_mem_nil, or_false] at he; rcases he with rfl | rfl | rfl <;> simp only [ma, mb] <;> norm_num⟩
  obtain rfl : m1 = 5.5 := hm1.unique ⟨⟨(1990, 5.5), by simp [zone161], mb⟩, by rintro y ⟨e, he, rfl⟩; simp only [zone161, List.mem_cons, List.not_mem_nil, or_false] at he; rcases he with rfl | rfl | rfl <;> simp only [ma, mb] <;> norm_num⟩
  have l2 : 2 ≤ w.length := (hlm 2).mpr (by norm_num at b1 b2 ⊢; linarith)
  have l3 : ¬ 3 ≤ w.length := by rw [hlm 3]; norm_num at b1 b2 ⊢; linarith
  have hl : w.length = 2 := by omega
  have i0 : cellIdx 5.0 dm161 5.0 = 0 := by simp [cellIdx]
  have i1 : cellIdx 5.0 dm161 5.5 = 1 := by
    rw [cellIdx, Nat.floor_eq_iff (div_nonneg (by norm_num) hpos.le)]
    constructor
    · rw [le_div_iff₀ hpos]; norm_num at b1 b2 ⊢; linarith
    · rw [div_lt_iff₀ hpos]; norm_num at b1 b2 ⊢; linarith
  have hk : ∀ e ∈ zone161, Kept table 1980 1 5.0 dm161 e := by
    intro e he r hr
    have c2 : (5.0 : ℝ) ≤ cellStart 5.0 dm161 (Spec.mag1 e.2) := by
      have : (0 : ℝ) ≤ cellIdx 5.0 dm161 (Spec.mag1 e.2) := Nat.cast_nonneg _
      rw [cellStart]; nlinarith
    have c1 : (1980 : ℝ) ≤ cellStart 1980 1 e.1 := by simp [cellStart]
    rintro ⟨h1, h2⟩
    rw [hY r hr] at h1
    rcases hm r hr with h3 | h3 <;> linarith
  have ka := hk (1980, 5.0) (by simp [zone161])
  have kb := hk (1985, 5.0) (by simp [zone161])
  have kc := hk (1990, 5.5) (by simp [zone161])
  rw [h]
  match w, hl, hw with
  | [a, b], _, hw =>
    obtain ⟨am, ⟨ra, hra, _, at'⟩, an⟩ := hw 0 (by simp)
    obtain ⟨bm, ⟨rb, hrb, _, bt⟩, bn⟩ := hw 1 (by simp)
    simp only [List.getElem_cons_zero, List.getElem_cons_succ] at am at' an bm bt bn
    rw [hY _ hra] at at'
    rw [hY _ hrb] at bt
    have hna : a.n = 2 := by
      rw [an]
      simp only [zone161, List.countP_cons, List.countP_nil, ma, mb, i0, i1, decide_eq_true ka, decide_eq_true kb, decide_eq_true kc]
      simp
    have hnb : b.n = 1 := by
      rw [bn]
      simp only [zone161, List.countP_cons, List.countP_nil, ma, mb, i0, i1, decide_eq_true ka, decide_eq_true kb, decide_eq_true kc]
      simp
    obtain ⟨t, m, n⟩ := a
    obtain ⟨t', m', n'⟩ := b
    simp only at am at' hna bm bt hnb
    subst am at' hna bm bt hnb
    norm_num
    constructor <;> constructor <;> ring

/-- For these bins the first value of the iteration is the solution, and the analysis returns at once. -/
theorem returns161 {table : List (ℝ × ℝ)} {Y : ℝ} (h0 : table ≠ []) (hY : ∀ r ∈ table, r.1 = Y) (hm : ∀ r ∈ table, r.2 ≤ 5.0 ∨ Y ≤ 1980) (hne : Y ≠ 1991) :
    ∃ R, recurrenceAnalysis (zone161.map fp) (table.map fp) (fin dm161) "Weichert" (fin 5) (fin 1) 1 = .ok (some R) := by
  have hpos : 0 < dm161 := by linarith [dm161_bounds.1]
  set w : List (WBin ℝ) := [⟨1991 - Y, 5 + dm161 / 2, 2⟩, ⟨1991 - Y, 5 + 3 * dm161 / 2, 1⟩] with hw
  have hE : Real.exp (-1.5 * (5 + 3 * dm161 / 2)) = Real.exp (-1.5 * (5 + dm161 / 2)) / 2 := by
    have : -1.5 * (5 + 3 * dm161 / 2) = -1.5 * (5 + dm161 / 2) - Real.log 2 := by
      have : dm161 * 1.5 = Real.log 2 := div_mul_cancel₀ _ (by norm_num)
      rw [← this]; norm_num; ring
    rw [this, Real.exp_sub, Real.exp_log (by norm_num)]
  have hE0 : Real.exp (-1.5 * (5 + dm161 / 2)) ≠ 0 := (Real.exp_pos _).ne'
  have hdl : dldb w 1.5 = 0 := by
    rw [dldb_real]
    simp only [moment, total, magSum, hw, List.map_cons, List.map_nil, List.sum_cons, List.sum_nil, pow_zero, pow_one, hE]
    generalize Real.exp (-1.5 * (5 + dm161 / 2)) = E at hE0
    rw [show (1991 - Y) * 1 * E + ((1991 - Y) * 1 * (E / 2) + 0) = (1991 - Y) * (3 / 2) * E by ring]
    have ht : 1991 - Y ≠ 0 := sub_ne_zero.2 (Ne.symm hne)
    field_simp
    push_cast
    ring
  have hnew : newton w 1.5 = 1.5 := by rw [newton, hdl, zero_div, sub_zero]
  have hr : weichert w 5 1 = .ok (some (wResult w (5 + dm161 / 2) (5 + 3 * dm161 / 2 - (5 + dm161 / 2)) 5 1.5)) := by
    show Except.ok (weichertLoop w _ _ _ _ 1 1.5) = _
    rw [weichertLoop, hnew, sub_self, npAbs_real, abs_zero, if_pos (by norm_num)]
  have hd : ∃ x ∈ w, ∃ y ∈ w, x.m ≠ y.m :=
    ⟨_, List.mem_cons_self, _, List.mem_cons_of_mem _ (List.mem_singleton.2 rfl), by simp only; intro hc; linarith⟩
  have hn : ∃ x ∈ w, 0 < x.n := ⟨_, List.mem_cons_self, by norm_num⟩
  have ht : ∀ x ∈ w, x.t = 1991 - Y := by intro x hx; simp [hw] at hx; rcases hx with rfl | rfl <;> rfl
  have hx : weichert (w.map fw) (fin 5) 1 = (weichert w 5 1).map (Option.map fgr) := by
    rcases lt_or_gt_of_ne hne with h | h
    · exact weichert_fin (fun x hx => by rw [ht x hx]; linarith) hd hn 5 1
    · exact weichert_fin_late (fun x hx => by rw [ht x hx]; linarith) hd hn 5 1
  rw [hr] at hx
  unfold recurrenceAnalysis
  simp only [if_true]
  rw [weichertPrep_fin _ _ hpos one_pos, prep161 h0 hY hm]
  exact ⟨_, hx⟩

/-- **C161 fails**: the zone has had no earthquake since 1990, the catalogue is complete from magnitude 5 since 2000; the recurrence returns a negative number of earthquakes per
year. -/
theorem C161_rate_fails : ¬ ∀ (ev table : List (ℝ × ℝ)) (dm dt mrate : ℝ) (fuel : ℕ) (R : GR (XNum ℝ)), 0 < dm → 0 < dt →
    recurrenceAnalysis (ev.map fp) (table.map fp) (fin dm) "Weichert" (fin mrate) (fin dt) fuel = .ok (some R) → ∃ a : ℝ, R.a = fin a ∧ 0 < a := by
  intro H
  have hpos : 0 < dm161 := by linarith [dm161_bounds.1]
  obtain ⟨R, hR⟩ := returns161 (table := [(2000, 5.0)]) (Y := 2000) (by simp) (by simp) (by simp) (by norm_num)
  obtain ⟨a, ha, h0⟩ := H zone161 [(2000, 5.0)] dm161 1 5 1 R hpos one_pos hR
  obtain ⟨a', sa, ha', -, h1, -⟩ := C161_late (table := [(2000, 5.0)]) hpos one_pos (by
    intro r hr e he
    rw [List.mem_singleton] at hr
    subst hr
    simp [zone161] at he
    rcases he with rfl | rfl | rfl <;> norm_num) hR
  rw [ha] at ha'
  cases ha'
  linarith

/-- The default completeness table of the zone meets the hypotheses of C161. -/
example : ∃ R, recurrenceAnalysis (zone161.map fp) [fp (1980, 5.0)] (fin dm161) "Weichert" (fin 5) (fin 1) 1 = .ok (some R) ∧
    ∃ b sb a sa : ℝ, R = ⟨fin b, fin sb, fin a, fin sa⟩ ∧ 0 < a ∧ 0 < sa ∧ 0 < sb := by
  have hpos : 0 < dm161 := by linarith [dm161_bounds.1]
  obtain ⟨R, hR⟩ := returns161 (table := [(1980, 5.0)]) (Y := 1980) (by simp) (by simp) (by simp) (by norm_num)
  refine ⟨R, hR, C161_default (ev := zone161) hpos one_pos ⟨⟨(1980, 5.0), by simp [zone161], rfl⟩, ?_⟩ (fun e he => he) hR⟩
  rintro y ⟨e, he, rfl⟩
  simp [zone161] at he
  rcases he with rfl | rfl | rfl <;> norm_num

/-- So does the table of Stepp's test with steps of ten years. -/
theorem stepp161 : ∃ T R, Completeness.stepp (zone161.map fp) (fin 0.5) (fin 10) (fin 0.2) true = .ok T ∧
    recurrenceAnalysis (zone161.map fp) T (fin dm161) "Weichert" (fin 5) (fin 1) 1 = .ok (some R) := by
  have hne : zone161 ≠ [] := by simp [zone161]
  have hy1 : IsGreatest {y | ∃ e ∈ zone161, e.1 = y} 1990 := ⟨⟨(1990, 5.5), by simp [zone161], rfl⟩, by rintro y ⟨e, he, rfl⟩; simp [zone161] at he; rcases he with rfl | rfl | rfl <;> norm_num⟩
  have hy0 : IsLeast {y | ∃ e ∈ zone161, e.1 = y} 1980 := ⟨⟨(1980, 5.0), by simp [zone161], rfl⟩, by rintro y ⟨e, he, rfl⟩; simp [zone161] at he; rcases he with rfl | rfl | rfl <;> norm_num⟩
  obtain ⟨low, high, y0, y1, hb, hok⟩ := Completeness.C55_succeeds (dm := 0.5) (dt := 10) (ttol := 0.2) (iloc := true) hne (by norm_num) (by norm_num)
  obtain rfl := hb.first.unique hy0
  obtain rfl := hb.last.unique hy1
  obtain ⟨table, hs⟩ := hok.2 (.inl (by norm_num))
  have h0 : table ≠ [] := by
    rintro rfl
    obtain ⟨low, high, y0, y1, hb, -, hhl, -⟩ := Completeness.C51_magnitudes hne (by norm_num) (by norm_num) hs
    obtain ⟨m, hm, rfl⟩ := hb.low
    obtain ⟨M, hM, rfl⟩ := hb.high
    have k1 := hm.2 ⟨(1980, 5.0), by simp [zone161], rfl⟩
    have k2 := hM.2 ⟨(1990, 5.5), by simp [zone161], rfl⟩
    have e1 : Spec.mag2 5.0 = 5 := by
      simp only [Spec.mag2, rintK]
      norm_num
    have e2 : Spec.mag2 5.5 = 5.5 := by
      simp only [Spec.mag2, rintK]
      norm_num
    simp only [e1, e2] at k1 k2
    have f1 := Int.floor_le (10 * m)
    have f2 := Int.le_ceil (10 * M)
    simp only [List.length_nil, Nat.cast_zero, zero_mul, add_zero] at hhl
    norm_num at k2
    linarith
  obtain ⟨_, _, y0, y1, hb', hrow⟩ := Completeness.C52_years hne (by norm_num) (by norm_num) hs
  obtain rfl := hb'.first.unique hy0
  obtain rfl := hb'.last.unique hy1
  have hY : ∀ r ∈ table, r.1 = 1980 := by
    intro r hr
    obtain ⟨k, h1, -, h2⟩ := hrow r hr
    rw [h1] at h2
    have hk : (k : ℝ) < 1 := by linarith
    have : k = 0 := by exact_mod_cast Nat.lt_one_iff.1 (by exact_mod_cast hk)
    rw [h1, this]; norm_num
  obtain ⟨R, hR⟩ := returns161 h0 hY (fun r hr => .inr le_rfl) (by norm_num)
  exact ⟨table.map fp, R, by rw [Completeness.C157_stepp_numbers, hs]; rfl, hR⟩

example : ∃ T R, Completeness.stepp (zone161.map fp) (fin 0.5) (fin 10) (fin 0.2) true = .ok T ∧ ∃ b sb a sa : ℝ, R = (⟨fin b, fin sb, fin a, fin sa⟩ : GR (XNum ℝ)) ∧
    recurrenceAnalysis (zone161.map fp) T (fin dm161) "Weichert" (fin 5) (fin 1) 1 = .ok (some R) ∧ 0 < a := by
  obtain ⟨T, R, h1, h2⟩ := stepp161
  obtain ⟨b, sb, a, sa, rfl, ha, -⟩ := C161_stepp (by linarith [dm161_bounds.1]) one_pos (by norm_num) (by norm_num) h1 h2
  exact ⟨T, _, h1, b, sb, a, sa, rfl, h2, ha⟩

end Verif.Recurrence
