import Verif.Props.EachYear
import Verif.Props.WeichertReturns
import Verif.Props.Repetition
import Verif.Props.ReferenceMagnitude
import Verif.Props.Irrelevant

/-!
# Property C123: the order of the rows of the completeness table
-/

namespace Verif.Completeness

open Verif Verif.Np

theorem markRow_comm (ev : List (ℝ × ℝ)) (t : List Int) (c d : ℝ × ℝ) : markRow ev (markRow ev t c) d = markRow ev (markRow ev t d) c := by
  induction ev generalizing t with
  | nil => rfl
  | cons e ev ih =>
    cases t with
    | nil => rfl
    | cons x t =>
      have := ih t
      simp only [markRow, List.zipWith_cons_cons] at this ⊢
      rw [this]
      congr 1
      split_ifs <;> rfl

/-- **C123, completeness filter**: the flags do not depend on the order of the rows of the completeness table. -/
theorem C123_filter {ev table table' : List (ℝ × ℝ)} (h : table.Perm table') (flag : List Int) :
    selectedEqFlagVector ev table flag = selectedEqFlagVector ev table' flag := by
  have : table.foldl (markRow ev) (List.replicate ev.length 0) = table'.foldl (markRow ev) (List.replicate ev.length 0) :=
    h.foldl_eq' (fun c _ d _ t => markRow_comm ev t c d) _
  simp only [selectedEqFlagVector, this]

/-- Two orders of a table, and an event that only the second row removes. -/
example : ([(1990, 4), (1950, 5)] : List (ℝ × ℝ)).Perm [(1950, 5), (1990, 4)] ∧
    selectedEqFlagVector [((1940 : ℝ), (4.5 : ℝ)), (2000, 4.5)] [(1990, 4), (1950, 5)] [0, 0] = .ok [1, 0] := by
  refine ⟨List.Perm.swap .., ?_⟩
  norm_num [selectedEqFlagVector, markRow, mergeFlag, List.replicate]

end Verif.Completeness

namespace Verif.Recurrence

open Verif Verif.Np Verif.Completeness

/-! ### Maximum likelihood -/

/-- The rows of each year follow each other, and different years are at least 1e-5 apart. -/
def Spec.Grouped (table : List (ℝ × ℝ)) : Prop :=
  ∃ blocks : List (ℝ × List ℝ), (∀ b ∈ blocks, b.2 ≠ []) ∧ (blocks.Pairwise fun b b' => 1e-5 ≤ |b.1 - b'.1|) ∧
    table = blocks.flatMap fun b => b.2.map fun m => (b.1, m)

theorem mapM_perm {α β : Type} (f : α → Except PyErr β) {l l' : List α} (h : l.Perm l') {r : List β} (hr : l.mapM f = .ok r) :
    ∃ r', l'.mapM f = .ok r' ∧ r.Perm r' := by
  induction h generalizing r with
  | nil => exact ⟨r, hr, .refl _⟩
  | cons a _ ih =>
    simp only [List.mapM_cons] at hr ⊢
    obtain ⟨b, hb, hr⟩ := Nrml.bind_ok hr
    obtain ⟨bs, hbs, hr⟩ := Nrml.bind_ok hr
    cases hr
    obtain ⟨bs', h1, h2⟩ := ih hbs
    exact ⟨b :: bs', by rw [hb, h1]; rfl, h2.cons _⟩
  | swap a a' l =>
    simp only [List.mapM_cons] at hr ⊢
    obtain ⟨b, hb, hr⟩ := Nrml.bind_ok hr
    obtain ⟨x, hx, hr⟩ := Nrml.bind_ok hr
    obtain ⟨b', hb', hx⟩ := Nrml.bind_ok hx
    obtain ⟨bs, hbs, hx⟩ := Nrml.bind_ok hx
    cases hx
    cases hr
    exact ⟨b' :: b :: bs, by rw [hb, hb', hbs]; rfl, List.Perm.swap ..⟩
  | trans _ _ ih1 ih2 =>
    obtain ⟨r1, h1, p1⟩ := ih1 hr
    obtain ⟨r2, h2, p2⟩ := ih2 h1
    exact ⟨r2, h2, p1.trans p2⟩

theorem period_group_perm {g g' : List ℝ} (h : g.Perm g') (ev : List (ℝ × ℝ)) (dmag ref c : ℝ) : period ev dmag ref c g = period ev dmag ref c g' := by
  have : npMin g = npMin g' := npMin_congr fun x => h.mem_iff
  simp only [period, this]

/-- The loop over a grouped table, by the years of the groups. -/
theorem periods_grouped {table : List (ℝ × ℝ)} (h : Spec.Grouped table) (ev : List (ℝ × ℝ)) (dmag ref : ℝ) :
    ∃ ys : List ℝ, ys.Nodup ∧ (∀ y, y ∈ ys ↔ ∃ r ∈ table, r.1 = y) ∧
      periods ev table dmag ref 0 = ys.mapM fun y => period ev dmag ref y (groupOf table y) := by
  obtain ⟨blocks, hne, hsep, rfl⟩ := h
  refine ⟨blocks.map Prod.fst, ?_, ?_, ?_⟩
  · rw [List.Nodup, List.pairwise_map]
    refine hsep.imp fun {b b'} h e => ?_
    rw [e, sub_self, abs_zero] at h
    norm_num at h
  · intro y
    simp only [List.mem_map, List.mem_flatMap]
    constructor
    · rintro ⟨b, hb, rfl⟩
      obtain ⟨m, hm⟩ := List.exists_mem_of_ne_nil _ (hne b hb)
      exact ⟨(b.1, m), ⟨b, hb, m, hm, rfl⟩, rfl⟩
    · rintro ⟨r, ⟨b, hb, m, -, rfl⟩, rfl⟩
      exact ⟨b, hb, rfl⟩
  · have := C59_periods (ev := ev) (dmag := dmag) (ref := ref) hne hsep
    rw [blockTable] at this
    rw [this, List.mapM_map]
    have hg : ∀ b ∈ blocks, groupOf (blockTable blocks) b.1 = b.2 := by
      intro b hb
      obtain ⟨pre, post, rfl⟩ := List.append_of_mem hb
      refine groupOf_blocks fun b' hb' => ?_
      rw [List.pairwise_append, List.pairwise_cons] at hsep
      rcases List.mem_append.mp hb' with h | h
      · exact hsep.2.2 b' h b (List.mem_cons_self ..)
      · rw [abs_sub_comm]; exact hsep.2.1.1 b' h
    refine mapM_congr_mem fun b hb => ?_
    have := hg b hb
    rw [blockTable] at this
    simp only [Function.comp, this]

theorem weighted_perm {ps ps' : List (Period ℝ)} (h : ps.Perm ps') (f : Period ℝ → ℝ) : weighted ps f = weighted ps' f := by
  rw [weighted_eq, weighted_eq, (h.map _).sum_eq, (h.map fun p : Period ℝ => (p.n : ℝ)).sum_eq]

/-- **C123, part that holds (maximum likelihood)**: the result is the same for two orders of the rows that both keep the rows of one year together.
Missing: orders that separate them, see `C123_mle_fails`. -/
theorem C123_mle_partial {ev table table' : List (ℝ × ℝ)} {dmag ref : ℝ} {r : GR ℝ} (hp : table.Perm table') (hg : Spec.Grouped table)
    (hg' : Spec.Grouped table') (h : bMaxlikeTime ev table dmag ref = .ok r) : bMaxlikeTime ev table' dmag ref = .ok r := by
  obtain ⟨ys, hn, hm, hps⟩ := periods_grouped hg ev dmag ref
  obtain ⟨ys', hn', hm', hps'⟩ := periods_grouped hg' ev dmag ref
  have hys : ys.Perm ys' := (List.perm_ext_iff_of_nodup hn hn').mpr fun y => by
    rw [hm, hm']
    exact ⟨fun ⟨r, h, e⟩ => ⟨r, hp.mem_iff.mp h, e⟩, fun ⟨r, h, e⟩ => ⟨r, hp.mem_iff.mpr h, e⟩⟩
  have hf : (fun y => period ev dmag ref y (groupOf table' y)) = fun y => period ev dmag ref y (groupOf table y) := by
    funext y
    exact period_group_perm ((hp.symm.filter _).map _) ..
  rw [hf] at hps'
  unfold bMaxlikeTime at h ⊢
  obtain ⟨ps, h1, h2⟩ := Nrml.bind_ok h
  rw [hps] at h1
  obtain ⟨ps', h3, hpp⟩ := mapM_perm _ hys h1
  rw [hps', h3]
  have he : ps'.isEmpty = ps.isEmpty := by rw [Bool.eq_iff_iff, List.isEmpty_iff_length_eq_zero, List.isEmpty_iff_length_eq_zero, hpp.length_eq]
  simp only [bind_ok, he, weighted_perm hpp] at h2 ⊢
  exact h2

/-! ### The rows of Stepp's table `table121`, kept together by year -/

/-- The period of 2002 exists. -/
theorem period121b (ref : ℝ) : ∃ p, period cat121 1 ref 2002 [5] = .ok p := by
  obtain ⟨rows, hr, he⟩ := rows121b
  have hsel : periodEvents cat121 2002 5 = [((2004 : ℝ), (5.05 : ℝ)), (2003, 5.05), (2004, 6.05)] := by
    simp only [periodEvents, cat121, List.filter_cons, List.filter_nil]
    norm_num
  obtain ⟨b, s, hb, -⟩ := C58_b_value (h := [((5.5 : ℝ), 2), (6.5, 1), (7.5, 0)]) (dmag := 1) (mc := 5) one_pos
    ⟨(5.5, 2), by simp, by norm_num, by norm_num⟩
  obtain ⟨y1, hy1⟩ := npMax_exists (l := [(2004 : ℝ), 2003, 2004]) (by simp)
  obtain ⟨y0, hy0⟩ := npMin_exists (l := [(2004 : ℝ), 2003, 2004]) (by simp)
  have h5 : npMin [(5 : ℝ)] = .ok 5 := npMin_iff.mpr (by simp)
  unfold period
  simp only [h5, bind, Except.bind, hsel, List.map_cons, List.map_nil, hy0, hy1, hr, he, hb, pure, Except.pure]
  exact ⟨_, rfl⟩

/-- The rows of `table121`, those of 2001 together. -/
noncomputable def grouped121 : List (ℝ × ℝ) := [(2001, 4), (2001, 6), (2002, 5)]

theorem grouped121_grouped : Spec.Grouped grouped121 := by
  refine ⟨[(2001, [4, 6]), (2002, [5])], by simp, ?_, rfl⟩
  simp only [List.pairwise_cons, List.mem_singleton, forall_eq, List.not_mem_nil, false_implies, implies_true, List.Pairwise.nil, and_true]
  norm_num

theorem grouped121_perm : grouped121.Perm table121 := List.Perm.cons _ (List.Perm.swap ..)

theorem mle121_grouped : ∃ r, bMaxlikeTime cat121 grouped121 1 0 = .ok r ∧ r.b = Real.logb 10 (Real.exp 1) * (13 / 15) := by
  have hl : IsLeast {m | m ∈ [(4 : ℝ), 6]} 4 := by
    constructor
    · simp
    · simp [lowerBounds]; norm_num
  obtain ⟨p, hp⟩ := period121 hl 0
  obtain ⟨q, hq⟩ := period121b 0
  have hps : periods cat121 grouped121 1 0 0 = .ok [p, q] := by
    have := C59_periods (ev := cat121) (dmag := 1) (ref := 0) (blocks := [(2001, [4, 6]), (2002, [5])]) (by simp) (by
      simp only [List.pairwise_cons, List.mem_singleton, forall_eq, List.not_mem_nil, false_implies, implies_true, List.Pairwise.nil, and_true]
      norm_num)
    rw [show grouped121 = blockTable [(2001, [4, 6]), (2002, [5])] from rfl, this]
    simp only [List.mapM_cons, List.mapM_nil, hp, hq]
    rfl
  obtain ⟨hb, hn⟩ := b121a hl hp
  obtain ⟨hb', hn'⟩ := b121b hq
  unfold bMaxlikeTime
  rw [hps]
  refine ⟨_, rfl, ?_⟩
  rw [weighted_eq]
  simp only [List.map_cons, List.map_nil, List.sum_cons, List.sum_nil, hb, hn, hb', hn']
  push_cast
  ring

/-- The hypotheses of `C123_mle_partial` hold for two orders of `table121`. -/
example : grouped121.Perm [(2002, 5), (2001, 6), (2001, 4)] ∧ Spec.Grouped grouped121 ∧ Spec.Grouped [(2002, 5), (2001, 6), (2001, 4)] ∧
    ∃ r, bMaxlikeTime cat121 grouped121 1 0 = .ok r := by
  refine ⟨(List.reverse_perm _).symm, grouped121_grouped, ⟨[(2002, [5]), (2001, [6, 4])], by simp, ?_, rfl⟩, ?_⟩
  · simp only [List.pairwise_cons, List.mem_singleton, forall_eq, List.not_mem_nil, false_implies, implies_true, List.Pairwise.nil, and_true]
    norm_num
  · obtain ⟨r, hr, -⟩ := mle121_grouped
    exact ⟨r, hr⟩

/-- The result of the analysis does not depend on the order of the rows of the completeness table. -/
def Spec.RowOrder (algorithm : String) : Prop :=
  ∀ (ev table table' : List (ℝ × ℝ)) (dmag ref dt : ℝ) (fuel fuel' : ℕ) (r r' : GR ℝ), 0 < dmag → 0 < dt → table.Perm table' →
    recurrenceAnalysis ev table dmag algorithm ref dt fuel = .ok (some r) → recurrenceAnalysis ev table' dmag algorithm ref dt fuel' = .ok (some r') → r = r'

/-- **C123 is false for maximum likelihood**: with the rows of Stepp's table `table121` in the order of the magnitudes the year 2002 is not used; with the
rows of each year together it is. -/
theorem C123_mle_fails : ¬ Spec.RowOrder "MLE" := by
  intro H
  obtain ⟨r, hr, hb⟩ := mle121_grouped
  obtain ⟨r', hr', hb'⟩ := mle121
  have e := H cat121 grouped121 table121 1 0 1 0 0 r r' one_pos one_pos grouped121_perm
    (by rw [recurrenceAnalysis, if_neg (by decide), hr]; rfl) (by rw [recurrenceAnalysis, if_neg (by decide), hr']; rfl)
  have hpos : 0 < Real.logb 10 (Real.exp 1) := Real.logb_pos (by norm_num) (Real.one_lt_exp_iff.mpr one_pos)
  rw [e, hb'] at hb
  linarith

/-! ### Weichert -/

theorem nObs_perm {table table' : List (ℝ × ℝ)} (h : table.Perm table') (c : Cells ℝ) (i : ℕ) : c.nObs table i = c.nObs table' i := by
  simp only [Cells.nObs]
  congr 1
  refine List.map_congr_left fun a _ => ?_
  have : table.any (fun r => c.removed r a i) = table'.any (fun r => c.removed r a i) := by
    rw [Bool.eq_iff_iff, List.any_eq_true, List.any_eq_true]
    exact ⟨fun ⟨r, h1, h2⟩ => ⟨r, h.mem_iff.mp h1, h2⟩, fun ⟨r, h1, h2⟩ => ⟨r, h.mem_iff.mpr h1, h2⟩⟩
  rw [this]

/-- **C123, part that holds (Weichert)**: the result is the same if rows of the same year are exchanged, that is, if the column of years stays as it is.
Missing: exchanges of rows of different years, see `C123_weichert_fails`. -/
theorem C123_weichert_partial {blocks blocks' : List (ℝ × List ℝ)} (h : List.Forall₂ (fun b b' => b.1 = b'.1 ∧ b.2.Perm b'.2) blocks blocks')
    (ev : List (ℝ × ℝ)) (dmag ref dt : ℝ) (fuel : ℕ) :
    recurrenceAnalysis ev (blocks.flatMap fun b => b.2.map fun m => (b.1, m)) dmag "Weichert" ref dt fuel =
      recurrenceAnalysis ev (blocks'.flatMap fun b => b.2.map fun m => (b.1, m)) dmag "Weichert" ref dt fuel := by
  have hperm : (blocks.flatMap fun b => b.2.map fun m => (b.1, m)).Perm (blocks'.flatMap fun b => b.2.map fun m => (b.1, m)) := by
    induction h with
    | nil => exact .refl _
    | cons hb _ ih =>
      simp only [List.flatMap_cons, hb.1]
      exact (hb.2.map _).append ih
  have hfil : ∀ p : ℝ → Bool, ((blocks.flatMap fun b => b.2.map fun m => (b.1, m)).filter fun r => p r.2).map Prod.fst =
      ((blocks'.flatMap fun b => b.2.map fun m => (b.1, m)).filter fun r => p r.2).map Prod.fst := by
    intro p
    have one : ∀ (y : ℝ) (g g' : List ℝ), g.Perm g' →
        ((g.map fun m => (y, m)).filter fun r => p r.2).map Prod.fst = ((g'.map fun m => (y, m)).filter fun r => p r.2).map Prod.fst := by
      intro y g g' hg
      have hr : ∀ g : List ℝ, ((g.map fun m => (y, m)).filter fun r => p r.2).map Prod.fst = List.replicate (g.filter p).length y := by
        intro g
        rw [List.filter_map, List.map_map]
        exact List.map_const' ..
      rw [hr, hr, (hg.filter p).length_eq]
    clear hperm
    induction h with
    | nil => rfl
    | cons hb _ ih =>
      simp only [List.flatMap_cons, List.filter_append, List.map_append, ih, hb.1]
      rw [one _ _ _ hb.2]
  generalize (blocks.flatMap fun b => b.2.map fun m => (b.1, m)) = table at *
  generalize (blocks'.flatMap fun b => b.2.map fun m => (b.1, m)) = table' at *
  have hper : ∀ (c : Cells ℝ) i, c.tPer table i = c.tPer table' i := by
    intro c i
    have h1 := congrArg List.getLast? (hfil fun m => decide (m - c.magInt i < 1e-3))
    have h2 := congrArg List.getLast? (hfil fun _ => true)
    simp only [List.getLast?_map, List.filter_true] at h1 h2
    have h3 : (((table.filter fun r => decide (r.2 - c.magInt i < 1e-3)).getLast?).or table.getLast?).map Prod.fst =
        (((table'.filter fun r => decide (r.2 - c.magInt i < 1e-3)).getLast?).or table'.getLast?).map Prod.fst := by
      rw [Option.map_or, Option.map_or, h1, h2]
    simp only [Cells.tPer]
    generalize ((table.filter fun r => decide (r.2 - c.magInt i < 1e-3)).getLast?).or table.getLast? = x at h3
    generalize ((table'.filter fun r => decide (r.2 - c.magInt i < 1e-3)).getLast?).or table'.getLast? = y at h3
    cases x <;> cases y <;> simp at h3 ⊢
    exact h3
  have : weichertPrep ev table dmag dt = weichertPrep ev table' dmag dt := by
    simp only [weichertPrep, nObs_perm hperm, hper]
  simp only [recurrenceAnalysis, if_true, this]

/-- A table in which the two rows of 1990 can be exchanged, and a run of Weichert. -/
example : List.Forall₂ (fun b b' : ℝ × List ℝ => b.1 = b'.1 ∧ b.2.Perm b'.2) [(1990, [4, 4.5]), (1950, [5])] [(1990, [4.5, 4]), (1950, [5])] ∧
    ∃ fuel r, recurrenceAnalysis ev63b ([((1950 : ℝ), [(4.0 : ℝ)])].flatMap fun b => b.2.map fun m => (b.1, m)) 0.1 "Weichert" 4 1 fuel = .ok (some r) := by
  refine ⟨.cons ⟨rfl, List.Perm.swap ..⟩ (.cons ⟨rfl, .refl _⟩ .nil), ?_⟩
  obtain ⟨w, fuel, r, hw, hr⟩ := returns63b
  refine ⟨fuel, r, ?_⟩
  rw [show ([((1950 : ℝ), [(4.0 : ℝ)])].flatMap fun b => b.2.map fun m => (b.1, m)) = table63b from rfl]
  simp only [recurrenceAnalysis, if_true, hw, bind_ok, hr]

/-- A bin with a period `c` times as long. -/
def longer (c : ℝ) (x : WBin ℝ) : WBin ℝ := { x with t := c * x.t }

theorem moment_longer (c : ℝ) (w : List (WBin ℝ)) (j : ℕ) (β : ℝ) : moment (w.map (longer c)) j β = c * moment w j β := by
  simp only [moment, List.map_map, ← sum_map_mul]
  congr 1
  refine List.map_congr_left fun x _ => ?_
  simp only [Function.comp, longer]
  ring

theorem newton_longer {c : ℝ} (hc : c ≠ 0) (w : List (WBin ℝ)) (β : ℝ) : newton (w.map (longer c)) β = newton w β := by
  have h1 : total (w.map (longer c)) = total w := by simp only [total, List.map_map]; rfl
  have h2 : magSum (w.map (longer c)) = magSum w := by simp only [magSum, List.map_map]; rfl
  simp only [newton, dldb_real, d2ldb2_real, moment_longer, h1, h2, mul_div_mul_left _ _ hc]

theorem wResult_longer {c : ℝ} (hc : c ≠ 0) (w : List (WBin ℝ)) (m0 dM mrate β : ℝ) :
    c * (wResult (w.map (longer c)) m0 dM mrate β).a = (wResult w m0 dM mrate β).a := by
  have e1 : (wSums (w.map (longer c)) β).nkount = (wSums w β).nkount := by simp only [wSums, List.map_map]; rfl
  have e2 : (wSums (w.map (longer c)) β).sumexp = (wSums w β).sumexp := by simp only [wSums, List.map_map]; rfl
  have e3 : (wSums (w.map (longer c)) β).sumtex = c * (wSums w β).sumtex := by
    simp only [wSums, npSum_real, List.map_map, ← sum_map_mul]
    congr 1
    refine List.map_congr_left fun x _ => ?_
    simp only [Function.comp, longer]
    ring
  simp only [wResult, newton_longer hc, e1, e2, e3]
  split_ifs
  · rw [div_mul_eq_div_div_swap, mul_comm c, mul_assoc, div_mul_cancel₀ _ hc]
  · rw [div_mul_eq_div_div_swap]
    field_simp

/-- With all periods multiplied by `c` the iteration takes the same steps and the rate is divided by `c`. -/
theorem weichertLoop_longer {c : ℝ} (hc : c ≠ 0) (w : List (WBin ℝ)) (m0 dM mrate itstab : ℝ) (fuel : ℕ) (β : ℝ) {r : GR ℝ}
    (hr : weichertLoop w m0 dM mrate itstab fuel β = some r) :
    ∃ r', weichertLoop (w.map (longer c)) m0 dM mrate itstab fuel β = some r' ∧ c * r'.a = r.a := by
  induction fuel generalizing β with
  | zero => cases hr
  | succ fuel ih =>
    simp only [weichertLoop, newton_longer hc] at hr ⊢
    split_ifs at hr ⊢
    · cases hr
      exact ⟨_, rfl, wResult_longer hc w m0 dM mrate β⟩
    · exact ih _ hr

/-- The bins of `ev63b` for a table with rows below its magnitudes: the last row gives the period of all of them. -/
theorem prep123 {table : List (ℝ × ℝ)} {y m : ℝ} (hlow : ∀ r ∈ table, r.2 < 4) (hlast : table.getLast? = some (y, m)) {w : List (WBin ℝ)}
    (h : weichertPrep ev63b table 0.1 1 = .ok w) : w = [⟨2001 - y, 4.05, 2⟩, ⟨2001 - y, 4.15, 1⟩] := by
  classical
  obtain ⟨y0, y1, m0, hy0, hy1, hm0, hlen, ⟨m1, hm1, hlm⟩, hidx, hw⟩ := weichertPrep_spec (by simp [ev63b]) (by norm_num) one_pos h
  have ma : Spec.mag1 (4.0 : ℝ) = 4.0 := mag1_of_int 40 (by norm_num)
  have mb : Spec.mag1 (4.1 : ℝ) = 4.1 := mag1_of_int 41 (by norm_num)
  obtain rfl : y0 = 1950 := hy0.unique ⟨⟨(1950, 4.1), by simp [ev63b], rfl⟩, by rintro y ⟨e, he, rfl⟩; simp [ev63b] at he; rcases he with rfl | rfl | rfl <;> norm_num⟩
  obtain rfl : y1 = 2000 := hy1.unique ⟨⟨(2000, 4.0), by simp [ev63b], rfl⟩, by rintro y ⟨e, he, rfl⟩; simp [ev63b] at he; rcases he with rfl | rfl | rfl <;> norm_num⟩
  obtain rfl : m0 = 4.0 := hm0.unique ⟨⟨(2000, 4.0), by simp [ev63b], ma⟩, by rintro y ⟨e, he, rfl⟩; simp only [ev63b, List.mem_cons, List.not_mem_nil, or_false] at he; rcases he with rfl | rfl | rfl <;> simp only [ma, mb] <;> norm_num⟩
  obtain rfl : m1 = 4.1 := hm1.unique ⟨⟨(1950, 4.1), by simp [ev63b], mb⟩, by rintro y ⟨e, he, rfl⟩; simp only [ev63b, List.mem_cons, List.not_mem_nil, or_false] at he; rcases he with rfl | rfl | rfl <;> simp only [ma, mb] <;> norm_num⟩
  have l2 : 2 ≤ w.length := (hlm 2).mpr (by norm_num)
  have l3 : ¬ 3 ≤ w.length := by rw [hlm 3]; norm_num
  have hl : w.length = 2 := by omega
  have i0 : cellIdx 4.0 0.1 4.0 = 0 := by simp [cellIdx]
  have i1 : cellIdx 4.0 0.1 4.1 = 1 := by rw [cellIdx, show ((4.1 : ℝ) - 4.0) / 0.1 = ((1 : ℕ) : ℝ) by norm_num, Nat.floor_natCast]
  have hk : ∀ e, Kept table 1950 1 4.0 0.1 e := by
    rintro e r hr ⟨-, h2⟩
    have c1 : (4.0 : ℝ) ≤ cellStart 4.0 0.1 (Spec.mag1 e.2) := by
      simp only [cellStart]
      have : (0 : ℝ) ≤ (cellIdx 4.0 0.1 (Spec.mag1 e.2) : ℝ) := Nat.cast_nonneg _
      nlinarith
    have := hlow r hr
    norm_num at c1
    linarith
  have hall : ∀ i : ℕ, ((table.filter fun r => decide (r.2 - ((4.0 : ℝ) + (i : ℝ) * 0.1) < 1e-3)).getLast?).or table.getLast? = some (y, m) := by
    intro i
    rw [List.filter_eq_self.mpr]
    · rw [hlast]; rfl
    · intro r hr
      have := hlow r hr
      have : (0 : ℝ) ≤ i := Nat.cast_nonneg _
      rw [decide_eq_true_eq]
      norm_num
      linarith
  match w, hl, hw with
  | [a, b], _, hw =>
    obtain ⟨am, ⟨ra, -, hra, at'⟩, an⟩ := hw 0 (by simp)
    obtain ⟨bm, ⟨rb, -, hrb, bt⟩, bn⟩ := hw 1 (by simp)
    rw [hall, Option.some.injEq] at hra hrb
    subst hra hrb
    simp only [List.getElem_cons_zero, List.getElem_cons_succ] at am at' an bm bt bn
    have hna : a.n = 2 := by
      rw [an]
      simp only [ev63b, List.countP_cons, List.countP_nil, ma, mb, i0, i1, decide_eq_true (hk _)]
      simp
    have hnb : b.n = 1 := by
      rw [bn]
      simp only [ev63b, List.countP_cons, List.countP_nil, ma, mb, i0, i1, decide_eq_true (hk _)]
      simp
    obtain ⟨t, m, n⟩ := a
    obtain ⟨t', m', n'⟩ := b
    simp only at am at' hna bm bt hnb
    subst am at' hna bm bt hnb
    norm_num
    ring

/-- **C123 is false for Weichert**: of the two rows below all the magnitudes of the catalogue `ev63b` the last one gives the period; with the rows
(1950, 3.0) and (1975, 3.5) it is 26 years, in the other order 51, and the rate changes in this proportion. -/
theorem C123_weichert_fails : ¬ Spec.RowOrder "Weichert" := by
  intro H
  obtain ⟨w, fuel, r, hw, hr⟩ := returns63b
  obtain rfl := prep63b hw
  have low : ∀ r ∈ [((1950 : ℝ), (3.0 : ℝ)), (1975, 3.5)], r.2 < 4 := by
    intro r hr; simp only [List.mem_cons, List.not_mem_nil, or_false] at hr; rcases hr with rfl | rfl <;> norm_num
  have low' : ∀ r ∈ [((1975 : ℝ), (3.5 : ℝ)), (1950, 3.0)], r.2 < 4 := by
    intro r hr; simp only [List.mem_cons, List.not_mem_nil, or_false] at hr; rcases hr with rfl | rfl <;> norm_num
  obtain ⟨w, hp⟩ := weichertPrep_succeeds (ev := ev63b) (table := [((1950 : ℝ), (3.0 : ℝ)), (1975, 3.5)]) (dm := 0.1) (dt := 1) (by simp [ev63b]) (by simp) (by norm_num) one_pos
  obtain ⟨w', hp'⟩ := weichertPrep_succeeds (ev := ev63b) (table := [((1975 : ℝ), (3.5 : ℝ)), (1950, 3.0)]) (dm := 0.1) (dt := 1) (by simp [ev63b]) (by simp) (by norm_num) one_pos
  obtain rfl := prep123 low rfl hp
  obtain rfl := prep123 low' rfl hp'
  have hr' : weichertLoop [⟨51, 4.05, 2⟩, ⟨51, 4.15, 1⟩] 4.05 (4.15 - 4.05) 4 1e-5 fuel 1.5 = some r := Except.ok.inj hr
  obtain ⟨r1, h1, e1⟩ := weichertLoop_longer (c := 26 / 51) (by norm_num) _ _ _ _ _ _ _ hr'
  have m1 : ([⟨51, 4.05, 2⟩, ⟨51, 4.15, 1⟩] : List (WBin ℝ)).map (longer (26 / 51)) = [⟨2001 - 1975, 4.05, 2⟩, ⟨2001 - 1975, 4.15, 1⟩] := by
    simp only [List.map_cons, List.map_nil, longer]
    norm_num
  have m2 : ([⟨51, 4.05, 2⟩, ⟨51, 4.15, 1⟩] : List (WBin ℝ)) = [⟨2001 - 1950, 4.05, 2⟩, ⟨2001 - 1950, 4.15, 1⟩] := by norm_num
  rw [m1] at h1
  rw [m2] at hr'
  have a1 : recurrenceAnalysis ev63b [(1950, 3.0), (1975, 3.5)] 0.1 "Weichert" 4 1 fuel = .ok (some r1) := by
    simp only [recurrenceAnalysis, if_true, hp, bind_ok, weichert, h1]
  have a2 : recurrenceAnalysis ev63b [(1975, 3.5), (1950, 3.0)] 0.1 "Weichert" 4 1 fuel = .ok (some r) := by
    simp only [recurrenceAnalysis, if_true, hp', bind_ok, weichert, hr']
  obtain rfl := H ev63b _ _ 0.1 4 1 fuel fuel r1 r (by norm_num) one_pos (List.Perm.swap ..) a1 a2
  obtain ⟨k, -, -, -, hk⟩ := weichertLoop_some hr'
  generalize (newton [⟨2001 - 1950, 4.05, 2⟩, ⟨2001 - 1950, 4.15, 1⟩])^[k] 1.5 = β at hk
  have : 0 < r1.a := by
    rw [hk]
    simp only [wResult, wSums, npSum_real, exp_real, decEq_real, List.map_cons, List.map_nil, List.sum_cons, List.sum_nil]
    norm_num
    positivity
  linarith

end Verif.Recurrence
