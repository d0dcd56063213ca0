import Verif.Props.Sensitivity
import Verif.Props.ReferenceMagnitude

/-!
# Property C121: every completeness year enters the maximum likelihood average once
-/

namespace Verif.Recurrence

open Verif Verif.Np

/-- The rows of a completeness table with the year `y`. -/
noncomputable def Spec.rowsOf (table : List (ℝ × ℝ)) (y : ℝ) : List (ℝ × ℝ) := table.filter fun c => decide (c.1 = y)

/-- `r` is the average of the results for the rows of each completeness year alone, weighted with the numbers of complete events of the years. -/
def Spec.AverageOfYears (ev table : List (ℝ × ℝ)) (dmag ref : ℝ) (r : GR ℝ) : Prop :=
  ∃ (years : List ℝ) (parts : List (ℕ × GR ℝ)), years.Nodup ∧ (∀ y, y ∈ years ↔ ∃ c ∈ table, c.1 = y) ∧
    List.Forall₂ (fun y q => bMaxlikeTime ev (Spec.rowsOf table y) dmag ref = .ok q.2 ∧
      ∃ mc, IsLeast {m | (y, m) ∈ table} mc ∧ q.1 = (Spec.completeEvents ev y mc).length) years parts ∧
    ∀ f ∈ [GR.b, GR.sigb, GR.a, GR.siga], f r = (parts.map fun q => f q.2 * (q.1 : ℝ)).sum / (parts.map fun q => (q.1 : ℝ)).sum

theorem mapM_forall₂ {α β : Type} {f : α → Except PyErr β} {l : List α} {w : List β} (h : l.mapM f = .ok w) :
    List.Forall₂ (fun a b => f a = .ok b) l w := by
  induction l generalizing w with
  | nil => simp only [List.mapM_nil, pure, Except.pure, Except.ok.injEq] at h; subst h; exact .nil
  | cons a l ih =>
    simp only [List.mapM_cons] at h
    cases ha : f a with
    | error e => rw [ha] at h; cases h
    | ok b =>
    cases hl : l.mapM f with
    | error e => rw [ha, hl] at h; cases h
    | ok bs =>
    rw [ha, hl] at h
    cases h
    exact .cons ha (ih hl)

/-- A table whose years go down by at least 1e-5, if they change, is made of blocks. -/
theorem exists_blocks (table : List (ℝ × ℝ)) (h : table.Pairwise fun c d => d.1 = c.1 ∨ d.1 + 1e-5 ≤ c.1) :
    ∃ blocks : List (ℝ × List ℝ), blockTable blocks = table ∧ (∀ b ∈ blocks, b.2 ≠ []) ∧
      blocks.Pairwise fun b b' => b'.1 + 1e-5 ≤ b.1 := by
  induction table with
  | nil => exact ⟨[], rfl, by simp, .nil⟩
  | cons c t ih =>
    obtain ⟨h1, h2⟩ := List.pairwise_cons.mp h
    obtain ⟨blocks, rfl, hne, hsep⟩ := ih h2
    have hmem : ∀ b ∈ blocks, ∀ m ∈ b.2, (b.1, m) ∈ blockTable blocks := by
      intro b hb m hm
      exact List.mem_flatMap.mpr ⟨b, hb, List.mem_map.mpr ⟨m, hm, rfl⟩⟩
    have hle : ∀ b ∈ blocks, b.1 = c.1 ∨ b.1 + 1e-5 ≤ c.1 := by
      intro b hb
      obtain ⟨m, hm⟩ := List.exists_mem_of_ne_nil _ (hne b hb)
      exact h1 _ (hmem b hb m hm)
    match blocks, hne, hsep, hle with
    | [], _, _, _ => exact ⟨[(c.1, [c.2])], rfl, by simp, List.pairwise_singleton _ _⟩
    | (y, ms) :: bs, hne, hsep, hle =>
      rcases hle (y, ms) (List.mem_cons_self ..) with rfl | hlt
      · refine ⟨(c.1, c.2 :: ms) :: bs, rfl, ?_, ?_⟩
        · intro b hb
          rcases List.mem_cons.mp hb with rfl | hb
          · simp
          · exact hne b (List.mem_cons_of_mem _ hb)
        · rw [List.pairwise_cons] at hsep ⊢
          exact ⟨hsep.1, hsep.2⟩
      · refine ⟨(c.1, [c.2]) :: (y, ms) :: bs, rfl, ?_, ?_⟩
        · intro b hb
          rcases List.mem_cons.mp hb with rfl | hb
          · simp
          · exact hne b hb
        · rw [List.pairwise_cons]
          refine ⟨fun b hb => ?_, hsep⟩
          rcases List.mem_cons.mp hb with rfl | hb
          · exact hlt
          · have := (List.pairwise_cons.mp hsep).1 b hb
            simp only at this hlt ⊢
            norm_num at this hlt ⊢
            linarith

theorem rowsOf_block {blocks : List (ℝ × List ℝ)} (hsep : blocks.Pairwise fun b b' => b'.1 + 1e-5 ≤ b.1) {b : ℝ × List ℝ} (hb : b ∈ blocks) :
    Spec.rowsOf (blockTable blocks) b.1 = blockTable [b] := by
  unfold Spec.rowsOf
  induction blocks with
  | nil => simp at hb
  | cons a bs ih =>
    obtain ⟨h1, h2⟩ := List.pairwise_cons.mp hsep
    have hsplit : blockTable (a :: bs) = blockTable [a] ++ blockTable bs := by simp [blockTable]
    rw [hsplit, List.filter_append]
    have hall : (blockTable [a]).filter (fun c => decide (c.1 = a.1)) = blockTable [a] := by
      rw [List.filter_eq_self]
      intro c hc
      simp only [blockTable, List.flatMap_cons, List.flatMap_nil, List.append_nil, List.mem_map] at hc
      obtain ⟨m, _, rfl⟩ := hc
      simp
    rcases List.mem_cons.mp hb with rfl | hb
    · have : (blockTable bs).filter (fun c => decide (c.1 = b.1)) = [] := by
        rw [List.filter_eq_nil_iff]
        intro c hc
        obtain ⟨b', hb', hc⟩ := List.mem_flatMap.mp hc
        obtain ⟨m, _, rfl⟩ := List.mem_map.mp hc
        have := h1 b' hb'
        simp only [decide_eq_true_eq]
        intro he
        rw [he] at this
        norm_num at this
      rw [hall, this, List.append_nil]
    · have : (blockTable [a]).filter (fun c => decide (c.1 = b.1)) = [] := by
        rw [List.filter_eq_nil_iff]
        intro c hc
        simp only [blockTable, List.flatMap_cons, List.flatMap_nil, List.append_nil, List.mem_map] at hc
        obtain ⟨m, _, rfl⟩ := hc
        have := h1 b hb
        simp only [decide_eq_true_eq]
        intro he
        rw [he] at this
        norm_num at this
      rw [this, List.nil_append]
      exact ih h2 hb

/-- The result for one completeness year. -/
theorem one_year {ev : List (ℝ × ℝ)} {dmag ref : ℝ} {b : ℝ × List ℝ} (hb : b.2 ≠ []) {p : Period ℝ} (hp : period ev dmag ref b.1 b.2 = .ok p) :
    bMaxlikeTime ev (blockTable [b]) dmag ref = .ok ⟨p.b, p.sigb, p.rate, p.sigrate⟩ := by
  have hn : p.n ≠ 0 := by
    obtain ⟨_, _, _, _, _, h, _⟩ := period_ok hp
    omega
  have hper := C59_periods (ev := ev) (dmag := dmag) (ref := ref) (blocks := [b]) (by simpa using hb) (List.pairwise_singleton _ _)
  simp only [List.mapM_cons, List.mapM_nil, hp] at hper
  unfold bMaxlikeTime
  rw [hper]
  simp only [bind, Except.bind, pure, Except.pure, List.isEmpty_cons, Bool.false_eq_true, if_false, weighted_one p _ hn]

/-- **C121, part that holds (tables)**: for tables whose years never go up, and go down by at least 1e-5 if they change, the result is the average
over the completeness years.  Missing: other tables, see `C121_fails`. -/
theorem C121_down_partial {ev table : List (ℝ × ℝ)} {dmag ref : ℝ} {r : GR ℝ} (ht : table.Pairwise fun c d => d.1 = c.1 ∨ d.1 + 1e-5 ≤ c.1)
    (h : bMaxlikeTime ev table dmag ref = .ok r) : Spec.AverageOfYears ev table dmag ref r := by
  obtain ⟨blocks, rfl, hne, hsep⟩ := exists_blocks table ht
  have hsep' : blocks.Pairwise fun b b' => 1e-5 ≤ |b.1 - b'.1| := by
    refine hsep.imp fun {b b'} h => ?_
    rw [abs_of_nonneg] <;> norm_num at h ⊢ <;> linarith
  have hper := C59_periods (ev := ev) (dmag := dmag) (ref := ref) hne hsep'
  unfold bMaxlikeTime at h
  simp only [bind, Except.bind] at h
  rcases hp : periods ev (blockTable blocks) dmag ref 0 with e | ps
  · simp [hp] at h
  simp only [hp] at h
  split_ifs at h with he
  simp only [pure, Except.pure, Except.ok.injEq] at h
  subst h
  rw [hp] at hper
  have hf := mapM_forall₂ hper.symm
  refine ⟨blocks.map Prod.fst, ps.map fun p => (p.n, ⟨p.b, p.sigb, p.rate, p.sigrate⟩), ?_, ?_, ?_, ?_⟩
  · rw [List.Nodup, List.pairwise_map]
    refine hsep.imp fun {b b'} h hc => ?_
    rw [hc] at h
    norm_num at h
  · intro y
    simp only [List.mem_map, blockTable, List.mem_flatMap]
    constructor
    · rintro ⟨b, hb, rfl⟩
      obtain ⟨m, hm⟩ := List.exists_mem_of_ne_nil _ (hne b hb)
      exact ⟨(b.1, m), ⟨b, hb, m, hm, rfl⟩, rfl⟩
    · rintro ⟨c, ⟨b, hb, m, hm, rfl⟩, rfl⟩
      exact ⟨b, hb, rfl⟩
  · rw [List.forall₂_map_left_iff, List.forall₂_map_right_iff]
    have hall : ∀ b ∈ blocks, ∀ p, period ev dmag ref b.1 b.2 = .ok p →
        bMaxlikeTime ev (Spec.rowsOf (blockTable blocks) b.1) dmag ref = .ok ⟨p.b, p.sigb, p.rate, p.sigrate⟩ ∧
        ∃ mc, IsLeast {m | (b.1, m) ∈ blockTable blocks} mc ∧ p.n = (Spec.completeEvents ev b.1 mc).length := by
      intro b hb p hp
      rw [rowsOf_block hsep hb]
      refine ⟨one_year (hne b hb) hp, ?_⟩
      obtain ⟨mc, ny, hmc, -, hn, -⟩ := period_ok hp
      refine ⟨mc, ?_, hn⟩
      have : {m | (b.1, m) ∈ blockTable blocks} = {m | m ∈ b.2} := by
        ext m
        simp only [Set.mem_ofPred_eq]
        have hr : (b.1, m) ∈ Spec.rowsOf (blockTable blocks) b.1 ↔ (b.1, m) ∈ blockTable blocks := by
          simp [Spec.rowsOf]
        rw [← hr, rowsOf_block hsep hb]
        simp [blockTable]
      rw [this]; exact hmc
    clear hper hp he
    have : ∀ bs : List (ℝ × List ℝ), (∀ b ∈ bs, b ∈ blocks) → ∀ ps, List.Forall₂ (fun b p => period ev dmag ref b.1 b.2 = .ok p) bs ps →
        List.Forall₂ (fun (b : ℝ × List ℝ) (p : Period ℝ) =>
          bMaxlikeTime ev (Spec.rowsOf (blockTable blocks) b.1) dmag ref = .ok ⟨p.b, p.sigb, p.rate, p.sigrate⟩ ∧
          ∃ mc, IsLeast {m | (b.1, m) ∈ blockTable blocks} mc ∧ p.n = (Spec.completeEvents ev b.1 mc).length) bs ps := by
      intro bs hbs ps hf
      induction hf with
      | nil => exact .nil
      | @cons b p _ _ h1 _ ih => exact .cons (hall b (hbs b (List.mem_cons_self ..)) p h1) (ih fun b hb => hbs b (List.mem_cons_of_mem _ hb))
    exact this blocks (fun _ h => h) ps hf
  · intro f hf'
    simp only [List.map_map, Function.comp_def]
    simp only [List.mem_cons, List.not_mem_nil, or_false] at hf'
    rcases hf' with rfl | rfl | rfl | rfl <;> exact weighted_eq ps _

/-- **C121, part that holds (Stepp's table)**: with a table of Stepp's test with the increment lock and a time step of at least 1e-5 years the
maximum likelihood result is the average over the completeness years.  Missing: tables made without the lock, see `C121_fails`. -/
theorem C121_locked_partial {ev ev' table : List (ℝ × ℝ)} {dm dt ttol dmag ref : ℝ} {r : GR ℝ} (hev : ev ≠ []) (hdm : 0 < dm) (hdt : 1e-5 ≤ dt)
    (ht : Completeness.stepp ev dm dt ttol true = .ok table) (h : bMaxlikeTime ev' table dmag ref = .ok r) :
    Spec.AverageOfYears ev' table dmag ref r := by
  have hdt0 : 0 < dt := lt_of_lt_of_le (by norm_num) hdt
  refine C121_down_partial ?_ h
  have hm := (Completeness.C53_lock_monotone hev hdm hdt0 ht).1
  obtain ⟨low, high, y0, y1, -, hy⟩ := Completeness.C52_years hev hdm hdt0 ht
  refine List.Pairwise.imp_of_mem ?_ hm
  rintro c d hc hd ⟨h1, -⟩
  obtain ⟨k, hk, -⟩ := hy c hc
  obtain ⟨l, hl, -⟩ := hy d hd
  rcases eq_or_lt_of_le h1 with h | h
  · exact Or.inl h
  · right
    rw [hk, hl] at h ⊢
    have : (k : ℝ) < l := by nlinarith
    have : (k : ℝ) + 1 ≤ l := by exact_mod_cast this
    nlinarith


end Verif.Recurrence

namespace Verif.Completeness

open Verif Verif.Np

/-! ### Without the lock a year of the table can come back, and another one is lost -/

/-- `cat118` and two events of magnitude 6.05; three bins of width 1 from 4.0. -/
noncomputable def cat121 : List (ℝ × ℝ) := [(2004, 4.05), (2000, 4.05), (2004, 5.05), (2003, 5.05), (2001, 5.05), (2004, 6.05), (2000, 6.05)]

theorem mag2_605 : Spec.mag2 6.05 = 6.05 := by
  have : (100 : ℝ) * 6.05 = ((605 : ℤ) : ℝ) := by norm_num
  simp only [Spec.mag2, rintK, this, Int.floor_intCast, sub_self]
  norm_num

theorem binning121 : Spec.Binning cat121 4 6.1 2000 2004 := by
  refine ⟨⟨4.05, ⟨⟨(2004, 4.05), by simp [cat121], mag2_405⟩, ?_⟩, ?_⟩, ⟨6.05, ⟨⟨(2004, 6.05), by simp [cat121], mag2_605⟩, ?_⟩, ?_⟩,
    ⟨⟨(2000, 4.05), by simp [cat121], rfl⟩, ?_⟩, ⟨⟨(2004, 4.05), by simp [cat121], rfl⟩, ?_⟩⟩
  · rintro x ⟨e, he, rfl⟩
    simp only [cat121, List.mem_cons, List.not_mem_nil, or_false] at he
    rcases he with rfl | rfl | rfl | rfl | rfl | rfl | rfl <;> simp only [mag2_405, mag2_505, mag2_605] <;> norm_num
  · have : ⌊(10 : ℝ) * 4.05⌋ = 40 := by rw [Int.floor_eq_iff]; norm_num
    rw [this]; norm_num
  · rintro x ⟨e, he, rfl⟩
    simp only [cat121, List.mem_cons, List.not_mem_nil, or_false] at he
    rcases he with rfl | rfl | rfl | rfl | rfl | rfl | rfl <;> simp only [mag2_405, mag2_505, mag2_605] <;> norm_num
  · have : ⌈(10 : ℝ) * 6.05⌉ = 61 := by rw [Int.ceil_eq_iff]; norm_num
    rw [this]; norm_num
  · rintro x ⟨e, he, rfl⟩
    simp only [cat121, List.mem_cons, List.not_mem_nil, or_false] at he
    rcases he with rfl | rfl | rfl | rfl | rfl | rfl | rfl <;> norm_num
  · rintro x ⟨e, he, rfl⟩
    simp only [cat121, List.mem_cons, List.not_mem_nil, or_false] at he
    rcases he with rfl | rfl | rfl | rfl | rfl | rfl | rfl <;> norm_num

/-- The lowest and the highest bin have the counts of the lower bin of `cat118`. -/
theorem counts121_outer : binCounts cat121 4 1 1 2004 3 0 = binCounts cat118 4 1 1 2004 2 0 ∧
    binCounts cat121 4 1 1 2004 3 2 = binCounts cat118 4 1 1 2004 2 0 := by
  constructor <;> funext k <;> rw [counts118_low] <;>
    simp only [binCounts, Spec.eventsIn, Spec.eventsAbove, cat121, List.countP_cons, List.countP_nil, mag2_405, mag2_505, mag2_605] <;>
    rcases k with _ | _ | _ | k
  all_goals first
    | norm_num; done
    | have : (0 : ℝ) ≤ k := Nat.cast_nonneg k
      have h1 : (2004 : ℝ) - ((k : ℝ) + 1 + 1 + 1 + 1) * 1 ≤ 2004 := by linarith
      have h2 : (2004 : ℝ) - ((k : ℝ) + 1 + 1 + 1 + 1) * 1 ≤ 2000 := by linarith
      have h3 : ¬ (k + 1 + 1 + 1 < 3) := by omega
      push_cast
      simp only [h1, h2, h3, decide_eq_true_eq, true_and]
      norm_num

/-- The middle bin has those of the upper bin of `cat118`. -/
theorem counts121_middle : binCounts cat121 4 1 1 2004 3 1 = binCounts cat118 4 1 1 2004 2 1 := by
  funext k
  rw [counts118_high]
  simp only [binCounts, Spec.eventsIn, cat121, List.countP_cons, List.countP_nil, mag2_405, mag2_505, mag2_605]
  rcases k with _ | _ | k
  · norm_num
  · norm_num
  · have : (0 : ℝ) ≤ k := Nat.cast_nonneg k
    have h1 : (2004 : ℝ) - ((k : ℝ) + 1 + 1 + 1) * 1 ≤ 2004 := by linarith
    have h2 : (2004 : ℝ) - ((k : ℝ) + 1 + 1 + 1) * 1 ≤ 2003 := by linarith
    have h4 : (2004 : ℝ) - ((k : ℝ) + 1 + 1 + 1) * 1 ≤ 2001 := by linarith
    have h3 : ¬ (k + 1 + 1 < 2) := by omega
    push_cast
    simp only [h1, h2, h3, h4, decide_eq_true_eq, true_and]
    norm_num

/-- The table of Stepp's test for `cat121`. -/
theorem run121 (iloc : Bool) : stepp cat121 1 1 0.2 iloc = .ok [(2001, 4), (if iloc then 2001 else 2002, 5), (2001, 6)] := by
  obtain ⟨b, low, high, y0, y1, hb, hbin, hmb, htr, hend, hnb, hnt, hobs⟩ :=
    steppBins_spec (ev := cat121) (dm := 1) (dt := 1) (by simp [cat121]) (by norm_num) (by norm_num)
  obtain ⟨rfl, rfl, rfl, rfl⟩ := binning_unique binning121 hbin
  have h3 : b.nb = 3 := by
    have a := hnb 2
    have c := hnb 3
    norm_num at a c
    omega
  have h5 : b.nt = 5 := by
    have a := hnt 4
    have c := hnt 5
    norm_num at a c
    omega
  have hc : ∀ j, (fun ii => b.obs ii j) = binCounts cat121 4 1 1 2004 3 j := by
    intro j; funext ii; rw [hobs, h3, binCounts]
  obtain ⟨c0, c1, c2⟩ := change118_high
  have low : ∀ j, binCounts cat121 4 1 1 2004 3 j = binCounts cat118 4 1 1 2004 2 0 →
      steppLoc (exceeding (fun ii => b.obs ii j) b.timeRange 5 0.2) = some 2 := by
    intro j hj
    have hl : (exceeding (fun ii => b.obs ii j) b.timeRange 5 0.2).getLast? = some 2 := by
      rw [exceeding_real (by norm_num) htr, hc, hj, getLast?_filter_range]
      refine ⟨by norm_num, ?_, fun k' h1 h2 => by omega⟩
      rw [decide_eq_true_eq]
      exact lt_trans (by norm_num) change118_low2
    rw [steppLoc, if_pos, hl]
    rw [List.any_eq_true]
    exact ⟨2, List.mem_of_getLast? hl, by decide⟩
  have l1 : steppLoc (exceeding (fun ii => b.obs ii 1) b.timeRange 5 0.2) = some 1 := by
    rw [exceeding_real (by norm_num) htr, hc, counts121_middle]
    have : (List.range (5 - 2)).filter (fun k => decide ((0.2 : ℝ) < Spec.slopeChange (binCounts cat118 4 1 1 2004 2 1) 1 k)) = [0, 1] := by
      simp only [show List.range (5 - 2) = [0, 1, 2] by rfl, List.filter_cons, List.filter_nil, c0, c1, c2]
      norm_num
    rw [this]
    rfl
  rw [stepp_eq hb]
  simp only [h3, show List.range 3 = [0, 1, 2] by rfl, List.map_cons, List.map_nil, h5, low 0 counts121_outer.1, l1, low 2 counts121_outer.2, hend]
  cases iloc
  · rw [show steppTlocs false 5 none [some 2, some 1, some 2] = [2, 1, 2] by rfl, if_pos (by decide)]
    simp only [List.zipWith_cons_cons, List.zipWith_nil_left, htr, hmb]
    norm_num
  · rw [show steppTlocs true 5 none [some 2, some 1, some 2] = [2, 2, 2] by rfl, if_pos (by decide)]
    simp only [List.zipWith_cons_cons, List.zipWith_nil_left, htr, hmb]
    norm_num

end Verif.Completeness

namespace Verif.Recurrence

open Verif Verif.Np Verif.Completeness

/-- The recurrence table for known extremes. -/
theorem recurrenceTable_eq {ev : List (ℝ × ℝ)} {y0 y1 lo up : ℝ} {nb : ℕ} (h0 : IsLeast {y | y ∈ ev.map Prod.fst} y0)
    (h1 : IsGreatest {y | y ∈ ev.map Prod.fst} y1)
    (hlo : IsLeast {y | y ∈ (ev.map Prod.snd).map fun m => ((PyNum.floorZ ((10.0 : ℝ) * m) : Int) : ℝ) / 10.0} lo)
    (hup : IsGreatest {y | y ∈ (ev.map Prod.snd).map fun m => ((PyNum.ceilZ ((10.0 : ℝ) * m) : Int) : ℝ) / 10.0} up)
    (hlen : arangeLen lo (up + (((2 : ℕ) : ℝ) * 1)) 1 = nb + 1) :
    ∃ rows, recurrenceTable ev 1 = .ok rows ∧ rows.map (fun r => (r.mval, r.nObs)) =
      (List.range nb).map fun i => (arangeAt lo 1 i + 1 / 2.0, (histogram (arangeAt lo 1) nb (ev.map Prod.snd)).getD i 0) := by
  have hd : PyNum.decEq (1 : ℝ) 0 = false := by
    show decide ((1 : ℝ) = 0) = false
    simp
  unfold recurrenceTable
  simp only [npMin_iff.mpr h0, npMax_iff.mpr h1, npMin_iff.mpr hlo, npMax_iff.mpr hup, bind, Except.bind, hd, Bool.false_eq_true, if_false, hlen,
    Nat.add_one_ne_zero, Nat.add_sub_cancel, pure, Except.pure, show ¬ ((1 : ℝ) < 0) from by norm_num, and_false, Except.ok.injEq, exists_eq_left']
  rw [List.map_map]
  rfl

theorem edges121 : (PyNum.floorZ ((10.0 : ℝ) * 4.05) = 40 ∧ PyNum.floorZ ((10.0 : ℝ) * 5.05) = 50 ∧ PyNum.floorZ ((10.0 : ℝ) * 6.05) = 60) ∧
    PyNum.ceilZ ((10.0 : ℝ) * 4.05) = 41 ∧ PyNum.ceilZ ((10.0 : ℝ) * 5.05) = 51 ∧ PyNum.ceilZ ((10.0 : ℝ) * 6.05) = 61 := by
  refine ⟨⟨?_, ?_, ?_⟩, ?_, ?_, ?_⟩
  iterate 3 (rw [floorZ_real, Int.floor_eq_iff]; norm_num)
  iterate 3 (rw [ceilZ_real, Int.ceil_eq_iff]; norm_num)

/-- The histogram of the events since 2001 from magnitude 4. -/
theorem rows121a : ∃ rows, recurrenceTable [((2004 : ℝ), (4.05 : ℝ)), (2004, 5.05), (2003, 5.05), (2001, 5.05), (2004, 6.05)] 1 = .ok rows ∧
    rows.map (fun r => (r.mval, r.nObs)) = [(4.5, 1), (5.5, 3), (6.5, 1), (7.5, 0)] := by
  obtain ⟨⟨f4, f5, f6⟩, c4, c5, c6⟩ := edges121
  obtain ⟨rows, hr, he⟩ := recurrenceTable_eq (ev := [((2004 : ℝ), (4.05 : ℝ)), (2004, 5.05), (2003, 5.05), (2001, 5.05), (2004, 6.05)])
    (y0 := 2001) (y1 := 2004) (lo := 4) (up := 6.1) (nb := 4)
    (by constructor <;> simp [lowerBounds] <;> norm_num) (by constructor <;> simp [upperBounds] <;> norm_num)
    (by simp only [List.map_cons, List.map_nil, f4, f5, f6]; constructor <;> simp [lowerBounds] <;> norm_num)
    (by simp only [List.map_cons, List.map_nil, c4, c5, c6]; constructor <;> simp [upperBounds] <;> norm_num)
    (by
      unfold arangeLen
      rw [ceilZ_real, show ⌈((6.1 : ℝ) + ((2 : ℕ) : ℝ) * 1 - 4) / 1⌉ = 5 by rw [Int.ceil_eq_iff]; norm_num]
      rfl)
  refine ⟨rows, hr, ?_⟩
  rw [he]
  have hh : histogram (arangeAt 4 (1 : ℝ)) 4 [(4.05 : ℝ), 5.05, 5.05, 5.05, 6.05] = [1, 3, 1, 0] := by
    unfold histogram inBin
    simp only [arangeAt_real, List.range_succ, List.range_zero, List.nil_append, List.cons_append, List.map_cons, List.map_nil, List.countP_cons, List.countP_nil]
    norm_num
  simp only [List.map_cons, List.map_nil, hh, arangeAt_real, show List.range 4 = [0, 1, 2, 3] by rfl]
  norm_num

/-- The histogram of the events since 2002 from magnitude 5. -/
theorem rows121b : ∃ rows, recurrenceTable [((2004 : ℝ), (5.05 : ℝ)), (2003, 5.05), (2004, 6.05)] 1 = .ok rows ∧
    rows.map (fun r => (r.mval, r.nObs)) = [(5.5, 2), (6.5, 1), (7.5, 0)] := by
  obtain ⟨⟨f4, f5, f6⟩, c4, c5, c6⟩ := edges121
  obtain ⟨rows, hr, he⟩ := recurrenceTable_eq (ev := [((2004 : ℝ), (5.05 : ℝ)), (2003, 5.05), (2004, 6.05)])
    (y0 := 2003) (y1 := 2004) (lo := 5) (up := 6.1) (nb := 3)
    (by constructor <;> simp [lowerBounds] <;> norm_num) (by constructor <;> simp [upperBounds] <;> norm_num)
    (by simp only [List.map_cons, List.map_nil, f5, f6]; constructor <;> simp [lowerBounds] <;> norm_num)
    (by simp only [List.map_cons, List.map_nil, c5, c6]; constructor <;> simp [upperBounds] <;> norm_num)
    (by
      unfold arangeLen
      rw [ceilZ_real, show ⌈((6.1 : ℝ) + ((2 : ℕ) : ℝ) * 1 - 5) / 1⌉ = 4 by rw [Int.ceil_eq_iff]; norm_num]
      rfl)
  refine ⟨rows, hr, ?_⟩
  rw [he]
  have hh : histogram (arangeAt 5 (1 : ℝ)) 3 [(5.05 : ℝ), 5.05, 6.05] = [2, 1, 0] := by
    unfold histogram inBin
    simp only [arangeAt_real, List.range_succ, List.range_zero, List.nil_append, List.cons_append, List.map_cons, List.map_nil, List.countP_cons, List.countP_nil]
    norm_num
  simp only [List.map_cons, List.map_nil, hh, arangeAt_real, show List.range 3 = [0, 1, 2] by rfl]
  norm_num

/-- The table of Stepp's test. -/
noncomputable def table121 : List (ℝ × ℝ) := [(2001, 4), (2002, 5), (2001, 6)]

theorem sel121a : Spec.completeEvents cat121 2001 4 = [((2004 : ℝ), (4.05 : ℝ)), (2004, 5.05), (2003, 5.05), (2001, 5.05), (2004, 6.05)] := by
  simp only [Spec.completeEvents, cat121, List.filter_cons, List.filter_nil]
  norm_num

theorem sel121b : Spec.completeEvents cat121 2002 5 = [((2004 : ℝ), (5.05 : ℝ)), (2003, 5.05), (2004, 6.05)] := by
  simp only [Spec.completeEvents, cat121, List.filter_cons, List.filter_nil]
  norm_num

/-- The b-value of the year 2001. -/
theorem b121a {g : List ℝ} (hg : IsLeast {m | m ∈ g} 4) {ref : ℝ} {p : Period ℝ} (hp : period cat121 1 ref 2001 g = .ok p) :
    p.b = Real.logb 10 (Real.exp 1) * (2 / 3) ∧ p.n = 5 := by
  obtain ⟨mc, ny, hmc, -, hn, -, -, rows, hr, hb⟩ := period_ok hp
  obtain rfl := hmc.unique hg
  rw [sel121a] at hr hn
  obtain ⟨rows', hr', he⟩ := rows121a
  obtain rfl := Except.ok.inj (hr.symm.trans hr')
  rw [he] at hb
  refine ⟨?_, hn⟩
  obtain ⟨m, hm, e⟩ := C58_value hb
  obtain rfl : m = 4.5 := hm.unique ⟨⟨by norm_num, 1, by simp⟩, by
    rintro x ⟨-, n, hx⟩
    simp only [List.mem_cons, Prod.mk.injEq, List.not_mem_nil, or_false] at hx
    rcases hx with ⟨rfl, -⟩ | ⟨rfl, -⟩ | ⟨rfl, -⟩ | ⟨rfl, -⟩ <;> norm_num⟩
  have f : ([((4.5 : ℝ), 1), (5.5, 3), (6.5, 1), (7.5, 0)] : List (ℝ × ℕ)).filter (fun r => decide ((4 : ℝ) ≤ r.1)) =
      [((4.5 : ℝ), 1), (5.5, 3), (6.5, 1), (7.5, 0)] := by
    simp only [List.filter_cons, List.filter_nil]; norm_num
  rw [f] at e
  rw [e]
  simp only [List.map_cons, List.map_nil, List.sum_cons, List.sum_nil]
  norm_num
  ring

/-- The b-value of the year 2002. -/
theorem b121b {ref : ℝ} {p : Period ℝ} (hp : period cat121 1 ref 2002 [5] = .ok p) :
    p.b = Real.logb 10 (Real.exp 1) * (6 / 5) ∧ p.n = 3 := by
  obtain ⟨mc, ny, hmc, -, hn, -, -, rows, hr, hb⟩ := period_ok hp
  obtain rfl : mc = 5 := hmc.unique (by simp)
  rw [sel121b] at hr hn
  obtain ⟨rows', hr', he⟩ := rows121b
  obtain rfl := Except.ok.inj (hr.symm.trans hr')
  rw [he] at hb
  refine ⟨?_, hn⟩
  obtain ⟨m, hm, e⟩ := C58_value hb
  obtain rfl : m = 5.5 := hm.unique ⟨⟨by norm_num, 2, by simp⟩, by
    rintro x ⟨-, n, hx⟩
    simp only [List.mem_cons, Prod.mk.injEq, List.not_mem_nil, or_false] at hx
    rcases hx with ⟨rfl, -⟩ | ⟨rfl, -⟩ | ⟨rfl, -⟩ <;> norm_num⟩
  have f : ([((5.5 : ℝ), 2), (6.5, 1), (7.5, 0)] : List (ℝ × ℕ)).filter (fun r => decide ((5 : ℝ) ≤ r.1)) = [((5.5 : ℝ), 2), (6.5, 1), (7.5, 0)] := by
    simp only [List.filter_cons, List.filter_nil]; norm_num
  rw [f] at e
  rw [e]
  simp only [List.map_cons, List.map_nil, List.sum_cons, List.sum_nil]
  norm_num
  ring

/-- The period of 2001 exists. -/
theorem period121 {g : List ℝ} (hl : IsLeast {m | m ∈ g} 4) (ref : ℝ) : ∃ p, period cat121 1 ref 2001 g = .ok p := by
  obtain ⟨rows, hr, he⟩ := rows121a
  have hsel : periodEvents cat121 2001 4 = [((2004 : ℝ), (4.05 : ℝ)), (2004, 5.05), (2003, 5.05), (2001, 5.05), (2004, 6.05)] := by
    simp only [periodEvents, cat121, List.filter_cons, List.filter_nil]
    norm_num
  obtain ⟨b, s, hb, -⟩ := C58_b_value (h := [((4.5 : ℝ), 1), (5.5, 3), (6.5, 1), (7.5, 0)]) (dmag := 1) (mc := 4) one_pos
    ⟨(5.5, 3), by simp, by norm_num, by norm_num⟩
  obtain ⟨y1, hy1⟩ := npMax_exists (l := [(2004 : ℝ), 2004, 2003, 2001, 2004]) (by simp)
  obtain ⟨y0, hy0⟩ := npMin_exists (l := [(2004 : ℝ), 2004, 2003, 2001, 2004]) (by simp)
  unfold period
  simp only [npMin_iff.mpr hl, bind, Except.bind, hsel, List.map_cons, List.map_nil, hy0, hy1, hr, he, hb, pure, Except.pure]
  exact ⟨_, rfl⟩

/-- The run with this table: the year 2001 is used twice, the year 2002 not at all. -/
theorem mle121 : ∃ r, bMaxlikeTime cat121 table121 1 0 = .ok r ∧ r.b = Real.logb 10 (Real.exp 1) * (2 / 3) := by
  have hg : groupOf table121 2001 = [4, 6] := by
    simp only [groupOf, table121, npAbs_real, List.filter_cons, List.filter_nil]
    norm_num
  have hl : IsLeast {m | m ∈ [(4 : ℝ), 6]} 4 := by constructor <;> simp [lowerBounds] <;> norm_num
  obtain ⟨p, hp⟩ := period121 hl 0
  have hps : periods cat121 table121 1 0 0 = .ok [p, p] := by
    have h3 : table121.length = 3 := rfl
    have e0 : ∀ h : 0 < table121.length, table121[0].1 = 2001 := fun _ => rfl
    have e2 : ∀ h : 2 < table121.length, table121[2].1 = 2001 := fun _ => rfl
    rw [periods, dif_pos (by rw [h3]; norm_num)]
    simp only [e0, hg, List.length_cons, List.length_nil, Nat.zero_add, Nat.reduceAdd]
    rw [dif_neg (by norm_num), hp, periods, dif_pos (by rw [h3]; norm_num)]
    simp only [e2, hg, List.length_cons, List.length_nil, Nat.zero_add, Nat.reduceAdd]
    rw [dif_neg (by norm_num), hp, periods, dif_neg (by rw [h3]; norm_num)]
    rfl
  obtain ⟨hb, hn⟩ := b121a hl hp
  unfold bMaxlikeTime
  rw [hps]
  refine ⟨_, rfl, ?_⟩
  rw [weighted_eq]
  simp only [List.map_cons, List.map_nil, List.sum_cons, List.sum_nil, hb, hn]
  push_cast
  ring

/-- **C121 is false**: Stepp's test without the lock gives `cat121` the years 2001, 2002 and 2001.  The loop of the code then advances by the two
rows of 2001, so that 2001 enters twice and 2002 not at all. -/
theorem C121_fails : ¬ ∀ (ev table : List (ℝ × ℝ)) (dm dt ttol dmag ref : ℝ) (iloc : Bool) (r : GR ℝ), ev ≠ [] → 0 < dm → 0 < dt → 0 < ttol → 0 < dmag →
    stepp ev dm dt ttol iloc = .ok table → bMaxlikeTime ev table dmag ref = .ok r → Spec.AverageOfYears ev table dmag ref r := by
  intro H
  obtain ⟨r, hr, hrb⟩ := mle121
  obtain ⟨years, parts, hnd, hmem, hf, havg⟩ := H cat121 table121 1 1 0.2 1 0 false r (by simp [cat121]) one_pos one_pos (by norm_num) one_pos (run121 false) hr
  have hb := havg GR.b (by simp)
  have hpos : 0 < Real.logb 10 (Real.exp 1) := Real.logb_pos (by norm_num) (Real.one_lt_exp_iff.mpr one_pos)
  -- the result for each year
  have key : ∀ (y : ℝ) (q : ℕ × GR ℝ), (bMaxlikeTime cat121 (Spec.rowsOf table121 y) 1 0 = .ok q.2 ∧
      ∃ mc, IsLeast {m | (y, m) ∈ table121} mc ∧ q.1 = (Spec.completeEvents cat121 y mc).length) →
      (y = 2001 → q.2.b = Real.logb 10 (Real.exp 1) * (2 / 3) ∧ q.1 = 5) ∧ (y = 2002 → q.2.b = Real.logb 10 (Real.exp 1) * (6 / 5) ∧ q.1 = 3) := by
    rintro y ⟨n, q⟩ ⟨hq, mc, hmc, hn⟩
    simp only at hq hn
    have one : ∀ b : ℝ × List ℝ, b.2 ≠ [] → Spec.rowsOf table121 y = blockTable [b] → ∃ p, period cat121 1 0 b.1 b.2 = .ok p ∧ q.b = p.b ∧ p.n = n := by
      intro b hb he
      rw [he] at hq
      have hper := C59_periods (ev := cat121) (dmag := 1) (ref := 0) (blocks := [b]) (by simpa using hb) (List.pairwise_singleton _ _)
      rcases hp : period cat121 1 0 b.1 b.2 with e | p
      · simp only [List.mapM_cons, hp] at hper
        unfold bMaxlikeTime at hq
        rw [hper] at hq
        cases hq
      · refine ⟨p, rfl, ?_, ?_⟩
        · rw [one_year hb hp] at hq
          rw [← Except.ok.inj hq]
        · obtain ⟨mc', _, hmc', -, hn', -⟩ := period_ok hp
          rw [hn', hn]
          have hset : ∀ m, (y, m) ∈ table121 ↔ b.1 = y ∧ m ∈ b.2 := by
            intro m
            have : (y, m) ∈ table121 ↔ (y, m) ∈ Spec.rowsOf table121 y := by simp [Spec.rowsOf]
            rw [this, he]
            simp [blockTable, and_comm]
          have hy : b.1 = y := ((hset mc).mp hmc.1).1
          have : mc' = mc := hmc'.unique ⟨((hset mc).mp hmc.1).2, fun m hm => hmc.2 ((hset m).mpr ⟨hy, hm⟩)⟩
          rw [this, hy]
    constructor
    · rintro rfl
      obtain ⟨p, hp, e1, e2⟩ := one (2001, [4, 6]) (by simp) (by
        simp only [Spec.rowsOf, table121, blockTable, List.filter_cons, List.filter_nil, List.flatMap_cons, List.flatMap_nil, List.map_cons, List.map_nil]
        norm_num)
      obtain ⟨h1, h2⟩ := b121a (by constructor <;> simp [lowerBounds] <;> norm_num) hp
      exact ⟨e1.trans h1, e2.symm.trans h2⟩
    · rintro rfl
      obtain ⟨p, hp, e1, e2⟩ := one (2002, [5]) (by simp) (by
        simp only [Spec.rowsOf, table121, blockTable, List.filter_cons, List.filter_nil, List.flatMap_cons, List.flatMap_nil, List.map_cons, List.map_nil]
        norm_num)
      obtain ⟨h1, h2⟩ := b121b hp
      exact ⟨e1.trans h1, e2.symm.trans h2⟩
  have hyears : ∀ y, y ∈ years ↔ y = 2001 ∨ y = 2002 := by
    intro y
    rw [hmem]
    simp only [table121, List.mem_cons, List.not_mem_nil, or_false, exists_eq_or_imp, exists_eq_left]
    constructor
    · rintro (h | h | h)
      · exact Or.inl h.symm
      · exact Or.inr h.symm
      · exact Or.inl h.symm
    · rintro (h | h)
      · exact Or.inl h.symm
      · exact Or.inr (Or.inl h.symm)
  have hperm : years.Perm [2001, 2002] := by
    rw [List.perm_ext_iff_of_nodup hnd (by norm_num)]
    intro y; rw [hyears]; simp
  have hlen : years.length = 2 := hperm.length_eq
  match years, parts, hf, hlen with
  | [y, z], [q, s], .cons hq (.cons hs .nil), _ =>
    have kq := key y q hq
    have ks := key z s hs
    have hy := (hyears y).mp (by simp)
    have hz := (hyears z).mp (by simp)
    have hne : y ≠ z := by simpa using hnd
    simp only [List.map_cons, List.map_nil, List.sum_cons, List.sum_nil] at hb
    rw [hrb] at hb
    rcases hy with rfl | rfl <;> rcases hz with rfl | rfl
    · exact hne rfl
    · obtain ⟨a1, a2⟩ := kq.1 rfl
      obtain ⟨b1, b2⟩ := ks.2 rfl
      rw [a1, a2, b1, b2] at hb
      push_cast at hb
      linarith
    · obtain ⟨a1, a2⟩ := kq.2 rfl
      obtain ⟨b1, b2⟩ := ks.1 rfl
      rw [a1, a2, b1, b2] at hb
      push_cast at hb
      linarith
    · exact hne rfl

/-- The hypotheses of `C121_down_partial` hold for two completeness years. -/
example : table119t.Pairwise (fun c d => d.1 = c.1 ∨ d.1 + 1e-5 ≤ c.1) ∧ ∃ r, bMaxlikeTime ev119 table119t 1 4 = .ok r := by
  refine ⟨by norm_num [table119t], ?_⟩
  obtain ⟨p, q, hps, -⟩ := periods119 4
  unfold bMaxlikeTime
  rw [hps]
  exact ⟨_, rfl⟩

/-- Those of `C121_locked_partial` hold for `cat121`: with the lock all three rows have the year 2001. -/
example : ∃ table r, stepp cat121 1 1 0.2 true = .ok table ∧ bMaxlikeTime cat121 table 1 4 = .ok r := by
  obtain ⟨p, hp⟩ := period121 (g := [4, 5, 6]) (by constructor <;> simp [lowerBounds] <;> norm_num) 4
  have hr := one_year (b := (2001, [4, 5, 6])) (by simp) hp
  exact ⟨_, _, run121 true, hr⟩

end Verif.Recurrence
