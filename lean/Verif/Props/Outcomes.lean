import Verif.Props.SteppTable
import Verif.Props.RecurrenceWeichert
import Verif.Props.Completeness
import Verif.Props.MaxObserved
import Verif.Props.Afteran
import Verif.Props.CompletenessExamples

/-!
# C138: how the analyses end, for every input
-/

namespace Verif.Completeness

open Verif Np

theorem arangeLen_zero_neg {start stop step : ℝ} (hs : step < 0) : arangeLen start stop step = 0 ↔ start ≤ stop := by
  simp only [arangeLen, ceilZ_real]
  rw [Int.toNat_eq_zero, Int.ceil_le, Int.cast_zero, div_nonpos_iff]
  constructor
  · rintro (⟨h, -⟩ | ⟨-, h⟩) <;> linarith
  · intro h; exact .inl ⟨by linarith, hs.le⟩

/-- The first part of Stepp's test for steps other than zero. -/
theorem steppBins_any {ev : List (ℝ × ℝ)} (hev : ev ≠ []) (dm dt : ℝ) :
    ∃ low high y0 y1, Spec.Binning ev low high y0 y1 ∧ low ≤ high ∧ y0 ≤ y1 ∧
      ((dm = 0 ∨ dt = 0) → steppBins ev dm dt = .error .valueError) ∧
      (dm ≠ 0 → dt ≠ 0 → arangeLen low (high + dm) dm = 0 → steppBins ev dm dt = .error .valueError) ∧
      (dm ≠ 0 → dt ≠ 0 → arangeLen low (high + dm) dm ≠ 0 → ∃ b, steppBins ev dm dt = .ok b ∧
        b.nb = arangeLen low (high + dm) dm - 1 ∧ b.nt = arangeLen dt (y1 - y0 + ((2 : ℕ) : ℝ)) dt) := by
  have hev2 : ev.map (fun e => (e.1, (around2 e.2 : ℝ))) = ev.map (fun e => (e.1, Spec.mag2 e.2)) := by
    simp only [around2_real]
  have hmne : ((ev.map (fun e => (e.1, Spec.mag2 e.2))).map Prod.snd) ≠ [] := by simpa using hev
  have hyne : ((ev.map (fun e => (e.1, Spec.mag2 e.2))).map Prod.fst) ≠ [] := by simpa using hev
  obtain ⟨m, hm⟩ := npMin_exists hmne
  obtain ⟨M, hM⟩ := npMax_exists hmne
  obtain ⟨y0, hy0⟩ := npMin_exists hyne
  obtain ⟨y1, hy1⟩ := npMax_exists hyne
  have hm' := npMin_ok hm
  have hM' := npMax_ok hM
  have hy0' := npMin_ok hy0
  have hy1' := npMax_ok hy1
  have e1 : {y | y ∈ (ev.map (fun e => (e.1, Spec.mag2 e.2))).map Prod.snd} = {x | ∃ e ∈ ev, Spec.mag2 e.2 = x} := by
    ext x; simp
  have e2 : {y | y ∈ (ev.map (fun e => (e.1, Spec.mag2 e.2))).map Prod.fst} = {x | ∃ e ∈ ev, e.1 = x} := by
    ext x; simp
  rw [e1] at hm' hM'
  rw [e2] at hy0' hy1'
  have hlh : (⌊10 * m⌋ : ℝ) / 10 ≤ (⌈10 * M⌉ : ℝ) / 10 := by
    have h1 := Int.floor_le (10 * m)
    have h2 := Int.le_ceil (10 * M)
    have := hM'.2 hm'.1
    linarith
  refine ⟨(⌊10 * m⌋ : ℝ) / 10, (⌈10 * M⌉ : ℝ) / 10, y0, y1, ⟨⟨m, hm', rfl⟩, ⟨M, hM', rfl⟩, hy0', hy1'⟩, hlh, hy1'.2 hy0'.1, ?_⟩
  set low : ℝ := (⌊10 * m⌋ : ℝ) / 10 with hlow
  set high : ℝ := (⌈10 * M⌉ : ℝ) / 10 with hhigh
  refine ⟨?_, ?_, ?_⟩
  · intro h
    unfold steppBins
    simp only [hev2, hm, hM, hy0, hy1, bind, Except.bind, decEq_real]
    rcases h with rfl | rfl
    · simp only [decide_true, if_true]; rfl
    · split_ifs <;> first | rfl | simp_all
  · intro h1 h2 h3
    unfold steppBins
    simp only [hev2, hm, hM, hy0, hy1]
    simp only [bind, Except.bind, decEq_real, h1, h2, decide_false, Bool.false_eq_true, if_false, floorZ_real, ceilZ_real]
    norm_num only
    rw [← hlow, ← hhigh, if_pos h3]
    rfl
  · intro h1 h2 h3
    unfold steppBins
    simp only [hev2, hm, hM, hy0, hy1]
    simp only [bind, Except.bind, decEq_real, h1, h2, decide_false, Bool.false_eq_true, if_false, floorZ_real, ceilZ_real]
    norm_num only
    rw [← hlow, ← hhigh, if_neg h3]
    exact ⟨_, rfl, rfl, by norm_num⟩

/-- **C138** (completeness): without events, with a zero step or with a negative magnitude step no larger in size than the range of the
magnitudes Stepp's test raises `ValueError`; with a magnitude bin but no time step it raises `IndexError`; it returns a table otherwise. -/
theorem C138_stepp (ev : List (ℝ × ℝ)) (dm dt ttol : ℝ) (iloc : Bool) :
    (ev = [] → stepp ev dm dt ttol iloc = .error .valueError) ∧
    (ev ≠ [] → ∃ low high y0 y1, Spec.Binning ev low high y0 y1 ∧
      ((dm = 0 ∨ dt = 0 ∨ (dm < 0 ∧ -dm ≤ high - low)) → stepp ev dm dt ttol iloc = .error .valueError) ∧
      ((0 < dm ∧ low < high ∧ (dt < 0 ∨ y1 - y0 + 2 ≤ dt)) → stepp ev dm dt ttol iloc = .error .indexError) ∧
      (¬ (dm = 0 ∨ dt = 0 ∨ (dm < 0 ∧ -dm ≤ high - low)) → ¬ (0 < dm ∧ low < high ∧ (dt < 0 ∨ y1 - y0 + 2 ≤ dt)) →
        ∃ table, stepp ev dm dt ttol iloc = .ok table)) := by
  constructor
  · rintro rfl; rfl
  intro hev
  obtain ⟨low, high, y0, y1, hbin, hlh, hy, hz, hv, hok⟩ := steppBins_any hev dm dt
  refine ⟨low, high, y0, y1, hbin, ?_, ?_, ?_⟩
  · intro h
    have : steppBins ev dm dt = .error .valueError := by
      by_cases h0 : dm = 0 ∨ dt = 0
      · exact hz h0
      push Not at h0
      rcases h with h | h | h
      · exact absurd h h0.1
      · exact absurd h h0.2
      · exact hv h0.1 h0.2 ((arangeLen_zero_neg h.1).2 (by linarith))
    unfold stepp
    rw [this]
    rfl
  · rintro ⟨h1, h2, h3⟩
    have hdt0 : dt ≠ 0 := by rcases h3 with h | h <;> [exact h.ne; (rintro rfl; linarith)]
    have hlen : 1 < arangeLen low (high + dm) dm := by
      rw [lt_arangeLen h1]; push_cast; linarith
    obtain ⟨b, hb, hnb, hnt⟩ := hok h1.ne' hdt0 (by omega)
    have hnt0 : b.nt = 0 := by
      rw [hnt]
      rcases h3 with h | h
      · rw [arangeLen_zero_neg h]; push_cast; linarith
      · by_contra hne
        have := (lt_arangeLen (i := 0) (show 0 < dt by linarith)).1 (Nat.pos_of_ne_zero hne)
        push_cast at this
        linarith
    rw [stepp_eq hb]
    simp only []
    rw [if_neg]
    intro hall
    have hl : 0 < (steppTlocs iloc b.nt none ((List.range b.nb).map (fun jj => steppLoc (exceeding (fun ii => b.obs ii jj) b.timeRange b.nt ttol)))).length := by
      rw [steppTlocs_length]; simp; omega
    have := hall _ (List.getElem_mem hl)
    omega
  · intro h1 h2
    push Not at h1 h2
    obtain ⟨hdm, hdt, hneg⟩ := h1
    have hlen : arangeLen low (high + dm) dm ≠ 0 := by
      rcases lt_or_gt_of_ne hdm with h | h
      · rw [Ne, arangeLen_zero_neg h]
        have := hneg h
        intro hh; linarith
      · have : 0 < arangeLen low (high + dm) dm := by rw [lt_arangeLen h]; push_cast; linarith
        omega
    obtain ⟨b, hb, hnb, hnt⟩ := hok hdm hdt hlen
    rw [stepp_eq hb]
    simp only []
    by_cases hn : b.nb = 0
    · rw [if_pos]
      · exact ⟨_, rfl⟩
      · rw [hn]; simp [steppTlocs]
    · have hn' : 1 < arangeLen low (high + dm) dm := by omega
      have hpos : 0 < dm := by
        rcases lt_or_gt_of_ne hdm with h | h
        · exfalso
          have : arangeLen low (high + dm) dm ≤ 1 := by
            simp only [arangeLen, ceilZ_real]
            have : ⌈(high + dm - low) / dm⌉ ≤ 1 := by
              rw [Int.ceil_le, Int.cast_one, div_le_iff_of_neg h]; linarith
            omega
          omega
        · exact h
      have hlt : low < high := by
        have := (lt_arangeLen hpos).1 hn'
        push_cast at this
        linarith
      obtain ⟨h3, h4⟩ := h2 hpos hlt
      have h0 : 0 < b.nt := by
        rw [hnt, lt_arangeLen (lt_of_le_of_ne h3 (Ne.symm hdt))]
        push_cast; linarith
      rw [if_pos fun t ht => by have := tlocs_lt t ht; omega]
      exact ⟨_, rfl⟩

/-- Four events: steps of 0.1 and 2 years give a table, a magnitude step of zero `ValueError`, a time step longer than the catalogue `IndexError`. -/
example : (∃ t, stepp cat56 0.1 2 0.2 true = .ok t) ∧ stepp cat56 0 2 0.2 true = .error .valueError ∧ stepp cat56 0.1 30 0.2 true = .error .indexError := by
  have hne : cat56 ≠ [] := by simp [cat56]
  refine ⟨?_, ?_, ?_⟩
  · obtain ⟨low, high, y0, y1, hb, -, -, h⟩ := (C138_stepp cat56 0.1 2 0.2 true).2 hne
    obtain ⟨rfl, rfl, rfl, rfl⟩ := binning_unique binning56 hb
    exact h (by norm_num) (by norm_num)
  · obtain ⟨low, high, y0, y1, hb, h, -, -⟩ := (C138_stepp cat56 0 2 0.2 true).2 hne
    exact h (by norm_num)
  · obtain ⟨low, high, y0, y1, hb, -, h, -⟩ := (C138_stepp cat56 0.1 30 0.2 true).2 hne
    obtain ⟨rfl, rfl, rfl, rfl⟩ := binning_unique binning56 hb
    exact h (by norm_num)

end Verif.Completeness

namespace Verif.Recurrence

open Verif Np

theorem mapM_error {α β : Type} {f : α → Except PyErr β} {e : PyErr} {l : List α} (hne : l ≠ []) (h : ∀ a ∈ l, f a = .error e) :
    l.mapM f = .error e := by
  match l, hne with
  | a :: l, _ => simp only [List.mapM_cons, h a (by simp), bind, Except.bind]

theorem weichertPrep_length {ev table : List (ℝ × ℝ)} {dm dt : ℝ} {w : List (WBin ℝ)} {c : Cells ℝ} (hc : cells ev dm dt = .ok c)
    (hw : weichertPrep ev table dm dt = .ok w) : w.length = c.nm := by
  unfold weichertPrep at hw
  rw [hc] at hw
  have := (Nrml.mapM_forall₂ _ _ _ hw).length_eq
  simpa using this.symm

/-- **C138** (Weichert recurrence): without events or with a step that is not positive the analysis raises `ValueError`; without a completeness table, or if the magnitudes
(rounded to one decimal) extend over no more than half a magnitude step, it raises `IndexError`; otherwise it raises nothing. -/
theorem C138_weichert (ev table : List (ℝ × ℝ)) (dm dt ref : ℝ) (fuel : ℕ) :
    ((ev = [] ∨ dt ≤ 0 ∨ dm ≤ 0) → recurrenceAnalysis ev table dm "Weichert" ref dt fuel = .error .valueError) ∧
    (ev ≠ [] → 0 < dt → 0 < dm → (table = [] ∨ ∀ a ∈ ev, ∀ b ∈ ev, Spec.mag1 a.2 - Spec.mag1 b.2 ≤ dm / 2) →
      recurrenceAnalysis ev table dm "Weichert" ref dt fuel = .error .indexError) ∧
    (ev ≠ [] → 0 < dt → 0 < dm → table ≠ [] → (∃ a ∈ ev, ∃ b ∈ ev, dm / 2 < Spec.mag1 a.2 - Spec.mag1 b.2) →
      ∃ r, recurrenceAnalysis ev table dm "Weichert" ref dt fuel = .ok r) := by
  have hA : ∀ (e : PyErr), weichertPrep ev table dm dt = .error e → recurrenceAnalysis ev table dm "Weichert" ref dt fuel = .error e := by
    intro e h
    unfold recurrenceAnalysis
    rw [if_pos rfl, h]
    rfl
  refine ⟨?_, ?_, ?_⟩
  · intro h
    apply hA
    have : cells ev dm dt = .error .valueError := by
      by_cases hev : ev = []
      · subst hev; rfl
      unfold cells
      obtain ⟨y0, hy0⟩ := npMin_exists (l := ev.map Prod.fst) (by simpa using hev)
      obtain ⟨y1, hy1⟩ := npMax_exists (l := ev.map Prod.fst) (by simpa using hev)
      obtain ⟨m0, hm0⟩ := npMin_exists (l := (ev.map fun e : ℝ × ℝ => (e.1, around1 e.2)).map Prod.snd) (by simpa using hev)
      obtain ⟨m1, hm1⟩ := npMax_exists (l := (ev.map fun e : ℝ × ℝ => (e.1, around1 e.2)).map Prod.snd) (by simpa using hev)
      simp only [hy0, hy1, hm0, hm1, bind, Except.bind, decEq_real]
      by_cases h1 : dt = 0
      · simp only [h1, decide_true, if_true]; rfl
      by_cases h2 : dm = 0
      · simp only [h1, h2, decide_true, decide_false, Bool.false_eq_true, if_false, if_true]; rfl
      simp only [h1, h2, decide_false, Bool.false_eq_true, if_false]
      rw [if_pos]
      · rfl
      · rcases h with h | h | h
        · exact absurd h hev
        · exact .inr (.inr (.inl (lt_of_le_of_ne h h1)))
        · exact .inr (.inr (.inr (lt_of_le_of_ne h h2)))
    unfold weichertPrep
    rw [this]
    rfl
  · intro hev hdt hdm h
    obtain ⟨c, y0, y1, m0, m1, hc, -, -, hm0, hm1, -, -, -, -, -, hnm1, -, hnm⟩ := cells_spec hev hdm hdt
    by_cases ht : table = []
    · apply hA
      unfold weichertPrep
      rw [hc]
      refine mapM_error (by simp; omega) fun i _ => ?_
      subst ht
      rfl
    · obtain ⟨w, hw⟩ := weichertPrep_succeeds (table := table) hev ht hdm hdt
      have hl := weichertPrep_length hc hw
      have h2 : ¬ 2 ≤ c.nm := by
        rw [hnm]
        obtain ⟨a, ha, rfl⟩ := hm1.1
        obtain ⟨b, hb, rfl⟩ := hm0.1
        have := (h.resolve_left ht) a ha b hb
        push_cast
        intro h'
        norm_num at h'
        linarith
      unfold recurrenceAnalysis
      rw [if_pos rfl, hw]
      exact (C63_weichert_terminates_partial (w := w) (mrate := ref)).1 (by omega) fuel
  · rintro hev hdt hdm ht ⟨a, ha, b, hb, hab⟩
    obtain ⟨c, y0, y1, m0, m1, hc, -, -, hm0, hm1, -, -, -, -, -, hnm1, -, hnm⟩ := cells_spec hev hdm hdt
    obtain ⟨w, hw⟩ := weichertPrep_succeeds (table := table) hev ht hdm hdt
    have hl := weichertPrep_length hc hw
    have h2 : 2 ≤ c.nm := by
      rw [hnm]
      have := hm1.2 ⟨a, ha, rfl⟩
      have := hm0.2 ⟨b, hb, rfl⟩
      push_cast
      norm_num
      linarith
    unfold recurrenceAnalysis
    rw [if_pos rfl, hw]
    match w, hl with
    | [], hl => simp at hl; omega
    | [x], hl => simp at hl; omega
    | x0 :: x1 :: rest, _ => exact ⟨_, rfl⟩

/-! ### Maximum likelihood -/

/-- The range of the magnitudes of the recurrence table. -/
structure Spec.Extent (ev : List (ℝ × ℝ)) (low up : ℝ) : Prop where
  low : IsLeast {x | ∃ e ∈ ev, x = (⌊10 * e.2⌋ : ℝ) / 10} low
  up : IsGreatest {x | ∃ e ∈ ev, x = (⌈10 * e.2⌉ : ℝ) / 10} up

/-- The recurrence table for every magnitude step. -/
theorem recurrenceTable_any {ev : List (ℝ × ℝ)} (hev : ev ≠ []) (dmag : ℝ) :
    ∃ low up, Spec.Extent ev low up ∧ low ≤ up ∧ (∀ e ∈ ev, e.2 ≤ up) ∧
      (dmag = 0 → recurrenceTable ev dmag = .error .valueError) ∧
      (dmag ≠ 0 → arangeLen low (up + 2 * dmag) dmag = 0 → recurrenceTable ev dmag = .error .indexError) ∧
      (1 < arangeLen low (up + 2 * dmag) dmag → dmag < 0 → recurrenceTable ev dmag = .error .attributeError) ∧
      (dmag ≠ 0 → arangeLen low (up + 2 * dmag) dmag ≠ 0 → ¬ (1 < arangeLen low (up + 2 * dmag) dmag ∧ dmag < 0) →
        ∃ rows, recurrenceTable ev dmag = .ok rows ∧ rows.length = arangeLen low (up + 2 * dmag) dmag - 1 ∧
          ∀ (i : ℕ) (hi : i < rows.length), rows[i].mval = low + (i + 1 / 2) * dmag) := by
  have hne : ev.map Prod.fst ≠ [] := by simpa using hev
  obtain ⟨y1, hy1⟩ := npMax_exists hne
  obtain ⟨y0, hy0⟩ := npMin_exists hne
  obtain ⟨up, hup⟩ := npMax_exists (l := (ev.map Prod.snd).map (fun m => (⌈10.0 * m⌉ : ℝ) / 10.0)) (by simpa using hev)
  obtain ⟨low, hlow⟩ := npMin_exists (l := (ev.map Prod.snd).map (fun m => (⌊10.0 * m⌋ : ℝ) / 10.0)) (by simpa using hev)
  have hup' := npMax_ok hup
  have hlow' := npMin_ok hlow
  have e1 : {y | y ∈ (ev.map Prod.snd).map (fun m => (⌈10.0 * m⌉ : ℝ) / 10.0)} = {x | ∃ e ∈ ev, x = (⌈10 * e.2⌉ : ℝ) / 10} := by
    ext x; norm_num; simp only [eq_comm]
  have e2 : {y | y ∈ (ev.map Prod.snd).map (fun m => (⌊10.0 * m⌋ : ℝ) / 10.0)} = {x | ∃ e ∈ ev, x = (⌊10 * e.2⌋ : ℝ) / 10} := by
    ext x; norm_num; simp only [eq_comm]
  rw [e1] at hup'
  rw [e2] at hlow'
  have hu : ∀ e ∈ ev, e.2 ≤ up := by
    intro e he
    have h1 := hup'.2 ⟨e, he, rfl⟩
    have := Int.le_ceil (10 * e.2)
    linarith
  have hlu : low ≤ up := by
    obtain ⟨e, he⟩ := List.exists_mem_of_ne_nil _ hev
    have h1 := hlow'.2 ⟨e, he, rfl⟩
    have := Int.floor_le (10 * e.2)
    have := hu e he
    linarith
  have key : recurrenceTable ev dmag = if dmag = 0 then .error .valueError else if arangeLen low (up + 2 * dmag) dmag = 0 then .error .indexError
      else if 1 < arangeLen low (up + 2 * dmag) dmag ∧ dmag < 0 then .error .attributeError else
        .ok ((List.range (arangeLen low (up + 2 * dmag) dmag - 1)).map fun i =>
          let nb := arangeLen low (up + 2 * dmag) dmag - 1
          let numberObs := histogram (arangeAt low dmag) nb (ev.map Prod.snd)
          let n := numberObs.getD i 0
          let c := (numberObs.drop i).sum
          { mval := arangeAt low dmag i + dmag / 2.0, nObs := n, nCum := c, nObsAnnual := (n : ℝ) / (y1 - y0 + 1.0), nCumAnnual := (c : ℝ) / (y1 - y0 + 1.0) }) := by
    unfold recurrenceTable
    simp only [ceilZ_real, floorZ_real, decEq_real, hy1, hy0, hup, hlow, bind, Except.bind, Nat.cast_ofNat, decide_eq_true_eq]
    split_ifs <;> rfl
  refine ⟨low, up, ⟨hlow', hup'⟩, hlu, hu, ?_, ?_, ?_, ?_⟩
  · intro h; rw [key, if_pos h]
  · intro h h2; rw [key, if_neg h, if_pos h2]
  · intro h h2; rw [key, if_neg h2.ne, if_neg (by omega), if_pos ⟨h, h2⟩]
  · intro h h2 h3
    rw [key, if_neg h, if_neg h2, if_neg h3]
    refine ⟨_, rfl, by simp, ?_⟩
    intro i hi
    simp only [List.getElem_map, List.getElem_range, arangeAt_real]
    norm_num
    ring

/-- Two events with different magnitudes: a step of 0.1 gives a result (or no convergence), a step of 3 `IndexError`, a step of zero `ValueError`. -/
example : (∃ r, recurrenceAnalysis [((1990 : ℝ), 5), (1994, 6)] [(1900, 4)] 0.1 "Weichert" 4 1 1000 = .ok r) ∧
    recurrenceAnalysis [((1990 : ℝ), 5), (1994, 6)] [(1900, 4)] 3 "Weichert" 4 1 1000 = .error .indexError ∧
    recurrenceAnalysis [((1990 : ℝ), 5), (1994, 6)] [(1900, 4)] 0 "Weichert" 4 1 1000 = .error .valueError := by
  have h5 : Spec.mag1 5 = 5 := by
    have : (5 : ℝ) * 10 = ((50 : ℤ) : ℝ) := by norm_num
    simp only [Spec.mag1, rintK, this, Int.floor_intCast, sub_self]
    norm_num
  have h6 : Spec.mag1 6 = 6 := by
    have : (6 : ℝ) * 10 = ((60 : ℤ) : ℝ) := by norm_num
    simp only [Spec.mag1, rintK, this, Int.floor_intCast, sub_self]
    norm_num
  refine ⟨?_, ?_, ?_⟩
  · exact (C138_weichert [((1990 : ℝ), 5), (1994, 6)] [(1900, 4)] 0.1 1 4 1000).2.2 (by simp) (by norm_num) (by norm_num) (by simp)
      ⟨(1994, 6), by simp, (1990, 5), by simp, by simp only [h5, h6]; norm_num⟩
  · refine (C138_weichert [((1990 : ℝ), 5), (1994, 6)] [(1900, 4)] 3 1 4 1000).2.1 (by simp) (by norm_num) (by norm_num) (.inr ?_)
    simp only [List.forall_mem_cons, h5, h6]
    norm_num
  · exact (C138_weichert [((1990 : ℝ), 5), (1994, 6)] [(1900, 4)] 0 1 4 1000).1 (by simp)

theorem periodEvents_eq (ev : List (ℝ × ℝ)) (c mc : ℝ) : periodEvents ev c mc = Spec.completeEvents ev c mc := by
  simp only [periodEvents, Spec.completeEvents]
  refine List.filter_congr fun e _ => ?_
  simp [Bool.decide_and]

/-- One completeness period for every magnitude step. -/
theorem period_any {ev : List (ℝ × ℝ)} {dmag ref c mc : ℝ} {g : List ℝ} (hg : npMin g = .ok mc) :
    (Spec.completeEvents ev c mc = [] → period ev dmag ref c g = .error .valueError) ∧
    (dmag = 0 → period ev dmag ref c g = .error .valueError) ∧
    (Spec.completeEvents ev c mc ≠ [] → dmag < 0 → ∃ low up, Spec.Extent (Spec.completeEvents ev c mc) low up ∧
      (up - low < -dmag → period ev dmag ref c g = .error .attributeError) ∧
      (-dmag ≤ up - low → up - low < -(2 * dmag) → period ev dmag ref c g = .error .valueError) ∧
      (-(2 * dmag) ≤ up - low → period ev dmag ref c g = .error .indexError)) ∧
    (0 < dmag → ∀ e, period ev dmag ref c g = .error e → e = .valueError) ∧
    (Spec.completeEvents ev c mc ≠ [] → 2e-5 ≤ dmag → ∃ p, period ev dmag ref c g = .ok p) := by
  have h1 : Spec.completeEvents ev c mc = [] → period ev dmag ref c g = .error .valueError := by
    intro h
    unfold period
    simp only [hg, periodEvents_eq, h, Recurrence.bind_ok]
    rfl
  have hstep : ∀ (_ : Spec.completeEvents ev c mc ≠ []), ∃ y0 y1, ∀ r, recurrenceTable (Spec.completeEvents ev c mc) dmag = r →
      (∀ e, r = .error e → period ev dmag ref c g = .error e) ∧
      (∀ rows, r = .ok rows → (∀ e, bMaxLikelihood (rows.map fun r => (r.mval, r.nObs)) dmag mc = .error e → period ev dmag ref c g = .error e) ∧
        (∀ p, bMaxLikelihood (rows.map fun r => (r.mval, r.nObs)) dmag mc = .ok p → ∃ q, period ev dmag ref c g = .ok q)) ∧
      npMin ((Spec.completeEvents ev c mc).map Prod.fst) = .ok y0 ∧ npMax ((Spec.completeEvents ev c mc).map Prod.fst) = .ok y1 := by
    intro h
    have h' : (Spec.completeEvents ev c mc).map Prod.fst ≠ [] := by simpa using h
    obtain ⟨y1, hy1⟩ := npMax_exists h'
    obtain ⟨y0, hy0⟩ := npMin_exists h'
    refine ⟨y0, y1, fun r hr => ⟨?_, ?_, hy0, hy1⟩⟩
    · rintro e rfl
      unfold period
      simp only [hg, periodEvents_eq, hy0, hy1, Recurrence.bind_ok, hr]
      rfl
    · rintro rows rfl
      refine ⟨fun e he => ?_, fun p hp => ?_⟩
      · unfold period
        simp only [hg, periodEvents_eq, hy0, hy1, Recurrence.bind_ok, hr, he]
        rfl
      · unfold period
        simp only [hg, periodEvents_eq, hy0, hy1, Recurrence.bind_ok, hr, hp]
        exact ⟨_, rfl⟩
  have hnone : ∀ h : List (ℝ × ℕ), (∀ r ∈ h, ¬ mc ≤ r.1) → bMaxLikelihood h dmag mc = .error .valueError := by
    intro h hh
    have : h.filter (fun r => decide (r.1 ≥ mc)) = [] := by
      rw [List.filter_eq_nil_iff]
      intro r hr
      simpa using hh r hr
    unfold bMaxLikelihood
    simp only [this]
    rfl
  have hsome : ∀ h : List (ℝ × ℕ), (∃ r ∈ h, mc ≤ r.1) → ∃ p, bMaxLikelihood h dmag mc = .ok p := by
    rintro h ⟨r, hr, hm⟩
    have hne : (h.filter (fun r => decide (r.1 ≥ mc))).map Prod.fst ≠ [] := by
      intro hc
      have : r ∈ h.filter (fun r => decide (r.1 ≥ mc)) := List.mem_filter.2 ⟨hr, by simpa using hm⟩
      rw [List.map_eq_nil_iff] at hc
      rw [hc] at this
      simp at this
    obtain ⟨m, hm⟩ := npMin_exists hne
    unfold bMaxLikelihood
    simp only [hm, Recurrence.bind_ok]
    exact ⟨_, rfl⟩
  refine ⟨h1, ?_, ?_, ?_, ?_⟩
  · rintro rfl
    by_cases h : Spec.completeEvents ev c mc = []
    · exact h1 h
    obtain ⟨y0, y1, hr⟩ := hstep h
    obtain ⟨low, up, -, -, -, hz, -⟩ := recurrenceTable_any h 0
    exact (hr _ (hz rfl)).1 _ rfl
  · intro h hd
    obtain ⟨y0, y1, hr⟩ := hstep h
    obtain ⟨low, up, hx, hlu, -, -, hi, ha, hok⟩ := recurrenceTable_any h dmag
    have hlen0 : arangeLen low (up + 2 * dmag) dmag = 0 ↔ -(2 * dmag) ≤ up - low := by
      rw [Completeness.arangeLen_zero_neg hd]; constructor <;> intro h <;> linarith
    have hlen1 : arangeLen low (up + 2 * dmag) dmag ≤ 1 ↔ -dmag ≤ up - low := by
      simp only [arangeLen, ceilZ_real]
      rw [Int.toNat_le, Int.ceil_le, div_le_iff_of_neg hd]
      push_cast
      constructor <;> intro h <;> linarith
    refine ⟨low, up, hx, ?_, ?_, ?_⟩
    · intro hs
      have : 1 < arangeLen low (up + 2 * dmag) dmag := by rw [← not_le, hlen1]; linarith
      exact (hr _ (ha this hd)).1 _ rfl
    · intro hs1 hs2
      have hl1 := hlen1.2 hs1
      have hl0 : arangeLen low (up + 2 * dmag) dmag ≠ 0 := fun h0 => by have := hlen0.1 h0; linarith
      obtain ⟨rows, hrows, hl, -⟩ := hok hd.ne hl0 (fun h => by omega)
      have : rows = [] := List.length_eq_zero_iff.1 (by omega)
      subst this
      exact ((hr _ hrows).2.1 _ rfl).1 _ (hnone _ (by simp))
    · intro hs
      exact (hr _ (hi hd.ne (hlen0.2 hs))).1 _ rfl
  · intro hd e he
    by_cases h : Spec.completeEvents ev c mc = []
    · rw [h1 h] at he; cases he; rfl
    obtain ⟨y0, y1, hr⟩ := hstep h
    obtain ⟨low, up, hx, hlu, -, -, -, -, hok⟩ := recurrenceTable_any h dmag
    have h0 : 0 < arangeLen low (up + 2 * dmag) dmag := by rw [lt_arangeLen hd]; push_cast; linarith
    obtain ⟨rows, hrows, -, -⟩ := hok hd.ne' h0.ne' (fun h => by linarith [h.2])
    by_cases hm : ∃ r ∈ rows.map fun r => (r.mval, r.nObs), mc ≤ r.1
    · obtain ⟨p, hp⟩ := hsome _ hm
      obtain ⟨q, hq⟩ := ((hr _ hrows).2.1 _ rfl).2 p hp
      rw [hq] at he; cases he
    · rw [((hr _ hrows).2.1 _ rfl).1 _ (hnone _ (by push Not at hm ⊢; exact hm))] at he
      cases he; rfl
  · intro h hd
    have hd0 : 0 < dmag := lt_of_lt_of_le (by norm_num) hd
    obtain ⟨y0, y1, hr⟩ := hstep h
    obtain ⟨low, up, hx, hlu, hu, -, -, -, hok⟩ := recurrenceTable_any h dmag
    have h1' : 1 < arangeLen low (up + 2 * dmag) dmag := by rw [lt_arangeLen hd0]; push_cast; linarith
    obtain ⟨rows, hrows, hl, hval⟩ := hok hd0.ne' (by omega) (fun h => by linarith [h.2])
    obtain ⟨e, he⟩ := List.exists_mem_of_ne_nil _ h
    have hem : mc - 1e-5 ≤ e.2 := by
      have := (List.mem_filter.1 he).2
      simp only [decide_eq_true_eq] at this
      exact this.2
    have hlast : up + 2 * dmag ≤ low + (arangeLen low (up + 2 * dmag) dmag : ℕ) * dmag := by
      by_contra hc
      exact absurd ((lt_arangeLen hd0).2 (not_le.1 hc)) (lt_irrefl _)
    have hsm : ∃ r ∈ rows.map fun r => (r.mval, r.nObs), mc ≤ r.1 := by
      have hi : rows.length - 1 < rows.length := by omega
      refine ⟨_, List.mem_map.2 ⟨rows[rows.length - 1], List.getElem_mem _, rfl⟩, ?_⟩
      simp only [hval _ hi]
      have hc : ((rows.length - 1 : ℕ) : ℝ) = (arangeLen low (up + 2 * dmag) dmag : ℕ) - 2 := by
        rw [hl, show arangeLen low (up + 2 * dmag) dmag - 1 - 1 = arangeLen low (up + 2 * dmag) dmag - 2 by omega, Nat.cast_sub (by omega)]
        norm_num
      rw [hc]
      have := hu e he
      norm_num at hem hd
      linarith
    obtain ⟨p, hp⟩ := hsome _ hsm
    exact ((hr _ hrows).2.1 _ rfl).2 p hp

namespace Spec

/-- There is an event in the years for which the catalogue is complete according to row `c`, with at least a magnitude that some row of the same year
declares complete. -/
def HasEvent (ev table : List (ℝ × ℝ)) (c : ℝ × ℝ) : Prop :=
  ∃ e ∈ ev, c.1 ≤ e.1 ∧ ∃ d ∈ table, |d.1 - c.1| < 1e-5 ∧ d.2 - 1e-5 ≤ e.2

end Spec

theorem hasEvent_iff {ev table : List (ℝ × ℝ)} {c : ℝ × ℝ} {mc : ℝ} (h : npMin (groupOf table c.1) = .ok mc) :
    Spec.HasEvent ev table c ↔ Spec.completeEvents ev c.1 mc ≠ [] := by
  have hl := npMin_ok h
  have hmem : ∀ m, m ∈ groupOf table c.1 ↔ ∃ d ∈ table, |d.1 - c.1| < 1e-5 ∧ d.2 = m := by
    intro m
    simp only [groupOf, List.mem_map, List.mem_filter, npAbs_real, decide_eq_true_eq, and_assoc]
  constructor
  · rintro ⟨e, he, hy, d, hd, hdc, hm⟩
    refine List.ne_nil_of_mem (a := e) (List.mem_filter.2 ⟨he, ?_⟩)
    simp only [decide_eq_true_eq]
    exact ⟨hy, (sub_le_sub_right (hl.2 ((hmem _).2 ⟨d, hd, hdc, rfl⟩)) _).trans hm⟩
  · intro h
    obtain ⟨e, he⟩ := List.exists_mem_of_ne_nil _ h
    obtain ⟨he, hh⟩ := List.mem_filter.1 he
    simp only [decide_eq_true_eq] at hh
    obtain ⟨d, hd, hdc, hdm⟩ := (hmem mc).1 hl.1
    exact ⟨e, he, hh.1, d, hd, hdc, by rw [hdm]; exact hh.2⟩

/-- A failure of the periods is the failure of one of them. -/
theorem periods_error {ev table : List (ℝ × ℝ)} {dmag ref : ℝ} {i : ℕ} {e : PyErr} (h : periods ev table dmag ref i = .error e) :
    ∃ c ∈ table, period ev dmag ref c.1 (groupOf table c.1) = .error e := by
  revert e
  refine periods.induct table (fun i => ∀ {e}, periods ev table dmag ref i = .error e →
    ∃ c ∈ table, period ev dmag ref c.1 (groupOf table c.1) = .error e) ?_ ?_ ?_ i
  · intro i hi g hg
    have := groupOf_mem (List.getElem_mem hi)
    have := List.length_pos_of_mem this
    intro e _; exact absurd hg this.ne'
  · intro i hi g hg ih e h
    rw [periods] at h
    simp only [hi, dif_pos] at h
    rw [dif_neg hg] at h
    cases hp : period ev dmag ref table[i].1 (groupOf table table[i].1) with
    | error e' =>
      rw [hp] at h
      cases h
      exact ⟨_, List.getElem_mem hi, hp⟩
    | ok p =>
      rw [hp, Recurrence.bind_ok] at h
      cases hq : periods ev table dmag ref (i + g.length) with
      | error e' =>
        rw [hq] at h
        cases h
        exact ih hq
      | ok ps => rw [hq] at h; cases h
  · intro i hi e h
    rw [periods] at h
    simp only [hi, dif_neg, not_false_eq_true] at h
    cases h

/-- The first period decides if it fails. -/
theorem periods_first {ev : List (ℝ × ℝ)} {dmag ref : ℝ} {c : ℝ × ℝ} {rest : List (ℝ × ℝ)} {e : PyErr}
    (h : period ev dmag ref c.1 (groupOf (c :: rest) c.1) = .error e) : periods ev (c :: rest) dmag ref 0 = .error e := by
  rw [periods]
  simp only [List.length_cons, Nat.succ_pos, dif_pos, List.getElem_cons_zero]
  rw [dif_neg, h]
  · rfl
  · have := groupOf_mem (r := c) (table := c :: rest) (by simp)
    have := List.length_pos_of_mem this
    omega

/-- **C138** (maximum likelihood recurrence).  An empty completeness table raises `UnboundLocalError`, a step of zero `ValueError`.  With a negative step the first
row of the table decides: no event in its period raises `ValueError`; otherwise the range of the magnitudes of its events decides between `AttributeError`, `ValueError` and
`IndexError`.  With a positive step there is no other exception than `ValueError`; with a step of at least 2e-5 it is raised only if there is no event for
some row of the table, and, if the years of the table never go up, exactly then. -/
theorem C138_maxlike (ev table : List (ℝ × ℝ)) (dmag ref : ℝ) :
    (table = [] → bMaxlikeTime ev table dmag ref = .error (.runtimeError "UnboundLocalError")) ∧
    (table ≠ [] → dmag = 0 → bMaxlikeTime ev table dmag ref = .error .valueError) ∧
    (∀ c rest, table = c :: rest → dmag < 0 →
      (¬ Spec.HasEvent ev table c → bMaxlikeTime ev table dmag ref = .error .valueError) ∧
      (Spec.HasEvent ev table c → ∃ mc low up, IsLeast {m | ∃ d ∈ table, |d.1 - c.1| < 1e-5 ∧ d.2 = m} mc ∧
        Spec.Extent (Spec.completeEvents ev c.1 mc) low up ∧
        (up - low < -dmag → bMaxlikeTime ev table dmag ref = .error .attributeError) ∧
        (-dmag ≤ up - low → up - low < -(2 * dmag) → bMaxlikeTime ev table dmag ref = .error .valueError) ∧
        (-(2 * dmag) ≤ up - low → bMaxlikeTime ev table dmag ref = .error .indexError))) ∧
    (table ≠ [] → 0 < dmag → ∀ e, bMaxlikeTime ev table dmag ref = .error e → e = .valueError) ∧
    (table ≠ [] → 2e-5 ≤ dmag → (∀ c ∈ table, Spec.HasEvent ev table c) → ∃ r, bMaxlikeTime ev table dmag ref = .ok r) ∧
    (table ≠ [] → 0 < dmag → (table.Pairwise fun c d => d.1 = c.1 ∨ d.1 + 1e-5 ≤ c.1) → (∃ c ∈ table, ¬ Spec.HasEvent ev table c) →
      bMaxlikeTime ev table dmag ref = .error .valueError) := by
  have hmin : ∀ c ∈ table, ∃ mc, npMin (groupOf table c.1) = .ok mc := fun c hc => npMin_exists (List.ne_nil_of_mem (groupOf_mem hc))
  have herr : ∀ e, periods ev table dmag ref 0 = .error e → bMaxlikeTime ev table dmag ref = .error e := by
    intro e h
    unfold bMaxlikeTime
    rw [h]
    rfl
  have hnot : ∀ e, table ≠ [] → bMaxlikeTime ev table dmag ref = .error e → periods ev table dmag ref 0 = .error e := by
    intro e hne h
    cases hp : periods ev table dmag ref 0 with
    | error e' =>
      rw [herr _ hp] at h
      cases h; rfl
    | ok ps =>
      have : ps ≠ [] := (periods_ok hp).1 (List.length_pos_of_ne_nil hne)
      unfold bMaxlikeTime at h
      rw [hp, Recurrence.bind_ok, if_neg (by simpa using this)] at h
      cases h
  have hvalue : table ≠ [] → 0 < dmag → ∀ e, bMaxlikeTime ev table dmag ref = .error e → e = .valueError := by
    intro hne hd e he
    obtain ⟨c, hc, hp⟩ := periods_error (hnot e hne he)
    obtain ⟨mc, hmc⟩ := hmin c hc
    exact (period_any hmc).2.2.2.1 hd e hp
  refine ⟨?_, ?_, ?_, hvalue, ?_, ?_⟩
  · rintro rfl
    unfold bMaxlikeTime
    rw [periods]
    rfl
  · intro hne hd
    match table, hne with
    | c :: rest, _ =>
      obtain ⟨mc, hmc⟩ := hmin c (by simp)
      exact herr _ (periods_first ((period_any hmc).2.1 hd))
  · rintro c rest rfl hd
    obtain ⟨mc, hmc⟩ := hmin c (by simp)
    refine ⟨fun h => ?_, fun h => ?_⟩
    · rw [hasEvent_iff hmc, not_not] at h
      exact herr _ (periods_first ((period_any hmc).1 h))
    · rw [hasEvent_iff hmc] at h
      obtain ⟨low, up, hx, h1, h2, h3⟩ := (period_any hmc).2.2.1 h hd
      refine ⟨mc, low, up, ?_, hx, fun a => herr _ (periods_first (h1 a)), fun a b => herr _ (periods_first (h2 a b)), fun a => herr _ (periods_first (h3 a))⟩
      have : {m | ∃ d ∈ c :: rest, |d.1 - c.1| < 1e-5 ∧ d.2 = m} = {m | m ∈ groupOf (c :: rest) c.1} := by
        ext m
        simp only [groupOf, List.mem_map, List.mem_filter, npAbs_real, decide_eq_true_eq, and_assoc, Set.mem_ofPred_eq]
      rw [this]
      exact npMin_ok hmc
  · intro hne hd hall
    cases hb : bMaxlikeTime ev table dmag ref with
    | ok r => exact ⟨r, rfl⟩
    | error e =>
      obtain ⟨c, hc, hp⟩ := periods_error (hnot e hne hb)
      obtain ⟨mc, hmc⟩ := hmin c hc
      obtain ⟨p, hp'⟩ := (period_any hmc).2.2.2.2 ((hasEvent_iff hmc).1 (hall c hc)) hd
      rw [hp'] at hp
      cases hp
  · rintro hne hd hpw ⟨c, hc, hno⟩
    cases hb : bMaxlikeTime ev table dmag ref with
    | error e => rw [hvalue hne hd e hb]
    | ok r =>
      exfalso
      obtain ⟨blocks, rfl, hbne, hsep⟩ := exists_blocks table hpw
      have hsep' : blocks.Pairwise fun b b' => 1e-5 ≤ |b.1 - b'.1| := by
        refine hsep.imp fun {b b'} h => ?_
        rw [abs_of_nonneg] <;> norm_num at h ⊢ <;> linarith
      have hper := C59_periods (ev := ev) (dmag := dmag) (ref := ref) hbne hsep'
      cases hp : periods ev (blockTable blocks) dmag ref 0 with
      | error e => rw [herr _ hp] at hb; cases hb
      | ok ps =>
        rw [hp] at hper
        obtain ⟨b, hbb, hcb⟩ := List.mem_flatMap.1 hc
        obtain ⟨m, -, rfl⟩ := List.mem_map.1 hcb
        obtain ⟨i, hi, rfl⟩ := List.getElem_of_mem hbb
        have hf := mapM_forall₂ hper.symm
        obtain ⟨p, hpb⟩ : ∃ p, period ev dmag ref (blocks[i]).1 (blocks[i]).2 = .ok p :=
          ⟨_, (List.forall₂_iff_get.1 hf).2 i hi (by rw [← hf.length_eq]; exact hi)⟩
        obtain ⟨mc, hmc⟩ := npMin_exists (hbne _ hbb)
        refine hno ?_
        by_cases hce : Spec.completeEvents ev (blocks[i]).1 mc = []
        · rw [(period_any hmc).1 hce] at hpb; cases hpb
        obtain ⟨e, he⟩ := List.exists_mem_of_ne_nil _ hce
        obtain ⟨he, hh⟩ := List.mem_filter.1 he
        simp only [decide_eq_true_eq] at hh
        exact ⟨e, he, hh.1, ((blocks[i]).1, mc), List.mem_flatMap.2 ⟨_, hbb, List.mem_map.2 ⟨mc, (npMin_ok hmc).1, rfl⟩⟩, by norm_num, hh.2⟩

/-- Two events: one row of the table with both events gives a result; a second row with a later year and no event gives `ValueError`; a step of -2 gives `AttributeError`. -/
example : (∃ r, bMaxlikeTime [((1990 : ℝ), 5), (1994, 6)] [(1900, 4)] 0.1 4 = .ok r) ∧
    bMaxlikeTime [((1990 : ℝ), 5), (1994, 6)] [(2000, 4), (1900, 5)] 0.1 4 = .error .valueError ∧
    bMaxlikeTime [((1990 : ℝ), 5), (1994, 6)] [(1900, 4)] (-2) 4 = .error .attributeError := by
  refine ⟨?_, ?_, ?_⟩
  · refine (C138_maxlike [((1990 : ℝ), 5), (1994, 6)] [(1900, 4)] 0.1 4).2.2.2.2.1 (by simp) (by norm_num) ?_
    simp only [List.forall_mem_cons, Spec.HasEvent]
    exact ⟨⟨(1990, 5), by simp, by norm_num, (1900, 4), by simp, by norm_num, by norm_num⟩, by simp⟩
  · refine (C138_maxlike [((1990 : ℝ), 5), (1994, 6)] [(2000, 4), (1900, 5)] 0.1 4).2.2.2.2.2 (by simp) (by norm_num) ?_ ⟨(2000, 4), by simp, ?_⟩
    · norm_num
    · rintro ⟨e, he, h, -⟩
      simp only [List.mem_cons, List.not_mem_nil, or_false] at he
      rcases he with rfl | rfl <;> norm_num at h
  · obtain ⟨mc, low, up, hmc, hx, h1, -⟩ := ((C138_maxlike [((1990 : ℝ), 5), (1994, 6)] [(1900, 4)] (-2) 4).2.2.1 _ _ rfl (by norm_num)).2
      ⟨(1990, 5), by simp, by norm_num, (1900, 4), by simp, by norm_num, by norm_num⟩
    refine h1 ?_
    have hmem : ∀ e ∈ Spec.completeEvents [((1990 : ℝ), (5 : ℝ)), (1994, 6)] 1900 mc, e = (1990, 5) ∨ e = (1994, 6) := by
      intro e he
      simpa using (List.mem_filter.1 he).1
    have f5 : ⌊(10 : ℝ) * 5⌋ = 50 := by rw [Int.floor_eq_iff]; norm_num
    have f6 : ⌊(10 : ℝ) * 6⌋ = 60 := by rw [Int.floor_eq_iff]; norm_num
    have c5 : ⌈(10 : ℝ) * 5⌉ = 50 := by rw [Int.ceil_eq_iff]; norm_num
    have c6 : ⌈(10 : ℝ) * 6⌉ = 60 := by rw [Int.ceil_eq_iff]; norm_num
    obtain ⟨a, ha, rfl⟩ := hx.low.1
    obtain ⟨b, hb, rfl⟩ := hx.up.1
    rcases hmem a ha with rfl | rfl <;> rcases hmem b hb with rfl | rfl <;> simp only [f5, f6, c5, c6] <;> norm_num

end Verif.Recurrence

namespace Verif.MaxMag

open Verif Np

theorem expSpaced_length (lower upper nsamp : ℝ) : (expSpaced lower upper nsamp).length = arangeLen (0.0 : ℝ) (nsamp - 1.0) 1.0 + 1 := by
  simp [expSpaced]

theorem expSpaced_two {nsamp : ℝ} (h : 1 < nsamp) (lower upper : ℝ) : 2 ≤ (expSpaced lower upper nsamp).length := by
  rw [expSpaced_length]
  have : 0 < arangeLen (0.0 : ℝ) (nsamp - 1.0) 1.0 := by
    rw [lt_arangeLen (by norm_num)]
    norm_num
    exact h
  omega

theorem intFunc_one {nsamp : ℝ} (h : nsamp ≤ 1) (lower upper : ℝ) (mag : List ℝ) (hf n : ℝ) :
    intFunc (expSpaced lower upper nsamp) mag hf n = .error .indexError := by
  have hl : (expSpaced lower upper nsamp).length = 1 := by
    rw [expSpaced_length]
    have : ¬ 0 < arangeLen (0.0 : ℝ) (nsamp - 1.0) 1.0 := by
      rw [lt_arangeLen (by norm_num)]
      norm_num
      exact h
    omega
  obtain ⟨x, hx⟩ := List.length_eq_one_iff.1 hl
  rw [hx]
  rfl

theorem kijko_run {ev : List (MEvent ℝ)} (hne : ev ≠ []) (neq : ℕ) (nsamp tol : ℝ) (maxIter : ℕ) : ∃ obsmax obssig mmin hf,
    ∀ fuel, kijko (ev.map MEvent.mag) (ev.map MEvent.sigma) neq nsamp tol maxIter fuel =
      if tol < 1e8 then
        match kijkoLoop (fun mmax => intFunc (expSpaced mmin mmax nsamp) (largest (ev.map MEvent.mag) neq).1 hf (largest (ev.map MEvent.mag) neq).2) obsmax tol maxIter fuel obsmax 0 with
        | none => none
        | some (.error e) => some (.error e)
        | some (.ok (mmax, d)) => some (.ok (mmax, PyMath.sqrt (obssig * obssig + d * d)))
      else some (.error (.runtimeError "UnboundLocalError")) := by
  have hm : ev.map MEvent.mag ≠ [] := by simpa using hne
  obtain ⟨e, -, -, hs⟩ := sigma_at_max (ev := ev.map fun e => (e.mag, e.sigma)) (by simpa using hne)
  obtain ⟨m, hm'⟩ := npMax_exists hm
  obtain ⟨mmin, hmin⟩ := npMin_exists (largest_ne_nil hm neq)
  obtain ⟨hf, hhf⟩ := hSmooth_succeeds (largest_ne_nil hm neq)
  have e1 : mags (ev.map fun e => (e.mag, e.sigma)) = ev.map MEvent.mag := by simp [mags, Function.comp_def]
  have e2 : sigmas (ev.map fun e => (e.mag, e.sigma)) = ev.map MEvent.sigma := by simp [sigmas, Function.comp_def]
  rw [e1, e2] at hs
  refine ⟨m, e.2, mmin, hf, fun fuel => ?_⟩
  unfold kijko
  simp only [hm', hs, hmin, hhf]
  split_ifs
  · generalize kijkoLoop (F := ℝ) _ _ _ _ _ _ _ = x
    rcases x with _ | _ | _ <;> rfl
  · rfl

/-- **C138** (maximum magnitude, `Kijko_Npg`).  Without events the analysis raises `ValueError`; with a tolerance of 1E8 or more `UnboundLocalError`; with at most one sample
point `IndexError`; with a negative tolerance it never ends; in all other cases it returns. -/
theorem C138_kijko (ev : List (MEvent ℝ)) {cfg : MaxMagConfig ℝ} (hk : cfg.algorithm = "Kijko_Npg") (rnd : ℕ → ℕ → ℝ) :
    (ev = [] → ∀ fuel, analysis ev cfg rnd fuel = some (.error .valueError)) ∧
    (ev ≠ [] → 1e8 ≤ cfg.tolerance → ∀ fuel, analysis ev cfg rnd fuel = some (.error (.runtimeError "UnboundLocalError"))) ∧
    (ev ≠ [] → cfg.tolerance < 1e8 → cfg.nsamp ≤ 1 → ∀ fuel, 0 < fuel → analysis ev cfg rnd fuel = some (.error .indexError)) ∧
    (ev ≠ [] → cfg.tolerance < 0 → 1 < cfg.nsamp → ∀ fuel, analysis ev cfg rnd fuel = none) ∧
    (ev ≠ [] → 0 ≤ cfg.tolerance → cfg.tolerance < 1e8 → 1 < cfg.nsamp →
      ∃ r, ∀ fuel, cfg.maxIterations < fuel → analysis ev cfg rnd fuel = some (.ok r)) := by
  have ha : ∀ fuel, analysis ev cfg rnd fuel = kijko (ev.map MEvent.mag) (ev.map MEvent.sigma) cfg.neq cfg.nsamp cfg.tolerance cfg.maxIterations fuel :=
    fun fuel => by simp only [analysis, hk, if_true]
  simp only [ha]
  refine ⟨?_, fun hne ht fuel => ?_, fun hne ht hn fuel hfu => ?_, fun hne ht hn fuel => ?_, fun hne h0 h1 hn => ?_⟩
  · rintro rfl fuel
    rfl
  all_goals obtain ⟨obsmax, obssig, mmin, hf, hrun⟩ := kijko_run hne cfg.neq cfg.nsamp cfg.tolerance cfg.maxIterations
  · rw [hrun, if_neg (not_lt.2 ht)]
  · obtain ⟨fuel, rfl⟩ := Nat.exists_eq_succ_of_ne_zero hfu.ne'
    rw [hrun, if_pos ht, kijkoLoop, intFunc_one hn]
  · rw [hrun, if_pos (by norm_num; linarith), kijkoLoop_negative _ _ _ _ ht (fun m => intFunc_succeeds (expSpaced_two hn _ _) _ _ _)]
  · obtain ⟨r, hr⟩ := C69_terminates_real (ev.map MEvent.mag) (ev.map MEvent.sigma) cfg.neq cfg.nsamp cfg.tolerance cfg.maxIterations h0
    have h := hr (cfg.maxIterations + 1) le_rfl
    rw [hrun, if_pos h1] at h
    rcases h5 : kijkoLoop (fun mmax => intFunc (expSpaced mmin mmax cfg.nsamp) (largest (ev.map MEvent.mag) cfg.neq).1 hf (largest (ev.map MEvent.mag) cfg.neq).2)
        obsmax cfg.tolerance cfg.maxIterations (cfg.maxIterations + 1) obsmax 0 with _ | r'
    · rw [h5] at h; simp at h
    obtain ⟨⟨m, d⟩, rfl⟩ := kijkoLoop_succeeds (fun m => intFunc_succeeds (expSpaced_two hn _ _) _ _ _) _ _ _ h5
    rw [h5] at h
    simp only [Option.some.injEq] at h
    exact ⟨_, fun fuel hfu => by rw [hr fuel hfu, ← h]⟩

theorem cumulativeMoment_any (ev : List (ℝ × ℝ)) : (ev = [] → cumulativeMoment ev = .error .valueError) ∧ (ev ≠ [] → ∃ m, cumulativeMoment ev = .ok m) := by
  refine ⟨by rintro rfl; rfl, fun hne => ?_⟩
  have h' : ev.map Prod.fst ≠ [] := by simpa using hne
  obtain ⟨y0, h0⟩ := npMin_exists h'
  obtain ⟨y1, h1⟩ := npMax_exists h'
  have hle : y0 ≤ y1 := (npMax_ok h1).2 (npMin_ok h0).1
  have hlen : 0 < arangeLen y0 (y1 + ((1 : ℕ) : ℝ)) ((1 : ℕ) : ℝ) := by
    rw [lt_arangeLen (by norm_num)]
    norm_num
    linarith
  obtain ⟨mr, hmr, hl⟩ : ∃ mr, moRate ev = .ok mr ∧ 0 < mr.length := by
    unfold moRate
    simp only [h0, h1, Recurrence.bind_ok, arange, decEq_real]
    rw [if_neg (by norm_num)]
    exact ⟨_, rfl, by simpa using hlen⟩
  have hcs : ∀ (l : List ℝ) a, (cumsumGo a l).length = l.length := by
    intro l
    induction l with
    | nil => intro a; rfl
    | cons x l ih => intro a; simp [cumsumGo, ih]
  have hdev : List.zipWith (· - ·) (cumsum mr) (cumsum (List.replicate mr.length (npSum mr / (mr.length : ℝ)))) ≠ [] := by
    refine List.ne_nil_of_length_pos ?_
    simp only [List.length_zipWith, cumsum, hcs, List.length_replicate, lt_min_iff]
    exact ⟨hl, hl⟩
  obtain ⟨a, ha⟩ := npMax_exists hdev
  obtain ⟨b, hb⟩ := npMin_exists hdev
  unfold cumulativeMoment moDiff
  simp only [hmr, ha, hb, Recurrence.bind_ok]
  exact ⟨_, rfl⟩

/-- **C138** (maximum magnitude, `Cumulative_Moment`).  The analysis raises `ValueError` without events, unless no bootstrap sample is asked for; in all other cases it returns. -/
theorem C138_cumulative (ev : List (MEvent ℝ)) {cfg : MaxMagConfig ℝ} (hk : cfg.algorithm = "Cumulative_Moment") (rnd : ℕ → ℕ → ℝ) (fuel : ℕ) :
    (ev = [] → 0 < cfg.nboot → analysis ev cfg rnd fuel = some (.error .valueError)) ∧
    ((ev ≠ [] ∨ cfg.nboot = 0) → ∃ r, analysis ev cfg rnd fuel = some (.ok r)) := by
  have ha : analysis ev cfg rnd fuel = some (cumMoUncertainty ev cfg.nboot rnd) := by
    simp only [analysis, hk, if_true]
    rw [if_neg (by decide)]
  rw [ha]
  constructor
  · rintro rfl hn
    unfold cumMoUncertainty
    have : (List.range cfg.nboot).mapM (fun i => cumulativeMoment (perturbed [] (rnd i))) = .error .valueError :=
      Recurrence.mapM_error (by simpa using hn.ne') (fun i _ => (cumulativeMoment_any _).1 rfl)
    rw [this]
    rfl
  · intro h
    obtain ⟨s, hs⟩ : ∃ s, (List.range cfg.nboot).mapM (fun i => cumulativeMoment (perturbed ev (rnd i))) = .ok s := by
      rcases h with h | h
      · have hp : ∀ i, ∃ m, cumulativeMoment (perturbed ev (rnd i)) = .ok m := fun i =>
          (cumulativeMoment_any _).2 (by simpa [perturbed] using h)
        choose m hm using hp
        exact ⟨(List.range cfg.nboot).map m, Nrml.mapM_of_forall₂ _ _ _ (by
          rw [List.forall₂_map_right_iff]
          exact List.forall₂_same.2 fun i _ => hm i)⟩
      · rw [h]; exact ⟨[], rfl⟩
    unfold cumMoUncertainty
    rw [hs]
    exact ⟨_, rfl⟩

/-- Two events and the options of the example configuration: the result for five samples, and each of the failures. -/
example (rnd : ℕ → ℕ → ℝ) : (∃ r, analysis [⟨1990, 5.1, 0.1⟩, ⟨1994, 6.0, 0.2⟩] ⟨"Kijko_Npg", 0.05, 1000, 100, 51, 500⟩ rnd 1001 = some (.ok r)) ∧
    analysis [⟨1990, 5.1, 0.1⟩, ⟨1994, 6.0, 0.2⟩] ⟨"Kijko_Npg", 0.05, 1000, 100, 1, 500⟩ rnd 1001 = some (.error .indexError) ∧
    analysis [⟨1990, 5.1, 0.1⟩, ⟨1994, 6.0, 0.2⟩] ⟨"Kijko_Npg", -0.05, 1000, 100, 51, 500⟩ rnd 1001 = none ∧
    (∃ r, analysis [⟨1990, 5.1, 0.1⟩, ⟨1994, 6.0, 0.2⟩] ⟨"Cumulative_Moment", 0.05, 1000, 100, 51, 500⟩ rnd 0 = some (.ok r)) := by
  refine ⟨?_, ?_, ?_, ?_⟩
  · obtain ⟨r, hr⟩ := (C138_kijko [⟨1990, 5.1, 0.1⟩, ⟨1994, 6.0, 0.2⟩] (cfg := ⟨"Kijko_Npg", 0.05, 1000, 100, 51, 500⟩) rfl rnd).2.2.2.2 (by simp) (by norm_num) (by norm_num) (by norm_num)
    exact ⟨r, hr _ (by norm_num)⟩
  · exact (C138_kijko [⟨1990, 5.1, 0.1⟩, ⟨1994, 6.0, 0.2⟩] (cfg := ⟨"Kijko_Npg", 0.05, 1000, 100, 1, 500⟩) rfl rnd).2.2.1 (by simp) (by norm_num) (by norm_num) _ (by norm_num)
  · exact (C138_kijko [⟨1990, 5.1, 0.1⟩, ⟨1994, 6.0, 0.2⟩] (cfg := ⟨"Kijko_Npg", -0.05, 1000, 100, 51, 500⟩) rfl rnd).2.2.2.1 (by simp) (by norm_num) (by norm_num) _
  · exact (C138_cumulative [⟨1990, 5.1, 0.1⟩, ⟨1994, 6.0, 0.2⟩] (cfg := ⟨"Cumulative_Moment", 0.05, 1000, 100, 51, 500⟩) rfl rnd 0).2 (.inl (by simp))

end Verif.MaxMag

namespace Verif.Declustering

open Verif Verif.CatUtil Spec

variable {n : ℕ}

theorem truncZ_range (x : ℝ) : (-12 ≤ truncZ x ∧ truncZ x < 12) ↔ -13 < x ∧ x < 12 := by
  simp only [truncZ, ceilZ_real, floorZ_real]
  split_ifs with h
  · norm_num at h
    have h1 : ⌈x⌉ < 12 := by
      have : ⌈x⌉ ≤ 0 := Int.ceil_le.2 (by simpa using h.le)
      omega
    have h2 : -12 ≤ ⌈x⌉ ↔ -13 < x := by
      rw [show (-12 : ℤ) = -13 + 1 by norm_num, Int.add_one_le_iff, Int.lt_ceil]
      norm_num
    rw [h2]
    exact ⟨fun a => ⟨a.1, by linarith⟩, fun a => ⟨a.1, h1⟩⟩
  · norm_num at h
    have h1 : -12 ≤ ⌊x⌋ := by
      have : 0 ≤ ⌊x⌋ := Int.floor_nonneg.2 h
      omega
    have h2 : ⌊x⌋ < 12 ↔ x < 12 := by
      rw [Int.floor_lt]
      norm_num
    rw [h2]
    exact ⟨fun a => ⟨by linarith, a.2⟩, fun a => ⟨h1, a.2⟩⟩

theorem pyIndex_iff (l : List ℕ) (k : ℤ) : (∃ x, pyIndex l k = .ok x) ↔ -(l.length : ℤ) ≤ k ∧ k < l.length := by
  unfold pyIndex
  split_ifs with h1 h2
  · by_cases hk : k.toNat < l.length
    · rw [List.getElem?_eq_getElem hk]
      exact ⟨fun _ => by omega, fun _ => ⟨_, rfl⟩⟩
    · rw [List.getElem?_eq_none (by omega)]
      exact ⟨fun ⟨_, h⟩ => (by cases h), fun _ => (by omega)⟩
  · rw [List.getElem?_eq_getElem (by omega)]
    exact ⟨fun _ => by omega, fun _ => ⟨_, rfl⟩⟩
  · exact ⟨fun ⟨_, h⟩ => (by cases h), fun _ => (by omega)⟩

/-- The decimal year exists exactly for months between -12 and 13 (both excluded): negative months index the table of the days from its end. -/
theorem decimalYear_iff (y m d : ℝ) : (∃ t, decimalYear y m d = .ok t) ↔ -12 < m ∧ m < 13 := by
  have h1 : (∃ t, decimalYear y m d = .ok t) ↔ ∃ k, pyIndex marker (truncZ (m - ((1 : ℕ) : ℝ))) = .ok k := by
    unfold decimalYear
    cases pyIndex marker (truncZ (m - ((1 : ℕ) : ℝ))) with
    | error e => exact ⟨fun ⟨_, h⟩ => (by cases h), fun ⟨_, h⟩ => (by cases h)⟩
    | ok k => exact ⟨fun _ => ⟨_, rfl⟩, fun _ => ⟨_, rfl⟩⟩
  rw [h1, pyIndex_iff]
  have hl : (marker.length : ℤ) = 12 := rfl
  rw [hl, truncZ_range]
  push_cast
  constructor <;> rintro ⟨a, b⟩ <;> constructor <;> linarith

/-- **C138** (declustering).  A month that is not between -12 and 13 makes both algorithms raise `IndexError`, otherwise an unknown window `KeyError`, and in all other cases
they return. -/
theorem C138_declustering (cat : Fin n → Row ℝ) (opt : String) (x : ℝ) (asc id1 : Equiv.Perm (Fin n)) :
    ((∃ j, ¬ (-12 < cat j 1 ∧ cat j 1 < 13)) →
      gardnerKnopoff cat opt x asc id1 = .error .indexError ∧ afteran cat opt x asc id1 = .error .indexError) ∧
    ((∀ j, -12 < cat j 1 ∧ cat j 1 < 13) → opt ∉ ["GardnerKnopoff", "Gruenthal", "Uhrhammer"] →
      gardnerKnopoff cat opt x asc id1 = .error .keyError ∧ afteran cat opt x asc id1 = .error .keyError) ∧
    ((∀ j, -12 < cat j 1 ∧ cat j 1 < 13) → opt ∈ ["GardnerKnopoff", "Gruenthal", "Uhrhammer"] →
      (∃ r, gardnerKnopoff cat opt x asc id1 = .ok r) ∧ ∃ r, afteran cat opt x asc id1 = .ok r) := by
  have htimes : (∃ t, Times cat t) ↔ ∀ j, -12 < cat j 1 ∧ cat j 1 < 13 := by
    constructor
    · rintro ⟨t, ht⟩ j; exact (decimalYear_iff (cat j 0) _ (cat j 2)).1 ⟨t j, ht j⟩
    · intro h
      choose t ht using fun j => (decimalYear_iff (cat j 0) _ (cat j 2)).2 (h j)
      exact ⟨t, ht⟩
  refine ⟨?_, ?_, ?_⟩
  · rintro ⟨j, hj⟩
    have hd : decimalYears (fun j => cat j 0) (fun j => cat j 1) (fun j => cat j 2) = .error .indexError := by
      unfold decimalYears
      rw [if_neg]
      intro h
      refine hj ((decimalYear_iff (cat j 0) _ (cat j 2)).1 ?_)
      have := h j
      cases hh : decimalYear (cat j 0) (cat j 1) (cat j 2) with
      | ok t => exact ⟨t, rfl⟩
      | error e => rw [hh] at this; cases this
    constructor
    · unfold gardnerKnopoff; simp only [hd]; rfl
    · unfold afteran; simp only [hd]; rfl
  · intro h ho
    obtain ⟨t, ht⟩ := htimes.2 h
    have hd := (decimalYears_times cat t).2 ht
    have hw : timeDistWindow (F := ℝ) opt = .error .keyError := by
      simp only [List.mem_cons, List.not_mem_nil, or_false, not_or] at ho
      simp only [timeDistWindow, if_neg ho.1, if_neg ho.2.1, if_neg ho.2.2]
    constructor
    · unfold gardnerKnopoff; simp only [hd, hw]; rfl
    · unfold afteran; simp only [hd, hw]; rfl
  · intro h ho
    have ho' : opt = "GardnerKnopoff" ∨ opt = "Gruenthal" ∨ opt = "Uhrhammer" := by simpa using ho
    exact ⟨(C34_gk_succeeds cat opt x asc id1).2 ⟨ho', htimes.2 h⟩, (C34_afteran_succeeds cat opt x asc id1).2 ⟨ho', htimes.2 h⟩⟩

/-- One event in the thirteenth month, and one in June. -/
example : gardnerKnopoff (F := ℝ) (n := 1) (fun _ => ![2000, 13, 1, 10, 45, 5, 0.1]) "Gruenthal" 1 (Equiv.refl _) (Equiv.refl _) = .error .indexError ∧
    gardnerKnopoff (F := ℝ) (n := 1) (fun _ => ![2000, 6, 1, 10, 45, 5, 0.1]) "gruenthal" 1 (Equiv.refl _) (Equiv.refl _) = .error .keyError ∧
    ∃ r, afteran (F := ℝ) (n := 1) (fun _ => ![2000, 6, 1, 10, 45, 5, 0.1]) "Gruenthal" 60 (Equiv.refl _) (Equiv.refl _) = .ok r := by
  refine ⟨((C138_declustering _ _ _ _ _).1 ⟨0, ?_⟩).1, ((C138_declustering _ _ _ _ _).2.1 ?_ (by decide)).1, ((C138_declustering _ _ _ _ _).2.2 ?_ (by decide)).2⟩
  · norm_num [Matrix.cons_val]
  · intro j; norm_num [Matrix.cons_val]
  · intro j; norm_num [Matrix.cons_val]

end Verif.Declustering
