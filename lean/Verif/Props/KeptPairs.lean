import Verif.Lemmas.AfteranKept
import Verif.Props.AfteranExamples

/-!
# Properties C115–C117: pairs of kept events, and declustering twice with Afteran
-/

namespace Verif.Declustering

open Verif Verif.CatUtil Spec

section
variable {n : Nat}

/-- Pairs of kept events, for any numbers ordered by `key`. -/
theorem gk_no_kept_pair {F : Type} [PyMath F] {key : F → ℝ} (hkey : ∀ a b : F, a ≤ b → key a ≤ key b) (cat : Fin n → Row F) (opt : String) (fs : F)
    (asc id1 : Equiv.Perm (Fin n)) (r : Result F n)
    (h0 : IsArgsort (fun j => cat j 5) asc) (h1 : IsArgsort (flipud asc) id1) (h : gardnerKnopoff cat opt fs asc id1 = .ok r) :
    ∃ t win, Times cat t ∧ timeDistWindow opt = .ok win ∧
      ∀ i j, r.flag i = 0 → key (cat j 5) < key (cat i 5) → InWindows cat t win fs i j → r.flag j ≠ 0 := by
  obtain ⟨t, win, ht, hw, hk⟩ := kept_alone cat opt fs asc id1 r h1 h
  refine ⟨t, win, ht, hw, ?_⟩
  intro i j hi hlt hin
  have hp : flipud asc ((flipud asc).symm i) = i := Equiv.apply_symm_apply ..
  refine hk ((flipud asc).symm i) j ?_ (by rw [hp]; exact hi) ?_ (by rw [hp]; exact hin)
  · by_contra hc
    have hle : (flipud asc).symm j ≤ (flipud asc).symm i := Fin.le_def.mpr (by have := ((flipud asc).symm j).isLt; omega)
    have := hkey _ _ (flipud_desc h0 _ _ hle)
    simp only [Equiv.apply_symm_apply] at this
    exact absurd hlt (not_lt.mpr this)
  · rw [hp]
    rintro rfl
    exact lt_irrefl _ hlt

/-- **C115.** Gardner–Knopoff keeps no event that lies in the windows of a kept event of larger magnitude. -/
theorem C115_gk_no_kept_pair (cat : Fin n → Row ℝ) (opt : String) (fs : ℝ) (asc id1 : Equiv.Perm (Fin n)) (r : Result ℝ n)
    (h0 : IsArgsort (fun j => cat j 5) asc) (h1 : IsArgsort (flipud asc) id1) (h : gardnerKnopoff cat opt fs asc id1 = .ok r) :
    ∃ t win, Times cat t ∧ timeDistWindow opt = .ok win ∧
      ∀ i j, r.flag i = 0 → cat j 5 < cat i 5 → InWindows cat t win fs i j → r.flag j ≠ 0 :=
  gk_no_kept_pair (key := id) (fun _ _ h => h) cat opt fs asc id1 r h0 h1 h

/-- The positions of events under a descending sort. -/
theorem pos_lt {m : Fin n → ℝ} {asc : Equiv.Perm (Fin n)} (h0 : IsArgsort m asc) {i j : Fin n} (hlt : m j < m i) :
    (flipud asc).symm i < (flipud asc).symm j := by
  by_contra hc
  have := flipud_desc h0 _ _ (not_lt.mp hc)
  simp only [Equiv.apply_symm_apply] at this
  exact absurd hlt (not_lt.mpr this)

/-- **C116, the part that holds**: Afteran removes the largest of the other events in the distance window of a kept event, if it is no
further away in time than the time window and the distance window holds no event as large as the kept one.  Missing: the events
behind the largest, and windows with a larger event in them (`C116_fails`). -/
theorem C116_next_largest_partial (cat : Fin n → Row ℝ) (opt : String) (w : ℝ) (asc id1 : Equiv.Perm (Fin n)) (r : Result ℝ n)
    (h0 : IsArgsort (fun j => cat j 5) asc) (h1 : IsArgsort (flipud asc) id1) (h : afteran cat opt w asc id1 = .ok r) :
    ∃ t win, Times cat t ∧ timeDistWindow opt = .ok win ∧
      ∀ i j, r.flag i = 0 → j ≠ i → eventDist cat i j ≤ (win (cat i 5)).1 → |t j - t i| ≤ w / 365 →
        (∀ k, k ≠ i → eventDist cat i k ≤ (win (cat i 5)).1 → cat k 5 < cat i 5) →
        (∀ k, k ≠ i → k ≠ j → eventDist cat i k ≤ (win (cat i 5)).1 → cat k 5 < cat j 5) → r.flag j ≠ 0 := by
  obtain ⟨t, win, s, ht, hw, hs, hr⟩ := af_ok cat opt w asc id1 r h
  have hid := argsort_perm _ _ h1
  subst hid
  refine ⟨t, win, (decimalYears_times cat t).mp ht, hw, ?_⟩
  set p := flipud asc with hp
  intro i j hi hji hdist htime hbig hnext
  have hf : ∀ j, r.flag j = s.flag (p.symm j) := by intro j; rw [hr]; rfl
  have hself : ∀ i, haversine ((cat ∘ p) i 3) ((cat ∘ p) i 4) ((cat ∘ p) i 3) ((cat ∘ p) i 4) ≤ ((fun j => (win (cat j 5)).1) ∘ p) i := by
    intro i
    rw [C49_self]
    exact (C47_windows_positive opt win hw _).1.le
  obtain ⟨s0, s1, hstep, hfree, hkeep⟩ := afLoop_at _ _ _ _ s hself hs (p.symm i)
  rw [hf] at hi ⊢
  intro hj
  have hij : p.symm i < p.symm j := pos_lt h0 (hbig j hji hdist)
  have hvi := hfree _ le_rfl hi
  have hvj := hfree _ hij.le hj
  have hmem : ∀ k, k ∈ afSel (cat ∘ p) ((fun j => (win (cat j 5)).1) ∘ p) s0 (p.symm i) ↔
      eventDist cat i (p k) ≤ (win (cat i 5)).1 ∧ s0.vcl k = 0 := by
    intro k; simp [afSel, eventDist]
  have hsorted : (afSel (cat ∘ p) ((fun j => (win (cat j 5)).1) ∘ p) s0 (p.symm i)).Pairwise (· < ·) :=
    (List.pairwise_lt_finRange n).filter _
  have himem : p.symm i ∈ afSel (cat ∘ p) ((fun j => (win (cat j 5)).1) ∘ p) s0 (p.symm i) :=
    (hmem _).mpr ⟨by have := hself (p.symm i); simpa [eventDist] using this, hvi⟩
  have hjmem : p.symm j ∈ afSel (cat ∘ p) ((fun j => (win (cat j 5)).1) ∘ p) s0 (p.symm i) :=
    (hmem _).mpr ⟨by simpa using hdist, hvj⟩
  cases hsel : afSel (cat ∘ p) ((fun j => (win (cat j 5)).1) ∘ p) s0 (p.symm i) with
  | nil => rw [hsel] at himem; simp at himem
  | cons x L =>
    rw [hsel] at himem hjmem hsorted hmem
    have hx : x = p.symm i := by
      rcases List.mem_cons.mp himem with e | e
      · exact e.symm
      · have hlt := (List.pairwise_cons.mp hsorted).1 _ e
        by_contra hne
        have h2 := hbig (p x) (fun hc => hne (by rw [← hc, Equiv.symm_apply_apply])) ((hmem x).mp (List.mem_cons_self ..)).1
        have h3 := pos_lt h0 h2
        rw [← hp, Equiv.symm_apply_apply] at h3
        exact absurd h3 (not_lt.mpr hlt.le)
    have hjL : p.symm j ∈ L := by
      rcases List.mem_cons.mp hjmem with e | e
      · rw [hx] at e; exact absurd (p.symm.injective e) hji
      · exact e
    cases L with
    | nil => simp at hjL
    | cons y L' =>
      have hy : y = p.symm j := by
        rcases List.mem_cons.mp hjL with e | e
        · exact e.symm
        · have hlt := (List.pairwise_cons.mp (List.pairwise_cons.mp hsorted).2).1 _ e
          have hxy := (List.pairwise_cons.mp hsorted).1 y (List.mem_cons_self ..)
          by_contra hne
          have h2 := hnext (p y) (fun hc => by rw [hx, ← hc, Equiv.symm_apply_apply] at hxy; exact lt_irrefl _ hxy)
            (fun hc => hne (by rw [← hc, Equiv.symm_apply_apply]))
            ((hmem y).mp (List.mem_cons_of_mem _ (List.mem_cons_self ..))).1
          have h3 := pos_lt h0 h2
          rw [← hp, Equiv.symm_apply_apply] at h3
          exact absurd h3 (not_lt.mpr hlt.le)
      refine absurd hj (hkeep _ (afStep_marks _ _ _ _ s0 s1 (p.symm i) x (y :: L') hstep hvi hsel (p.symm j) ?_))
      rw [abs_le] at htime
      simp only [List.map_cons, findAftershocksAux, List.zip_cons_cons, marked_cons, hx, hy, decide_true,
        Bool.true_and, Function.comp, Equiv.apply_symm_apply]
      by_cases hpos : 0 ≤ t j - t i
      · left
        have : (decide (t j - t i - (t i - t i) ≥ 0.0) && decide (t j - t i - (t i - t i) ≤ w / ((365 : ℕ) : ℝ))) = true := by
          simp only [Bool.and_eq_true, decide_eq_true_eq]
          constructor
          · norm_num; linarith
          · rw [Nat.cast_ofNat]; linarith [htime.2]
        rw [this]; simp
      · right
        have hA : (decide (t j - t i - (t i - t i) ≥ 0.0) && decide (t j - t i - (t i - t i) ≤ w / ((365 : ℕ) : ℝ))) = false := by
          rw [Bool.and_eq_false_iff]
          left
          rw [decide_eq_false_iff_not]
          norm_num
          linarith
        rw [hA, fore_false, marked_cons]
        have : (decide (t j - t i - (t i - t i) ≤ 0.0) && decide (t j - t i - (t i - t i) ≥ -(w / ((365 : ℕ) : ℝ)))) = true := by
          simp only [Bool.and_eq_true, decide_eq_true_eq]
          constructor
          · norm_num; linarith
          · rw [Nat.cast_ofNat]; linarith [htime.1]
        rw [this]; simp

/-- On events in chronological order, one without aftershock mark is later than the first by more than the window. -/
theorem unmarked_later (tw : ℝ) (d : Fin n → ℝ) (L : List (Fin n)) (x : ℝ) (hx : ∀ j ∈ L, x ≤ d j)
    (hL : L.Pairwise (fun a b => d a ≤ d b)) (j : Fin n) (hj : j ∈ L) (hm : marked L (findAftershocksAux tw x (L.map d)) j ≠ true) :
    tw < d j - x := by
  induction L generalizing x with
  | nil => simp at hj
  | cons y L ih =>
    simp only [List.map_cons, findAftershocksAux, marked_cons] at hm
    have hxy := hx y (List.mem_cons_self ..)
    rcases List.mem_cons.mp hj with rfl | hjL
    · by_contra hc
      apply hm
      have : (decide (d j - x ≥ 0.0) && decide (d j - x ≤ tw)) = true := by
        simp only [Bool.and_eq_true, decide_eq_true_eq]
        exact ⟨by norm_num; linarith, not_lt.mp hc⟩
      rw [this]; simp
    · rw [List.pairwise_cons] at hL
      have hm' : marked L (findAftershocksAux tw (if (decide (d y - x ≥ 0.0) && decide (d y - x ≤ tw)) = true then d y else x)
          (L.map d)) j ≠ true := by
        intro hc; apply hm; rw [hc]; simp
      split_ifs at hm' with hb
      · have := ih (d y) hL.1 hL.2 hjL hm'
        linarith
      · exact ih x (fun k hk => hx k (List.mem_cons_of_mem _ hk)) hL.2 hjL hm'

/-- Without a second event within the window of the first no event is marked. -/
theorem aft_none (tw x : ℝ) (l : List ℝ) (h : ∀ y ∈ l, tw < y - x) : findAftershocksAux tw x l = List.replicate l.length false := by
  induction l with
  | nil => rfl
  | cons y l ih =>
    have hy := h y (List.mem_cons_self ..)
    have : (decide (y - x ≥ 0.0) && decide (y - x ≤ tw)) = false := by
      rw [Bool.and_eq_false_iff]
      right
      rw [decide_eq_false_iff_not]
      linarith
    rw [findAftershocksAux, this, List.length_cons, List.replicate_succ]
    simp only [Bool.false_eq_true, if_false]
    rw [ih (fun z hz => h z (List.mem_cons_of_mem _ hz))]

theorem fore_none (tw x : ℝ) (l : List (ℝ × Bool)) (h : ∀ y ∈ l, 0 < y.1 - x ∧ y.2 = false) :
    findForeshocksAux tw x l = List.replicate l.length false := by
  induction l with
  | nil => rfl
  | cons y l ih =>
    obtain ⟨y, b⟩ := y
    obtain ⟨hy, hb⟩ := h _ (List.mem_cons_self ..)
    simp only at hy hb
    subst hb
    have : (decide (y - x ≤ 0.0) && decide (y - x ≥ -tw)) = false := by
      rw [Bool.and_eq_false_iff]
      left
      rw [decide_eq_false_iff_not]
      norm_num
      linarith
    rw [fore_false, this, List.length_cons, List.replicate_succ]
    simp only [Bool.false_eq_true, if_false]
    rw [ih (fun z hz => h z (List.mem_cons_of_mem _ hz))]

theorem marked_replicate (L : List (Fin n)) (k : Nat) (j : Fin n) : marked L (List.replicate k false) j = false := by
  rw [Bool.eq_false_iff]
  intro h
  rw [marked_iff] at h
  have := (List.of_mem_zip h).2
  rw [List.mem_replicate] at this
  simp at this

/-- All events in one distance window, none within the time window after the first: the loop finds nothing. -/
theorem afLoop_nothing (cat : Fin (n + 1) → Row ℝ) (t swSpace : Fin (n + 1) → ℝ) (tw : ℝ) (htw : 0 ≤ tw)
    (hD : ∀ i j, haversine (cat j 3) (cat j 4) (cat i 3) (cat i 4) ≤ swSpace i) (ht : ∀ j, j ≠ 0 → tw < t j - t 0)
    (s : State (n + 1)) (h : afLoop cat t swSpace tw = .ok s) : s = State.init (n + 1) := by
  refine foldlM_inv _ (fun s => s = State.init (n + 1)) _ ?_ (State.init (n + 1)) s rfl h
  rintro s i s' - rfl hf
  have hsel : afSel cat swSpace (State.init (n + 1)) i = 0 :: (List.finRange n).map Fin.succ := by
    rw [← List.finRange_succ]
    simp [afSel, hD, State.init]
  unfold afStep at hf
  rw [if_pos (show (State.init (n + 1)).vcl i = 0 from rfl), hsel] at hf
  simp only [findAftershocks, findForeshocks, List.map_cons, bind, Except.bind, List.tail_cons] at hf
  have hgap : ∀ y ∈ List.map (fun j => t j - t i) (List.map Fin.succ (List.finRange n)), tw < y - (t 0 - t i) := by
    intro y hy
    simp only [List.mem_map, List.mem_finRange, true_and, exists_exists_eq_and] at hy
    obtain ⟨k, rfl⟩ := hy
    have := ht k.succ (Fin.succ_ne_zero k)
    linarith
  rw [aft_none _ _ _ hgap, fore_none] at hf
  · rw [if_neg] at hf
    · simp only [Except.ok.injEq] at hf
      exact hf.symm
    · rw [not_lt]
      have : ∀ j, marked (0 :: (List.finRange n).map Fin.succ)
          (List.zipWith (· || ·) (true :: List.replicate (List.map (fun j => t j - t i) (List.map Fin.succ (List.finRange n))).length false)
            (false :: List.replicate ((List.map (fun j => t j - t i) (List.map Fin.succ (List.finRange n))).zip
              (List.replicate (List.map (fun j => t j - t i) (List.map Fin.succ (List.finRange n))).length false)).length false)) j =
          decide ((0 : Fin (n + 1)) = j) := by
        intro j
        rw [marked_or _ _ _ (by simp) (by simp), marked_cons, marked_cons, marked_replicate, marked_replicate]
        simp
      rw [List.countP_congr (q := fun j => decide ((0 : Fin (n + 1)) = j)) (fun j _ => by rw [this])]
      rw [List.finRange_succ, List.countP_cons]
      have h0 : List.countP (fun j => decide ((0 : Fin (n + 1)) = j)) ((List.finRange n).map Fin.succ) = 0 := by
        rw [List.countP_eq_zero]
        intro a ha
        obtain ⟨k, -, rfl⟩ := List.mem_map.mp ha
        simp [(Fin.succ_ne_zero k).symm]
      rw [h0]
      simp
  · rintro ⟨y, b⟩ hy
    have h1 := List.of_mem_zip hy
    have h2 := hgap y h1.1
    rw [List.mem_replicate] at h1
    exact ⟨by simp only; linarith, h1.2.2⟩

/-- The kept rows as a sub-catalogue. -/
theorem kept_emb (cat : Fin n → Row ℝ) (r : Result ℝ n) (hvm : r.vmain = ((List.finRange n).filter (fun j => r.flag j = 0)).map cat) :
    ∃ emb : Fin r.vmain.length → Fin n, Function.Injective emb ∧ (∀ j, r.vmain[j] = cat (emb j)) ∧ (∀ j, r.flag (emb j) = 0) ∧
      ∀ k, r.flag k = 0 → ∃ j, emb j = k := by
  set K := (List.finRange n).filter (fun j => r.flag j = 0) with hK
  have hlen : r.vmain.length = K.length := by rw [hvm, List.length_map]
  have hnd : K.Nodup := (List.nodup_finRange n).filter _
  refine ⟨fun j => K[j.val]'(by rw [← hlen]; exact j.isLt), ?_, ?_, ?_, ?_⟩
  · intro a b hab
    simp only [hnd.getElem_inj_iff] at hab
    exact Fin.ext hab
  · intro j
    have : r.vmain[j] = (K.map cat)[j.val]'(by rw [List.length_map, ← hlen]; exact j.isLt) := by
      simp only [Fin.getElem_fin]
      congr 1
    rw [this, List.getElem_map]
  · intro j
    have := List.getElem_mem (l := K) (by rw [← hlen]; exact j.isLt : j.val < K.length)
    have h2 := ((List.mem_filter (p := fun j => decide (r.flag j = 0)) (as := List.finRange n)).mp this).2
    simpa using h2
  · intro k hk
    have : k ∈ K := by simp [hK, hk]
    obtain ⟨i, hi, e⟩ := List.getElem_of_mem this
    exact ⟨⟨i, by rw [hlen]; exact hi⟩, e⟩

/-- All events in one distance window, in chronological order of decreasing magnitude: the largest event is kept and every other kept
event is later by more than the time window. -/
theorem first_gap {m : Nat} (cat : Fin (m + 1) → Row ℝ) (t sw : Fin (m + 1) → ℝ) (tw : ℝ) (s : State (m + 1))
    (h : afLoop cat t sw tw = .ok s) (hD : ∀ i j, haversine (cat j 3) (cat j 4) (cat i 3) (cat i 4) ≤ sw i)
    (ht : ∀ a b, a ≤ b → t a ≤ t b) : s.flag 0 = 0 ∧ ∀ k, s.flag k = 0 → k ≠ 0 → tw < t k - t 0 := by
  have hinv := afLoop_inv _ _ _ _ _ h
  constructor
  · by_cases hv : s.vcl 0 = 0
    · exact hinv.free 0 hv
    · have := hinv.range 0
      obtain ⟨i, hd, hC⟩ := hinv.clusters (s.vcl 0) (by omega) this.2
      have h0 : hd = 0 := Fin.le_zero_iff.mp (hC.first 0 rfl)
      rw [← h0]; exact hC.main.2
  · unfold afLoop at h
    rw [List.finRange_succ, List.foldlM_cons] at h
    simp only [bind, Except.bind] at h
    cases hf : afStep cat t sw tw (State.init (m + 1)) 0 with
    | error e => rw [hf] at h; simp at h
    | ok s1 =>
      rw [hf] at h
      simp only at h
      have hinv1 := afStep_inv cat t sw tw _ s1 0 (afInv_init cat t sw tw) hf
      have hkeep : ∀ j, s1.flag j ≠ 0 → s.flag j ≠ 0 := by
        intro j hj
        exact (foldlM_inv _ (fun s => AfInv cat t sw tw s ∧ s.flag j ≠ 0) _
          (fun s a s' _ hs hf => ⟨afStep_inv cat t sw tw s s' a hs.1 hf, afStep_keeps cat t sw tw s s' a hs.1 hf j hs.2⟩)
          s1 s ⟨hinv1, hj⟩ h).2
      have hsel : afSel cat sw (State.init (m + 1)) 0 = 0 :: (List.finRange m).map Fin.succ := by
        rw [← List.finRange_succ]
        simp [afSel, hD, State.init]
      intro k hk hk0
      have hmem : k ∈ (List.finRange m).map Fin.succ := by
        rw [List.mem_map]
        exact ⟨k.pred hk0, List.mem_finRange _, Fin.succ_pred k hk0⟩
      have := unmarked_later tw (fun j => t j - t 0) ((List.finRange m).map Fin.succ) (t 0 - t 0)
        (fun j _ => by have := ht 0 j (Fin.zero_le j); linarith)
        (by
          have := (List.pairwise_cons.mp (by rw [← List.finRange_succ]; exact List.pairwise_lt_finRange (m + 1) :
            (0 :: (List.finRange m).map Fin.succ).Pairwise (· < ·))).2
          exact this.imp (fun hab => by have := ht _ _ hab.le; linarith))
        k hmem (fun hc => hkeep k (afStep_marks cat t sw tw _ s1 0 0 _ hf rfl hsel k (Or.inl hc)) hk)
      linarith

/-- The second run of C117, for the kept events as a sub-catalogue. -/
theorem second_nothing {N : Nat} (cat : Fin n → Row ℝ) (hm : Function.Injective (fun j => cat j 5)) (opt : String) (w : ℝ)
    (hw0 : 0 ≤ w) (asc id1 : Equiv.Perm (Fin n)) (r : Result ℝ n) (h0 : IsArgsort (fun j => cat j 5) asc)
    (h1 : IsArgsort (flipud asc) id1) (h : afteran cat opt w asc id1 = .ok r)
    (hplace : ∀ win, timeDistWindow opt = .ok win → ∀ i j, eventDist cat i j ≤ (win (cat i 5)).1)
    (horder : ∀ t, Times cat t → ∀ i j, cat j 5 < cat i 5 → t i ≤ t j)
    (emb : Fin N → Fin n) (hinj : Function.Injective emb) (hflag : ∀ j, r.flag (emb j) = 0) (hsurj : ∀ k, r.flag k = 0 → ∃ j, emb j = k)
    (asc2 id2 : Equiv.Perm (Fin N)) (h2 : IsArgsort (fun j => cat (emb j) 5) asc2) (r2 : Result ℝ N)
    (hr2 : afteran (fun j => cat (emb j)) opt w asc2 id2 = .ok r2) : ∀ j, r2.flag j = 0 ∧ r2.vcl j = 0 := by
  obtain ⟨t, win, s, ht, hw, hs, hr⟩ := af_ok cat opt w asc id1 r h
  have hid := argsort_perm _ _ h1
  subst hid
  set p := flipud asc with hp
  have htimes := (decimalYears_times cat t).mp ht
  have hf : ∀ j, r.flag j = s.flag (p.symm j) := by intro j; rw [hr]; rfl
  obtain ⟨t2, win2, s2, ht2', hw2, hs2, hr2'⟩ := af_ok _ opt w asc2 id2 r2 hr2
  have hww : win2 = win := Except.ok.inj (hw2.symm.trans hw)
  subst hww
  have htt : t2 = fun j => t (emb j) := times_unique _ _ _ ((decimalYears_times _ _).mp ht2') (fun j => htimes (emb j))
  suffices hinit : s2 = State.init _ by
    intro j
    rw [hr2', hinit]
    exact ⟨rfl, rfl⟩
  cases N with
  | zero =>
    unfold afLoop at hs2
    simp only [List.finRange_zero, List.foldlM_nil, pure, Except.pure, Except.ok.injEq] at hs2
    exact hs2.symm
  | succ N =>
    have hn : 0 < n := (emb 0).pos
    obtain ⟨m, rfl⟩ : ∃ m, n = m + 1 := ⟨n - 1, by omega⟩
    have hdesc : ∀ a b : Fin (m + 1), a ≤ b → t (p a) ≤ t (p b) := by
      intro a b hab
      rcases hab.lt_or_eq with hlt | rfl
      · apply horder t htimes
        refine lt_of_le_of_ne (flipud_desc h0 a b hab) ?_
        intro hc
        exact hlt.ne (p.injective (hm hc)).symm
      · exact le_rfl
    obtain ⟨hz, hgap⟩ := first_gap _ _ _ _ s hs (fun i j => hplace win2 hw (p i) (p j)) hdesc
    have hfirst : emb (flipud asc2 0) = p 0 := by
      obtain ⟨a, ha⟩ := hsurj (p 0) (by rw [hf, Equiv.symm_apply_apply]; exact hz)
      have e1 := flipud_desc h2 0 ((flipud asc2).symm a) (Fin.zero_le _)
      rw [Equiv.apply_symm_apply, ha] at e1
      have e2 := flipud_desc h0 0 (p.symm (emb (flipud asc2 0))) (Fin.zero_le _)
      rw [← hp, Equiv.apply_symm_apply] at e2
      exact hm (le_antisymm e2 e1)
    refine afLoop_nothing _ _ _ _ (by positivity) ?_ ?_ s2 hs2
    · intro i j
      exact hplace win2 hw _ _
    · intro j hj
      simp only [Function.comp, htt, hfirst]
      have := hgap (p.symm (emb (flipud asc2 j))) (by rw [← hf]; exact hflag _) (by
        intro hc
        have hc' : emb (flipud asc2 j) = p 0 := by rw [← hc, Equiv.apply_symm_apply]
        rw [← hfirst] at hc'
        exact hj ((flipud asc2).injective (hinj hc')))
      simpa using this

/-- **C117, the part that holds**: if all events are in one another's distance windows and smaller events are not earlier than larger
ones, a second run of Afteran on the kept events removes nothing.  Missing: catalogues in which a smaller event precedes a larger
one (`C117_fails`). -/
theorem C117_afteran_idempotent_partial (cat : Fin n → Row ℝ) (hm : Function.Injective (fun j => cat j 5)) (opt : String) (w : ℝ)
    (hw0 : 0 ≤ w) (asc id1 : Equiv.Perm (Fin n)) (r : Result ℝ n) (h0 : IsArgsort (fun j => cat j 5) asc)
    (h1 : IsArgsort (flipud asc) id1) (h : afteran cat opt w asc id1 = .ok r)
    (hplace : ∀ win, timeDistWindow opt = .ok win → ∀ i j, eventDist cat i j ≤ (win (cat i 5)).1)
    (horder : ∀ t, Times cat t → ∀ i j, cat j 5 < cat i 5 → t i ≤ t j)
    (asc2 id2 : Equiv.Perm (Fin r.vmain.length))
    (h2 : IsArgsort (fun j : Fin r.vmain.length => r.vmain[j] 5) asc2) (h3 : IsArgsort (flipud asc2) id2) :
    ∃ r2, afteran (fun j : Fin r.vmain.length => r.vmain[j]) opt w asc2 id2 = .ok r2 ∧
      r2.vmain = r.vmain ∧ ∀ j, r2.flag j = 0 ∧ r2.vcl j = 0 := by
  obtain ⟨-, hvm⟩ := C34_afteran_mainshocks cat opt w asc id1 r h1 h
  obtain ⟨emb, hinj, hcat, hflag, hsurj⟩ := kept_emb cat r hvm
  obtain ⟨t, win, s, ht, hw, hs, hr⟩ := af_ok cat opt w asc id1 r h
  have htimes := (decimalYears_times cat t).mp ht
  have hcat2 : (fun j : Fin r.vmain.length => r.vmain[j]) = fun j => cat (emb j) := funext hcat
  obtain ⟨r2, hr2⟩ := (C34_afteran_succeeds (fun j => cat (emb j)) opt w asc2 id2).mpr
    ⟨((C34_afteran_succeeds cat opt w asc id1).mp ⟨r, h⟩).1, _, fun j => htimes (emb j)⟩
  have h2' : IsArgsort (fun j => cat (emb j) 5) asc2 := by
    have e : (fun j : Fin r.vmain.length => r.vmain[j] 5) = fun j => cat (emb j) 5 := by
      funext j; rw [hcat]
    rw [e] at h2
    exact h2
  have hall := second_nothing cat hm opt w hw0 asc id1 r h0 h1 h hplace horder emb hinj hflag hsurj asc2 id2 h2' r2 hr2
  rw [hcat2]
  refine ⟨r2, hr2, ?_, hall⟩
  obtain ⟨-, hvm2⟩ := C34_afteran_mainshocks _ opt w asc2 id2 r2 h3 hr2
  rw [hvm2]
  have : (List.finRange r.vmain.length).filter (fun j => r2.flag j = 0) = List.finRange r.vmain.length := by
    rw [List.filter_eq_self]
    intro j _
    simp [(hall j).1]
  rw [this, ← hcat2]
  apply List.ext_getElem
  · simp
  · intro i h1 h2
    simp

end

/-! ### Concrete runs -/

/-- Distances of events at one place. -/
theorem one_place {m : Nat} (mag : Fin m → ℝ) (i j : Fin m) : (fun _ _ => true : Fin m → Fin m → Bool) i j = true ↔
    6371.227 * (Real.pi / 180 * |(fun _ => 0 : Fin m → ℝ) j - (fun _ => 0 : Fin m → ℝ) i|) ≤ (gkWindow (mag i)).1 := by
  have := (C47_windows_positive "GardnerKnopoff" gkWindow gk_opt (mag i)).1
  simp [this.le]

/-- Magnitude 6 on 1 January 2000, magnitude 5 on 1 January 2005, magnitude 4 on 6 January 2005, all at one place. -/
noncomputable def cat116 : Fin 3 → Row ℝ := evs ![2000, 2005, 2005] ![1, 1, 6] (fun _ => 0) ![6, 5, 4]

theorem run116 : afteran cat116 "GardnerKnopoff" 12 Fin.revPerm (Equiv.refl _) =
    .ok ⟨![0, 0, 0], unflagged cat116 ![0, 0, 0], ![0, 0, 0]⟩ := by
  have h := evs_af ![2000, 2005, 2005] ![1, 1, 6] (fun _ => 0) ![6, 5, 4] "GardnerKnopoff" 12 gkWindow gk_opt (fun _ _ => true)
    (by intro i j; norm_num) (one_place _) ![0, 0, 0] ![0, 0, 0] (by decide)
  exact_mod_cast h

theorem cat116_desc (a b : Fin 3) (h : a ≤ b) : cat116 b 5 ≤ cat116 a 5 := by
  revert h
  fin_cases a <;> fin_cases b <;> simp [cat116, evs, ev] <;> norm_num

/-- The events of a catalogue at one place lie in each other's distance windows. -/
theorem evs_place {m : Nat} (year day : Fin m → ℤ) (mag : Fin m → ℝ) (i j : Fin m) :
    eventDist (evs year day (fun _ => 0) mag) i j ≤ (gkWindow (evs year day (fun _ => 0) mag i 5)).1 := by
  have h := (one_place mag i j).mp rfl
  rw [← evs_dist year day (fun _ => 0) mag i j (by norm_num)] at h
  exact h

/-- **C116 is false of the code**: the magnitude 4 event five days after the magnitude 5 event at the same place is kept with it, because
every search starts from the magnitude 6 event, five years earlier. -/
theorem C116_fails :
    ¬ ∀ (n : Nat) (cat : Fin n → Row ℝ) (opt : String) (w : ℝ) (asc id1 : Equiv.Perm (Fin n)) (r : Result ℝ n) (t : Fin n → ℝ)
      (win : ℝ → ℝ × ℝ), IsArgsort (fun j => cat j 5) asc → IsArgsort (flipud asc) id1 → afteran cat opt w asc id1 = .ok r →
      Times cat t → timeDistWindow opt = .ok win →
      ∀ i j, r.flag i = 0 → cat j 5 < cat i 5 → eventDist cat i j ≤ (win (cat i 5)).1 → |t j - t i| ≤ w / 365 → r.flag j ≠ 0 := by
  intro hall
  have h := hall 3 cat116 "GardnerKnopoff" 12 Fin.revPerm (Equiv.refl _) _ (evTimes ![2000, 2005, 2005] ![1, 1, 6]) gkWindow
    (argsort_rev _ cat116_desc) argsort_flip_rev run116 (evs_times _ _ _ _) gk_opt 1 2 rfl (by simp [cat116, evs, ev]; norm_num)
    (evs_place _ _ _ 1 2) (by simp [evTimes, abs_le]; norm_num)
  simp at h

/-- Magnitude 6 on 1 January 2000, magnitude 5 ten days later and magnitude 4 five days before that, all at one place. -/
noncomputable def cat117 : Fin 3 → Row ℝ := evs ![2000, 2000, 2000] ![1, 11, 6] (fun _ => 0) ![6, 5, 4]

theorem run117 : afteran cat117 "GardnerKnopoff" 12 Fin.revPerm (Equiv.refl _) =
    .ok ⟨![1, 1, 0], [cat117 0, cat117 2], ![0, 1, 0]⟩ := by
  have h := evs_af ![2000, 2000, 2000] ![1, 11, 6] (fun _ => 0) ![6, 5, 4] "GardnerKnopoff" 12 gkWindow gk_opt (fun _ _ => true)
    (by intro i j; norm_num) (one_place _) ![1, 1, 0] ![0, 1, 0] (by decide)
  have hu : unflagged cat117 ![0, 1, 0] = [cat117 0, cat117 2] := by
    simp [unflagged, List.finRange_succ]
  rw [← hu]
  exact_mod_cast h

theorem cat117_desc (a b : Fin 3) (h : a ≤ b) : cat117 b 5 ≤ cat117 a 5 := by
  revert h
  fin_cases a <;> fin_cases b <;> simp [cat117, evs, ev] <;> norm_num

theorem run117_again : afteran (evs ![2000, 2000] ![1, 6] (fun _ => 0) ![6, 4]) "GardnerKnopoff" 12 Fin.revPerm (Equiv.refl _) =
    .ok ⟨![1, 1], unflagged (evs ![2000, 2000] ![1, 6] (fun _ => 0) ![6, 4]) ![0, 1], ![0, 1]⟩ := by
  have h := evs_af ![2000, 2000] ![1, 6] (fun _ => 0) ![6, 4] "GardnerKnopoff" 12 gkWindow gk_opt (fun _ _ => true)
    (by intro i j; norm_num) (one_place _) ![1, 1] ![0, 1] (by decide)
  exact_mod_cast h

/-- **C117 is false of the code**: the first run removes the magnitude 5 event and keeps the magnitude 4 event, the second run removes the
magnitude 4 event. -/
theorem C117_fails :
    ¬ ∀ (n : Nat) (cat : Fin n → Row ℝ) (opt : String) (w : ℝ) (asc id1 : Equiv.Perm (Fin n)) (r : Result ℝ n),
      Function.Injective (fun j => cat j 5) → IsArgsort (fun j => cat j 5) asc → IsArgsort (flipud asc) id1 →
      afteran cat opt w asc id1 = .ok r →
      ∀ (asc2 id2 : Equiv.Perm (Fin r.vmain.length)) (r2 : Result ℝ r.vmain.length),
        IsArgsort (fun j : Fin r.vmain.length => r.vmain[j] 5) asc2 → IsArgsort (flipud asc2) id2 →
        afteran (fun j : Fin r.vmain.length => r.vmain[j]) opt w asc2 id2 = .ok r2 → ∀ j, r2.flag j = 0 := by
  intro hall
  have hinj : Function.Injective (fun j => cat117 j 5) := by
    intro a b hab
    revert hab
    fin_cases a <;> fin_cases b <;> simp [cat117, evs, ev]
  have h := hall 3 cat117 "GardnerKnopoff" 12 Fin.revPerm (Equiv.refl _) ⟨![1, 1, 0], [cat117 0, cat117 2], ![0, 1, 0]⟩ hinj
    (argsort_rev _ cat117_desc) argsort_flip_rev run117 
  have hc : (fun j : Fin 2 => [cat117 0, cat117 2][j]) = evs ![2000, 2000] ![1, 6] (fun _ => 0) ![6, 4] := by
    funext j
    fin_cases j <;> rfl
  have h2 := h (Fin.revPerm : Equiv.Perm (Fin 2)) (Equiv.refl _) ⟨![1, 1], unflagged (evs ![2000, 2000] ![1, 6] (fun _ => 0) ![6, 4]) ![0, 1], ![0, 1]⟩
    (argsort_rev (fun j : Fin 2 => [cat117 0, cat117 2][j] 5) (by
      intro a b hab
      revert hab
      fin_cases a <;> fin_cases b <;> simp [cat117, evs, ev] <;> norm_num)) argsort_flip_rev
    ((congrArg (fun c => afteran c "GardnerKnopoff" 12 Fin.revPerm (Equiv.refl _)) hc).trans run117_again) (1 : Fin 2)
  simp at h2

/-- C115: a kept magnitude 6 event with a smaller event in its windows. -/
example : ∃ r, gardnerKnopoff (evs ![2000, 2000] ![1, 6] (fun _ => 0) ![6, 4]) "GardnerKnopoff" 0.5 Fin.revPerm (Equiv.refl _) = .ok r ∧
    IsArgsort (fun j => evs ![2000, 2000] ![1, 6] (fun _ => 0) ![6, 4] j 5) Fin.revPerm ∧ r.flag 0 = 0 ∧
    InWindows (evs ![2000, 2000] ![1, 6] (fun _ => 0) ![6, 4]) (evTimes ![2000, 2000] ![1, 6]) gkWindow 0.5 0 1 := by
  have hsel : ∀ i j : Fin 2, i.val + 1 < 2 →
      Sel (evs ![2000, 2000] ![1, 6] (fun _ => 0) ![6, 4]) (evTimes ![2000, 2000] ![1, 6]) gkWindow 0.5 i j = true := by
    obtain ⟨-, ⟨b1, b2, b3⟩, -⟩ := gk_windows_examples
    intro i j hi
    rw [evs_windows _ _ _ _ _ _ _ _ (by norm_num)]
    fin_cases i <;> fin_cases j <;> simp at hi ⊢ <;> norm_num <;> repeat' apply And.intro
    all_goals linarith
  have h := evs_gk ![2000, 2000] ![1, 6] (fun _ => 0) ![6, 4] "GardnerKnopoff" 0.5 gkWindow gk_opt (fun _ _ => true) hsel
  simp only at h
  refine ⟨_, h, argsort_rev _ ?_, by decide, (sel_iff ..).mp (hsel 0 1 (by norm_num))⟩
  intro a b hab
  revert hab
  fin_cases a <;> fin_cases b <;> simp [evs, ev] <;> norm_num

/-- C116 (partial): in the second run on `cat117` the magnitude 4 event is the largest of the others. -/
example : ∃ r, afteran (evs ![2000, 2000] ![1, 6] (fun _ => 0) ![6, 4]) "GardnerKnopoff" 12 Fin.revPerm (Equiv.refl _) = .ok r ∧
    r.flag 0 = 0 ∧ |evTimes ![2000, 2000] ![1, 6] 1 - evTimes ![2000, 2000] ![1, 6] 0| ≤ 12 / 365 ∧
    (∀ k, k ≠ 0 → evs ![2000, 2000] ![1, 6] (fun _ => 0) ![6, 4] k 5 < evs ![2000, 2000] ![1, 6] (fun _ => 0) ![6, 4] 0 5) ∧
    ∀ k : Fin 2, k ≠ 0 → k ≠ 1 → False := by
  refine ⟨_, run117_again, rfl, ?_, ?_, ?_⟩
  · simp [evTimes, abs_le]; norm_num
  · intro k hk
    fin_cases k
    · simp at hk
    · simp [evs, ev]; norm_num
  · decide

/-- C117 (partial): the catalogue of `C116_fails` meets the hypotheses. -/
example : Function.Injective (fun j => cat116 j 5) ∧
    (∀ win, timeDistWindow "GardnerKnopoff" = .ok win → ∀ i j, eventDist cat116 i j ≤ (win (cat116 i 5)).1) ∧
    ∀ t, Times cat116 t → ∀ i j, cat116 j 5 < cat116 i 5 → t i ≤ t j := by
  refine ⟨?_, ?_, ?_⟩
  · intro a b hab
    revert hab
    fin_cases a <;> fin_cases b <;> simp [cat116, evs, ev]
  · intro win hw i j
    rw [gk_opt] at hw
    cases hw
    exact evs_place _ _ _ i j
  · intro t ht i j
    have htt := times_unique _ t _ ht (evs_times _ _ _ _)
    subst htt
    fin_cases i <;> fin_cases j <;> simp [cat116, evs, ev, evTimes] <;> norm_num

end Verif.Declustering
