import Verif.Lemmas.Afteran

/-!
# The Afteran loop: what a search removes for good
-/

namespace Verif.Declustering

open Verif Verif.CatUtil

section
variable {F : Type} [PyMath F] {n : Nat}

/-- Every event marked in a search is flagged. -/
theorem afStep_marks (cat : Fin n → Row F) (t swSpace : Fin n → F) (tw : F) (s s' : State n) (i x : Fin n) (L : List (Fin n))
    (h : afStep cat t swSpace tw s i = .ok s') (h0 : s.vcl i = 0) (hsel : afSel cat swSpace s i = x :: L) (j : Fin n)
    (hj : marked L (findAftershocksAux tw (t x - t i) (L.map (fun j => t j - t i))) j = true ∨
      marked L (findForeshocksAux tw (t x - t i) ((L.map (fun j => t j - t i)).zip
        (findAftershocksAux tw (t x - t i) (L.map (fun j => t j - t i))))) j = true) :
    s'.flag j ≠ 0 := by
  have hnd : (x :: L).Nodup := by rw [← hsel]; exact (List.nodup_finRange n).filter _
  have hxL : x ∉ L := (List.nodup_cons.mp hnd).1
  unfold afStep at h
  rw [if_pos h0, hsel] at h
  set d : Fin n → F := fun j => t j - t i with hd
  set A := findAftershocksAux tw (d x) (L.map d) with hA
  set B := findForeshocksAux tw (d x) ((L.map d).zip A) with hB
  have hAl : A.length = L.length := by rw [hA, length_aft, List.length_map]
  have hBl : B.length = L.length := by rw [hB, length_fore]; simp [hAl]
  simp only [findAftershocks, findForeshocks, List.map_cons, bind, Except.bind, List.tail_cons] at h
  rw [← hA, ← hB] at h
  set temp := marked (x :: L) (List.zipWith (· || ·) (true :: A) (false :: B)) with htemp
  have htj : ∀ j, temp j = true ↔ j = x ∨ marked L A j = true ∨ marked L B j = true := by
    intro j
    rw [htemp, marked_or _ _ _ (by simp [hAl]) (by simp [hBl]), marked_cons, marked_cons]
    simp only [Bool.and_true, Bool.and_false, Bool.false_or, Bool.or_eq_true, decide_eq_true_eq]
    rw [eq_comm (a := x), or_assoc]
  have hjx : j ≠ x := by
    rintro rfl
    rcases hj with hj | hj <;> exact hxL (marked_mem _ _ _ hj)
  have hc : (List.finRange n).countP temp > 1 := by
    have hle : List.countP (fun k => decide (k ∈ [x, j])) (List.finRange n) ≤ (List.finRange n).countP temp := by
      apply List.countP_mono_left
      intro k _ hk
      simp only [decide_eq_true_eq, List.mem_cons, List.not_mem_nil, or_false] at hk
      rw [htj]
      rcases hk with rfl | rfl
      · exact Or.inl rfl
      · exact Or.inr hj
    have : 2 ≤ List.countP (fun k => decide (k ∈ [x, j])) (List.finRange n) := by
      rw [List.countP_eq_length_filter]
      have hsub : [x, j] ⊆ (List.finRange n).filter (fun k => decide (k ∈ [x, j])) := by
        intro k hk; simp only [List.mem_filter, List.mem_finRange, true_and, decide_eq_true_eq]; exact hk
      have hn : [x, j].Nodup := by simp [Ne.symm hjx]
      have := (List.Nodup.subperm hn hsub).length_le
      simpa using this
    omega
  rw [if_pos hc] at h
  simp only [Except.ok.injEq] at h
  rw [← h]
  simp only [List.set_cons_zero, marked_cons, Bool.and_false, Bool.false_or]
  rcases hj with hj | hj
  · by_cases hb : marked L B j = true
    · simp [hb]
    · simp [hb, hj]
  · simp [hj]

/-- A flag that is not 0 stays. -/
theorem afStep_keeps (cat : Fin n → Row F) (t swSpace : Fin n → F) (tw : F) (s s' : State n) (i : Fin n)
    (hi : AfInv cat t swSpace tw s) (h : afStep cat t swSpace tw s i = .ok s') (j : Fin n) (hj : s.flag j ≠ 0) : s'.flag j ≠ 0 := by
  rcases afStep_spec cat t swSpace tw s s' i h with rfl | ⟨hd, T, hN⟩
  · exact hj
  · have : ¬ T j := fun hT => hj (hi.free j (hN.old j hT))
    rw [(hN.rest j this).2]
    exact hj

theorem foldlM_append_ok {σ α ε : Type} (f : σ → α → Except ε σ) (l l' : List α) (s s' : σ) (h : (l ++ l').foldlM f s = .ok s') :
    ∃ s1, l.foldlM f s = .ok s1 ∧ l'.foldlM f s1 = .ok s' := by
  induction l generalizing s with
  | nil => exact ⟨s, rfl, h⟩
  | cons a l ih =>
    simp only [List.cons_append, List.foldlM_cons, bind, Except.bind] at h ⊢
    cases hf : f s a with
    | error e => rw [hf] at h; simp at h
    | ok s1 =>
      rw [hf] at h
      exact ih s1 h

/-- Splitting the loop at event `i`: before its search an event from `i` on that is kept in the end is in no cluster. -/
theorem afLoop_at (cat : Fin n → Row F) (t swSpace : Fin n → F) (tw : F) (s : State n)
    (hself : ∀ i, haversine (cat i 3) (cat i 4) (cat i 3) (cat i 4) ≤ swSpace i)
    (h : afLoop cat t swSpace tw = .ok s) (i : Fin n) :
    ∃ s0 s1, afStep cat t swSpace tw s0 i = .ok s1 ∧ (∀ j, i ≤ j → s.flag j = 0 → s0.vcl j = 0) ∧
      ∀ j, s1.flag j ≠ 0 → s.flag j ≠ 0 := by
  obtain ⟨pre, post, hsplit⟩ := List.append_of_mem (List.mem_finRange i)
  have hlt := List.pairwise_lt_finRange n
  rw [hsplit, List.pairwise_append] at hlt
  have hpre : ∀ k ∈ pre, k < i := fun k hk => hlt.2.2 k hk i (List.mem_cons_self ..)
  unfold afLoop at h
  rw [hsplit] at h
  obtain ⟨s0, hs0, hs⟩ := foldlM_append_ok _ _ _ _ _ h
  simp only [List.foldlM_cons, bind, Except.bind] at hs
  cases hf : afStep cat t swSpace tw s0 i with
  | error e => rw [hf] at hs; simp at hs
  | ok s1 =>
    rw [hf] at hs
    simp only at hs
    have hinv0 : AfInv cat t swSpace tw s0 :=
      foldlM_inv _ (AfInv cat t swSpace tw) _ (fun s i s' _ hs hf => afStep_inv cat t swSpace tw s s' i hs hf) _ _
        (afInv_init cat t swSpace tw) hs0
    have hinv1 := afStep_inv cat t swSpace tw s0 s1 i hinv0 hf
    have hkeep : ∀ j, s1.flag j ≠ 0 → s.flag j ≠ 0 := by
      intro j hj
      exact (foldlM_inv _ (fun s => AfInv cat t swSpace tw s ∧ s.flag j ≠ 0) post
        (fun s a s' _ hs hf => ⟨afStep_inv cat t swSpace tw s s' a hs.1 hf, afStep_keeps cat t swSpace tw s s' a hs.1 hf j hs.2⟩)
        s1 s ⟨hinv1, hj⟩ hs).2
    refine ⟨s0, s1, hf, ?_, hkeep⟩
    -- before the search
    intro j hij hj
    have hP : AfInv cat t swSpace tw s0 ∧ ∀ j, i ≤ j → s0.vcl j = 0 ∨ s0.flag j ≠ 0 := by
      refine foldlM_inv _ (fun s => AfInv cat t swSpace tw s ∧ ∀ j, i ≤ j → s.vcl j = 0 ∨ s.flag j ≠ 0) pre ?_ (State.init n) s0
        ⟨afInv_init cat t swSpace tw, fun j _ => Or.inl rfl⟩ hs0
      rintro s k s' hk ⟨hi, hall⟩ hf
      refine ⟨afStep_inv cat t swSpace tw s s' k hi hf, ?_⟩
      intro j hij
      rcases afStep_spec cat t swSpace tw s s' k hf with rfl | ⟨hd, T, hN⟩
      · exact hall j hij
      · have hk0 : s.vcl k = 0 := by
          by_contra hz
          unfold afStep at hf; rw [if_neg hz] at hf
          simp only [Except.ok.injEq] at hf
          have := hN.clust
          rw [← hf] at this
          omega
        have hdk : hd ≤ k := hN.first k hk0 (hself k)
        by_cases hT : T j
        · right
          have hjd : j ≠ hd := by
            rintro rfl
            exact absurd (lt_of_le_of_lt hdk (hpre k hk)) (not_lt.mpr hij)
          rcases hN.flags j hjd hT with ⟨a, -⟩ | ⟨a, -⟩ <;> rw [a] <;> norm_num
        · rw [(hN.rest j hT).1, (hN.rest j hT).2]
          exact hall j hij
    rcases hP.2 j hij with h0 | h0
    · exact h0
    · exact absurd hj (hkeep j (afStep_keeps cat t swSpace tw s0 s1 i hinv0 hf j h0))

end

end Verif.Declustering
