import Verif.Lemmas.GardnerKnopoff
import Mathlib.Logic.Relation
import Mathlib.Data.List.Nodup
import Mathlib.Data.List.FinRange

/-!
# The Afteran loop: what one search does, and the invariant of the loop
-/

namespace Verif.Declustering

open Verif Verif.CatUtil

theorem rtg_mono {α : Type} {r r' : α → α → Prop} (h : ∀ a b, r a b → r' a b) {a b : α} (hab : Relation.ReflTransGen r a b) :
    Relation.ReflTransGen r' a b := by
  induction hab with
  | refl => exact .refl
  | tail _ hbc ih => exact ih.tail (h _ _ hbc)

theorem rtg_lift {α : Type} {r r' : α → α → Prop} (f : α → α) (h : ∀ a b, r a b → r' (f a) (f b)) {a b : α}
    (hab : Relation.ReflTransGen r a b) : Relation.ReflTransGen r' (f a) (f b) := by
  induction hab with
  | refl => exact .refl
  | tail _ hbc ih => exact ih.tail (h _ _ hbc)

section
variable {F : Type} [PyNum F]

theorem length_aft (tw : F) (x : F) (l : List F) : (findAftershocksAux tw x l).length = l.length := by
  induction l generalizing x with
  | nil => rfl
  | cons t ts ih => simp [findAftershocksAux, ih]

theorem fore_false (tw x t : F) (ts : List (F × Bool)) : findForeshocksAux tw x ((t, false) :: ts) =
    (decide (t - x ≤ 0.0) && decide (t - x ≥ -tw)) ::
      findForeshocksAux tw (if (decide (t - x ≤ 0.0) && decide (t - x ≥ -tw)) then t else x) ts := by
  rw [findForeshocksAux.eq_def]
  simp only [Bool.false_eq_true, if_false]

theorem length_fore (tw : F) (x : F) (l : List (F × Bool)) : (findForeshocksAux tw x l).length = l.length := by
  induction x, l using findForeshocksAux.induct tw with
  | case1 => simp [findForeshocksAux]
  | case2 => simp [findForeshocksAux]
  | case3 x t hd ts' ih => simp [findForeshocksAux, ih]
  | case4 x t a ts ha ddt b ih =>
    have ha : a = false := by simpa using ha
    subst ha
    rw [fore_false, List.length_cons, List.length_cons, ih]

/-- A foreshock mark is only given to events without aftershock mark. -/
theorem fore_disjoint (tw : F) (x : F) (l : List (F × Bool)) (k : Nat) (h : (findForeshocksAux tw x l)[k]? = some true) :
    ∃ t, l[k]? = some (t, false) := by
  induction x, l using findForeshocksAux.induct tw generalizing k with
  | case1 => simp [findForeshocksAux] at h
  | case2 => cases k <;> simp [findForeshocksAux] at h
  | case3 x t hd ts' ih =>
    rcases k with _ | _ | k
    · simp [findForeshocksAux] at h
    · simp [findForeshocksAux] at h
    · simp only [findForeshocksAux, if_true, List.getElem?_cons_succ] at h ⊢
      exact ih k h
  | case4 x t a ts ha ddt b ih =>
    have ha : a = false := by simpa using ha
    subst ha
    rcases k with _ | k
    · exact ⟨t, rfl⟩
    · rw [fore_false] at h
      simp only [List.getElem?_cons_succ] at h ⊢
      exact ih k h

variable {n : Nat}

/-- Chain of marked aftershocks: each next event is not earlier than the previous one, nor later by more than the time window. -/
theorem aft_chain (tw : F) (d : Fin n → F) (h : Fin n) (L : List (Fin n)) (p : Fin n)
    (hp : (p, true) ∈ L.zip (findAftershocksAux tw (d h) (L.map d))) :
    Relation.ReflTransGen (fun a b => (d b - d a ≥ 0.0 ∧ d b - d a ≤ tw) ∧
      (b, true) ∈ L.zip (findAftershocksAux tw (d h) (L.map d))) h p := by
  induction L generalizing h with
  | nil => simp at hp
  | cons x L ih =>
    simp only [List.map_cons, findAftershocksAux, List.zip_cons_cons, List.mem_cons, Prod.mk.injEq] at hp ⊢
    by_cases hb : d x - d h ≥ 0.0 ∧ d x - d h ≤ tw
    · have hb' : (decide (d x - d h ≥ 0.0) && decide (d x - d h ≤ tw)) = true := by simp [hb.1, hb.2]
      rw [hb'] at hp ⊢
      simp only [if_true, and_true] at hp ⊢
      have hfirst : Relation.ReflTransGen (fun a b => (d b - d a ≥ 0.0 ∧ d b - d a ≤ tw) ∧
          (b = x ∨ (b, true) ∈ L.zip (findAftershocksAux tw (d x) (L.map d)))) h x :=
        Relation.ReflTransGen.single ⟨hb, Or.inl rfl⟩
      rcases hp with rfl | hp
      · exact hfirst
      · exact hfirst.trans (rtg_mono (fun a b hab => ⟨hab.1, Or.inr hab.2⟩) (ih x hp))
    · have hb' : (decide (d x - d h ≥ 0.0) && decide (d x - d h ≤ tw)) = false := by
        rw [Bool.eq_false_iff]; intro hc; apply hb; simpa using hc
      rw [hb'] at hp ⊢
      simp only [Bool.false_eq_true, if_false, Bool.true_eq_false, and_false, false_or] at hp ⊢
      exact ih h hp

/-- Chain of marked foreshocks. -/
theorem fore_chain (tw : F) (d : Fin n → F) (h : Fin n) (L : List (Fin n)) (A : List Bool) (hA : A.length = L.length) (p : Fin n)
    (hp : (p, true) ∈ L.zip (findForeshocksAux tw (d h) ((L.map d).zip A))) :
    Relation.ReflTransGen (fun a b => (d b - d a ≤ 0.0 ∧ d b - d a ≥ -tw) ∧
      (b, true) ∈ L.zip (findForeshocksAux tw (d h) ((L.map d).zip A))) h p := by
  induction hlen : L.length using Nat.strong_induction_on generalizing L A h with
  | _ m ih =>
    rcases L with _ | ⟨x, L⟩
    · simp at hp
    rcases A with _ | ⟨a, A⟩
    · simp at hA
    simp only [List.length_cons, Nat.add_right_cancel_iff] at hA
    simp only [List.map_cons, List.zip_cons_cons] at hp ⊢
    cases a with
    | true =>
      rcases L with _ | ⟨y, L⟩
      · simp [findForeshocksAux] at hp
      rcases A with _ | ⟨a', A⟩
      · simp at hA
      simp only [List.map_cons, List.zip_cons_cons, findForeshocksAux, if_true, List.mem_cons, Prod.mk.injEq, Bool.true_eq_false,
        and_false, false_or] at hp ⊢
      simp only [List.length_cons, Nat.add_right_cancel_iff] at hA
      exact ih L.length (by simp at hlen; omega) h L A hA hp rfl
    | false =>
      simp only [fore_false, List.zip_cons_cons, List.mem_cons, Prod.mk.injEq] at hp ⊢
      by_cases hb : d x - d h ≤ 0.0 ∧ d x - d h ≥ -tw
      · have hb' : (decide (d x - d h ≤ 0.0) && decide (d x - d h ≥ -tw)) = true := by simp [hb.1, hb.2]
        rw [hb'] at hp ⊢
        simp only [if_true, and_true] at hp ⊢
        have hfirst : Relation.ReflTransGen (fun a b => (d b - d a ≤ 0.0 ∧ d b - d a ≥ -tw) ∧
            (b = x ∨ (b, true) ∈ L.zip (findForeshocksAux tw (d x) ((L.map d).zip A)))) h x :=
          Relation.ReflTransGen.single ⟨hb, Or.inl rfl⟩
        rcases hp with rfl | hp
        · exact hfirst
        · exact hfirst.trans (rtg_mono (fun a b hab => ⟨hab.1, Or.inr hab.2⟩)
            (ih L.length (by simp at hlen; omega) x L A hA hp rfl))
      · have hb' : (decide (d x - d h ≤ 0.0) && decide (d x - d h ≥ -tw)) = false := by
          rw [Bool.eq_false_iff]; intro hc; apply hb; simpa using hc
        rw [hb'] at hp ⊢
        simp only [Bool.false_eq_true, if_false, Bool.true_eq_false, and_false, false_or] at hp ⊢
        exact ih L.length (by simp at hlen; omega) h L A hA hp rfl

theorem marked_iff (sel : List (Fin n)) (marks : List Bool) (j : Fin n) : marked sel marks j = true ↔ (j, true) ∈ sel.zip marks := by
  simp only [marked, List.any_eq_true, Bool.and_eq_true, decide_eq_true_eq]
  constructor
  · rintro ⟨⟨p, b⟩, hm, rfl, rfl⟩; exact hm
  · intro h; exact ⟨_, h, rfl, rfl⟩

theorem marked_cons (h : Fin n) (L : List (Fin n)) (m : Bool) (ms : List Bool) (j : Fin n) :
    marked (h :: L) (m :: ms) j = ((decide (h = j) && m) || marked L ms j) := by
  simp [marked]

theorem marked_or (sel : List (Fin n)) (a b : List Bool) (ha : a.length = sel.length) (hb : b.length = sel.length) (j : Fin n) :
    marked sel (List.zipWith (· || ·) a b) j = (marked sel a j || marked sel b j) := by
  induction sel generalizing a b with
  | nil => simp [marked]
  | cons x L ih =>
    rcases a with _ | ⟨a, as⟩
    · simp at ha
    rcases b with _ | ⟨b, bs⟩
    · simp at hb
    simp only [List.zipWith_cons_cons, marked_cons]
    rw [ih as bs (by simpa using ha) (by simpa using hb)]
    cases decide (x = j) <;> cases a <;> cases b <;> simp

theorem marked_mem (sel : List (Fin n)) (marks : List Bool) (j : Fin n) (h : marked sel marks j = true) : j ∈ sel := by
  rw [marked_iff] at h
  exact (List.of_mem_zip h).1

/-- Aftershock and foreshock marks of one search never coincide. -/
theorem marks_disjoint (tw : F) (x : F) (d : Fin n → F) (L : List (Fin n)) (hnd : L.Nodup) (A : List Bool)
    (j : Fin n) (h1 : marked L A j = true) : marked L (findForeshocksAux tw x ((L.map d).zip A)) j = false := by
  rw [Bool.eq_false_iff]
  intro h2
  rw [marked_iff] at h1 h2
  obtain ⟨k, hk, hk'⟩ := List.mem_iff_getElem.mp h1
  obtain ⟨l, hl, hl'⟩ := List.mem_iff_getElem.mp h2
  simp only [List.getElem_zip, Prod.mk.injEq] at hk' hl'
  simp only [List.length_zip, lt_min_iff] at hk hl
  have hkl : k = l := (List.Nodup.getElem_inj_iff hnd).mp (hk'.1.trans hl'.1.symm)
  subst hkl
  obtain ⟨t, ht⟩ := fore_disjoint tw x _ k (by rw [List.getElem?_eq_getElem hl.2, hl'.2])
  rw [List.getElem?_eq_some_iff] at ht
  obtain ⟨_, ht⟩ := ht
  simp only [List.getElem_zip, Prod.mk.injEq] at ht
  rw [hk'.2] at ht
  exact absurd ht.2 (by simp)

end

section
variable {F : Type} [PyMath F] {n : Nat}

/-- Steps forward in time of at most `tw`, between events of the same cluster.  Times are relative to an event `i`. -/
def Fwd (t : Fin n → F) (tw : F) (i : Fin n) (T : Fin n → Prop) (a b : Fin n) : Prop :=
  T b ∧ (t b - t i) - (t a - t i) ≥ 0.0 ∧ (t b - t i) - (t a - t i) ≤ tw

/-- Steps back in time. -/
def Bwd (t : Fin n → F) (tw : F) (i : Fin n) (T : Fin n → Prop) (a b : Fin n) : Prop :=
  T b ∧ (t b - t i) - (t a - t i) ≤ 0.0 ∧ (t b - t i) - (t a - t i) ≥ -tw

/-- What one search leaves: nothing, or a cluster found from event `i`, with main event `h`. -/
structure NewCluster (cat : Fin n → Row F) (t swSpace : Fin n → F) (tw : F) (s s' : State n) (i h : Fin n)
    (T : Fin n → Prop) : Prop where
  clust : s'.clust = s.clust + 1
  old : ∀ j, T j → s.vcl j = 0
  inside : ∀ j, T j → haversine (cat j 3) (cat j 4) (cat i 3) (cat i 4) ≤ swSpace i
  new : ∀ j, T j → s'.vcl j = s.clust + 1
  rest : ∀ j, ¬ T j → s'.vcl j = s.vcl j ∧ s'.flag j = s.flag j
  main : T h ∧ s'.flag h = s.flag h
  first : ∀ j, s.vcl j = 0 → haversine (cat j 3) (cat j 4) (cat i 3) (cat i 4) ≤ swSpace i → h ≤ j
  two : ∃ j, j ≠ h ∧ T j
  flags : ∀ j, j ≠ h → T j →
    (s'.flag j = 1 ∧ Relation.ReflTransGen (Fwd t tw i T) h j) ∨ (s'.flag j = -1 ∧ Relation.ReflTransGen (Bwd t tw i T) h j)

theorem afStep_spec (cat : Fin n → Row F) (t swSpace : Fin n → F) (tw : F) (s s' : State n) (i : Fin n)
    (h : afStep cat t swSpace tw s i = .ok s') : s' = s ∨ ∃ h T, NewCluster cat t swSpace tw s s' i h T := by
  unfold afStep at h
  split_ifs at h with h0
  · cases hsel : afSel cat swSpace s i with
    | nil => rw [hsel] at h; simp [findAftershocks, bind, Except.bind] at h
    | cons x L =>
      have hnd : (x :: L).Nodup := by rw [← hsel]; exact (List.nodup_finRange n).filter _
      have hmem : ∀ j, j ∈ x :: L ↔ haversine (cat j 3) (cat j 4) (cat i 3) (cat i 4) ≤ swSpace i ∧ s.vcl j = 0 := by
        intro j; rw [← hsel]; simp [afSel]
      have hsorted : (x :: L).Pairwise (· < ·) := by
        rw [← hsel]; exact (List.pairwise_lt_finRange n).filter _
      set d : Fin n → F := fun j => t j - t i with hd
      set A := findAftershocksAux tw (d x) (L.map d) with hA
      set B := findForeshocksAux tw (d x) ((L.map d).zip A) with hB
      have hAl : A.length = L.length := by rw [hA, length_aft, List.length_map]
      have hBl : B.length = L.length := by rw [hB, length_fore]; simp [hAl]
      rw [hsel] at h
      simp only [findAftershocks, findForeshocks, List.map_cons, bind, Except.bind, List.tail_cons] at h
      rw [← hA, ← hB] at h
      have hxL : x ∉ L := (List.nodup_cons.mp hnd).1
      set temp := marked (x :: L) (List.zipWith (· || ·) (true :: A) (false :: B)) with htemp
      have htj : ∀ j, temp j = true ↔ j = x ∨ marked L A j = true ∨ marked L B j = true := by
        intro j
        rw [htemp, marked_or _ _ _ (by simp [hAl]) (by simp [hBl]), marked_cons, marked_cons]
        simp only [Bool.and_true, Bool.and_false, Bool.false_or, Bool.or_eq_true, decide_eq_true_eq]
        rw [eq_comm (a := x), or_assoc]
      split_ifs at h with hc
      · right
        simp only [Except.ok.injEq] at h
        subst h
        have hxA : marked L A x = false := by
          rw [Bool.eq_false_iff]; intro hc; exact hxL (marked_mem _ _ _ hc)
        have hxB : marked L B x = false := by
          rw [Bool.eq_false_iff]; intro hc; exact hxL (marked_mem _ _ _ hc)
        have hTmem : ∀ j, temp j = true → j ∈ x :: L := fun j hj => marked_mem _ _ _ hj
        refine ⟨x, fun j => temp j = true, ?_⟩
        constructor
        · rfl
        · intro j hj; exact ((hmem j).mp (hTmem j hj)).2
        · intro j hj; exact ((hmem j).mp (hTmem j hj)).1
        · intro j hj; simp only [hj, if_true]
        · intro j hj
          have hnt : ¬ (j = x ∨ marked L A j = true ∨ marked L B j = true) := fun hc => hj ((htj j).mpr hc)
          rw [not_or, not_or] at hnt
          simp only [List.set_cons_zero, marked_cons, Bool.and_false, Bool.false_or, hj, if_neg hnt.2.1, if_neg hnt.2.2]
          simp
        · refine ⟨(htj x).mpr (Or.inl rfl), ?_⟩
          simp [marked_cons, hxA, hxB]
        · intro j hj1 hj2
          have hj := (hmem j).mpr ⟨hj2, hj1⟩
          rcases List.mem_cons.mp hj with rfl | hj
          · exact le_refl _
          · exact ((List.pairwise_cons.mp hsorted).1 j hj).le
        · by_contra hno
          push Not at hno
          have : (List.finRange n).countP temp ≤ (List.finRange n).count x := by
            rw [List.count]
            apply List.countP_mono_left
            intro j _ hj
            by_contra hjx
            exact hno j (by simpa using hjx) hj
          rw [List.count_eq_one_of_mem (List.nodup_finRange n) (List.mem_finRange x)] at this
          omega
        · intro j hjx hj
          rcases (htj j).mp hj with rfl | hj | hj
          · exact absurd rfl hjx
          · left
            constructor
            · simp [marked_cons, hj, marks_disjoint tw (d x) d L (List.nodup_cons.mp hnd).2 A j hj, hB]
            · refine rtg_mono ?_ (aft_chain tw d x L j ((marked_iff ..).mp hj))
              intro a b hab
              exact ⟨(htj b).mpr (Or.inr (Or.inl ((marked_iff ..).mpr hab.2))), hab.1⟩
          · right
            constructor
            · simp [marked_cons, hj]
            · refine rtg_mono ?_ (fore_chain tw d x L A hAl j ((marked_iff ..).mp hj))
              intro a b hab
              exact ⟨(htj b).mpr (Or.inr (Or.inr ((marked_iff ..).mpr hab.2))), hab.1⟩
      · left
        simp only [Except.ok.injEq] at h
        exact h.symm
  · left
    simp only [Except.ok.injEq] at h
    exact h.symm

/-- A cluster of the final state: number `c`, found from event `i`, main event `h`. -/
structure Cluster (cat : Fin n → Row F) (t swSpace : Fin n → F) (tw : F) (s : State n) (c : Int) (i h : Fin n) : Prop where
  main : s.vcl h = c ∧ s.flag h = 0
  first : ∀ j, s.vcl j = c → h ≤ j
  before : haversine (cat i 3) (cat i 4) (cat i 3) (cat i 4) ≤ swSpace i → h ≤ i
  inside : ∀ j, s.vcl j = c → haversine (cat j 3) (cat j 4) (cat i 3) (cat i 4) ≤ swSpace i
  two : ∃ j, j ≠ h ∧ s.vcl j = c
  flags : ∀ j, j ≠ h → s.vcl j = c →
    (s.flag j = 1 ∧ Relation.ReflTransGen (Fwd t tw i (fun j => s.vcl j = c)) h j) ∨
    (s.flag j = -1 ∧ Relation.ReflTransGen (Bwd t tw i (fun j => s.vcl j = c)) h j)

/-- Invariant of the loop. -/
structure AfInv (cat : Fin n → Row F) (t swSpace : Fin n → F) (tw : F) (s : State n) : Prop where
  range : ∀ j, 0 ≤ s.vcl j ∧ s.vcl j ≤ s.clust
  free : ∀ j, s.vcl j = 0 → s.flag j = 0
  clusters : ∀ c, 0 < c → c ≤ s.clust → ∃ i h, Cluster cat t swSpace tw s c i h

theorem afStep_inv (cat : Fin n → Row F) (t swSpace : Fin n → F) (tw : F) (s s' : State n) (i : Fin n)
    (hi : AfInv cat t swSpace tw s) (h : afStep cat t swSpace tw s i = .ok s') : AfInv cat t swSpace tw s' := by
  have h0 : s.vcl i = 0 ∨ s' = s := by
    by_cases hz : s.vcl i = 0
    · exact Or.inl hz
    · right; unfold afStep at h; rw [if_neg hz] at h; simpa using h.symm
  rcases h0 with h0 | rfl
  swap
  · exact hi
  rcases afStep_spec cat t swSpace tw s s' i h with rfl | ⟨hd, T, hN⟩
  · exact hi
  classical
  have hcl : 0 ≤ s.clust := (hi.range i).1.trans (hi.range i).2
  have hv : ∀ j, s'.vcl j = if T j then s.clust + 1 else s.vcl j := by
    intro j
    split_ifs with hT
    · exact hN.new j hT
    · exact (hN.rest j hT).1
  have hT0 : ∀ j, s'.vcl j = s.clust + 1 ↔ T j := by
    intro j
    rw [hv]
    split_ifs with hT
    · simp [hT]
    · have := (hi.range j).2
      simp only [hT, iff_false]; omega
  constructor
  · intro j
    rw [hv, hN.clust]
    have := hi.range j
    split_ifs <;> omega
  · intro j hj
    have hT : ¬ T j := by
      intro hc
      rw [hN.new j hc] at hj; omega
    rw [(hN.rest j hT).2]
    exact hi.free j (by rw [← (hN.rest j hT).1]; exact hj)
  · intro c hc hc'
    rw [hN.clust] at hc'
    by_cases hcc : c = s.clust + 1
    · subst hcc
      refine ⟨i, hd, ?_⟩
      have hTf : (fun j => s'.vcl j = s.clust + 1) = T := by
        funext j; exact propext (hT0 j)
      constructor
      · refine ⟨(hT0 hd).mpr hN.main.1, ?_⟩
        rw [hN.main.2]
        exact hi.free hd (hN.old hd hN.main.1)
      · intro j hj
        rw [hT0] at hj
        exact hN.first j (hN.old j hj) (hN.inside j hj)
      · exact fun hself => hN.first i h0 hself
      · intro j hj; exact hN.inside j ((hT0 j).mp hj)
      · obtain ⟨j, hj, hTj⟩ := hN.two
        exact ⟨j, hj, (hT0 j).mpr hTj⟩
      · intro j hj hjc
        rw [hTf]
        exact hN.flags j hj ((hT0 j).mp hjc)
    · obtain ⟨i', h', hC⟩ := hi.clusters c hc (by omega)
      have hvc : ∀ j, s'.vcl j = c ↔ s.vcl j = c := by
        intro j
        rw [hv]
        split_ifs with hT
        · have := hN.old j hT; omega
        · rfl
      have hfl : ∀ j, s.vcl j = c → s'.flag j = s.flag j := by
        intro j hj
        refine (hN.rest j ?_).2
        intro hT
        have := hN.old j hT; omega
      have hTf : (fun j => s'.vcl j = c) = (fun j => s.vcl j = c) := by
        funext j; exact propext (hvc j)
      refine ⟨i', h', ?_⟩
      constructor
      · refine ⟨(hvc h').mpr hC.main.1, ?_⟩
        rw [hfl h' hC.main.1]; exact hC.main.2
      · intro j hj; exact hC.first j ((hvc j).mp hj)
      · exact hC.before
      · intro j hj; exact hC.inside j ((hvc j).mp hj)
      · obtain ⟨j, hj, hj'⟩ := hC.two
        exact ⟨j, hj, (hvc j).mpr hj'⟩
      · intro j hj hjc
        rw [hTf, hfl j ((hvc j).mp hjc)]
        exact hC.flags j hj ((hvc j).mp hjc)

theorem afInv_init (cat : Fin n → Row F) (t swSpace : Fin n → F) (tw : F) : AfInv cat t swSpace tw (State.init n) := by
  constructor
  · intro j; simp [State.init]
  · intro j _; simp [State.init]
  · intro c hc hc'; simp [State.init] at hc'; omega

theorem foldlM_inv {σ α ε : Type} (f : σ → α → Except ε σ) (P : σ → Prop) (l : List α)
    (hstep : ∀ s a s', a ∈ l → P s → f s a = .ok s' → P s') (s s' : σ) (h0 : P s) (h : l.foldlM f s = .ok s') : P s' := by
  induction l generalizing s with
  | nil => simp only [List.foldlM_nil, pure, Except.pure, Except.ok.injEq] at h; exact h ▸ h0
  | cons a l ih =>
    simp only [List.foldlM_cons, bind, Except.bind] at h
    cases hf : f s a with
    | error e => rw [hf] at h; simp at h
    | ok s1 =>
      rw [hf] at h
      exact ih (fun s a s' ha => hstep s a s' (List.mem_cons_of_mem _ ha)) s1
        (hstep s a s1 (List.mem_cons_self ..) h0 hf) h

theorem foldlM_ok {σ α ε : Type} (f : σ → α → Except ε σ) (l : List α)
    (hstep : ∀ s a, ∃ s', f s a = .ok s') (s : σ) : ∃ s', l.foldlM f s = .ok s' := by
  induction l generalizing s with
  | nil => exact ⟨s, rfl⟩
  | cons a l ih =>
    obtain ⟨s1, h1⟩ := hstep s a
    obtain ⟨s2, h2⟩ := ih s1
    exact ⟨s2, by simp only [List.foldlM_cons, bind, Except.bind, h1, h2]⟩

theorem afLoop_inv (cat : Fin n → Row F) (t swSpace : Fin n → F) (tw : F) (s : State n)
    (h : afLoop cat t swSpace tw = .ok s) : AfInv cat t swSpace tw s :=
  foldlM_inv _ (AfInv cat t swSpace tw) _ (fun s i s' _ hs hf => afStep_inv cat t swSpace tw s s' i hs hf) _ _
    (afInv_init cat t swSpace tw) h

/-- Without an empty selection the loop does not fail. -/
theorem afStep_ok (cat : Fin n → Row F) (t swSpace : Fin n → F) (tw : F) (s : State n) (i : Fin n)
    (hself : haversine (cat i 3) (cat i 4) (cat i 3) (cat i 4) ≤ swSpace i) : ∃ s', afStep cat t swSpace tw s i = .ok s' := by
  unfold afStep
  split_ifs with h0
  · have hmem : i ∈ afSel cat swSpace s i := by simp [afSel, hself, h0]
    cases hsel : afSel cat swSpace s i with
    | nil => rw [hsel] at hmem; simp at hmem
    | cons x L =>
      simp only [findAftershocks, findForeshocks, List.map_cons, bind, Except.bind]
      split_ifs
      · exact ⟨_, rfl⟩
      · exact ⟨_, rfl⟩
  · exact ⟨_, rfl⟩

theorem afLoop_ok (cat : Fin n → Row F) (t swSpace : Fin n → F) (tw : F)
    (hself : ∀ i, haversine (cat i 3) (cat i 4) (cat i 3) (cat i 4) ≤ swSpace i) :
    ∃ s, afLoop cat t swSpace tw = .ok s :=
  foldlM_ok _ _ (fun s i => afStep_ok cat t swSpace tw s i (hself i)) _

/-- A finished Afteran run. -/
theorem af_ok (cat : Fin n → Row F) (opt : String) (w : F) (asc id1 : Equiv.Perm (Fin n)) (r : Result F n)
    (h : afteran cat opt w asc id1 = .ok r) :
    ∃ t win s, decimalYears (fun j => cat j 0) (fun j => cat j 1) (fun j => cat j 2) = .ok t ∧ timeDistWindow opt = .ok win ∧
      afLoop (cat ∘ flipud asc) (t ∘ flipud asc) ((fun j => (win (cat j 5)).1) ∘ flipud asc) (w / ((365 : ℕ) : F)) = .ok s ∧
      r = ⟨s.vcl ∘ id1, unflagged ((cat ∘ flipud asc) ∘ id1) (s.flag ∘ id1), s.flag ∘ id1⟩ := by
  unfold afteran at h
  simp only [bind, Except.bind] at h
  cases h1 : decimalYears (fun j => cat j 0) (fun j => cat j 1) (fun j => cat j 2) with
  | error e => rw [h1] at h; simp at h
  | ok t =>
    rw [h1] at h
    simp only at h
    cases h2 : timeDistWindow (F := F) opt with
    | error e => rw [h2] at h; simp at h
    | ok win =>
      rw [h2] at h
      simp only at h
      cases h3 : afLoop (cat ∘ flipud asc) (t ∘ flipud asc) ((fun j => (win (cat j 5)).1) ∘ flipud asc) (w / ((365 : ℕ) : F)) with
      | error e => rw [h3] at h; simp at h
      | ok s =>
        rw [h3] at h
        simp only [Except.ok.injEq] at h
        exact ⟨t, win, s, rfl, rfl, h3, h.symm⟩

end

/-! ### Runs from tables -/

section
variable {n : Nat}

/-- `findAftershocksAux` from a table: `P a b` says that `b` may follow `a`. -/
def tabAft (P : Fin n → Fin n → Bool) : Fin n → List (Fin n) → List Bool
  | _, [] => []
  | h, x :: L => P h x :: tabAft P (if P h x then x else h) L

/-- `findForeshocksAux` from a table. -/
def tabFore (Q : Fin n → Fin n → Bool) : Fin n → List (Fin n × Bool) → List Bool
  | _, [] => []
  | h, (x, false) :: L => Q h x :: tabFore Q (if Q h x then x else h) L
  | _, (_, true) :: [] => [false]
  | h, (_, true) :: _ :: L => false :: false :: tabFore Q h L

/-- `afStep` from tables; `none` where the code fails. -/
def tabStep (D P Q : Fin n → Fin n → Bool) (s : State n) (i : Fin n) : Option (State n) :=
  if s.vcl i = 0 then
    match (List.finRange n).filter (fun j => D i j && decide (s.vcl j = 0)) with
    | [] => none
    | x :: L =>
      let A := tabAft P x L
      let B := tabFore Q x (L.zip A)
      let temp := marked (x :: L) (List.zipWith (· || ·) (true :: A) (false :: B))
      if (List.finRange n).countP temp > 1 then
        some ⟨fun j => if temp j then s.clust + 1 else s.vcl j,
          fun j => if marked (x :: L) (false :: B) j then -1 else if marked (x :: L) (false :: A) j then 1 else s.flag j, s.clust + 1⟩
      else some s
  else some s

theorem tabAft_eq {F : Type} [PyNum F] (tw : F) (d : Fin n → F) (P : Fin n → Fin n → Bool)
    (hP : ∀ a b, P a b = (decide (d b - d a ≥ 0.0) && decide (d b - d a ≤ tw))) (h : Fin n) (L : List (Fin n)) :
    findAftershocksAux tw (d h) (L.map d) = tabAft P h L := by
  induction L generalizing h with
  | nil => rfl
  | cons x L ih =>
    simp only [List.map_cons, findAftershocksAux, tabAft, ← hP]
    cases P h x
    · simp [ih h]
    · simp [ih x]

theorem tabFore_eq {F : Type} [PyNum F] (tw : F) (d : Fin n → F) (Q : Fin n → Fin n → Bool)
    (hQ : ∀ a b, Q a b = (decide (d b - d a ≤ 0.0) && decide (d b - d a ≥ -tw))) (h : Fin n) (L : List (Fin n × Bool)) :
    findForeshocksAux tw (d h) (L.map (fun p => (d p.1, p.2))) = tabFore Q h L := by
  induction hlen : L.length using Nat.strong_induction_on generalizing L h with
  | _ m ih =>
    rcases L with _ | ⟨⟨x, a⟩, L⟩
    · rfl
    · cases a with
      | true =>
        rcases L with _ | ⟨y, L⟩
        · rfl
        · simp only [List.map_cons, findForeshocksAux, tabFore, if_true]
          rw [ih L.length (by simp at hlen; omega) h L rfl]
      | false =>
        simp only [List.map_cons, fore_false, ← hQ]
        simp only [tabFore]
        have hl : L.length < m := by simp at hlen; omega
        cases Q h x
        · simp [ih L.length hl h L rfl]
        · simp [ih L.length hl x L rfl]

theorem tabStep_eq {F : Type} [PyMath F] (cat : Fin n → Row F) (t swSpace : Fin n → F) (tw : F) (D P Q : Fin n → Fin n → Bool)
    (hD : ∀ i j, D i j = decide (haversine (cat j 3) (cat j 4) (cat i 3) (cat i 4) ≤ swSpace i))
    (hP : ∀ i a b, P a b = (decide ((t b - t i) - (t a - t i) ≥ 0.0) && decide ((t b - t i) - (t a - t i) ≤ tw)))
    (hQ : ∀ i a b, Q a b = (decide ((t b - t i) - (t a - t i) ≤ 0.0) && decide ((t b - t i) - (t a - t i) ≥ -tw)))
    (s s' : State n) (i : Fin n) (h : tabStep D P Q s i = some s') : afStep cat t swSpace tw s i = .ok s' := by
  unfold tabStep at h
  unfold afStep
  split_ifs at h ⊢ with h0
  · have hsel : afSel cat swSpace s i = (List.finRange n).filter (fun j => D i j && decide (s.vcl j = 0)) := by
      unfold afSel
      simp only [hD]
    rw [← hsel] at h
    cases hl : afSel cat swSpace s i with
    | nil => rw [hl] at h; simp at h
    | cons x L =>
      rw [hl] at h
      simp only at h
      simp only [findAftershocks, findForeshocks, List.map_cons, bind, Except.bind, List.tail_cons]
      rw [tabAft_eq tw (fun j => t j - t i) P (hP i) x L]
      have hz : ((L.map (fun j => t j - t i)).zip (tabAft P x L)) =
          (L.zip (tabAft P x L)).map (fun p => (t p.1 - t i, p.2)) := by
        rw [List.zip_map_left]; rfl
      rw [hz, tabFore_eq tw (fun j => t j - t i) Q (hQ i) x]
      split_ifs at h ⊢
      · simp only [Option.some.injEq] at h
        rw [← h]; rfl
      · simp only [Option.some.injEq] at h
        rw [h]
  · simp only [Option.some.injEq] at h
    rw [h]

theorem tabLoop_eq {F : Type} [PyMath F] (cat : Fin n → Row F) (t swSpace : Fin n → F) (tw : F) (D P Q : Fin n → Fin n → Bool)
    (hD : ∀ i j, D i j = decide (haversine (cat j 3) (cat j 4) (cat i 3) (cat i 4) ≤ swSpace i))
    (hP : ∀ i a b, P a b = (decide ((t b - t i) - (t a - t i) ≥ 0.0) && decide ((t b - t i) - (t a - t i) ≤ tw)))
    (hQ : ∀ i a b, Q a b = (decide ((t b - t i) - (t a - t i) ≤ 0.0) && decide ((t b - t i) - (t a - t i) ≥ -tw)))
    (s : State n) (h : (List.finRange n).foldlM (tabStep D P Q) (State.init n) = some s) : afLoop cat t swSpace tw = .ok s := by
  unfold afLoop
  generalize State.init n = s0 at h ⊢
  generalize List.finRange n = l at h ⊢
  induction l generalizing s0 with
  | nil =>
    simp only [List.foldlM_nil, pure, Option.some.injEq] at h
    rw [h]; rfl
  | cons i l ih =>
    simp only [List.foldlM_cons, bind, Option.bind_eq_some_iff] at h
    obtain ⟨s1, h1, h2⟩ := h
    simp only [List.foldlM_cons, bind, Except.bind, tabStep_eq cat t swSpace tw D P Q hD hP hQ s0 s1 i h1]
    exact ih s1 h2

end

end Verif.Declustering
