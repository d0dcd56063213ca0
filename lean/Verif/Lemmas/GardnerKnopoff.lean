import Verif.Model.Declustering
import Mathlib.Data.Fintype.Card
import Mathlib.Order.Fin.Basic
import Mathlib.Data.Finset.Card

/-!
# The Gardner–Knopoff loop in declarative form

`Active`: the events that open a search; every event ends up with the last search that selects it.
-/

namespace Verif.Declustering

open Verif Verif.CatUtil

variable {n : Nat}

/-- Loop body over an abstract selection `S i j` ("j is in the windows of i") and `late i j` ("j is not earlier than i"). -/
def genStep (S late : Fin n → Fin n → Bool) (s : State n) (i : Fin n) : State n :=
  if s.vcl i = 0 then
    if (List.finRange n).any (fun j => if j = i then false else S i j) then
      ⟨fun j => if S i j then s.clust + 1 else s.vcl j,
       fun j => if j = i then 0 else
        if (if late i j then false else if j = i then false else S i j) then -1
        else if S i j then 1 else s.flag j,
       s.clust + 1⟩
    else s
  else s

/-- Greedy choice of the searching events: not selected by an earlier searching event (and not the last event). -/
def Active (S : Fin n → Fin n → Bool) (i : Fin n) : Prop :=
  i.val + 1 < n ∧ ∀ k : Fin n, (h : k < i) → Active S k → S k i = false
termination_by i.val

/-- Searching events that find another event. -/
def Opens (S : Fin n → Fin n → Bool) (i : Fin n) : Prop := Active S i ∧ ∃ j, j ≠ i ∧ S i j = true

open Classical in
/-- Number of the cluster opened by `i`. -/
noncomputable def rank (S : Fin n → Fin n → Bool) (i : Fin n) : ℕ := (Finset.univ.filter (fun k => k ≤ i ∧ Opens S k)).card

/-- The flag an event `j` gets in the cluster of `i`. -/
def flagOf (late : Fin n → Fin n → Bool) (i j : Fin n) : Int := if j = i then 0 else if late i j then 1 else -1

theorem flagOf_zero {late : Fin n → Fin n → Bool} {i j : Fin n} : flagOf late i j = 0 ↔ j = i := by
  unfold flagOf
  by_cases h : j = i
  · simp [h]
  · by_cases h2 : late i j = true <;> simp [h, h2]

theorem active_iff (S : Fin n → Fin n → Bool) (i : Fin n) :
    Active S i ↔ i.val + 1 < n ∧ ∀ k : Fin n, k < i → Active S k → S k i = false := by
  rw [Active]

theorem rank_pos {S : Fin n → Fin n → Bool} {i : Fin n} (h : Opens S i) : 0 < rank S i :=
  Finset.card_pos.mpr ⟨i, by simp [h]⟩

theorem rank_lt {S : Fin n → Fin n → Bool} {i k : Fin n} (hk : Opens S k) (hik : i < k) : rank S i < rank S k := by
  classical
  apply Finset.card_lt_card
  rw [Finset.ssubset_iff_of_subset]
  · exact ⟨k, by simp [hk], by simp [hik]⟩
  · intro x hx
    simp only [Finset.mem_filter, Finset.mem_univ, true_and] at hx ⊢
    exact ⟨hx.1.trans hik.le, hx.2⟩

theorem rank_inj {S : Fin n → Fin n → Bool} {i k : Fin n} (hi : Opens S i) (hk : Opens S k) (h : rank S i = rank S k) : i = k := by
  rcases lt_trichotomy i k with h1 | h1 | h1
  · exact absurd h (rank_lt hk h1).ne
  · exact h1
  · exact absurd h (rank_lt hi h1).ne'

open Classical in
theorem clust_count (S : Fin n → Fin n → Bool) (i : Fin n) (h : Opens S i) :
    ((Finset.univ.filter (fun k : Fin n => k < i ∧ Opens S k)).card : ℤ) + 1 = rank S i := by
  have : Finset.univ.filter (fun k : Fin n => k ≤ i ∧ Opens S k) =
      insert i (Finset.univ.filter (fun k : Fin n => k < i ∧ Opens S k)) := by
    ext x
    simp only [Finset.mem_filter, Finset.mem_univ, true_and, Finset.mem_insert]
    constructor
    · rintro ⟨h1, h2⟩
      rcases h1.lt_or_eq with h1 | h1
      · exact Or.inr ⟨h1, h2⟩
      · exact Or.inl h1
    · rintro (rfl | ⟨h1, h2⟩)
      · exact ⟨le_refl _, h⟩
      · exact ⟨h1.le, h2⟩
  rw [rank, this, Finset.card_insert_of_notMem (by simp)]
  push_cast; rfl

open Classical in
/-- The loop over the first `k ≤ n - 1` indices. -/
theorem gen_loop (S late : Fin n → Fin n → Bool) (k : Nat) (hk : k ≤ n - 1) :
    let s := ((List.finRange n).take k).foldl (genStep S late) (State.init n)
    s.clust = ((Finset.univ.filter (fun i : Fin n => i.val < k ∧ Opens S i)).card : ℤ) ∧
    ∀ j, (s.vcl j = 0 ∧ s.flag j = 0 ∧ ∀ i : Fin n, i.val < k → Opens S i → S i j = false) ∨
    ∃ i : Fin n, i.val < k ∧ Opens S i ∧ S i j = true ∧
      (∀ i' : Fin n, i < i' → i'.val < k → Opens S i' → S i' j = false) ∧
      s.vcl j = rank S i ∧ s.flag j = flagOf late i j := by
  induction k with
  | zero =>
    simp [State.init]
  | succ k ih =>
    have hkn : k < n := by omega
    obtain ⟨hc, he⟩ := ih (by omega)
    have htake : (List.finRange n).take (k + 1) = (List.finRange n).take k ++ [⟨k, hkn⟩] := by
      rw [List.take_succ_eq_append_getElem (by simpa using hkn)]
      simp
    simp only [htake, List.foldl_append, List.foldl_cons, List.foldl_nil]
    set s := ((List.finRange n).take k).foldl (genStep S late) (State.init n) with hs
    set K : Fin n := ⟨k, hkn⟩ with hK
    -- is K active?
    have hact : s.vcl K = 0 ↔ Active S K := by
      rw [active_iff]
      constructor
      · intro h0
        refine ⟨by simp only [hK]; omega, ?_⟩
        intro i hi hai
        by_contra hcon
        rw [Bool.not_eq_false] at hcon
        have hop : Opens S i := ⟨hai, K, ne_of_gt hi, hcon⟩
        rcases he K with ⟨-, -, h⟩ | ⟨i', _, hop', _, _, hv, _⟩
        · rw [h i hi hop] at hcon; exact absurd hcon (by simp)
        · have := rank_pos hop'; omega
      · rintro ⟨-, h⟩
        rcases he K with ⟨h0, -, -⟩ | ⟨i', hi', hop', hsel, _, hv, _⟩
        · exact h0
        · rw [h i' hi' hop'.1] at hsel; exact absurd hsel (by simp)
    -- extend "no later opener" by K when K does not select
    have hlt : ∀ i : Fin n, i.val < k + 1 ↔ i.val < k ∨ i = K := by
      intro i
      rw [Fin.ext_iff]; simp only [hK]; omega
    have hnoext : ¬ Opens S K →
        (s.clust = ((Finset.univ.filter (fun i : Fin n => i.val < k + 1 ∧ Opens S i)).card : ℤ) ∧
        ∀ j, (s.vcl j = 0 ∧ s.flag j = 0 ∧ ∀ i : Fin n, i.val < k + 1 → Opens S i → S i j = false) ∨
        ∃ i : Fin n, i.val < k + 1 ∧ Opens S i ∧ S i j = true ∧
          (∀ i' : Fin n, i < i' → i'.val < k + 1 → Opens S i' → S i' j = false) ∧
          s.vcl j = rank S i ∧ s.flag j = flagOf late i j) := by
      intro hno
      have heq : ∀ i : Fin n, (i.val < k + 1 ∧ Opens S i) ↔ (i.val < k ∧ Opens S i) := by
        intro i
        rw [hlt]
        constructor
        · rintro ⟨h | rfl, h2⟩
          · exact ⟨h, h2⟩
          · exact absurd h2 hno
        · rintro ⟨h, h2⟩; exact ⟨Or.inl h, h2⟩
      refine ⟨by simp only [heq]; exact hc, ?_⟩
      intro j
      rcases he j with ⟨a, b, c⟩ | ⟨i, hi, hop, hsel, hlast, hv, hf⟩
      · exact Or.inl ⟨a, b, fun i hi hop => c i ((heq i).mp ⟨hi, hop⟩).1 hop⟩
      · exact Or.inr ⟨i, by omega, hop, hsel, fun i' h1 h2 h3 => hlast i' h1 ((heq i').mp ⟨h2, h3⟩).1 h3, hv, hf⟩
    unfold genStep
    by_cases h0 : s.vcl K = 0
    · rw [if_pos h0]
      by_cases hany : (List.finRange n).any (fun j => if j = K then false else S K j) = true
      · rw [if_pos hany]
        have hop : Opens S K := by
          refine ⟨hact.mp h0, ?_⟩
          obtain ⟨j, -, hj⟩ := List.any_eq_true.mp hany
          by_cases hjK : j = K
          · rw [if_pos hjK] at hj; exact absurd hj (by simp)
          · rw [if_neg hjK] at hj; exact ⟨j, hjK, hj⟩
        have hrank : s.clust + 1 = rank S K := by rw [hc]; exact clust_count S K hop
        constructor
        · simp only [hrank]
          rw [rank]
          congr 2
          ext i
          simp only [Finset.mem_filter, Finset.mem_univ, true_and, hlt]
          constructor
          · rintro ⟨h1, h2⟩
            exact ⟨by rcases h1.lt_or_eq with h | h; exacts [Or.inl h, Or.inr h], h2⟩
          · rintro ⟨h | rfl, h2⟩
            · exact ⟨Fin.le_def.mpr (by simp only [hK]; omega), h2⟩
            · exact ⟨le_refl _, h2⟩
        · intro j
          by_cases hsel : S K j = true
          · right
            refine ⟨K, by simp [hK], hop, hsel, ?_, ?_, ?_⟩
            · intro i' h1 h2 _
              exfalso
              have : K.val < i'.val := h1
              simp only [hK] at this; omega
            · simp only [hsel, if_true, hrank]
            · simp only [hsel, flagOf]
              by_cases hj : j = K
              · simp [hj]
              · by_cases hl : late K j = true <;> simp [hj, hl]
          · rw [Bool.not_eq_true] at hsel
            by_cases hj : j = K
            · -- K itself is not selected by itself
              left
              subst hj
              refine ⟨by simp [hsel, h0], by simp, ?_⟩
              intro i hi hopi
              rcases (hlt i).mp hi with h | rfl
              · rcases he K with ⟨_, _, c⟩ | ⟨i', _, hop', _, _, hv, _⟩
                · exact c i h hopi
                · have := rank_pos hop'; omega
              · exact hsel
            · have hvj : (if S K j = true then s.clust + 1 else s.vcl j) = s.vcl j := by simp [hsel]
              rcases he j with ⟨a, b, c⟩ | ⟨i, hi, hopi, hseli, hlast, hv, hf⟩
              · left
                refine ⟨by simp only [hvj]; exact a, by simp [hsel, hj, b], ?_⟩
                intro i hi hopi
                rcases (hlt i).mp hi with h | rfl
                · exact c i h hopi
                · exact hsel
              · right
                refine ⟨i, by omega, hopi, hseli, ?_, by simp only [hvj]; exact hv, by simp [hsel, hj, hf]⟩
                intro i' h1 h2 h3
                rcases (hlt i').mp h2 with h | rfl
                · exact hlast i' h1 h h3
                · exact hsel
      · rw [if_neg hany]
        apply hnoext
        rintro ⟨-, j, hj, hsel⟩
        apply hany
        rw [List.any_eq_true]
        exact ⟨j, List.mem_finRange j, by simp [hj, hsel]⟩
    · rw [if_neg h0]
      apply hnoext
      rintro ⟨ha, -⟩
      exact h0 (hact.mpr ha)

/-- The complete loop. -/
theorem gen_final (S late : Fin n → Fin n → Bool) :
    let s := ((List.finRange n).take (n - 1)).foldl (genStep S late) (State.init n)
    ∀ j, (s.vcl j = 0 ∧ s.flag j = 0 ∧ ∀ i : Fin n, Opens S i → S i j = false) ∨
    ∃ i : Fin n, Opens S i ∧ S i j = true ∧ (∀ i' : Fin n, i < i' → Opens S i' → S i' j = false) ∧
      s.vcl j = rank S i ∧ s.flag j = flagOf late i j := by
  intro s j
  have hlt : ∀ i : Fin n, Opens S i → i.val < n - 1 := by
    intro i hi
    have := ((active_iff S i).mp hi.1).1
    omega
  rcases (gen_loop S late (n - 1) (le_refl _)).2 j with ⟨a, b, c⟩ | ⟨i, _, hop, hsel, hlast, hv, hf⟩
  · exact Or.inl ⟨a, b, fun i hi => c i (hlt i hi) hi⟩
  · exact Or.inr ⟨i, hop, hsel, fun i' h1 h2 => hlast i' h1 (hlt i' h2) h2, hv, hf⟩

/-- The model's loop is the generic one. -/
theorem gkStep_eq {F : Type} [PyMath F] (cat : Fin n → Row F) (t sp tm : Fin n → F) (fs : F) :
    gkStep cat t sp tm fs = genStep (gkSel cat t sp tm fs) (fun i j => decide (t j - t i ≥ (0.0 : F))) := by
  funext s i
  simp only [gkStep, genStep, decide_eq_true_eq]

/-- `np.argsort` of a permutation vector is its inverse. -/
theorem argsort_perm (id0 id1 : Equiv.Perm (Fin n)) (h : IsArgsort id0 id1) : id1 = id0.symm := by
  have hmono : Monotone (fun a => id0 (id1 a)) := fun a b hab => h a b hab
  have hstrict : StrictMono (fun a => id0 (id1 a)) :=
    hmono.strictMono_of_injective (id0.injective.comp id1.injective)
  have hid : ∀ a, id0 (id1 a) = a := by
    intro a
    have hr : Set.range (fun a => id0 (id1 a)) = Set.range (id : Fin n → Fin n) := by
      rw [Set.range_id, Set.range_eq_univ]
      exact id0.surjective.comp id1.surjective
    have := (hstrict.range_inj strictMono_id).mp hr
    exact congrFun this a
  ext a
  rw [(Equiv.eq_symm_apply id0).mpr (hid a)]

section
variable {F : Type} [PyMath F]

/-- Selection in original numbering. -/
def Sel (cat : Fin n → Row F) (t : Fin n → F) (win : F → F × F) (fs : F) : Fin n → Fin n → Bool :=
  gkSel cat t (fun j => (win (cat j 5)).1) (fun j => (win (cat j 5)).2) fs

/-- "Not earlier" in original numbering. -/
def Late (t : Fin n → F) : Fin n → Fin n → Bool := fun i j => decide (t j - t i ≥ (0.0 : F))

/-- A finished run in terms of the generic loop. -/
theorem gk_ok (cat : Fin n → Row F) (opt : String) (fs : F) (asc id1 : Equiv.Perm (Fin n)) (r : Result F n)
    (h : gardnerKnopoff cat opt fs asc id1 = .ok r) :
    ∃ t win, decimalYears (fun j => cat j 0) (fun j => cat j 1) (fun j => cat j 2) = .ok t ∧
      timeDistWindow opt = .ok win ∧
      (let s := ((List.finRange n).take (n - 1)).foldl
        (genStep (fun i j => Sel cat t win fs (flipud asc i) (flipud asc j)) (fun i j => Late t (flipud asc i) (flipud asc j)))
        (State.init n)
       r = ⟨s.vcl ∘ id1, unflagged ((cat ∘ flipud asc) ∘ id1) (s.flag ∘ id1), s.flag ∘ id1⟩) := by
  unfold gardnerKnopoff at h
  cases h1 : decimalYears (fun j => cat j 0) (fun j => cat j 1) (fun j => cat j 2) with
  | error e => rw [h1] at h; simp [bind, Except.bind] at h
  | ok t =>
    rw [h1] at h
    simp only [bind, Except.bind] at h
    cases h2 : timeDistWindow (F := F) opt with
    | error e => rw [h2] at h; simp at h
    | ok win =>
      rw [h2] at h
      simp only [Except.ok.injEq] at h
      refine ⟨t, win, rfl, rfl, ?_⟩
      rw [← h, gkLoop, gkStep_eq]
      rfl

/-- A run, in terms of the generic loop. -/
theorem gk_run (cat : Fin n → Row F) (opt : String) (fs : F) (asc id1 : Equiv.Perm (Fin n)) (t : Fin n → F) (win : F → F × F)
    (h1 : decimalYears (fun j => cat j 0) (fun j => cat j 1) (fun j => cat j 2) = .ok t)
    (h2 : timeDistWindow opt = .ok win) :
    (let s := ((List.finRange n).take (n - 1)).foldl
        (genStep (fun i j => Sel cat t win fs (flipud asc i) (flipud asc j)) (fun i j => Late t (flipud asc i) (flipud asc j)))
        (State.init n)
     gardnerKnopoff cat opt fs asc id1 =
       .ok ⟨s.vcl ∘ id1, unflagged ((cat ∘ flipud asc) ∘ id1) (s.flag ∘ id1), s.flag ∘ id1⟩) := by
  simp only [gardnerKnopoff, h1, h2, bind, Except.bind, gkLoop, gkStep_eq]
  rfl

/-- The loop only looks at the selections of the events it visits. -/
theorem foldl_genStep_congr (S M late L : Fin n → Fin n → Bool) (l : List (Fin n)) (s : State n)
    (hS : ∀ i ∈ l, ∀ j, S i j = M i j) (hL : ∀ i ∈ l, ∀ j, late i j = L i j) :
    l.foldl (genStep S late) s = l.foldl (genStep M L) s := by
  induction l generalizing s with
  | nil => rfl
  | cons i l ih =>
    rw [List.foldl_cons, List.foldl_cons]
    have : genStep S late s i = genStep M L s i := by
      simp only [genStep, hS i (by simp), hL i (by simp)]
    rw [this]
    exact ih _ (fun i hi => hS i (by simp [hi])) (fun i hi => hL i (by simp [hi]))

/-- Running Gardner–Knopoff on a catalogue given in descending order of magnitude, from tables of its selections. -/
theorem gk_table (cat : Fin n → Row F) (opt : String) (fs : F) (t : Fin n → F) (win : F → F × F)
    (h1 : decimalYears (fun j => cat j 0) (fun j => cat j 1) (fun j => cat j 2) = .ok t)
    (h2 : timeDistWindow opt = .ok win) (M L : Fin n → Fin n → Bool)
    (hM : ∀ i j, i.val + 1 < n → Sel cat t win fs i j = M i j) (hL : ∀ i j, Late t i j = L i j) :
    (let s := ((List.finRange n).take (n - 1)).foldl (genStep M L) (State.init n)
     gardnerKnopoff cat opt fs Fin.revPerm (Equiv.refl _) = .ok ⟨s.vcl, unflagged cat s.flag, s.flag⟩) := by
  have hrev : flipud (Fin.revPerm : Equiv.Perm (Fin n)) = Equiv.refl _ := by
    ext a; simp [flipud]
  have := gk_run cat opt fs Fin.revPerm (Equiv.refl _) t win h1 h2
  simp only [hrev, Equiv.refl_apply, Equiv.coe_refl, Function.comp_id] at this
  simp only
  rw [this, foldl_genStep_congr _ M _ L]
  · intro i hi j
    apply hM
    obtain ⟨k, hk, rfl⟩ := List.mem_iff_getElem.mp hi
    simp only [List.length_take, List.length_finRange, lt_min_iff] at hk
    simp only [List.getElem_take, List.getElem_finRange]
    simp; omega
  · intro i _ j
    exact hL i j

end

end Verif.Declustering
