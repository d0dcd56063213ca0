import Verif.Lemmas.GardnerKnopoff
import Verif.Lemmas.CatalogueUtilities
import Verif.Spec.Declustering

/-!
# Properties C34–C41, C46 for Gardner–Knopoff declustering

Theorems over `F` hold for any arithmetic (no law of numbers is used) and any order of the magnitude sort; those that
need real numbers say `ℝ`.
-/

namespace Verif.Declustering

open Verif Verif.CatUtil Spec

section
variable {F : Type} [PyMath F] {n : Nat}

theorem decimalYears_times (cat : Fin n → Row F) (t : Fin n → F) :
    decimalYears (fun j => cat j 0) (fun j => cat j 1) (fun j => cat j 2) = .ok t ↔ Times cat t := by
  unfold decimalYears Times
  constructor
  · intro h j
    split_ifs at h with hall
    have hj := hall j
    simp only [Except.ok.injEq] at h
    have ht := congrFun h j
    cases hd : decimalYear (cat j 0) (cat j 1) (cat j 2) with
    | error e => rw [hd] at hj; simp [Except.toBool] at hj
    | ok x => rw [hd] at ht; simp only at ht; rw [ht]
  · intro h
    rw [if_pos (fun j => by rw [h j]; rfl)]
    congr 1
    funext j
    rw [h j]

theorem sel_iff (cat : Fin n → Row F) (t : Fin n → F) (win : F → F × F) (fs : F) (i j : Fin n) :
    Sel cat t win fs i j = true ↔ InWindows cat t win fs i j := by
  simp only [Sel, gkSel, InWindows, eventDist, Bool.and_eq_true, decide_eq_true_eq, and_assoc]

/-- The result of a run, event by event, in original numbering. -/
theorem gk_each (cat : Fin n → Row F) (opt : String) (fs : F) (asc id1 : Equiv.Perm (Fin n)) (r : Result F n)
    (h1 : IsArgsort (flipud asc) id1) (h : gardnerKnopoff cat opt fs asc id1 = .ok r) :
    ∃ t win, Times cat t ∧ timeDistWindow opt = .ok win ∧
      (∀ j, r.flag j = 0 ↔ cat j ∈ r.vmain ∧ r.flag j = 0) ∧
      r.vmain = ((List.finRange n).filter (fun j => r.flag j = 0)).map cat ∧
      (let S' := fun i j => Sel cat t win fs (flipud asc i) (flipud asc j)
       ∀ j, (r.vcl j = 0 ∧ r.flag j = 0 ∧ ∀ i, Opens S' i → Sel cat t win fs (flipud asc i) j = false) ∨
        ∃ i, Opens S' i ∧ Sel cat t win fs (flipud asc i) j = true ∧
          (∀ i', i < i' → Opens S' i' → Sel cat t win fs (flipud asc i') j = false) ∧
          r.vcl j = rank S' i ∧ r.flag j = flagOf (Late t) (flipud asc i) j) := by
  obtain ⟨t, win, ht, hw, hr⟩ := gk_ok cat opt fs asc id1 r h
  have hid := argsort_perm _ _ h1
  subst hid
  have hvm : r.vmain = ((List.finRange n).filter (fun j => r.flag j = 0)).map cat := by
    rw [hr]
    simp only [unflagged]
    have : (cat ∘ ⇑(flipud asc)) ∘ ⇑(flipud asc).symm = cat := by
      funext j; simp [Function.comp]
    rw [this]
  refine ⟨t, win, (decimalYears_times cat t).mp ht, hw, ?_, hvm, ?_⟩
  · intro j
    constructor
    · intro hj
      refine ⟨?_, hj⟩
      rw [hvm, List.mem_map]
      exact ⟨j, by simp [hj], rfl⟩
    · exact fun hj => hj.2
  · intro S' j
    have hf := gen_final S' (fun i j => Late t (flipud asc i) (flipud asc j)) ((flipud asc).symm j)
    simp only [S', Equiv.apply_symm_apply] at hf
    rw [hr]
    simp only [Function.comp]
    rcases hf with ⟨a, b, c⟩ | ⟨i, hop, hsel, hlast, hv, hfl⟩
    · exact Or.inl ⟨a, b, c⟩
    · refine Or.inr ⟨i, hop, hsel, hlast, hv, ?_⟩
      rw [hfl]
      simp only [flagOf, Equiv.apply_symm_apply]
      by_cases hji : j = flipud asc i
      · have : (flipud asc).symm j = i := by rw [hji, Equiv.symm_apply_apply]
        rw [if_pos this, if_pos hji]
      · have : (flipud asc).symm j ≠ i := by
          intro hc; apply hji; rw [← hc, Equiv.apply_symm_apply]
        rw [if_neg this, if_neg hji]

/-- **C34** (Gardner–Knopoff): flags are -1, 0 or 1, and the main shock catalogue is the input rows with flag 0, unchanged and in input
order. -/
theorem C34_gk_mainshocks (cat : Fin n → Row F) (opt : String) (fs : F) (asc id1 : Equiv.Perm (Fin n)) (r : Result F n)
    (h1 : IsArgsort (flipud asc) id1) (h : gardnerKnopoff cat opt fs asc id1 = .ok r) :
    (∀ j, r.flag j = -1 ∨ r.flag j = 0 ∨ r.flag j = 1) ∧
    r.vmain = ((List.finRange n).filter (fun j => r.flag j = 0)).map cat := by
  obtain ⟨t, win, -, -, -, hvm, he⟩ := gk_each cat opt fs asc id1 r h1 h
  refine ⟨fun j => ?_, hvm⟩
  rcases he j with ⟨-, b, -⟩ | ⟨i, -, -, -, -, hf⟩
  · exact Or.inr (Or.inl b)
  · rw [hf, flagOf]; split_ifs <;> simp

/-- **C34** (Gardner–Knopoff, totality): with a documented window name the run succeeds exactly when every date has a usable month;
an unknown window name is refused. -/
theorem C34_gk_succeeds (cat : Fin n → Row F) (opt : String) (fs : F) (asc id1 : Equiv.Perm (Fin n)) :
    (∃ r, gardnerKnopoff cat opt fs asc id1 = .ok r) ↔
      (opt = "GardnerKnopoff" ∨ opt = "Gruenthal" ∨ opt = "Uhrhammer") ∧ ∃ t, Times cat t := by
  have hw : (∃ win, timeDistWindow (F := F) opt = .ok win) ↔ (opt = "GardnerKnopoff" ∨ opt = "Gruenthal" ∨ opt = "Uhrhammer") := by
    unfold timeDistWindow
    constructor
    · rintro ⟨w, hw⟩
      split_ifs at hw with a b c
      exacts [Or.inl a, Or.inr (Or.inl b), Or.inr (Or.inr c)]
    · intro h
      split_ifs with a b c
      · exact ⟨_, rfl⟩
      · exact ⟨_, rfl⟩
      · exact ⟨_, rfl⟩
      · rcases h with h | h | h <;> contradiction
  constructor
  · rintro ⟨r, h⟩
    obtain ⟨t, win, ht, hwin, -⟩ := gk_ok cat opt fs asc id1 r h
    exact ⟨hw.mp ⟨win, hwin⟩, t, (decimalYears_times cat t).mp ht⟩
  · rintro ⟨h, t, ht⟩
    obtain ⟨win, hwin⟩ := hw.mpr h
    exact ⟨_, gk_run cat opt fs asc id1 t win ((decimalYears_times cat t).mpr ht) hwin⟩

/-- **C35** (Gardner–Knopoff): an event with a non-zero flag has a positive cluster number; an event without cluster number is kept. -/
theorem C35_gk_flag_cluster (cat : Fin n → Row F) (opt : String) (fs : F) (asc id1 : Equiv.Perm (Fin n)) (r : Result F n)
    (h1 : IsArgsort (flipud asc) id1) (h : gardnerKnopoff cat opt fs asc id1 = .ok r) (j : Fin n) :
    0 ≤ r.vcl j ∧ (r.flag j ≠ 0 → 0 < r.vcl j) ∧ (r.vcl j = 0 → cat j ∈ r.vmain) := by
  obtain ⟨t, win, -, -, hm, hvm, he⟩ := gk_each cat opt fs asc id1 r h1 h
  rcases he j with ⟨a, b, -⟩ | ⟨i, hop, -, -, hv, -⟩
  · exact ⟨a.ge, fun hf => absurd b hf, fun _ => ((hm j).mp b).1⟩
  · have := rank_pos hop
    exact ⟨by omega, fun _ => by omega, fun h0 => by omega⟩

/-- **C36.** For every cluster number there is one event `i` such that every event `j` carrying that number lies in the windows of `i`;
`j` is flagged 0 exactly if it is `i`, -1 exactly if it is another event, earlier than `i`, and 1 exactly if it is another event
not earlier. -/
theorem C36_gk_windows (cat : Fin n → Row F) (opt : String) (fs : F) (asc id1 : Equiv.Perm (Fin n)) (r : Result F n)
    (h1 : IsArgsort (flipud asc) id1) (h : gardnerKnopoff cat opt fs asc id1 = .ok r) :
    ∃ t win, Times cat t ∧ timeDistWindow opt = .ok win ∧
      ∀ c, 0 < c → (∃ j, r.vcl j = c) → ∃ i, ∀ j, r.vcl j = c →
        InWindows cat t win fs i j ∧ (r.flag j = 0 ↔ j = i) ∧ (r.flag j = -1 ↔ j ≠ i ∧ ¬ t j - t i ≥ (0.0 : F)) ∧
        (r.flag j = 1 ↔ j ≠ i ∧ t j - t i ≥ (0.0 : F)) := by
  obtain ⟨t, win, ht, hw, hm, hvm, he⟩ := gk_each cat opt fs asc id1 r h1 h
  refine ⟨t, win, ht, hw, ?_⟩
  rintro c hc ⟨j0, hj0⟩
  rcases he j0 with ⟨a, -, -⟩ | ⟨i, hop, -, -, hv, -⟩
  · omega
  · refine ⟨flipud asc i, ?_⟩
    intro j hj
    rcases he j with ⟨a, -, -⟩ | ⟨i', hop', hsel', -, hv', hf'⟩
    · omega
    · have : i' = i := rank_inj hop' hop (by omega)
      subst this
      refine ⟨(sel_iff ..).mp hsel', ?_⟩
      rw [hf', flagOf]
      simp only [Late, decide_eq_true_eq]
      by_cases a : j = flipud asc i'
      · simp [a]
      · by_cases b : t j - t (flipud asc i') ≥ (0.0 : F) <;> simp [a, b]

/-- **C37, the part that holds**: at most one event of a cluster is kept.  Missing: that one is (`C37_one_kept_fails`). -/
theorem C37_at_most_one_kept_partial (cat : Fin n → Row F) (opt : String) (fs : F) (asc id1 : Equiv.Perm (Fin n)) (r : Result F n)
    (h1 : IsArgsort (flipud asc) id1) (h : gardnerKnopoff cat opt fs asc id1 = .ok r) (j k : Fin n)
    (hj : r.flag j = 0) (hk : r.flag k = 0) (hjk : r.vcl j = r.vcl k) (hpos : 0 < r.vcl j) : j = k := by
  obtain ⟨t, win, -, -, hall⟩ := C36_gk_windows cat opt fs asc id1 r h1 h
  obtain ⟨i, hi⟩ := hall _ hpos ⟨j, rfl⟩
  rw [(hi j rfl).2.1.mp hj, (hi k hjk.symm).2.1.mp hk]

/-- **C38** (Gardner–Knopoff): the main shock catalogue of a non-empty catalogue is not empty. -/
theorem C38_gk_nonempty (cat : Fin n → Row F) (opt : String) (fs : F) (asc id1 : Equiv.Perm (Fin n)) (r : Result F n)
    (h1 : IsArgsort (flipud asc) id1) (h : gardnerKnopoff cat opt fs asc id1 = .ok r) (hn : 0 < n) : r.vmain ≠ [] := by
  obtain ⟨t, win, -, -, hm, hvm, he⟩ := gk_each cat opt fs asc id1 r h1 h
  suffices hex : ∃ j, r.flag j = 0 by
    obtain ⟨j, hj⟩ := hex
    intro hnil
    have := ((hm j).mp hj).1
    rw [hnil] at this
    exact List.not_mem_nil this
  simp only at he
  set S' := fun i j => Sel cat t win fs (flipud asc i) (flipud asc j) with hS
  by_cases hop : ∃ i, Opens S' i
  · -- the last opener keeps its flag
    obtain ⟨i0, hi0⟩ := hop
    classical
    obtain ⟨i, hi, hmax⟩ := Finset.exists_max_image (Finset.univ.filter (fun i => Opens S' i)) id ⟨i0, by simp [hi0]⟩
    simp only [Finset.mem_filter, Finset.mem_univ, true_and, id] at hi hmax
    refine ⟨flipud asc i, ?_⟩
    rcases he (flipud asc i) with ⟨-, b, -⟩ | ⟨i', hop', hsel', hlast', -, hf'⟩
    · exact b
    · rcases (hmax i' hop').lt_or_eq with hlt | rfl
      · exfalso
        have hact := ((active_iff S' i).mp hi.1).2 i' hlt hop'.1
        simp only [hS] at hact
        rw [hact] at hsel'
        exact absurd hsel' (by simp)
      · rw [hf', flagOf, if_pos rfl]
  · refine ⟨⟨0, hn⟩, ?_⟩
    rcases he ⟨0, hn⟩ with ⟨-, b, -⟩ | ⟨i, hopi, -⟩
    · exact b
    · exact absurd ⟨i, hopi⟩ hop

/-- **C46** (Gardner–Knopoff): if no event lies in the windows of another, the whole catalogue is kept and there is no cluster. -/
theorem C46_gk_isolated (cat : Fin n → Row F) (opt : String) (fs : F) (asc id1 : Equiv.Perm (Fin n)) (r : Result F n)
    (h1 : IsArgsort (flipud asc) id1) (h : gardnerKnopoff cat opt fs asc id1 = .ok r)
    (hiso : ∀ t win, Times cat t → timeDistWindow opt = .ok win → ∀ i j, InWindows cat t win fs i j → i = j) :
    (∀ j, r.vcl j = 0 ∧ r.flag j = 0) ∧ r.vmain = (List.finRange n).map cat := by
  obtain ⟨t, win, ht, hw, hm, hvm, he⟩ := gk_each cat opt fs asc id1 r h1 h
  have hall : ∀ j, r.vcl j = 0 ∧ r.flag j = 0 := by
    intro j
    rcases he j with ⟨a, b, -⟩ | ⟨i, ⟨-, k, hk, hsel⟩, -⟩
    · exact ⟨a, b⟩
    · exfalso
      exact hk ((flipud asc).injective (hiso t win ht hw _ _ ((sel_iff ..).mp hsel))).symm
  refine ⟨hall, ?_⟩
  rw [hvm]
  congr 1
  rw [List.filter_eq_self]
  intro j _
  simp [(hall j).2]

/-- An event that is searched from and kept has no kept event in its windows. -/
theorem kept_alone (cat : Fin n → Row F) (opt : String) (fs : F) (asc id1 : Equiv.Perm (Fin n)) (r : Result F n)
    (h1 : IsArgsort (flipud asc) id1) (h : gardnerKnopoff cat opt fs asc id1 = .ok r) :
    ∃ t win, Times cat t ∧ timeDistWindow opt = .ok win ∧
      ∀ a j, a.val + 1 < n → r.flag (flipud asc a) = 0 → j ≠ flipud asc a → InWindows cat t win fs (flipud asc a) j →
        r.flag j ≠ 0 := by
  obtain ⟨t, win, ht, hw, hm, hvm, he⟩ := gk_each cat opt fs asc id1 r h1 h
  refine ⟨t, win, ht, hw, ?_⟩
  simp only at he
  set S' := fun i j => Sel cat t win fs (flipud asc i) (flipud asc j) with hS
  intro a j ha hfa hja hwin hj0
  have hsel := (sel_iff cat t win fs _ _).mpr hwin
  -- `a` is active
  have hact : Active S' a := by
    rw [active_iff]
    refine ⟨ha, ?_⟩
    intro k hk hka
    by_contra hc
    rw [Bool.not_eq_false] at hc
    have hopk : Opens S' k := ⟨hka, a, ne_of_gt hk, hc⟩
    rcases he (flipud asc a) with ⟨-, -, c⟩ | ⟨i, hop, hs, hl, hv, hf⟩
    · have := c k hopk
      simp only [hS] at hc
      rw [this] at hc
      exact absurd hc (by simp)
    · rw [hf, flagOf_zero] at hfa
      · -- i = a, but then a is not active
        have h2 := hfa
        have hai : a = i := (flipud asc).injective h2
        subst hai
        have := ((active_iff S' a).mp hop.1).2 k hk hka
        rw [hc] at this
        exact absurd this (by simp)
  have hopa : Opens S' a := by
    refine ⟨hact, (flipud asc).symm j, ?_, ?_⟩
    · intro hc; apply hja; rw [← hc, Equiv.apply_symm_apply]
    · simp only [hS, Equiv.apply_symm_apply]; exact hsel
  rcases he j with ⟨-, -, c⟩ | ⟨i, hop, hs, hl, hv, hf⟩
  · rw [c a hopa] at hsel; exact absurd hsel (by simp)
  · have hji : j = flipud asc i := by
      rw [hf, flagOf_zero] at hj0
      exact hj0
    have hai : a ≤ i := by
      by_contra hc
      rw [not_le] at hc
      rw [hl a hc hopa] at hsel
      exact absurd hsel (by simp)
    rcases hai.lt_or_eq with hlt | rfl
    · have := ((active_iff S' i).mp hop.1).2 a hlt hact
      simp only [hS] at this
      rw [hji] at hsel
      rw [this] at hsel
      exact absurd hsel (by simp)
    · exact hja hji

end

end Verif.Declustering
