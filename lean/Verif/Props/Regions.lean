import Verif.Props.AfteranExamples
import Verif.Props.GardnerKnopoffExamples

/-!
# Property C122: events far apart are declustered independently
-/

namespace Verif.Declustering

open Verif Verif.CatUtil Spec

variable {n k : Nat}

/-- The rows `e` of a catalogue are a region of their own: no event of the region is in the distance window of an event outside, nor the reverse. -/
def Spec.Apart (cat : Fin n → Row ℝ) (win : ℝ → ℝ × ℝ) (e : Fin k → Fin n) : Prop :=
  ∀ a i, i ∉ Set.range e → (win (cat i 5)).1 < eventDist cat i (e a) ∧ (win (cat (e a) 5)).1 < eventDist cat (e a) i

/-- The events of the region have the same flags and the same clusters in both results. -/
def Spec.SameOutcome (e : Fin k → Fin n) (r : Result ℝ n) (r' : Result ℝ k) : Prop :=
  (∀ a, r'.flag a = r.flag (e a)) ∧ (∀ a, r'.vcl a = 0 ↔ r.vcl (e a) = 0) ∧ ∀ a b, r'.vcl a = r'.vcl b ↔ r.vcl (e a) = r.vcl (e b)

/-! ### States of the two loops -/

/-- The state of the loop over the region against the one of the loop over the catalogue, in sorted positions. -/
structure Same (g : Fin k → Fin n) (s : State n) (s' : State k) : Prop where
  pos : 0 ≤ s.clust
  pos' : 0 ≤ s'.clust
  le : ∀ j, s.vcl j ≤ s.clust
  le' : ∀ a, s'.vcl a ≤ s'.clust
  zero : ∀ a, s'.vcl a = 0 ↔ s.vcl (g a) = 0
  part : ∀ a b, s'.vcl a = s'.vcl b ↔ s.vcl (g a) = s.vcl (g b)
  flag : ∀ a, s'.flag a = s.flag (g a)

theorem same_init (g : Fin k → Fin n) : Same g (State.init n) (State.init k) := by
  constructor <;> simp [State.init]

theorem same_both {g : Fin k → Fin n} {s : State n} {s' : State k} (h : Same g s s') {T : Fin n → Bool} {T' : Fin k → Bool} (hT : ∀ a, T' a = T (g a))
    {f : Fin n → Int} {f' : Fin k → Int} (hf : ∀ a, f' a = f (g a)) :
    Same g ⟨fun j => if T j then s.clust + 1 else s.vcl j, f, s.clust + 1⟩ ⟨fun a => if T' a then s'.clust + 1 else s'.vcl a, f', s'.clust + 1⟩ := by
  have := h.pos
  have := h.pos'
  refine ⟨by simp only; omega, by simp only; omega, fun j => ?_, fun a => ?_, fun a => ?_, fun a b => ?_, hf⟩
  · have := h.le j; simp only; split_ifs <;> omega
  · have := h.le' a; simp only; split_ifs <;> omega
  · simp only [hT]
    split_ifs
    · omega
    · exact h.zero a
  · have h1 := h.le (g a)
    have h2 := h.le (g b)
    have h3 := h.le' a
    have h4 := h.le' b
    simp only [hT]
    split_ifs
    · omega
    · omega
    · omega
    · exact h.part a b

theorem same_outside {g : Fin k → Fin n} {s : State n} {s' : State k} (h : Same g s s') {T : Fin n → Bool} (hT : ∀ a, T (g a) = false)
    {f : Fin n → Int} (hf : ∀ a, f (g a) = s.flag (g a)) :
    Same g ⟨fun j => if T j then s.clust + 1 else s.vcl j, f, s.clust + 1⟩ s' := by
  have := h.pos
  refine ⟨by simp only; omega, h.pos', fun j => ?_, h.le', fun a => ?_, fun a b => ?_, fun a => ?_⟩
  · have := h.le j; simp only; split_ifs <;> omega
  · simp only [hT]; exact h.zero a
  · simp only [hT]; exact h.part a b
  · simp only [hf]; exact h.flag a

/-- The positions of the region in the order of a monotone embedding. -/
theorem filter_range {g : Fin k → Fin n} (hg : StrictMono g) [DecidablePred (· ∈ Set.range g)] :
    (List.finRange n).filter (fun i => decide (i ∈ Set.range g)) = (List.finRange k).map g := by
  have h1 : ((List.finRange n).filter (fun i => decide (i ∈ Set.range g))).Pairwise (· < ·) := (List.pairwise_lt_finRange n).filter _
  have h2 : ((List.finRange k).map g).Pairwise (· < ·) := by
    rw [List.pairwise_map]
    exact (List.pairwise_lt_finRange k).imp fun h => hg h
  have hp : ((List.finRange n).filter (fun i => decide (i ∈ Set.range g))).Perm ((List.finRange k).map g) := by
    rw [List.perm_ext_iff_of_nodup (h1.imp fun h => h.ne) (h2.imp fun h => h.ne)]
    intro i
    simp
  exact hp.eq_of_pairwise (fun a b _ _ h h' => absurd h' (not_lt_of_gt h)) h1 h2

/-- The sorted positions of the region. -/
theorem positions {m : Fin n → ℝ} (hm : Function.Injective m) {e : Fin k → Fin n} (he : Function.Injective e) {P : Equiv.Perm (Fin n)}
    {Q : Equiv.Perm (Fin k)} (hP : ∀ a b, a ≤ b → m (P b) ≤ m (P a)) (hQ : ∀ a b, a ≤ b → m (e (Q b)) ≤ m (e (Q a))) :
    StrictMono (fun a => P.symm (e (Q a))) := by
  intro a b hab
  by_contra hc
  have h1 := hP _ _ (not_lt.mp hc)
  simp only [Equiv.apply_symm_apply] at h1
  have h2 := hQ _ _ hab.le
  exact hab.ne (Q.injective (he (hm (le_antisymm h1 h2))))

/-! ### Gardner-Knopoff -/

theorem genStep_same {g : Fin k → Fin n} (hg : Function.Injective g) {S late : Fin n → Fin n → Bool} {S' late' : Fin k → Fin k → Bool}
    (hS : ∀ a b, S' a b = S (g a) (g b)) (hL : ∀ a b, late' a b = late (g a) (g b)) (hout : ∀ a i, i ∉ Set.range g → S (g a) i = false)
    {s : State n} {s' : State k} (h : Same g s s') (a : Fin k) : Same g (genStep S late s (g a)) (genStep S' late' s' a) := by
  unfold genStep
  by_cases hz : s.vcl (g a) = 0
  · rw [if_pos hz, if_pos ((h.zero a).mpr hz)]
    have hany : (List.finRange n).any (fun j => if j = g a then false else S (g a) j) =
        (List.finRange k).any (fun j => if j = a then false else S' a j) := by
      rw [Bool.eq_iff_iff, List.any_eq_true, List.any_eq_true]
      constructor
      · rintro ⟨j, -, hj⟩
        by_cases hr : j ∈ Set.range g
        · obtain ⟨b, rfl⟩ := hr
          refine ⟨b, List.mem_finRange b, ?_⟩
          rw [hS]
          simpa [hg.eq_iff] using hj
        · simp [hout a j hr] at hj
      · rintro ⟨b, -, hb⟩
        refine ⟨g b, List.mem_finRange _, ?_⟩
        rw [hS] at hb
        simpa [hg.eq_iff] using hb
    rw [hany]
    split_ifs
    · refine same_both h (hS a) fun b => ?_
      simp only [hS, hL, hg.eq_iff, h.flag]
    · exact h
  · rw [if_neg hz, if_neg (fun hc => hz ((h.zero a).mp hc))]
    exact h

theorem genStep_outside {g : Fin k → Fin n} {S late : Fin n → Fin n → Bool} {i : Fin n} (hi : i ∉ Set.range g) (hout : ∀ a, S i (g a) = false)
    {s : State n} {s' : State k} (h : Same g s s') : Same g (genStep S late s i) s' := by
  have hne : ∀ a, g a ≠ i := fun a hc => hi ⟨a, hc⟩
  unfold genStep
  split_ifs
  · refine same_outside h hout fun a => ?_
    simp only [hout, hne, if_false, ite_self, Bool.false_eq_true]
  · exact h
  · exact h

theorem foldl_same {g : Fin k → Fin n} [DecidablePred (· ∈ Set.range g)] {f : State n → Fin n → State n} {f' : State k → Fin k → State k}
    (hin : ∀ s s' a, Same g s s' → Same g (f s (g a)) (f' s' a)) (hout : ∀ s s' i, i ∉ Set.range g → Same g s s' → Same g (f s i) s')
    (l : List (Fin n)) (l' : List (Fin k)) (hl : l.filter (fun i => decide (i ∈ Set.range g)) = l'.map g) (s : State n) (s' : State k)
    (h : Same g s s') : Same g (l.foldl f s) (l'.foldl f' s') := by
  induction l generalizing l' s s' with
  | nil =>
    rw [List.filter_nil] at hl
    rw [List.map_eq_nil_iff.mp hl.symm]
    exact h
  | cons i l ih =>
    by_cases hi : i ∈ Set.range g
    · rw [List.filter_cons_of_pos (by simpa using hi)] at hl
      rcases l' with _ | ⟨a, l'⟩
      · simp at hl
      · rw [List.map_cons, List.cons.injEq] at hl
        obtain ⟨rfl, hl⟩ := hl
        exact ih l' hl _ _ (hin _ _ _ h)
    · rw [List.filter_cons_of_neg (by simpa using hi)] at hl
      exact ih l' hl _ _ (hout _ _ _ hi h)

theorem finRange_take (m : ℕ) : List.finRange (m + 1) = (List.finRange (m + 1)).take m ++ [Fin.last m] := by
  have h := List.take_append_drop m (List.finRange (m + 1))
  rw [← h]
  congr 1
  · rw [h]
  · rw [List.drop_eq_getElem_cons (by simp), List.drop_eq_nil_of_le (by simp)]
    simp [Fin.last]

/-- **C122, part that holds (Gardner-Knopoff)**: the events of a region apart have the same flags and clusters as if the region were declustered
alone, if the smallest event of the region is the smallest of the catalogue, or has no other event of the region in its windows.  Missing: other
regions, because the smallest event of a catalogue never searches for dependent events (`C122_fails`). -/
theorem C122_gardner_knopoff_partial (cat : Fin n → Row ℝ) (hm : Function.Injective fun j => cat j 5) (e : Fin k → Fin n) (he : Function.Injective e)
    (opt : String) (fs : ℝ) (win : ℝ → ℝ × ℝ) (hw : timeDistWindow opt = .ok win) (hfar : Spec.Apart cat win e)
    (hlast : ∀ l, (∀ a, cat (e l) 5 ≤ cat (e a) 5) → (∀ j, cat (e l) 5 ≤ cat j 5) ∨
      ∀ t, Times cat t → ∀ a, a ≠ l → ¬ InWindows cat t win fs (e l) (e a))
    {asc id1 : Equiv.Perm (Fin n)} {asc' id1' : Equiv.Perm (Fin k)} {r : Result ℝ n} {r' : Result ℝ k}
    (h0 : IsArgsort (fun j => cat j 5) asc) (h1 : IsArgsort (flipud asc) id1)
    (h0' : IsArgsort (fun a => cat (e a) 5) asc') (h1' : IsArgsort (flipud asc') id1')
    (h : gardnerKnopoff cat opt fs asc id1 = .ok r) (h' : gardnerKnopoff (fun a => cat (e a)) opt fs asc' id1' = .ok r') :
    Spec.SameOutcome e r r' := by
  classical
  obtain ⟨t, win1, ht, hw1, hr⟩ := gk_ok _ _ _ _ _ _ h
  obtain ⟨t', win2, ht', hw2, hr'⟩ := gk_ok _ _ _ _ _ _ h'
  obtain rfl : win = win1 := Except.ok.inj (hw.symm.trans hw1)
  obtain rfl : win = win2 := Except.ok.inj (hw.symm.trans hw2)
  have htm := (decimalYears_times _ _).mp ht
  have htt : t' = fun a => t (e a) := times_unique (fun a => cat (e a)) _ _ ((decimalYears_times _ _).mp ht') fun a => htm (e a)
  have e1 := argsort_perm _ _ h1
  have e1' := argsort_perm _ _ h1'
  subst e1 e1'
  set g : Fin k → Fin n := fun a => (flipud asc).symm (e (flipud asc' a)) with hgdef
  have hPg : ∀ a, flipud asc (g a) = e (flipud asc' a) := fun a => by rw [hgdef, Equiv.apply_symm_apply]
  have hg : StrictMono g := positions hm he (fun a b hab => flipud_desc h0 a b hab) (fun a b hab => flipud_desc h0' a b hab)
  have hrange : ∀ i, i ∉ Set.range g → flipud asc i ∉ Set.range e := by
    rintro i hi ⟨a, ha⟩
    refine hi ⟨(flipud asc').symm a, ?_⟩
    apply (flipud asc).injective
    rw [hPg, Equiv.apply_symm_apply, ha]
  set S := fun i j => Sel cat t win fs (flipud asc i) (flipud asc j) with hSdef
  set L := fun i j => Late t (flipud asc i) (flipud asc j) with hLdef
  set S' := fun i j => Sel (fun a => cat (e a)) t' win fs (flipud asc' i) (flipud asc' j) with hSdef'
  set L' := fun i j => Late t' (flipud asc' i) (flipud asc' j) with hLdef'
  have hS : ∀ a b, S' a b = S (g a) (g b) := by
    intro a b
    simp only [hSdef, hSdef', hPg, htt]
    rfl
  have hL : ∀ a b, L' a b = L (g a) (g b) := by
    intro a b
    simp only [hLdef, hLdef', hPg, htt]
    rfl
  have hfalse : ∀ i j, (win (cat i 5)).1 < eventDist cat i j → Sel cat t win fs i j = false := by
    intro i j hd
    rw [Bool.eq_false_iff]
    intro hc
    exact absurd ((sel_iff ..).mp hc).2.2 (not_le.mpr hd)
  have hin : ∀ s s' a, Same g s s' → Same g (genStep S L s (g a)) (genStep S' L' s' a) := fun s s' a hs =>
    genStep_same hg.injective hS hL (fun a i hi => by
      simp only [hSdef, hPg]
      exact hfalse _ _ (hfar _ _ (hrange i hi)).2) hs a
  have hout : ∀ s s' i, i ∉ Set.range g → Same g s s' → Same g (genStep S L s i) s' := fun s s' i hi hs =>
    genStep_outside hi (fun a => by
      simp only [hSdef, hPg]
      exact hfalse _ _ (hfar _ _ (hrange i hi)).1) hs
  have hloop : Same g (((List.finRange n).take (n - 1)).foldl (genStep S L) (State.init n))
      (((List.finRange k).take (k - 1)).foldl (genStep S' L') (State.init k)) := by
    rcases k with _ | k
    · refine foldl_same hin hout _ _ ?_ _ _ (same_init g)
      simp only [List.finRange_zero, List.take_nil, List.map_nil, List.filter_eq_nil_iff, decide_eq_true_eq]
      rintro i - ⟨a, -⟩
      exact a.elim0
    rcases n with _ | n
    · exact (e 0).elim0
    have hfil := filter_range hg
    rw [finRange_take n, List.filter_append, finRange_take k, List.map_append, List.map_singleton] at hfil
    rw [Nat.add_sub_cancel, Nat.add_sub_cancel]
    by_cases hr : Fin.last n ∈ Set.range g
    · -- the region has the smallest event
      rw [List.filter_cons_of_pos (by simpa using hr), List.filter_nil] at hfil
      exact foldl_same hin hout _ _ (List.append_inj_left' hfil rfl) _ _ (same_init g)
    · rw [List.filter_cons_of_neg (by simpa using hr), List.filter_nil, List.append_nil, ← List.map_singleton, ← List.map_append] at hfil
      have hs := foldl_same hin hout _ _ hfil _ _ (same_init g)
      rw [List.foldl_append, List.foldl_cons, List.foldl_nil] at hs
      -- the smallest event of the region finds nothing
      have hnone : ∀ b, b ≠ Fin.last k → S' (Fin.last k) b = false := by
        intro b hb
        rcases hlast (flipud asc' (Fin.last k)) (fun a => by
          have := flipud_desc h0' ((flipud asc').symm a) (Fin.last k) (Fin.le_last _)
          simpa using this) with hall | hnot
        · exfalso
          apply hr
          have h2 := flipud_desc h0 (g (Fin.last k)) (Fin.last n) (Fin.le_last _)
          have h3 := hall (flipud asc (Fin.last n))
          rw [hPg] at h2
          exact ⟨Fin.last k, (flipud asc).injective (by rw [hPg]; exact hm (le_antisymm h3 h2))⟩
        · rw [Bool.eq_false_iff]
          intro hc
          rw [hS] at hc
          simp only [hSdef, hPg] at hc
          exact hnot t htm _ (fun hc' => hb ((flipud asc').injective hc')) ((sel_iff ..).mp hc)
      have hid : ∀ s, genStep S' L' s (Fin.last k) = s := by
        intro s
        unfold genStep
        have : (List.finRange (k + 1)).any (fun j => if j = Fin.last k then false else S' (Fin.last k) j) = false := by
          rw [List.any_eq_false]
          intro j _
          split_ifs with hj
          · simp
          · simp [hnone j hj]
        rw [this]
        simp
      rw [hid] at hs
      exact hs
  rw [hr, hr']
  simp only [Spec.SameOutcome, Function.comp]
  have hinv : ∀ a, (flipud asc).symm (e a) = g ((flipud asc').symm a) := by
    intro a; simp only [hgdef, Equiv.apply_symm_apply]
  simp only [hinv]
  exact ⟨fun a => hloop.flag _, fun a => hloop.zero _, fun a b => hloop.part _ _⟩

/-! ### Afteran -/

/-- A selection inside the region. -/
theorem filter_inside {g : Fin k → Fin n} (hg : StrictMono g) (p : Fin n → Bool) (hp : ∀ i, i ∉ Set.range g → p i = false) :
    (List.finRange n).filter p = ((List.finRange k).filter fun a => p (g a)).map g := by
  classical
  have h1 : (List.finRange n).filter p = ((List.finRange n).filter (fun i => decide (i ∈ Set.range g))).filter p := by
    rw [List.filter_filter]
    refine List.filter_congr fun i _ => ?_
    by_cases hi : i ∈ Set.range g
    · simp [hi]
    · rw [hp i hi]; simp
  rw [h1, filter_range hg, List.filter_map]
  rfl

theorem marked_map {g : Fin k → Fin n} (hg : Function.Injective g) (sel : List (Fin k)) (marks : List Bool) (a : Fin k) :
    marked (sel.map g) marks (g a) = marked sel marks a := by
  unfold marked
  induction sel generalizing marks with
  | nil => simp
  | cons x sel ih =>
    rcases marks with _ | ⟨m, marks⟩
    · simp
    · simp only [List.map_cons, List.zip_cons_cons, List.any_cons, ih, hg.eq_iff]

theorem marked_not_mem (sel : List (Fin n)) (marks : List Bool) (j : Fin n) (h : j ∉ sel) : marked sel marks j = false := by
  rw [Bool.eq_false_iff]
  intro hc
  rw [marked_iff] at hc
  exact h (List.of_mem_zip hc).1

theorem afStep_region {g : Fin k → Fin n} (hg : StrictMono g) {cat : Fin n → Row ℝ} {cat' : Fin k → Row ℝ} (hc : ∀ a, cat' a = cat (g a))
    {t sp : Fin n → ℝ} {t' sp' : Fin k → ℝ} (ht : ∀ a, t' a = t (g a)) (hsp : ∀ a, sp' a = sp (g a)) {tw : ℝ}
    (hout : ∀ a i, i ∉ Set.range g → sp (g a) < eventDist cat (g a) i)
    {s s1 : State n} {s' s1' : State k} (h : Same g s s') (a : Fin k) (h1 : afStep cat t sp tw s (g a) = .ok s1)
    (h1' : afStep cat' t' sp' tw s' a = .ok s1') : Same g s1 s1' := by
  unfold afStep at h1 h1'
  by_cases hz : s.vcl (g a) = 0
  swap
  · rw [if_neg hz] at h1
    rw [if_neg (fun hc => hz ((h.zero a).mp hc))] at h1'
    cases h1; cases h1'
    exact h
  rw [if_pos hz] at h1
  rw [if_pos ((h.zero a).mpr hz)] at h1'
  have hsel : afSel cat sp s (g a) = (afSel cat' sp' s' a).map g := by
    unfold afSel
    rw [filter_inside hg]
    · congr 1
      refine List.filter_congr fun b _ => ?_
      rw [hc, hc, hsp, Bool.eq_iff_iff]
      simp only [Bool.and_eq_true, decide_eq_true_eq, h.zero]
    · intro i hi
      have := hout a i hi
      simp only [eventDist] at this
      simp [this]
  have hdt : (afSel cat sp s (g a)).map (fun j => t j - t (g a)) = (afSel cat' sp' s' a).map (fun j => t' j - t' a) := by
    rw [hsel, List.map_map]
    refine List.map_congr_left fun b _ => ?_
    simp [ht]
  simp only [hdt, bind, Except.bind] at h1 h1'
  rcases hA : findAftershocks tw ((afSel cat' sp' s' a).map (fun j => t' j - t' a)) with er | v1
  · rw [hA] at h1; cases h1
  simp only [hA] at h1 h1'
  rcases hB : findForeshocks tw ((afSel cat' sp' s' a).map (fun j => t' j - t' a)) v1 with er | v2
  · rw [hB] at h1; cases h1
  simp only [hB, hsel] at h1 h1'
  have hmk : ∀ marks b, marked (afSel cat' sp' s' a) marks b = marked ((afSel cat' sp' s' a).map g) marks (g b) :=
    fun marks b => (marked_map hg.injective _ _ _).symm
  have hcount : (List.finRange n).countP (marked ((afSel cat' sp' s' a).map g) (List.zipWith (· || ·) v1 v2)) =
      (List.finRange k).countP (marked (afSel cat' sp' s' a) (List.zipWith (· || ·) v1 v2)) := by
    rw [List.countP_eq_length_filter, List.countP_eq_length_filter, filter_inside hg, List.length_map]
    · congr 1
      refine List.filter_congr fun b _ => ?_
      exact (hmk _ _).symm
    · intro i hi
      refine marked_not_mem _ _ _ fun hm => hi ?_
      obtain ⟨b, -, rfl⟩ := List.mem_map.mp hm
      exact ⟨b, rfl⟩
  rw [hcount] at h1
  split_ifs at h1 h1'
  · cases h1; cases h1'
    refine same_both h (fun b => hmk _ b) fun b => ?_
    simp only [hmk, h.flag]
  · cases h1; cases h1'
    exact h

theorem afStep_outside {g : Fin k → Fin n} {cat : Fin n → Row ℝ} {t sp : Fin n → ℝ} {tw : ℝ} {i : Fin n}
    (hout : ∀ a, sp i < eventDist cat i (g a)) {s s1 : State n} {s' : State k} (h : Same g s s')
    (h1 : afStep cat t sp tw s i = .ok s1) : Same g s1 s' := by
  unfold afStep at h1
  split_ifs at h1
  swap
  · cases h1; exact h
  have hmk : ∀ marks a, marked (afSel cat sp s i) marks (g a) = false := by
    intro marks a
    refine marked_not_mem _ _ _ fun hm => ?_
    have := (List.mem_filter.mp hm).2
    simp only [Bool.and_eq_true, decide_eq_true_eq] at this
    exact absurd this.1 (not_le.mpr (hout a))
  simp only [bind, Except.bind] at h1
  rcases hA : findAftershocks tw ((afSel cat sp s i).map (fun j => t j - t i)) with er | v1
  · rw [hA] at h1; cases h1
  simp only [hA] at h1
  rcases hB : findForeshocks tw ((afSel cat sp s i).map (fun j => t j - t i)) v1 with er | v2
  · rw [hB] at h1; cases h1
  simp only [hB] at h1
  split_ifs at h1
  · cases h1
    refine same_outside h (hmk _) fun a => ?_
    simp only [hmk, Bool.false_eq_true, if_false]
  · cases h1; exact h

theorem foldlM_same {g : Fin k → Fin n} [DecidablePred (· ∈ Set.range g)] {f : State n → Fin n → Except PyErr (State n)}
    {f' : State k → Fin k → Except PyErr (State k)}
    (hin : ∀ s s' a s1 s1', Same g s s' → f s (g a) = .ok s1 → f' s' a = .ok s1' → Same g s1 s1')
    (hout : ∀ s s' i s1, i ∉ Set.range g → Same g s s' → f s i = .ok s1 → Same g s1 s')
    (l : List (Fin n)) (l' : List (Fin k)) (hl : l.filter (fun i => decide (i ∈ Set.range g)) = l'.map g) (s u : State n) (s' u' : State k)
    (h : Same g s s') (hu : l.foldlM f s = .ok u) (hu' : l'.foldlM f' s' = .ok u') : Same g u u' := by
  induction l generalizing l' s s' with
  | nil =>
    rw [List.filter_nil] at hl
    rw [List.map_eq_nil_iff.mp hl.symm] at hu'
    cases hu; cases hu'
    exact h
  | cons i l ih =>
    simp only [List.foldlM_cons, bind, Except.bind] at hu
    rcases hf : f s i with er | s1
    · rw [hf] at hu; cases hu
    simp only [hf] at hu
    by_cases hi : i ∈ Set.range g
    · rw [List.filter_cons_of_pos (by simpa using hi)] at hl
      rcases l' with _ | ⟨a, l'⟩
      · simp at hl
      · rw [List.map_cons, List.cons.injEq] at hl
        obtain ⟨rfl, hl⟩ := hl
        simp only [List.foldlM_cons, bind, Except.bind] at hu'
        rcases hf' : f' s' a with er | s1'
        · rw [hf'] at hu'; cases hu'
        simp only [hf'] at hu'
        exact ih l' hl _ _ (hin _ _ _ _ _ h hf hf') hu hu'
    · rw [List.filter_cons_of_neg (by simpa using hi)] at hl
      exact ih l' hl _ _ (hout _ _ _ _ hi h hf) hu hu'

/-- **C122, part that holds (Afteran)**: the events of a region apart have the same flags and clusters as if the region were declustered alone.
Missing: Gardner-Knopoff declustering (`C122_fails`). -/
theorem C122_afteran_partial (cat : Fin n → Row ℝ) (hm : Function.Injective fun j => cat j 5) (e : Fin k → Fin n) (he : Function.Injective e)
    (opt : String) (w : ℝ) (win : ℝ → ℝ × ℝ) (hw : timeDistWindow opt = .ok win) (hfar : Spec.Apart cat win e)
    {asc id1 : Equiv.Perm (Fin n)} {asc' id1' : Equiv.Perm (Fin k)} {r : Result ℝ n} {r' : Result ℝ k}
    (h0 : IsArgsort (fun j => cat j 5) asc) (h1 : IsArgsort (flipud asc) id1)
    (h0' : IsArgsort (fun a => cat (e a) 5) asc') (h1' : IsArgsort (flipud asc') id1')
    (h : afteran cat opt w asc id1 = .ok r) (h' : afteran (fun a => cat (e a)) opt w asc' id1' = .ok r') :
    Spec.SameOutcome e r r' := by
  classical
  obtain ⟨t, win1, s, ht, hw1, hs, hr⟩ := af_ok _ _ _ _ _ _ h
  obtain ⟨t', win2, s', ht', hw2, hs', hr'⟩ := af_ok _ _ _ _ _ _ h'
  obtain rfl : win = win1 := Except.ok.inj (hw.symm.trans hw1)
  obtain rfl : win = win2 := Except.ok.inj (hw.symm.trans hw2)
  have htm := (decimalYears_times _ _).mp ht
  have htt : t' = fun a => t (e a) := times_unique (fun a => cat (e a)) _ _ ((decimalYears_times _ _).mp ht') fun a => htm (e a)
  have e1 := argsort_perm _ _ h1
  have e1' := argsort_perm _ _ h1'
  subst e1 e1'
  set g : Fin k → Fin n := fun a => (flipud asc).symm (e (flipud asc' a)) with hgdef
  have hPg : ∀ a, flipud asc (g a) = e (flipud asc' a) := fun a => by rw [hgdef, Equiv.apply_symm_apply]
  have hg : StrictMono g := positions hm he (fun a b hab => flipud_desc h0 a b hab) (fun a b hab => flipud_desc h0' a b hab)
  have hrange : ∀ i, i ∉ Set.range g → flipud asc i ∉ Set.range e := by
    rintro i hi ⟨a, ha⟩
    refine hi ⟨(flipud asc').symm a, ?_⟩
    apply (flipud asc).injective
    rw [hPg, Equiv.apply_symm_apply, ha]
  have hloop : Same g s s' := by
    refine foldlM_same (f := afStep (cat ∘ flipud asc) (t ∘ flipud asc) ((fun j => (win (cat j 5)).1) ∘ flipud asc) (w / ((365 : ℕ) : ℝ)))
      (f' := afStep ((fun a => cat (e a)) ∘ flipud asc') (t' ∘ flipud asc') ((fun a => (win (cat (e a) 5)).1) ∘ flipud asc') (w / ((365 : ℕ) : ℝ)))
      ?_ ?_ _ _ (filter_range hg) _ _ _ _ (same_init g) hs hs'
    · intro s s' a s1 s1' hss h2 h2'
      refine afStep_region hg (fun b => ?_) (fun b => ?_) (fun b => ?_) (fun b i hi => ?_) hss a h2 h2'
      · simp only [Function.comp, hPg]
      · simp only [Function.comp, hPg, htt]
      · simp only [Function.comp, hPg]
      · have := (hfar (flipud asc' b) _ (hrange i hi)).2
        simp only [eventDist, Function.comp, hPg] at this ⊢
        exact this
    · intro s s' i s1 hi hss h2
      refine afStep_outside (fun b => ?_) hss h2
      have := (hfar (flipud asc' b) _ (hrange i hi)).1
      simp only [eventDist, Function.comp, hPg] at this ⊢
      exact this
  rw [hr, hr']
  simp only [Spec.SameOutcome, Function.comp]
  have hinv : ∀ a, (flipud asc).symm (e a) = g ((flipud asc').symm a) := by
    intro a; simp only [hgdef, Equiv.apply_symm_apply]
  simp only [hinv]
  exact ⟨fun a => hloop.flag _, fun a => hloop.zero _, fun a b => hloop.part _ _⟩

/-! ### A distant small event lets a foreshock remove the main shock -/

/-- Magnitude 6 on 29 January 2000, magnitude 5 at the same place on the 1st, magnitude 4 on the 1st 40 degrees away. -/
noncomputable def cat122 : Fin 3 → Row ℝ := evs ![2000, 2000, 2000] ![29, 1, 1] ![0, 0, 40] ![6, 5, 4]

/-- The first two rows. -/
def near122 : Fin 2 → Fin 3 := ![0, 1]

theorem cat122_near : (fun a => cat122 (near122 a)) = evs ![2000, 2000] ![29, 1] ![0, 0] ![6, 5] := by
  funext a
  fin_cases a <;> rfl

theorem windows122 : (0 ≤ (gkWindow (6 : ℝ)).1 ∧ (gkWindow (6 : ℝ)).1 < 60 ∧ 1 ≤ (gkWindow (6 : ℝ)).2 ∧ (gkWindow (6 : ℝ)).2 < 1.5) ∧
    (0 ≤ (gkWindow (5 : ℝ)).1 ∧ (gkWindow (5 : ℝ)).1 < 60 ∧ 0.1 ≤ (gkWindow (5 : ℝ)).2) ∧ (gkWindow (4 : ℝ)).1 < 60 := by
  obtain ⟨-, ⟨b1, b2, b3⟩, c⟩ := gk_windows_examples
  refine ⟨⟨b1, b2, b3, ?_⟩, c, ?_⟩
  · rw [gk_time]
    have := ten_rpow_lt 547.5 (0.5409 * 6 - 0.547) 27 10 (by norm_num) (by norm_num) (by norm_num) (by norm_num)
    norm_num at this ⊢
    linarith
  · rw [gk_space]
    exact ten_rpow_lt _ _ 3 2 (by norm_num) (by norm_num) (by norm_num) (by norm_num)

/-- Which of the events (columns) lie in the windows of the first two (rows), with the foreshock fraction 0.05. -/
def sel122 : Fin 3 → Fin 3 → Bool := ![![true, false, false], ![true, true, false], ![false, false, false]]

theorem run122 : ∃ r, gardnerKnopoff cat122 "GardnerKnopoff" 0.05 Fin.revPerm (Equiv.refl _) = .ok r ∧ r.flag = ![1, 0, 0] := by
  have h := evs_gk ![2000, 2000, 2000] ![29, 1, 1] ![0, 0, 40] ![6, 5, 4] "GardnerKnopoff" 0.05 gkWindow gk_opt sel122 (by
    obtain ⟨⟨a1, a2, a3, a4⟩, ⟨b1, b2, b3⟩, -⟩ := windows122
    have h1 := Real.pi_gt_d4
    intro i j hi
    apply bool_eq_of_iff
    rw [evs_windows _ _ _ _ _ _ _ _ (by fin_cases i <;> fin_cases j <;> norm_num)]
    fin_cases i <;> fin_cases j <;> simp [sel122] at hi ⊢ <;> norm_num at * <;>
      (first | (refine ⟨?_, ?_, ?_⟩ <;> linarith) | (refine ⟨?_, ?_⟩ <;> linarith) | (intros; linarith)))
  simp only at h
  set s := ((List.finRange 3).take (3 - 1)).foldl (genStep sel122 (fun i j => decide
    (0 ≤ 365 * (![(2000 : ℤ), 2000, 2000] j - ![2000, 2000, 2000] i) + (![(29 : ℤ), 1, 1] j - ![29, 1, 1] i)))) (State.init 3) with hs
  have hf : s.flag = ![1, 0, 0] := by rw [hs]; decide
  exact ⟨_, h, hf⟩

theorem run122_near : ∃ r, gardnerKnopoff (fun a => cat122 (near122 a)) "GardnerKnopoff" 0.05 Fin.revPerm (Equiv.refl _) = .ok r ∧ r.flag = ![0, 0] := by
  rw [cat122_near]
  have h := evs_gk ![2000, 2000] ![29, 1] ![0, 0] ![6, 5] "GardnerKnopoff" 0.05 gkWindow gk_opt ![![true, false], ![true, true]] (by
    obtain ⟨⟨a1, a2, a3, a4⟩, -, -⟩ := windows122
    intro i j hi
    apply bool_eq_of_iff
    rw [evs_windows _ _ _ _ _ _ _ _ (by fin_cases i <;> fin_cases j <;> norm_num)]
    fin_cases i <;> fin_cases j <;> simp at hi ⊢ <;> norm_num at * <;>
      (first | (refine ⟨?_, ?_, ?_⟩ <;> linarith) | (refine ⟨?_, ?_⟩ <;> linarith) | (intros; linarith)))
  simp only at h
  set s := ((List.finRange 2).take (2 - 1)).foldl (genStep ![![true, false], ![true, true]] (fun i j => decide
    (0 ≤ 365 * (![(2000 : ℤ), 2000] j - ![2000, 2000] i) + (![(29 : ℤ), 1] j - ![29, 1] i)))) (State.init 2) with hs
  have hf : s.flag = ![0, 0] := by rw [hs]; decide
  exact ⟨_, h, hf⟩

theorem cat122_desc (a b : Fin 3) (h : a ≤ b) : cat122 b 5 ≤ cat122 a 5 := by
  revert h
  fin_cases a <;> fin_cases b <;> simp [cat122, evs, ev] <;> norm_num

theorem cat122_injective : Function.Injective fun j => cat122 j 5 := by
  intro a b h
  fin_cases a <;> fin_cases b <;> simp [cat122, evs, ev] at h ⊢

theorem near122_desc (a b : Fin 2) (h : a ≤ b) : cat122 (near122 b) 5 ≤ cat122 (near122 a) 5 := by
  revert h
  fin_cases a <;> fin_cases b <;> simp [cat122, near122, evs, ev] <;> norm_num

theorem apart122 : Spec.Apart cat122 gkWindow near122 := by
  intro a i hi
  obtain rfl : i = 2 := by
    fin_cases i
    · exact absurd ⟨0, rfl⟩ hi
    · exact absurd ⟨1, rfl⟩ hi
    · rfl
  obtain ⟨⟨a1, a2, a3, a4⟩, ⟨b1, b2, b3⟩, c⟩ := windows122
  have h1 := Real.pi_gt_d4
  unfold cat122
  rw [evs_dist _ _ _ _ _ _ (by fin_cases a <;> simp [near122] <;> norm_num), evs_dist _ _ _ _ _ _ (by fin_cases a <;> simp [near122] <;> norm_num)]
  fin_cases a <;> simp [near122, evs, ev] <;> constructor <;> norm_num <;> nlinarith

/-- **C122 is false of the code**: the magnitude 5 event four weeks before the magnitude 6 event at the same place is outside the foreshock
window, and both are kept if declustered alone.  With a magnitude 4 event 40 degrees away in the catalogue the magnitude 5 event is no more the
last one, searches for dependent events, and removes the magnitude 6 event as its aftershock. -/
theorem C122_fails :
    ¬ ∀ (n k : Nat) (cat : Fin n → Row ℝ) (e : Fin k → Fin n) (opt : String) (fs : ℝ) (win : ℝ → ℝ × ℝ) (asc id1 : Equiv.Perm (Fin n))
      (asc' id1' : Equiv.Perm (Fin k)) (r : Result ℝ n) (r' : Result ℝ k), Function.Injective (fun j => cat j 5) → Function.Injective e →
      0 < fs → fs ≤ 1 → timeDistWindow opt = .ok win → Spec.Apart cat win e →
      IsArgsort (fun j => cat j 5) asc → IsArgsort (flipud asc) id1 → IsArgsort (fun a => cat (e a) 5) asc' → IsArgsort (flipud asc') id1' →
      gardnerKnopoff cat opt fs asc id1 = .ok r → gardnerKnopoff (fun a => cat (e a)) opt fs asc' id1' = .ok r' → Spec.SameOutcome e r r' := by
  intro H
  obtain ⟨r, hr, hf⟩ := run122
  obtain ⟨r', hr', hf'⟩ := run122_near
  have h := (H 3 2 cat122 near122 "GardnerKnopoff" 0.05 gkWindow _ _ _ _ r r' cat122_injective (by decide) (by norm_num) (by norm_num) gk_opt
    apart122 (argsort_rev _ cat122_desc) argsort_flip_rev (argsort_rev _ near122_desc) argsort_flip_rev hr hr').1 0
  rw [hf, hf'] at h
  simp [near122] at h

/-- The hypotheses of the theorem on Gardner-Knopoff hold for the region of the magnitude 4 event. -/
example : ∃ r r', gardnerKnopoff cat122 "GardnerKnopoff" 0.05 Fin.revPerm (Equiv.refl _) = .ok r ∧
    gardnerKnopoff (fun a => cat122 (![2] a)) "GardnerKnopoff" 0.05 Fin.revPerm (Equiv.refl _) = .ok r' ∧ Spec.SameOutcome ![2] r r' := by
  obtain ⟨r, hr, -⟩ := run122
  obtain ⟨r', hr'⟩ := (C34_gk_succeeds (fun a => cat122 (![2] a)) "GardnerKnopoff" 0.05 Fin.revPerm (Equiv.refl _)).mpr
    ⟨by simp, _, fun a => evs_times ![2000, 2000, 2000] ![29, 1, 1] ![0, 0, 40] ![6, 5, 4] (![2] a)⟩
  have hap : Spec.Apart cat122 gkWindow ![2] := by
    intro a i hi
    have hi' : i = near122 0 ∨ i = near122 1 := by
      fin_cases i
      · exact Or.inl rfl
      · exact Or.inr rfl
      · exact absurd ⟨0, rfl⟩ hi
    have h2 : (2 : Fin 3) ∉ Set.range near122 := by rintro ⟨a, ha⟩; fin_cases a <;> simp [near122] at ha
    obtain rfl : a = 0 := Subsingleton.elim _ _
    rcases hi' with rfl | rfl
    · exact (apart122 0 2 h2).symm
    · exact (apart122 1 2 h2).symm
  refine ⟨r, r', hr, hr', C122_gardner_knopoff_partial cat122 cat122_injective ![2] (by decide) _ _ gkWindow gk_opt hap ?_
    (argsort_rev _ cat122_desc) argsort_flip_rev (argsort_rev _ ?_) argsort_flip_rev hr hr'⟩
  · intro l _
    right
    intro t _ a ha
    exact absurd (Subsingleton.elim _ _) ha
  · intro a b _
    rw [Subsingleton.elim a b]

/-- Those of the theorem on Afteran hold for the first two rows. -/
example : ∃ r r', afteran cat122 "GardnerKnopoff" 60 Fin.revPerm (Equiv.refl _) = .ok r ∧
    afteran (fun a => cat122 (near122 a)) "GardnerKnopoff" 60 Fin.revPerm (Equiv.refl _) = .ok r' ∧ Spec.SameOutcome near122 r r' ∧
    r.flag 1 = -1 := by
  have hd : ∀ i j : Fin 3, (![![true, true, false], ![true, true, false], ![false, false, true]] : Fin 3 → Fin 3 → Bool) i j = true ↔
      6371.227 * (Real.pi / 180 * |![(0 : ℝ), 0, 40] j - ![0, 0, 40] i|) ≤ (gkWindow (![(6 : ℝ), 5, 4] i)).1 := by
    obtain ⟨⟨a1, a2, -⟩, ⟨b1, b2, -⟩, c⟩ := windows122
    have h1 := Real.pi_gt_d4
    have c0 : 0 ≤ (gkWindow (4 : ℝ)).1 := by rw [gk_space]; positivity
    intro i j
    fin_cases i <;> fin_cases j <;> simp <;> norm_num [abs_of_pos, abs_of_neg] <;> linarith
  have h := evs_af ![2000, 2000, 2000] ![29, 1, 1] ![0, 0, 40] ![6, 5, 4] "GardnerKnopoff" 60 gkWindow gk_opt _
    (by intro i j; fin_cases i <;> fin_cases j <;> norm_num [abs_le]) hd ![1, 1, 0] ![0, -1, 0] (by decide)
  have h' := evs_af ![2000, 2000] ![29, 1] ![0, 0] ![6, 5] "GardnerKnopoff" 60 gkWindow gk_opt ![![true, true], ![true, true]]
    (by intro i j; fin_cases i <;> fin_cases j <;> norm_num [abs_le])
    (by
      obtain ⟨⟨a1, a2, -⟩, ⟨b1, b2, -⟩, c⟩ := windows122
      intro i j
      fin_cases i <;> fin_cases j <;> simp <;> linarith) ![1, 1] ![0, -1] (by decide)
  rw [← cat122_near] at h'
  have e60 : ((60 : ℤ) : ℝ) = 60 := by norm_num
  rw [e60] at h h'
  exact ⟨_, _, h, h', C122_afteran_partial cat122 cat122_injective near122 (by decide) _ _ gkWindow gk_opt apart122
    (argsort_rev _ cat122_desc) argsort_flip_rev (argsort_rev _ near122_desc) argsort_flip_rev h h', rfl⟩

end Verif.Declustering
