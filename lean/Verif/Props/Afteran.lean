import Verif.Lemmas.Afteran
import Verif.Lemmas.Concrete

/-!
# Properties C34, C35, C38, C41–C46 for Afteran declustering

Theorems over `F` hold for any arithmetic and any order of the magnitude sort.
-/

namespace Verif.Declustering

open Verif Verif.CatUtil Spec

section
variable {F : Type} [PyMath F] {n : Nat}

/-- A cluster in original numbering. -/
structure OrigCluster (cat : Fin n → Row F) (t : Fin n → F) (win : F → F × F) (tw : F) (pos : Equiv.Perm (Fin n))
    (r : Result F n) (c : Int) (i h : Fin n) : Prop where
  main : r.vcl h = c ∧ r.flag h = 0
  first : ∀ j, r.vcl j = c → pos h ≤ pos j
  before : eventDist cat i i ≤ (win (cat i 5)).1 → pos h ≤ pos i
  inside : ∀ j, r.vcl j = c → eventDist cat i j ≤ (win (cat i 5)).1
  two : ∃ j, j ≠ h ∧ r.vcl j = c
  flags : ∀ j, j ≠ h → r.vcl j = c →
    (r.flag j = 1 ∧ Relation.ReflTransGen (Fwd t tw i (fun j => r.vcl j = c)) h j) ∨
    (r.flag j = -1 ∧ Relation.ReflTransGen (Bwd t tw i (fun j => r.vcl j = c)) h j)

/-- The result of a run in original numbering. -/
theorem af_each (cat : Fin n → Row F) (opt : String) (w : F) (asc id1 : Equiv.Perm (Fin n)) (r : Result F n)
    (h1 : IsArgsort (flipud asc) id1) (h : afteran cat opt w asc id1 = .ok r) :
    ∃ t win k, Times cat t ∧ timeDistWindow opt = .ok win ∧
      r.vmain = ((List.finRange n).filter (fun j => r.flag j = 0)).map cat ∧
      (∀ j, 0 ≤ r.vcl j ∧ r.vcl j ≤ k) ∧ (∀ j, r.vcl j = 0 → r.flag j = 0) ∧
      ∀ c, 0 < c → c ≤ k → ∃ i h, OrigCluster cat t win (w / ((365 : ℕ) : F)) (flipud asc).symm r c i h := by
  obtain ⟨t, win, s, ht, hw, hs, hr⟩ := af_ok cat opt w asc id1 r h
  have hid := argsort_perm _ _ h1
  subst hid
  have hinv := afLoop_inv _ _ _ _ _ hs
  refine ⟨t, win, s.clust, (decimalYears_times cat t).mp ht, hw, ?_, ?_, ?_, ?_⟩
  · rw [hr]
    simp only [unflagged]
    have : (cat ∘ ⇑(flipud asc)) ∘ ⇑(flipud asc).symm = cat := by
      funext j; simp [Function.comp]
    rw [this]
  · intro j; rw [hr]; exact hinv.range _
  · intro j; rw [hr]; exact hinv.free _
  · intro c hc hck
    obtain ⟨i, h', hC⟩ := hinv.clusters c hc hck
    set p := flipud asc with hp
    have hv : ∀ j, r.vcl j = s.vcl (p.symm j) := by intro j; rw [hr]; rfl
    have hf : ∀ j, r.flag j = s.flag (p.symm j) := by intro j; rw [hr]; rfl
    refine ⟨p i, p h', ?_⟩
    constructor
    · rw [hv, hf, Equiv.symm_apply_apply]; exact hC.main
    · intro j hj; rw [hv] at hj; rw [Equiv.symm_apply_apply]; exact hC.first _ hj
    · intro hself; rw [Equiv.symm_apply_apply, Equiv.symm_apply_apply]; exact hC.before hself
    · intro j hj
      rw [hv] at hj
      have := hC.inside _ hj
      simpa [eventDist] using this
    · obtain ⟨j, hj, hjc⟩ := hC.two
      exact ⟨p j, fun hc => hj (p.injective hc), by rw [hv, Equiv.symm_apply_apply]; exact hjc⟩
    · intro j hj hjc
      rw [hv] at hjc
      have hj' : p.symm j ≠ h' := by
        intro hc; apply hj; rw [← hc, Equiv.apply_symm_apply]
      rcases hC.flags _ hj' hjc with ⟨a, b⟩ | ⟨a, b⟩
      · left
        refine ⟨by rw [hf]; exact a, ?_⟩
        have := rtg_lift (r' := Fwd t (w / ((365 : ℕ) : F)) (p i) (fun j => r.vcl j = c)) p (fun x y hxy => by
          obtain ⟨q1, q2, q3⟩ := hxy
          refine ⟨?_, q2, q3⟩
          show r.vcl (p y) = c
          rw [hv, Equiv.symm_apply_apply]; exact q1) b
        rwa [Equiv.apply_symm_apply] at this
      · right
        refine ⟨by rw [hf]; exact a, ?_⟩
        have := rtg_lift (r' := Bwd t (w / ((365 : ℕ) : F)) (p i) (fun j => r.vcl j = c)) p (fun x y hxy => by
          obtain ⟨q1, q2, q3⟩ := hxy
          refine ⟨?_, q2, q3⟩
          show r.vcl (p y) = c
          rw [hv, Equiv.symm_apply_apply]; exact q1) b
        rwa [Equiv.apply_symm_apply] at this

/-- **C34** (Afteran): flags are -1, 0 or 1, and the main shock catalogue is the input rows with flag 0, unchanged and in input order. -/
theorem C34_afteran_mainshocks (cat : Fin n → Row F) (opt : String) (w : F) (asc id1 : Equiv.Perm (Fin n)) (r : Result F n)
    (h1 : IsArgsort (flipud asc) id1) (h : afteran cat opt w asc id1 = .ok r) :
    (∀ j, r.flag j = -1 ∨ r.flag j = 0 ∨ r.flag j = 1) ∧
    r.vmain = ((List.finRange n).filter (fun j => r.flag j = 0)).map cat := by
  obtain ⟨t, win, k, -, -, hvm, hr, hfree, hcl⟩ := af_each cat opt w asc id1 r h1 h
  refine ⟨fun j => ?_, hvm⟩
  by_cases h0 : r.vcl j = 0
  · exact Or.inr (Or.inl (hfree j h0))
  · have := hr j
    obtain ⟨i, hd, hC⟩ := hcl (r.vcl j) (by omega) this.2
    by_cases hjh : j = hd
    · subst hjh; exact Or.inr (Or.inl hC.main.2)
    · rcases hC.flags j hjh rfl with a | a
      · exact Or.inr (Or.inr a.1)
      · exact Or.inl a.1

/-- **C35** (Afteran): an event with a non-zero flag has a positive cluster number; an event without cluster number is kept. -/
theorem C35_afteran_flag_cluster (cat : Fin n → Row F) (opt : String) (w : F) (asc id1 : Equiv.Perm (Fin n)) (r : Result F n)
    (h1 : IsArgsort (flipud asc) id1) (h : afteran cat opt w asc id1 = .ok r) (j : Fin n) :
    0 ≤ r.vcl j ∧ (r.flag j ≠ 0 → 0 < r.vcl j) ∧ (r.vcl j = 0 → cat j ∈ r.vmain) := by
  obtain ⟨t, win, k, -, -, hvm, hr, hfree, hcl⟩ := af_each cat opt w asc id1 r h1 h
  refine ⟨(hr j).1, ?_, ?_⟩
  · intro hf
    by_contra hc
    exact hf (hfree j (by have := (hr j).1; omega))
  · intro h0
    rw [hvm, List.mem_map]
    exact ⟨j, by simp [hfree j h0], rfl⟩

/-- **C42.** The cluster numbers are exactly 1 to some `k`, each cluster has at least two events, and exactly one event of each
cluster has flag 0. -/
theorem C42_afteran_clusters (cat : Fin n → Row F) (opt : String) (w : F) (asc id1 : Equiv.Perm (Fin n)) (r : Result F n)
    (h1 : IsArgsort (flipud asc) id1) (h : afteran cat opt w asc id1 = .ok r) :
    ∃ k : Int, (∀ c, 0 < c → ((∃ j, r.vcl j = c) ↔ c ≤ k)) ∧
      ∀ c, 0 < c → c ≤ k → (∃ a b, a ≠ b ∧ r.vcl a = c ∧ r.vcl b = c) ∧ ∃! j, r.vcl j = c ∧ r.flag j = 0 := by
  obtain ⟨t, win, k, -, -, hvm, hr, hfree, hcl⟩ := af_each cat opt w asc id1 r h1 h
  refine ⟨k, ?_, ?_⟩
  · intro c hc
    constructor
    · rintro ⟨j, rfl⟩; exact (hr j).2
    · intro hck
      obtain ⟨i, hd, hC⟩ := hcl c hc hck
      exact ⟨hd, hC.main.1⟩
  · intro c hc hck
    obtain ⟨i, hd, hC⟩ := hcl c hc hck
    constructor
    · obtain ⟨j, hj, hjc⟩ := hC.two
      exact ⟨j, hd, hj, hjc, hC.main.1⟩
    · refine ⟨hd, hC.main, ?_⟩
      rintro j ⟨hj, hf⟩
      by_contra hne
      rcases hC.flags j hne hj with a | a
      · rw [a.1] at hf; exact absurd hf (by norm_num)
      · rw [a.1] at hf; exact absurd hf (by norm_num)

/-- **C38** (Afteran): the main shock catalogue of a non-empty catalogue is not empty. -/
theorem C38_afteran_nonempty (cat : Fin n → Row F) (opt : String) (w : F) (asc id1 : Equiv.Perm (Fin n)) (r : Result F n)
    (h1 : IsArgsort (flipud asc) id1) (h : afteran cat opt w asc id1 = .ok r) (hn : 0 < n) : r.vmain ≠ [] := by
  obtain ⟨t, win, k, -, -, hvm, hr, hfree, hcl⟩ := af_each cat opt w asc id1 r h1 h
  suffices hex : ∃ j, r.flag j = 0 by
    obtain ⟨j, hj⟩ := hex
    rw [hvm]
    apply List.ne_nil_of_mem (a := cat j)
    rw [List.mem_map]
    exact ⟨j, by simp [hj], rfl⟩
  by_cases h0 : r.vcl ⟨0, hn⟩ = 0
  · exact ⟨_, hfree _ h0⟩
  · have := hr ⟨0, hn⟩
    obtain ⟨i, hd, hC⟩ := hcl (r.vcl ⟨0, hn⟩) (by omega) this.2
    exact ⟨hd, hC.main.2⟩

end

section
variable {n : Nat}

/-- **C34** (Afteran, totality): with a documented window name the run succeeds exactly when every date has a usable month. -/
theorem C34_afteran_succeeds (cat : Fin n → Row ℝ) (opt : String) (w : ℝ) (asc id1 : Equiv.Perm (Fin n)) :
    (∃ r, afteran cat opt w asc id1 = .ok r) ↔
      (opt = "GardnerKnopoff" ∨ opt = "Gruenthal" ∨ opt = "Uhrhammer") ∧ ∃ t, Times cat t := by
  rw [← C34_gk_succeeds cat opt 0 asc id1]
  constructor
  · rintro ⟨r, h⟩
    obtain ⟨t, win, s, ht, hw, -, -⟩ := af_ok cat opt w asc id1 r h
    exact ⟨_, gk_run cat opt 0 asc id1 t win ht hw⟩
  · rintro ⟨r, h⟩
    obtain ⟨t, win, ht, hw, -⟩ := gk_ok cat opt 0 asc id1 r h
    obtain ⟨s, hs⟩ := afLoop_ok (cat ∘ flipud asc) (t ∘ flipud asc) ((fun j => (win (cat j 5)).1) ∘ flipud asc)
      (w / ((365 : ℕ) : ℝ)) (by
        intro i
        rw [C49_self]
        exact (C47_windows_positive opt win hw _).1.le)
    refine ⟨⟨s.vcl ∘ id1, unflagged ((cat ∘ flipud asc) ∘ id1) (s.flag ∘ id1), s.flag ∘ id1⟩, ?_⟩
    unfold afteran
    simp only [ht, hw, bind, Except.bind]
    rw [hs]

/-- The kept event of a cluster has the largest magnitude of the cluster, for any numbers. -/
theorem afteran_mainshock_largest {F : Type} [PyMath F] (cat : Fin n → Row F) (opt : String) (w : F) (asc id1 : Equiv.Perm (Fin n)) (r : Result F n)
    (h0 : IsArgsort (fun j => cat j 5) asc) (h1 : IsArgsort (flipud asc) id1) (h : afteran cat opt w asc id1 = .ok r) (e j : Fin n)
    (hc : 0 < r.vcl e) (he : r.flag e = 0) (hj : r.vcl j = r.vcl e) : cat j 5 ≤ cat e 5 := by
  obtain ⟨t, win, k, -, -, hvm, hr, hfree, hcl⟩ := af_each cat opt w asc id1 r h1 h
  obtain ⟨i, hd, hC⟩ := hcl (r.vcl e) hc (hr e).2
  have heh : e = hd := by
    by_contra hne
    rcases hC.flags e hne rfl with a | a
    · rw [a.1] at he; exact absurd he (by norm_num)
    · rw [a.1] at he; exact absurd he (by norm_num)
  subst heh
  have := flipud_desc h0 _ _ (hC.first j hj)
  simpa using this

/-- **C43.** The kept event of a cluster has the largest magnitude of the cluster. -/
theorem C43_afteran_mainshock_largest (cat : Fin n → Row ℝ) (opt : String) (w : ℝ) (asc id1 : Equiv.Perm (Fin n)) (r : Result ℝ n)
    (h0 : IsArgsort (fun j => cat j 5) asc) (h1 : IsArgsort (flipud asc) id1) (h : afteran cat opt w asc id1 = .ok r) (e j : Fin n)
    (hc : 0 < r.vcl e) (he : r.flag e = 0) (hj : r.vcl j = r.vcl e) : cat j 5 ≤ cat e 5 :=
  afteran_mainshock_largest cat opt w asc id1 r h0 h1 h e j hc he hj

/-- **C44.** An event flagged 1 (-1) is reached from the kept event of its cluster by steps between events of the cluster, none going back
(forward) in time and none longer than the time window. -/
theorem C44_afteran_chain (cat : Fin n → Row ℝ) (opt : String) (w : ℝ) (asc id1 : Equiv.Perm (Fin n)) (r : Result ℝ n)
    (h1 : IsArgsort (flipud asc) id1) (h : afteran cat opt w asc id1 = .ok r) :
    ∃ t, Times cat t ∧ ∀ j, 
      (r.flag j = 1 → ∃ e, r.vcl e = r.vcl j ∧ r.flag e = 0 ∧
        Relation.ReflTransGen (StepLater t (w / 365) (fun a => r.vcl a = r.vcl j)) e j) ∧
      (r.flag j = -1 → ∃ e, r.vcl e = r.vcl j ∧ r.flag e = 0 ∧
        Relation.ReflTransGen (StepEarlier t (w / 365) (fun a => r.vcl a = r.vcl j)) e j) := by
  obtain ⟨t, win, k, ht, -, hvm, hr, hfree, hcl⟩ := af_each cat opt w asc id1 r h1 h
  refine ⟨t, ht, ?_⟩
  intro j
  have hpos : r.flag j ≠ 0 → ∃ i hd, OrigCluster cat t win (w / ((365 : ℕ) : ℝ)) (flipud asc).symm r (r.vcl j) i hd := by
    intro hf
    have := hr j
    have h0 : r.vcl j ≠ 0 := fun hc => hf (hfree j hc)
    exact hcl (r.vcl j) (by omega) this.2
  constructor
  · intro hf
    obtain ⟨i, hd, hC⟩ := hpos (by rw [hf]; norm_num)
    refine ⟨hd, hC.main.1, hC.main.2, ?_⟩
    have hjd : j ≠ hd := by rintro rfl; rw [hC.main.2] at hf; exact absurd hf (by norm_num)
    rcases hC.flags j hjd rfl with ⟨-, hch⟩ | ⟨a, -⟩
    swap
    · rw [a] at hf; exact absurd hf (by norm_num)
    have : ∀ b, Relation.ReflTransGen (Fwd t (w / ((365 : ℕ) : ℝ)) i (fun a => r.vcl a = r.vcl j)) hd b →
        r.vcl b = r.vcl j ∧ Relation.ReflTransGen (StepLater t (w / 365) (fun a => r.vcl a = r.vcl j)) hd b := by
      intro b hb
      induction hb with
      | refl => exact ⟨hC.main.1, .refl⟩
      | tail _ hbc ih =>
        obtain ⟨q1, q2, q3⟩ := hbc
        norm_num at q2 q3
        refine ⟨q1, ih.2.tail ⟨ih.1, q1, by linarith, by linarith⟩⟩
    exact (this j hch).2
  · intro hf
    obtain ⟨i, hd, hC⟩ := hpos (by rw [hf]; norm_num)
    refine ⟨hd, hC.main.1, hC.main.2, ?_⟩
    have hjd : j ≠ hd := by rintro rfl; rw [hC.main.2] at hf; exact absurd hf (by norm_num)
    rcases hC.flags j hjd rfl with ⟨a, -⟩ | ⟨-, hch⟩
    · rw [a] at hf; exact absurd hf (by norm_num)
    have : ∀ b, Relation.ReflTransGen (Bwd t (w / ((365 : ℕ) : ℝ)) i (fun a => r.vcl a = r.vcl j)) hd b →
        r.vcl b = r.vcl j ∧ Relation.ReflTransGen (StepEarlier t (w / 365) (fun a => r.vcl a = r.vcl j)) hd b := by
      intro b hb
      induction hb with
      | refl => exact ⟨hC.main.1, .refl⟩
      | tail _ hbc ih =>
        obtain ⟨q1, q2, q3⟩ := hbc
        norm_num at q2 q3
        refine ⟨q1, ih.2.tail ⟨ih.1, q1, by linarith, by linarith⟩⟩
    exact (this j hch).2

/-- **C45, the part that holds**: every event of a cluster lies within the distance window of one and the same event, and so within twice
the distance window of the kept event.  Missing: within one distance window of the kept event (`C45_afteran_distance_fails`). -/
theorem C45_afteran_distance_partial (cat : Fin n → Row ℝ) (opt : String) (w : ℝ) (asc id1 : Equiv.Perm (Fin n)) (r : Result ℝ n)
    (h0 : IsArgsort (fun j => cat j 5) asc) (h1 : IsArgsort (flipud asc) id1) (h : afteran cat opt w asc id1 = .ok r)
    (hm : ∀ j, 0 ≤ cat j 5) :
    ∃ win, timeDistWindow opt = .ok win ∧ ∀ c, 0 < c → (∃ j, r.vcl j = c) →
      (∃ i, ∀ j, r.vcl j = c → eventDist cat i j ≤ (win (cat i 5)).1) ∧
      ∀ e, r.vcl e = c → r.flag e = 0 → ∀ j, r.vcl j = c → eventDist cat e j ≤ 2 * (win (cat e 5)).1 := by
  obtain ⟨t, win, k, ht, hw, hvm, hr, hfree, hcl⟩ := af_each cat opt w asc id1 r h1 h
  refine ⟨win, hw, ?_⟩
  rintro c hc ⟨j0, rfl⟩
  obtain ⟨i, hd, hC⟩ := hcl (r.vcl j0) hc (hr j0).2
  refine ⟨⟨i, hC.inside⟩, ?_⟩
  intro e he hfe j hj
  have heh : e = hd := by
    by_contra hne
    rcases hC.flags e hne he with a | a
    · rw [a.1] at hfe; exact absurd hfe (by norm_num)
    · rw [a.1] at hfe; exact absurd hfe (by norm_num)
  subst heh
  have hself : eventDist cat i i ≤ (win (cat i 5)).1 := by
    rw [eventDist, C49_self]
    exact (C47_windows_positive opt win hw _).1.le
  have hmag : cat i 5 ≤ cat e 5 := by
    have := flipud_desc h0 _ _ (hC.before hself)
    simpa using this
  have hgrow := (C47_windows_grow_partial opt win hw _ _ (fun _ => ⟨by linarith [hm i], by linarith [hm i]⟩) hmag).1
  have hj1 := hC.inside j hj
  have he1 := hC.inside e he
  have htri := C49_triangle (cat j 3) (cat j 4) (cat i 3) (cat i 4) (cat e 3) (cat e 4)
  rw [eventDist, C49_symmetric] at he1
  rw [eventDist] at hj1 ⊢
  linarith

end

end Verif.Declustering
