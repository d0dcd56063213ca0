import Verif.Props.Afteran
import Verif.Props.GardnerKnopoffExamples

/-!
# Properties C41 and C46 for Afteran, the refutations of C45 and C46, and a concrete run
-/

namespace Verif.Declustering

open Verif Verif.CatUtil Spec

section
variable {n : Nat}

/-- Permuting the rows, for any numbers ordered by `key`. -/
theorem afteran_equivariant {F : Type} [PyMath F] {key : F → ℝ} (hkey : ∀ a b : F, a ≤ b → key a ≤ key b) (cat : Fin n → Row F)
    (hm : Function.Injective (fun j => key (cat j 5))) (π : Equiv.Perm (Fin n))
    (opt : String) (w : F) (asc id1 asc' id1' : Equiv.Perm (Fin n)) (r r' : Result F n)
    (h0 : IsArgsort (fun j => cat j 5) asc) (h1 : IsArgsort (flipud asc) id1)
    (h0' : IsArgsort (fun j => cat (π j) 5) asc') (h1' : IsArgsort (flipud asc') id1')
    (h : afteran cat opt w asc id1 = .ok r) (h' : afteran (fun j => cat (π j)) opt w asc' id1' = .ok r') :
    (∀ j, r'.vcl j = r.vcl (π j)) ∧ ∀ j, r'.flag j = r.flag (π j) := by
  obtain ⟨t, win, s, ht, hw, hs, hr⟩ := af_ok _ _ _ _ _ _ h
  obtain ⟨t', win', s', ht', hw', hs', hr'⟩ := af_ok _ _ _ _ _ _ h'
  have hww : win = win' := Except.ok.inj (hw.symm.trans hw')
  subst hww
  have htt : t' = fun j => t (π j) := by
    apply times_unique (fun j => cat (π j)) _ _ ((decimalYears_times _ _).mp ht')
    intro j
    exact (decimalYears_times _ _).mp ht (π j)
  have hsort : flipud asc = (flipud asc').trans π := by
    apply sort_unique hm
    · exact fun a b hab => hkey _ _ (flipud_desc h0 a b hab)
    · intro a b hab
      exact hkey _ _ (flipud_desc h0' a b hab)
  have e1 := argsort_perm _ _ h1
  have e1' := argsort_perm _ _ h1'
  subst e1 e1'
  have hp : ∀ a, flipud asc a = π (flipud asc' a) := fun a => by rw [hsort]; rfl
  have hinv : ∀ j, (flipud asc).symm (π j) = (flipud asc').symm j := by
    intro j
    rw [Equiv.symm_apply_eq, hp, Equiv.apply_symm_apply]
  have hss : s = s' := by
    have e2 : (fun j => cat (π j)) ∘ flipud asc' = cat ∘ flipud asc := by funext j; simp [hp]
    have e3 : t' ∘ flipud asc' = t ∘ flipud asc := by funext j; simp [hp, htt]
    have e4 : (fun j => (win (cat (π j) 5)).1) ∘ flipud asc' = (fun j => (win (cat j 5)).1) ∘ flipud asc := by funext j; simp [hp]
    rw [e2, e3, e4] at hs'
    exact Except.ok.inj (hs.symm.trans hs')
  subst hss
  rw [hr, hr']
  simp only [Function.comp, hinv]
  exact ⟨fun _ => trivial, fun _ => trivial⟩

/-- **C41** (Afteran): permuting the rows of a catalogue with distinct magnitudes permutes cluster numbers and flags. -/
theorem C41_afteran_equivariant (cat : Fin n → Row ℝ) (hm : Function.Injective (fun j => cat j 5)) (π : Equiv.Perm (Fin n))
    (opt : String) (w : ℝ) (asc id1 asc' id1' : Equiv.Perm (Fin n)) (r r' : Result ℝ n)
    (h0 : IsArgsort (fun j => cat j 5) asc) (h1 : IsArgsort (flipud asc) id1)
    (h0' : IsArgsort (fun j => cat (π j) 5) asc') (h1' : IsArgsort (flipud asc') id1')
    (h : afteran cat opt w asc id1 = .ok r) (h' : afteran (fun j => cat (π j)) opt w asc' id1' = .ok r') :
    (∀ j, r'.vcl j = r.vcl (π j)) ∧ ∀ j, r'.flag j = r.flag (π j) :=
  afteran_equivariant (key := id) (fun _ _ h => h) cat hm π opt w asc id1 asc' id1' r r' h0 h1 h0' h1' h h'

/-- **C46, the part that holds for Afteran**: if no two events are within the time window of each other, or no event lies in the distance
window of another, the whole catalogue is kept and there is no cluster.  Missing: pairs excluded partly by time and partly by
distance (`C46_afteran_isolated_fails`). -/
theorem C46_afteran_isolated_partial (cat : Fin n → Row ℝ) (opt : String) (w : ℝ) (asc id1 : Equiv.Perm (Fin n)) (r : Result ℝ n)
    (h1 : IsArgsort (flipud asc) id1) (h : afteran cat opt w asc id1 = .ok r)
    (hiso : ∀ t win, Times cat t → timeDistWindow opt = .ok win →
      (∀ i j, |t i - t j| ≤ w / 365 → i = j) ∨ (∀ i j, eventDist cat i j ≤ (win (cat i 5)).1 → i = j)) :
    (∀ j, r.vcl j = 0 ∧ r.flag j = 0) ∧ r.vmain = (List.finRange n).map cat := by
  obtain ⟨t, win, k, ht, hw, hvm, hr, hfree, hcl⟩ := af_each cat opt w asc id1 r h1 h
  have hall : ∀ j, r.vcl j = 0 := by
    intro j
    by_contra hj
    have := hr j
    obtain ⟨i, hd, hC⟩ := hcl (r.vcl j) (by omega) this.2
    obtain ⟨b, hb, hbc⟩ := hC.two
    rcases hiso t win ht hw with hi | hi
    · have key : ∀ (R : Fin n → Fin n → Prop), (∀ x y, R x y → |t x - t y| ≤ w / 365) →
          ∀ y, Relation.ReflTransGen R hd y → hd = y := by
        intro R hR y hch
        induction hch with
        | refl => rfl
        | tail _ hxy ih => rw [ih]; exact hi _ _ (hR _ _ hxy)
      rcases hC.flags b hb hbc with ⟨-, hch⟩ | ⟨-, hch⟩
      · refine hb (key _ ?_ b hch).symm
        rintro x y ⟨-, q2, q3⟩
        norm_num at q2 q3
        rw [abs_le]; constructor <;> linarith
      · refine hb (key _ ?_ b hch).symm
        rintro x y ⟨-, q2, q3⟩
        norm_num at q2 q3
        rw [abs_le]; constructor <;> linarith
    · exact hb ((hi i b (hC.inside b hbc)).symm.trans (hi i hd (hC.inside hd hC.main.1)))
  refine ⟨fun j => ⟨hall j, hfree j (hall j)⟩, ?_⟩
  rw [hvm]
  congr 1
  rw [List.filter_eq_self]
  intro j _
  simp [hfree j (hall j)]

end

/-! ### A concrete run -/


/-- An Afteran run on a catalogue of `evs`, listed in descending order of magnitude; `W` is the time window in days. -/
theorem evs_af {n : Nat} (year day : Fin n → ℤ) (lat mag : Fin n → ℝ) (opt : String) (W : ℤ) (win : ℝ → ℝ × ℝ)
    (hw : timeDistWindow opt = .ok win) (D : Fin n → Fin n → Bool)
    (hlat : ∀ i j, |lat j - lat i| ≤ 180)
    (hD : ∀ i j, D i j = true ↔ 6371.227 * (Real.pi / 180 * |lat j - lat i|) ≤ (win (mag i)).1)
    (v f : Fin n → Int)
    (hs : ((List.finRange n).foldlM (tabStep D
      (fun a b => decide (0 ≤ 365 * (year b - year a) + (day b - day a)) && decide (365 * (year b - year a) + (day b - day a) ≤ W))
      (fun a b => decide (365 * (year b - year a) + (day b - day a) ≤ 0) && decide (-W ≤ 365 * (year b - year a) + (day b - day a))))
      (State.init n)).any (fun s => decide (s.vcl = v) && decide (s.flag = f)) = true) :
    afteran (evs year day lat mag) opt W Fin.revPerm (Equiv.refl _) = .ok ⟨v, unflagged (evs year day lat mag) f, f⟩ := by
  rw [Option.any_eq_true] at hs
  obtain ⟨s, hs, hvf⟩ := hs
  simp only [Bool.and_eq_true, decide_eq_true_eq] at hvf
  obtain ⟨rfl, rfl⟩ := hvf
  have hrev : flipud (Fin.revPerm : Equiv.Perm (Fin n)) = Equiv.refl _ := by
    ext a; simp [flipud]
  have ht : ∀ i a b : Fin n, (evTimes year day b - evTimes year day i) - (evTimes year day a - evTimes year day i) =
      ((365 * (year b - year a) + (day b - day a) : ℤ) : ℝ) / 365 := by
    intro i a b; simp only [evTimes]; push_cast; ring
  have h0 : ∀ x : ℤ, ((x : ℝ) / 365 ≥ 0.0 ↔ 0 ≤ x) := by
    intro x
    rw [ge_iff_le, le_div_iff₀ (by norm_num)]; norm_num
  have h0' : ∀ x : ℤ, ((x : ℝ) / 365 ≤ 0.0 ↔ x ≤ 0) := by
    intro x
    rw [div_le_iff₀ (by norm_num)]; norm_num
  have h1 : ∀ x : ℤ, ((x : ℝ) / 365 ≤ (W : ℝ) / ((365 : ℕ) : ℝ) ↔ x ≤ W) := by
    intro x
    rw [Nat.cast_ofNat, div_le_div_iff_of_pos_right (by norm_num)]; exact Int.cast_le
  have h2 : ∀ x : ℤ, ((x : ℝ) / 365 ≥ -((W : ℝ) / ((365 : ℕ) : ℝ)) ↔ -W ≤ x) := by
    intro x
    rw [ge_iff_le, Nat.cast_ofNat, ← neg_div, div_le_div_iff_of_pos_right (by norm_num)]; exact_mod_cast Int.cast_le (R := ℝ)
  have hl := tabLoop_eq (evs year day lat mag) (evTimes year day) (fun j => (win (mag j)).1) ((W : ℝ) / ((365 : ℕ) : ℝ)) D _ _
    (by
      intro i j
      apply bool_eq_of_iff
      rw [hD, decide_eq_true_eq, ← evs_dist year day lat mag i j (hlat i j)]; rfl)
    (by intro i a b; rw [ht]; simp only [h0, h1])
    (by intro i a b; rw [ht]; simp only [h0', h2]) s hs
  unfold afteran
  simp only [(decimalYears_times _ _).mpr (evs_times year day lat mag), hw, bind, Except.bind, hrev, Equiv.coe_refl,
    Function.comp_id]
  have : (fun j => (win (evs year day lat mag j 5)).1) = fun j => (win (mag j)).1 := rfl
  rw [this, hl]

/-- Magnitude 5 on 1 January 2000 at latitude 0; magnitude 4.9 five years later 22 km north; magnitude 3 on 2 January 2000, 50 km north of
the first. -/
noncomputable def cat45 : Fin 3 → Row ℝ := evs ![2000, 2005, 2000] ![1, 1, 2] ![0, 0.2, 0.45] ![5, 4.9, 3]

def dist45 : Fin 3 → Fin 3 → Bool := ![![true, true, false], ![true, true, true], ![false, false, true]]

theorem windows45 : (22.3 ≤ (gkWindow (5 : ℝ)).1 ∧ (gkWindow (5 : ℝ)).1 < 50) ∧ 27.9 ≤ (gkWindow (4.9 : ℝ)).1 ∧
    (0 ≤ (gkWindow (3 : ℝ)).1 ∧ (gkWindow (3 : ℝ)).1 < 27) := by
  simp only [gk_space]
  refine ⟨⟨?_, ?_⟩, ?_, by positivity, ?_⟩
  · exact le_ten_rpow _ _ 3 2 (by norm_num) (by norm_num) (by norm_num) (by norm_num)
  · exact ten_rpow_lt _ _ 5 3 (by norm_num) (by norm_num) (by norm_num) (by norm_num)
  · exact le_ten_rpow _ _ 3 2 (by norm_num) (by norm_num) (by norm_num) (by norm_num)
  · exact ten_rpow_lt _ _ 7 5 (by norm_num) (by norm_num) (by norm_num) (by norm_num)

theorem dist45_eq (i j : Fin 3) : dist45 i j = true ↔
    6371.227 * (Real.pi / 180 * |![(0 : ℝ), 0.2, 0.45] j - ![0, 0.2, 0.45] i|) ≤ (gkWindow (![(5 : ℝ), 4.9, 3] i)).1 := by
  obtain ⟨⟨a1, a2⟩, b1, c1, c2⟩ := windows45
  have h1 := Real.pi_gt_d4
  have h2 := Real.pi_lt_d4
  fin_cases i <;> fin_cases j <;> simp [dist45] <;> norm_num [abs_of_pos, abs_of_neg] <;> linarith

theorem run45 : afteran cat45 "GardnerKnopoff" 60 Fin.revPerm (Equiv.refl _) = .ok ⟨![1, 0, 1], [cat45 0, cat45 1], ![0, 0, 1]⟩ := by
  have h := evs_af ![2000, 2005, 2000] ![1, 1, 2] ![0, 0.2, 0.45] ![5, 4.9, 3] "GardnerKnopoff" 60 gkWindow gk_opt dist45
    (by intro i j; fin_cases i <;> fin_cases j <;> norm_num [abs_le]) dist45_eq ![1, 0, 1] ![0, 0, 1] (by decide)
  have hu : unflagged cat45 ![0, 0, 1] = [cat45 0, cat45 1] := by
    simp [unflagged, List.finRange_succ]
  rw [← hu]
  exact_mod_cast h

theorem cat45_desc (a b : Fin 3) (h : a ≤ b) : cat45 b 5 ≤ cat45 a 5 := by
  revert h
  fin_cases a <;> fin_cases b <;> simp [cat45, evs, ev] <;> norm_num

/-- **C45 is false of the code**: the magnitude 3 event is put in the cluster of the magnitude 5 event, 50 km away, though the distance
window of that event is 40 km. -/
theorem C45_afteran_distance_fails :
    ¬ ∀ (n : Nat) (cat : Fin n → Row ℝ) (opt : String) (w : ℝ) (asc id1 : Equiv.Perm (Fin n)) (r : Result ℝ n) (win : ℝ → ℝ × ℝ),
      IsArgsort (fun j => cat j 5) asc → IsArgsort (flipud asc) id1 → afteran cat opt w asc id1 = .ok r →
      timeDistWindow opt = .ok win →
      ∀ e, 0 < r.vcl e → r.flag e = 0 → ∀ j, r.vcl j = r.vcl e → eventDist cat e j ≤ (win (cat e 5)).1 := by
  intro hall
  have h := hall 3 cat45 "GardnerKnopoff" 60 Fin.revPerm (Equiv.refl _) _ gkWindow (argsort_rev _ cat45_desc) argsort_flip_rev run45
    gk_opt 0 (by simp) rfl 2 rfl
  have h2 := (dist45_eq 0 2).mpr (by
    rw [← evs_dist ![2000, 2005, 2000] ![1, 1, 2] ![0, 0.2, 0.45] ![5, 4.9, 3] 0 2 (by simp [abs_le]; norm_num)]
    exact h)
  simp [dist45] at h2

/-- **C46 is false of Afteran**: no event of the catalogue lies in the time and distance windows of another, yet one is removed. -/
theorem C46_afteran_isolated_fails :
    ¬ ∀ (n : Nat) (cat : Fin n → Row ℝ) (opt : String) (w : ℝ) (asc id1 : Equiv.Perm (Fin n)) (r : Result ℝ n),
      IsArgsort (fun j => cat j 5) asc → IsArgsort (flipud asc) id1 → afteran cat opt w asc id1 = .ok r →
      (∀ t win, Times cat t → timeDistWindow opt = .ok win →
        ∀ i j, |t i - t j| ≤ w / 365 → eventDist cat i j ≤ (win (cat i 5)).1 → i = j) →
      ∀ j, r.flag j = 0 := by
  intro hall
  have h := hall 3 cat45 "GardnerKnopoff" 60 Fin.revPerm (Equiv.refl _) _ (argsort_rev _ cat45_desc) argsort_flip_rev run45 (by
    intro t win ht hw i j h1 h2
    rw [gk_opt] at hw
    cases hw
    have htt := times_unique cat45 t _ ht (evs_times _ _ _ _)
    subst htt
    have h3 := (dist45_eq i j).mpr (by
      rw [← evs_dist ![2000, 2005, 2000] ![1, 1, 2] ![0, 0.2, 0.45] ![5, 4.9, 3] i j
        (by fin_cases i <;> fin_cases j <;> norm_num [abs_le])]
      revert h2
      fin_cases i <;> exact id)
    fin_cases i <;> fin_cases j <;> simp [dist45, evTimes] at h1 h3 ⊢ <;> norm_num [abs_le] at h1) 2
  simp at h

/-- The run meets the hypotheses of C34, C35, C38, C41–C45 for Afteran: a cluster of two with a kept and a removed event. -/
example : ∃ r, afteran cat45 "GardnerKnopoff" 60 Fin.revPerm (Equiv.refl _) = .ok r ∧ IsArgsort (fun j => cat45 j 5) Fin.revPerm ∧
    IsArgsort (flipud (Fin.revPerm : Equiv.Perm (Fin 3))) (Equiv.refl _) ∧ 0 < r.vcl 0 ∧ r.flag 0 = 0 ∧ r.vcl 2 = r.vcl 0 ∧ r.flag 2 = 1 ∧
    (∀ j, 0 ≤ cat45 j 5) :=
  ⟨_, run45, argsort_rev _ cat45_desc, argsort_flip_rev, by simp, rfl, rfl, rfl, fun j => by
    fin_cases j <;> simp [cat45, evs, ev] <;> norm_num⟩

/-- C46 (Afteran, partial): two events five years apart with a window of 60 days. -/
example : ∀ t win, Times (evs ![2000, 2005] ![1, 1] ![0, 0] ![5, 4]) t → timeDistWindow (F := ℝ) "GardnerKnopoff" = .ok win →
    (∀ i j, |t i - t j| ≤ 60 / 365 → i = j) ∨
    (∀ i j, eventDist (evs ![2000, 2005] ![1, 1] ![0, 0] ![5, 4]) i j ≤ (win (evs ![2000, 2005] ![1, 1] ![0, 0] ![5, 4] i 5)).1 → i = j) := by
  intro t win ht _
  left
  have htt := times_unique _ t _ ht (evs_times _ _ _ _)
  subst htt
  intro i j h
  fin_cases i <;> fin_cases j <;> simp [evTimes] at h ⊢ <;> norm_num [abs_le] at h

end Verif.Declustering
