import Verif.Props.RowOrder
import Verif.Lemmas.Double
import Verif.Lemmas.Kijko
import Verif.Props.DoubleMle

/-! # C199: the order of the rows of a catalogue does not matter to the analyses in double precision -/

namespace Verif

open Verif.Np

theorem orderFree_dbl [Libm] : OrderFree Dbl := by
  have nil : ∀ {l l' : List Dbl}, l'.Perm l → (l' = [] ↔ l = []) := fun h => ⟨fun e => by subst e; exact h.symm.eq_nil, fun e => by subst e; exact h.eq_nil⟩
  constructor
  · intro l l' h
    match l, l', h with
    | [], l', h => rw [(nil h).2 rfl]
    | x :: l, [], h => exact absurd ((nil h).1 rfl) (by simp)
    | x :: l, y :: l', h =>
      obtain ⟨a1, a2⟩ := Dbl.npMin_spec (l := x :: l) rfl
      obtain ⟨b1, b2⟩ := Dbl.npMin_spec (l := y :: l') rfl
      exact congrArg Except.ok (Dbl.ext (le_antisymm (b2 _ (h.symm.subset a1)) (a2 _ (h.subset b1))))
  · intro l l' h
    match l, l', h with
    | [], l', h => rw [(nil h).2 rfl]
    | x :: l, [], h => exact absurd ((nil h).1 rfl) (by simp)
    | x :: l, y :: l', h =>
      obtain ⟨a1, a2⟩ := Dbl.npMax_spec (l := x :: l) rfl
      obtain ⟨b1, b2⟩ := Dbl.npMax_spec (l := y :: l') rfl
      exact congrArg Except.ok (Dbl.ext (le_antisymm (a2 _ (h.subset b1)) (b2 _ (h.symm.subset a1))))

end Verif

namespace Verif.Completeness

variable [Libm]

/-- **C199**: the completeness table of Stepp computed in double precision does not depend on the order of the events (nor does the exception raised). -/
theorem C199_stepp {ev ev' : List (Dbl × Dbl)} (h : ev'.Perm ev) (dm dt ttol : Dbl) (iloc : Bool) : stepp ev' dm dt ttol iloc = stepp ev dm dt ttol iloc := by
  simp only [stepp, steppBins_perm orderFree_dbl h]

open Verif.Completeness.Spec (quake) in
/-- Not for the exception alone: two orders of a catalogue with the same table of four rows. -/
example : ∃ table : List (Dbl × Dbl), table.length = 4 ∧
    stepp ([((1985.0 : Dbl), (330 : ℤ)), (1985.0, 300), (2000.0, 340)].map quake) (Dbl.of (((10 : ℤ) : ℚ) / 100)) 10.0 0.2 true = .ok table ∧
    stepp ([((1985.0 : Dbl), (300 : ℤ)), (1985.0, 330), (2000.0, 340)].map quake) (Dbl.of (((10 : ℤ) : ℚ) / 100)) 10.0 0.2 true = .ok table := by
  obtain ⟨b, hb, hn⟩ := steppBins_noLibm (ev := [((1985.0 : Dbl), (330 : ℤ)), (1985.0, 300), (2000.0, 340)].map quake) (dm := Dbl.of (((10 : ℤ) : ℚ) / 100)) (dt := 10.0)
    (f := fun b => (b.nb, b.nt)) (v := (4, 1)) (by decide +kernel)
  have h1 := congrArg Prod.fst hn
  have h2 := congrArg Prod.snd hn
  obtain ⟨table, ht, -⟩ := stepp_short (ttol := 0.2) (iloc := true) hb (by omega) (by omega)
  obtain ⟨b', hb', hl, -⟩ := stepp_length ht
  obtain rfl := Except.ok.inj (hb.symm.trans hb')
  exact ⟨table, by omega, ht, (C199_stepp (List.Perm.swap _ _ _) _ _ _ _).trans ht⟩

end Verif.Completeness

namespace Verif.Recurrence

variable [Libm]

/-- **C199**: the result of the recurrence job in double precision does not depend on the order of the events, for both algorithms (nor does the exception
raised). -/
theorem C199_recurrence {ev ev' : List (Dbl × Dbl)} (h : ev'.Perm ev) (table : List (Dbl × Dbl)) (dmag : Dbl) (algorithm : String) (refMag dt : Dbl) (fuel : ℕ) :
    recurrenceAnalysis ev' table dmag algorithm refMag dt fuel = recurrenceAnalysis ev table dmag algorithm refMag dt fuel := by
  simp only [recurrenceAnalysis, weichertPrep_perm orderFree_dbl h, bMaxlikeTime, periods_perm orderFree_dbl h]

end Verif.Recurrence

namespace Verif.MaxMag

open Verif.Np

variable [Libm]

theorem insertSorted_dbl (x : Dbl) (l : List Dbl) (h : l.Pairwise (· ≤ ·)) : (insertSorted x l).Pairwise (· ≤ ·) := by
  induction l with
  | nil => simp [insertSorted]
  | cons y l ih =>
    simp only [insertSorted]
    obtain ⟨h1, h2⟩ := List.pairwise_cons.mp h
    split_ifs with hxy
    · refine List.pairwise_cons.mpr ⟨fun z hz => ?_, h⟩
      rcases List.mem_cons.mp hz with rfl | hz
      · exact hxy
      · exact Dbl.le_def.2 ((Dbl.le_def.1 hxy).trans (Dbl.le_def.1 (h1 z hz)))
    · refine List.pairwise_cons.mpr ⟨fun z hz => ?_, ih h2⟩
      rcases List.mem_cons.mp ((insertSorted_perm x l).subset hz) with rfl | hz
      · exact Dbl.le_def.2 (not_le.mp fun hc => hxy (Dbl.le_def.2 hc)).le
      · exact h1 z hz

theorem npSort_dbl (l : List Dbl) : (npSort l).Pairwise (· ≤ ·) := by
  induction l with
  | nil => simp [npSort]
  | cons x l ih => exact insertSorted_dbl x _ ih

theorem npSort_order {l l' : List Dbl} (h : l'.Perm l) : npSort l' = npSort l :=
  (((npSort_perm l').trans h).trans (npSort_perm l).symm).eq_of_pairwise
    (fun _ _ _ _ h1 h2 => Dbl.ext (le_antisymm (Dbl.le_def.1 h1) (Dbl.le_def.1 h2))) (npSort_dbl l') (npSort_dbl l)

theorem argmaxGo_dbl (l : List Dbl) (best : Dbl) (bi i : ℕ) :
    argmaxGo ((best.val : ℚ) : ℝ) bi i (l.map fun x => ((x.val : ℚ) : ℝ)) = argmaxGo best bi i l := by
  induction l generalizing best bi i with
  | nil => rfl
  | cons x l ih =>
    simp only [List.map_cons, argmaxGo]
    by_cases h : best < x
    · rw [if_pos h, if_pos (by exact_mod_cast Dbl.lt_def.1 h), ih]
    · rw [if_neg h, if_neg (by rw [Rat.cast_lt]; exact fun hc => h (Dbl.lt_def.2 hc)), ih]

theorem argmax_dbl (l : List Dbl) (h : l ≠ []) : ∃ hk : argmax l < l.length, ∀ y ∈ l, y.val ≤ l[argmax l].val := by
  have e : argmax (l.map fun x => ((x.val : ℚ) : ℝ)) = argmax l := by
    cases l with
    | nil => rfl
    | cons x l => exact argmaxGo_dbl l x 0 1
  obtain ⟨hk, hm⟩ := argmax_spec (l := l.map fun x => ((x.val : ℚ) : ℝ)) (by simpa using h)
  refine ⟨argmax_lt h, fun y hy => ?_⟩
  have := hm _ (List.mem_map_of_mem hy)
  simp only [List.getElem_map, e, Rat.cast_le] at this
  exact this

theorem sigma_at_max_dbl {ev : List (Dbl × Dbl)} (hne : ev ≠ []) :
    ∃ e ∈ ev, (∀ x ∈ ev, x.1 ≤ e.1) ∧ (ev.map Prod.snd)[argmax (ev.map Prod.fst)]? = some e.2 := by
  obtain ⟨hk, hmax⟩ := argmax_dbl (ev.map Prod.fst) (by simpa using hne)
  have hk' : argmax (ev.map Prod.fst) < ev.length := by simpa using hk
  refine ⟨ev[argmax (ev.map Prod.fst)], List.getElem_mem _, fun x hx => Dbl.le_def.2 ?_, ?_⟩
  · have := hmax x.1 (List.mem_map_of_mem hx)
    simpa using this
  · simp [hk']

/-- **C199**: so are the magnitude of Kijko and its uncertainty, if there are more events than the configured number of largest earthquakes and the events of
the largest magnitude have the same uncertainty. -/
theorem C199_kijko {ev ev' : List (Dbl × Dbl)} (hp : ev'.Perm ev) {neq : ℕ} (hneq : neq < ev.length)
    (hall : ∀ e ∈ ev, ∀ e' ∈ ev, (∀ x ∈ ev, x.1 ≤ e.1) → (∀ x ∈ ev, x.1 ≤ e'.1) → e.2 = e'.2) (nsamp tol : Dbl) (maxIter fuel : ℕ) :
    kijko (ev'.map Prod.fst) (ev'.map Prod.snd) neq nsamp tol maxIter fuel = kijko (ev.map Prod.fst) (ev.map Prod.snd) neq nsamp tol maxIter fuel := by
  have hne : ev ≠ [] := by rintro rfl; simp at hneq
  have hne' : ev' ≠ [] := fun hh => hne (by subst hh; exact hp.symm.eq_nil)
  obtain ⟨e, he, hmax, hs⟩ := sigma_at_max_dbl hne
  obtain ⟨e', he', hmax', hs'⟩ := sigma_at_max_dbl hne'
  have hee : e'.2 = e.2 := hall e' (hp.subset he') e he (fun x hx => hmax' x (hp.symm.subset hx)) hmax
  have hpm := hp.map (Prod.fst : Dbl × Dbl → Dbl)
  have hl : largest (ev'.map Prod.fst) neq = largest (ev.map Prod.fst) neq := by
    have hlen : ¬ (ev.map Prod.fst).length ≤ neq := by simpa using hneq
    simp only [largest, hpm.length_eq, npSort_order hpm, hlen, if_false]
  simp only [kijko, orderFree_dbl.npMax hpm, hs, hs', hl, hee]

/-- The hypotheses are met: three events, the two largest used, exchanged. -/
example (nsamp tol : Dbl) (maxIter fuel : ℕ) :
    kijko [(6.3 : Dbl), 5.1, 5.8] [0.2, 0.1, 0.3] 2 nsamp tol maxIter fuel = kijko [(5.1 : Dbl), 6.3, 5.8] [0.1, 0.2, 0.3] 2 nsamp tol maxIter fuel := by
  have h51 : ¬ (6.3 : Dbl).val ≤ (5.1 : Dbl).val := by decide +kernel
  have h58 : ¬ (6.3 : Dbl).val ≤ (5.8 : Dbl).val := by decide +kernel
  have only : ∀ e ∈ [((5.1 : Dbl), (0.1 : Dbl)), (6.3, 0.2), (5.8, 0.3)], (∀ x ∈ [((5.1 : Dbl), (0.1 : Dbl)), (6.3, 0.2), (5.8, 0.3)], x.1 ≤ e.1) → e.2 = 0.2 := by
    intro e he hm
    have hm := Dbl.le_def.1 (hm ((6.3 : Dbl), 0.2) (by simp))
    simp only [List.mem_cons, List.not_mem_nil, or_false] at he
    rcases he with rfl | rfl | rfl
    · exact absurd hm h51
    · rfl
    · exact absurd hm h58
  exact C199_kijko (ev := [((5.1 : Dbl), (0.1 : Dbl)), (6.3, 0.2), (5.8, 0.3)]) (ev' := [((6.3 : Dbl), (0.2 : Dbl)), (5.1, 0.1), (5.8, 0.3)])
    (List.Perm.swap _ _ _) (by decide) (fun e he e' he' h h' => (only e he h).trans (only e' he' h').symm) nsamp tol maxIter fuel

end Verif.MaxMag
