import Verif.Props.GardnerKnopoff
import Verif.Props.CatalogueUtilities
import Verif.Lemmas.Rpow
import Mathlib.Analysis.Real.Pi.Bounds

/-!
# Properties C37, C39, C40, C41 of Gardner–Knopoff declustering in exact arithmetic
-/

namespace Verif.Declustering

open Verif Verif.CatUtil Spec

section
variable {n : Nat}

/-- Sorted positions in descending order of magnitude. -/
theorem flipud_desc {α : Type} [LE α] {m : Fin n → α} {asc : Equiv.Perm (Fin n)} (h : IsArgsort m asc) (a b : Fin n) (hab : a ≤ b) :
    m (flipud asc b) ≤ m (flipud asc a) := by
  have := h b.rev a.rev (Fin.rev_le_rev.mpr hab)
  simpa [flipud] using this

/-- The largest event is kept, for any numbers ordered by `key`, if it has in its windows every event that has it in its own. -/
theorem gk_largest {F : Type} [PyMath F] {key : F → ℝ} (hkey : ∀ a b : F, a ≤ b → key a ≤ key b) (cat : Fin n → Row F) (opt : String) (fs : F) (asc id1 : Equiv.Perm (Fin n))
    (r : Result F n) (h0 : IsArgsort (fun j => cat j 5) asc) (h1 : IsArgsort (flipud asc) id1)
    (h : gardnerKnopoff cat opt fs asc id1 = .ok r) (e : Fin n) (hmax : ∀ j, j ≠ e → key (cat j 5) < key (cat e 5))
    (hback : ∀ t win, timeDistWindow opt = .ok win → ∀ j, j ≠ e → InWindows cat t win fs j e → InWindows cat t win fs e j) :
    cat e ∈ r.vmain := by
  obtain ⟨t, win, ht, hw, hm, hvm, he⟩ := gk_each cat opt fs asc id1 r h1 h
  simp only at he
  set S' := fun i j => Sel cat t win fs (flipud asc i) (flipud asc j) with hS
  rcases he e with ⟨-, b, -⟩ | ⟨i, hop, hsel, hlast, hv, hf⟩
  · exact ((hm e).mp b).1
  · by_cases hie : e = flipud asc i
    · rw [flagOf_zero.mpr hie] at hf
      exact ((hm e).mp hf).1
    · exfalso
      -- position of the largest event is 0
      set a := (flipud asc).symm e with ha
      have hae : flipud asc a = e := by rw [ha, Equiv.apply_symm_apply]
      have hfirst : ∀ b : Fin n, ¬ b < a := by
        intro b hb
        have h2 := hkey _ _ (flipud_desc h0 b a hb.le)
        rw [hae] at h2
        have hbe : flipud asc b ≠ e := by
          intro hc; rw [← hae] at hc; exact hb.ne ((flipud asc).injective hc)
        have := hmax _ hbe
        linarith
      have hai : a < i := by
        rcases lt_trichotomy a i with h2 | h2 | h2
        · exact h2
        · exact absurd (by rw [← h2, hae]) hie
        · exact absurd h2 (hfirst i)
      have hacta : Active S' a := by
        rw [active_iff]
        exact ⟨by have : a.val < i.val := hai; omega, fun k hk => absurd hk (hfirst k)⟩
      have hno := ((active_iff S' i).mp hop.1).2 a hai hacta
      simp only [hS, hae] at hno
      have hyes : Sel cat t win fs e (flipud asc i) = true := by
        rw [sel_iff]
        exact hback t win hw _ (fun hc => hie hc.symm) ((sel_iff ..).mp hsel)
      rw [hyes] at hno
      exact absurd hno (by simp)

/-- **C39, the part that holds**: the largest event is kept if, for every other event, the distance window is not larger than its own and
the time windows are not larger in either direction: `fs` times the other's aftershock window fits in its own aftershock window, and the
other's aftershock window fits in `fs` times its own.  Missing: foreshock proportions below one (`C39_largest_survives_fails`). -/
theorem C39_largest_survives_partial (cat : Fin n → Row ℝ) (opt : String) (fs : ℝ) (asc id1 : Equiv.Perm (Fin n)) (r : Result ℝ n)
    (h0 : IsArgsort (fun j => cat j 5) asc) (h1 : IsArgsort (flipud asc) id1)
    (h : gardnerKnopoff cat opt fs asc id1 = .ok r) (e : Fin n) (hmax : ∀ j, j ≠ e → cat j 5 < cat e 5)
    (hwin : ∀ win, timeDistWindow opt = .ok win → ∀ j, j ≠ e → (win (cat j 5)).1 ≤ (win (cat e 5)).1 ∧
      (win (cat j 5)).2 ≤ fs * (win (cat e 5)).2 ∧ fs * (win (cat j 5)).2 ≤ (win (cat e 5)).2) :
    cat e ∈ r.vmain := by
  refine gk_largest (key := id) (fun _ _ h => h) cat opt fs asc id1 r h0 h1 h e hmax ?_
  rintro t win hw j hj ⟨w1, w2, w3⟩
  obtain ⟨b1, b2, b3⟩ := hwin win hw j hj
  refine ⟨?_, ?_, ?_⟩
  · nlinarith
  · nlinarith
  · rw [eventDist, C49_symmetric]
    exact le_trans w3 b1

/-- Two descending sorts of distinct magnitudes agree. -/
theorem sort_unique {m : Fin n → ℝ} (hm : Function.Injective m) (p q : Equiv.Perm (Fin n))
    (hp : ∀ a b, a ≤ b → m (p b) ≤ m (p a)) (hq : ∀ a b, a ≤ b → m (q b) ≤ m (q a)) : p = q := by
  have key : ∀ p : Equiv.Perm (Fin n), (∀ a b, a ≤ b → m (p b) ≤ m (p a)) → StrictMono (fun a => - m (p a)) := by
    intro p hp
    have : Monotone (fun a => - m (p a)) := fun a b hab => neg_le_neg (hp a b hab)
    exact this.strictMono_of_injective (fun a b hab => p.injective (hm (neg_injective hab)))
  have hr : Set.range (fun a => - m (p a)) = Set.range (fun a => - m (q a)) := by
    have : ∀ p : Equiv.Perm (Fin n), Set.range (fun a => - m (p a)) = Set.range (fun a => - m a) := by
      intro p
      ext x
      constructor
      · rintro ⟨a, rfl⟩; exact ⟨p a, rfl⟩
      · rintro ⟨a, rfl⟩; exact ⟨p.symm a, by simp⟩
    rw [this p, this q]
  have := ((key p hp).range_inj (key q hq)).mp hr
  ext a
  have h := congrFun this a
  simp only [neg_inj] at h
  rw [hm h]

theorem times_unique {F : Type} [PyMath F] (cat : Fin n → Row F) (t t' : Fin n → F) (h : Times cat t) (h' : Times cat t') : t = t' := by
  funext j
  have := (h j).symm.trans (h' j)
  exact Except.ok.inj this

/-- Permuting the rows, for any numbers ordered by `key`. -/
theorem gk_equivariant {F : Type} [PyMath F] {key : F → ℝ} (hk : ∀ a b : F, a ≤ b → key a ≤ key b) (cat : Fin n → Row F)
    (hm : Function.Injective (fun j => key (cat j 5))) (π : Equiv.Perm (Fin n))
    (opt : String) (fs : F) (asc id1 asc' id1' : Equiv.Perm (Fin n)) (r r' : Result F n)
    (h0 : IsArgsort (fun j => cat j 5) asc) (h1 : IsArgsort (flipud asc) id1)
    (h0' : IsArgsort (fun j => cat (π j) 5) asc') (h1' : IsArgsort (flipud asc') id1')
    (h : gardnerKnopoff cat opt fs asc id1 = .ok r) (h' : gardnerKnopoff (fun j => cat (π j)) opt fs asc' id1' = .ok r') :
    (∀ j, r'.vcl j = r.vcl (π j)) ∧ ∀ j, r'.flag j = r.flag (π j) := by
  obtain ⟨t, win, ht, hw, hr⟩ := gk_ok _ _ _ _ _ _ h
  obtain ⟨t', win', ht', hw', hr'⟩ := gk_ok _ _ _ _ _ _ h'
  have hww : win = win' := Except.ok.inj (hw.symm.trans hw')
  subst hww
  have htt : t' = fun j => t (π j) := by
    apply times_unique (fun j => cat (π j)) _ _ ((decimalYears_times _ _).mp ht')
    intro j
    exact (decimalYears_times _ _).mp ht (π j)
  have hsort : flipud asc = (flipud asc').trans π := by
    apply sort_unique hm
    · exact fun a b hab => hk _ _ (flipud_desc h0 a b hab)
    · intro a b hab
      exact hk _ _ (flipud_desc h0' a b hab)
  have e1 := argsort_perm _ _ h1
  have e1' := argsort_perm _ _ h1'
  subst e1 e1'
  have hs : ∀ a, flipud asc a = π (flipud asc' a) := fun a => by rw [hsort]; rfl
  have hinv : ∀ j, (flipud asc).symm (π j) = (flipud asc').symm j := by
    intro j
    rw [Equiv.symm_apply_eq, hs, Equiv.apply_symm_apply]
  have hS : (fun i j => Sel cat t win fs (flipud asc i) (flipud asc j)) =
      (fun i j => Sel (fun j => cat (π j)) t' win fs (flipud asc' i) (flipud asc' j)) := by
    funext i j
    rw [hs i, hs j, htt]
    rfl
  have hLt : (fun i j => Late t (flipud asc i) (flipud asc j)) = (fun i j => Late t' (flipud asc' i) (flipud asc' j)) := by
    funext i j
    rw [hs i, hs j, htt]
    rfl
  rw [hS, hLt] at hr
  rw [hr, hr']
  simp only [Function.comp, hinv]
  exact ⟨fun _ => trivial, fun _ => trivial⟩

/-- **C41** (Gardner–Knopoff): permuting the rows of a catalogue with distinct magnitudes permutes cluster numbers and flags. -/
theorem C41_gk_equivariant (cat : Fin n → Row ℝ) (hm : Function.Injective (fun j => cat j 5)) (π : Equiv.Perm (Fin n))
    (opt : String) (fs : ℝ) (asc id1 asc' id1' : Equiv.Perm (Fin n)) (r r' : Result ℝ n)
    (h0 : IsArgsort (fun j => cat j 5) asc) (h1 : IsArgsort (flipud asc) id1)
    (h0' : IsArgsort (fun j => cat (π j) 5) asc') (h1' : IsArgsort (flipud asc') id1')
    (h : gardnerKnopoff cat opt fs asc id1 = .ok r) (h' : gardnerKnopoff (fun j => cat (π j)) opt fs asc' id1' = .ok r') :
    (∀ j, r'.vcl j = r.vcl (π j)) ∧ ∀ j, r'.flag j = r.flag (π j) :=
  gk_equivariant (key := id) (fun _ _ h => h) cat hm π opt fs asc id1 asc' id1' r r' h0 h1 h0' h1' h h'

/-- Declustering twice, for any numbers ordered by `key`. -/
theorem gk_idempotent {F : Type} [PyMath F] {key : F → ℝ} (hkey : ∀ a b : F, a ≤ b → key a ≤ key b) (cat : Fin n → Row F)
    (hlow : ∀ j k, (∀ l, key (cat j 5) ≤ key (cat l 5)) → (∀ l, key (cat k 5) ≤ key (cat l 5)) → j = k) (opt : String) (fs : F)
    (asc id1 : Equiv.Perm (Fin n)) (r : Result F n) (h0 : IsArgsort (fun j => cat j 5) asc) (h1 : IsArgsort (flipud asc) id1)
    (h : gardnerKnopoff cat opt fs asc id1 = .ok r) (asc2 id2 : Equiv.Perm (Fin r.vmain.length))
    (h2 : IsArgsort (fun j : Fin r.vmain.length => r.vmain[j] 5) asc2) (h3 : IsArgsort (flipud asc2) id2) :
    ∃ r2, gardnerKnopoff (fun j : Fin r.vmain.length => r.vmain[j]) opt fs asc2 id2 = .ok r2 ∧
      r2.vmain = r.vmain ∧ ∀ j, r2.flag j = 0 ∧ r2.vcl j = 0 := by
  obtain ⟨t, win, ht, hw, halone⟩ := kept_alone cat opt fs asc id1 r h1 h
  obtain ⟨-, hvm⟩ := C34_gk_mainshocks cat opt fs asc id1 r h1 h
  -- embedding of the main shocks
  have hemb : ∀ j : Fin r.vmain.length, ∃ k : Fin n, r.vmain[j] = cat k ∧ r.flag k = 0 ∧
      ∃ hl : j.val < ((List.finRange n).filter (fun j => r.flag j = 0)).length,
        ((List.finRange n).filter (fun j => r.flag j = 0))[j.val] = k := by
    intro j
    have hlen : r.vmain.length = ((List.finRange n).filter (fun j => r.flag j = 0)).length := by
      rw [hvm, List.length_map]
    have hl : j.val < ((List.finRange n).filter (fun j => r.flag j = 0)).length := by rw [← hlen]; exact j.isLt
    refine ⟨_, ?_, ?_, hl, rfl⟩
    · have : r.vmain[j] = (((List.finRange n).filter (fun j => r.flag j = 0)).map cat)[j.val]'(by simpa using hl) := by
        simp only [Fin.getElem_fin]
        congr 1
      rw [this, List.getElem_map]
    · have := List.getElem_mem (l := (List.finRange n).filter (fun j => r.flag j = 0)) hl
      simpa using (List.mem_filter.mp this).2
  choose emb hcat hflag hidx using hemb
  have hinj : Function.Injective emb := by
    intro a b hab
    obtain ⟨ha, ea⟩ := hidx a
    obtain ⟨hb, eb⟩ := hidx b
    have hnd : ((List.finRange n).filter (fun j => r.flag j = 0)).Nodup := (List.nodup_finRange n).filter _
    rw [← ea, ← eb, hnd.getElem_inj_iff] at hab
    exact Fin.ext hab
  have hcat2 : (fun j : Fin r.vmain.length => r.vmain[j]) = fun j => cat (emb j) := funext hcat
  rw [hcat2]
  have ht2 : Times (fun j => cat (emb j)) (fun j => t (emb j)) := fun j => ht (emb j)
  have hok := (C34_gk_succeeds (fun j => cat (emb j)) opt fs asc2 id2).mpr
    ⟨((C34_gk_succeeds cat opt fs asc id1).mp ⟨r, h⟩).1, _, ht2⟩
  obtain ⟨r2, hr2⟩ := hok
  obtain ⟨t2, win2, ht2', hw2, hm2, hvm2, he2⟩ := gk_each _ _ _ _ _ _ h3 hr2
  have hww : win2 = win := Except.ok.inj (hw2.symm.trans hw)
  subst hww
  have htt := times_unique _ _ _ ht2' ht2
  subst htt
  have h2' : IsArgsort (fun j => cat (emb j) 5) asc2 := by
    intro a b hab
    have := h2 a b hab
    simp only [hcat] at this
    exact this
  have hall : ∀ j, r2.flag j = 0 ∧ r2.vcl j = 0 := by
    intro j
    rcases he2 j with ⟨a, b, -⟩ | ⟨i, hop, -⟩
    · exact ⟨b, a⟩
    · exfalso
      obtain ⟨hact, k, hk, hsel⟩ := hop
      have hlast := ((active_iff _ i).mp hact).1
      set a := (flipud asc).symm (emb (flipud asc2 i)) with ha
      have hea : flipud asc a = emb (flipud asc2 i) := by rw [ha, Equiv.apply_symm_apply]
      have hapos : a.val + 1 < n := by
        by_contra hc
        -- otherwise it has the smallest magnitude, and so has the main shock after it
        have hmin : ∀ l, key (cat (emb (flipud asc2 i)) 5) ≤ key (cat l 5) := by
          intro l
          have := hkey _ _ (flipud_desc h0 ((flipud asc).symm l) a (Fin.le_def.mpr (by have := ((flipud asc).symm l).isLt; omega)))
          rwa [hea, Equiv.apply_symm_apply] at this
        have hle := hkey _ _ (flipud_desc (m := fun j => cat (emb j) 5) h2' i ⟨i.val + 1, hlast⟩ (Fin.le_def.mpr (by simp)))
        have := (flipud asc2).injective (hinj (hlow _ _ hmin fun l => hle.trans (hmin l)))
        rw [Fin.ext_iff] at this
        simp at this
      refine halone a (emb (flipud asc2 k)) hapos ?_ ?_ ?_ (hflag _)
      · rw [hea]; exact hflag _
      · rw [hea]
        intro hc
        exact hk ((flipud asc2).injective (hinj hc))
      · rw [hea]
        exact (sel_iff (fun j => cat (emb j)) _ _ _ _ _).mp hsel
  refine ⟨r2, hr2, ?_, hall⟩
  rw [hvm2]
  have : (List.finRange r.vmain.length).filter (fun j => r2.flag j = 0) = List.finRange r.vmain.length := by
    rw [List.filter_eq_self]
    intro j _
    simp [(hall j).1]
  rw [this]
  have h4 : (List.finRange r.vmain.length).map (fun j => cat (emb j)) = (List.finRange r.vmain.length).map (fun j => r.vmain[j]) := by
    rw [hcat2]
  rw [h4]
  apply List.ext_getElem
  · simp
  · intro i h1 h2
    simp

/-- **C40** (Gardner–Knopoff): declustering the main shocks of a catalogue again removes nothing, if the smallest magnitude of the catalogue occurs once. -/
theorem C40_gk_idempotent (cat : Fin n → Row ℝ) (hlow : ∀ j k, (∀ l, cat j 5 ≤ cat l 5) → (∀ l, cat k 5 ≤ cat l 5) → j = k) (opt : String) (fs : ℝ)
    (asc id1 : Equiv.Perm (Fin n)) (r : Result ℝ n) (h0 : IsArgsort (fun j => cat j 5) asc) (h1 : IsArgsort (flipud asc) id1)
    (h : gardnerKnopoff cat opt fs asc id1 = .ok r) (asc2 id2 : Equiv.Perm (Fin r.vmain.length))
    (h2 : IsArgsort (fun j : Fin r.vmain.length => r.vmain[j] 5) asc2) (h3 : IsArgsort (flipud asc2) id2) :
    ∃ r2, gardnerKnopoff (fun j : Fin r.vmain.length => r.vmain[j]) opt fs asc2 id2 = .ok r2 ∧
      r2.vmain = r.vmain ∧ ∀ j, r2.flag j = 0 ∧ r2.vcl j = 0 :=
  gk_idempotent (key := id) (fun _ _ h => h) cat hlow opt fs asc id1 r h0 h1 h asc2 id2 h2 h3

end

end Verif.Declustering
