import Verif.Model.Sampler
import Verif.Props.SourceOrder

/-!
# C202: a seed makes the bootstrap of the cumulative moment analysis reproducible
-/

namespace Verif.MaxMag

open Verif

section
variable {F : Type} [PyMath F]

/-- A call with this seed has the same outcome whenever it is made, whatever the shared generator delivers, and takes nothing from it. -/
def Spec.Reproducible (F : Type) [PyMath F] (seed : Seed) : Prop :=
  ∀ (g g' : Generators F) (ev : List (MEvent F)) (nboot pos pos' : ℕ), g'.randomState = g.randomState →
    (cumMoSeeded g' ev nboot seed pos').1 = (cumMoSeeded g ev nboot seed pos).1 ∧ (cumMoSeeded g ev nboot seed pos).2 = pos

/-- **C202** (part): reproducible if the seed is an `int`. -/
theorem C202_int_partial (i : ℤ) : Spec.Reproducible F (.int i) := by
  intro g g' ev nboot pos pos' h
  simp only [cumMoSeeded, h]
  cases g.randomState i <;> exact ⟨rfl, rfl⟩

/-- **C202** (part): the samples of a call with a seed are made from the first numbers of the generator of this seed, in order, one for each event and sample, none of them twice. -/
theorem C202_samples (g : Generators F) (i : ℤ) (s : ℕ → F) (hs : g.randomState i = .ok s) (ev : List (MEvent F)) (nboot pos : ℕ) :
    ∃ place : Fin nboot → Fin ev.length → ℕ, Function.Injective (fun q : Fin nboot × Fin ev.length => place q.1 q.2) ∧ (∀ a b, place a b < nboot * ev.length) ∧
      ∀ samples : Fin nboot → Except PyErr F,
        (∀ a, samples a = cumulativeMoment (List.ofFn fun b : Fin ev.length => (ev[b].year, ev[b].mag + ev[b].sigma * s (place a b)))) →
        (∀ l, (List.ofFn samples).mapM id = .ok l → (cumMoSeeded g ev nboot (.int i) pos).1 = .ok (npMean l, npStd l 1)) ∧
          ∀ e, (List.ofFn samples).mapM id = .error e → (cumMoSeeded g ev nboot (.int i) pos).1 = .error e := by
  refine ⟨fun a b => a * ev.length + b, ?_, ?_, ?_⟩
  · rintro ⟨a, b⟩ ⟨a', b'⟩ h
    simp only at h
    have hb := b.isLt
    have hb' := b'.isLt
    have hpos : 0 < ev.length := by omega
    have e1 := congrArg (· / ev.length) h
    have e2 := congrArg (· % ev.length) h
    simp only [Nat.add_comm (_ * _), Nat.add_mul_div_right _ _ hpos, Nat.add_mul_mod_self_right, Nat.div_eq_of_lt hb, Nat.div_eq_of_lt hb', Nat.mod_eq_of_lt hb, Nat.mod_eq_of_lt hb', Nat.zero_add] at e1 e2
    exact Prod.ext (Fin.ext e1) (Fin.ext e2)
  · intro a b
    calc (a : ℕ) * ev.length + b < a * ev.length + ev.length := by omega
      _ = (a + 1) * ev.length := by ring
      _ ≤ nboot * ev.length := Nat.mul_le_mul_right _ a.isLt
  · intro samples hsamp
    have e : (List.range nboot).mapM (fun i => cumulativeMoment (perturbed ev fun k => s (i * ev.length + k))) = (List.ofFn samples).mapM id := by
      have : List.ofFn samples = (List.range nboot).map fun i => cumulativeMoment (perturbed ev fun k => s (i * ev.length + k)) := by
        refine List.ext_getElem (by simp) fun j h1 h2 => ?_
        simp only [List.getElem_ofFn, List.getElem_map, List.getElem_range, hsamp]
        congr 1
        refine List.ext_getElem (by simp [perturbed]) fun k h3 h4 => ?_
        simp [perturbed]
      rw [this, List.mapM_map]
      rfl
    simp only [cumMoSeeded, hs, cumMoUncertainty, e]
    constructor
    · intro l hl
      rw [hl]
      rfl
    · intro e' hl
      rw [hl]
      rfl

end

/-- The numbers of the example of C23: first zeros, then ones. -/
noncomputable def generators23 : Generators ℝ := ⟨fun _ => .ok Workflow.x23.normal, Workflow.x23.normal⟩

theorem estimate23_ne : Workflow.estimate23 0 ≠ Workflow.estimate23 1 := by
  have h := Workflow.estimate_lt (5 + 0) (5 + 1) 4 (by norm_num) (by norm_num)
  intro h3
  unfold Workflow.estimate23 at h3
  rw [h3] at h
  exact lt_irrefl _ h

/-- **C202 fails**: a long integer is not used as a seed, nor is anything else that is no `int`. -/
theorem C202_fails : ¬ ∀ i : ℤ, Spec.Reproducible ℝ (.long i) := by
  intro h
  obtain ⟨s, h0⟩ := Workflow.cumMo23 0 le_rfl (fun i k => generators23.shared (0 + i * 2 + k)) (by
    intro i hi k hk
    exact if_pos (by omega))
  obtain ⟨s', h1⟩ := Workflow.cumMo23 1 zero_le_one (fun i k => generators23.shared (4 + i * 2 + k)) (by
    intro i hi k hk
    exact if_neg (by omega))
  have := (h 0 generators23 generators23 (Workflow.yearMagSigma Workflow.rows23) 2 0 4 rfl).1
  have e : (Workflow.yearMagSigma Workflow.rows23).length = 2 := rfl
  simp only [cumMoSeeded, e, h0, h1] at this
  exact estimate23_ne (Prod.mk.inj (Except.ok.inj this)).1.symm

/-- The same two calls with an `int` as seed agree. -/
example : (cumMoSeeded generators23 (Workflow.yearMagSigma Workflow.rows23) 2 (.int 5) 4).1 = (cumMoSeeded generators23 (Workflow.yearMagSigma Workflow.rows23) 2 (.int 5) 0).1 :=
  (C202_int_partial 5 generators23 generators23 _ 2 0 4 rfl).1

end Verif.MaxMag
