import Verif.Model.Fault
import Verif.Lemmas.Numpy
import Verif.Lemmas.Recurrence
import Verif.Props.CatalogueUtilities

/-! # C75 to C79: fault geometry and tectonic regions -/

namespace Verif.Fault

open Verif Verif.Np InnerProductGeometry

/-! ### C75 -/

/-- The documented conditions on a fault. -/
def Spec.ValidFault (trace : List (ℝ × ℝ)) (upp low dip : ℝ) : Prop :=
  2 ≤ trace.length ∧ (∀ p ∈ trace, -180 ≤ p.1 ∧ p.1 ≤ 180 ∧ -90 ≤ p.2 ∧ p.2 ≤ 90) ∧ 0 ≤ upp ∧ upp < low ∧ 0 < dip ∧ dip ≤ 90

theorem ensure_true {b : Bool} (h : b = true) : ensure b = .ok () := by simp [ensure, h]
theorem ensure_false {b : Bool} (h : b = false) : ensure b = .error .valueError := by simp [ensure, h]

theorem checkTrace_spec {F : Type} [PyMath F] (l : List (F × F)) :
    (checkTrace l = .ok () ∧ ∀ p ∈ l, (-((180 : ℕ) : F) ≤ p.1 ∧ p.1 ≤ ((180 : ℕ) : F)) ∧ -((90 : ℕ) : F) ≤ p.2 ∧ p.2 ≤ ((90 : ℕ) : F)) ∨
    (checkTrace l = .error .valueError ∧ ∃ p ∈ l, ¬ ((-((180 : ℕ) : F) ≤ p.1 ∧ p.1 ≤ ((180 : ℕ) : F)) ∧ -((90 : ℕ) : F) ≤ p.2 ∧ p.2 ≤ ((90 : ℕ) : F))) := by
  induction l with
  | nil => left; exact ⟨rfl, by simp⟩
  | cons p l ih =>
    simp only [checkTrace, checkPoint]
    by_cases h1 : -((180 : ℕ) : F) ≤ p.1 ∧ p.1 ≤ ((180 : ℕ) : F)
    · by_cases h2 : -((90 : ℕ) : F) ≤ p.2 ∧ p.2 ≤ ((90 : ℕ) : F)
      · rw [ensure_true (by simpa using h1), ensure_true (by simpa using h2)]
        simp only [bind, Except.bind, List.mem_cons, forall_eq_or_imp, exists_eq_or_imp]
        rcases ih with ⟨h, h'⟩ | ⟨h, h'⟩
        · exact Or.inl ⟨h, ⟨h1, h2⟩, h'⟩
        · exact Or.inr ⟨h, Or.inr h'⟩
      · rw [ensure_true (by simpa using h1), ensure_false (by simpa using h2)]
        exact Or.inr ⟨rfl, p, by simp, fun h => h2 h.2⟩
    · rw [ensure_false (by simpa using h1)]
      exact Or.inr ⟨rfl, p, by simp, fun h => h1 h.1⟩

/-- In any arithmetic: what the constructor checks; it succeeds with the given attributes, or raises `ValueError`. -/
theorem mkFault_spec {F : Type} [PyMath F] (trace : List (F × F)) (upp low dip : F) :
    (mkFault trace upp low dip = .ok ⟨trace, upp, low, dip⟩ ∨ mkFault trace upp low dip = .error .valueError) ∧
    (mkFault trace upp low dip = .ok ⟨trace, upp, low, dip⟩ ↔
      2 ≤ trace.length ∧ (∀ p ∈ trace, (-((180 : ℕ) : F) ≤ p.1 ∧ p.1 ≤ ((180 : ℕ) : F)) ∧ -((90 : ℕ) : F) ≤ p.2 ∧ p.2 ≤ ((90 : ℕ) : F)) ∧
        ((0 : ℕ) : F) ≤ upp ∧ ((0 : ℕ) : F) < low ∧ upp < low ∧ ((0 : ℕ) : F) < dip ∧ dip ≤ ((90 : ℕ) : F)) := by
  unfold mkFault
  by_cases h1 : 2 ≤ trace.length
  case neg => rw [ensure_false (by simpa using h1)]; simp [bind, Except.bind, h1]
  rw [ensure_true (by simpa using h1)]
  rcases checkTrace_spec trace with ⟨hc, h2⟩ | ⟨hc, h2⟩
  case inr =>
    rw [hc]
    refine ⟨Or.inr rfl, ⟨fun h => by simp [bind, Except.bind] at h, fun h => ?_⟩⟩
    obtain ⟨p, hp, hn⟩ := h2
    exact absurd (h.2.1 p hp) hn
  rw [hc]
  by_cases h3 : ((0 : ℕ) : F) ≤ upp
  case neg => rw [ensure_false (by simpa using h3)]; simp [bind, Except.bind, h3]
  rw [ensure_true (by simpa using h3)]
  by_cases h4 : ((0 : ℕ) : F) < low
  case neg => rw [ensure_false (by simpa using h4)]; simp [bind, Except.bind, h4]
  rw [ensure_true (by simpa using h4)]
  by_cases h5 : upp < low
  case neg => rw [ensure_false (by simpa using h5)]; simp [bind, Except.bind, h5]
  rw [ensure_true (by simpa using h5)]
  by_cases h6 : ((0 : ℕ) : F) < dip ∧ dip ≤ ((90 : ℕ) : F)
  case neg =>
    rw [ensure_false (by simpa using h6)]
    refine ⟨Or.inr rfl, ⟨fun h => by simp [bind, Except.bind] at h, fun h => ?_⟩⟩
    exact absurd h.2.2.2.2.2 h6
  rw [ensure_true (by simpa using h6)]
  exact ⟨Or.inl rfl, ⟨fun _ => ⟨h1, h2, h3, h4, h5, h6⟩, fun _ => rfl⟩⟩

/-- **C75**: a fault is constructed (with the given attributes) exactly when the documented conditions hold, otherwise `ValueError` is raised. -/
theorem C75_fault_validation (trace : List (ℝ × ℝ)) (upp low dip : ℝ) :
    (Spec.ValidFault trace upp low dip → mkFault trace upp low dip = .ok ⟨trace, upp, low, dip⟩) ∧
    (¬ Spec.ValidFault trace upp low dip → mkFault trace upp low dip = .error .valueError) := by
  obtain ⟨h1, h2⟩ := mkFault_spec trace upp low dip
  have hiff : Spec.ValidFault trace upp low dip ↔ mkFault trace upp low dip = .ok ⟨trace, upp, low, dip⟩ := by
    rw [h2, Spec.ValidFault]
    push_cast
    constructor
    · rintro ⟨a, b, c, d, e⟩
      exact ⟨a, fun p hp => by obtain ⟨x, y, z, w⟩ := b p hp; exact ⟨⟨x, y⟩, z, w⟩, c, by linarith, d, e⟩
    · rintro ⟨a, b, c, _, d, e⟩
      exact ⟨a, fun p hp => by obtain ⟨⟨x, y⟩, z, w⟩ := b p hp; exact ⟨x, y, z, w⟩, c, d, e⟩
  refine ⟨hiff.mp, fun hn => ?_⟩
  rcases h1 with h1 | h1
  · exact absurd (hiff.mpr h1) hn
  · exact h1

theorem mkFault_valid {trace : List (ℝ × ℝ)} {upp low dip : ℝ} {f : SimpleFault ℝ} (h : mkFault trace upp low dip = .ok f) :
    Spec.ValidFault trace upp low dip ∧ f = ⟨trace, upp, low, dip⟩ := by
  by_cases hv : Spec.ValidFault trace upp low dip
  · refine ⟨hv, ?_⟩
    have := (C75_fault_validation trace upp low dip).1 hv
    rw [h] at this
    exact Except.ok.inj this
  · have := (C75_fault_validation trace upp low dip).2 hv
    rw [h] at this
    exact absurd this (by simp)

/-- A valid fault. -/
example : Spec.ValidFault [(90.5, 24.9), (90.6, 22.4)] 4 35 5 := by
  refine ⟨by simp, ?_, by norm_num, by norm_num, by norm_num, by norm_num⟩
  intro p hp
  simp only [List.mem_cons, List.not_mem_nil, or_false] at hp
  rcases hp with rfl | rfl <;> norm_num

/-! ### C76, C77 -/

/-- A point of the trace on the unit sphere. -/
noncomputable abbrev Spec.pt (p : ℝ × ℝ) := CatUtil.Spec.spherePoint p.1 p.2

/-- Length of a path on a sphere of radius 6371 km. -/
noncomputable def Spec.pathLength : List (ℝ × ℝ) → ℝ
  | p :: q :: l => 6371 * angle (Spec.pt p) (Spec.pt q) + Spec.pathLength (q :: l)
  | _ => 0

theorem segment_eq (p q : ℝ × ℝ) : segment p q = 6371 * angle (Spec.pt p) (Spec.pt q) := by
  have h := CatUtil.haversine_eq_angle q.1 q.2 p.1 p.2 6371
  rw [angle_comm] at h
  rw [← h]
  simp only [segment, radians, CatUtil.haversine, pi_real, sin_real, cos_real, sqrt_real, atan2_real]
  have c1 : ∀ x : ℝ, x * (Real.pi / ((180 : ℕ) : ℝ)) = Real.pi / ((180 : ℕ) : ℝ) * x := fun x => mul_comm _ _
  simp only [c1]
  rw [show (2.0 : ℝ) = ((2 : ℕ) : ℝ) by norm_num, show (1.0 : ℝ) = ((1 : ℕ) : ℝ) by norm_num, show (6371.0 : ℝ) = 6371 by norm_num,
    mul_comm (Real.cos (Real.pi / ((180 : ℕ) : ℝ) * p.2)) (Real.cos (Real.pi / ((180 : ℕ) : ℝ) * q.2))]
  ring

theorem lengthGo_eq (l : List (ℝ × ℝ)) (acc : ℝ) : lengthGo acc l = acc + Spec.pathLength l := by
  induction l generalizing acc with
  | nil => simp [lengthGo, Spec.pathLength]
  | cons p l ih =>
    cases l with
    | nil => simp [lengthGo, Spec.pathLength]
    | cons q l => rw [lengthGo, ih, segment_eq, Spec.pathLength]; ring

/-- `get_length` is the length of the path on the sphere of radius 6371 km. -/
theorem C77_length (f : SimpleFault ℝ) : getLength f = Spec.pathLength f.trace := by
  rw [getLength, lengthGo_eq]; simp

theorem pathLength_nonneg (l : List (ℝ × ℝ)) : 0 ≤ Spec.pathLength l := by
  induction l with
  | nil => simp [Spec.pathLength]
  | cons p l ih =>
    cases l with
    | nil => simp [Spec.pathLength]
    | cons q l =>
      rw [Spec.pathLength]
      have := angle_nonneg (Spec.pt p) (Spec.pt q)
      positivity

/-- **C76**: dimensions of a constructed fault. -/
theorem C76_dimensions {trace : List (ℝ × ℝ)} {upp low dip : ℝ} {f : SimpleFault ℝ} (h : mkFault trace upp low dip = .ok f) :
    0 ≤ getLength f ∧ 0 < low - upp ∧ low - upp ≤ getWidth f ∧ (getWidth f = low - upp ↔ dip = 90) ∧ getArea f = getLength f * getWidth f ∧ 0 ≤ getArea f := by
  obtain ⟨⟨_, _, hu, hl, hd0, hd1⟩, rfl⟩ := mkFault_valid h
  have hpi := Real.pi_pos
  have hL : 0 ≤ getLength (⟨trace, upp, low, dip⟩ : SimpleFault ℝ) := by rw [C77_length]; exact pathLength_nonneg _
  have hang : dip * (Real.pi / 180) ≤ Real.pi / 2 := by nlinarith
  have hang0 : 0 < dip * (Real.pi / 180) := by positivity
  have hs : 0 < Real.sin (dip * (Real.pi / 180)) := Real.sin_pos_of_pos_of_lt_pi hang0 (by linarith)
  have hs1 := Real.sin_le_one (dip * (Real.pi / 180))
  have hw : getWidth (⟨trace, upp, low, dip⟩ : SimpleFault ℝ) = (low - upp) / Real.sin (dip * (Real.pi / 180)) := by
    simp only [getWidth, radians, sin_real, pi_real]; norm_num
  have hdiff : 0 < low - upp := by linarith
  have hwle : low - upp ≤ getWidth (⟨trace, upp, low, dip⟩ : SimpleFault ℝ) := by
    rw [hw, le_div_iff₀ hs]; nlinarith
  refine ⟨hL, hdiff, hwle, ?_, rfl, mul_nonneg hL (by linarith)⟩
  rw [hw, div_eq_iff hs.ne']
  constructor
  · intro he
    have h1 : Real.sin (dip * (Real.pi / 180)) = 1 := by
      have : (low - upp) * (1 - Real.sin (dip * (Real.pi / 180))) = 0 := by linarith
      rcases mul_eq_zero.mp this with h | h <;> linarith
    have : dip * (Real.pi / 180) = Real.pi / 2 := by
      have := Real.arcsin_sin (x := dip * (Real.pi / 180)) (by linarith) hang
      rw [h1, Real.arcsin_one] at this
      linarith
    have h2 : dip * Real.pi = 90 * Real.pi := by linarith
    exact mul_right_cancel₀ hpi.ne' h2
  · rintro rfl
    rw [show (90 : ℝ) * (Real.pi / 180) = Real.pi / 2 by ring, Real.sin_pi_div_two, mul_one]

theorem pathLength_split (l1 : List (ℝ × ℝ)) (p : ℝ × ℝ) (l2 : List (ℝ × ℝ)) :
    Spec.pathLength (l1 ++ p :: l2) = Spec.pathLength (l1 ++ [p]) + Spec.pathLength (p :: l2) := by
  induction l1 with
  | nil => simp [Spec.pathLength]
  | cons a l ih =>
    cases l with
    | nil => simp [Spec.pathLength]
    | cons b l =>
      simp only [List.cons_append, Spec.pathLength] at ih ⊢
      rw [ih]; ring

theorem pathLength_reverse (l : List (ℝ × ℝ)) : Spec.pathLength l.reverse = Spec.pathLength l := by
  induction l with
  | nil => rfl
  | cons a l ih =>
    cases l with
    | nil => rfl
    | cons b l =>
      rw [List.reverse_cons, List.reverse_cons, List.append_assoc, List.singleton_append, pathLength_split, ← List.reverse_cons, ih]
      simp only [Spec.pathLength]
      rw [angle_comm]; ring

theorem pathLength_ge (p : ℝ × ℝ) (l : List (ℝ × ℝ)) (q : ℝ × ℝ) (h : (p :: l).getLast? = some q) :
    6371 * angle (Spec.pt p) (Spec.pt q) ≤ Spec.pathLength (p :: l) := by
  induction l generalizing p with
  | nil =>
    simp only [List.getLast?_singleton, Option.some.injEq] at h
    subst h
    have hne : Spec.pt p ≠ 0 := by
      intro h
      have := CatUtil.norm_spherePoint p.1 p.2
      rw [show CatUtil.Spec.spherePoint p.1 p.2 = 0 from h, norm_zero] at this
      exact zero_ne_one this
    rw [angle_self hne]
    simp [Spec.pathLength]
  | cons a l ih =>
    have h' : (a :: l).getLast? = some q := by simpa [List.getLast?_cons_cons] using h
    have := ih a h'
    rw [Spec.pathLength]
    have ht := angle_le_angle_add_angle (Spec.pt p) (Spec.pt a) (Spec.pt q)
    linarith

/-- **C77**: the length does not depend on the direction of the trace. -/
theorem C77_direction (f : SimpleFault ℝ) : getLength { f with trace := f.trace.reverse } = getLength f := by
  rw [C77_length, C77_length]; exact pathLength_reverse _

/-- **C77**: the length adds up over a split of the trace at one of its points. -/
theorem C77_split (l1 l2 : List (ℝ × ℝ)) (p : ℝ × ℝ) (f : SimpleFault ℝ) (h : f.trace = l1 ++ p :: l2) :
    getLength f = getLength { f with trace := l1 ++ [p] } + getLength { f with trace := p :: l2 } := by
  simp only [C77_length, h]; exact pathLength_split _ _ _

/-- **C77**: the length is at least the distance of the end points. -/
theorem C77_end_points (f : SimpleFault ℝ) (p q : ℝ × ℝ) (hp : f.trace.head? = some p) (hq : f.trace.getLast? = some q) :
    6371 * angle (Spec.pt p) (Spec.pt q) ≤ getLength f := by
  rw [C77_length]
  cases hl : f.trace with
  | nil => rw [hl] at hp; simp at hp
  | cons a l =>
    rw [hl] at hp hq
    simp only [List.head?_cons, Option.some.injEq] at hp
    subst hp
    exact pathLength_ge _ _ _ hq

/-- Non-triviality: a trace of one degree along a meridian. -/
example : getLength (⟨[(10, 45), (10, 46)], 0, 10, 45⟩ : SimpleFault ℝ) = 6371 * (Real.pi / 180) := by
  rw [C77_length]
  simp only [Spec.pathLength, add_zero]
  rw [← CatUtil.haversine_eq_angle, CatUtil.haversine_meridian _ _ _ _ (by norm_num)]
  norm_num

/-! ### C78 -/

/-- The documented conditions on the parameters of a region. -/
def Spec.ValidRegion (models : List String) (mw sv sw dv dw : List ℝ) : Prop :=
  models.length = mw.length ∧ sv.length = sw.length ∧ dv.length = dw.length ∧ (∀ m ∈ models, m = "Peer" ∨ m = "WC1994") ∧ (∀ v ∈ sv, 0 < v) ∧ (∀ v ∈ dv, 0 < v) ∧
    mw.sum = 1 ∧ sw.sum = 1 ∧ dw.sum = 1

theorem reduceSum_real (l : List ℝ) (h : l ≠ []) : reduceSum l = .ok l.sum := by
  cases l with
  | nil => exact absurd rfl h
  | cons x l =>
    have : ∀ (l : List ℝ) (a : ℝ), l.foldl (· + ·) a = a + l.sum := by
      intro l
      induction l with
      | nil => simp
      | cons x l ih => intro a; rw [List.foldl_cons, ih, List.sum_cons, add_assoc]
    simp [reduceSum, this]

theorem ensure_ok {b : Bool} {u : Unit} : ensure b = .ok u ↔ b = true := by cases b <;> simp [ensure]

theorem bind_ok_iff {α β : Type} (x : Except PyErr α) (f : α → Except PyErr β) (b : β) : (x >>= f) = .ok b ↔ ∃ a, x = .ok a ∧ f a = .ok b := by
  cases x <;> simp [bind, Except.bind]

theorem reduceSum_ok {l : List ℝ} {a : ℝ} : reduceSum l = .ok a ↔ l ≠ [] ∧ l.sum = a := by
  by_cases h : l = []
  · subst h; simp [reduceSum]
  · rw [reduceSum_real l h]; simp [h]

theorem checkWeights_real (a b c : List ℝ) (u : Unit) : checkWeights a b c = .ok u ↔ a.sum = 1 ∧ b.sum = 1 ∧ c.sum = 1 := by
  unfold checkWeights
  simp only [bind_ok_iff, ensure_ok, reduceSum_ok, decEq_real, decide_eq_true_eq, exists_const]
  rw [show (1.0 : ℝ) = 1 by norm_num]
  have hne : ∀ l : List ℝ, l.sum = 1 → l ≠ [] := by rintro l h rfl; simp at h
  constructor
  · rintro ⟨x, ⟨_, rfl⟩, y, ⟨_, rfl⟩, z, ⟨_, rfl⟩, h1, h2, h3⟩
    exact ⟨h1, h2, h3⟩
  · rintro ⟨h1, h2, h3⟩
    exact ⟨_, ⟨hne _ h1, rfl⟩, _, ⟨hne _ h2, rfl⟩, _, ⟨hne _ h3, rfl⟩, h1, h2, h3⟩

theorem mkRegion_iff {id : String} {msr : WDict String ℝ} {smod dlr : WDict ℝ ℝ} {r : Region ℝ} :
    mkRegion id msr smod dlr = .ok r ↔ r = ⟨id, msr, smod, dlr⟩ ∧ ∃ models mw sv sw dv dw, msr.vals = some models ∧ msr.weight = some mw ∧ smod.vals = some sv ∧ smod.weight = some sw ∧
      dlr.vals = some dv ∧ dlr.weight = some dw ∧ Spec.ValidRegion models mw sv sw dv dw := by
  obtain ⟨mv, mw, mo⟩ := msr
  obtain ⟨sv, sw, so⟩ := smod
  obtain ⟨dv, dw, d_o⟩ := dlr
  rcases mv with _ | mv
  · simp [mkRegion, checkLen, WDict.getVals, bind, Except.bind]
  rcases mw with _ | mw
  · simp [mkRegion, checkLen, WDict.getVals, WDict.getWeight, bind, Except.bind]
  rcases sv with _ | sv
  · simp [mkRegion, checkLen, WDict.getVals, WDict.getWeight, bind_ok_iff]
  rcases sw with _ | sw
  · simp [mkRegion, checkLen, WDict.getVals, WDict.getWeight, bind_ok_iff]
  rcases dv with _ | dv
  · simp [mkRegion, checkLen, WDict.getVals, WDict.getWeight, bind_ok_iff]
  rcases dw with _ | dw
  · simp [mkRegion, checkLen, WDict.getVals, WDict.getWeight, bind_ok_iff]
  simp only [mkRegion, checkLen, WDict.getVals, WDict.getWeight, bind_ok_iff, ensure_ok, Except.ok.injEq, Option.some.injEq, exists_eq_left', exists_const, decide_eq_true_eq,
    checkWeights_real, pure, Except.pure, List.all_eq_true, supportedMsr, List.mem_cons, List.not_mem_nil, or_false, Nat.cast_zero, Spec.ValidRegion]
  constructor
  · rintro ⟨h1, h2, h3, h4, h5, h6, h7, h8⟩
    exact ⟨h8.symm, _, _, _, _, _, _, rfl, rfl, rfl, rfl, rfl, rfl, h1, h2, h3, h4, h5, h6, h7⟩
  · rintro ⟨h8, _, _, _, _, _, _, rfl, rfl, rfl, rfl, rfl, rfl, h1, h2, h3, h4, h5, h6, h7⟩
    exact ⟨h1, h2, h3, h4, h5, h6, h7, h8.symm⟩

/-- **C78**: a region is constructed exactly when the documented conditions hold. -/
theorem C78_region_validation (id : String) (models : List String) (mw sv sw dv dw : List ℝ) (o1 o2 o3 : Bool) :
    (∃ r, mkRegion id ⟨some models, some mw, o1⟩ ⟨some sv, some sw, o2⟩ ⟨some dv, some dw, o3⟩ = .ok r) ↔ Spec.ValidRegion models mw sv sw dv dw := by
  constructor
  · rintro ⟨r, h⟩
    obtain ⟨_, m, w, a, b, c, d, h1, h2, h3, h4, h5, h6, hv⟩ := mkRegion_iff.mp h
    simp only [Option.some.injEq] at h1 h2 h3 h4 h5 h6
    subst h1 h2 h3 h4 h5 h6
    exact hv
  · intro hv
    exact ⟨_, mkRegion_iff.mpr ⟨rfl, _, _, _, _, _, _, rfl, rfl, rfl, rfl, rfl, rfl, hv⟩⟩

/-- **C78**: the first values used by the fault calculator exist and are positive. -/
theorem C78_first_values {id : String} {msr : WDict String ℝ} {smod dlr : WDict ℝ ℝ} {r : Region ℝ} (h : mkRegion id msr smod dlr = .ok r) :
    ∃ s d, firstValue r.smod = .ok s ∧ firstValue r.dlr = .ok d ∧ 0 < s ∧ 0 < d := by
  obtain ⟨rfl, models, mw, sv, sw, dv, dw, h1, h2, h3, h4, h5, h6, hv⟩ := mkRegion_iff.mp h
  obtain ⟨_, l2, l3, _, p2, p3, _, w2, w3⟩ := hv
  rcases sv with _ | ⟨s, sv⟩
  · simp only [List.length_nil] at l2
    rw [List.length_eq_zero_iff.mp l2.symm] at w2
    simp at w2
  rcases dv with _ | ⟨d, dv⟩
  · simp only [List.length_nil] at l3
    rw [List.length_eq_zero_iff.mp l3.symm] at w3
    simp at w3
  refine ⟨s, d, ?_, ?_, p2 s (by simp), p3 d (by simp)⟩
  · simp [firstValue, WDict.getVals, h3, bind, Except.bind, pure, Except.pure]
  · simp [firstValue, WDict.getVals, h5, bind, Except.bind, pure, Except.pure]

/-- One of the two entries of a dictionary is missing. -/
def Spec.Incomplete {α : Type} (d : WDict α ℝ) : Prop := d.vals = none ∨ d.weight = none

/-- As many values as weights, if both are there. -/
def Spec.SameLength {α : Type} (d : WDict α ℝ) : Prop := ∀ v w, d.vals = some v → d.weight = some w → v.length = w.length

/-- **C78**: a dictionary without values or without weights is a `KeyError`, if the lengths of the others agree. -/
theorem C78_missing_entry (id : String) (msr : WDict String ℝ) (smod dlr : WDict ℝ ℝ) (h1 : Spec.SameLength msr) (h2 : Spec.SameLength smod) (h3 : Spec.SameLength dlr)
    (h : Spec.Incomplete msr ∨ Spec.Incomplete smod ∨ Spec.Incomplete dlr) : mkRegion id msr smod dlr = .error .keyError := by
  have key : ∀ {α : Type} (d : WDict α ℝ), Spec.SameLength d → (Spec.Incomplete d ∧ checkLen d = .error .keyError) ∨ (¬ Spec.Incomplete d ∧ checkLen d = .ok ()) := by
    rintro α ⟨v, w, o⟩ hd
    rcases v with _ | v
    · exact .inl ⟨.inl rfl, rfl⟩
    rcases w with _ | w
    · exact .inl ⟨.inr rfl, rfl⟩
    · refine .inr ⟨by simp [Spec.Incomplete], ?_⟩
      simp [checkLen, WDict.getVals, WDict.getWeight, bind, Except.bind, ensure, hd v w rfl rfl]
  unfold mkRegion
  rcases key msr h1 with ⟨_, k⟩ | ⟨n1, k⟩
  · simp [k, bind, Except.bind]
  rcases key smod h2 with ⟨_, k'⟩ | ⟨n2, k'⟩
  · simp [k, k', bind, Except.bind]
  rcases key dlr h3 with ⟨_, k''⟩ | ⟨n3, _⟩
  · simp [k, k', k'', bind, Except.bind]
  · rcases h with h | h | h
    · exact absurd h n1
    · exact absurd h n2
    · exact absurd h n3

/-- A region without the weights of the shear moduli. -/
example : mkRegion "r" ⟨some ["Peer"], some [1.0], false⟩ ⟨some [30], none, false⟩ ⟨some [1], some [(1 : ℝ)], false⟩ = .error .keyError :=
  C78_missing_entry _ _ _ _ (by rintro v w ⟨⟩ ⟨⟩; rfl) (by rintro v w _ ⟨⟩) (by rintro v w ⟨⟩ ⟨⟩; rfl) (.inr (.inl (.inr rfl)))

/-- A valid region with several values, from the documentation of `TectonicRegionBuilder`. -/
example : Spec.ValidRegion ["WC1994", "Peer"] [0.7, 0.3] [0.2, 0.4, 0.5] [0.2, 0.3, 0.5] [30] [1.0] := by
  refine ⟨rfl, rfl, rfl, by simp, ?_, ?_, by norm_num, by norm_num, by norm_num⟩
  · intro v hv
    simp only [List.mem_cons, List.not_mem_nil, or_false] at hv
    rcases hv with rfl | rfl | rfl <;> norm_num
  · simp

/-! ### C79 -/

/-- The documented constants: name, identifier, shear modulus (GPa) and displacement length ratio. -/
noncomputable def Spec.documented : List (String × String × ℝ × ℝ) :=
  [("Active Shallow Crust", "001", 30, 1.25e-5), ("Subduction Interface", "002", 49, 1.25e-5), ("Subction Intraslab", "003", 49, 1.25e-5),
   ("Stable Continental", "004", 29, 1e-4), ("Volcanic", "005", 29, 1.25e-5)]

theorem documented_eq : (regionDefaults : List (String × String × ℝ × ℝ)) = Spec.documented := by
  simp only [regionDefaults, Spec.documented]
  norm_num

theorem createByName_known {name id : String} {sm dl : ℝ} (hmem : (name, id, sm, dl) ∈ Spec.documented) (msr : Option (WDict String ℝ)) (smod dlr : Option (WDict ℝ ℝ)) :
    createByName name msr smod dlr = match mkRegion id (orDefault msr (single "WC1994")) (orDefault smod (single sm)) (orDefault dlr (single dl)) with
      | .error .keyError => .error .valueError
      | r => r := by
  have hf : (regionDefaults : List (String × String × ℝ × ℝ)).find? (fun e => e.1 == name) = some (name, id, sm, dl) := by
    rw [documented_eq]
    simp only [Spec.documented, List.mem_cons, Prod.mk.injEq, List.not_mem_nil, or_false] at hmem
    rcases hmem with h | h | h | h | h <;> obtain ⟨rfl, rfl, rfl, rfl⟩ := h <;> rfl
  simp only [createByName, hf]
  rcases mkRegion id (orDefault msr (single "WC1994")) (orDefault smod (single sm)) (orDefault dlr (single dl)) with e | r
  · cases e <;> rfl
  · rfl

theorem mem_positive {name id : String} {sm dl : ℝ} (hmem : (name, id, sm, dl) ∈ Spec.documented) : 0 < sm ∧ 0 < dl := by
  simp only [Spec.documented, List.mem_cons, Prod.mk.injEq, List.not_mem_nil, or_false] at hmem
  rcases hmem with h | h | h | h | h <;> obtain ⟨rfl, rfl, rfl, rfl⟩ := h <;> norm_num

/-- **C79**: a known name without overrides gives the documented constants. -/
theorem C79_defaults {name id : String} {sm dl : ℝ} (hmem : (name, id, sm, dl) ∈ Spec.documented) :
    createByName name none none none = .ok ⟨id, single "WC1994", single sm, single dl⟩ := by
  rw [createByName_known hmem]
  obtain ⟨h1, h2⟩ := mem_positive hmem
  have : mkRegion id (orDefault none (single "WC1994")) (orDefault none (single sm)) (orDefault none (single dl)) =
      .ok ⟨id, single "WC1994", single sm, single dl⟩ := by
    refine mkRegion_iff.mpr ⟨rfl, ["WC1994"], [1.0], [sm], [1.0], [dl], [1.0], rfl, rfl, rfl, rfl, rfl, rfl, ?_⟩
    refine ⟨rfl, rfl, rfl, by simp, by simpa using h1, by simpa using h2, by norm_num, by norm_num, by norm_num⟩
  rw [this]

/-- The dictionary in use: the given one, unless none is given or the given one has no key at all, in which case the default. -/
def Spec.InUse {α F : Type} (given : Option (WDict α F)) (dflt used : WDict α F) : Prop :=
  (∃ d, given = some d ∧ (d.vals ≠ none ∨ d.weight ≠ none ∨ d.other = true) ∧ used = d) ∨
    ((∀ d, given = some d → d.vals = none ∧ d.weight = none ∧ d.other = false) ∧ used = dflt)

theorem inUse_iff {α F : Type} [PyMath F] (given : Option (WDict α F)) (dflt used : WDict α F) : Spec.InUse given dflt used ↔ used = orDefault given dflt := by
  unfold Spec.InUse orDefault
  rcases given with _ | ⟨v, w, o⟩
  · simp
  · constructor
    · rintro (⟨d, ⟨⟩, h, rfl⟩ | ⟨h, rfl⟩)
      · have : WDict.truthy (WDict.mk v w o) = true := by cases v <;> cases w <;> cases o <;> simp_all [WDict.truthy]
        simp only [this, if_true]
      · obtain ⟨h1, h2, h3⟩ := h _ rfl
        simp only at h1 h2 h3
        subst h1 h2 h3
        rfl
    · by_cases ht : WDict.truthy (WDict.mk v w o) = true
      · simp only [ht, if_true]
        rintro rfl
        exact .inl ⟨_, rfl, by cases v <;> cases w <;> cases o <;> simp_all [WDict.truthy], rfl⟩
      · simp only [ht]
        rintro rfl
        refine .inr ⟨?_, rfl⟩
        rintro d ⟨⟩
        cases v <;> cases w <;> cases o <;> simp_all [WDict.truthy]

/-- **C79**: overriding parameters: success exactly when the resulting parameters are valid, otherwise not a `KeyError`; parameters not overridden have their default. -/
theorem C79_overrides {name id : String} {sm dl : ℝ} (hmem : (name, id, sm, dl) ∈ Spec.documented) (msr : Option (WDict String ℝ)) (smod dlr : Option (WDict ℝ ℝ)) (r : Region ℝ) :
    createByName name msr smod dlr = .ok r ↔
      r.id = id ∧ Spec.InUse msr (single "WC1994") r.msr ∧ Spec.InUse smod (single sm) r.smod ∧ Spec.InUse dlr (single dl) r.dlr ∧
        ∃ models mw sv sw dv dw, r.msr.vals = some models ∧ r.msr.weight = some mw ∧ r.smod.vals = some sv ∧ r.smod.weight = some sw ∧
          r.dlr.vals = some dv ∧ r.dlr.weight = some dw ∧ Spec.ValidRegion models mw sv sw dv dw := by
  rw [createByName_known hmem, inUse_iff, inUse_iff, inUse_iff]
  rcases hr : mkRegion id (orDefault msr (single "WC1994")) (orDefault smod (single sm)) (orDefault dlr (single dl)) with e | r'
  · have hne : ∀ r, ¬ mkRegion id (orDefault msr (single "WC1994")) (orDefault smod (single sm)) (orDefault dlr (single dl)) = .ok r := by intro r h; rw [hr] at h; simp at h
    constructor
    · intro h
      cases e <;> simp at h
    · rintro ⟨h1, h2, h3, h4, h5⟩
      refine absurd (mkRegion_iff.mpr ⟨rfl, ?_⟩) (hne _)
      rw [← h2, ← h3, ← h4]
      exact h5
  · obtain ⟨rfl, hv⟩ := mkRegion_iff.mp hr
    simp only [Except.ok.injEq]
    constructor
    · rintro rfl
      exact ⟨rfl, rfl, rfl, rfl, hv⟩
    · rintro ⟨h1, h2, h3, h4, _⟩
      obtain ⟨a, b, c, d⟩ := r
      simp only at h1 h2 h3 h4
      rw [h1, h2, h3, h4]

/-- **C79**: whatever the arguments, a missing key of a dictionary never surfaces as `KeyError`. -/
theorem C79_no_keyError {F : Type} [PyMath F] (name : String) (msr : Option (WDict String F)) (smod dlr : Option (WDict F F)) : createByName name msr smod dlr ≠ .error .keyError := by
  unfold createByName
  simp only
  split
  · simp
  · rename_i h
    intro hh
    exact h hh

/-- **C79**: any other name is refused with `ValueError`. -/
theorem C79_unknown {F : Type} [PyMath F] {name : String} (h : name ∉ ["Active Shallow Crust", "Subduction Interface", "Subction Intraslab", "Stable Continental", "Volcanic"])
    (msr : Option (WDict String F)) (smod dlr : Option (WDict F F)) : createByName name msr smod dlr = .error .valueError := by
  have : (regionDefaults : List (String × String × F × F)).find? (fun e => e.1 == name) = none := by
    simp only [List.mem_cons, List.not_mem_nil, or_false, not_or] at h
    obtain ⟨h1, h2, h3, h4, h5⟩ := h
    simp only [regionDefaults, List.find?_cons, beq_eq_false_iff_ne.mpr (Ne.symm h1), beq_eq_false_iff_ne.mpr (Ne.symm h2), beq_eq_false_iff_ne.mpr (Ne.symm h3),
      beq_eq_false_iff_ne.mpr (Ne.symm h4), beq_eq_false_iff_ne.mpr (Ne.symm h5), List.find?_nil]
  simp only [createByName, this]

/-- The correctly spelled name of the third region is among the refused ones. -/
example {F : Type} [PyMath F] : createByName "Subduction Intraslab" (none : Option (WDict String F)) none none = .error .valueError := C79_unknown (by decide) _ _ _

/-- An override: a volcanic region with shear modulus 40. -/
example : createByName "Volcanic" none (some (single (40 : ℝ))) none = .ok ⟨"005", single "WC1994", single 40, single 1.25e-5⟩ := by
  rw [C79_overrides (id := "005") (sm := 29) (dl := 1.25e-5) (by simp [Spec.documented])]
  refine ⟨rfl, .inr ⟨by simp, rfl⟩, .inl ⟨_, rfl, .inl (by simp [single]), rfl⟩, .inr ⟨by simp, rfl⟩, ["WC1994"], [1.0], [40], [1.0], [1.25e-5], [1.0], rfl, rfl, rfl, rfl, rfl, rfl, rfl, rfl, rfl, by simp, by simp, by simp; norm_num, by norm_num, by norm_num, by norm_num⟩

end Verif.Fault
