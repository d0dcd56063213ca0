import Verif.Model.Declustering
import Verif.Lemmas.CatalogueUtilities

/-! # Declustering depends on relative positions and times only (C105) -/

namespace Verif.Declustering.Spec

open Verif.CatUtil.Spec InnerProductGeometry

/-- Two catalogues with the same magnitudes, the same angular distance of any two events, the same months and days, and years that
differ by a constant. -/
structure SameRelative {n : ℕ} (cat cat' : Fin n → Row ℝ) : Prop where
  magnitude : ∀ i, cat' i 5 = cat i 5
  distance : ∀ i j, angle (spherePoint (cat' i 3) (cat' i 4)) (spherePoint (cat' j 3) (cat' j 4)) =
    angle (spherePoint (cat i 3) (cat i 4)) (spherePoint (cat j 3) (cat j 4))
  time : ∃ c, ∀ i, cat' i 0 = cat i 0 + c ∧ cat' i 1 = cat i 1 ∧ cat' i 2 = cat i 2

/-- What a declustering says about the events: cluster numbers and flags. -/
def verdict {F : Type} {n : ℕ} (r : Result F n) : (Fin n → Int) × (Fin n → Int) := (r.vcl, r.flag)

end Verif.Declustering.Spec

namespace Verif.Declustering

open Verif Verif.CatUtil Verif.CatUtil.Spec Spec InnerProductGeometry

theorem decimalYear_later (y m d c : ℝ) : decimalYear (y + c) m d = (decimalYear y m d).map (· + c) := by
  simp only [decimalYear]
  cases pyIndex marker (truncZ (m - ((1 : ℕ) : ℝ))) with
  | error e => rfl
  | ok k =>
    refine congrArg Except.ok ?_
    ring

theorem decimalYears_later {n : ℕ} (y m d : Fin n → ℝ) (c : ℝ) :
    decimalYears (fun j => y j + c) m d = (decimalYears y m d).map fun t j => t j + c := by
  have hb : ∀ j, (decimalYear (y j + c) (m j) (d j)).toBool = (decimalYear (y j) (m j) (d j)).toBool := by
    intro j
    rw [decimalYear_later]
    cases decimalYear (y j) (m j) (d j) <;> rfl
  simp only [decimalYears, hb]
  split_ifs with h
  · refine congrArg Except.ok (funext fun j => ?_)
    rw [decimalYear_later]
    dsimp only
    cases decimalYear (y j) (m j) (d j) <;> rfl
  · rfl

section
variable {n : ℕ} {cat cat' : Fin n → Row ℝ}

theorem Spec.SameRelative.haversine (h : SameRelative cat cat') (i j : Fin n) :
    haversine (cat' i 3) (cat' i 4) (cat' j 3) (cat' j 4) = haversine (cat i 3) (cat i 4) (cat j 3) (cat j 4) := by
  rw [haversine_eq_angle, haversine_eq_angle, h.distance]

theorem Spec.SameRelative.years (h : SameRelative cat cat') : ∃ c : ℝ,
    decimalYears (fun j => cat' j 0) (fun j => cat' j 1) (fun j => cat' j 2) =
      (decimalYears (fun j => cat j 0) (fun j => cat j 1) (fun j => cat j 2)).map fun t j => t j + c := by
  obtain ⟨c, hc⟩ := h.time
  refine ⟨c, ?_⟩
  rw [← decimalYears_later]
  simp only [fun i => (hc i).1, fun i => (hc i).2.1, fun i => (hc i).2.2]

theorem gkStep_same (h : SameRelative cat cat') (p : Equiv.Perm (Fin n)) (t a b : Fin n → ℝ) (c fs : ℝ) (s : State n) (i : Fin n) :
    gkStep (cat' ∘ p) ((fun j => t j + c) ∘ p) a b fs s i = gkStep (cat ∘ p) (t ∘ p) a b fs s i := by
  simp only [gkStep, gkSel, Function.comp, h.haversine, add_sub_add_right_eq_sub]
  congr!

theorem afStep_same (h : SameRelative cat cat') (p : Equiv.Perm (Fin n)) (t a : Fin n → ℝ) (c tw : ℝ) (s : State n) (i : Fin n) :
    afStep (cat' ∘ p) ((fun j => t j + c) ∘ p) a tw s i = afStep (cat ∘ p) (t ∘ p) a tw s i := by
  have hs : afSel (cat' ∘ p) a s i = afSel (cat ∘ p) a s i := by
    simp only [afSel, Function.comp, h.haversine]
  simp only [afStep, hs, Function.comp, add_sub_add_right_eq_sub]

/-- **C105** (Gardner-Knopoff): catalogues that agree in the magnitudes, the mutual distances and the time differences get the same
cluster numbers and flags, or the same error. -/
theorem C105_gardner_knopoff (h : SameRelative cat cat') (opt : String) (fs : ℝ) (asc id1 : Equiv.Perm (Fin n)) :
    (gardnerKnopoff cat' opt fs asc id1).map verdict = (gardnerKnopoff cat opt fs asc id1).map verdict := by
  obtain ⟨c, hc⟩ := h.years
  simp only [gardnerKnopoff, hc, h.magnitude]
  cases decimalYears (fun j => cat j 0) (fun j => cat j 1) (fun j => cat j 2) with
  | error e => rfl
  | ok t =>
    cases timeDistWindow (F := ℝ) opt with
    | error e => rfl
    | ok win =>
      have hl : ∀ a b : Fin n → ℝ, gkLoop (cat' ∘ flipud asc) ((fun j => t j + c) ∘ flipud asc) a b fs =
          gkLoop (cat ∘ flipud asc) (t ∘ flipud asc) a b fs := by
        intro a b
        simp only [gkLoop]
        congr 1
        funext s i
        exact gkStep_same h _ t a b c fs s i
      simp only [Except.map, bind, Except.bind, verdict, hl]

/-- **C105** (Afteran). -/
theorem C105_afteran (h : SameRelative cat cat') (opt : String) (tw : ℝ) (asc id1 : Equiv.Perm (Fin n)) :
    (afteran cat' opt tw asc id1).map verdict = (afteran cat opt tw asc id1).map verdict := by
  obtain ⟨c, hc⟩ := h.years
  simp only [afteran, hc, h.magnitude]
  cases decimalYears (fun j => cat j 0) (fun j => cat j 1) (fun j => cat j 2) with
  | error e => rfl
  | ok t =>
    cases timeDistWindow (F := ℝ) opt with
    | error e => rfl
    | ok win =>
      have hl : ∀ (a : Fin n → ℝ) (w : ℝ), afLoop (cat' ∘ flipud asc) ((fun j => t j + c) ∘ flipud asc) a w =
          afLoop (cat ∘ flipud asc) (t ∘ flipud asc) a w := by
        intro a w
        simp only [afLoop]
        congr 1
        funext s i
        exact afStep_same h _ t a c w s i
      simp only [Except.map, bind, Except.bind, hl]
      cases afLoop (cat ∘ flipud asc) (t ∘ flipud asc) ((fun j => (win (cat j 5)).1) ∘ flipud asc) (tw / ((365 : ℕ) : ℝ)) <;> rfl

end

/-! ### Displacements that keep the relative positions -/

namespace Spec

/-- The row with another longitude, latitude and year. -/
def moved (row : Row ℝ) (lon lat year : ℝ) : Row ℝ := fun k => if k = 3 then lon else if k = 4 then lat else if k = 0 then year else row k

end Spec

theorem moved_same {n : ℕ} (cat : Fin n → Row ℝ) (lon lat : Fin n → ℝ) (c : ℝ)
    (h : ∀ i j, angle (spherePoint (lon i) (lat i)) (spherePoint (lon j) (lat j)) =
      angle (spherePoint (cat i 3) (cat i 4)) (spherePoint (cat j 3) (cat j 4))) :
    SameRelative cat fun i => moved (cat i) (lon i) (lat i) (cat i 0 + c) where
  magnitude i := by simp [moved]
  distance i j := by simpa [moved] using h i j
  time := ⟨c, fun i => by simp [moved]⟩

/-- A position written with another representative of the longitude is the same point of the sphere. -/
theorem spherePoint_wrap (lon lat : ℝ) (k : ℤ) : spherePoint (lon + 360 * k) lat = spherePoint lon lat := by
  have e : Real.pi / 180 * (lon + 360 * k) = Real.pi / 180 * lon + k * (2 * Real.pi) := by ring
  simp only [spherePoint, e, Real.cos_add_int_mul_two_pi, Real.sin_add_int_mul_two_pi]

theorem angle_eq_of_inner {x y x' y' : EuclideanSpace ℝ (Fin 3)} (hx : ‖x'‖ = ‖x‖) (hy : ‖y'‖ = ‖y‖)
    (h : inner ℝ x' y' = inner ℝ x y) : angle x' y' = angle x y := by
  simp only [angle, hx, hy, h]

theorem inner_spherePoint (lon1 lat1 lon2 lat2 : ℝ) : inner ℝ (spherePoint lon1 lat1) (spherePoint lon2 lat2) =
    Real.cos (Real.pi / 180 * lat1) * Real.cos (Real.pi / 180 * lat2) * Real.cos (Real.pi / 180 * (lon1 - lon2)) +
      Real.sin (Real.pi / 180 * lat1) * Real.sin (Real.pi / 180 * lat2) := by
  rw [mul_sub, Real.cos_sub]
  simp only [spherePoint, PiLp.inner_apply, Fin.sum_univ_three, RCLike.inner_apply, conj_trivial]
  simp
  ring

theorem same_wrap {n : ℕ} (cat : Fin n → Row ℝ) (k : Fin n → ℤ) :
    SameRelative cat fun i => moved (cat i) (cat i 3 + 360 * k i) (cat i 4) (cat i 0) := by
  have := moved_same cat (fun i => cat i 3 + 360 * k i) (fun i => cat i 4) 0 (fun i j => by simp only [spherePoint_wrap])
  simpa using this

theorem same_rotation {n : ℕ} (cat : Fin n → Row ℝ) (c : ℝ) :
    SameRelative cat fun i => moved (cat i) (cat i 3 + c) (cat i 4) (cat i 0) := by
  have := moved_same cat (fun i => cat i 3 + c) (fun i => cat i 4) 0 (fun i j => by
    refine angle_eq_of_inner ?_ ?_ ?_ <;> simp only [norm_spherePoint, inner_spherePoint, add_sub_add_right_eq_sub])
  simpa using this

theorem same_mirror {n : ℕ} (cat : Fin n → Row ℝ) :
    SameRelative cat fun i => moved (cat i) (cat i 3) (-cat i 4) (cat i 0) := by
  have := moved_same cat (fun i => cat i 3) (fun i => -cat i 4) 0 (fun i j => by
    refine angle_eq_of_inner ?_ ?_ ?_ <;>
      simp only [norm_spherePoint, inner_spherePoint, mul_neg, Real.cos_neg, Real.sin_neg, neg_mul, neg_neg])
  simpa using this

theorem same_years {n : ℕ} (cat : Fin n → Row ℝ) (c : ℝ) :
    SameRelative cat fun i => moved (cat i) (cat i 3) (cat i 4) (cat i 0 + c) :=
  moved_same cat _ _ c fun _ _ => rfl

/-- **C105** (displacements): cluster numbers and flags of both algorithms stay the same when the longitudes are written with other
representatives modulo 360 degrees (the date line is no border), when the whole catalogue is turned around the axis of the earth, when
north and south are exchanged, and when all events are moved by a number of years. -/
theorem C105_displacements {n : ℕ} (cat : Fin n → Row ℝ) (k : Fin n → ℤ) (c : ℝ) (opt : String) (x : ℝ) (asc id1 : Equiv.Perm (Fin n)) :
    ∀ cat' ∈ ({fun i => moved (cat i) (cat i 3 + 360 * k i) (cat i 4) (cat i 0), fun i => moved (cat i) (cat i 3 + c) (cat i 4) (cat i 0),
        fun i => moved (cat i) (cat i 3) (-cat i 4) (cat i 0), fun i => moved (cat i) (cat i 3) (cat i 4) (cat i 0 + c)} : Set (Fin n → Row ℝ)),
      (gardnerKnopoff cat' opt x asc id1).map verdict = (gardnerKnopoff cat opt x asc id1).map verdict ∧
      (afteran cat' opt x asc id1).map verdict = (afteran cat opt x asc id1).map verdict := by
  have H : ∀ cat', SameRelative cat cat' → (gardnerKnopoff cat' opt x asc id1).map verdict = (gardnerKnopoff cat opt x asc id1).map verdict ∧
      (afteran cat' opt x asc id1).map verdict = (afteran cat opt x asc id1).map verdict :=
    fun _ h => ⟨C105_gardner_knopoff h .., C105_afteran h ..⟩
  rintro cat' (h | h | h | h) <;> subst h
  · exact H _ (same_wrap cat k)
  · exact H _ (same_rotation cat c)
  · exact H _ (same_mirror cat)
  · exact H _ (same_years cat c)

/-- Non-vacuity of C105: the two sides of the date line.  An event at 179.9 degrees and one at -179.9 degrees are treated as events at
179.9 and 180.1 degrees. -/
example : ∃ cat : Fin 2 → Row ℝ, cat 0 3 = 179.9 ∧ cat 1 3 = -179.9 ∧
    SameRelative cat fun i => moved (cat i) (if i = 0 then 179.9 else 180.1) (cat i 4) (cat i 0) := by
  refine ⟨fun i => moved (fun _ => 1) (if i = 0 then 179.9 else -179.9) 45 2000, by simp [moved], by simp [moved], ?_⟩
  convert same_wrap (fun i : Fin 2 => moved (fun _ => 1) (if i = 0 then 179.9 else -179.9) 45 2000) (fun i => if i = 0 then 0 else 1) using 3 with i
  fin_cases i <;> simp [moved]
  norm_num

end Verif.Declustering
