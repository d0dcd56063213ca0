import Verif.Model.Distances
import Verif.Lemmas.CatalogueUtilities

/-! # Distances between sets of locations (C103, C104) -/

namespace Verif.CatUtil

open Verif Spec InnerProductGeometry

/-! ### The loop over the second set -/

section
variable {F : Type} [PyMath F]

/-- The distance of two locations in radians, as the body of the loop computes it. -/
def radDistance (earthRad : F) (p q : F × F) : F :=
  let dlat := p.2 - q.2
  let dlon := p.1 - q.1
  let s1 := PyMath.sin (dlat / ((2 : ℕ) : F))
  let s2 := PyMath.sin (dlon / ((2 : ℕ) : F))
  let aval := s1 * s1 + PyMath.cos p.2 * PyMath.cos q.2 * (s2 * s2)
  ((2 : ℕ) : F) * earthRad * PyMath.atan2 (PyMath.sqrt aval) (PyMath.sqrt (((1 : ℕ) : F) - aval))

theorem okBind {α β : Type} (x : α) (f : α → Except PyErr β) : (Except.ok x >>= f) = f x := rfl

omit [PyMath F] in
theorem broadcast_same (f : F → F → F) (xs ys : List F) (h : xs.length = ys.length) : broadcast f xs ys = .ok (List.zipWith f xs ys) := by
  unfold broadcast
  exact if_pos h

theorem distanceColumn_ok (P Q : List (F × F)) (R : F) (i : ℕ) (q : F × F) (hq : Q[i]? = some q) :
    distanceColumn (P.map Prod.fst) (P.map Prod.snd) (Q.map Prod.fst) (Q.map Prod.snd) R i = .ok (P.map fun p => radDistance R p q) := by
  simp only [distanceColumn, List.getElem?_map, hq, Option.map_some, List.map_map]
  rw [okBind]
  rw [okBind]
  rw [broadcast_same _ _ _ (by simp)]
  rw [okBind]
  rw [broadcast_same _ _ _ (by simp)]
  rw [okBind]
  refine congrArg Except.ok ?_
  simp only [List.zipWith_map, List.zipWith_self, List.map_map]
  rfl

theorem zipWith_same {α β γ δ : Type} (f : β → γ → δ) (g : α → β) (h : α → γ) (l : List α) :
    List.zipWith f (l.map g) (l.map h) = l.map fun a => f (g a) (h a) := by
  rw [List.zipWith_map, List.zipWith_self]

theorem set_partial {α β : Type} (g : α → β) (z : β) (Q : List α) (k : ℕ) (q : α) (hq : Q[k]? = some q) :
    ((Q.take k).map g ++ List.replicate (Q.length - k) z).set k (g q) = (Q.take (k + 1)).map g ++ List.replicate (Q.length - (k + 1)) z := by
  obtain ⟨hk, hq⟩ := List.getElem?_eq_some_iff.mp hq
  have e : Q.length - k = (Q.length - (k + 1)) + 1 := by omega
  rw [List.set_append_right _ _ (by simp), e, List.replicate_succ]
  simp only [List.length_map, List.length_take, min_eq_left hk.le, Nat.sub_self, List.set_cons_zero]
  rw [List.take_add_one, List.getElem?_eq_getElem hk, hq]
  simp

theorem fold_columns (P Q : List (F × F)) (R : F) (k : ℕ) (hk : k ≤ Q.length) :
    (List.range k).foldlM (fun m i => do
      let v ← distanceColumn (P.map Prod.fst) (P.map Prod.snd) (Q.map Prod.fst) (Q.map Prod.snd) R i
      setColumn P.length m i v) (List.replicate P.length (List.replicate Q.length ((0 : ℕ) : F))) =
    .ok (P.map fun p => (Q.take k).map (radDistance R p) ++ List.replicate (Q.length - k) ((0 : ℕ) : F)) := by
  induction k with
  | zero =>
    simp only [List.range_zero, List.foldlM_nil, List.take_zero, List.map_nil, List.nil_append, Nat.sub_zero]
    refine congrArg Except.ok ?_
    rw [List.map_const']
  | succ k ih =>
    rw [List.range_succ, List.foldlM_append, ih (by omega)]
    simp only [List.foldlM_cons, List.foldlM_nil]
    have hq : Q[k]? = some (Q[k]'(by omega)) := List.getElem?_eq_getElem _
    rw [okBind, distanceColumn_ok P Q R k _ hq, okBind]
    have hs : ∀ (m : List (List F)) (v : List F), v.length = P.length → setColumn P.length m k v = .ok (List.zipWith (fun r x => r.set k x) m v) := by
      intro m v hv
      unfold setColumn
      exact if_pos hv
    rw [hs _ _ (by simp), zipWith_same]
    refine congrArg Except.ok (List.map_congr_left fun p _ => ?_)
    exact set_partial _ _ Q k _ hq

end

/-! ### Specification -/

namespace Spec

/-- The locations of an argument, when every location has both coordinates. -/
def points {F : Type} : Locs F → List (F × F)
  | .one lon lat => [(lon, lat)]
  | .many lon lat => lon.zip lat

/-- Every location has both coordinates. -/
def Paired {F : Type} : Locs F → Prop
  | .one _ _ => True
  | .many lon lat => lon.length = lat.length

/-- The point of the unit sphere with a longitude and a latitude in radians. -/
noncomputable def radPoint (lon lat : ℝ) : EuclideanSpace ℝ (Fin 3) :=
  !₂[Real.cos lat * Real.cos lon, Real.cos lat * Real.sin lon, Real.sin lat]

/-- The point of the unit sphere given in radians or in degrees. -/
noncomputable def pointOf (radians : Bool) (p : ℝ × ℝ) : EuclideanSpace ℝ (Fin 3) :=
  if radians then radPoint p.1 p.2 else spherePoint p.1 p.2

end Spec

theorem vectors_points {F : Type} (a : Locs F) (h : Paired a) : a.vectors = ((points a).map Prod.fst, (points a).map Prod.snd) := by
  cases a with
  | one lon lat => rfl
  | many lon lat =>
    simp only [Paired] at h
    simp only [Locs.vectors, points, List.map_fst_zip h.le, List.map_snd_zip h.ge]

section
variable {F : Type} [PyMath F]

theorem haversineMatrix_points (a b : Locs F) (ha : Paired a) (hb : Paired b) (R : F) :
    haversineMatrix a b true R = .ok ((points a).map fun p => (points b).map fun q => radDistance R p q) := by
  have h := fold_columns (points a) (points b) R (points b).length le_rfl
  simp only [haversineMatrix, if_true, vectors_points a ha, vectors_points b hb, List.length_map]
  rw [h]
  simp

theorem paired_toRadians (a : Locs F) (h : Paired a) : Paired a.toRadians := by
  cases a with
  | one => trivial
  | many lon lat => simpa [Paired, Locs.toRadians] using h

theorem points_toRadians (a : Locs F) : points a.toRadians =
    (points a).map fun p => (PyMath.pi / ((180 : ℕ) : F) * p.1, PyMath.pi / ((180 : ℕ) : F) * p.2) := by
  cases a with
  | one => rfl
  | many lon lat =>
    simp only [points, Locs.toRadians]
    rw [List.zip_map]
    rfl

/-- **C103** (pairs): for positions in degrees the entry in row `r` and column `c` is the distance of location `r` of the first set and
location `c` of the second, as the function of a single pair gives it, in any arithmetic. -/
theorem C103_pairs (a b : Locs F) (ha : Paired a) (hb : Paired b) (R : F) :
    haversineMatrix a b false R = .ok ((points a).map fun p => (points b).map fun q => haversine p.1 p.2 q.1 q.2 R) := by
  have h := haversineMatrix_points a.toRadians b.toRadians (paired_toRadians a ha) (paired_toRadians b hb) R
  have e : haversineMatrix a b false R = haversineMatrix a.toRadians b.toRadians true R := by
    simp only [haversineMatrix, if_true, Bool.false_eq_true, if_false]
  rw [e, h, points_toRadians, points_toRadians]
  simp only [List.map_map]
  rfl

/-- **C103** (unit): asking in degrees is asking in radians for the converted positions. -/
theorem C103_radians (a b : Locs F) (R : F) :
    haversineMatrix a b false R = haversineMatrix a.toRadians b.toRadians true R := by
  simp only [haversineMatrix, if_true, Bool.false_eq_true, if_false]

/-- **C103** (scalars): a scalar location counts as a set of one location. -/
theorem C103_scalar (lon lat : F) (b : Locs F) (radians : Bool) (R : F) :
    haversineMatrix (.one lon lat) b radians R = haversineMatrix (.many [lon] [lat]) b radians R ∧
    haversineMatrix b (.one lon lat) radians R = haversineMatrix b (.many [lon] [lat]) radians R := by
  cases radians <;> exact ⟨rfl, rfl⟩

end

theorem radPoint_degrees (lon lat : ℝ) : spherePoint lon lat = radPoint (Real.pi / 180 * lon) (Real.pi / 180 * lat) := rfl

theorem radDistance_real (R : ℝ) (p q : ℝ × ℝ) : radDistance R p q = R * angle (radPoint p.1 p.2) (radPoint q.1 q.2) := by
  have e : ∀ x : ℝ, Real.pi / 180 * (x * 180 / Real.pi) = x := fun x => by field_simp
  have h := haversine_eq_angle (p.1 * 180 / Real.pi) (p.2 * 180 / Real.pi) (q.1 * 180 / Real.pi) (q.2 * 180 / Real.pi) R
  rw [radPoint_degrees, radPoint_degrees, e, e, e, e] at h
  rw [← h]
  simp only [haversine, radDistance, pi_real, Nat.cast_ofNat, e]

/-- **C103.** For all sets of locations, in degrees or radians, and every radius, the result has one row for each location of the first
set and one column for each location of the second, and the entry is the radius times the angle between the two directions. -/
theorem C103_matrix (a b : Locs ℝ) (ha : Paired a) (hb : Paired b) (radians : Bool) (R : ℝ) :
    haversineMatrix a b radians R =
      .ok ((points a).map fun p => (points b).map fun q => R * angle (pointOf radians p) (pointOf radians q)) := by
  cases radians with
  | true =>
    rw [haversineMatrix_points a b ha hb]
    simp only [radDistance_real]
    rfl
  | false =>
    rw [C103_pairs a b ha hb]
    simp only [haversine_eq_angle]
    rfl

/-- **C103** (transposition): exchanging the two sets transposes the matrix. -/
theorem C103_transpose (a b : Locs ℝ) (ha : Paired a) (hb : Paired b) (radians : Bool) (R : ℝ) :
    ∃ M N, haversineMatrix a b radians R = .ok M ∧ haversineMatrix b a radians R = .ok N ∧
      ∀ r c : ℕ, (M[r]?.bind fun row => row[c]?) = (N[c]?.bind fun row => row[r]?) := by
  refine ⟨_, _, C103_matrix a b ha hb radians R, C103_matrix b a hb ha radians R, fun r c => ?_⟩
  simp only [List.getElem?_map]
  generalize points a = P
  generalize points b = Q
  cases hp : P[r]? <;> cases hq : Q[c]? <;> simp [hp, hq, angle_comm]

/-- Non-vacuity of C103: two places against one, a degree apart along a meridian. -/
example : Paired (Locs.many [(10 : ℝ), 10] [45, 46]) ∧ Paired (Locs.one (10 : ℝ) 45) ∧
    haversineMatrix (.many [(10 : ℝ), 10] [45, 46]) (.one 10 45) = .ok [[0], [6371.227 * (Real.pi / 180)]] := by
  refine ⟨rfl, trivial, ?_⟩
  rw [C103_pairs (.many [(10 : ℝ), 10] [45, 46]) (.one 10 45) rfl trivial]
  have h0 : haversine (10 : ℝ) 45 10 45 = 0 := by rw [haversine_meridian _ _ _ _ (by norm_num)]; norm_num
  have h1 : haversine (10 : ℝ) 46 10 45 = 6371.227 * (Real.pi / 180) := by
    rw [haversine_meridian _ _ _ _ (by norm_num), show |(46 : ℝ) - 45| = 1 by norm_num, mul_one]
  simp only [points, List.zip_cons_cons, List.zip_nil_right, List.map_cons, List.map_nil, h0, h1]

/-! ### C104 -/

/-- Statement of C104: locations without both coordinates are refused. -/
def Spec.Refuses (F : Type) [PyMath F] : Prop :=
  ∀ (a b : Locs F) (radians : Bool) (R : F), ¬ Paired a ∨ ¬ Paired b → ∃ e, haversineMatrix a b radians R = .error e

/-- **C104** (part that holds): a location of the second set without a latitude is refused, whatever the first set. -/
theorem C104_missing_latitude_partial {F : Type} [PyMath F] (a : Locs F) (lon lat : List F) (h : lat.length < lon.length) (radians : Bool)
    (R : F) : ∃ e, haversineMatrix a (.many lon lat) radians R = .error e := by
  suffices H : ∀ (lon1 lat1 lon lat : List F), lat.length < lon.length → ∀ m : List (List F), ∃ e,
      (List.range lon.length).foldlM (fun m i => do
        let v ← distanceColumn lon1 lat1 lon lat R i
        setColumn lon1.length m i v) m = .error e by
    cases radians with
    | true => exact H _ _ lon lat h _
    | false => exact H _ _ (lon.map _) (lat.map _) (by simpa using h) _
  intro lon1 lat1 lon lat h
  have e : List.range lon.length = List.range lat.length ++ lat.length :: (List.range (lon.length - (lat.length + 1))).map (lat.length + 1 + ·) := by
    conv_lhs => rw [show lon.length = lat.length + (1 + (lon.length - (lat.length + 1))) by omega, List.range_add, List.range_add]
    simp [Function.comp_def, Nat.add_assoc]
  intro m
  rw [e, List.foldlM_append]
  generalize (List.range lat.length).foldlM (m := Except PyErr) (fun m i => do
        let v ← distanceColumn lon1 lat1 lon lat R i
        setColumn lon1.length m i v) m = r
  cases r with
  | error e => exact ⟨e, rfl⟩
  | ok m =>
    refine ⟨.indexError, ?_⟩
    rw [okBind, List.foldlM_cons]
    have : distanceColumn lon1 lat1 lon lat R lat.length = .error .indexError := by
      simp only [distanceColumn, List.getElem?_eq_none le_rfl]
      rfl
    rw [this]
    rfl

/-- **C104** (part that holds): in the first set, numbers of longitudes and latitudes that differ are refused if there is not just one latitude (which would be used for
all longitudes) and the second set is not empty. -/
theorem C104_first_set_partial {F : Type} [PyMath F] (lon lat : List F) (h : lat.length ≠ lon.length) (h1 : lat.length ≠ 1) (b : Locs F)
    (hb : b.vectors.1 ≠ []) (radians : Bool) (R : F) : ∃ e, haversineMatrix (.many lon lat) b radians R = .error e := by
  have hbr : ∀ (f g : F → F → F) (xs ys zs : List F), xs.length = lat.length → ys.length = lon.length → zs.length = lat.length →
      (∃ e, (broadcast f xs ys >>= fun v => broadcast g zs v) = .error e) ∨
        ∃ v, (broadcast f xs ys >>= fun v => broadcast g zs v) = .ok v ∧ lon.length = 1 ∧ v.length = lat.length := by
    intro f g xs ys zs hx hy hz
    by_cases hl : lon.length = 1
    · match ys, hy.trans hl with
      | [y], _ =>
        have e1 : broadcast f xs [y] = .ok (xs.map fun x => f x y) := by
          unfold broadcast
          rw [if_neg (by rw [hx]; simpa using h1)]
          match xs, hx with
          | [], _ => rfl
          | [x], hx => exact absurd hx.symm h1
          | x :: x' :: xs, _ => rfl
        right
        refine ⟨List.zipWith g zs (xs.map fun x => f x y), ?_, hl, by simp [hx, hz]⟩
        rw [e1]
        show broadcast g zs _ = _
        unfold broadcast
        rw [if_pos (by simp [hx, hz])]
    · left
      refine ⟨.valueError, ?_⟩
      have e1 : broadcast f xs ys = .error .valueError := by
        unfold broadcast
        rw [if_neg (by rw [hx, hy]; exact h)]
        match xs, ys, hx, hy with
        | [x], _, hx, _ => exact absurd hx.symm h1
        | _, [y], _, hy => exact absurd hy.symm hl
        | [], [], _, _ => rfl
        | [], _ :: _ :: _, _, _ => rfl
        | _ :: _ :: _, [], _, _ => rfl
        | _ :: _ :: _, _ :: _ :: _, _, _ => rfl
      rw [e1]
      rfl
  suffices H : ∀ (lon1 lat1 lon2 lat2 : List F), lon1.length = lon.length → lat1.length = lat.length → lon2 ≠ [] → ∀ m : List (List F), ∃ e,
      (List.range lon2.length).foldlM (fun m i => do
        let v ← distanceColumn lon1 lat1 lon2 lat2 R i
        setColumn lon1.length m i v) m = .error e by
    cases radians with
    | true => exact H lon lat _ _ rfl rfl hb _
    | false =>
      refine H (lon.map _) (lat.map _) _ _ (by simp) (by simp) ?_ _
      cases b with
      | one lo la => exact List.cons_ne_nil _ _
      | many lo la => simpa [Locs.vectors, Locs.toRadians] using hb
  intro lon1 lat1 lon2 lat2 k1 k2 hne m
  match lon2, hne with
  | l :: ls, _ =>
    rw [List.length_cons, List.range_succ_eq_map, List.foldlM_cons]
    have : ∃ e, (do
        let v ← distanceColumn lon1 lat1 (l :: ls) lat2 R 0
        setColumn lon1.length m 0 v) = .error e := by
      unfold distanceColumn
      cases lat2 with
      | nil => exact ⟨_, rfl⟩
      | cons t ts =>
        rcases hbr (· * ·) (· + ·) (lat1.map fun l => PyMath.cos l * PyMath.cos t)
          ((lon1.map (· - l)).map fun d => PyMath.sin (d / ((2 : ℕ) : F)) * PyMath.sin (d / ((2 : ℕ) : F)))
          ((lat1.map (· - t)).map fun d => PyMath.sin (d / ((2 : ℕ) : F)) * PyMath.sin (d / ((2 : ℕ) : F)))
          (by simpa using k2) (by simpa using k1) (by simpa using k2) with ⟨e, he⟩ | ⟨v, hv, hl, hvl⟩
        · refine ⟨e, ?_⟩
          simp only [List.getElem?_cons_zero, bind, Except.bind] at he ⊢
          revert he
          cases broadcast (fun x y : F => x * y) _ _ with
          | error e' => rintro ⟨⟩; rfl
          | ok w =>
            simp only
            intro he
            rw [he]
        · refine ⟨.valueError, ?_⟩
          simp only [List.getElem?_cons_zero, bind, Except.bind] at hv ⊢
          revert hv
          cases broadcast (fun x y : F => x * y) _ _ with
          | error e' => rintro ⟨⟩
          | ok w =>
            simp only
            intro hv
            rw [hv]
            simp only
            unfold setColumn
            rw [if_neg (by rw [List.length_map, hvl, k1]; exact h)]
            match v, hvl with
            | [], _ => rfl
            | [x], hvl => exact absurd hvl.symm h1
            | _ :: _ :: _, _ => rfl
    obtain ⟨e, he⟩ := this
    exact ⟨e, by rw [he]; rfl⟩

/-- Non-vacuity: two longitudes and three latitudes. -/
example : ∃ e, haversineMatrix (.many [(0 : ℝ), 1] [0, 1, 2]) (.one 0 0) true 1 = .error e :=
  C104_first_set_partial _ _ (by simp) (by simp) (.one 0 0) (List.cons_ne_nil _ _) _ _

/-- **C104** (refuted): surplus latitudes of the second set are ignored. -/
theorem C104_fails : ¬ Spec.Refuses ℝ := by
  intro h
  obtain ⟨e, he⟩ := h (.one 0 0) (.many [0] [0, 1]) true 1 (.inr (by simp [Paired]))
  have : haversineMatrix (.one (0 : ℝ) 0) (.many [0] [0, 1]) true 1 = haversineMatrix (.one (0 : ℝ) 0) (.many [0] [0]) true 1 := rfl
  rw [this, C103_matrix (.one (0 : ℝ) 0) (.many [0] [0]) trivial rfl] at he
  cases he

/-- Non-vacuity of C104. -/
example : ([] : List ℝ).length < [(0 : ℝ)].length := by simp

end Verif.CatUtil
