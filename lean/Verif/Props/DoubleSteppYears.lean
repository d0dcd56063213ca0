import Verif.Props.DoubleStored

/-!
# C200: the years of Stepp's table in double precision
-/

namespace Verif.Completeness

open Verif Verif.Np Verif.Dbl
open Verif.Completeness.Spec (quake)

namespace Spec

/-- First and last year of a catalogue of whole years. -/
def Years (ev : List (Dbl × Dbl)) (first last : ℤ) : Prop :=
  IsLeast {z : ℤ | ∃ e ∈ ev, e.1.val = z} first ∧ IsGreatest {z : ℤ | ∃ e ∈ ev, e.1.val = z} last

end Spec

open Verif.Completeness.Spec (Years)

theorem steppBins_range {F : Type} [PyMath F] {ev : List (F × F)} {dm dt : F} {b : SteppBins F} (hb : steppBins ev dm dt = .ok b) :
    ∃ y0 y1, npMin (ev.map Prod.fst) = .ok y0 ∧ npMax (ev.map Prod.fst) = .ok y1 ∧ b.endTime = y1 ∧ b.nt = arangeLen dt (y1 - y0 + ((2 : ℕ) : F)) dt := by
  have e : (ev.map fun e => (e.1, around2 e.2)).map Prod.fst = ev.map Prod.fst := by simp [Function.comp_def]
  unfold steppBins at hb
  simp only [e, bind, Except.bind, pure, Except.pure, throw, throwThe, MonadExceptOf.throw] at hb
  repeat' split at hb
  all_goals first | (cases hb; done) | (cases hb; refine ⟨_, _, ?_, ?_, rfl, rfl⟩ <;> assumption)

theorem stepp_times {F : Type} [PyMath F] {ev : List (F × F)} {dm dt ttol : F} {iloc : Bool} {table : List (F × F)} (h : stepp ev dm dt ttol iloc = .ok table) :
    ∃ b, steppBins ev dm dt = .ok b ∧ ∀ r ∈ table, ∃ t < b.nt, r.1 = b.endTime - arangeAt dt dt t := by
  obtain ⟨b, hb, -, -⟩ := stepp_length h
  refine ⟨b, hb, fun r hr => ?_⟩
  rw [stepp_eq hb] at h
  simp only at h
  generalize steppTlocs iloc b.nt none ((List.range b.nb).map (fun jj => steppLoc (exceeding (fun ii => b.obs ii jj) b.timeRange b.nt ttol))) = ts at h
  split_ifs at h with hlt
  rw [Except.ok.injEq] at h
  subst h
  obtain ⟨i, hi, rfl⟩ := List.getElem_of_mem hr
  simp only [List.length_zipWith] at hi
  refine ⟨ts[i], hlt _ (List.getElem_mem _), ?_⟩
  simp only [List.getElem_zipWith, Recurrence.steppBins_time hb]

/-- A whole number. -/
theorem whole {n : ℤ} (h : |n| ≤ 10 ^ 12) : rnd53 (n : ℚ) = n := rnd53_int (h.trans (by norm_num))

theorem nat_val {n : ℕ} (h : n ≤ 10 ^ 12) : ((n : ℕ) : Dbl).val = n := val_nat_exact (h.trans (by norm_num))

theorem arange_whole {dt k : ℕ} (h : (k + 1) * dt ≤ 10 ^ 8) (hk : k ≤ 10 ^ 8) (hdt : dt ≤ 10 ^ 6) : (arangeAt (dt : Dbl) (dt : Dbl) k).val = ((k : ℚ) + 1) * dt := by
  have e1 : ((dt : ℕ) : Dbl).val = dt := nat_val (hdt.trans (by norm_num))
  have e2 : ((dt : Dbl) + (dt : Dbl)).val = ((2 * dt : ℕ) : ℚ) := by
    rw [val_add, e1, show ((dt : ℚ) + dt) = ((2 * dt : ℤ) : ℚ) by push_cast; ring, whole (by rw [abs_of_nonneg (by positivity)]; omega)]
    push_cast; ring
  have e3 : ((dt : Dbl) + (dt : Dbl) - (dt : Dbl)).val = dt := by
    rw [val_sub, e1, e2, show (((2 * dt : ℕ) : ℚ) - dt) = ((dt : ℤ) : ℚ) by push_cast; ring, whole (by rw [abs_of_nonneg (by positivity)]; omega)]
    push_cast; ring
  have hkd : k * dt ≤ 10 ^ 8 := le_trans (Nat.mul_le_mul_right _ (Nat.le_succ k)) h
  have e4 : ((k : Dbl) * ((dt : Dbl) + (dt : Dbl) - (dt : Dbl))).val = ((k * dt : ℕ) : ℚ) := by
    rw [val_mul, e3, nat_val (hk.trans (by norm_num)), show ((k : ℚ) * dt) = ((k * dt : ℤ) : ℚ) by push_cast; ring,
      whole (by rw [abs_of_nonneg (by positivity)]; exact_mod_cast hkd.trans (by norm_num))]
    push_cast; ring
  unfold arangeAt
  rw [val_add, e4, e1, show ((dt : ℚ) + ((k * dt : ℕ) : ℚ)) = (((k + 1) * dt : ℤ) : ℚ) by push_cast; ring,
    whole (by rw [abs_of_nonneg (by positivity)]; exact_mod_cast h.trans (by norm_num))]
  push_cast; ring

/-- The number of time steps is that of exact arithmetic. -/
theorem time_steps {y0 y1 : Dbl} {a b : ℤ} (h0 : y0.val = a) (h1 : y1.val = b) (ha : |a| ≤ 10 ^ 6) (hb : |b| ≤ 10 ^ 6) {dt : ℕ} (hdt : 0 < dt) (hdt' : dt ≤ 10 ^ 6) (k : ℕ) :
    k < arangeLen (dt : Dbl) (y1 - y0 + ((2 : ℕ) : Dbl)) (dt : Dbl) ↔ ((k : ℤ) + 1) * dt < b - a + 2 := by
  obtain ⟨a1, a2⟩ := abs_le.1 ha
  obtain ⟨b1, b2⟩ := abs_le.1 hb
  have e1 : ((dt : ℕ) : Dbl).val = dt := nat_val (hdt'.trans (by norm_num))
  have e2 : (y1 - y0).val = ((b - a : ℤ) : ℚ) := by
    rw [val_sub, h0, h1, show ((b : ℚ) - a) = ((b - a : ℤ) : ℚ) by push_cast; ring, whole (abs_le.2 ⟨by omega, by omega⟩)]
  have e3 : (y1 - y0 + ((2 : ℕ) : Dbl)).val = ((b - a + 2 : ℤ) : ℚ) := by
    rw [val_add, e2, nat_val (by norm_num), show ((b - a : ℤ) : ℚ) + ((2 : ℕ) : ℚ) = ((b - a + 2 : ℤ) : ℚ) by push_cast; ring, whole (abs_le.2 ⟨by omega, by omega⟩)]
  obtain ⟨c, hc⟩ : ∃ c : ℤ, c = b - a + 2 - dt := ⟨_, rfl⟩
  have e4 : (y1 - y0 + ((2 : ℕ) : Dbl) - (dt : Dbl)).val = c := by
    rw [val_sub, e3, e1, show ((b - a + 2 : ℤ) : ℚ) - (dt : ℚ) = ((c : ℤ) : ℚ) by rw [hc]; push_cast; ring, whole (abs_le.2 ⟨by omega, by omega⟩)]
  have e5 : arangeLen (dt : Dbl) (y1 - y0 + ((2 : ℕ) : Dbl)) (dt : Dbl) = ⌈rnd53 ((c : ℚ) / dt)⌉.toNat := by
    unfold arangeLen
    rw [ceilZ_def, val_div, e4, e1]
  have hd : (0 : ℚ) < dt := by exact_mod_cast hdt
  have hd' : (dt : ℚ) ≤ 10 ^ 6 := by exact_mod_cast hdt'
  rw [e5, Int.lt_toNat, Int.lt_ceil]
  have goal : ((k : ℤ) + 1) * dt < b - a + 2 ↔ (k : ℤ) * dt < c := by rw [hc]; constructor <;> intro h <;> linarith
  rw [goal]
  constructor
  · intro h
    by_contra hn
    have hn : (c : ℚ) ≤ k * dt := by exact_mod_cast not_lt.1 hn
    have g1 : (c : ℚ) / dt ≤ k := by rwa [div_le_iff₀ hd]
    have g2 : ⌈(c : ℚ) / dt⌉ ≤ k := Int.ceil_le.2 (by exact_mod_cast g1)
    have cb : |(c : ℚ) / dt| ≤ 10 ^ 7 := by
      rw [abs_div, abs_of_pos hd, div_le_iff₀ hd]
      have : |(c : ℚ)| ≤ 10 ^ 7 := by
        rw [← Int.cast_abs]
        exact_mod_cast abs_le.2 ⟨by omega, by omega⟩
      have one : (1 : ℚ) ≤ dt := by exact_mod_cast hdt
      nlinarith
    obtain ⟨cb1, cb2⟩ := abs_le.1 cb
    have g3 : |⌈(c : ℚ) / dt⌉| ≤ 10 ^ 12 := by
      have u1 := Int.le_ceil ((c : ℚ) / dt)
      have u2 := Int.ceil_lt_add_one ((c : ℚ) / dt)
      have v1 : ((-(10 ^ 12) : ℤ) : ℚ) ≤ ⌈(c : ℚ) / dt⌉ := by push_cast; linarith
      have v2 : (⌈(c : ℚ) / dt⌉ : ℚ) ≤ ((10 ^ 12 : ℤ) : ℚ) := by push_cast; linarith
      exact abs_le.2 ⟨by exact_mod_cast v1, by exact_mod_cast v2⟩
    have g4 := rnd53_mono (Int.le_ceil ((c : ℚ) / dt))
    rw [whole g3] at g4
    have g5 : ((⌈(c : ℚ) / dt⌉ : ℤ) : ℚ) ≤ ((k : ℤ) : ℚ) := by exact_mod_cast g2
    linarith
  · intro h
    have hk : ((k : ℚ) * dt + 1) ≤ c := by exact_mod_cast h
    have hc7 : (c : ℚ) ≤ 10 ^ 7 := by exact_mod_cast (by omega : c ≤ 10 ^ 7)
    have hk0 : (0 : ℚ) ≤ k := by positivity
    have hc0 : (0 : ℚ) ≤ c := by nlinarith
    have err := (abs_le.1 (rnd53_error ((c : ℚ) / dt))).1
    rw [abs_of_nonneg (div_nonneg hc0 hd.le)] at err
    have g : (k : ℚ) + 1 / dt ≤ c / dt := by
      rw [show (k : ℚ) + 1 / dt = (k * dt + 1) / dt by field_simp]
      exact div_le_div_of_nonneg_right hk hd.le
    have g2 : (c : ℚ) / dt / 2 ^ 53 < 1 / dt := by
      rw [div_div, mul_comm, ← div_div, div_lt_div_iff_of_pos_right hd]
      exact lt_of_le_of_lt (div_le_div_of_nonneg_right hc7 (by norm_num)) (by norm_num)
    show ((k : ℤ) : ℚ) < _
    push_cast
    linarith

theorem npMin_year {ev : List (Dbl × Dbl)} {y0 y1 : Dbl} (h0 : npMin (ev.map Prod.fst) = .ok y0) (h1 : npMax (ev.map Prod.fst) = .ok y1) {first last : ℤ}
    (hy : Years ev first last) (hw : ∀ e ∈ ev, ∃ z : ℤ, e.1.val = z) : y0.val = first ∧ y1.val = last := by
  obtain ⟨⟨⟨e0, m0, v0⟩, l0⟩, ⟨e1, m1, v1⟩, l1⟩ := hy
  obtain ⟨a1, a2⟩ := npMin_spec h0
  obtain ⟨b1, b2⟩ := npMax_spec h1
  obtain ⟨f0, hf0, rfl⟩ := List.mem_map.1 a1
  obtain ⟨f1, hf1, rfl⟩ := List.mem_map.1 b1
  obtain ⟨z0, hz0⟩ := hw _ hf0
  obtain ⟨z1, hz1⟩ := hw _ hf1
  constructor
  · refine le_antisymm (v0 ▸ a2 _ (List.mem_map_of_mem m0)) ?_
    rw [hz0]
    exact_mod_cast l0 ⟨f0, hf0, hz0⟩
  · refine le_antisymm ?_ (v1 ▸ b2 _ (List.mem_map_of_mem m1))
    rw [hz1]
    exact_mod_cast l1 ⟨f1, hf1, hz1⟩

section
variable [Libm]

/-- **C200**: with whole years and a whole time step, every year of the table in double precision is exactly the last year minus one of the durations `dt`, `2 dt`, ..., of
which the longest is at most the length of the catalogue plus one year. -/
theorem C200_years {ev : List (Dbl × Dbl)} (hw : ∀ e ∈ ev, ∃ z : ℤ, |z| ≤ 10 ^ 6 ∧ e.1.val = z) {first last : ℤ} (hy : Years ev first last) {dt : ℕ} (hdt : 0 < dt)
    (hdt' : dt ≤ 10 ^ 6) {dm ttol : Dbl} {iloc : Bool} {table : List (Dbl × Dbl)} (h : stepp ev dm (dt : Dbl) ttol iloc = .ok table) :
    ∀ r ∈ table, ∃ k : ℕ, r.1.val = ((last - (k + 1) * dt : ℤ) : ℚ) ∧ ((k : ℤ) + 1) * dt ≤ last - first + 1 := by
  obtain ⟨b, hb, hr⟩ := stepp_times h
  obtain ⟨y0, y1, m0, m1, he, hn⟩ := steppBins_range hb
  obtain ⟨v0, v1⟩ := npMin_year m0 m1 hy fun e he => ⟨_, (hw e he).choose_spec.2⟩
  have bound : ∀ z : ℤ, (∃ e ∈ ev, e.1.val = z) → |z| ≤ 10 ^ 6 := by
    rintro z ⟨e, hm, hz⟩
    obtain ⟨z', hb, hz'⟩ := hw e hm
    have : z = z' := by exact_mod_cast hz.symm.trans hz'
    rw [this]; exact hb
  have B0 := bound _ hy.1.1
  have B1 := bound _ hy.2.1
  obtain ⟨a1, a2⟩ := abs_le.1 B0
  obtain ⟨b1, b2⟩ := abs_le.1 B1
  intro r hm
  obtain ⟨k, hk, hv⟩ := hr r hm
  rw [hn, time_steps v0 v1 B0 B1 hdt hdt'] at hk
  refine ⟨k, ?_, by omega⟩
  have hkd : (((k + 1) * dt : ℕ) : ℤ) ≤ 10 ^ 8 := by push_cast; linarith
  have hkd : (k + 1) * dt ≤ 10 ^ 8 := by exact_mod_cast hkd
  have hk8 : k ≤ 10 ^ 8 := le_trans (Nat.le_succ k) (le_trans (Nat.le_mul_of_pos_right _ hdt) hkd)
  have hkz : (0 : ℤ) ≤ ((k : ℤ) + 1) * dt := by positivity
  rw [hv, val_sub, he, v1, arange_whole hkd hk8 hdt', show (last : ℚ) - ((k : ℚ) + 1) * dt = ((last - (k + 1) * dt : ℤ) : ℚ) by push_cast; ring,
    whole (abs_le.2 ⟨by omega, by omega⟩)]

/-- **C200**: with the increment lock the years do not increase and the magnitudes increase along the table. -/
theorem C200_lock {ev : List (Dbl × ℤ)} (hk : ∀ e ∈ ev, |e.2| ≤ 1000) {q : ℚ} (q0 : 1 / 1000 ≤ q) (q1 : q ≤ 10) {dt ttol : Dbl} (hdt : 0 ≤ dt) {table : List (Dbl × Dbl)}
    (h : stepp (ev.map quake) (Dbl.of q) dt ttol true = .ok table) : table.Pairwise fun c d => d.1 ≤ c.1 ∧ c.2 < d.2 := by
  obtain ⟨lo, hi, -, -, -, hm, -⟩ := C170_rows_partial hk q0 q1 h
  rw [List.pairwise_iff_getElem]
  intro i j hi hj hij
  refine ⟨Recurrence.lock_years (by have := le_def.1 hdt; rwa [val_zero] at this) h i j hi hj hij.le, lt_def.2 ?_⟩
  have h1 := (abs_le.1 (hm i hi)).2
  have h2 := (abs_le.1 (hm j hj)).1
  have h3 : (i : ℚ) + 1 ≤ j := by exact_mod_cast hij
  have h4 : ((i : ℚ) + 1) * q ≤ j * q := mul_le_mul_of_nonneg_right h3 (by linarith)
  norm_num at h1 h2
  linarith

/-- The magnitudes of the rows do not exceed the largest one (rounded up to a tenth). -/
theorem rows_bound {ev : List (Dbl × ℤ)} (hk : ∀ e ∈ ev, |e.2| ≤ 990) {d : ℤ} (d0 : 1 ≤ d) (d1 : d ≤ 100) {dt ttol : Dbl} {iloc : Bool} {table : List (Dbl × Dbl)}
    (h : stepp (ev.map quake) (Dbl.of (d / 10)) dt ttol iloc = .ok table) : ∀ r ∈ table, |r.2.val| ≤ 10 := by
  have dq0 : (1 : ℚ) ≤ d := by exact_mod_cast d0
  have dq1 : (d : ℚ) ≤ 100 := by exact_mod_cast d1
  obtain ⟨lo, hi, ⟨⟨⟨e0, m0, v0⟩, -⟩, ⟨⟨e1, m1, v1⟩, hgr⟩⟩, hl1, hl2, hm, -⟩ :=
    C170_rows_partial (fun e he => (hk e he).trans (by norm_num)) (q := d / 10) (by linarith) (by linarith) h
  have b0 := abs_le.1 (hk e0 m0)
  have b1 := abs_le.1 (hk e1 m1)
  have lo99 : -99 ≤ lo := by omega
  have hi99 : hi ≤ 99 := by omega
  have hlohi : lo ≤ hi := by
    have : -(-e0.2 / 10) ≤ hi := hgr ⟨e0, m0, rfl⟩
    omega
  have lq : (-99 : ℚ) ≤ lo := by exact_mod_cast lo99
  have hq : (hi : ℚ) ≤ 99 := by exact_mod_cast hi99
  have lhq : (lo : ℚ) ≤ hi := by exact_mod_cast hlohi
  intro r hr
  obtain ⟨i, hi', rfl⟩ := List.getElem_of_mem hr
  have key : (lo : ℚ) / 10 + i * (d / 10) ≤ hi / 10 := by
    have ratio : ((hi : ℚ) / 10 - lo / 10) / (d / 10) = ((hi - lo : ℤ) : ℚ) / d := by push_cast; field_simp
    by_cases he : Spec.Even lo hi (d / 10)
    · obtain ⟨z, hz⟩ := he
      rw [ratio] at hz
      have hex : hi - lo = z * d := by
        have : |((hi - lo - z * d : ℤ) : ℚ)| < 1 := by
          rw [show ((hi - lo - z * d : ℤ) : ℚ) = (((hi - lo : ℤ) : ℚ) / d - z) * d by push_cast; field_simp, abs_mul, abs_of_pos (show (0 : ℚ) < d by linarith)]
          calc _ ≤ 1 / 10 ^ 6 * (100 : ℚ) := mul_le_mul hz dq1 (by linarith) (by norm_num)
            _ < 1 := by norm_num
        rw [← Int.cast_abs] at this
        have : |hi - lo - z * d| < 1 := by exact_mod_cast this
        have := Int.abs_lt_one_iff.1 this
        omega
      have z0 : 0 ≤ z := by
        by_contra hn
        have : z * d ≤ -1 * d := mul_le_mul_of_nonneg_right (by omega) (by omega)
        omega
      obtain ⟨n, rfl⟩ := Int.eq_ofNat_of_zero_le z0
      have hexq : (hi : ℚ) - lo = n * d := by exact_mod_cast hex
      have hin : i ≤ n := by rcases hl1 n (by linarith) with g | g <;> omega
      have hinq : (i : ℚ) ≤ n := by exact_mod_cast hin
      have := mul_le_mul_of_nonneg_right hinq (show (0 : ℚ) ≤ d by linarith)
      linarith
    · have hl := hl2 he
      unfold Spec.bins at hl
      rw [ratio] at hl
      have : (i : ℤ) < ⌈((hi - lo : ℤ) : ℚ) / d⌉ := by omega
      rw [Int.lt_ceil, lt_div_iff₀ (by linarith)] at this
      push_cast at this
      linarith
  have hi0 : (0 : ℚ) ≤ i * (d / 10) := by positivity
  obtain ⟨h1, h2⟩ := abs_le.1 (hm i hi')
  norm_num at h1 h2
  exact abs_le.2 ⟨by linarith, by linarith⟩

open Verif.Table (saveTable loadTable)
open Verif.Format (floatDbl fmtDbl)
open Verif.Recurrence (bMaxlikeTime C194_stored)

/-- **C200**: a completeness table from a catalogue of whole years with magnitudes up to 9.9 and a whole time step can be stored and retrieved without an effect on the maximum
likelihood b-value and its uncertainty. -/
theorem C200_stored {ev0 : List (Dbl × ℤ)} (hk0 : ∀ e ∈ ev0, |e.2| ≤ 990) (hw : ∀ e ∈ ev0, ∃ z : ℤ, |z| ≤ 10 ^ 6 ∧ e.1.val = z) {d : ℤ} (d0 : 1 ≤ d) (d1 : d ≤ 100) {dt : ℕ}
    (hdt : 0 < dt) (hdt' : dt ≤ 10 ^ 6) {ttol : Dbl} {iloc : Bool} {table stored : List (Dbl × Dbl)} (h : stepp (ev0.map quake) (Dbl.of (d / 10)) (dt : Dbl) ttol iloc = .ok table)
    {nan : Dbl} (hs : loadTable floatDbl nan (saveTable fmtDbl table) = .ok stored) {ev : List (Dbl × ℤ)} (hk : ∀ e ∈ ev, |e.2| ≤ 1000) {q : ℚ} (q0 : 1 / 1000 ≤ q) (q1 : q ≤ 10)
    (ref : Dbl) :
    (bMaxlikeTime (ev.map Recurrence.Spec.quake) stored (Dbl.of q) ref).map (fun r => (r.b, r.sigb)) =
      (bMaxlikeTime (ev.map Recurrence.Spec.quake) table (Dbl.of q) ref).map fun r => (r.b, r.sigb) := by
  refine C194_stored (fun e he => (hk0 e he).trans (by norm_num)) d0 d1 h (fun r hr => ⟨?_, rows_bound hk0 d0 d1 h r hr⟩) hs hk q0 q1 ref
  have hw' : ∀ e ∈ ev0.map quake, ∃ z : ℤ, |z| ≤ 10 ^ 6 ∧ e.1.val = z := by
    intro e he
    obtain ⟨e', he', rfl⟩ := List.mem_map.1 he
    exact hw e' he'
  obtain ⟨b, hb, -⟩ := stepp_times h
  obtain ⟨y0, y1, m0, m1, -, -⟩ := steppBins_range hb
  obtain ⟨a1, a2⟩ := npMin_spec m0
  obtain ⟨b1, b2⟩ := npMax_spec m1
  obtain ⟨f0, hf0, rfl⟩ := List.mem_map.1 a1
  obtain ⟨f1, hf1, rfl⟩ := List.mem_map.1 b1
  obtain ⟨z0, -, hz0⟩ := hw' _ hf0
  obtain ⟨z1, -, hz1⟩ := hw' _ hf1
  have hy : Years (ev0.map quake) z0 z1 := by
    refine ⟨⟨⟨f0, hf0, hz0⟩, ?_⟩, ⟨f1, hf1, hz1⟩, ?_⟩
    · rintro z ⟨e, he, hz⟩
      have := a2 _ (List.mem_map_of_mem he)
      rw [hz, hz0] at this
      exact_mod_cast this
    · rintro z ⟨e, he, hz⟩
      have := b2 _ (List.mem_map_of_mem he)
      rw [hz, hz1] at this
      exact_mod_cast this
  obtain ⟨k, hk, -⟩ := C200_years hw' hy hdt hdt' h r hr
  exact ⟨_, hk⟩

theorem bins_ok {ev : List (Dbl × ℤ)} (hk : ∀ e ∈ ev, |e.2| ≤ 1000) (hne : ev ≠ []) {q : ℚ} (q0 : 1 / 1000 ≤ q) (q1 : q ≤ 10) {dt : Dbl} (hdt : ¬ PyNum.decEq dt (0 : Dbl) = true) :
    ∃ b, steppBins (ev.map quake) (Dbl.of q) dt = .ok b := by
  have hmw : (ev.map quake).map (fun e => (e.1, around2 e.2)) = ev.map quake := by
    rw [List.map_map]
    refine List.map_congr_left fun e he => ?_
    have hc : cents (quake e).2 = e.2 := cents_two (hk e he)
    show ((quake e).1, around2 (quake e).2) = quake e
    rw [around2_cents (by rw [hc]; exact hk e he), hc]
    rfl
  unfold steppBins
  simp only [hmw, bind, Except.bind]
  obtain ⟨m, hmin⟩ := npMin_exists (l := (ev.map quake).map Prod.snd) (by simpa using hne)
  obtain ⟨M, hmax⟩ := npMax_exists (l := (ev.map quake).map Prod.snd) (by simpa using hne)
  obtain ⟨y0, hy0⟩ := npMin_exists (l := (ev.map quake).map Prod.fst) (by simpa using hne)
  obtain ⟨y1, hy1⟩ := npMax_exists (l := (ev.map quake).map Prod.fst) (by simpa using hne)
  rw [hmin, hmax, hy0, hy1]
  simp only [throw, throwThe, MonadExceptOf.throw, pure, Except.pure]
  have qv : 0 < (Dbl.of q).val := by
    have := (abs_le.1 (of_near (a := q) (B := 10) (abs_le.2 ⟨by linarith, q1⟩))).1
    norm_num at this
    linarith
  have g1 : ¬ PyNum.decEq (Dbl.of q) (0 : Dbl) = true := by
    rw [decEq_def, decide_eq_true_eq, val_zero]
    exact qv.ne'
  rw [if_neg g1, if_neg hdt]
  obtain ⟨hm, hml⟩ := npMin_spec hmin
  obtain ⟨hM, hMl⟩ := npMax_spec hmax
  simp only [List.map_map, List.mem_map, Function.comp_apply] at hm hM
  obtain ⟨e0, he0, rfl⟩ := hm
  obtain ⟨e1, he1, rfl⟩ := hM
  have t0 := abs_le.1 (hk e0 he0)
  have t1 := abs_le.1 (hk e1 he1)
  have hfl := (tenths (hk e0 he0)).1
  have hce := (tenths (hk e1 he1)).2
  have mono := Int.floor_le_floor (show ((10.0 : Dbl) * (quake e0).2).val ≤ ((10.0 : Dbl) * (quake e1).2).val by
    rw [val_mul, val_mul, val_ten]
    exact rnd53_mono (mul_le_mul_of_nonneg_left (hml _ (by simp only [List.mem_map]; exact ⟨_, ⟨e1, he1, rfl⟩, rfl⟩)) (by norm_num)))
  have hfl1 := (tenths (hk e1 he1)).1
  rw [← floorZ_def, ← floorZ_def] at mono
  change PyNum.floorZ ((10.0 : Dbl) * (quake e0).2) = _ at hfl
  change PyNum.ceilZ ((10.0 : Dbl) * (quake e1).2) = _ at hce
  change PyNum.floorZ ((10.0 : Dbl) * (quake e1).2) = _ at hfl1
  rw [hfl, hfl1] at mono
  rw [hfl, hce, tenth_val (abs_le.2 ⟨by norm_num; omega, by norm_num; omega⟩), tenth_val (abs_le.2 ⟨by norm_num; omega, by norm_num; omega⟩)]
  obtain ⟨X, hX, hX'⟩ := edges_number (K := e0.2 / 10) (U := -(-e1.2 / 10)) (abs_le.2 ⟨by omega, by omega⟩) (abs_le.2 ⟨by omega, by omega⟩) (by omega) q0 q1
  have hr0 : (0 : ℚ) ≤ (((-(-e1.2 / 10) : ℤ) : ℚ) / 10 - ((e0.2 / 10 : ℤ) : ℚ) / 10) / q := by
    refine div_nonneg ?_ (by linarith)
    have : ((e0.2 / 10 : ℤ) : ℚ) ≤ ((-(-e1.2 / 10) : ℤ) : ℚ) := by exact_mod_cast (by omega : e0.2 / 10 ≤ -(-e1.2 / 10))
    linarith
  have hX0 : (0 : ℤ) < ⌈X⌉ := Int.ceil_pos.2 (by have := (abs_le.1 hX').1; norm_num at this; push_cast at hr0; linarith)
  rw [if_neg (by rw [hX]; omega)]
  exact ⟨_, rfl⟩

/-- **C200**: Stepp's test succeeds if the time step is at most the length of the catalogue plus one year, and otherwise finds no completeness magnitude. -/
theorem C200_succeeds {ev : List (Dbl × ℤ)} (hk : ∀ e ∈ ev, |e.2| ≤ 1000) (hw : ∀ e ∈ ev, ∃ z : ℤ, |z| ≤ 10 ^ 6 ∧ e.1.val = z) {first last : ℤ} (hy : Years (ev.map quake) first last)
    {q : ℚ} (q0 : 1 / 1000 ≤ q) (q1 : q ≤ 10) {dt : ℕ} (hdt : 0 < dt) (hdt' : dt ≤ 10 ^ 6) (ttol : Dbl) (iloc : Bool) :
    ((dt : ℤ) ≤ last - first + 1 → ∃ table, stepp (ev.map quake) (Dbl.of q) (dt : Dbl) ttol iloc = .ok table) ∧
      ∀ table, stepp (ev.map quake) (Dbl.of q) (dt : Dbl) ttol iloc = .ok table → table ≠ [] → (dt : ℤ) ≤ last - first + 1 := by
  have hw' : ∀ e ∈ ev.map quake, ∃ z : ℤ, |z| ≤ 10 ^ 6 ∧ e.1.val = z := by
    intro e he
    obtain ⟨e', he', rfl⟩ := List.mem_map.1 he
    exact hw e' he'
  constructor
  · intro hlen
    obtain ⟨b, hb⟩ : ∃ b, steppBins (ev.map quake) (Dbl.of q) (dt : Dbl) = .ok b := by
      have hne : ev ≠ [] := by
        rintro rfl
        obtain ⟨e, he, -⟩ := hy.1.1
        cases he
      have hdt0 : ¬ PyNum.decEq (dt : Dbl) (0 : Dbl) = true := by
        rw [decEq_def, decide_eq_true_eq, nat_val (hdt'.trans (by norm_num)), val_zero]
        exact_mod_cast hdt.ne'
      exact bins_ok hk hne q0 q1 hdt0
    rw [stepp_eq hb]
    simp only
    obtain ⟨y0, y1, m0, m1, he, hn⟩ := steppBins_range hb
    obtain ⟨v0, v1⟩ := npMin_year m0 m1 hy fun e he => ⟨_, (hw' e he).choose_spec.2⟩
    have bound : ∀ z : ℤ, (∃ e ∈ ev.map quake, e.1.val = z) → |z| ≤ 10 ^ 6 := by
      rintro z ⟨e, hm, hz⟩
      obtain ⟨z', hb, hz'⟩ := hw' e hm
      have : z = z' := by exact_mod_cast hz.symm.trans hz'
      rw [this]; exact hb
    have h0 : 0 < b.nt := by
      rw [hn, time_steps v0 v1 (bound _ hy.1.1) (bound _ hy.2.1) hdt hdt']
      push_cast; linarith
    have hz := tlocs_lt (b := b) (iloc := iloc) (ttol := ttol)
    rw [if_pos fun t ht => by have := hz t ht; omega]
    exact ⟨_, rfl⟩
  · intro table h hne
    obtain ⟨r, hr⟩ := List.exists_mem_of_ne_nil _ hne
    obtain ⟨k, -, hk⟩ := C200_years hw' hy hdt hdt' h r hr
    have : (dt : ℤ) ≤ ((k : ℤ) + 1) * dt := le_mul_of_one_le_left (by positivity) (by omega)
    omega

/-- Three earthquakes of the years 1985 and 2000. -/
def quakes200 : List (Dbl × ℤ) := [(Dbl.of 1985, 330), (Dbl.of 1985, 300), (Dbl.of 2000, 340)]

/-- The hypotheses are met: with a time step of ten years the table has four rows, all of the year 1990. -/
example : ∃ table, stepp (quakes200.map quake) (Dbl.of (((1 : ℤ) : ℚ) / 10)) ((10 : ℕ) : Dbl) 0.2 true = .ok table ∧ table.length = 4 ∧ ∀ r ∈ table, r.1.val = 1990 := by
  have v1985 : (Dbl.of 1985).val = ((1985 : ℤ) : ℚ) := by decide +kernel
  have v2000 : (Dbl.of 2000).val = ((2000 : ℤ) : ℚ) := by decide +kernel
  have hk : ∀ e ∈ quakes200, |e.2| ≤ 1000 := by simp only [quakes200]; decide
  have hw : ∀ e ∈ quakes200, ∃ z : ℤ, |z| ≤ 10 ^ 6 ∧ e.1.val = z := by
    intro e he
    simp only [quakes200, List.mem_cons, List.not_mem_nil, or_false] at he
    rcases he with rfl | rfl | rfl
    · exact ⟨1985, by norm_num, v1985⟩
    · exact ⟨1985, by norm_num, v1985⟩
    · exact ⟨2000, by norm_num, v2000⟩
  have hset : ∀ z : ℤ, (∃ e ∈ quakes200.map quake, e.1.val = z) → z = 1985 ∨ z = 2000 := by
    rintro z ⟨e, he, hz⟩
    simp only [quakes200, quake, List.map_cons, List.map_nil, List.mem_cons, List.not_mem_nil, or_false] at he
    rcases he with rfl | rfl | rfl
    · left; exact_mod_cast hz.symm.trans v1985
    · left; exact_mod_cast hz.symm.trans v1985
    · right; exact_mod_cast hz.symm.trans v2000
  have hy : Years (quakes200.map quake) 1985 2000 :=
    ⟨⟨⟨_, List.mem_cons_self, v1985⟩, fun z hz => by rcases hset z hz with rfl | rfl <;> norm_num⟩,
      ⟨⟨_, List.mem_cons_of_mem _ (List.mem_cons_of_mem _ List.mem_cons_self), v2000⟩, fun z hz => by rcases hset z hz with rfl | rfl <;> norm_num⟩⟩
  obtain ⟨table, ht⟩ := (C200_succeeds hk hw hy (q := ((1 : ℤ) : ℚ) / 10) (by norm_num) (by norm_num) (dt := 10) (by norm_num) (by norm_num) 0.2 true).1 (by norm_num)
  obtain ⟨b, hb, hn⟩ := steppBins_noLibm (ev := quakes200.map quake) (dm := Dbl.of (((1 : ℤ) : ℚ) / 10)) (dt := ((10 : ℕ) : Dbl)) (f := fun b => b.nb) (v := 4) (by decide +kernel)
  obtain ⟨b', hb', hl, -⟩ := stepp_length ht
  obtain rfl : b = b' := Except.ok.inj (hb.symm.trans hb')
  refine ⟨table, ht, hl.trans hn, fun r hr => ?_⟩
  have hw' : ∀ e ∈ quakes200.map quake, ∃ z : ℤ, |z| ≤ 10 ^ 6 ∧ e.1.val = z := by
    intro e he
    obtain ⟨e', he', rfl⟩ := List.mem_map.1 he
    exact hw e' he'
  obtain ⟨k, hv, hb⟩ := C200_years hw' hy (by norm_num) (by norm_num) ht r hr
  have : k = 0 := by push_cast at hb; omega
  subst this
  rw [hv]
  norm_num

end

end Verif.Completeness
