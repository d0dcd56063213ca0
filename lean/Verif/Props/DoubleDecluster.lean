import Verif.Props.DoubleText
import Verif.Props.DoubleDates
import Verif.Props.KeptPairs

/-!
# C184–C186: the declusterings in double precision
-/

namespace Verif.Declustering

open Verif Verif.CatUtil Verif.Dbl Spec

/-! ### Specification -/

/-- Days of the months before month `m` in a common year. -/
def Spec.daysBefore (m : ℤ) : ℤ := (([31, 28, 31, 30, 31, 30, 31, 31, 30, 31, 30, 31] : List ℤ).take (m - 1).toNat).sum

/-- The number of a day when every year has 365 days (29 February is counted as 1 March). -/
def Spec.dayNo (y m d : ℤ) : ℤ := 365 * y + Spec.daysBefore m + d - 1

/-- A catalogue whose rows start with the given calendar dates, between the years -10000 and 10000. -/
structure Spec.Dated {n : ℕ} (cat : Fin n → Row Dbl) (y m d : Fin n → ℤ) : Prop where
  year : ∀ j, cat j 0 = (y j : Dbl)
  month : ∀ j, cat j 1 = (m j : Dbl)
  day : ∀ j, cat j 2 = (d j : Dbl)
  date : ∀ j, IsDate (y j) (m j) (d j)
  range : ∀ j, |y j| ≤ 10000

/-- A step between earthquakes of `C` from a day to the same or a later one, at most `w` days. -/
def Spec.DaysLater {n : ℕ} (D : Fin n → ℤ) (w : ℕ) (C : Fin n → Prop) (a b : Fin n) : Prop := C a ∧ C b ∧ D a ≤ D b ∧ D b - D a ≤ w

/-- A step between earthquakes of `C` from a day to the same or an earlier one, at most `w` days. -/
def Spec.DaysEarlier {n : ℕ} (D : Fin n → ℤ) (w : ℕ) (C : Fin n → Prop) (a b : Fin n) : Prop := C a ∧ C b ∧ D b ≤ D a ∧ D a - D b ≤ w

/-! ### Times in days -/

theorem daysBefore_marker {m : ℤ} (h1 : 1 ≤ m) (h2 : m ≤ 12) {k : ℕ} (hk : marker[(m - 1).toNat]? = some k) : (k : ℤ) = Spec.daysBefore m := by
  interval_cases m <;> simp [marker] at hk <;> subst hk <;> simp [Spec.daysBefore]

theorem date_time {y m d : ℤ} (h : IsDate y m d) : ∃ k : ℤ, 0 ≤ k ∧ k < 365 ∧ Spec.dayNo y m d = 365 * y + k ∧
    decimalYear (y : Dbl) (m : Dbl) (d : Dbl) = .ok ((y : Dbl) + (k : Dbl) / ((365 : ℕ) : Dbl)) := by
  obtain ⟨k, k0, k1, hk, hr⟩ := decimalYear_both h
  obtain ⟨q, hq, hx⟩ := decimalYear_date y m d h.1 h.2.1
  refine ⟨k, k0, k1, ?_, hk⟩
  rw [hr] at hx
  have h1 := Except.ok.inj hx
  have h2 : ((k : ℤ) : ℝ) = ((q + d - 1 : ℤ) : ℝ) := by
    push_cast at h1 ⊢
    linarith
  have h3 : k = q + d - 1 := by exact_mod_cast h2
  rw [h3, daysBefore_marker h.1 h.2.1 hq, Spec.dayNo]
  ring

section
variable {n : ℕ} [Libm] {cat : Fin n → Row Dbl} {y m d : Fin n → ℤ} {t : Fin n → Dbl}

theorem dated_time (h : Spec.Dated cat y m d) (ht : Times cat t) (j : Fin n) :
    ∃ k : ℤ, 0 ≤ k ∧ k < 365 ∧ Spec.dayNo (y j) (m j) (d j) = 365 * y j + k ∧ t j = (y j : Dbl) + (k : Dbl) / ((365 : ℕ) : Dbl) := by
  obtain ⟨k, k0, k1, hk, hr⟩ := date_time (h.date j)
  refine ⟨k, k0, k1, hk, ?_⟩
  have := ht j
  rw [h.year, h.month, h.day] at this
  exact Except.ok.inj (this.symm.trans hr)

theorem dated_eq (h : Spec.Dated cat y m d) (ht : Times cat t) {a b : Fin n} (he : Spec.dayNo (y a) (m a) (d a) = Spec.dayNo (y b) (m b) (d b)) : t a = t b := by
  obtain ⟨k, k0, k1, hk, hr⟩ := dated_time h ht a
  obtain ⟨k', k0', k1', hk', hr'⟩ := dated_time h ht b
  rw [hk, hk'] at he
  have e1 : y a = y b := by omega
  have e2 : k = k' := by omega
  rw [hr, hr', e1, e2]

theorem dated_near (h : Spec.Dated cat y m d) (ht : Times cat t) (j : Fin n) : |(t j).val - (Spec.dayNo (y j) (m j) (d j) : ℚ) / 365| ≤ 1 / 10 ^ 11 ∧
    |(Spec.dayNo (y j) (m j) (d j) : ℚ) / 365| ≤ 10001 := by
  obtain ⟨k, k0, k1, hk, hr⟩ := dated_time h ht j
  have hc := (decimalYear_close (h.range j) k0 k1).1
  rw [← hr] at hc
  have e : (Spec.dayNo (y j) (m j) (d j) : ℚ) / 365 = y j + k / 365 := by
    rw [hk]; push_cast; ring
  rw [e]
  refine ⟨hc, ?_⟩
  have hy := abs_le.1 (h.range j)
  have a1 : (-10000 : ℚ) ≤ y j := by exact_mod_cast hy.1
  have a2 : (y j : ℚ) ≤ 10000 := by exact_mod_cast hy.2
  have b1 : (0 : ℚ) ≤ k := by exact_mod_cast k0
  have b2 : (k : ℚ) < 365 := by exact_mod_cast k1
  rw [abs_le]
  constructor <;> linarith

/-- The time between two earthquakes as the search computes it. -/
theorem step_near (h : Spec.Dated cat y m d) (ht : Times cat t) (i a b : Fin n) :
    |((t b - t i) - (t a - t i)).val - ((Spec.dayNo (y b) (m b) (d b) : ℚ) - Spec.dayNo (y a) (m a) (d a)) / 365| ≤ 1 / 10 ^ 9 := by
  obtain ⟨a1, a2⟩ := dated_near h ht a
  obtain ⟨b1, b2⟩ := dated_near h ht b
  obtain ⟨i1, i2⟩ := dated_near h ht i
  generalize (Spec.dayNo (y a) (m a) (d a) : ℚ) = A at *
  generalize (Spec.dayNo (y b) (m b) (d b) : ℚ) = B at *
  generalize (Spec.dayNo (y i) (m i) (d i) : ℚ) = I at *
  have sub : ∀ X : ℚ, ∀ x : Dbl, |x.val - X / 365| ≤ 1 / 10 ^ 11 → |X / 365| ≤ 10001 → |(x - t i).val - (X / 365 - I / 365)| ≤ 1 / 10 ^ 10 ∧ |X / 365 - I / 365| ≤ 20002 := by
    intro X x h1 h2
    have h3 : |X / 365 - I / 365| ≤ 20002 := (abs_sub _ _).trans (by linarith)
    refine ⟨?_, h3⟩
    rw [val_sub]
    refine (rnd_near (ε := 2 / 10 ^ 11) (B := 20002) ?_ h3 (by norm_num)).trans (by norm_num)
    rw [abs_le] at h1 i1 ⊢
    constructor <;> linarith [h1.1, h1.2, i1.1, i1.2]
  obtain ⟨s1, s2⟩ := sub A (t a) a1 a2
  obtain ⟨s3, s4⟩ := sub B (t b) b1 b2
  rw [val_sub]
  have e : (B - A) / 365 = (B / 365 - I / 365) - (A / 365 - I / 365) := by ring
  rw [e]
  refine (rnd_near (ε := 2 / 10 ^ 10) (B := 40004) ?_ ((abs_sub _ _).trans (by linarith)) (by norm_num)).trans (by norm_num)
  rw [abs_le] at s1 s3 ⊢
  constructor <;> linarith [s1.1, s1.2, s3.1, s3.2]

omit [Libm] in
theorem step_zero (i a b : Fin n) (he : t a = t b) : ((t b - t i) - (t a - t i)).val = 0 := by
  rw [he, val_sub, sub_self, rnd53_zero]

omit [Libm] in
theorem zero_val : ((0.0 : Dbl)).val = 0 := by
  show rnd53 (0.0 : ℚ) = 0
  norm_num [rnd53_zero]

omit [Libm] in
theorem window_near {w : ℕ} (hw : w ≤ 10 ^ 6) : |((w : Dbl) / ((365 : ℕ) : Dbl)).val - (w : ℚ) / 365| ≤ 1 / 10 ^ 9 := by
  have hq : (w : ℚ) ≤ 10 ^ 6 := by exact_mod_cast hw
  rw [val_div, val_nat_exact (by omega), val_nat_exact (by norm_num)]
  push_cast
  refine (of_near (B := 10 ^ 6) ?_).trans (by norm_num)
  have : (0 : ℚ) ≤ w := by positivity
  rw [abs_of_nonneg (by positivity)]
  linarith [show (w : ℚ) / 365 ≤ w by linarith]

omit [Libm] in
theorem neg_val (x : Dbl) : (-x).val = -x.val := by
  show rnd53 (-x.val) = _
  rw [Format.rnd53_neg, x.ok]

/-- The decisions of the search in days. -/
theorem step_tests (h : Spec.Dated cat y m d) (ht : Times cat t) {w : ℕ} (hw : w ≤ 10 ^ 6) (i a b : Fin n) :
    let D := fun j => Spec.dayNo (y j) (m j) (d j)
    let x := (t b - t i) - (t a - t i)
    let tw := (w : Dbl) / ((365 : ℕ) : Dbl)
    (x ≥ 0.0 ↔ D a ≤ D b) ∧ (x ≤ 0.0 ↔ D b ≤ D a) ∧ (x ≤ tw → D b - D a ≤ w) ∧ (D b - D a < w → x ≤ tw) ∧ (x ≥ -tw → D a - D b ≤ w) ∧ (D a - D b < w → x ≥ -tw) := by
  intro D x tw
  have hn := step_near h ht i a b
  have hz : D a = D b → x.val = 0 := fun he => step_zero i a b (dated_eq h ht he)
  have hwn := window_near hw
  change |x.val - ((D b : ℚ) - D a) / 365| ≤ _ at hn
  change |tw.val - _| ≤ _ at hwn
  have gt : ∀ u v : ℤ, u < v → (u : ℚ) + 1 ≤ v := fun u v h => by exact_mod_cast h
  obtain ⟨n1, n2⟩ := abs_le.1 hn
  obtain ⟨w1, w2⟩ := abs_le.1 hwn
  have p1 : x ≥ 0.0 ↔ D a ≤ D b := by
    show (0.0 : Dbl).val ≤ x.val ↔ _
    rw [zero_val]
    constructor
    · intro h0
      by_contra hc
      have := gt _ _ (not_le.1 hc)
      linarith [show (1 : ℚ) / 10 ^ 9 < 1 / 365 by norm_num]
    · intro hle
      rcases eq_or_lt_of_le hle with e | l
      · rw [hz e]
      · have := gt _ _ l
        linarith [show (1 : ℚ) / 10 ^ 9 < 1 / 365 by norm_num]
  have p2 : x ≤ 0.0 ↔ D b ≤ D a := by
    show x.val ≤ (0.0 : Dbl).val ↔ _
    rw [zero_val]
    constructor
    · intro h0
      by_contra hc
      have := gt _ _ (not_le.1 hc)
      linarith [show (1 : ℚ) / 10 ^ 9 < 1 / 365 by norm_num]
    · intro hle
      rcases eq_or_lt_of_le hle with e | l
      · rw [hz e.symm]
      · have := gt _ _ l
        linarith [show (1 : ℚ) / 10 ^ 9 < 1 / 365 by norm_num]
  refine ⟨p1, p2, ?_, ?_, ?_, ?_⟩
  · intro h0
    have h0 : x.val ≤ tw.val := h0
    by_contra hc
    have := gt _ _ (not_le.1 hc)
    push_cast at this
    linarith [show (2 : ℚ) / 10 ^ 9 < 1 / 365 by norm_num]
  · intro hl
    show x.val ≤ tw.val
    have := gt _ _ hl
    push_cast at this
    linarith [show (2 : ℚ) / 10 ^ 9 < 1 / 365 by norm_num]
  · intro h0
    have h0 : (-tw).val ≤ x.val := h0
    rw [neg_val] at h0
    by_contra hc
    have := gt _ _ (not_le.1 hc)
    push_cast at this
    linarith [show (2 : ℚ) / 10 ^ 9 < 1 / 365 by norm_num]
  · intro hl
    show (-tw).val ≤ x.val
    rw [neg_val]
    have := gt _ _ hl
    push_cast at this
    linarith [show (2 : ℚ) / 10 ^ 9 < 1 / 365 by norm_num]

end

/-! ### Gardner and Knopoff -/

theorem key_mono (a b : Dbl) (h : a ≤ b) : ((a.val : ℚ) : ℝ) ≤ ((b.val : ℚ) : ℝ) := by exact_mod_cast h

theorem key_inj {n : ℕ} {f : Fin n → Dbl} (h : Function.Injective f) : Function.Injective (fun j => (((f j).val : ℚ) : ℝ)) := by
  intro a b hab
  exact h (Dbl.ext (Rat.cast_injective hab))

section
variable {n : ℕ} [Libm]

/-- **C184** (row order, Gardner–Knopoff): in double precision, with any mathematical library, permuting the rows of a catalogue with distinct magnitudes permutes cluster numbers and flags. -/
theorem C184_gk_row_order (cat : Fin n → Row Dbl) (hm : Function.Injective (fun j => cat j 5)) (π : Equiv.Perm (Fin n))
    (opt : String) (fs : Dbl) (asc id1 asc' id1' : Equiv.Perm (Fin n)) (r r' : Result Dbl n)
    (h0 : IsArgsort (fun j => cat j 5) asc) (h1 : IsArgsort (flipud asc) id1)
    (h0' : IsArgsort (fun j => cat (π j) 5) asc') (h1' : IsArgsort (flipud asc') id1')
    (h : gardnerKnopoff cat opt fs asc id1 = .ok r) (h' : gardnerKnopoff (fun j => cat (π j)) opt fs asc' id1' = .ok r') :
    (∀ j, r'.vcl j = r.vcl (π j)) ∧ ∀ j, r'.flag j = r.flag (π j) :=
  gk_equivariant (key := fun x : Dbl => ((x.val : ℚ) : ℝ)) key_mono cat (key_inj hm) π opt fs asc id1 asc' id1' r r' h0 h1 h0' h1' h h'

/-- **C184** (row order, Afteran). -/
theorem C184_afteran_row_order (cat : Fin n → Row Dbl) (hm : Function.Injective (fun j => cat j 5)) (π : Equiv.Perm (Fin n))
    (opt : String) (w : Dbl) (asc id1 asc' id1' : Equiv.Perm (Fin n)) (r r' : Result Dbl n)
    (h0 : IsArgsort (fun j => cat j 5) asc) (h1 : IsArgsort (flipud asc) id1)
    (h0' : IsArgsort (fun j => cat (π j) 5) asc') (h1' : IsArgsort (flipud asc') id1')
    (h : afteran cat opt w asc id1 = .ok r) (h' : afteran (fun j => cat (π j)) opt w asc' id1' = .ok r') :
    (∀ j, r'.vcl j = r.vcl (π j)) ∧ ∀ j, r'.flag j = r.flag (π j) :=
  afteran_equivariant (key := fun x : Dbl => ((x.val : ℚ) : ℝ)) key_mono cat (key_inj hm) π opt w asc id1 asc' id1' r r' h0 h1 h0' h1' h h'

/-- **C184** (again): in double precision, with any mathematical library, declustering the main shocks of a catalogue whose smallest magnitude occurs once again with Gardner–Knopoff removes
nothing. -/
theorem C184_gk_again (cat : Fin n → Row Dbl) (hlow : ∀ j k, (∀ l, cat j 5 ≤ cat l 5) → (∀ l, cat k 5 ≤ cat l 5) → j = k) (opt : String) (fs : Dbl)
    (asc id1 : Equiv.Perm (Fin n)) (r : Result Dbl n) (h0 : IsArgsort (fun j => cat j 5) asc) (h1 : IsArgsort (flipud asc) id1)
    (h : gardnerKnopoff cat opt fs asc id1 = .ok r) (asc2 id2 : Equiv.Perm (Fin r.vmain.length))
    (h2 : IsArgsort (fun j : Fin r.vmain.length => r.vmain[j] 5) asc2) (h3 : IsArgsort (flipud asc2) id2) :
    ∃ r2, gardnerKnopoff (fun j : Fin r.vmain.length => r.vmain[j]) opt fs asc2 id2 = .ok r2 ∧
      r2.vmain = r.vmain ∧ ∀ j, r2.flag j = 0 ∧ r2.vcl j = 0 :=
  gk_idempotent (key := fun x : Dbl => ((x.val : ℚ) : ℝ)) key_mono cat
    (fun j k hj hk => hlow j k (fun l => le_def.2 (Rat.cast_le.1 (hj l))) fun l => le_def.2 (Rat.cast_le.1 (hk l))) opt fs asc id1 r h0 h1 h asc2 id2 h2 h3

/-- **C184** (pairs): in double precision, with any mathematical library, Gardner–Knopoff keeps no event that lies, as computed, in the windows of a kept event of larger magnitude. -/
theorem C184_gk_no_pair (cat : Fin n → Row Dbl) (opt : String) (fs : Dbl) (asc id1 : Equiv.Perm (Fin n)) (r : Result Dbl n)
    (h0 : IsArgsort (fun j => cat j 5) asc) (h1 : IsArgsort (flipud asc) id1) (h : gardnerKnopoff cat opt fs asc id1 = .ok r) :
    ∃ t win, Times cat t ∧ timeDistWindow opt = .ok win ∧
      ∀ i j, r.flag i = 0 → cat j 5 < cat i 5 → InWindows cat t win fs i j → r.flag j ≠ 0 := by
  obtain ⟨t, win, ht, hw, hk⟩ := gk_no_kept_pair (key := fun x : Dbl => ((x.val : ℚ) : ℝ)) key_mono cat opt fs asc id1 r h0 h1 h
  refine ⟨t, win, ht, hw, fun i j hi hlt => hk i j hi ?_⟩
  exact_mod_cast hlt

/-! ### Afteran -/

/-- **C185** (main shocks): in double precision, with any mathematical library, the kept event of an Afteran cluster has the largest magnitude of the cluster. -/
theorem C185_mainshock_largest (cat : Fin n → Row Dbl) (opt : String) (w : Dbl) (asc id1 : Equiv.Perm (Fin n)) (r : Result Dbl n)
    (h0 : IsArgsort (fun j => cat j 5) asc) (h1 : IsArgsort (flipud asc) id1) (h : afteran cat opt w asc id1 = .ok r) (e j : Fin n)
    (hc : 0 < r.vcl e) (he : r.flag e = 0) (hj : r.vcl j = r.vcl e) : cat j 5 ≤ cat e 5 :=
  afteran_mainshock_largest cat opt w asc id1 r h0 h1 h e j hc he hj

/-- **C185** (chains): in double precision, with any mathematical library and a time window of `w` days, for a catalogue of calendar dates: an event flagged 1 (-1) by Afteran is reached from the kept
event of its cluster by steps between events of the cluster, each to the same or a later (earlier) day and none of more than `w` days; the rounding of times and window lets no longer step pass. -/
theorem C185_chain {cat : Fin n → Row Dbl} {y m d : Fin n → ℤ} (hD : Spec.Dated cat y m d) (opt : String) {w : ℕ} (hw : w ≤ 10 ^ 6) (asc id1 : Equiv.Perm (Fin n)) (r : Result Dbl n)
    (h1 : IsArgsort (flipud asc) id1) (h : afteran cat opt (w : Dbl) asc id1 = .ok r) (j : Fin n) :
    (r.flag j = 1 → ∃ e, r.vcl e = r.vcl j ∧ r.flag e = 0 ∧
      Relation.ReflTransGen (Spec.DaysLater (fun j => Spec.dayNo (y j) (m j) (d j)) w (fun a => r.vcl a = r.vcl j)) e j) ∧
    (r.flag j = -1 → ∃ e, r.vcl e = r.vcl j ∧ r.flag e = 0 ∧
      Relation.ReflTransGen (Spec.DaysEarlier (fun j => Spec.dayNo (y j) (m j) (d j)) w (fun a => r.vcl a = r.vcl j)) e j) := by
  obtain ⟨t, win, k, ht, -, hvm, hr, hfree, hcl⟩ := af_each cat opt (w : Dbl) asc id1 r h1 h
  have hpos : r.flag j ≠ 0 → ∃ i hd, OrigCluster cat t win ((w : Dbl) / ((365 : ℕ) : Dbl)) (flipud asc).symm r (r.vcl j) i hd := by
    intro hf
    have := hr j
    have h0 : r.vcl j ≠ 0 := fun hc => hf (hfree j hc)
    exact hcl (r.vcl j) (by omega) this.2
  constructor
  · intro hf
    obtain ⟨i, hd, hC⟩ := hpos (by rw [hf]; norm_num)
    refine ⟨hd, hC.main.1, hC.main.2, ?_⟩
    have hjd : j ≠ hd := by rintro rfl; rw [hC.main.2] at hf; exact absurd hf (by norm_num)
    rcases hC.flags j hjd rfl with ⟨-, hch⟩ | ⟨a, -⟩
    swap
    · rw [a] at hf; exact absurd hf (by norm_num)
    have : ∀ b, Relation.ReflTransGen (Fwd t ((w : Dbl) / ((365 : ℕ) : Dbl)) i (fun a => r.vcl a = r.vcl j)) hd b →
        r.vcl b = r.vcl j ∧ Relation.ReflTransGen (Spec.DaysLater (fun j => Spec.dayNo (y j) (m j) (d j)) w (fun a => r.vcl a = r.vcl j)) hd b := by
      intro b hb
      induction hb with
      | refl => exact ⟨hC.main.1, .refl⟩
      | tail _ hbc ih =>
        obtain ⟨q1, q2, q3⟩ := hbc
        obtain ⟨s1, -, s3, -⟩ := step_tests hD ht hw i _ _
        exact ⟨q1, ih.2.tail ⟨ih.1, q1, s1.1 q2, s3 q3⟩⟩
    exact (this j hch).2
  · intro hf
    obtain ⟨i, hd, hC⟩ := hpos (by rw [hf]; norm_num)
    refine ⟨hd, hC.main.1, hC.main.2, ?_⟩
    have hjd : j ≠ hd := by rintro rfl; rw [hC.main.2] at hf; exact absurd hf (by norm_num)
    rcases hC.flags j hjd rfl with ⟨a, -⟩ | ⟨-, hch⟩
    · rw [a] at hf; exact absurd hf (by norm_num)
    have : ∀ b, Relation.ReflTransGen (Bwd t ((w : Dbl) / ((365 : ℕ) : Dbl)) i (fun a => r.vcl a = r.vcl j)) hd b →
        r.vcl b = r.vcl j ∧ Relation.ReflTransGen (Spec.DaysEarlier (fun j => Spec.dayNo (y j) (m j) (d j)) w (fun a => r.vcl a = r.vcl j)) hd b := by
      intro b hb
      induction hb with
      | refl => exact ⟨hC.main.1, .refl⟩
      | tail _ hbc ih =>
        obtain ⟨q1, q2, q3⟩ := hbc
        obtain ⟨-, s2, -, -, s5, -⟩ := step_tests hD ht hw i _ _
        exact ⟨q1, ih.2.tail ⟨ih.1, q1, s2.1 q2, s5 q3⟩⟩
    exact (this j hch).2

end

end Verif.Declustering
