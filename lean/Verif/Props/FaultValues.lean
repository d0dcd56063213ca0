import Verif.Props.WeichertValues
import Verif.Props.Mfd

/-!
# C159, C160: faults with infinities and NaN
-/

namespace Verif.Fault

open Verif Verif.Np XNum
open Verif.Recurrence (fin_add fin_sub fin_mul fin_neg fin_div fin_nat fin_int fin_zero fin_sci fin_eq fin_exp fin_sqrt fin_pow fin_log arangeAt_fin arangeLen_fin fp)

/-- A fault of ordinary numbers. -/
def ff (f : SimpleFault ℝ) : SimpleFault (XNum ℝ) := ⟨f.trace.map fp, fin f.upp, fin f.low, fin f.dip⟩

/-- A dictionary of ordinary numbers. -/
def fd (d : WDict ℝ ℝ) : WDict (XNum ℝ) (XNum ℝ) := ⟨d.vals.map (List.map fin), d.weight.map (List.map fin), d.other⟩

/-- A region of ordinary numbers. -/
def frg (r : Region ℝ) : Region (XNum ℝ) := ⟨r.id, ⟨r.msr.vals, r.msr.weight.map (List.map fin), r.msr.other⟩, fd r.smod, fd r.dlr⟩

theorem radians_fin (x : ℝ) : radians (fin x) = fin (radians x) := by
  have h180 : ((180 : ℕ) : ℝ) ≠ 0 := by norm_num
  unfold radians
  rw [show (PyMath.pi : XNum ℝ) = fin Real.pi from rfl, fin_nat, fin_div _ _ h180, fin_mul]
  rfl

theorem segment_fin (p q : ℝ × ℝ) : segment (fp p) (fp q) = fin (segment p q) := by
  have hsin : ∀ x : ℝ, PyMath.sin (fin x) = fin (PyMath.sin x) := fun _ => rfl
  have hcos : ∀ x : ℝ, PyMath.cos (fin x) = fin (PyMath.cos x) := fun _ => rfl
  have hat : ∀ x y : ℝ, PyMath.atan2 (fin x) (fin y) = fin (PyMath.atan2 x y) := fun _ _ => rfl
  have h2 : (2.0 : ℝ) ≠ 0 := by norm_num
  obtain ⟨h0, h1, -⟩ := CatUtil.C49_defined q.1 q.2 p.1 p.2
  have ha : PyMath.sin ((radians q.2 - radians p.2) / 2.0) * PyMath.sin ((radians q.2 - radians p.2) / 2.0) +
      PyMath.cos (radians p.2) * PyMath.cos (radians q.2) * (PyMath.sin ((radians q.1 - radians p.1) / 2.0) * PyMath.sin ((radians q.1 - radians p.1) / 2.0)) =
      CatUtil.aval q.1 q.2 p.1 p.2 := by
    simp only [radians, CatUtil.aval, pi_real, sin_real, cos_real]
    norm_num
    ring_nf
  unfold segment
  simp only [fp, radians_fin, fin_sub, fin_sci, fin_div _ _ h2, hsin, hcos, fin_mul, fin_add, ha]
  rw [fin_sqrt _ h0, fin_sqrt _ (by norm_num; linarith), hat, fin_mul, fin_mul]
  rfl

theorem lengthGo_fin (l : List (ℝ × ℝ)) (acc : ℝ) : lengthGo (fin acc) (l.map fp) = fin (lengthGo acc l) := by
  induction l generalizing acc with
  | nil => rfl
  | cons p l ih =>
    cases l with
    | nil => rfl
    | cons q l =>
      simp only [List.map_cons, lengthGo, segment_fin, fin_add]
      exact ih _

theorem getLength_fin (f : SimpleFault ℝ) : getLength (ff f) = fin (getLength f) := by
  unfold getLength
  rw [fin_nat]
  exact lengthGo_fin _ _

theorem getWidth_fin {trace : List (ℝ × ℝ)} {upp low dip : ℝ} {f : SimpleFault ℝ} (h : mkFault trace upp low dip = .ok f) : getWidth (ff f) = fin (getWidth f) := by
  obtain ⟨⟨_, _, hu, hl, hd0, hd1⟩, rfl⟩ := mkFault_valid h
  have hpi := Real.pi_pos
  have hang : dip * (Real.pi / 180) ≤ Real.pi / 2 := by nlinarith
  have hang0 : 0 < dip * (Real.pi / 180) := by positivity
  have hs : 0 < Real.sin (dip * (Real.pi / 180)) := Real.sin_pos_of_pos_of_lt_pi hang0 (by linarith)
  have he : radians dip = dip * (Real.pi / 180) := by simp only [radians, pi_real]; norm_num
  unfold getWidth
  simp only [ff, radians_fin, fin_sub]
  rw [show PyMath.sin (fin (radians dip)) = fin (Real.sin (radians dip)) from rfl, fin_div _ _ (by rw [he]; exact hs.ne')]
  rfl

theorem getArea_fin {trace : List (ℝ × ℝ)} {upp low dip : ℝ} {f : SimpleFault ℝ} (h : mkFault trace upp low dip = .ok f) : getArea (ff f) = fin (getArea f) := by
  unfold getArea
  rw [getLength_fin, getWidth_fin h, fin_mul]

theorem firstValue_fin (d : WDict ℝ ℝ) : firstValue (fd d) = (firstValue d).map fin := by
  rcases d with ⟨v, w, o⟩
  rcases v with _ | v
  · rfl
  · rcases v with _ | ⟨x, v⟩ <;> rfl

theorem arange_fin (a b s : ℝ) : arange (fin a) (fin b) (fin s) = (arange a b s).map (List.map fin) := by
  unfold arange
  rw [fin_zero, fin_eq, decEq_real]
  by_cases h : s = 0
  · simp only [h, decide_true, if_true]
    rfl
  · simp only [h, decide_false, Bool.false_eq_true, if_false, arangeLen_fin _ _ _ h, Except.map, List.map_map]
    congr 1

/-- The library's estimate of the maximum magnitude gives ordinary numbers for ordinary numbers. -/
def Spec.Ordinary (msrX : XNum ℝ → Option (XNum ℝ) → Except PyErr (XNum ℝ)) (msr : ℝ → Option ℝ → Except PyErr ℝ) : Prop :=
  ∀ a r, msrX (fin a) (Option.map fin r) = (msr a r).map fin

theorem cumulativeValue_fin (slip mmax m bbar dbar beta : ℝ) (hb : bbar ≠ 0) (hbeta : beta ≠ 0) :
    cumulativeValue (fin slip) (fin mmax) (fin m) (fin bbar) (fin dbar) (fin beta) = fin (cumulativeValue slip mmax m bbar dbar beta) := by
  have h10 : (10.0 : ℝ) ≠ 0 := by norm_num
  have h2 : (2.0 : ℝ) ≠ 0 := by norm_num
  unfold cumulativeValue
  simp only [fin_sub, fin_sci, fin_div _ _ hb, fin_div _ _ h10, fin_div _ _ hbeta, fin_div _ _ h2, fin_mul, fin_neg, fin_exp]
  rfl

theorem scaled_pos (s : Bool) {y : ℝ} (h : 0 < y) : scaled s y = inf s := by
  unfold scaled
  rw [if_neg h.ne', decide_eq_false h.not_gt, Bool.xor_false]

/-- With a b-value of zero the cumulative value is not a number or infinite, whatever the magnitude. -/
theorem cumulativeValue_zero (slip mmax dbar beta : ℝ) (hs : 0 < slip) (hbeta : 0 < beta) :
    ∃ x : XNum ℝ, x - x = nan ∧ ∀ m, cumulativeValue (fin slip) (fin mmax) (fin m) (fin 0) (fin dbar) (fin beta) = x := by
  have h10 : (10.0 : ℝ) ≠ 0 := by norm_num
  have h2 : (2.0 : ℝ) ≠ 0 := by norm_num
  have hp : 0 < slip / 10.0 / beta := by positivity
  by_cases hd : dbar = 0
  · refine ⟨nan, rfl, fun m => ?_⟩
    unfold cumulativeValue
    simp only [fin_sub, fin_sci, fin_div _ _ h10, fin_div _ _ hbeta.ne', fin_div _ _ h2, fin_mul, fin_neg, fin_exp, sub_zero]
    rw [show (fin dbar / fin 0 : XNum ℝ) = nan from by show div _ _ = _; simp [div, scaled, hd]]
    rfl
  · refine ⟨inf (decide (dbar < 0)), ?_, fun m => ?_⟩
    · generalize decide (dbar < 0) = s
      cases s <;> rfl
    · unfold cumulativeValue
      simp only [fin_sub, fin_sci, fin_div _ _ h10, fin_div _ _ hbeta.ne', fin_div _ _ h2, fin_mul, fin_neg, fin_exp, sub_zero]
      rw [show (fin dbar / fin 0 : XNum ℝ) = inf (decide (dbar < 0)) from by show div _ _ = _; simp [div, scaled, hd]]
      show mul (mul (mul (inf _) (fin _)) (fin _)) (fin _) = _
      simp only [mul, scaled_pos _ hp, scaled_pos _ (Real.exp_pos _)]

theorem betaOf_pos {dl sm w : ℝ} (hd : 0 < dl) (hs : 0 < sm) (hw : 0 < w) (c : ℝ) : 0 < betaOf dl sm w c ∧ betaOf (fin dl) (fin sm) (fin w) (fin c) = fin (betaOf dl sm w c) := by
  have h10 : (0 : ℝ) < 10.0 := by norm_num
  have hp : 0 < (10.0 : ℝ) ^ c := Real.rpow_pos_of_pos h10 c
  have hq : 0 < sm * 1.0e10 * (w * 1e5) := by norm_num; positivity
  have hr : 0 < dl * (10.0 : ℝ) ^ c / (sm * 1.0e10 * (w * 1e5)) := by positivity
  constructor
  · exact Real.sqrt_pos.2 hr
  · unfold betaOf
    rw [fin_sci, fin_pow _ _ h10, fin_mul, fin_sci, fin_sci, fin_mul, fin_mul, fin_mul, fin_div _ _ hq.ne', fin_sqrt _ hr.le]
    rfl

theorem resolveMax_fin {msrX : XNum ℝ → Option (XNum ℝ) → Except PyErr (XNum ℝ)} {msr : ℝ → Option ℝ → Except PyErr ℝ} (ho : Spec.Ordinary msrX msr)
    {f : SimpleFault ℝ} {trace : List (ℝ × ℝ)} {upp low dip : ℝ} (hf : mkFault trace upp low dip = .ok f) (mx rake : Option ℝ) :
    resolveMax msrX (ff f) (mx.map fin) (rake.map fin) = (resolveMax msr f mx rake).map fin := by
  cases mx with
  | some m => rfl
  | none =>
    show msrX (getArea (ff f)) _ = _
    rw [getArea_fin hf, ho]
    rfl

/-- Both cases of C159: with ordinary numbers, `get_mfd` raises what it raises in exact arithmetic, and otherwise gives the rates of exact arithmetic, or as many NaN if the b-value is
zero. -/
theorem getMfd_fin {msrX : XNum ℝ → Option (XNum ℝ) → Except PyErr (XNum ℝ)} {msr : ℝ → Option ℝ → Except PyErr ℝ} (ho : Spec.Ordinary msrX msr) {slip a b mn bw : ℝ} {reg : Region ℝ}
    {f : SimpleFault ℝ} {mx rake : Option ℝ} {scal : ℝ × ℝ} {trace : List (ℝ × ℝ)} {upp low dip : ℝ} (hf : mkFault trace upp low dip = .ok f)
    {id : String} {dm : WDict String ℝ} {ds dd : WDict ℝ ℝ} (hr : mkRegion id dm ds dd = .ok reg) :
    getMfd msrX (fin slip) (fin a) (frg reg) (ff f) (fin b) (fin mn) (fin bw) (mx.map fin) (rake.map fin) (fin scal.1, fin scal.2) =
      (getMfd msr slip a reg f b mn bw mx rake scal).map (List.map fun r => if b = 0 then nan else fin r) := by
  obtain ⟨sm, dl, hsm, hdl, psm, pdl⟩ := C78_first_values hr
  have hwf := width_pos hf
  obtain ⟨hbp, hbf⟩ := betaOf_pos pdl psm hwf scal.1
  have h10 : (0 : ℝ) < 10.0 := by norm_num
  have h2 : (2.0 : ℝ) ≠ 0 := by norm_num
  unfold getMfd
  by_cases h1 : ((0 : ℕ) : ℝ) < slip
  swap
  · simp only [fin_nat, fin_lt, h1, not_false_eq_true, if_true]
    rfl
  by_cases h3 : (0.0 : ℝ) ≤ a ∧ a < 1.0
  swap
  · simp only [fin_nat, fin_lt, fin_sci, fin_le, h1, h3, not_true_eq_false, not_false_eq_true, if_true, if_false]
    rfl
  simp only [fin_nat, fin_lt, fin_sci, fin_le, h1, h3, and_self, not_true_eq_false, if_false]
  rw [resolveMax_fin ho hf]
  rcases resolveMax msr f mx rake with e | mmax
  · rfl
  rw [show firstValue (frg reg).dlr = (firstValue reg.dlr).map fin from firstValue_fin _, show firstValue (frg reg).smod = (firstValue reg.smod).map fin from firstValue_fin _, hdl, hsm]
  simp only [Except.map, Recurrence.bind_ok, getWidth_fin hf, hbf, fin_log _ h10, fin_mul, fin_div _ _ h2, fin_sub, fin_add, arange_fin]
  rcases arange (mn - bw / 2.0) (mmax + 1.5 * bw) bw with e | mag
  · rfl
  simp only [Recurrence.bind_ok, List.map_map, List.length_map]
  show Except.ok _ = Except.ok _
  congr 1
  rw [List.map_map]
  refine List.map_congr_left fun i hi => ?_
  have hi' : i + 1 < mag.length := by
    have := List.mem_range.mp hi
    omega
  have hg : ∀ {α : Type} (g : ℝ → α) (z : α) (k : ℕ) (hk : k < mag.length), (mag.map g).getD k z = g mag[k] := by
    intro α g z k hk
    rw [List.getD, List.getElem?_map, List.getElem?_eq_getElem hk]
    rfl
  rw [hg _ _ i (by omega), hg _ _ (i + 1) hi']
  simp only [Function.comp_apply]
  rw [hg _ _ i (by omega), hg _ _ (i + 1) hi']
  by_cases hb : b = 0
  · have hs : 0 < slip * (1.0 - a) := by
      have h0 : (0 : ℝ) < slip := by simpa using h1
      have h4 : (0 : ℝ) < 1.0 - a := by linarith [h3.2]
      positivity
    obtain ⟨x, hx, hc⟩ := cumulativeValue_zero (slip * (1.0 - a)) mmax (scal.2 * Real.log 10.0) _ hs hbp
    rw [hb, if_pos rfl, zero_mul, hc, hc, hx]
  · have hl : b * Real.log 10.0 ≠ 0 := mul_ne_zero hb (by norm_num)
    rw [if_neg hb, cumulativeValue_fin _ _ _ _ _ _ hl hbp.ne', cumulativeValue_fin _ _ _ _ _ _ hl hbp.ne', fin_sub]
    rfl

/-- **C159** (partial): for a valid fault and region and a b-value other than zero the rates are those of exact arithmetic, and numbers. -/
theorem C159_rates_partial {msrX : XNum ℝ → Option (XNum ℝ) → Except PyErr (XNum ℝ)} {msr : ℝ → Option ℝ → Except PyErr ℝ} (ho : Spec.Ordinary msrX msr) {slip a b mn bw : ℝ}
    {reg : Region ℝ} {f : SimpleFault ℝ} {mx rake : Option ℝ} {scal : ℝ × ℝ} {trace : List (ℝ × ℝ)} {upp low dip : ℝ} (hf : mkFault trace upp low dip = .ok f)
    {id : String} {dm : WDict String ℝ} {ds dd : WDict ℝ ℝ} (hr : mkRegion id dm ds dd = .ok reg) (hb : b ≠ 0) :
    getMfd msrX (fin slip) (fin a) (frg reg) (ff f) (fin b) (fin mn) (fin bw) (mx.map fin) (rake.map fin) (fin scal.1, fin scal.2) =
      (getMfd msr slip a reg f b mn bw mx rake scal).map (List.map fin) := by
  rw [getMfd_fin ho hf hr]
  simp only [if_neg hb]

/-- **C159** (b-value zero): every rate is NaN. -/
theorem C159_zero_b {msrX : XNum ℝ → Option (XNum ℝ) → Except PyErr (XNum ℝ)} {msr : ℝ → Option ℝ → Except PyErr ℝ} (ho : Spec.Ordinary msrX msr) {slip a mn bw : ℝ}
    {reg : Region ℝ} {f : SimpleFault ℝ} {mx rake : Option ℝ} {scal : ℝ × ℝ} {trace : List (ℝ × ℝ)} {upp low dip : ℝ} (hf : mkFault trace upp low dip = .ok f)
    {id : String} {dm : WDict String ℝ} {ds dd : WDict ℝ ℝ} (hr : mkRegion id dm ds dd = .ok reg) {rates : List (XNum ℝ)}
    (h : getMfd msrX (fin slip) (fin a) (frg reg) (ff f) (fin 0) (fin mn) (fin bw) (mx.map fin) (rake.map fin) (fin scal.1, fin scal.2) = .ok rates) : ∀ r ∈ rates, r = nan := by
  rw [getMfd_fin ho hf hr] at h
  rcases hg : getMfd msr slip a reg f 0 mn bw mx rake scal with e | l <;> rw [hg] at h
  · cases h
  · obtain rfl := Except.ok.inj h
    intro r hr
    obtain ⟨x, -, rfl⟩ := List.mem_map.mp hr
    exact if_pos rfl

/-- A valid region and fault, and two magnitude bins. -/
theorem valid159 : mkRegion "005" (single "WC1994") (single (29 : ℝ)) (single (1.25e-5 : ℝ)) = .ok ⟨"005", single "WC1994", single 29, single 1.25e-5⟩ ∧
    mkFault [((90 : ℝ), (24 : ℝ)), (90, 23)] 0 10 90 = .ok ⟨[((90 : ℝ), (24 : ℝ)), (90, 23)], 0, 10, 90⟩ ∧
    ∀ (msr : ℝ → Option ℝ → Except PyErr ℝ) (b : ℝ), ∃ rates, getMfd msr 20 0.1 ⟨"005", single "WC1994", single 29, single 1.25e-5⟩ ⟨[((90 : ℝ), (24 : ℝ)), (90, 23)], 0, 10, 90⟩ b 5 0.5
      (some 6) none = .ok rates ∧ rates.length = 2 := by
  refine ⟨mkRegion_iff.mpr ⟨rfl, ["WC1994"], [1.0], [29], [1.0], [1.25e-5], [1.0], rfl, rfl, rfl, rfl, rfl, rfl, rfl, rfl, rfl, by simp, by simp, by simp; norm_num, by norm_num, by norm_num, by norm_num⟩,
    (C75_fault_validation [((90 : ℝ), (24 : ℝ)), (90, 23)] 0 10 90).1 ⟨by simp, by
    intro p hp
    simp only [List.mem_cons, List.not_mem_nil, or_false] at hp
    rcases hp with rfl | rfl <;> norm_num, by norm_num, by norm_num, by norm_num, by norm_num⟩, fun msr b => ?_⟩
  refine ⟨_, getMfd_eq (mmax := 6) (sm := 29) (dl := 1.25e-5) (by norm_num) (by norm_num) (by norm_num) rfl rfl rfl, ?_⟩
  rw [List.length_map, List.length_range]
  have : ((6 : ℝ) - 5) / 0.5 = ((2 : ℤ) : ℝ) := by norm_num
  rw [this, Int.ceil_intCast]
  rfl

/-- **C159** (refuted): with a b-value of zero the rates are not those of exact arithmetic but NaN. -/
theorem C159_rates_fails : ¬ ∀ (msrX : XNum ℝ → Option (XNum ℝ) → Except PyErr (XNum ℝ)) (msr : ℝ → Option ℝ → Except PyErr ℝ), Spec.Ordinary msrX msr →
    ∀ (slip a b mn bw : ℝ) (reg : Region ℝ) (f : SimpleFault ℝ) (mx rake : Option ℝ) (scal : ℝ × ℝ) (trace : List (ℝ × ℝ)) (upp low dip : ℝ), mkFault trace upp low dip = .ok f →
    ∀ (id : String) (dm : WDict String ℝ) (ds dd : WDict ℝ ℝ), mkRegion id dm ds dd = .ok reg →
    ∃ rates : Except PyErr (List ℝ), getMfd msrX (fin slip) (fin a) (frg reg) (ff f) (fin b) (fin mn) (fin bw) (mx.map fin) (rake.map fin) (fin scal.1, fin scal.2) =
      rates.map (List.map fin) := by
  intro h
  obtain ⟨hr, hf, hm⟩ := valid159
  have ho : Spec.Ordinary (fun _ _ => .error .typeError) (fun _ _ => .error .typeError) := fun _ _ => rfl
  obtain ⟨rates, h1⟩ := h _ _ ho 20 0.1 0 5 0.5 _ _ (some 6) none (16.05, 1.5) _ _ _ _ hf _ _ _ _ hr
  obtain ⟨l, hl, h2⟩ := hm (fun _ _ => .error .typeError) 0
  have h3 := getMfd_fin (slip := 20) (a := 0.1) (b := 0) (mn := 5) (bw := 0.5) (mx := some 6) (rake := none) (scal := (16.05, 1.5)) ho hf hr
  rw [hl] at h3
  rw [h3] at h1
  match l, h2 with
  | [x, y], _ =>
    rcases rates with e | l'
    · cases h1
    · cases l' with
      | nil => cases h1
      | cons z l' =>
        have := Except.ok.inj h1
        simp at this

/-- With the b-value 0.8 the two rates are numbers. -/
example : ∃ x y : ℝ, getMfd (fun _ _ => .error .typeError) (fin 20) (fin 0.1) (frg ⟨"005", single "WC1994", single 29, single 1.25e-5⟩) (ff ⟨[((90 : ℝ), (24 : ℝ)), (90, 23)], 0, 10, 90⟩) (fin 0.8)
    (fin 5) (fin 0.5) (some (fin 6)) none (fin 16.05, fin 1.5) = .ok [fin x, fin y] := by
  obtain ⟨hr, hf, hm⟩ := valid159
  obtain ⟨l, hl, h2⟩ := hm (fun _ _ => .error .typeError) 0.8
  have h3 := C159_rates_partial (msrX := fun _ _ => .error .typeError) (msr := fun _ _ => .error .typeError) (slip := 20) (a := 0.1) (b := 0.8) (mn := 5) (bw := 0.5) (mx := some 6)
    (rake := none) (scal := (16.05, 1.5)) (fun _ _ => rfl) hf hr (by norm_num)
  rw [hl] at h3
  match l, h2 with
  | [x, y], _ => exact ⟨x, y, h3⟩

/-! ### C160 -/

theorem le_fin_iff {x : XNum ℝ} {y : ℝ} : x ≤ fin y → x = inf true ∨ ∃ z, x = fin z := by
  intro h
  rcases x with z | s | _
  · exact .inr ⟨z, rfl⟩
  · exact .inl (congrArg inf h)
  · exact h.elim

theorem between {x : XNum ℝ} {a b : ℝ} (h1 : fin a ≤ x) (h2 : x ≤ fin b) : ∃ z, x = fin z := by
  rcases x with z | s | _
  · exact ⟨z, rfl⟩
  · have h1' : s = false := h1
    have h2' : s = true := h2
    rw [h1'] at h2'
    cases h2'
  · exact h1.elim

/-- **C160** (faults, partial): in a fault constructed from any numbers, infinities and NaN included, everything is an ordinary number, except that the lower depth may be infinite. -/
theorem C160_fault_partial {trace : List (XNum ℝ × XNum ℝ)} {upp low dip : XNum ℝ} {f : SimpleFault (XNum ℝ)} (h : mkFault trace upp low dip = .ok f) :
    (∀ p ∈ trace, ∃ x y, p = (fin x, fin y)) ∧ (∃ u, upp = fin u) ∧ (∃ d, dip = fin d) ∧ (low = inf false ∨ ∃ l, low = fin l) := by
  have h' : mkFault trace upp low dip = .ok ⟨trace, upp, low, dip⟩ := by
    rcases (mkFault_spec trace upp low dip).1 with h1 | h1
    · exact h1
    · rw [h] at h1; cases h1
  obtain ⟨-, ht, hu, hl, hul, hd0, hd1⟩ := (mkFault_spec trace upp low dip).2.1 h'
  simp only [fin_nat, fin_neg] at *
  refine ⟨fun p hp => ?_, ?_, ?_, ?_⟩
  · obtain ⟨⟨a, b⟩, c, d⟩ := ht p hp
    obtain ⟨x, hx⟩ := between a b
    obtain ⟨y, hy⟩ := between c d
    exact ⟨x, y, Prod.ext hx hy⟩
  · rcases upp with u | s | _
    · exact ⟨u, rfl⟩
    · have hs : s = false := hu
      subst hs
      rcases low with l | t | _
      · cases hul
      · exact absurd hul.1 (by simp)
      · exact hul.elim
    · exact hu.elim
  · rcases dip with d | s | _
    · exact ⟨d, rfl⟩
    · have h1 : s = false := hd0
      have h2 : s = true := hd1
      rw [h1] at h2
      cases h2
    · exact hd0.elim
  · rcases low with l | s | _
    · exact .inr ⟨l, rfl⟩
    · exact .inl (congrArg inf hl)
    · exact hl.elim

/-- **C160** (faults, refuted): an infinite lower depth is accepted. -/
theorem C160_fault_fails : ¬ ∀ (trace : List (XNum ℝ × XNum ℝ)) (upp low dip : XNum ℝ) (f : SimpleFault (XNum ℝ)), mkFault trace upp low dip = .ok f → ∃ l, low = fin l := by
  intro h
  have h1 := (mkFault_spec [((fin 90 : XNum ℝ), (fin 24 : XNum ℝ)), (fin 90, fin 23)] (fin 0) (inf false) (fin 90)).2.2 ⟨by simp, by
    intro p hp
    simp only [fin_nat, fin_neg]
    simp only [List.mem_cons, List.not_mem_nil, or_false] at hp
    rcases hp with rfl | rfl <;> simp only [fin_le] <;> norm_num, by simp only [fin_nat, fin_le]; norm_num, rfl, rfl, by simp only [fin_nat, fin_lt]; norm_num,
    by simp only [fin_nat, fin_le]; norm_num⟩
  obtain ⟨l, hl⟩ := h _ _ _ _ _ h1
  cases hl

theorem sum_fin {l : List (XNum ℝ)} {x : XNum ℝ} {z : ℝ} (h : l.foldl (· + ·) x = fin z) : (∃ a, x = fin a) ∧ ∀ w ∈ l, ∃ a, w = fin a := by
  induction l generalizing x with
  | nil => exact ⟨⟨z, h⟩, fun w hw => by cases hw⟩
  | cons y l ih =>
    obtain ⟨⟨a, ha⟩, hl⟩ := ih (x := x + y) h
    have : (∃ a, x = fin a) ∧ ∃ a, y = fin a := by
      rcases x with x | s | _ <;> rcases y with y | t | _
      · exact ⟨⟨x, rfl⟩, y, rfl⟩
      · cases ha
      · cases ha
      · cases ha
      · cases s <;> cases t <;> cases ha
      · cases ha
      · cases ha
      · cases ha
      · cases ha
    refine ⟨this.1, fun w hw => ?_⟩
    rcases List.mem_cons.mp hw with rfl | hw
    · exact this.2
    · exact hl w hw

theorem reduceSum_fin {l : List (XNum ℝ)} {s : XNum ℝ} (h : reduceSum l = .ok s) (hs : PyNum.decEq s (1.0 : XNum ℝ) = true) : ∀ w ∈ l, ∃ a, w = fin a := by
  cases l with
  | nil => cases h
  | cons x l =>
    have h1 : l.foldl (· + ·) x = s := Except.ok.inj h
    have hz : ∃ z, s = fin z := by
      rcases s with z | t | _
      · exact ⟨z, rfl⟩
      · cases hs
      · cases hs
    obtain ⟨z, rfl⟩ := hz
    obtain ⟨h2, h3⟩ := sum_fin h1
    intro w hw
    rcases List.mem_cons.mp hw with rfl | hw
    · exact h2
    · exact h3 w hw

/-- **C160** (regions, partial): in a region constructed from any numbers, infinities and NaN included, the weights are ordinary numbers, and the values ordinary positive numbers or plus infinity. -/
theorem C160_region_partial {id : String} {msr : WDict String (XNum ℝ)} {smod dlr : WDict (XNum ℝ) (XNum ℝ)} {r : Region (XNum ℝ)} (h : mkRegion id msr smod dlr = .ok r) :
    (∀ w, msr.weight = some w ∨ smod.weight = some w ∨ dlr.weight = some w → ∀ x ∈ w, ∃ a, x = fin a) ∧
    (∀ v, smod.vals = some v ∨ dlr.vals = some v → ∀ x ∈ v, x = inf false ∨ ∃ a, 0 < a ∧ x = fin a) := by
  obtain ⟨mv, mw, mo⟩ := msr
  obtain ⟨sv, sw, so⟩ := smod
  obtain ⟨dv, dw, d_o⟩ := dlr
  rcases mv with _ | mv
  · simp [mkRegion, checkLen, WDict.getVals, bind, Except.bind] at h
  rcases mw with _ | mw
  · simp [mkRegion, checkLen, WDict.getVals, WDict.getWeight, bind, Except.bind] at h
  rcases sv with _ | sv
  · simp [mkRegion, checkLen, WDict.getVals, WDict.getWeight, bind_ok_iff] at h
  rcases sw with _ | sw
  · simp [mkRegion, checkLen, WDict.getVals, WDict.getWeight, bind_ok_iff] at h
  rcases dv with _ | dv
  · simp [mkRegion, checkLen, WDict.getVals, WDict.getWeight, bind_ok_iff] at h
  rcases dw with _ | dw
  · simp [mkRegion, checkLen, WDict.getVals, WDict.getWeight, bind_ok_iff] at h
  simp only [mkRegion, checkLen, WDict.getVals, WDict.getWeight, bind_ok_iff, ensure_ok, Except.ok.injEq, exists_eq_left', exists_const, decide_eq_true_eq, checkWeights,
    pure, Except.pure, List.all_eq_true] at h
  obtain ⟨_, _, _, _, hsv, hdv, ⟨a, ha, b, hb, c, hc, h1, h2, h3⟩, _⟩ := h
  constructor
  · rintro w (h | h | h) <;> obtain rfl := Option.some.inj h
    · exact reduceSum_fin ha h1
    · exact reduceSum_fin hb h2
    · exact reduceSum_fin hc h3
  · have key : ∀ x : XNum ℝ, ((0 : ℕ) : XNum ℝ) < x → x = inf false ∨ ∃ a, 0 < a ∧ x = fin a := by
      intro x hx
      rcases x with x | s | _
      · exact .inr ⟨x, by simpa [fin_nat, fin_lt] using hx, rfl⟩
      · exact .inl (congrArg inf hx)
      · exact hx.elim
    rintro v (h | h) <;> obtain rfl := Option.some.inj h
    · exact fun x hx => key x (hsv x hx)
    · exact fun x hx => key x (hdv x hx)

/-- A fault and a region are constructed. -/
example : (∃ f, mkFault [((fin 90 : XNum ℝ), (fin 24 : XNum ℝ)), (fin 90, fin 23)] (fin 0) (fin 10) (fin 90) = .ok f) ∧
    ∃ r, mkRegion "005" (single "WC1994") (single (fin 29 : XNum ℝ)) (single (fin 1.25e-5 : XNum ℝ)) = .ok r := by
  refine ⟨⟨_, (mkFault_spec _ _ _ _).2.2 ⟨by simp, ?_, ?_, ?_, ?_, ?_, ?_⟩⟩, ?_⟩
  · intro p hp
    simp only [fin_nat, fin_neg]
    simp only [List.mem_cons, List.not_mem_nil, or_false] at hp
    rcases hp with rfl | rfl <;> simp only [fin_le] <;> norm_num
  all_goals try (simp only [fin_nat, fin_le, fin_lt]; norm_num)
  refine ⟨⟨"005", single "WC1994", single (fin 29), single (fin 1.25e-5)⟩, ?_⟩
  have h1 : ∀ x : ℝ, 0 < x → decide (((0 : ℕ) : XNum ℝ) < fin x) = true := fun x hx => by simpa [fin_nat, fin_lt] using hx
  have h2 : PyNum.decEq (1.0 : XNum ℝ) (1.0 : XNum ℝ) = true := by rw [fin_sci, fin_eq]; simp
  simp [mkRegion, checkLen, single, WDict.getVals, WDict.getWeight, checkWeights, reduceSum, ensure, supportedMsr, bind, Except.bind, pure, Except.pure, h1, h2]
  rw [if_pos (of_decide_eq_true (h1 _ (by norm_num)))]

end Verif.Fault
