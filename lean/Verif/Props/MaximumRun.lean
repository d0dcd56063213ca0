import Verif.Props.RunNumbers
import Verif.Props.KijkoOutcome

/-!
# C198: the maximum magnitudes that a run writes
-/

namespace Verif.MaxMag

open Verif Verif.Np XNum

theorem clip_le {x lo hi : ℝ} (h : lo ≤ hi) : lo ≤ clip x lo hi ∧ clip x lo hi ≤ hi := by
  unfold clip
  split_ifs with h1 h2
  · exact ⟨le_rfl, h⟩
  · exact ⟨h, le_rfl⟩
  · exact ⟨not_lt.1 h1, not_lt.1 h2⟩

theorem clip_mono {x y lo hi : ℝ} (h : lo ≤ hi) (hxy : x ≤ y) : clip x lo hi ≤ clip y lo hi := by
  unfold clip
  split_ifs <;> linarith

/-- Quantiles of larger probabilities are larger. -/
theorem mquantile_mono {l : List ℝ} {p p' q q' : ℝ} (hp : p ≤ p') (h : mquantile l p = .ok q) (h' : mquantile l p' = .ok q') : q ≤ q' := by
  have h10 : (1.0 : ℝ) = 1 := by norm_num
  have hs := npSort_sorted l
  unfold mquantile at h h'
  generalize npSort l = s at *
  rcases s with _ | ⟨a, _ | ⟨b, t⟩⟩
  · cases h
  · cases h; cases h'; exact le_rfl
  simp only [floorZ_real] at h h'
  generalize hL : a :: b :: t = L at *
  have hN2 : 2 ≤ L.length := by rw [← hL]; simp
  have hal : (L.length : ℝ) * p + ((0.4 : ℝ) + p * (((1 : ℕ) : ℝ) - 0.4 - 0.4)) ≤ (L.length : ℝ) * p' + ((0.4 : ℝ) + p' * (((1 : ℕ) : ℝ) - 0.4 - 0.4)) := by
    have : (L.length : ℝ) * p ≤ L.length * p' := mul_le_mul_of_nonneg_left hp (by positivity)
    norm_num
    linarith
  generalize (L.length : ℝ) * p + _ = al at *
  generalize (L.length : ℝ) * p' + _ = al' at *
  have hN1 : ((1 : ℕ) : ℝ) ≤ ((L.length - 1 : ℕ) : ℝ) := by exact_mod_cast (by omega : 1 ≤ L.length - 1)
  have hc := clip_le (x := al) hN1
  have hc' := clip_le (x := al') hN1
  have hcm := clip_mono hN1 hal
  have hk1 : (1 : ℤ) ≤ ⌊clip al ((1 : ℕ) : ℝ) ((L.length - 1 : ℕ) : ℝ)⌋ := Int.le_floor.2 (by simpa using hc.1)
  have hk2 : ⌊clip al' ((1 : ℕ) : ℝ) ((L.length - 1 : ℕ) : ℝ)⌋ ≤ ((L.length - 1 : ℕ) : ℤ) := by
    have := (Int.floor_le _).trans hc'.2
    exact_mod_cast this
  have hkk := Int.floor_le_floor hcm
  generalize ⌊clip al ((1 : ℕ) : ℝ) ((L.length - 1 : ℕ) : ℝ)⌋ = k at *
  generalize ⌊clip al' ((1 : ℕ) : ℝ) ((L.length - 1 : ℕ) : ℝ)⌋ = k' at *
  clear hc hc' hcm
  have hget : ∀ i j, i ≤ j → j < L.length → L.getD i 0 ≤ L.getD j 0 := by
    intro i j hij hj
    rw [List.getD_eq_getElem?_getD, List.getD_eq_getElem?_getD, List.getElem?_eq_getElem hj, List.getElem?_eq_getElem (lt_of_le_of_lt hij hj)]
    rcases Nat.eq_or_lt_of_le hij with rfl | hij
    · exact le_rfl
    · exact List.pairwise_iff_getElem.1 hs i j _ hj hij
  have g0 := clip_le (x := al - k) (lo := ((0 : ℕ) : ℝ)) (hi := ((1 : ℕ) : ℝ)) (by norm_num)
  have g1 := clip_le (x := al' - k') (lo := ((0 : ℕ) : ℝ)) (hi := ((1 : ℕ) : ℝ)) (by norm_num)
  rw [Except.ok.injEq] at h h'
  rcases hkk.eq_or_lt with rfl | hlt
  · have g2 := clip_mono (lo := ((0 : ℕ) : ℝ)) (hi := ((1 : ℕ) : ℝ)) (by norm_num) (sub_le_sub_right hal (k : ℝ))
    have hA := hget (k.toNat - 1) k.toNat (by omega) (by omega)
    rw [← h, ← h']
    generalize L.getD (k.toNat - 1) 0 = u at *
    generalize L.getD k.toNat 0 = v at *
    generalize clip (al - k) ((0 : ℕ) : ℝ) ((1 : ℕ) : ℝ) = g at *
    generalize clip (al' - k) ((0 : ℕ) : ℝ) ((1 : ℕ) : ℝ) = g' at *
    have e : ∀ x : ℝ, ((1.0 : ℝ) - x) * u + x * v = u + x * (v - u) := fun x => by rw [h10]; ring
    rw [e, e]
    have := mul_le_mul_of_nonneg_right g2 (sub_nonneg.2 hA)
    linarith
  · have a1 := hget (k.toNat - 1) k.toNat (by omega) (by omega)
    have a2 := hget k.toNat (k'.toNat - 1) (by omega) (by omega)
    have a3 := hget (k'.toNat - 1) k'.toNat (by omega) (by omega)
    rw [← h, ← h']
    generalize L.getD (k.toNat - 1) 0 = u at *
    generalize L.getD k.toNat 0 = v at *
    generalize L.getD (k'.toNat - 1) 0 = u' at *
    generalize L.getD k'.toNat 0 = v' at *
    generalize clip (al - k) ((0 : ℕ) : ℝ) ((1 : ℕ) : ℝ) = g at *
    generalize clip (al' - k') ((0 : ℕ) : ℝ) ((1 : ℕ) : ℝ) = g' at *
    rw [Nat.cast_zero, Nat.cast_one] at g0 g1
    have e : ∀ x u v : ℝ, ((1.0 : ℝ) - x) * u + x * v = u + x * (v - u) := fun x u v => by rw [h10]; ring
    rw [e, e]
    have h1 := mul_le_mul_of_nonneg_right g0.2 (sub_nonneg.2 a1)
    have h2 := mul_nonneg g1.1 (sub_nonneg.2 a3)
    linarith

/-- The smoothing factor is not negative. -/
theorem hSmooth_nonneg {l : List ℝ} {h : ℝ} (hok : hSmooth l = .ok h) : 0 ≤ h := by
  unfold hSmooth at hok
  obtain ⟨q0, h0, hok⟩ := Nrml.bind_ok hok
  obtain ⟨q1, h1, hok⟩ := Nrml.bind_ok hok
  have hm := mquantile_mono (by norm_num) h0 h1
  simp only [pure, Except.pure, Except.ok.injEq, rintZ_real] at hok
  rw [← hok]
  refine div_nonneg ?_ (by norm_num)
  have : 0 ≤ (100.0 : ℝ) * ((0.9 : ℝ) * ((q1 - q0) / 1.34) * PyMath.rpow (l.length : ℝ) (-(1.0 : ℝ) / 5.0)) := by
    have h2 : 0 ≤ PyMath.rpow (l.length : ℝ) (-(1.0 : ℝ) / 5.0) := by rw [rpow_real]; positivity
    have h3 : 0 ≤ (q1 - q0) / 1.34 := div_nonneg (sub_nonneg.2 hm) (by norm_num)
    positivity
  have h4 := Format.rintK_mono this
  rw [show rintK (0 : ℝ) = 0 by simpa using Format.rintK_int (K := ℝ) 0] at h4
  exact_mod_cast h4

/-- Computed with infinities and NaN, the estimator gives a number, or NaN; never an infinity. -/
theorem kijko_number_or_nan {mag sig : List ℝ} (hsig : mag.length ≤ sig.length) {neq n : ℕ} (h1 : 1 ≤ neq) (hn : 2 ≤ n) {tol : ℝ} (ht : 0 ≤ tol) (ht' : tol < 1e8) {maxIter fuel : ℕ} {m s : XNum ℝ}
    (h : kijko (mag.map fin) (sig.map fin) neq (fin (n : ℝ)) (fin tol) maxIter (fuel + 1) = some (.ok (m, s))) :
    (m = nan ∧ s = nan) ∨ ∃ m' s', m = fin m' ∧ s = fin s' ∧ kijko mag sig neq (n : ℝ) tol maxIter (fuel + 1) = some (.ok (m', s')) := by
  have hne : mag ≠ [] := by
    rintro rfl
    simp [kijko, npMax] at h
  obtain ⟨hf, hhf⟩ := hSmooth_succeeds (largest_ne_nil hne neq)
  obtain ⟨mmin, hmin⟩ := npMin_exists (largest_ne_nil hne neq)
  rcases (hSmooth_nonneg hhf).eq_or_lt with h0 | hpos
  · subst h0
    rw [C155_no_smoothing hne hsig h1 hn ht ht' hhf] at h
    cases h
    exact .inl ⟨rfl, rfl⟩
  · rcases C155_outcome sig h1 hn hhf hpos hmin ht maxIter (fuel + 1) with ⟨e, -⟩ | e
    · rw [e] at h
      cases h
      exact .inl ⟨rfl, rfl⟩
    · rw [e] at h
      rcases hk : kijko mag sig neq (n : ℝ) tol maxIter (fuel + 1) with _ | _ | ⟨m', s'⟩ <;> rw [hk] at h
      · cases h
      · cases h
      · cases h
        exact .inr ⟨m', s', rfl, rfl, rfl⟩

end Verif.MaxMag

namespace Verif.Workflow

open Verif Verif.EqCatalog Verif.Csv Verif.Nrml Verif.Declustering Verif.Recurrence Verif.MaxMag Spec XNum

namespace Spec

/-- Magnitude and uncertainty of an earthquake are ordinary numbers. -/
def MeasuredEntry (e : Entry (XNum ℝ)) : Prop :=
  ((∃ i, e .mw = .int i) ∨ ∃ m : ℝ, e .mw = .flt (fin m)) ∧ ((∃ i, e .sigmaMw = .int i) ∨ ∃ s : ℝ, e .sigmaMw = .flt (fin s))

/-- The estimator of Kijko with usual parameters: at least two sample points, at least one earthquake, a tolerance between 0 and 1E8. -/
def KijkoConfig (cfg : Config (XNum ℝ)) : Prop :=
  ∃ c n, ∃ tol : ℝ, cfg.maximumMagnitude = some c ∧ c.algorithm = "Kijko_Npg" ∧ 1 ≤ c.neq ∧ c.nsamp = fin ((n : ℕ) : ℝ) ∧ 2 ≤ n ∧ c.tolerance = fin tol ∧ 0 ≤ tol ∧ tol < 1e8

end Spec

/-- Magnitude and uncertainty of a row are ordinary numbers. -/
def MeasuredRow (r : Row (XNum ℝ)) : Prop := ∃ m s : ℝ, r 5 = fin m ∧ r 6 = fin s

theorem measuredRow_of {e : Entry (XNum ℝ)} {r : Row (XNum ℝ)} (h : RowOf e r) (ho : MeasuredEntry e) : MeasuredRow r := by
  have key : ∀ {v : Val (XNum ℝ)} {x : XNum ℝ}, IsNumber v x → ((∃ i, v = .int i) ∨ ∃ y : ℝ, v = .flt (fin y)) → ∃ y : ℝ, x = fin y := by
    rintro v x (rfl | ⟨i, rfl, rfl⟩) hv
    · rcases hv with ⟨i, h⟩ | ⟨y, h⟩
      · cases h
      · cases h; exact ⟨y, rfl⟩
    · exact ⟨i, rfl⟩
  obtain ⟨m, hm⟩ := key h.mw ho.1
  obtain ⟨s, hs⟩ := key h.sigmaMw ho.2
  exact ⟨m, s, hm, hs⟩

theorem measuredRows_of {es : List (Entry (XNum ℝ))} {all : List (Row (XNum ℝ))} (h : List.Forall₂ RowOf es all) (ho : ∀ e ∈ es, MeasuredEntry e) : ∀ r ∈ all, MeasuredRow r := by
  induction h with
  | nil => simp
  | cons hd _ ih =>
    intro r hr
    rcases List.mem_cons.1 hr with rfl | hr
    · exact measuredRow_of hd (ho _ (by simp))
    · exact ih (fun e he => ho e (by simp [he])) r hr

theorem measured_fin {rows : List (Row (XNum ℝ))} (h : ∀ r ∈ rows, MeasuredRow r) :
    ∃ mag sig : List ℝ, (rows.map fun r => r 5) = mag.map fin ∧ (rows.map fun r => r 6) = sig.map fin ∧ mag.length = sig.length := by
  induction rows with
  | nil => exact ⟨[], [], rfl, rfl, rfl⟩
  | cons r rows ih =>
    obtain ⟨mag, sig, h1, h2, h3⟩ := ih fun r hr => h r (by simp [hr])
    obtain ⟨m, s, hm, hs⟩ := h r (by simp)
    exact ⟨m :: mag, s :: sig, by simp [h1, hm], by simp [h2, hs], by simp [h3]⟩

/-- What the estimator gives holds of the result of the source. -/
theorem sourceRun_maximum {F : Type} [PyMath F] {x : Ext F} {cfg : Config F} {table : List (F × F)} {rows : List (Row F)} {P : F → Prop}
    (hP : ∀ c r n, cfg.maximumMagnitude = some c → analysis (rows.map fun r => ⟨r 0, r 5, r 6⟩) c (fun i k => x.normal (n + i * rows.length + k)) x.fuel = some (.ok r) → P r.1)
    {names : List String} {n n' : ℕ} {s t : AreaSource F} (h : SourceRun x cfg table rows names n s n' t) (hs : "MaximumMagnitude" ∈ names ∨ P s.rate.tgr.maxMagnitude) : P t.rate.tgr.maxMagnitude := by
  induction h with
  | nil n s => exact hs.resolve_left (by simp)
  | recurrence names n s n' t c g hc' hg _ ih =>
    refine ih ?_
    rcases hs with hs | hs
    · exact .inl (by simpa using hs)
    · exact .inr hs
  | maximum names n s n' t c r hc' hg _ ih => exact ih (.inr (hP c r n hc' hg))

theorem sourcesRun_maximum {F : Type} [PyMath F] {x : Ext F} {cfg : Config F} {p : Prep F} {P : F → Prop} (hin : "MaximumMagnitude" ∈ cfg.processingJobs)
    (hP : ∀ rows : List (Row F), (∀ r ∈ rows, r ∈ p.events) → ∀ c r n, cfg.maximumMagnitude = some c → analysis (rows.map fun r => ⟨r 0, r 5, r 6⟩) c (fun i k => x.normal (n + i * rows.length + k)) x.fuel = some (.ok r) → P r.1)
    {n n' : ℕ} {ss ts : List (AreaSource F)} (h : SourcesRun x cfg p n ss n' ts) : ∀ t ∈ ts, P t.rate.tgr.maxMagnitude := by
  induction h with
  | nil => simp
  | cons n s m t ss n' ts rows he hr _ ih =>
    intro q hq
    rcases List.mem_cons.1 hq with rfl | hq
    · refine sourceRun_maximum (hP rows fun r hr => ?_) hr (.inl hin)
      by_cases hcf : Configured cfg.sourceModelFile
      · obtain ⟨-, -, rfl, -⟩ := he.1 hcf
        exact (List.mem_filter.1 hr).1
      · rwa [he.2 hcf] at hr
    · exact ih q hq

/-- What a run writes as maximum magnitudes. -/
theorem run_maximum {x : Ext (XNum ℝ)} {cfg : Config (XNum ℝ)} {fs : Text → Option Content} {pos : ℕ} {w' : World (XNum ℝ)}
    (hpre : ∀ n ∈ cfg.preprocessingJobs, n = "GardnerKnopoff" ∨ n = "Afteran" ∨ n = "Stepp")
    (hproc : ∀ n ∈ cfg.processingJobs, n = "Recurrence" ∨ n = "MaximumMagnitude") (hin : "MaximumMagnitude" ∈ cfg.processingJobs) (hp : cfg.applyProcessing = true) (hc : KijkoConfig cfg) (hfuel : 0 < x.fuel)
    (h : main x cfg fs pos = some ⟨none, w'⟩) {Q : Entry (XNum ℝ) → Prop} {R : Row (XNum ℝ) → Prop}
    (hord : ∀ file es, fs cfg.eqCatalogFile = some (.text file) → readCatalogFile x.env x.ord file = .ok es → ∀ e ∈ es, MeasuredEntry e ∧ Q e) (hQ : ∀ e r, RowOf e r → Q e → R r) {P : XNum ℝ → Prop}
    (hP : ∀ (mag sig : List ℝ) (neq n maxIter fuel : ℕ) (tol : ℝ) (rows : List (Row (XNum ℝ))) (m s : XNum ℝ), mag.length = sig.length → 1 ≤ neq → 2 ≤ n → 0 ≤ tol → tol < 1e8 → (∀ r ∈ rows, R r) → (rows.map fun r => r 5) = mag.map fin →
      kijko (mag.map fin) (sig.map fin) neq (fin (n : ℝ)) (fin tol) maxIter (fuel + 1) = some (.ok (m, s)) → P m) :
    ∃ finals doc, serialize x.nums finals = .ok doc ∧ w'.fs cfg.resultFile = some (.xml doc) ∧ finals ≠ [] ∧ ∀ s ∈ finals, P s.rate.tgr.maxMagnitude := by
  obtain ⟨es, inputs, all, q, fs1, n, finals, doc, ⟨file, y, m, p, hfile, hes, hinp, hne, hrows, hy, hm, hch, he, hfl, -, ht, -, -⟩, hrun, -, hdoc, -, hfs⟩ :=
    (C145_run x cfg fs w'.fs pos hpre hproc).1 ⟨w', h, rfl⟩
  have hrun := hrun hp
  refine ⟨finals, doc, hdoc, by rw [hfs]; simp [put], ?_, sourcesRun_maximum hin ?_ hrun⟩
  · cases hrun with
    | nil => exact absurd rfl hne
    | cons => simp
  have hall := measuredRows_of hrows fun e he => (hord file es hfile hes e he).1
  have hallR : ∀ r ∈ all, R r := by
    have hord' := hord file es hfile hes
    clear * - hrows hord' hQ
    induction hrows with
    | nil => simp
    | cons hd _ ih =>
      intro r hr
      rcases List.mem_cons.1 hr with rfl | hr
      · exact hQ _ _ hd (hord' _ (by simp)).2
      · exact ih (fun e he => hord' e (by simp [he])) r hr
  obtain ⟨k1, -⟩ := prepares_chain_sub hch (fun r hr => hr)
  intro rows hsub c r n hcc ha
  have hsub' : ∀ r ∈ rows, r ∈ all := fun r hr => k1 r (by rw [← he]; exact hsub r hr)
  obtain ⟨c', n', tol, hc', halg, hneq, hns, hn, htol, ht0, ht1⟩ := hc
  obtain rfl : c = c' := by rw [hcc] at hc'; exact Option.some.inj hc'
  obtain ⟨mag, sig, e1, e2, e3⟩ := measured_fin fun r hr => hall r (hsub' r hr)
  obtain ⟨fuel, hf⟩ : ∃ f, x.fuel = f + 1 := ⟨x.fuel - 1, by omega⟩
  unfold analysis at ha
  rw [if_pos halg, List.map_map, List.map_map, hns, htol, hf] at ha
  change kijko (rows.map fun r => r 5) (rows.map fun r => r 6) _ _ _ _ _ = _ at ha
  rw [e1, e2] at ha
  exact hP mag sig c.neq n' c.maxIterations fuel tol rows r.1 r.2 e3 hneq hn ht0 ht1 (fun r hr => hallR r (hsub' r hr)) e1 ha

/-- **C198, what holds**: a run with the estimator of Kijko that ends without exception writes for every source a maximum magnitude that is an ordinary number or NaN, but no infinity.
Missing: that it is never NaN (`C198_equal`, `C198_fails`). -/
theorem C198_run_partial (x : Ext (XNum ℝ)) (cfg : Config (XNum ℝ)) (fs : Text → Option Content) (pos : ℕ) (w' : World (XNum ℝ))
    (hpre : ∀ n ∈ cfg.preprocessingJobs, n = "GardnerKnopoff" ∨ n = "Afteran" ∨ n = "Stepp")
    (hproc : ∀ n ∈ cfg.processingJobs, n = "Recurrence" ∨ n = "MaximumMagnitude") (hin : "MaximumMagnitude" ∈ cfg.processingJobs) (hp : cfg.applyProcessing = true) (hc : KijkoConfig cfg) (hfuel : 0 < x.fuel)
    (hord : ∀ file es, fs cfg.eqCatalogFile = some (.text file) → readCatalogFile x.env x.ord file = .ok es → ∀ e ∈ es, MeasuredEntry e) (h : main x cfg fs pos = some ⟨none, w'⟩) :
    ∃ finals doc, serialize x.nums finals = .ok doc ∧ w'.fs cfg.resultFile = some (.xml doc) ∧ finals ≠ [] ∧ ∀ s ∈ finals, s.rate.tgr.maxMagnitude = nan ∨ ∃ m : ℝ, s.rate.tgr.maxMagnitude = fin m := by
  refine run_maximum hpre hproc hin hp hc hfuel h (Q := fun _ => True) (R := fun _ => True) (fun file es h1 h2 e he => ⟨hord file es h1 h2 e he, trivial⟩) (fun _ _ _ _ => trivial)
    (P := fun v => v = nan ∨ ∃ m : ℝ, v = fin m) ?_
  intro mag sig neq n maxIter fuel tol rows m s h1 h2 h3 h4 h5 _ _ hk
  rcases kijko_number_or_nan h1.le h2 h3 h4 h5 hk with ⟨e, -⟩ | ⟨m', s', e, -⟩
  · exact .inl e
  · exact .inr ⟨m', e⟩

/-- **C198** is false in every such run on a catalogue of earthquakes of one magnitude, in particular of one earthquake: all maximum magnitudes that it writes are NaN. -/
theorem C198_equal (x : Ext (XNum ℝ)) (cfg : Config (XNum ℝ)) (fs : Text → Option Content) (pos : ℕ) (w' : World (XNum ℝ))
    (hpre : ∀ n ∈ cfg.preprocessingJobs, n = "GardnerKnopoff" ∨ n = "Afteran" ∨ n = "Stepp")
    (hproc : ∀ n ∈ cfg.processingJobs, n = "Recurrence" ∨ n = "MaximumMagnitude") (hin : "MaximumMagnitude" ∈ cfg.processingJobs) (hp : cfg.applyProcessing = true) (hc : KijkoConfig cfg) (hfuel : 0 < x.fuel) {M : ℝ}
    (hord : ∀ file es, fs cfg.eqCatalogFile = some (.text file) → readCatalogFile x.env x.ord file = .ok es → ∀ e ∈ es, MeasuredEntry e ∧ e .mw = .flt (fin M)) (h : main x cfg fs pos = some ⟨none, w'⟩) :
    ∃ finals doc, serialize x.nums finals = .ok doc ∧ w'.fs cfg.resultFile = some (.xml doc) ∧ finals ≠ [] ∧ ∀ s ∈ finals, s.rate.tgr.maxMagnitude = nan := by
  refine run_maximum hpre hproc hin hp hc hfuel h (Q := fun e => e .mw = .flt (fin M)) (R := fun r => r 5 = fin M) hord ?_ (P := fun v => v = nan) ?_
  · intro e r hr he
    rcases hr.mw with h | ⟨i, h, -⟩ <;> rw [he] at h
    · exact (Val.flt.inj h).symm
    · cases h
  intro mag sig neq n maxIter fuel tol rows m s h1 h2 h3 h4 h5 hR hm hk
  have hne : mag ≠ [] := by
    rintro rfl
    simp [kijko, Np.npMax] at hk
  have hM : ∀ g ∈ mag, g = M := by
    intro g hg
    have : fin g ∈ rows.map fun r => r 5 := by rw [hm]; exact List.mem_map.2 ⟨g, hg, rfl⟩
    obtain ⟨r, hr, hr5⟩ := List.mem_map.1 this
    rw [hR r hr] at hr5
    exact (XNum.fin.inj hr5).symm
  rw [C155_equal_magnitudes hne h1.le hM h2 h3 h4 h5] at hk
  cases hk
  rfl

/-! ### A run on one earthquake -/

/-- A catalogue of one earthquake. -/
def file198 : Text := writeRow (fieldNames.map (fun f => f.name.toList)) ++ writeRow (row162 "1980" "5")

/-- Its row. -/
noncomputable def rows198 : List (Row (XNum ℝ)) := [![fin 1980, fin 1, fin 10, fin 0, fin 0, fin 5, fin 0]]

theorem file198_rat : (readCatalogFile (ratEnv 2012) cpythonOrder file198).map (fun es => es.map fun e => fixedColumns.map e) =
    .ok [[.int 1980, .int 1, .int 10, .flt 0, .flt 0, .flt 5, .flt 0]] := by decide +kernel

theorem file198_loaded : ∃ es, readCatalogFile (ratEnv 2012).cast.ordinary cpythonOrder file198 = .ok es ∧ List.Forall₂ RowOf es rows198 ∧ ∀ e ∈ es, MeasuredEntry e ∧ e .mw = .flt (fin 5) := by
  have h := file198_rat
  rw [readCatalogFile_ordinary, readCatalogFile_cast]
  cases hr : readCatalogFile (ratEnv 2012) cpythonOrder file198 with
  | error err => rw [hr] at h; cases h
  | ok es =>
    rw [hr] at h
    simp only [Except.map, Except.ok.injEq] at h
    refine ⟨_, rfl, ?_⟩
    have hl : es.length = 1 := by simpa using congrArg List.length h
    obtain ⟨e1, rfl⟩ := List.length_eq_one_iff.1 hl
    simp only [List.map_cons, List.map_nil, fixedColumns, List.cons.injEq, and_true] at h
    obtain ⟨a1, a2, a3, a4, a5, a6, a7⟩ := h
    have hi : ∀ {e : Entry ℚ} {f i x}, e f = .int i → (x : XNum ℝ) = fin (i : ℝ) → IsNumber (e.cast.ordinary f) x := by
      intro e f i x h hx
      refine .inr ⟨i, ?_, hx⟩
      simp only [Entry.ordinary, Entry.cast, h, Val.cast, Val.ordinary]
    have hf : ∀ {e : Entry ℚ} {f} {q : ℚ} {x}, e f = .flt q → (x : XNum ℝ) = fin (q : ℝ) → IsNumber (e.cast.ordinary f) x := by
      intro e f q x h hx
      refine .inl ?_
      simp only [Entry.ordinary, Entry.cast, h, Val.cast, Val.ordinary, hx]
    have hv : ∀ {e : Entry ℚ} {f} {q : ℚ} {x : ℝ}, e f = .flt q → x = (q : ℝ) → e.cast.ordinary f = .flt (fin x) := by
      intro e f q x h hx
      simp only [Entry.ordinary, Entry.cast, h, Val.cast, Val.ordinary, hx]
    constructor
    · refine .cons ⟨hi a1 ?_, hi a2 ?_, hi a3 ?_, hf a4 ?_, hf a5 ?_, hf a6 ?_, hf a7 ?_⟩ .nil <;>
        refine congrArg fin ?_ <;> norm_num
    · intro e he
      simp only [List.map_cons, List.map_nil, List.mem_cons, List.not_mem_nil, or_false] at he
      subst he
      have h5 := hv (x := 5) a6 (by norm_num)
      exact ⟨⟨.inr ⟨5, h5⟩, .inr ⟨0, hv a7 (by norm_num)⟩⟩, h5⟩

/-- Infinities and NaN are printed as `inf` and `nan`, ordinary numbers otherwise. -/
noncomputable def x198 : Ext (XNum ℝ) where
  __ := x162
  nums := ⟨fun v => match v with | .nan => "nan".toList | .inf _ => "inf".toList | .fin _ => "1".toList, fun _ => none⟩

/-- No preprocessing, the estimator of Kijko. -/
noncomputable def config198 : Config (XNum ℝ) where
  eqCatalogFile := "catalogue.csv".toList
  pprocessingResultFile := none
  completenessTableFile := none
  sourceModelFile := none
  resultFile := "result.xml".toList
  applyProcessing := true
  preprocessingJobs := []
  processingJobs := ["MaximumMagnitude"]
  gardnerKnopoff := none
  afteran := none
  stepp := none
  recurrence := none
  maximumMagnitude := some { algorithm := "Kijko_Npg", tolerance := fin 0.05, maxIterations := 1000, neq := 100, nsamp := fin ((51 : ℕ) : ℝ), nboot := 200 }

def fs198 : Text → Option Content := fun p => if p = "catalogue.csv".toList then some (.text file198) else none

theorem fs198_catalogue : fs198 config198.eqCatalogFile = some (.text file198) := if_pos rfl

theorem config198_kijko : KijkoConfig config198 := ⟨_, 51, 0.05, rfl, rfl, by norm_num, rfl, by norm_num, rfl, by norm_num, by norm_num⟩

theorem config198_pre : ∀ n ∈ config198.preprocessingJobs, n = "GardnerKnopoff" ∨ n = "Afteran" ∨ n = "Stepp" := fun _ hn => by cases hn

theorem config198_proc : ∀ n ∈ config198.processingJobs, n = "Recurrence" ∨ n = "MaximumMagnitude" := fun _ hn => .inr (List.mem_singleton.1 hn)

theorem ord198 : ∀ file es, fs198 config198.eqCatalogFile = some (.text file) → readCatalogFile x198.env x198.ord file = .ok es → ∀ e ∈ es, MeasuredEntry e ∧ e .mw = .flt (fin 5) := by
  obtain ⟨es, k1, -, k2⟩ := file198_loaded
  rintro file es' hf he
  rw [fs198_catalogue] at hf
  cases hf
  rw [show x198.env = (ratEnv 2012).cast.ordinary from rfl, show x198.ord = cpythonOrder from rfl, k1] at he
  cases he
  exact k2

/-- The run ends without exception. -/
theorem run198 : ∃ w', main x198 config198 fs198 0 = some ⟨none, w'⟩ := by
  obtain ⟨es, h1, h2, -⟩ := file198_loaded
  have hnc : ∀ q : Prop, ¬ (q ∧ Configured (none : Option Text)) := by rintro q ⟨-, t, ht, -⟩; cases ht
  suffices h : ∃ fs', Run x198 config198 fs198 0 fs' by
    obtain ⟨fs', h⟩ := h
    obtain ⟨w', h, -⟩ := (C145_run x198 config198 fs198 fs' 0 config198_pre config198_proc).2 h
    exact ⟨w', h⟩
  have hmin : Np.npMin (rows198.map fun r => r 0) = .ok (fin (1980 : ℝ)) ∧ Np.npMin (rows198.map fun r => r 5) = .ok (fin (5 : ℝ)) := ⟨rfl, rfl⟩
  refine ⟨_, es, [placeholder], rows198, ⟨rows198, List.replicate 1 0, [(fin 1980, fin 5)]⟩, fs198, 0, _, _,
    ⟨file198, _, _, _, fs198_catalogue, h1, .inr ⟨?_, rfl⟩, by simp, h2, hmin.1, hmin.2, .nil _, rfl, rfl, fun h => absurd h (hnc _), fun _ => rfl,
      fun h => absurd h (hnc _), fun _ => rfl⟩,
    fun _ => .cons _ _ _ _ _ _ _ rows198 ⟨fun h => absurd ⟨trivial, h⟩ (hnc True), fun _ => rfl⟩ (.maximum _ _ _ _ _ _ (nan, nan) rfl ?_ (.nil _ _)) (.nil _),
    fun h => Bool.noConfusion (show true = false from h), rfl, ⟨rfl, rfl⟩, rfl⟩
  · exact fun h => hnc True ⟨trivial, h⟩
  · exact C155_equal_magnitudes (mag := [5]) (sig := [0]) (M := 5) (neq := 100) (n := 51) (tol := 0.05) (by simp) (by simp) (by simp) (by norm_num) (by norm_num) (by norm_num) (by norm_num) 1000 0

/-- **C198 fails**: on a catalogue of one earthquake of ordinary magnitude the run ends without exception and writes NaN as maximum magnitude. -/
theorem C198_fails : ¬ ∀ (x : Ext (XNum ℝ)) (cfg : Config (XNum ℝ)) (fs : Text → Option Content) (pos : ℕ) (w' : World (XNum ℝ)),
    (∀ n ∈ cfg.preprocessingJobs, n = "GardnerKnopoff" ∨ n = "Afteran" ∨ n = "Stepp") →
    (∀ n ∈ cfg.processingJobs, n = "Recurrence" ∨ n = "MaximumMagnitude") → "MaximumMagnitude" ∈ cfg.processingJobs → cfg.applyProcessing = true → KijkoConfig cfg → 0 < x.fuel →
    (∀ file es, fs cfg.eqCatalogFile = some (.text file) → readCatalogFile x.env x.ord file = .ok es → ∀ e ∈ es, MeasuredEntry e) → main x cfg fs pos = some ⟨none, w'⟩ →
    (∀ v m, (∀ m' : ℝ, v ≠ fin m') → x.nums.str v ≠ x.nums.str (fin m)) → ∀ finals doc, serialize x.nums finals = .ok doc → w'.fs cfg.resultFile = some (.xml doc) →
    ∀ s ∈ finals, ∃ m : ℝ, s.rate.tgr.maxMagnitude = fin m := by
  intro h
  obtain ⟨w', hw⟩ := run198
  obtain ⟨finals, doc, k1, k2, k3, k4⟩ := C198_equal x198 config198 fs198 0 w' config198_pre config198_proc (List.mem_singleton.2 rfl) rfl config198_kijko Nat.one_pos ord198 hw
  obtain ⟨s, hs⟩ := List.exists_mem_of_ne_nil finals k3
  have hstr : ∀ v m, (∀ m' : ℝ, v ≠ fin m') → x198.nums.str v ≠ x198.nums.str (fin m) := by
    intro v m hv
    cases v with
    | fin y => exact absurd rfl (hv y)
    | inf b => exact fun h => absurd (show "inf".toList = "1".toList from h) (by decide)
    | nan => exact fun h => absurd (show "nan".toList = "1".toList from h) (by decide)
  obtain ⟨m, hm⟩ := h x198 config198 fs198 0 w' config198_pre config198_proc (List.mem_singleton.2 rfl) rfl config198_kijko Nat.one_pos (fun f es h1 h2 e he => (ord198 f es h1 h2 e he).1) hw hstr finals doc k1 k2 s hs
  rw [k4 s hs] at hm
  cases hm

/-- The run writes an ordinary number or NaN. -/
example : ∃ w', main x198 config198 fs198 0 = some ⟨none, w'⟩ ∧
    ∃ finals doc, serialize x198.nums finals = .ok doc ∧ w'.fs "result.xml".toList = some (.xml doc) ∧ finals ≠ [] ∧ ∀ s ∈ finals, s.rate.tgr.maxMagnitude = nan ∨ ∃ m : ℝ, s.rate.tgr.maxMagnitude = fin m := by
  obtain ⟨w', hw⟩ := run198
  exact ⟨w', hw, C198_run_partial x198 config198 fs198 0 w' config198_pre config198_proc (List.mem_singleton.2 rfl) rfl config198_kijko Nat.one_pos (fun f es h1 h2 e he => (ord198 f es h1 h2 e he).1) hw⟩

end Verif.Workflow
