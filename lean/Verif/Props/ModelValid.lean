import Verif.Props.ModelTyped
import Verif.Props.NrmlValid

/-!
# C221: the schema and the way numbers are typed
-/

namespace Verif.Nrml

open Verif Verif.EqCatalog Verif.Format Verif.Format.Spec Spec

mutual
theorem sameElem_symm : ∀ (e e' : Elem), SameElem e e' → SameElem e' e
  | .mk t a x cs, .mk t' a' x' cs', h => by
    cases h with
    | mk hx hcs =>
      have flip : ∀ {R : Text → Text → Prop} {x x' : Option Text}, (∀ y y', R y y' → R y' y) → Option.Rel R x x' → Option.Rel R x' x := by
        intro R x x' hR h
        cases h with
        | none => exact .none
        | some h => exact .some (hR _ _ h)
      have number : ∀ y y', SameNumber y y' → SameNumber y' y := fun y y' h => h.imp (fun ⟨v, h1, h2⟩ => ⟨v, h2, h1⟩) fun h => ⟨h.2, h.1⟩
      refine .mk ⟨fun h => flip number (hx.1 h), fun h => flip ?_ (hx.2.1 h), fun h => (hx.2.2 h).symm⟩ (sameElems_symm cs cs' hcs)
      rintro y y' ⟨ws, ws', h1, h2, h3⟩
      exact ⟨ws', ws, h2, h1, List.Forall₂.flip (h3.imp number)⟩
theorem sameElems_symm : ∀ (l l' : List Elem), SameElems l l' → SameElems l' l
  | [], l', h => by cases h; exact .nil
  | e :: l, [], h => by cases h
  | e :: l, e' :: l', h => by
    cases h with
    | cons h1 h2 => exact .cons (sameElem_symm e e' h1) (sameElems_symm l l' h2)
end

theorem same_mk {t : QName} {a : List (QName × Text)} {x : Option Text} {cs : List Elem} {e' : Elem} (h : SameElem (.mk t a x cs) e') :
    ∃ x' cs', e' = .mk t a x' cs' ∧ SameText t x x' ∧ SameElems cs cs' := by
  cases h with | mk h1 h2 => exact ⟨_, _, rfl, h1, h2⟩

theorem same_nil {l' : List Elem} (h : SameElems [] l') : l' = [] := by cases h; rfl

theorem same_cons {e : Elem} {l l' : List Elem} (h : SameElems (e :: l) l') : ∃ e' m', l' = e' :: m' ∧ SameElem e e' ∧ SameElems l m' := by
  cases h with | cons h1 h2 => exact ⟨_, _, rfl, h1, h2⟩

theorem same_append {l m n' : List Elem} (h : SameElems (l ++ m) n') : ∃ l' m', n' = l' ++ m' ∧ SameElems l l' ∧ SameElems m m' := by
  induction l generalizing n' with
  | nil => exact ⟨[], n', rfl, .nil, h⟩
  | cons e l ih =>
    obtain ⟨e', k', rfl, h1, h2⟩ := same_cons h
    obtain ⟨l', m', rfl, h3, h4⟩ := ih h2
    exact ⟨e' :: l', m', rfl, .cons h1 h3, h4⟩

theorem same_right {l l' : List Elem} (h : SameElems l l') {e' : Elem} (he : e' ∈ l') : ∃ e ∈ l, SameElem e e' := by
  induction l generalizing l' with
  | nil => rw [same_nil h] at he; cases he
  | cons e l ih =>
    obtain ⟨d, m, rfl, h1, h2⟩ := same_cons h
    rcases List.mem_cons.1 he with rfl | he
    · exact ⟨e, List.mem_cons_self, h1⟩
    · obtain ⟨f, hf, hs⟩ := ih h2 he
      exact ⟨f, List.mem_cons_of_mem _ hf, hs⟩

section
variable {K : Type} {num : Text → Option K} (H : ∀ t t', SameNumber t t' → num t = num t')

include H

theorem same_double {t : QName} (ht : t ∈ oneNumber) {e e' : Elem} (h : SameElem e e') (hd : Schema.Double (fun w => (num w).isSome) t e) : Schema.Double (fun w => (num w).isSome) t e' := by
  obtain ⟨a, x, rfl, hx⟩ := hd
  obtain ⟨x', cs', rfl, h1, h2⟩ := same_mk h
  rw [same_nil h2]
  cases h1.1 ht with
  | some hs => exact ⟨a, _, rfl, by simpa only [← H _ _ hs] using hx⟩

theorem same_doubles {t : QName} (ht : t ∈ numberList) {e e' : Elem} (h : SameElem e e') (hd : Schema.Doubles (fun w => (num w).isSome) t e) :
    Schema.Doubles (fun w => (num w).isSome) t e' := by
  obtain ⟨a, x, rfl, hx⟩ := hd
  obtain ⟨x', cs', rfl, h1, h2⟩ := same_mk h
  rw [same_nil h2]
  refine ⟨a, x', rfl, ?_⟩
  cases h1.2.1 ht with
  | none => exact .inl rfl
  | some hs =>
    obtain ⟨ws, ws', k1, k2, k3⟩ := hs
    rcases hx with hx | ⟨y, hy, hx⟩
    · cases hx
    obtain rfl := Option.some.inj hy
    refine .inr ⟨_, rfl, fun w' hw' => ?_⟩
    rw [words_split k1] at hx
    rw [words_split k2] at hw'
    obtain ⟨w, hw, hs⟩ := forall₂_mem_right k3 hw'
    simpa only [← H _ _ hs] using hx w hw

theorem same_rateModel {e e' : Elem} (h : SameElem e e') (hd : Schema.RateModel (fun w => (num w).isSome) e) : Schema.RateModel (fun w => (num w).isSome) e' := by
  obtain ⟨a, x, m, c1, c2, c3, rfl, hm, h1, h2, h3⟩ := hd
  obtain ⟨x', cs', rfl, -, hc⟩ := same_mk h
  obtain ⟨m', _, rfl, sm, hc⟩ := same_cons hc
  obtain ⟨c1', _, rfl, s1, hc⟩ := same_cons hc
  obtain ⟨c2', _, rfl, s2, hc⟩ := same_cons hc
  obtain ⟨c3', _, rfl, s3, hc⟩ := same_cons hc
  obtain rfl := same_nil hc
  refine ⟨a, x', m', c1', c2', c3', rfl, hm.imp (fun hm => ?_) (fun hm => same_doubles H (by decide) sm hm), same_double H (by decide) s1 h1, same_double H (by decide) s2 h2,
    same_double H (by decide) s3 h3⟩
  obtain ⟨b, y, d1, d2, d3, d4, rfl, k1, k2, k3, k4⟩ := hm
  obtain ⟨y', cs', rfl, -, hc⟩ := same_mk sm
  obtain ⟨d1', _, rfl, t1, hc⟩ := same_cons hc
  obtain ⟨d2', _, rfl, t2, hc⟩ := same_cons hc
  obtain ⟨d3', _, rfl, t3, hc⟩ := same_cons hc
  obtain ⟨d4', _, rfl, t4, hc⟩ := same_cons hc
  obtain rfl := same_nil hc
  exact ⟨b, y', d1', d2', d3', d4', rfl, same_double H (by decide) t1 k1, same_double H (by decide) t2 k2, same_double H (by decide) t3 k3, same_double H (by decide) t4 k4⟩

theorem same_areaSource {e e' : Elem} (h : SameElem e e') (hd : Schema.AreaSource (fun w => (num w).isSome) e) : Schema.AreaSource (fun w => (num w).isSome) e' := by
  obtain ⟨a, x, names, region, boundary, rates, depth, hypo, rfl, hn, hr, hb, hne, hrates, hdep, hh⟩ := hd
  obtain ⟨x', cs', rfl, -, hc⟩ := same_mk h
  obtain ⟨l, l2, rfl, hc, hc2⟩ := same_append hc
  obtain ⟨l, rates', rfl, hc, sr⟩ := same_append hc
  obtain ⟨names', l, rfl, sn, hc⟩ := same_append hc
  obtain ⟨region', _, rfl, sreg, hc⟩ := same_cons hc
  obtain ⟨boundary', _, rfl, sb, hc⟩ := same_cons hc
  obtain rfl := same_nil hc
  obtain ⟨depth', _, rfl, sd, hc2⟩ := same_cons hc2
  obtain ⟨hypo', _, rfl, sh, hc2⟩ := same_cons hc2
  obtain rfl := same_nil hc2
  refine ⟨a, x', names', region', boundary', rates', depth', hypo', rfl, fun n' hn' => ?_, ?_, ?_, ?_, fun r' hr' => ?_, ?_, same_double H (by decide) sh hh⟩
  · obtain ⟨n, h1, h2⟩ := same_right sn hn'
    obtain ⟨b, y, rfl⟩ := hn n h1
    obtain ⟨y', cs, rfl, -, h3⟩ := same_mk h2
    exact ⟨b, y', by rw [same_nil h3]⟩
  · obtain ⟨b, r, rfl, hr⟩ := hr
    obtain ⟨y', cs, rfl, h2, h3⟩ := same_mk sreg
    rw [same_nil h3, ← h2.2.2 (by decide)]
    exact ⟨b, r, rfl, hr⟩
  · obtain ⟨a0, x0, a1, x1, a2, x2, a3, x3, p, rfl, hp⟩ := hb
    obtain ⟨x0', _, rfl, -, hc⟩ := same_mk sb
    obtain ⟨e1, _, rfl, s1, hc⟩ := same_cons hc
    obtain rfl := same_nil hc
    obtain ⟨x1', _, rfl, -, hc⟩ := same_mk s1
    obtain ⟨e2, _, rfl, s2, hc⟩ := same_cons hc
    obtain rfl := same_nil hc
    obtain ⟨x2', _, rfl, -, hc⟩ := same_mk s2
    obtain ⟨e3, _, rfl, s3, hc⟩ := same_cons hc
    obtain rfl := same_nil hc
    obtain ⟨x3', _, rfl, -, hc⟩ := same_mk s3
    obtain ⟨p', _, rfl, sp, hc⟩ := same_cons hc
    obtain rfl := same_nil hc
    exact ⟨a0, x0', a1, x1', a2, x2', a3, x3', p', rfl, same_doubles H (by decide) sp hp⟩
  · rintro rfl
    cases rates with
    | nil => exact hne rfl
    | cons => cases sr
  · obtain ⟨r, h1, h2⟩ := same_right sr hr'
    exact same_rateModel H h2 (hrates r h1)
  · obtain ⟨b, y, m, d, rfl, h1, h2⟩ := hdep
    obtain ⟨y', _, rfl, -, hc⟩ := same_mk sd
    obtain ⟨m', _, rfl, s1, hc⟩ := same_cons hc
    obtain ⟨d', _, rfl, s2, hc⟩ := same_cons hc
    obtain rfl := same_nil hc
    exact ⟨b, y', m', d', rfl, same_doubles H (by decide) s1 h1, same_doubles H (by decide) s2 h2⟩

theorem same_document {e e' : Elem} (h : SameElem e e') (hd : Schema.Document (fun w => (num w).isSome) e) : Schema.Document (fun w => (num w).isSome) e' := by
  obtain ⟨a, x, a1, x1, configs, sources, rfl, h1, h2, h3⟩ := hd
  obtain ⟨x', _, rfl, -, hc⟩ := same_mk h
  obtain ⟨m, _, rfl, sm, hc⟩ := same_cons hc
  obtain rfl := same_nil hc
  obtain ⟨x1', _, rfl, -, hc⟩ := same_mk sm
  obtain ⟨configs', sources', rfl, k1, k2⟩ := same_append hc
  refine ⟨a, x', a1, x1', configs', sources', rfl, ?_, ?_, fun s' hs' => ?_⟩
  · rcases h1 with rfl | ⟨a2, x2, rfl⟩
    · exact .inl (same_nil k1)
    · obtain ⟨c, _, rfl, k, hc⟩ := same_cons k1
      obtain rfl := same_nil hc
      obtain ⟨x2', _, rfl, -, hc⟩ := same_mk k
      obtain rfl := same_nil hc
      exact .inr ⟨a2, x2', rfl⟩
  · rintro rfl
    cases sources with
    | nil => exact h2 rfl
    | cons => cases k2
  · obtain ⟨s, q1, q2⟩ := same_right k2 hs'
    exact same_areaSource H q2 (h3 s q1)

theorem same_valid [Zero K] [LE K] [Neg K] [NatCast K] {nc : Text → Prop} {e e' : Elem} (h : SameElem e e') (hv : Schema.Valid num nc e) : Schema.Valid num nc e' := by
  have hn := same_nodes e e' h
  refine ⟨same_document H h hv.elements, fun n' hn' => ?_, fun n' hn' x' hx' w' hw' v hv' => ?_, ?_⟩
  · obtain ⟨n, h1, h2⟩ := same_right hn hn'
    have := hv.attributes n h1
    cases h2
    exact this
  · obtain ⟨n, h1, h2⟩ := same_right hn hn'
    have hval := hv.values n h1
    rw [h2.tag_eq] at hval
    have ht := h2.text_same
    rw [h2.tag_eq, hx'] at ht
    unfold Schema.numbers at hw' hval
    by_cases hd : n'.tag = ⟨.nrml, "depth"⟩
    · rw [if_pos hd] at hw'
      simp only [if_pos hd] at hval
      have ht := ht.2.1 (by rw [hd]; decide)
      cases hx : n.text with
      | none => rw [hx] at ht; cases ht
      | some x =>
        rw [hx] at ht
        cases ht with
        | some ht =>
          obtain ⟨ws, ws', k1, k2, k3⟩ := ht
          rw [words_split k2] at hw'
          obtain ⟨w, hw, hs⟩ := forall₂_mem_right k3 hw'
          exact hval x hx w (by rw [words_split k1]; exact hw) v (by rw [H _ _ hs]; exact hv')
    · rw [if_neg hd] at hw'
      simp only [if_neg hd] at hval
      obtain rfl := List.mem_singleton.1 hw'
      by_cases ho : n'.tag ∈ oneNumber
      · have ht := ht.1 ho
        cases hx : n.text with
        | none => rw [hx] at ht; cases ht
        | some x =>
          rw [hx] at ht
          cases ht with
          | some ht => exact hval x hx x (List.mem_singleton.2 rfl) v (by rw [H _ _ ht]; exact hv')
      · unfold Schema.Range
        have : n'.tag ∉ [⟨.nrml, "bValue"⟩, ⟨.nrml, "depth"⟩, ⟨.nrml, "hypocentralDepth"⟩] ∧ n'.tag ≠ ⟨.nrml, "strike"⟩ ∧ n'.tag ≠ ⟨.nrml, "dip"⟩ ∧ n'.tag ≠ ⟨.nrml, "rake"⟩ := by
          refine ⟨fun k => ?_, fun k => ho (by rw [k]; decide), fun k => ho (by rw [k]; decide), fun k => ho (by rw [k]; decide)⟩
          simp only [List.mem_cons, List.not_mem_nil, or_false] at k
          rcases k with k | k | k
          · exact ho (by rw [k]; decide)
          · exact hd k
          · exact ho (by rw [k]; decide)
        rw [if_neg this.1, if_neg this.2.1, if_neg this.2.2.1, if_neg this.2.2.2]
        trivial
  · have ids : ∀ l l' : List Elem, SameElems l l' → (l.filterMap fun n => n.get ⟨.gml, "id"⟩) = l'.filterMap fun n => n.get ⟨.gml, "id"⟩ := by
      intro l
      induction l with
      | nil => intro l' h; rw [same_nil h]
      | cons n l ih =>
        intro l' h
        obtain ⟨n', m', rfl, k1, k2⟩ := same_cons h
        rw [List.filterMap_cons, List.filterMap_cons, k1.get_eq, ih m' k2]
    have := hv.once
    unfold Schema.identifiers at this ⊢
    rwa [← ids _ _ hn]

/-- **C221**: of two documents that say the same, both conform to the schema or neither does. -/
theorem C221_schema [Zero K] [LE K] [Neg K] [NatCast K] {nc : Text → Prop} {e e' : Elem} (h : SameElem e e') : Schema.Valid num nc e ↔ Schema.Valid num nc e' :=
  ⟨same_valid H h, same_valid H (sameElem_symm e e' h)⟩

end

/-! ### Cases -/

mutual
/-- Elements that are the same after writing and parsing without indentation. -/
def staysB : Elem → Bool
  | .mk _ _ x [] => decide (x ≠ some [])
  | .mk _ _ x (c :: cs) => decide (x = none) && staysB c && allStayB cs
def allStayB : List Elem → Bool
  | [] => true
  | c :: cs => staysB c && allStayB cs
end

mutual
theorem stays_of : ∀ e : Elem, staysB e = true → Reparse e e
  | .mk t a none [], _ => .leaf t a
  | .mk t a (some []) [], h => by simp [staysB] at h
  | .mk t a (some (c :: cs)) [], _ => .leafText t a c cs
  | .mk t a x (c :: cs), h => by
    rw [staysB] at h
    simp only [Bool.and_eq_true, decide_eq_true_eq] at h
    obtain ⟨⟨rfl, h1⟩, h2⟩ := h
    exact .node t a none c cs c cs (stays_of c h1) (allStay_of cs h2)
theorem allStay_of : ∀ l : List Elem, allStayB l = true → List.Forall₂ Reparse l l
  | [], _ => .nil
  | c :: cs, h => by
    rw [allStayB, Bool.and_eq_true] at h
    exact .cons (stays_of c h.1) (allStay_of cs h.2)
end

/-- Non-vacuity of C221_schema: a document that conforms to the schema, and so does the document with all numbers typed in other ways. -/
example : ∃ doc, serialize (pyNums (K := ℚ)) [okSource] = .ok doc ∧ Schema.Valid (pyNums (K := ℚ)).float (fun t => t ≠ []) doc ∧
    Schema.Valid (pyNums (K := ℚ)).float (fun t => t ≠ []) (Workflow.retype221 doc) := by
  have h : (match serialize (pyNums (K := ℚ)) [okSource] with
    | .ok doc => staysB doc && Workflow.sameElemB doc (Workflow.retype221 doc)
    | .error _ => false) = true := by decide +kernel
  cases hdoc : serialize (pyNums (K := ℚ)) [okSource] with
  | error e => rw [hdoc] at h; cases h
  | ok doc =>
    rw [hdoc] at h
    simp only [Bool.and_eq_true] at h
    have hv : Schema.Valid (pyNums (K := ℚ)).float (fun t => t ≠ []) doc := by
      rw [C90_valid_partial pyNums_lawful _ okSource [] doc doc hdoc (stays_of doc h.1)]
      refine ⟨?_, by decide, by decide, by decide⟩
      simp only [List.mem_singleton, forall_eq]
      exact ⟨⟨"Volcanic".toList, by decide, rfl⟩, ⟨"src1".toList, rfl, by decide⟩, ⟨"Mw".toList, by decide, rfl⟩,
        ⟨"Mw".toList, by decide, rfl⟩, by decide +kernel, by decide +kernel, by decide +kernel, by decide +kernel, by decide +kernel, by decide +kernel⟩
    refine ⟨doc, rfl, hv, (C221_schema (fun t t' hs => ?_) (Workflow.sameElemB_of _ _ h.2)).1 hv⟩
    show pyFloat (K := ℚ) t = pyFloat t'
    rcases hs with ⟨v, h1, h2⟩ | ⟨h1, h2⟩
    · rw [(C140_read t v).2 h1, (C140_read t' v).2 h2]
    · have none : ∀ t : Text, (∀ v : ℚ, ¬ Literal t v) → pyFloat (K := ℚ) t = none := fun t h => by
        cases hp : pyFloat (K := ℚ) t with
        | none => rfl
        | some v => exact absurd ((C140_read t v).1 hp) (h v)
      rw [none t h1, none t' h2]

end Verif.Nrml
