import Verif.Lemmas.Nrml

/-!
# Lemmas on the traversal of a document
-/

namespace Verif.Nrml

open Verif Verif.EqCatalog Spec

theorem areaSources_append (l m : List Elem) : areaSources (l ++ m) = areaSources l ++ areaSources m := by
  simp [areaSources]

theorem areaSources_cons_of {e : Elem} {l : List Elem} (h : e.tag = tAREA_SOURCE) :
    areaSources (e :: l) = e :: areaSources l := by simp [areaSources, h]

theorem areaSources_cons_not {e : Elem} {l : List Elem} (h : e.tag ≠ tAREA_SOURCE) :
    areaSources (e :: l) = areaSources l := by simp [areaSources, h]

mutual
theorem occ_snd (anc : Anc) : ∀ e : Elem, (occ anc e).map Prod.snd = areaSources e.nodes
  | .mk t a x cs => by
    have ih := occList_snd (((Elem.mk t a x []).get aGML_ID) :: anc) cs
    by_cases h : t = tAREA_SOURCE
    · rw [Elem.nodes, areaSources_cons_of (by simpa [Elem.tag] using h), occ, if_pos h]
      simp [ih]
    · rw [Elem.nodes, areaSources_cons_not (by simpa [Elem.tag] using h), occ, if_neg h]
      simp [ih]
theorem occList_snd (anc : Anc) : ∀ l : List Elem, (occList anc l).map Prod.snd = areaSources (Elem.nodesList l)
  | [] => rfl
  | c :: cs => by
    rw [occList, Elem.nodesList, List.map_append, areaSources_append, occ_snd anc c, occList_snd anc cs]
end

section
variable {F : Type} (nt : NumText F)

mutual
/-- A subtree without area sources yields nothing and is left as it is. -/
theorem readNode_none (anc : Anc) : ∀ e : Elem, areaSources e.nodes = [] → readNode nt anc e = .ok ([], e)
  | .mk t a x cs, h => by
    have ht : t ≠ tAREA_SOURCE := by
      intro ht
      rw [Elem.nodes, areaSources_cons_of (by simpa [Elem.tag] using ht)] at h
      cases h
    rw [Elem.nodes, areaSources_cons_not (by simpa [Elem.tag] using ht)] at h
    rw [readNode, readChildren_none _ cs h]
    simp [bind, Except.bind, ht]
theorem readChildren_none (anc : Anc) : ∀ l : List Elem, areaSources (Elem.nodesList l) = [] →
    readChildren nt anc l = .ok ([], l)
  | [], _ => by rw [readChildren]
  | c :: cs, h => by
    rw [Elem.nodesList, areaSources_append, List.append_eq_nil_iff] at h
    rw [readChildren, readNode_none anc c h.1, readChildren_none anc cs h.2]
    rfl
end

mutual
/-- The number of sources is the number of area source elements, nested or not. -/
theorem readNode_length (anc : Anc) : ∀ (e : Elem) (r : List (AreaSource F) × Elem), readNode nt anc e = .ok r →
    r.1.length = (areaSources e.nodes).length
  | .mk t a x cs, r, h => by
    rw [readNode] at h
    obtain ⟨q, hq, h⟩ := bind_ok h
    have ih := readChildren_length _ cs q hq
    by_cases ht : t = tAREA_SOURCE
    · rw [if_pos ht] at h
      obtain ⟨s, -, h⟩ := bind_ok h
      cases h
      rw [Elem.nodes, areaSources_cons_of (by simpa [Elem.tag] using ht)]
      simp [ih]
    · rw [if_neg ht] at h
      cases h
      rw [Elem.nodes, areaSources_cons_not (by simpa [Elem.tag] using ht)]
      exact ih
theorem readChildren_length (anc : Anc) : ∀ (l : List Elem) (r : List (AreaSource F) × List Elem),
    readChildren nt anc l = .ok r → r.1.length = (areaSources (Elem.nodesList l)).length
  | [], r, h => by rw [readChildren] at h; cases h; rfl
  | c :: cs, r, h => by
    rw [readChildren] at h
    obtain ⟨q, hq, h⟩ := bind_ok h
    obtain ⟨q', hq', h⟩ := bind_ok h
    cases h
    rw [Elem.nodesList, areaSources_append, List.length_append, List.length_append, readNode_length anc c q hq,
      readChildren_length anc cs q' hq']
end

/-- Nothing below an area source of `l` is an area source. -/
def NoNestList (l : List Elem) : Prop :=
  ∀ n ∈ Elem.nodesList l, n.tag = tAREA_SOURCE → areaSources (Elem.nodesList n.children) = []

mutual
/-- Without nesting, reading is parsing the area source elements one after the other in document order. -/
theorem readNode_occ (anc : Anc) : ∀ e : Elem, NotNested e →
    (readNode nt anc e).map Prod.fst = (occ anc e).mapM (fun p => parseAreaSource nt p.1 p.2)
  | .mk t a x cs, hn => by
    by_cases ht : t = tAREA_SOURCE
    · have h0 : areaSources (Elem.nodesList cs) = [] := by
        have := hn (.mk t a x cs) (by rw [Elem.nodes]; simp) (by simpa [Elem.tag] using ht)
        simpa [Elem.children] using this
      have h1 : occList (((Elem.mk t a x []).get aGML_ID) :: anc) cs = [] := by
        have := occList_snd (((Elem.mk t a x []).get aGML_ID) :: anc) cs
        rw [h0] at this
        simpa using this
      rw [readNode, readChildren_none nt _ cs h0, occ, if_pos ht, h1]
      simp only [bind, Except.bind, List.mapM_cons, List.mapM_nil, List.append_nil, if_pos ht]
      cases parseAreaSource nt anc (.mk t a x cs) <;> rfl
    · have hl : NoNestList cs := by
        intro n hm
        exact hn n (by rw [Elem.nodes]; exact List.mem_cons_of_mem _ hm)
      have ih := readChildren_occ (((Elem.mk t a x []).get aGML_ID) :: anc) cs hl
      rw [readNode, occ, if_neg ht, List.nil_append, ← ih]
      simp only [if_neg ht]
      cases readChildren nt (((Elem.mk t a x []).get aGML_ID) :: anc) cs <;> rfl
theorem readChildren_occ (anc : Anc) : ∀ l : List Elem, NoNestList l →
    (readChildren nt anc l).map Prod.fst = (occList anc l).mapM (fun p => parseAreaSource nt p.1 p.2)
  | [], _ => by rw [readChildren, occList]; rfl
  | c :: cs, hn => by
    have h1 : NotNested c := fun n hm => hn n (by rw [Elem.nodesList]; exact List.mem_append_left _ hm)
    have h2 : NoNestList cs := fun n hm => hn n (by rw [Elem.nodesList]; exact List.mem_append_right _ hm)
    have ih1 := readNode_occ anc c h1
    have ih2 := readChildren_occ anc cs h2
    rw [readChildren, occList, List.mapM_append, ← ih1, ← ih2]
    cases readNode nt anc c with
    | error e => rfl
    | ok r =>
      cases readChildren nt anc cs <;> rfl
end

end

mutual
theorem reparse_tags : ∀ e e' : Elem, Reparse e e' → e'.nodes.map Elem.tag = e.nodes.map Elem.tag
  | .mk t a x [], e', h => by
    rw [reparse_leaf h]; rfl
  | .mk t a x (c :: cs), e', h => by
    cases h with
    | node _ _ x' _ _ c' cs' h1 h2 =>
      simp only [Elem.nodes, Elem.nodesList, List.map_cons, List.map_append, reparse_tags c c' h1,
        reparse_tagsList cs cs' h2, Elem.tag]
theorem reparse_tagsList : ∀ l l' : List Elem, List.Forall₂ Reparse l l' →
    (Elem.nodesList l').map Elem.tag = (Elem.nodesList l).map Elem.tag
  | [], l', h => by rw [forall2_nil h]
  | c :: cs, l', h => by
    cases h with
    | cons h1 h2 =>
      simp only [Elem.nodesList, List.map_append, reparse_tags c _ h1, reparse_tagsList cs _ h2]
end

theorem areaSources_nil_iff (l : List Elem) : areaSources l = [] ↔ tAREA_SOURCE ∉ l.map Elem.tag := by
  simp only [areaSources, List.filter_eq_nil_iff, List.mem_map, decide_eq_true_eq]
  constructor
  · rintro h ⟨e, he, ht⟩; exact h e he ht
  · rintro h e he ht; exact h ⟨e, he, ht⟩

end Verif.Nrml
