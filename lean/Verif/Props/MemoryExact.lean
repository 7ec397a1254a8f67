import Verif.Props.Memory

/-!
# C73: which removed nodes are kept alive, exactly
-/

set_option autoImplicit false

namespace Svgdom

/-- C73, exact: after `remove_node` something refers to a node of the removed subtree exactly if before the call the node held a link
under a name that is not an SVG name, or a node held such a link to it. -/
theorem C73_iff {s t : St} (h : Reachable s) (ha : s.Acyclic) {i : NodeId} (hi : s.live i = true)
    (hr : ¬ s.InSubtree i s.rootId) (e : s.removeNode i = .ok t) {n : NodeId} (hn : s.live n = true) (hin : s.InSubtree i n) :
    t.strongRef n ↔ (∃ a ∈ s.attributes n, a.isSvg = false ∧ a.value.plain = false) ∨
      ∃ j, s.live j = true ∧ ∃ a ∈ s.attributes j, a.isSvg = false ∧ a.value.refersTo n = true := by
  obtain ⟨F, hF⟩ := C01_forest h
  obtain ⟨t', S, e', hS, hrm, hd⟩ := C20_remove h ha hF hi
  rw [e] at e'; cases e'
  have hI : Inv t := by
    obtain ⟨K, hK⟩ := trees_exist h.inv hF ha (F.kids i) fun c hc => (hF.wf.kids i hi c hc).1
    obtain ⟨t', e', h', _⟩ := removeNode_spec h.inv ha hF hi hK
    rw [e] at e'; cases e'; exact h'
  have hnS : n ∈ S := (hS n).2 ⟨hn, hin⟩
  have hlv : ∀ j, t.live j = s.live j := fun j => by rw [hrm.live]
  have hnt : t.live n = true := by rw [hlv]; exact hn
  have hplain : ∀ {v : AttributeValue} {m : NodeId}, v.refersTo m = true → v.plain = false := by
    intro v m; cases v <;> simp [AttributeValue.refersTo, AttributeValue.plain]
  have keep : ∀ {j : NodeId} {a : Attribute}, s.live j = true → a ∈ s.attributes j → a.isSvg = false → a ∈ t.attributes j := by
    intro j a hj hm hs
    rw [hrm.attrs j hj, List.mem_filter]
    exact ⟨hm, by simp [survives, hs]⟩
  constructor
  · rintro (hh | hh | ⟨j, hj, hh⟩)
    · rw [hh, hrm.rootId] at hin; exact absurd hin hr
    · exact absurd hnS ((hrm.stored n).1 hh).2
    · have hjs : s.live j = true := by rw [← hlv]; exact hj
      rcases hh with hh | hh | hh | ⟨a, ham, hh⟩
      · rw [hd.shows.first j hj] at hh
        have := (hd.wf.kids j hj n (List.mem_of_mem_head? hh)).2
        simp [Forest.prune, hnS] at this
      · rw [hd.shows.next j hj] at hh
        have hs := (hd.wf.sib j hj n (after_mem hh)).2.1
        have hm := hd.wf.self_mem j hj
        rw [← hs] at hm hh
        simp only [Forest.prune, hnS, if_true, List.mem_singleton] at hm hh
        subst hm
        simp [after] at hh
      · left
        have hc := hI.link.count n j hnt hj
        have : 0 < refs (t.attributes n) j := by rw [← hc]; exact List.count_pos_iff.2 hh
        obtain ⟨a, ham, har⟩ := refs_pos.1 this
        have har := refersTo_iff.2 har
        rw [hrm.attrs n hn, List.mem_filter] at ham
        refine ⟨a, ham.1, ?_, hplain har⟩
        have := ham.2
        simp only [survives, hnS, hplain har] at this
        simpa using this
      · right
        rw [hrm.attrs j hjs, List.mem_filter] at ham
        refine ⟨j, hjs, a, ham.1, ?_, refersTo_iff.2 hh⟩
        have hx : (S.any fun m => a.value.refersTo m) = true := List.any_eq_true.2 ⟨n, hnS, refersTo_iff.2 hh⟩
        have := ham.2
        simp only [survives, hx] at this
        simpa using this
  · rintro (⟨a, ham, hs, hp⟩ | ⟨j, hj, a, ham, hs, hh⟩)
    · obtain ⟨k, hk⟩ : ∃ k, a.value.linkNode = some k := by
        cases hv : a.value <;> simp [hv, AttributeValue.plain, AttributeValue.linkNode] at hp ⊢
      have hkl := h.inv.link.targets n hn a ham k hk
      have hkt : t.live k = true := by rw [hlv]; exact hkl
      refine .inr (.inr ⟨k, hkt, .inr (.inr (.inl ?_))⟩)
      rw [← List.count_pos_iff, hI.link.count n k hnt hkt]
      exact refs_pos.2 ⟨a, keep hn ham hs, hk⟩
    · exact .inr (.inr ⟨j, by rw [hlv]; exact hj, .inr (.inr (.inr ⟨a, keep hj ham hs, refersTo_iff.1 hh⟩))⟩)

/-- Both cases: in the state of `C73_refuted` node 2 holds such a link and node 3 is its target. -/
example : ∃ s, Reachable s ∧ s.Acyclic ∧ s.live 1 = true ∧ ¬ s.InSubtree 1 s.rootId ∧ s.live 2 = true ∧ s.live 3 = true ∧
    s.InSubtree 1 2 ∧ s.InSubtree 1 3 ∧ (∃ a ∈ s.attributes 2, a.isSvg = false ∧ a.value.plain = false ∧ a.value.refersTo 3 = true) := by
  obtain ⟨s, h, e⟩ := exists_of_holds
    (ops := [.createElement (.id .Svg), .createElement (.id .Rect), .createElement (.id .LinearGradient), .append 0 1,
      .append 1 2, .append 1 3, .setId 3 ['g'], .setAttribute 2 ⟨.name ['x'], .link 3⟩])
    (p := fun s => s.acyclicB s.nextId && s.live 1 && decide (s.parent 2 = some 1) && decide (s.parent 3 = some 1) &&
      (s.live 2 && s.live 3 && decide (s.parent s.rootId = none) && decide (s.rootId ≠ 1)) &&
      ((s.attributes 2).any fun a => !a.isSvg && !a.value.plain && a.value.refersTo 3)) (by decide +kernel)
  simp only [Bool.and_eq_true, decide_eq_true_eq, List.any_eq_true, Bool.not_eq_true'] at e
  obtain ⟨⟨⟨⟨⟨h1, hl⟩, p2⟩, p3⟩, ⟨⟨l2, l3⟩, q1⟩, q2⟩, a, ha, ⟨r1, r2⟩, r3⟩ := e
  refine ⟨s, h, acyclic_of_check h.inv.liveBelow h1, hl, ?_, l2, l3, .single p2, .single p3, a, ha, r1, r2, r3⟩
  intro hc
  rcases Relation.ReflTransGen.cases_head hc with hc | ⟨b, hb, _⟩
  · exact q2 hc
  · have hb : s.parent s.rootId = some b := hb
    rw [q1] at hb; simp at hb

end Svgdom
