import Verif.Proof.Vanish

/-!
# C116: a copy that is removed again leaves no trace
-/

set_option autoImplicit false

namespace Svgdom

/-- C116, `copy_node_deep`: the removal of the copy succeeds, and all nodes are as before the copy was made; also `linked_nodes()` is the
same for all of them exactly if the elements that were copied have no references under a name that SVG does not know. -/
theorem C116_deep_iff {s t : St} (h : Reachable s) (ha : s.Acyclic) {i n : NodeId} (hi : s.live i = true) (e : s.copyNodeDeep i = .ok (t, n)) :
    ∃ u, t.removeNode n = .ok u ∧ OldSame s u ∧
      (SameUsers s u ↔ ∀ j, s.live j = true → s.InSubtree i j → s.nodeType j = .element →
        ∀ a ∈ s.attributes j, a.value.plain = false → a.isSvg = true) := by
  obtain ⟨F, hF⟩ := C01_forest h
  have hc : ∀ j, s.live j = true → s.InSubtree i j → Copyable s j := by
    by_contra hc
    push Not at hc
    obtain ⟨p, hp⟩ := (C23_panics h ha hi).2 hc
    rw [e] at hp; cases hp
  obtain ⟨t', n', T, U, G, e', hG, hT, hU, cp, g, _, _, _, _, place⟩ := C23_deep h ha hF hi hc
  rw [e] at e'
  cases e'
  have er : Op.run s (.copyNodeDeep i) = .ok t := by simp [Op.run, e, Except.map]
  have hl : ∀ j ∈ (Op.copyNodeDeep i).handles, s.live j = true := by simpa [Op.handles] using hi
  have ht : Reachable t := .call (.copyNodeDeep i) h hl er
  have hat : t.Acyclic := C05_step_partial h ha (.copyNodeDeep i) hl (by simp [Op.Safe]) er
  have hnU : n ∈ U.pre := hU.mem_pre n (by simp)
  have hnl : t.live n = true := (g.live n).2 (.inr hnU)
  have hTl := pre_live hF hT (by simpa using hi)
  obtain ⟨r1, r2⟩ := copied_refs (P := fun j => s.InSubtree i j) (t := t) (new := U.pre) h
    (fun m hm => by
      obtain ⟨j, hj, c⟩ := copyOf_nodes cp m hm
      exact ⟨j, by simpa using (mem_pre hF hT (by simpa using hi) j (hTl j hj)).1 hj, hTl j hj, c⟩)
    (fun j hj hs => copyOf_sources cp j ((mem_pre hF hT (by simpa using hi) j hj).2 ⟨i, by simp, hs⟩))
  obtain ⟨u, e1, e2, e3⟩ := vanish h ha ht hat hF hG g hnU
    (fun j hj => by rw [mem_pre hG hU (by simpa using hnl) j hj]; simp) place
    (fun j hj => grow_tops h ha ⟨i, .inr rfl⟩ (by simpa [Call.mentions] using hi) er hj ((g.live j).2 (.inl hj))) r1
  exact ⟨u, e1, e2, e3.trans r2⟩

/-- C116, `copy_node`. -/
theorem C116_copy_iff {s t : St} (h : Reachable s) (ha : s.Acyclic) {i n : NodeId} (hi : s.live i = true) (e : s.copyNode i = .ok (t, n)) :
    ∃ u, t.removeNode n = .ok u ∧ OldSame s u ∧
      (SameUsers s u ↔ (s.nodeType i = .element → ∀ a ∈ s.attributes i, a.value.plain = false → a.isSvg = true)) := by
  obtain ⟨F, hF⟩ := C01_forest h
  have hc : Copyable s i := by
    by_contra hc
    obtain ⟨p, hp⟩ := (C22_panics h hi).2 hc
    rw [e] at hp; cases hp
  obtain ⟨t', n', e', hdead, hnl, c, g, _, hG, hpar, _, _, hfirst⟩ := C22_copy h hi hc
  rw [e] at e'
  cases e'
  have hG := hG F hF
  have er : Op.run s (.copyNode i) = .ok t := by simp [Op.run, e, Except.map]
  have hl : ∀ j ∈ (Op.copyNode i).handles, s.live j = true := by simpa [Op.handles] using hi
  have ht : Reachable t := .call (.copyNode i) h hl er
  have hat : t.Acyclic := C05_step_partial h ha (.copyNode i) hl (by simp [Op.Safe]) er
  have hne : ∀ j, s.live j = true → j ≠ n := by rintro j hj rfl; rw [hdead] at hj; cases hj
  have hT : (Trees.cons n .nil .nil).Of (F.add n) [n] := ⟨[], rfl, by simp [Forest.add, Trees.Of], rfl⟩
  obtain ⟨r1, r2⟩ := copied_refs (P := fun j => j = i) (t := t) (new := [n]) h
    (fun m hm => ⟨i, rfl, hi, by rw [List.mem_singleton.1 hm]; exact c⟩) (fun j _ hj => ⟨n, by simp, by rw [hj]; exact c⟩)
  obtain ⟨u, e1, e2, e3⟩ := vanish (n := n) h ha ht hat hF hG g (by simp)
    (fun j hj => by
      have := mem_pre hG hT (by simpa using hnl) j hj
      simp only [Trees.pre, List.append_nil, List.mem_singleton, exists_eq_left] at this
      rw [List.mem_singleton, this])
    (fun j hj => by simp [Forest.add, hne j hj])
    (fun j hj => grow_tops h ha ⟨i, .inl rfl⟩ (by simpa [Call.mentions] using hi) er hj ((g.live j).2 (.inl hj))) r1
  refine ⟨u, e1, e2, e3.trans (r2.trans ⟨fun hx => hx i hi rfl, ?_⟩)⟩
  rintro hx j - rfl
  exact hx

/-- A rectangle that uses a gradient, under the name `fill` and under a name that SVG does not know; and a group with such a rectangle
that has only the first reference. -/
def vanishHistory : List Op :=
  [.createElement (.id .Svg), .createElement (.id .LinearGradient), .createElement (.id .G), .createElement (.id .Rect),
   .createElement (.id .Rect), .append 0 1, .append 1 2, .append 1 3, .append 3 4, .append 1 5, .setId 2 ['g'],
   .setAttribute 4 ⟨.id .Fill, .link 2⟩, .setAttribute 5 ⟨.id .Fill, .link 2⟩, .setAttribute 5 ⟨.name ['q'], .link 2⟩]

/-- The copy succeeds and satisfies `p`. -/
def copyAnd (x : Except Err (St × NodeId)) (p : St → NodeId → Bool) : Bool :=
  match x with
  | .ok (t, n) => p t n
  | .error _ => false

theorem copyAnd_iff {x : Except Err (St × NodeId)} {p : St → NodeId → Bool} :
    copyAnd x p = true ↔ ∃ t n, x = .ok (t, n) ∧ p t n = true := by
  rcases x with _ | ⟨t, n⟩ <;> simp [copyAnd]

/-- C116 is false: a rectangle is copied and the copy is removed; the gradient has one more user than before. -/
theorem C116_refuted : ∃ s t u, Reachable s ∧ s.Acyclic ∧ s.live 5 = true ∧ s.live 2 = true ∧ s.copyNode 5 = .ok (t, 6) ∧
    t.removeNode 6 = .ok u ∧ s.linkedNodes 2 = [4, 5, 5] ∧ u.linkedNodes 2 = [4, 5, 5, 6] ∧ u.isDetached 6 = true := by
  obtain ⟨s, h, e⟩ := exists_of_holds (ops := vanishHistory)
    (p := fun s => decide (s.nextId = 6) && s.acyclicB 6 && s.live 5 && s.live 2 && decide (s.linkedNodes 2 = [4, 5, 5]) &&
      copyAnd (s.copyNode 5) (fun t n => decide (n = 6) && okAnd (t.removeNode 6) (fun u =>
        decide (u.linkedNodes 2 = [4, 5, 5, 6]) && u.isDetached 6))) (by decide +kernel)
  simp only [Bool.and_eq_true, decide_eq_true_eq, okAnd_iff, copyAnd_iff] at e
  obtain ⟨⟨⟨⟨⟨h1, h2⟩, h3⟩, h4⟩, h5⟩, t, n, h6, h7, u, h8, h9, h10⟩ := e
  subst h7
  exact ⟨s, t, u, h, acyclic_of_check (fun i hi => by rw [← h1]; exact h.inv.liveBelow i hi) h2, h3, h4, h6, h8, h5, h9, h10⟩

/-- The group can be copied and the copy removed without a trace; a copy of all of the document cannot. -/
example : ∃ s t n t' n', Reachable s ∧ s.Acyclic ∧ s.live 3 = true ∧ s.copyNodeDeep 3 = .ok (t, n) ∧ t.linkedNodes 2 = [4, 5, 5, 7] ∧
    (∃ u, t.removeNode n = .ok u ∧ u.linkedNodes 2 = [4, 5, 5]) ∧ s.copyNodeDeep 1 = .ok (t', n') ∧
    ∃ u, t'.removeNode n' = .ok u ∧ u.linkedNodes 2 = [4, 5, 5, 10] := by
  obtain ⟨s, h, e⟩ := exists_of_holds (ops := vanishHistory)
    (p := fun s => decide (s.nextId = 6) && s.acyclicB 6 && s.live 3 &&
      copyAnd (s.copyNodeDeep 3) (fun t n => decide (t.linkedNodes 2 = [4, 5, 5, 7]) && okAnd (t.removeNode n) (fun u =>
        decide (u.linkedNodes 2 = [4, 5, 5]))) &&
      copyAnd (s.copyNodeDeep 1) (fun t n => okAnd (t.removeNode n) (fun u => decide (u.linkedNodes 2 = [4, 5, 5, 10])))) (by decide +kernel)
  simp only [Bool.and_eq_true, decide_eq_true_eq, okAnd_iff, copyAnd_iff] at e
  obtain ⟨⟨⟨⟨h1, h2⟩, h3⟩, t, n, h6, h7, h8⟩, t', n', h9, h10⟩ := e
  exact ⟨s, t, n, t', n', h, acyclic_of_check (fun i hi => by rw [← h1]; exact h.inv.liveBelow i hi) h2, h3, h6, h7, h8, h9, h10⟩

end Svgdom
