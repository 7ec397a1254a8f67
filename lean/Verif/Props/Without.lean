import Verif.Proof.Without
import Verif.Props.Twice
import Verif.Props.Remove

/-!
# C118: what is taken out of the document disappears from the output, and nothing else
-/

set_option autoImplicit false

namespace Svgdom

theorem erase_eq_filter {l : List NodeId} (h : l.Nodup) (i : NodeId) : l.erase i = l.filter (· ≠ i) := by
  rw [h.erase_eq_filter]
  refine List.filter_congr fun x _ => ?_
  by_cases hx : x = i <;> simp [hx]

/-- C118, `detach`: a node of the document is detached. What is written then is what was written before, without what was written for the
node; but if there is no other `href` below the top-level `svg` element, its declaration of `xlink` goes too. -/
theorem C118_detach {s : St} (h : Reachable s) (ha : s.Acyclic) {i : NodeId} (hi : s.live i = true) (hd : s.InSubtree s.rootId i)
    (hir : i ≠ s.rootId) (W : ValueWriter) {evs : List Ev} (hw : s.writeDom W = .ok evs) :
    ∃ u before part behind edges, s.detach i = .ok u ∧ s.edgeList i = .ok edges ∧ s.writeEdges W edges = .ok part ∧
      evs = before ++ part ++ behind ∧ (s.KeepsXlink i → u.writeDom W = .ok (before ++ behind)) ∧
      (¬ s.KeepsXlink i → ∃ b1 b2, before ++ behind = b1 ++ [xlinkDecl] ++ b2 ∧ u.writeDom W = .ok (b1 ++ b2)) := by
  obtain ⟨F, hF⟩ := C01_forest h
  obtain ⟨u, e⟩ := C03_no_panic h hi fun hx => ha i hi (.single hx)
  obtain ⟨G, hG, _, _, g3, g4, _⟩ := C03_detach h hi e hF
  have hl : ∀ j ∈ (Op.detach i).handles, s.live j = true := by simpa [Op.handles] using hi
  have hu : Reachable u := .call (.detach i) h hl e
  have hau : u.Acyclic := C05_step_partial h ha (.detach i) hl (by simp [Op.Safe]) e
  have hlive : u.live = s.live := by rw [detach_inv e]; rfl
  have hdata : u.data = s.data := by rw [detach_inv e]; rfl
  have hroot : u.rootId = s.rootId := by rw [detach_inv e]; rfl
  obtain ⟨before, part, behind, edges, r⟩ := without_written (F := F) (G := G) ⟨h, ha, hF⟩ ⟨hu, hau, hG⟩ hi hd hir W
    (fun j hj hx => by
      have hjl : u.live j = true := by rw [hlive]; exact hj
      have hji : j ≠ i := fun hh => hx.2 (hh ▸ .refl)
      refine ⟨hjl, ?_, by rw [hG.shows.parent j hjl, g4 j hji, hF.shows.parent j hj], ?_⟩
      · simp only [St.look, St.nodeType, St.tagName, St.idOf, St.attributes, St.text, hdata]
      · rw [g3 j, erase_eq_filter (hF.wf.kids_nodup hj)])
    (fun j _ => by simp only [St.idOf, hdata]) (fun j _ => by simp only [St.nodeType, hdata]) hroot hw
  exact ⟨u, before, part, behind, edges, e, r⟩

/-- C118, `remove_node`: the same, if nothing else in the document refers to the removed nodes. -/
theorem C118_remove {s : St} (h : Reachable s) (ha : s.Acyclic) {i : NodeId} (hi : s.live i = true) (hd : s.InSubtree s.rootId i)
    (hir : i ≠ s.rootId) (hn : ∀ j, s.live j = true → s.Rest i j → ∀ a ∈ s.attributes j, ∀ m, s.InSubtree i m → a.value.refersTo m = false)
    (W : ValueWriter) {evs : List Ev} (hw : s.writeDom W = .ok evs) :
    ∃ u before part behind edges, s.removeNode i = .ok u ∧ s.edgeList i = .ok edges ∧ s.writeEdges W edges = .ok part ∧
      evs = before ++ part ++ behind ∧ (s.KeepsXlink i → u.writeDom W = .ok (before ++ behind)) ∧
      (¬ s.KeepsXlink i → ∃ b1 b2, before ++ behind = b1 ++ [xlinkDecl] ++ b2 ∧ u.writeDom W = .ok (b1 ++ b2)) := by
  obtain ⟨F, hF⟩ := C01_forest h
  obtain ⟨u, S, e, hS, r, hG⟩ := C20_remove h ha hF hi
  have er : Op.run s (.removeNode i) = .ok u := e
  have hl : ∀ j ∈ (Op.removeNode i).handles, s.live j = true := by simpa [Op.handles] using hi
  have hu : Reachable u := .call (.removeNode i) h hl er
  have hau : u.Acyclic := C05_step_partial h ha (.removeNode i) hl (by simp [Op.Safe]) er
  obtain ⟨before, part, behind, edges, q⟩ := without_written (F := F) (G := F.prune S) ⟨h, ha, hF⟩ ⟨hu, hau, hG⟩ hi hd hir W
    (fun j hj hx => by
      have hjl : u.live j = true := by rw [r.live]; exact hj
      have hjS : j ∉ S := fun hh => hx.2 ((hS j).1 hh).2
      have hat : u.attributes j = s.attributes j := by
        rw [r.attrs j hj, List.filter_eq_self]
        intro a haj
        have : (S.any fun n => a.value.refersTo n) = false := by
          rw [List.any_eq_false]
          intro m hm
          rw [hn j hj hx a haj m ((hS m).1 hm).2]
          simp
        simp [survives, hjS, this]
      refine ⟨hjl, ?_, by rw [hG.shows.parent j hjl, hF.shows.parent j hj]; simp [Forest.prune, hjS], ?_⟩
      · simp only [St.look, r.types, r.tags, r.ids, hat, r.texts]
      · simp only [Forest.prune, if_neg hjS]
        refine List.filter_congr fun c hc => ?_
        obtain ⟨hcl, hcp⟩ := hF.wf.kids j hj c hc
        rw [decide_eq_decide, hS c]
        refine not_congr ⟨fun hh => ?_, fun hh => ⟨hcl, hh ▸ .refl⟩⟩
        rcases Relation.ReflTransGen.cases_head hh.2 with hh | ⟨p, hp, hh⟩
        · exact hh
        · have : s.parent c = some j := by rw [hF.shows.parent c hcl]; exact hcp
          have hp : s.parent c = some p := hp
          rw [this] at hp
          cases hp
          exact absurd hh hx.2)
    (fun j _ => r.ids j) (fun j _ => r.types j) r.rootId hw
  exact ⟨u, before, part, behind, edges, e, q⟩

/-- A document with a rectangle and two elements `use`, the first of them in a group. -/
def withoutHistory : List Op :=
  [.createElement (.id .Svg), .createElement (.id .Rect), .createElement (.id .G), .createElement (.id .Use),
   .createElement (.id .Use), .append 0 1, .append 1 2, .append 1 3, .append 3 4, .append 1 5,
   .setId 2 ['r'], .setAttribute 4 ⟨.id .Href, .link 2⟩, .setAttribute 5 ⟨.id .Href, .link 2⟩]

/-- The group is detached: the declaration of `xlink` is kept; it goes with the last element `use`. In both cases the conditions of
C118_detach are met, for the group also those of C118_remove. -/
example : ∃ s t u, Reachable s ∧ s.Acyclic ∧ s.live 3 = true ∧ s.InSubtree s.rootId 3 ∧ 3 ≠ s.rootId ∧ s.KeepsXlink 3 ∧
    (∀ j, s.live j = true → s.Rest 3 j → ∀ a ∈ s.attributes j, ∀ m, s.InSubtree 3 m → a.value.refersTo m = false) ∧
    s.detach 3 = .ok t ∧ ¬ t.KeepsXlink 5 ∧ t.detach 5 = .ok u ∧
    s.writeDom sampleWriter = .ok ([.startElement st!"svg", .attribute st!"xmlns" st!"http://www.w3.org/2000/svg", xlinkDecl,
      .startElement st!"rect", .attribute st!"id" ['r'], .endElement] ++
      [.startElement ['g'], .startElement st!"use", .attributeRaw st!"xlink:href" st!"#r", .endElement, .endElement] ++
      [.startElement st!"use", .attributeRaw st!"xlink:href" st!"#r", .endElement, .endElement]) ∧
    t.writeDom sampleWriter = .ok ([.startElement st!"svg", .attribute st!"xmlns" st!"http://www.w3.org/2000/svg", xlinkDecl,
      .startElement st!"rect", .attribute st!"id" ['r'], .endElement] ++
      [.startElement st!"use", .attributeRaw st!"xlink:href" st!"#r", .endElement, .endElement]) ∧
    u.writeDom sampleWriter = .ok ([.startElement st!"svg", .attribute st!"xmlns" st!"http://www.w3.org/2000/svg",
      .startElement st!"rect", .attribute st!"id" ['r'], .endElement, .endElement]) := by
  obtain ⟨s, h, e⟩ := exists_of_holds (ops := withoutHistory)
    (p := fun s => decide (s.nextId = 6) && s.acyclicB 6 && s.live 3 && s.live 5 && decide (s.rootId = 0) &&
      decide (s.parent 0 = none ∧ s.parent 1 = some 0 ∧ s.parent 2 = some 1 ∧ s.parent 3 = some 1 ∧ s.parent 4 = some 3 ∧
        s.parent 5 = some 1) &&
      (List.range 6).all (fun j => (s.attributes j).all fun a => (List.range 6).all fun m => !a.value.refersTo m || decide (m = 2)) &&
      s.hasAttribute 5 (.id .Href) &&
      writes (s.writeDom sampleWriter) ([.startElement st!"svg", .attribute st!"xmlns" st!"http://www.w3.org/2000/svg", xlinkDecl,
      .startElement st!"rect", .attribute st!"id" ['r'], .endElement] ++
      [.startElement ['g'], .startElement st!"use", .attributeRaw st!"xlink:href" st!"#r", .endElement, .endElement] ++
      [.startElement st!"use", .attributeRaw st!"xlink:href" st!"#r", .endElement, .endElement]) &&
      okAnd (s.detach 3) (fun t =>
        decide (t.nextId = 6) && decide (t.rootId = 0) && decide (t.nodeType 1 = .element) && decide (t.tagName 1 = .id .Svg) &&
        decide (t.parent 0 = none ∧ t.parent 1 = some 0 ∧ t.parent 2 = some 1 ∧ t.parent 3 = none ∧ t.parent 4 = some 3 ∧
          t.parent 5 = some 1) &&
        t.live 5 && t.hasAttribute 5 (.id .Href) && !t.hasAttribute 1 (.id .Href) && !t.hasAttribute 2 (.id .Href) &&
        writes (t.writeDom sampleWriter) ([.startElement st!"svg", .attribute st!"xmlns" st!"http://www.w3.org/2000/svg", xlinkDecl,
          .startElement st!"rect", .attribute st!"id" ['r'], .endElement] ++
          [.startElement st!"use", .attributeRaw st!"xlink:href" st!"#r", .endElement, .endElement]) &&
        okAnd (t.detach 5) (fun u => writes (u.writeDom sampleWriter) ([.startElement st!"svg",
          .attribute st!"xmlns" st!"http://www.w3.org/2000/svg",
          .startElement st!"rect", .attribute st!"id" ['r'], .endElement, .endElement])))) (by decide +kernel)
  simp only [Bool.and_eq_true, decide_eq_true_eq, okAnd_iff, writes_iff, Bool.not_eq_true'] at e
  obtain ⟨⟨⟨⟨⟨⟨⟨⟨⟨n1, n2⟩, n3⟩, n4⟩, n5⟩, p0, p1, p2, p3, p4, p5⟩, n7⟩, n8⟩, n9⟩, t, n10,
    ⟨⟨⟨⟨⟨⟨⟨⟨⟨⟨m1, m2⟩, m3⟩, m4⟩, q0, q1, q2, q3, q4, q5⟩, m6⟩, m7⟩, m8⟩, m9⟩, m10⟩, u, m11, m12⟩⟩ := e
  have hb : ∀ j, s.live j = true → j < 6 := fun j hj => by rw [← n1]; exact h.inv.liveBelow j hj
  have ht : Reachable t := .call (.detach 3) h (by simpa [Op.handles] using n3) n10
  have hbt : ∀ j, t.live j = true → j < 6 := fun j hj => by rw [← m1]; exact ht.inv.liveBelow j hj
  have sub : ∀ {s : St} {a m p : NodeId}, s.parent m = some p → s.InSubtree a m → m = a ∨ s.InSubtree a p := by
    intro s a m p hp hx
    rcases Relation.ReflTransGen.cases_head hx with hh | ⟨q, hq, hh⟩
    · exact .inl hh
    · have hq : s.parent m = some q := hq
      rw [hp] at hq
      cases hq
      exact .inr hh
  have top : ∀ {s : St} {a m : NodeId}, s.parent m = none → s.InSubtree a m → m = a := by
    intro s a m hp hx
    rcases Relation.ReflTransGen.cases_head hx with hh | ⟨q, hq, hh⟩
    · exact hh
    · have hq : s.parent m = some q := hq
      rw [hp] at hq
      cases hq
  refine ⟨s, t, u, h, acyclic_of_check hb n2, n3, .head p3 (.single (n5 ▸ p1)), by rw [n5]; decide, ?_, ?_, n10, ?_, m11, n9, m10, m12⟩
  · intro a hai hap _ _ _
    have : a = 1 := by
      rcases Relation.TransGen.head'_iff.1 hai with ⟨q, hq, hx⟩
      have hq : s.parent 3 = some q := hq
      rw [p3] at hq
      cases hq
      rcases sub p1 hx with hh | hh
      · exact hh.symm
      · have := top p0 hh
        rw [← this, p0] at hap
        cases hap
    subst this
    refine ⟨5, n4, .single p5, fun hx => ?_, n8⟩
    rcases sub p5 hx with hh | hh
    · revert hh; decide
    · rcases sub p1 hh with hh | hh
      · revert hh; decide
      · have := top p0 hh
        revert this; decide
  · intro j hj _ a haj m hm
    by_contra hc
    have hc : a.value.refersTo m = true := by simpa using hc
    have hml := h.inv.link.targets j hj a haj m (refersTo_iff.1 hc)
    have := List.all_eq_true.1 n7 j (List.mem_range.2 (hb j hj))
    have := List.all_eq_true.1 this a haj
    have := List.all_eq_true.1 this m (List.mem_range.2 (hb m hml))
    rw [hc] at this
    have : m = 2 := by simpa using this
    subst this
    rcases sub p2 hm with hh | hh
    · revert hh; decide
    · rcases sub p1 hh with hh | hh
      · revert hh; decide
      · have := top p0 hh
        revert this; decide
  · intro hk
    obtain ⟨m, hm, h1, h2, h3⟩ := hk 1 (.single q5) (by rw [m2]; exact q1) m3 m4 ⟨5, m6, .refl, m7⟩
    have hm6 := hbt m hm
    have : m = 0 ∨ m = 1 ∨ m = 2 ∨ m = 3 ∨ m = 4 ∨ m = 5 := by
      clear * - hm6
      revert m
      decide
    rcases this with rfl | rfl | rfl | rfl | rfl | rfl
    · have := top q0 h1
      revert this; decide
    · rw [m8] at h3; cases h3
    · rw [m9] at h3; cases h3
    · have := top q3 h1
      revert this; decide
    · rcases sub q4 h1 with hh | hh
      · revert hh; decide
      · have := top q3 hh
        revert this; decide
    · exact h2 .refl

end Svgdom
