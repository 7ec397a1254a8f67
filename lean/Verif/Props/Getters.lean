import Verif.Props.Kinds
import Verif.Props.Distinct

/-!
# C121: `has_parent` and `is_svg_element`
-/

set_option autoImplicit false

namespace Svgdom

/-- C121: `has_parent` is true exactly for the nodes that are the child of a node other than the root of the document. -/
theorem C121_parent {s : St} (h : Reachable s) {i : NodeId} (hi : s.live i = true) :
    s.hasParent i = true ↔ ∃ p, s.parent i = some p ∧ p ≠ s.rootId := by
  unfold St.hasParent
  cases hp : s.parent i with
  | none => simp
  | some p =>
    have := h.nodesOk.root p ((C01_neighbours h hi).2.2.2.2 hp).1
    simp only [St.isRoot, Bool.not_eq_true', decide_eq_false_iff_not, Option.some.injEq, exists_eq_left']
    exact not_congr this

/-- C121: in the document it is false exactly for the children of the root, besides the root itself. -/
theorem C121_top {s : St} (h : Reachable s) {i : NodeId} (hi : s.live i = true) (hd : s.InSubtree s.rootId i) (hr : i ≠ s.rootId) :
    s.hasParent i = false ↔ s.parent i = some s.rootId := by
  rw [← Bool.not_eq_true, C121_parent h hi]
  rcases Relation.ReflTransGen.cases_head hd with hh | ⟨p, hh, _⟩
  · exact absurd hh hr
  · have hh : s.parent i = some p := hh
    rw [hh]
    simp

/-- C121: `is_svg_element` is true exactly for the elements whose tag name is one of the ids. -/
theorem C121_element (s : St) (i : NodeId) : s.isSvgElement i = true ↔ s.nodeType i = .element ∧ ∃ e, s.tagName i = .id e := by
  simp only [St.isSvgElement, St.isElement, St.tagId, Bool.and_eq_true, decide_eq_true_eq]
  cases s.tagName i <;> simp

/-- C121: in debug builds the type need not be asked for. -/
theorem C121_debug {s : St} (h : Reachable s) (hd : s.debug = true) {i : NodeId} (hi : s.live i = true) :
    s.isSvgElement i = true ↔ ∃ e, s.tagName i = .id e := by
  rw [C121_element]
  refine ⟨fun x => x.2, fun ⟨e, he⟩ => ⟨?_, e, he⟩⟩
  by_contra hne
  rw [(C119_others_partial h hd hi hne).1] at he
  cases he

/-- C121: all elements of a parsed document are SVG elements, and no other nodes are. -/
theorem C121_parsed {L : Lib} {debug : Bool} {x : Xml} {t : St} (e : parseSvg L debug x = .ok t) {j : NodeId} (hj : t.InTree j) :
    t.isSvgElement j = true ↔ t.nodeType j = .element := by
  rw [C121_element]
  exact ⟨fun h => h.1, fun h => ⟨h, (C88_parsed e hj).1 h⟩⟩

/-- An SVG element at the top, below it an element with another name, below it a comment. -/
example : ∃ s, Reachable s ∧ s.Acyclic ∧ s.debug = true ∧ s.live 1 = true ∧ s.live 2 = true ∧ s.live 3 = true ∧
    s.InSubtree s.rootId 1 ∧ s.InSubtree s.rootId 3 ∧ 1 ≠ s.rootId ∧ 3 ≠ s.rootId ∧ s.hasParent 1 = false ∧ s.hasParent 2 = true ∧ s.hasParent 3 = true ∧
    s.isSvgElement 1 = true ∧ s.isSvgElement 2 = false ∧ s.isSvgElement 3 = false := by
  obtain ⟨s, h, e⟩ := exists_of_holds (ops := [.createElement (.id .Svg), .createElement (.name ['m']), .createNode .comment ['c'],
      .append 0 1, .append 1 2, .append 2 3])
    (p := fun s => decide (s.nextId = 4) && s.acyclicB 4 && decide (s.debug = true ∧ s.live 1 = true ∧ s.live 2 = true ∧ s.live 3 = true) &&
      decide (s.parent 1 = some s.rootId ∧ s.parent 2 = some 1 ∧ s.parent 3 = some 2) &&
      decide (1 ≠ s.rootId ∧ 3 ≠ s.rootId ∧ s.hasParent 1 = false ∧ s.hasParent 2 = true ∧ s.hasParent 3 = true ∧
        s.isSvgElement 1 = true ∧ s.isSvgElement 2 = false ∧ s.isSvgElement 3 = false)) (by decide +kernel)
  simp only [Bool.and_eq_true, decide_eq_true_eq] at e
  obtain ⟨⟨⟨⟨h1, h2⟩, h3, h4, h5, h6⟩, p1, p2, p3⟩, rest⟩ := e
  have hb : ∀ j, s.live j = true → j < 4 := fun j hj => by rw [← h1]; exact h.inv.liveBelow j hj
  exact ⟨s, h, acyclic_of_check hb h2, h3, h4, h5, h6, .single p1, .head p3 (.head p2 (.single p1)), rest⟩

end Svgdom
