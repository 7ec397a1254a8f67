import Verif.Proof.Switch
import Verif.Props.Protocol

/-!
# C68: exactly when white space is left alone as it should be
-/

set_option autoImplicit false

namespace Svgdom

/-- C68: the XML writer is told to leave white space alone exactly in the content of `text` elements, if and only if no node called
`text` is inside of an element called `text`. There is no condition on the document. -/
theorem C68_iff {s : St} (h : Reachable s) (ha : s.Acyclic) (W : ValueWriter) {F : Forest} (hF : Describes s F) {T : Trees}
    (hT : T.Of F (F.kids s.rootId)) :
    ∃ evs name attrs, s.writeDom W = .ok evs ∧ (∀ i ∈ T.pre, s.IsName i (name i) ∧ s.writeAttributes W i = .ok (attrs i)) ∧
      (switched false evs = T.marked s name attrs false ↔ T.textInText s false = false) := by
  obtain ⟨T', _, name, attrs, hT', _, _, hall⟩ := C45_markup h ha W hF
  obtain rfl := hT.unique hT'
  have hr : s.live s.rootId = true := by obtain ⟨_, hti⟩ := h.inv.tree; exact hti.root
  have hty : s.nodeType s.rootId = .root := (h.nodesOk.root _ hr).2 rfl
  obtain ⟨T0, hT0, _, he, _⟩ := C07_traverse h ha hF hr
  obtain ⟨K, R, rfl, hK, hR⟩ := hT0.cons_list
  obtain rfl := hT.unique hK
  have hRn : R = .nil := by
    cases R with
    | nil => rfl
    | cons j k r => obtain ⟨l, e, _⟩ := hR; simp at e
  subst hRn
  have e1 := writeEdges_allCalls (W := W) T (fun i hi => (hall i hi).1) (fun i hi => (hall i hi).2.1)
  have hend : s.writeEdges W [.stop s.rootId] = .ok (s.writeEnd s.rootId) := by
    simp [St.writeEdges, bind, Except.bind, pure, Except.pure]
  have hsw : ∀ b, switched b (s.writeEnd s.rootId) = [] := by
    intro b
    by_cases hx : s.hasTagName s.rootId (.id .Text) = true <;> simp [St.writeEnd, St.isElement, hty, hx, switched]
  refine ⟨T.allCalls s name attrs ++ s.writeEnd s.rootId, name, attrs, ?_, fun i hi => ⟨(hall i hi).1, (hall i hi).2.1⟩, ?_⟩
  · have := writeEdges_append s W _ _ e1 hend
    simp only [St.writeDom, he, bind, Except.bind, Trees.edges, St.writeEdges, St.writeStart, hty, this, pure, Except.pure,
      List.nil_append]
  · rw [switched_append, hsw, List.append_nil]
    exact (switched_iff (s := s) (name := name) T (fun i hi => (hall i hi).2.2)).1.1

/-- The trees of the document of `nestedTextHistory`. -/
def nestedTrees : Trees := .cons 1 (.cons 2 (.cons 3 .nil (.cons 4 .nil .nil)) .nil) .nil

/-- Non-vacuity: both cases occur. -/
example : (∃ s F, Reachable s ∧ s.Acyclic ∧ Describes s F ∧ readTrees.Of F (F.kids s.rootId) ∧
      readTrees.textInText s false = false ∧ s.tagName 2 = .id .Text) ∧
    ∃ s F, Reachable s ∧ s.Acyclic ∧ Describes s F ∧ nestedTrees.Of F (F.kids s.rootId) ∧
      nestedTrees.textInText s false = true := by
  constructor
  · obtain ⟨s, h, e⟩ := exists_of_holds (ops := readHistory) (p := fun s =>
      (decide (s.nextId = 7) && s.acyclicB 7) && readTrees.check s (s.firstChild s.rootId) &&
      decide (readTrees.textInText s false = false) && decide (s.tagName 2 = .id .Text)) (by decide +kernel)
    simp only [Bool.and_eq_true, decide_eq_true_eq] at e
    obtain ⟨⟨⟨⟨e1, e2⟩, e3⟩, e4⟩, e5⟩ := e
    have hlt : ∀ i, s.live i = true → i < 7 := fun i hi => by rw [← e1]; exact h.inv.liveBelow i hi
    obtain ⟨F, hF⟩ := C01_forest h
    have hr : s.live s.rootId = true := by obtain ⟨_, hti⟩ := h.inv.tree; exact hti.root
    rw [hF.shows.first _ hr] at e3
    exact ⟨s, F, h, acyclic_of_check hlt e2, hF, check_of hF _ _ _ hr (List.suffix_refl _) e3, e4, e5⟩
  · obtain ⟨s, h, e⟩ := exists_of_holds (ops := nestedTextHistory) (p := fun s =>
      (decide (s.nextId = 5) && s.acyclicB 5) && nestedTrees.check s (s.firstChild s.rootId) &&
      nestedTrees.textInText s false) (by decide +kernel)
    simp only [Bool.and_eq_true, decide_eq_true_eq] at e
    obtain ⟨⟨⟨e1, e2⟩, e3⟩, e4⟩ := e
    have hlt : ∀ i, s.live i = true → i < 5 := fun i hi => by rw [← e1]; exact h.inv.liveBelow i hi
    obtain ⟨F, hF⟩ := C01_forest h
    have hr : s.live s.rootId = true := by obtain ⟨_, hti⟩ := h.inv.tree; exact hti.root
    rw [hF.shows.first _ hr] at e3
    exact ⟨s, F, h, acyclic_of_check hlt e2, hF, check_of hF _ _ _ hr (List.suffix_refl _) e3, e4⟩

end Svgdom
