import Verif.Spec.Guard
import Verif.Spec.Remove

/-!
# Which borrows stand in the way of `remove_node`

Read off the state before the call.
-/

set_option autoImplicit false

namespace Svgdom

/-- Node `i` has an attribute with an SVG name that refers to `j`. -/
def St.Cites (s : St) (i j : NodeId) : Prop := ∃ a ∈ s.attributes i, a.isSvg = true ∧ a.value.refersTo j = true

/-- The caller has borrowed a node of `S`, or a node to which or from which a reference with an SVG name leads from or to a node of `S`;
or has mutably borrowed a node with any reference to a node of `S`. -/
def Barred (g : Guards) (s : St) (S : List NodeId) : Prop :=
  (∃ m ∈ S, g m ≠ .free) ∨
  (∃ m ∈ S, ∃ j, s.live j = true ∧ (s.Cites m j ∨ s.Cites j m) ∧ g j ≠ .free) ∨
  (∃ m ∈ S, ∃ j, s.live j = true ∧ s.LinksTo j m ∧ g j = .excl)

/-- The borrows that stand in the way of `remove_node(i)`: of a neighbour of `i` whose pointers must change; of a node of the subtree; of a
node outside that refers to the subtree or to which the subtree refers, by an attribute with an SVG name; and a mutable borrow of a node
that refers to the subtree by any attribute. -/
def InTheWay (g : Guards) (s : St) (i : NodeId) : Prop :=
  Guarded g (s.around i) ∨ ∃ m, s.live m = true ∧ s.InSubtree i m ∧ (g m ≠ .free ∨
    ∃ j, s.live j = true ∧ ((s.Cites m j ∨ s.Cites j m) ∧ g j ≠ .free ∨ s.LinksTo j m ∧ g j = .excl))

end Svgdom
