import Verif.Spec.Guard
import Verif.Spec.Remove

/-!
# Which borrows stand in the way of `copy_node` and `copy_node_deep`
-/

set_option autoImplicit false

namespace Svgdom

/-- Borrows that stand in the way of copying the one node `m`: a mutable one of `m`; if `m` is an element, any borrow of a node it
refers to. -/
def CopyBarred (g : Guards) (s : St) (m : NodeId) : Prop :=
  g m = .excl ∨ s.nodeType m = .element ∧ ∃ j, s.LinksTo m j ∧ g j ≠ .free

end Svgdom
