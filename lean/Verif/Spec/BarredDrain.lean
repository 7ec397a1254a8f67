import Verif.Spec.Barred
import Verif.Spec.Forest

/-!
# Which borrows stand in the way of `drain`

Read off the state before the call.
-/

set_option autoImplicit false

namespace Svgdom

/-- A borrow stands in the way of taking node `m` out of use: of `m`; of a node that refers to `m` or to which `m` refers, by an attribute
with an SVG name; or a mutable borrow of a node that refers to `m` by any attribute. -/
def NodeBarred (g : Guards) (s : St) (m : NodeId) : Prop :=
  g m ≠ .free ∨ ∃ j, s.live j = true ∧ ((s.Cites m j ∨ s.Cites j m) ∧ g j ≠ .free ∨ s.LinksTo j m ∧ g j = .excl)

/-- `x` gets new pointers when `drain` takes `c` out of the children of its parent, which stand in `F`: the next sibling, and the nearest
sibling before `c` that does not match; the parent where there is none. -/
def DrainEdge (F : Forest) (q : NodeId → Bool) (c x : NodeId) : Prop :=
  ∃ p a b, F.par c = some p ∧ F.kids p = a ++ c :: b ∧ (x = b.head?.getD p ∨ x = (a.filter fun y => !q y).getLast?.getD p)

/-- The borrows that stand in the way of `drain(root, f)`: a mutable one of the root or of a node below; of a node that loses a removed
neighbour; and those of `NodeBarred` for a removed node. -/
def DrainBarred (g : Guards) (s : St) (F : Forest) (f : St → NodeId → Bool) (root : NodeId) : Prop :=
  (∃ m, s.live m = true ∧ s.InSubtree root m ∧ g m = .excl) ∨
  ∃ c, TopMatch s f root c ∧
    ((∃ x, DrainEdge F (f s) c x ∧ g x ≠ .free) ∨ ∃ m, s.live m = true ∧ s.InSubtree c m ∧ NodeBarred g s m)

end Svgdom
