import Verif.Spec.Barred
import Verif.Model.UnwindRemove

/-!
# Where a borrow may interrupt `remove_node` and `drain`
-/

set_option autoImplicit false

namespace Svgdom

/-- The borrows of the caller can stop `remove_node(i)` only between two of its steps: no node of the subtree is borrowed, no neighbour of
`i` whose pointers must change, and no node with a reference to the subtree is borrowed shared. -/
structure Gentle (g : Guards) (s : St) (i : NodeId) : Prop where
  below : ∀ m, s.live m = true → s.InSubtree i m → g m = .free
  around : ¬ Guarded g (s.around i)
  citing : ∀ j m, s.live j = true → s.live m = true → s.InSubtree i m → s.Cites j m → g j ≠ .shared

/-- `t` arises from `s` by complete calls: of `remove_attribute` for references (with SVG names) from or to nodes of `S`, and of
`remove_node` for nodes of `T`. -/
inductive Toward (S T : NodeId → Prop) : St → St → Prop where
  | refl (s : St) : Toward S T s s
  | reference {s t u : St} {j : NodeId} {a : Attribute} : Toward S T s t → t.live j = true → a ∈ t.attributes j → a.isSvg = true →
      (S j ∧ a.value.plain = false ∨ ∃ m, S m ∧ a.value.refersTo m = true) → t.removeAttribute j a.name = .ok u → Toward S T s u
  | node {s t u : St} {c : NodeId} : Toward S T s t → t.live c = true → T c → t.removeNode c = .ok u → Toward S T s u

/-- The nodes that `drain(root, f)` removes: those at or below a match. -/
def Drained (s : St) (f : St → NodeId → Bool) (root m : NodeId) : Prop :=
  s.live m = true ∧ ∃ a, Match s f root a ∧ s.InSubtree a m

/-- The borrows of the caller can stop `drain(root, f)` only between two of its steps. -/
structure GentleDrain (g : Guards) (s : St) (f : St → NodeId → Bool) (root : NodeId) : Prop where
  below : ∀ m, s.live m = true → s.InSubtree root m → g m = .free
  citing : ∀ j m, s.live j = true → Drained s f root m → s.Cites j m → g j ≠ .shared

end Svgdom
