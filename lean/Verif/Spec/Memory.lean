import Verif.Model.Document

/-!
# Specification: memory

Nodes are reference counted. `first_child`, `next_sibling`, the values of link attributes and `linked_nodes` are strong references;
`parent`, `previous_sibling`, `last_child` and the cached root are weak.
-/

set_option autoImplicit false

namespace Svgdom

/-- The live node `j` holds a strong reference to `i`. -/
def St.Holds (s : St) (j i : NodeId) : Prop :=
  s.live j = true ∧
    (s.firstChild j = some i ∨ s.nextSibling j = some i ∨ i ∈ s.linkedNodes j ∨
      ∃ a ∈ s.attributes j, a.value.linkNode = some i)

/-- A live node holds a strong reference to `i`. -/
def St.nodeRef (s : St) (i : NodeId) : Prop := ∃ j, s.Holds j i

/-- `t` is `s` after some nodes to which nothing refers were freed. The document and all handles of the program are gone, so that
only nodes hold references. -/
inductive Freed (s : St) : St → Prop where
  | refl : Freed s s
  | step {t : St} (i : NodeId) : Freed s t → t.live i = true → ¬ t.nodeRef i → Freed s (t.free i)

end Svgdom
