import Verif.Spec.Attrs
import Verif.Spec.Trees

/-!
# What copying nodes should do
-/

namespace Svgdom

/-- Node `n` of `t` is a copy of node `i` of `s`. -/
structure Copied (s t : St) (i n : NodeId) : Prop where
  type : t.nodeType n = s.nodeType i
  /-- elements: tag name and attributes, in order -/
  element : s.nodeType i = .element → t.tagName n = s.tagName i ∧ t.attributes n = s.attributes i ∧ t.text n = []
  /-- other nodes: text -/
  other : s.nodeType i ≠ .element → t.text n = s.text i ∧ t.attributes n = [] ∧ t.tagName n = .name []
  /-- ids are not copied -/
  id : t.idOf n = []

/-- `t` is `s` with the new nodes `new` (in order of creation): all other nodes are as before, except that the targets of the
links of new nodes have the new nodes in `linked_nodes`. Nothing is said about the tree. -/
structure Grown (s t : St) (new : List NodeId) : Prop where
  live : ∀ j, t.live j = true ↔ s.live j = true ∨ j ∈ new
  /-- the new nodes are numbered in order of creation -/
  order : new = List.range' s.nextId new.length
  next : t.nextId = s.nextId + new.length
  rootId : t.rootId = s.rootId
  debug : t.debug = s.debug
  ids : ∀ j, s.live j = true → t.idOf j = s.idOf j
  tags : ∀ j, s.live j = true → t.tagName j = s.tagName j
  texts : ∀ j, s.live j = true → t.text j = s.text j
  types : ∀ j, s.live j = true → t.nodeType j = s.nodeType j
  attrs : ∀ j, s.live j = true → t.attributes j = s.attributes j
  detached : ∀ j, s.live j = true → t.isDetached j = s.isDetached j
  newDetached : ∀ j ∈ new, t.isDetached j = false
  stored : ∀ n, n ∈ t.slab.nodes ↔ n ∈ s.slab.nodes ∨ n ∈ new
  linked : ∀ j, s.live j = true →
    t.linkedNodes j = s.linkedNodes j ++ new.flatMap fun n => List.replicate (refCount (t.attributes n) j) n

/-- `copy_node` is possible: not the document root, and every node referred to has an id. -/
def Copyable (s : St) (i : NodeId) : Prop :=
  s.nodeType i ≠ .root ∧
  (s.nodeType i = .element → ∀ a ∈ s.attributes i, ∀ m, a.value.refersTo m = true → s.idOf m ≠ [])

/-- Same shape, and the nodes of `U` in `t` are copies of the nodes of `T` in `s`. -/
def Trees.CopyOf (s t : St) : Trees → Trees → Prop
  | nil, nil => True
  | cons i K R, cons n K' R' => Copied s t i n ∧ Trees.CopyOf s t K K' ∧ Trees.CopyOf s t R R'
  | _, _ => False

end Svgdom
