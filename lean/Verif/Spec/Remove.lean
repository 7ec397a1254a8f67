import Verif.Spec.Forest
import Verif.Spec.Attrs
import Verif.Spec.Trees

/-!
# What removing a set of nodes should do
-/

namespace Svgdom

/-- The forest without the nodes `S`; the removed nodes become isolated. -/
def Forest.prune (F : Forest) (S : List NodeId) : Forest where
  kids := fun j => if j ∈ S then [] else (F.kids j).filter (fun c => decide (c ∉ S))
  sibs := fun j => if j ∈ S then [j] else (F.sibs j).filter (fun c => decide (c ∉ S))
  par := fun j => if j ∈ S then none else F.par j

/-- An attribute with an SVG name. -/
def Attribute.isSvg (a : Attribute) : Bool :=
  match a.name with
  | .id _ => true
  | .name _ => false

/-- Attribute `a` of node `j` stays when the nodes `S` are removed: it has no SVG name, or it is no reference from or to a removed
node. -/
def survives (S : List NodeId) (j : NodeId) (a : Attribute) : Bool :=
  !(a.isSvg && ((decide (j ∈ S) && !a.value.plain) || S.any fun n => a.value.refersTo n))

/-- `t` is `s` after removal of the nodes `S`, as far as node data and storage are concerned. -/
structure Removed (s t : St) (S : List NodeId) : Prop where
  live : t.live = s.live
  nextId : t.nextId = s.nextId
  rootId : t.rootId = s.rootId
  debug : t.debug = s.debug
  ids : ∀ j, t.idOf j = s.idOf j
  tags : ∀ j, t.tagName j = s.tagName j
  texts : ∀ j, t.text j = s.text j
  types : ∀ j, t.nodeType j = s.nodeType j
  /-- exactly the removed nodes are detached from the document -/
  detached : ∀ j, t.isDetached j = (s.isDetached j || decide (j ∈ S))
  stored : ∀ n, n ∈ t.slab.nodes ↔ n ∈ s.slab.nodes ∧ n ∉ S
  attrs : ∀ j, s.live j = true → t.attributes j = (s.attributes j).filter (survives S j)
  linked : ∀ j, s.live j = true → (t.linkedNodes j).Sublist (s.linkedNodes j)

/-! ## drain -/

/-- `f` looks only at type, tag name, id and text of the node. -/
def LooksAtNode (f : St → NodeId → Bool) : Prop :=
  ∀ s t n, t.nodeType n = s.nodeType n → t.tagName n = s.tagName n → t.idOf n = s.idOf n → t.text n = s.text n → f t n = f s n

/-- `a` is a match of `drain`: a proper descendant of `root` for which `f` holds. -/
def Match (s : St) (f : St → NodeId → Bool) (root a : NodeId) : Prop :=
  s.live a = true ∧ s.Ancestor root a ∧ f s a = true

/-- A match that is not inside another match. -/
def TopMatch (s : St) (f : St → NodeId → Bool) (root a : NodeId) : Prop :=
  Match s f root a ∧ ∀ b, Match s f root b → ¬ s.Ancestor b a

end Svgdom
