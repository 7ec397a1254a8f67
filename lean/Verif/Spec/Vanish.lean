import Verif.Spec.Copy
import Verif.Spec.Remove
import Verif.Spec.Picture
import Verif.Model.Writer

/-!
# Specification: copies that are removed again

A program may copy a part of the document, look at the copy or change it, and remove it. `OldSame` says that the nodes that were there
before are as they were.
-/

set_option autoImplicit false

namespace Svgdom

/-- All nodes of `s` are there in `u`. No getter, no iterator and not the writer tells a difference, save perhaps `linked_nodes()`. -/
structure OldSame (s u : St) : Prop where
  live : ∀ j, s.live j = true → u.live j = true
  written : ∀ W, u.writeDom W = s.writeDom W
  look : ∀ j, s.live j = true → u.look j = s.look j
  detached : ∀ j, s.live j = true → u.isDetached j = s.isDetached j
  parent : ∀ j, s.live j = true → u.parent j = s.parent j
  first : ∀ j, s.live j = true → u.firstChild j = s.firstChild j
  last : ∀ j, s.live j = true → u.lastChild j = s.lastChild j
  next : ∀ j, s.live j = true → u.nextSibling j = s.nextSibling j
  prev : ∀ j, s.live j = true → u.prevSibling j = s.prevSibling j
  kids : ∀ j, s.live j = true → u.childList j = s.childList j
  below : ∀ j, s.live j = true → u.descendantList j = s.descendantList j
  root : ∀ j, s.live j = true → ∀ r, s.root j = .ok r → u.root j = .ok r
  stored : ∀ j, j ∈ u.slab.nodes ↔ j ∈ s.slab.nodes

/-- `linked_nodes()` of all nodes of `s` is the same, also its order. -/
def SameUsers (s u : St) : Prop := ∀ j, s.live j = true → u.linkedNodes j = s.linkedNodes j

end Svgdom
