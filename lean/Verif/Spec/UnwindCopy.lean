import Verif.Model.UnwindCopy

/-!
# Specification for C109
-/

set_option autoImplicit false

namespace Svgdom

/-- From `s` to `t`, the nodes before number `n` have not changed, except that nodes from number `n` on may have entered or left their
lists of linked nodes; all stay alive and stored. -/
structure SameBefore (n : Nat) (s t : St) : Prop where
  links : ∀ j : Nat, j < n → t.links j = s.links j
  live : ∀ j : Nat, j < n → t.live j = s.live j
  data : ∀ j : Nat, j < n → t.data j = { s.data j with linkedNodes := t.linkedNodes j }
  back : ∀ j : Nat, j < n → (t.linkedNodes j).filter (fun m : Nat => m < n) = (s.linkedNodes j).filter (fun m : Nat => m < n)
  stored : ∀ k m, s.slab.get k = some m → t.slab.get k = some m
  rootId : t.rootId = s.rootId
  debug : t.debug = s.debug

/-- Whatever a node of `s` shows is the same in `t`, except that nodes that are new in `t` may refer to it. -/
structure Undisturbed (s t : St) : Prop where
  live : ∀ j, s.live j = true → t.live j = true
  stored : ∀ k j, s.slab.get k = some j → t.slab.get k = some j
  root : ∀ j, s.live j = true → t.root j = s.root j
  parent : ∀ j, s.live j = true → t.parent j = s.parent j
  firstChild : ∀ j, s.live j = true → t.firstChild j = s.firstChild j
  lastChild : ∀ j, s.live j = true → t.lastChild j = s.lastChild j
  prevSibling : ∀ j, s.live j = true → t.prevSibling j = s.prevSibling j
  nextSibling : ∀ j, s.live j = true → t.nextSibling j = s.nextSibling j
  content : ∀ j, s.live j = true → t.nodeType j = s.nodeType j ∧ t.tagName j = s.tagName j ∧ t.idOf j = s.idOf j ∧ t.text j = s.text j ∧
    t.attributes j = s.attributes j
  linked : ∀ j, s.live j = true → (t.linkedNodes j).filter (s.live ·) = s.linkedNodes j
  document : t.rootId = s.rootId

end Svgdom
