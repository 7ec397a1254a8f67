import Verif.Spec.Users
import Verif.Model.Writer
import Verif.Spec.Acyclic

/-!
# Specification: removals in any order

A program that removes several nodes may come upon a node that has gone already: it was below another one, or it is met twice. The
changelog (0.16.1) says that such a call does nothing. `Agreeing` is what can be asked about two states.
-/

set_option autoImplicit false

namespace Svgdom

/-- No getter, no iterator and not the writer tells the states apart; also the order of `linked_nodes()` is the same. -/
structure Agreeing (s t : St) : Prop where
  live : s.live = t.live
  written : ∀ W, s.writeDom W = t.writeDom W
  look : ∀ i, s.live i = true → s.look i = t.look i
  detached : ∀ i, s.live i = true → s.isDetached i = t.isDetached i
  parent : ∀ i, s.live i = true → s.parent i = t.parent i
  first : ∀ i, s.live i = true → s.firstChild i = t.firstChild i
  last : ∀ i, s.live i = true → s.lastChild i = t.lastChild i
  next : ∀ i, s.live i = true → s.nextSibling i = t.nextSibling i
  prev : ∀ i, s.live i = true → s.prevSibling i = t.prevSibling i
  kids : ∀ i, s.live i = true → s.childList i = t.childList i
  below : ∀ i, s.live i = true → s.descendantList i = t.descendantList i
  root : ∀ i, s.live i = true → s.root i = t.root i
  users : ∀ i, s.live i = true → s.linkedNodes i = t.linkedNodes i

/-- The states are alike, and they stay alike whatever calls follow (none of them moving a node below itself or using a node that is
not there); such calls panic on both or on none. -/
def Forever (s t : St) : Prop :=
  Agreeing s t ∧ ∃ P : Picture, Abs s P ∧ Abs t P ∧ ∀ cs,
    (∀ Q, P.run cs = .state Q → ∃ u v, s.calls cs = .ok u ∧ t.calls cs = .ok v ∧ Agreeing u v) ∧
    (P.run cs = .panics → ∃ p q, s.calls cs = .error (.panic p) ∧ t.calls cs = .error (.panic q))

/-- The nodes `l` and all that is below them, before anything is removed. -/
def St.Covered (s : St) (l : List NodeId) (j : NodeId) : Prop := ∃ a ∈ l, s.InSubtree a j

end Svgdom
