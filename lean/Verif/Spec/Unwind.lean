import Verif.Model.Unwind

/-!
# Specification for C76, C77: what a panic may change
-/

set_option autoImplicit false

namespace Svgdom

/-- `t` has the same nodes with the same data as `s`; only links may differ. -/
structure OnlyLinks (s t : St) : Prop where
  live : t.live = s.live
  data : t.data = s.data
  slab : t.slab = s.slab
  rootId : t.rootId = s.rootId
  nextId : t.nextId = s.nextId
  debug : t.debug = s.debug

/-- The four methods that move a node. -/
inductive Mv where
  | append
  | prepend
  | insertAfter
  | insertBefore
deriving DecidableEq

/-- `x.append(y)` and so on, with the state that a panic leaves behind. -/
def Mv.runU : Mv → St → NodeId → NodeId → Except (Err × St) St
  | .append => St.appendU
  | .prepend => St.prependU
  | .insertAfter => St.insertAfterU
  | .insertBefore => St.insertBeforeU

/-- The same without that state (`Model/Tree.lean`). -/
def Mv.run : Mv → St → NodeId → NodeId → Except Err St
  | .append => St.append
  | .prepend => St.prepend
  | .insertAfter => St.insertAfter
  | .insertBefore => St.insertBefore

end Svgdom
