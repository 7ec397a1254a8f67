import Verif.Spec.Picture

/-! # Specification: where moves put nodes (C107) -/

set_option autoImplicit false

namespace Svgdom

/-- Where a move puts its node. -/
inductive Spot where
  | last (p : NodeId)
  | first (p : NodeId)
  | after (x : NodeId)
  | before (x : NodeId)
  | alone
deriving DecidableEq

namespace Spot

/-- The node that gives the place. -/
def anchor : Spot → Option NodeId
  | last p => some p
  | first p => some p
  | after x => some x
  | before x => some x
  | alone => none

end Spot

/-- The move of a call: the node that moves, and where it goes. -/
def Call.move : Call → Option (Spot × NodeId)
  | .append p c => some (.last p, c)
  | .prepend p c => some (.first p, c)
  | .insertAfter x y => some (.after x, y)
  | .insertBefore x y => some (.before x, y)
  | .detach y => some (.alone, y)
  | _ => none

/-- Two calls that move different nodes to different places, neither of which is given by the node that the other call moves. -/
def Call.Apart (c d : Call) : Prop :=
  ∃ sp y sp' y', c.move = some (sp, y) ∧ d.move = some (sp', y') ∧ y ≠ y' ∧ (sp ≠ sp' ∨ sp = .alone) ∧ sp.anchor ≠ some y' ∧
    sp'.anchor ≠ some y

end Svgdom
