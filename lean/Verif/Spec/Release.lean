import Verif.Spec.Users

/-!
# Specification: the moment at which nodes are freed

`Call.release` drops the last handle of a node. Here is the same history without these drops, and what the two documents have in common.
-/

set_option autoImplicit false

namespace Svgdom

/-- Is the call the drop of a handle? -/
def Call.drops : Call → Bool
  | .release _ => true
  | _ => false

/-- The same calls, but all handles are kept. -/
def keepHandles (cs : List Call) : List Call := cs.filter fun c => !c.drops

/-- `F` is what is left of the forest `G` when only the nodes `live` are kept: they have the same children; of the siblings those before
the first kept one are gone; the parent may be gone. -/
structure Forest.Rest (F G : Forest) (live : NodeId → Bool) : Prop where
  kids : ∀ i, live i = true → G.kids i = F.kids i
  sibs : ∀ i, live i = true → ∃ d, G.sibs i = d ++ F.sibs i ∧ ∀ x ∈ d, live x = false
  par : ∀ i, live i = true → F.par i = (G.par i).filter live

/-- `P` is what is left of `R` after some nodes were freed. -/
structure Picture.Rest (P R : Picture) : Prop where
  next : R.next = P.next
  root : R.root = P.root
  debug : R.debug = P.debug
  live : ∀ i, P.live i = true → R.live i = true
  look : ∀ i, P.live i = true → R.look i = P.look i
  stored : ∀ i, P.live i = true → R.stored i = P.stored i
  forest : P.forest.Rest R.forest P.live

/-- The remembered roots and the users are the same. -/
structure Extras.Rest (X Y : Extras) (live : NodeId → Bool) : Prop where
  top : ∀ i, live i = true → Y.top i = X.top i
  users : ∀ i, live i = true → Y.users i = X.users i

end Svgdom
