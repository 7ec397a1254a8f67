import Verif.Model.World
import Verif.Spec.Acyclic
import Verif.Spec.Attrs

/-!
# Specification: histories with several documents
-/

namespace Svgdom

/-- The call removes only nodes of which `own` holds: `remove_node` takes away a node and everything below it, `drain` nodes below
the given one. -/
def Op.Within (own : NodeId → Prop) (s : St) : Op → Prop
  | .removeNode i => ∀ j, s.live j = true → s.InSubtree i j → own j
  | .drain i _ => ∀ j, s.live j = true → s.Ancestor i j → own j
  | _ => True

/-- No attribute of a node in the storage of `x` refers to a node outside, and no attribute of a node outside refers to a node in
the storage of `x`. -/
def World.Apart (w : World) (x : Doc) : Prop :=
  ∀ i j, w.live i = true → (w.view x).LinksTo i j → (i ∈ x.slab.nodes ↔ j ∈ x.slab.nodes)

/-- Worlds after histories in which every document removes only nodes it made. Apart from that, a call of any document may get
nodes of any documents: nodes can be moved into the tree of another document and can link to nodes of another document. A document
is only dropped when no link leads into it or out of it. -/
inductive Worlds : World → Prop where
  | start (debug : Bool) : Worlds (World.start debug)
  | newDoc {w : World} : Worlds w → Worlds w.newDoc
  | call {w : World} {d : Nat} {x : Doc} {t : St} (op : Op) : Worlds w → w.docs d = some x →
      (∀ i ∈ op.handles, w.live i = true) → op.Within (fun j => w.owner j = d) (w.view x) → op.run (w.view x) = .ok t →
      Worlds (w.put d t)
  | edit {w : World} {d : Nat} {x : Doc} {t : St} : Worlds w → w.docs d = some x → (w.view x).Edit t → Worlds (w.put d t)
  | free {w : World} (i : NodeId) : Worlds w → w.live i = true → ¬ w.strongRef i → Worlds (w.free i)
  | drop {w : World} {d : Nat} {x : Doc} {t : St} : Worlds w → w.docs d = some x → w.Apart x →
      (w.view x).dropDocument = .ok t → Worlds (w.dropped d t)

end Svgdom
