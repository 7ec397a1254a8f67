import Verif.Model.History

/-!
# Several documents

A program can use several `Document`s at once. Nodes are reference counted and do not know their document, so nothing keeps a
node of one document away from the methods of another. A `World` is one heap of nodes with any number of documents; a call runs
on the heap together with the root and the storage of one document (`World.view`).

`owner` records which document made a node. The program does not have this field and no function below reads it; it only appears
in specifications.
-/

namespace Svgdom

/-- `Document` (document.rs:61-64). -/
structure Doc where
  rootId : NodeId
  slab : Slab

/-- All nodes and all documents of a program. (document.rs:61-64, once for every document; the heap is shared.) -/
structure World where
  links : NodeId → Links
  data : NodeId → NodeData
  live : NodeId → Bool
  nextId : NodeId
  debug : Bool
  /-- documents that were not dropped -/
  docs : Nat → Option Doc
  /-- number of documents made so far -/
  count : Nat
  /-- the document that made the node (specification only) -/
  owner : NodeId → Nat

namespace World

/-- No nodes and no documents. (Not a function of the crate.) -/
def start (debug : Bool) : World where
  links := fun _ => {}
  data := fun _ => NodeData.fresh .root (.name []) []
  live := fun _ => false
  nextId := 0
  debug := debug
  docs := fun _ => none
  count := 0
  owner := fun _ => 0

/-- What a method of the document `x` works on. (document.rs:61-64; node.rs and tree.rs do not look at the document.) -/
def view (w : World) (x : Doc) : St where
  links := w.links
  data := w.data
  live := w.live
  nextId := w.nextId
  rootId := x.rootId
  slab := x.slab
  debug := w.debug

/-- The world after a call on document `d` that led to `t`; new nodes belong to `d`. (document.rs:61-64.) -/
def put (w : World) (d : Nat) (t : St) : World where
  links := t.links
  data := t.data
  live := t.live
  nextId := t.nextId
  debug := t.debug
  docs := fun e => if e = d then some ⟨t.rootId, t.slab⟩ else w.docs e
  count := w.count
  owner := fun j => if j < w.nextId then w.owner j else d

/-- document.rs:68-87 `Document::new`: a new root node, stored under key 0. -/
def newDoc (w : World) : World where
  links := upd w.links w.nextId {}
  data := upd w.data w.nextId { NodeData.fresh .root (.name []) [] with storageKey := some 0 }
  live := fun j => if j = w.nextId then true else w.live j
  nextId := w.nextId + 1
  debug := w.debug
  docs := fun e => if e = w.count then some ⟨w.nextId, ⟨[.occupied w.nextId], 1⟩⟩ else w.docs e
  count := w.count + 1
  owner := fun j => if j < w.nextId then w.owner j else w.count

/-- The world after document `d` was dropped (document.rs:371-379) and the loop of `Drop` led to `t`. -/
def dropped (w : World) (d : Nat) (t : St) : World :=
  { w.put d t with docs := fun e => if e = d then none else w.docs e }

/-- Is there a strong reference to `i` from a document or from a live node?
(The `Rc`s of this crate (tree.rs:29-37, lib.rs:182-190, document.rs:61-64).) -/
def strongRef (w : World) (i : NodeId) : Prop :=
  (∃ d x, w.docs d = some x ∧ (i = x.rootId ∨ i ∈ x.slab.nodes)) ∨
  ∃ j, w.live j = true ∧
    ((w.links j).firstChild = some i ∨ (w.links j).nextSib = some i ∨ i ∈ (w.data j).linkedNodes ∨
      ∃ a ∈ (w.data j).attributes, a.value.linkNode = some i)

/-- The last handle of an otherwise unreferenced node is dropped (`Rc::drop`). (tree.rs:18-27, `Node` is an `Rc`.) -/
def free (w : World) (i : NodeId) : World := { w with live := fun j => if j = i then false else w.live j }

end World

end Svgdom
