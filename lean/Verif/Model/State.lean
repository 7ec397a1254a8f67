import Verif.Model.Types

/-!
# The heap

All `Rc<RefCell<tree::NodeData<NodeData>>>` cells, the document root and the document storage.
-/

namespace Svgdom

/-- Pointwise update of a map. (Not in the crate: the heap, tree.rs:18-37.) -/
def upd {α : Type} (f : NodeId → α) (i : NodeId) (v : α) : NodeId → α :=
  fun j => if j = i then v else f j

@[simp] theorem upd_same {α : Type} (f : NodeId → α) (i : NodeId) (v : α) : upd f i v i = v := by simp [upd]

theorem upd_ne {α : Type} (f : NodeId → α) {i j : NodeId} (v : α) (h : j ≠ i) : upd f i v j = f j := by
  simp [upd, h]

/-- The pointer part of `tree::NodeData` (tree.rs:29-37); `firstChild` and `nextSib` are strong, the others weak. -/
@[ext] structure Links where
  root : Option NodeId := none
  parent : Option NodeId := none
  firstChild : Option NodeId := none
  lastChild : Option NodeId := none
  prevSib : Option NodeId := none
  nextSib : Option NodeId := none
deriving DecidableEq

/-- An entry of `slab::Slab` (slab 0.4). (document.rs:63.) -/
inductive Slot where
  | occupied (n : NodeId)
  | vacant (next : Nat)
deriving DecidableEq

/-- `slab::Slab<Node>` (slab 0.4): entries and head of the free list. (document.rs:63.) -/
structure Slab where
  entries : List Slot := []
  next : Nat := 0
deriving DecidableEq

/-- `Slab::insert`: returns the key. The `unreachable!` arm is a panic. (document.rs:80, 133, 162.) -/
def Slab.insert (sl : Slab) (n : NodeId) : Except Err (Slab × Nat) :=
  let key := sl.next
  if key = sl.entries.length then
    .ok (⟨sl.entries ++ [.occupied n], key + 1⟩, key)
  else
    match sl.entries[key]? with
    | some (.vacant nx) => .ok (⟨sl.entries.set key (.occupied n), nx⟩, key)
    | some (.occupied _) => .error (.panic .unwrap)
    | none => .error (.panic .outOfBounds)

/-- `Slab::remove`. (document.rs:291.) -/
def Slab.remove (sl : Slab) (key : Nat) : Except Err Slab :=
  match sl.entries[key]? with
  | some (.occupied _) => .ok ⟨sl.entries.set key (.vacant sl.next), key⟩
  | some (.vacant _) => .error (.panic .invalidKey)
  | none => .error (.panic .outOfBounds)

/-- `Slab::get`. (Not used by document.rs; for statements.) -/
def Slab.get (sl : Slab) (key : Nat) : Option NodeId :=
  match sl.entries[key]? with
  | some (.occupied n) => some n
  | _ => none

/-- `Slab::iter`: stored nodes in key order. (document.rs:373.) -/
def Slab.nodes (sl : Slab) : List NodeId :=
  sl.entries.filterMap fun e => match e with
    | .occupied n => some n
    | .vacant _ => none

/-- The whole state. The cell of node `i` is `(links i, data i)`; the cell exists while `live i`.
(document.rs:61-64, tree.rs:29-37, lib.rs:182-190.) -/
structure St where
  links : NodeId → Links
  data : NodeId → NodeData
  live : NodeId → Bool
  /-- allocation counter: ids `≥ nextId` were never allocated -/
  nextId : NodeId
  /-- `Document::root` (document.rs:62) -/
  rootId : NodeId
  /-- `Document::storage` (document.rs:63) -/
  slab : Slab
  /-- are `debug_assert!`s compiled in? -/
  debug : Bool

/-- `weak.as_ref().and_then(|w| w.upgrade())`. (tree.rs:109, 127, 136, 391.) -/
def St.upgrade (s : St) (w : Option NodeId) : Option NodeId :=
  match w with
  | some i => if s.live i then some i else none
  | none => none

/-- Assignment to pointer fields of one cell. (tree.rs:233-410.) -/
def St.setL (s : St) (i : NodeId) (f : Links → Links) : St :=
  { s with links := upd s.links i (f (s.links i)) }

/-- Assignment to the data of one cell. (node.rs:194, 225, 297, 521-587; document.rs:81, 134, 163, 288.) -/
def St.setD (s : St) (i : NodeId) (f : NodeData → NodeData) : St :=
  { s with data := upd s.data i (f (s.data i)) }

/-- `RefCell::borrow_mut` on node `i` while the nodes in `held` are borrowed. (tree.rs:229-415.) -/
def borrowMut (held : List NodeId) (i : NodeId) : Except Err Unit :=
  if i ∈ held then .error (.panic .borrowed) else .ok ()

/-- `debug_assert!`. (node.rs:193, 224, 288, 459, 480; tree.rs:259, 263, 286, 292, 319, 367.) -/
def St.debugAssert (s : St) (c : Bool) : Except Err Unit :=
  if s.debug && !c then .error (.panic .debugAssert) else .ok ()

/-- `assert!`. (document.rs:150; tree.rs:239, 274, 306, 346.) -/
def assertOrPanic (c : Bool) : Except Err Unit :=
  if c then .ok () else .error (.panic .assertFailed)

/-- Bound on the number of steps of a terminating pointer walk. (Not in the crate; loops in tree.rs:420-660, document.rs:240-372.) -/
def St.fuel (s : St) : Nat := 2 * s.nextId + 2

end Svgdom
