import Verif.Model.Node

/-!
# document.rs
-/

namespace Svgdom

/-- Fresh node data (document.rs:123-131, 152-160). -/
def NodeData.fresh (ty : NodeType) (tag : TagName) (text : Str) : NodeData :=
  { storageKey := none, nodeType := ty, tagName := tag, id := [], attributes := [], linkedNodes := [], text := text }

namespace St

/-- `Node::new` (tree.rs:77-87): allocate a cell. -/
def alloc (s : St) (d : NodeData) : St :=
  { s with
    links := upd s.links s.nextId {}
    data := upd s.data s.nextId d
    live := fun j => if j = s.nextId then true else s.live j
    nextId := s.nextId + 1 }

/-- `Node::new` + `storage.insert` + `storage_key = Some(key)` (document.rs:123-136, 152-165). -/
def newNode (s : St) (d : NodeData) : Except Err (St × NodeId) := do
  let n := s.nextId
  let s := s.alloc d
  let (sl, key) ← s.slab.insert n
  let s := { s with slab := sl }
  pure (s.setD n fun d => { d with storageKey := some key }, n)

/-- document.rs:113-137 `create_element`. -/
def createElement (s : St) (tag : TagName) : Except Err (St × NodeId) :=
  if tag = .name [] then .error (.panic .emptyTagName)
  else s.newNode (.fresh .element tag [])

/-- document.rs:149-166 `create_node`. -/
def createNode (s : St) (ty : NodeType) (text : Str) : Except Err (St × NodeId) := do
  assertOrPanic (decide (ty ≠ .element ∧ ty ≠ .root))
  s.newNode (.fresh ty (.name []) text)

/-- document.rs:68-87 `Document::new` (node 0 is the root, stored under key 0). -/
def init (debug : Bool) : St :=
  { links := fun _ => {}
    data := fun _ => { NodeData.fresh .root (.name []) [] with storageKey := some 0 }
    live := fun j => decide (j = 0)
    nextId := 1
    rootId := 0
    slab := ⟨[.occupied 0], 1⟩
    debug := debug }

/-- document.rs:195-203 `svg_element` (with `FilterSvg::svg`, node.rs:637-649). -/
def svgElement (s : St) : Except Err (Option NodeId) := do
  let cs ← s.childList s.rootId
  pure (cs.find? fun n => decide (s.tagId n = some .Svg))

/-- document.rs:243-252: names of the SVG attributes of `i` that hold a link. -/
def ownLinkNames (s : St) (i : NodeId) : List AName :=
  (attrsSvg (s.attributes i)).filterMap fun (_, a) => if a.value.isLinkContainer then some a.name else none

/-- document.rs:263-274: names of the SVG attributes of `l` that link to `i`. -/
def linkNamesTo (s : St) (l i : NodeId) : List AName :=
  (attrsSvg (s.attributes l)).filterMap fun (_, a) => if a.value.linkNode = some i then some a.name else none

/-- `for name in ids { node.remove_attribute(name) }`. (document.rs:254-256, 276-278.) -/
def removeAttributes (s : St) (i : NodeId) : List AName → Except Err St
  | [] => .ok s
  | n :: ns => do
    let s ← s.removeAttribute i n
    s.removeAttributes i ns

/-- document.rs:260-279: loop over a clone of `linked_nodes`. -/
def unlinkIncoming (s : St) (i : NodeId) : List NodeId → Except Err St
  | [] => .ok s
  | l :: ls => do
    let s ← s.removeAttributes l (s.linkNamesTo l i)
    s.unlinkIncoming i ls

/-- document.rs:288-294: take the storage key and free the slot (a missing key is only a warning). -/
def finishRemove (s : St) (i : NodeId) : Except Err St :=
  match (s.data i).storageKey with
  | some key => do
    let s := s.setD i fun d => { d with storageKey := none }
    let sl ← s.slab.remove key
    pure { s with slab := sl }
  | none => .ok s

mutual
/-- document.rs:240-295 `_remove`; the first argument bounds the recursion. -/
def removeAux : Nat → St → NodeId → Except Err St
  | 0, _, _ => .error .diverge
  | k + 1, s, i => do
    let s ← s.removeAttributes i (s.ownLinkNames i)
    let s ← s.unlinkIncoming i (s.linkedNodes i)
    let s ← removeKids k s (s.children i)
    let s ← s.detach i
    s.finishRemove i
/-- document.rs:283-285: `for child in node.children() { self._remove(child, ids) }`. -/
def removeKids : Nat → St → Children → Except Err St
  | 0, _, _ => .error .diverge
  | k + 1, s, it =>
    match s.childrenNext it with
    | (none, _) => .ok s
    | (some c, it') => do
      let s ← removeAux k s c
      removeKids k s it'
end

/-- document.rs:235-238 `remove_node`. -/
def removeNode (s : St) (i : NodeId) : Except Err St := removeAux s.fuel s i

/-- document.rs:311-328 `_drain`, from the loop variable `node`; `f` is the predicate, `count` the counter. -/
def drainAux (f : St → NodeId → Bool) : Nat → St → Option NodeId → Nat → Except Err (St × Nat)
  | 0, _, _, _ => .error .diverge
  | _ + 1, s, none, count => .ok (s, count)
  | k + 1, s, some n, count =>
    if f s n then do
      let next := s.nextSibling n
      let s ← s.removeNode n
      drainAux f k s next (count + 1)
    else do
      let (s, count) ← if s.hasChildren n then drainAux f k s (s.firstChild n) count else pure (s, count)
      drainAux f k s (s.nextSibling n) count

/-- document.rs:303-309 `drain`. -/
def drain (s : St) (root : NodeId) (f : St → NodeId → Bool) : Except Err (St × Nat) :=
  drainAux f s.fuel s (s.firstChild root) 0

/-- document.rs:338-340: copy the attributes of `src` one by one. `node.attributes()` stays borrowed in the loop, so the
`borrow_mut` of a link target (node.rs:525) panics if the target is `src`. -/
def copyAttributes (s : St) (src elem : NodeId) : List Attribute → Except Err St
  | [] => .ok s
  | a :: as => do
    let s ← s.setAttribute elem a
    match a.value.linkNode with
    | some t => do
      borrowMut [src] t
      s.copyAttributes src elem as
    | none => s.copyAttributes src elem as

/-- document.rs:333-348 `copy_node`. -/
def copyNode (s : St) (i : NodeId) : Except Err (St × NodeId) :=
  match s.nodeType i with
  | .element => do
    let (s, elem) ← s.createElement (s.tagName i)
    let s ← s.copyAttributes i elem (s.attributes i)
    pure (s, elem)
  | ty => s.createNode ty (s.text i)

/-- document.rs:359-368 `_make_deep_copy`, from an iterator over the children of the source node. -/
def deepCopyAux : Nat → St → NodeId → Children → Except Err St
  | 0, _, _, _ => .error .diverge
  | k + 1, s, par, it =>
    match s.childrenNext it with
    | (none, _) => .ok s
    | (some c, it') => do
      let (s, new) ← s.copyNode c
      let s ← s.append par new
      let s ← if s.hasChildren c then deepCopyAux k s new (s.children c) else pure s
      deepCopyAux k s par it'

/-- document.rs:353-357 `copy_node_deep`. -/
def copyNodeDeep (s : St) (i : NodeId) : Except Err (St × NodeId) := do
  let (s', root) ← s.copyNode i
  let s'' ← deepCopyAux s'.fuel s' root (s'.children i)
  pure (s'', root)

/-- document.rs:373-377: one iteration of `Drop`. -/
def dropOne (s : St) (n : NodeId) : Except Err St :=
  ((s.setD n fun d => { d with attributes := [] }).setD n fun d => { d with linkedNodes := [] }).detach n

/-- document.rs:373-377: the loop of `Drop` over the stored nodes. -/
def dropLoop (s : St) : List NodeId → Except Err St
  | [] => .ok s
  | n :: ns => do
    let s ← s.dropOne n
    s.dropLoop ns

/-- document.rs:371-379 `Drop for Document`. -/
def dropDocument (s : St) : Except Err St := s.dropLoop s.slab.nodes

/-- Is there a strong reference to `i` from a live cell, the storage or the document?
(The `Rc`s of this crate (tree.rs:29-37 `first_child`, `next_sibling`; lib.rs:182-190 `linked_nodes`, links in `attributes`; document.rs:61-64).) -/
def strongRef (s : St) (i : NodeId) : Prop :=
  i = s.rootId ∨ i ∈ s.slab.nodes ∨
  ∃ j, s.live j = true ∧
    (s.firstChild j = some i ∨ s.nextSibling j = some i ∨ i ∈ s.linkedNodes j ∨
      ∃ a ∈ s.attributes j, a.value.linkNode = some i)

/-- The last handle of an otherwise unreferenced node is dropped (`Rc::drop`).
(tree.rs:18-27, `Node` is an `Rc`; not a function of the crate.) -/
def free (s : St) (i : NodeId) : St := { s with live := fun j => if j = i then false else s.live j }

end St

end Svgdom
