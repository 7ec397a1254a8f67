import Verif.Model.History

/-!
# Calls made while the caller holds `Ref`/`RefMut` guards

`node.attributes()`, `text()`, `id()`, `tag_name()`, `linked_nodes()` return a `Ref` into the cell of the node,
`attributes_mut()`, `text_mut()`, `linked_nodes_mut()` a `RefMut` (node.rs:172-184, 202-204, 250-252, 305-316, 596-609). The tree
pointers and the data are in one `RefCell` (tree.rs:26-37), so a guard on the attributes also locks the pointers.
`Model/Tree.lean`, `Model/Node.lean` and `Model/Document.lean` describe callers without guards. Here the same functions are given
with the guards of the caller as a parameter; a call cannot release them. Statements are in the order of the source, and every
`borrow()` and `borrow_mut()` of the source is one call of `rd` or `wr`.
-/

set_option autoImplicit false

namespace Svgdom

/-- What the caller holds on one cell: nothing, `Ref`s, or a `RefMut`.
(The getters that return guards: node.rs:172, 183, 202, 250, 305, 314, 596, 607.) -/
inductive Guard where
  | free
  | shared
  | excl
deriving DecidableEq

/-- The guards of the caller on every node. (node.rs:172-609.) -/
abbrev Guards := NodeId → Guard

/-- `RefCell::borrow`. (tree.rs:97, 109 and all other `borrow()`.) -/
def rd (g : Guards) (i : NodeId) : Except Err Unit :=
  if g i = .excl then .error (.panic .borrowed) else .ok ()

/-- `RefCell::borrow_mut`, while the running call itself holds guards on the nodes in `held`. (tree.rs:229 and all other `borrow_mut()`.) -/
def wr (g : Guards) (held : List NodeId) (i : NodeId) : Except Err Unit :=
  if i ∈ held ∨ g i ≠ .free then .error (.panic .borrowed) else .ok ()

/-- The guards during a call that itself holds a `Ref` to `i`. (node.rs:305-307 `attributes` inside of other methods.) -/
def Guards.share (g : Guards) (i : NodeId) : Guards := fun j => if j = i ∧ g i = .free then .shared else g j

namespace St

/-! ## tree.rs -/

/-- tree.rs:108-110 `parent`. -/
def parentG (g : Guards) (s : St) (i : NodeId) : Except Err (Option NodeId) := do
  rd g i
  pure (s.parent i)

/-- tree.rs:117-119 `first_child`. -/
def firstChildG (g : Guards) (s : St) (i : NodeId) : Except Err (Option NodeId) := do
  rd g i
  pure (s.firstChild i)

/-- tree.rs:126-128 `last_child`. -/
def lastChildG (g : Guards) (s : St) (i : NodeId) : Except Err (Option NodeId) := do
  rd g i
  pure (s.lastChild i)

/-- tree.rs:144-146 `next_sibling`. -/
def nextSiblingG (g : Guards) (s : St) (i : NodeId) : Except Err (Option NodeId) := do
  rd g i
  pure (s.nextSibling i)

/-- tree.rs:192-197 `children`. -/
def childrenG (g : Guards) (s : St) (i : NodeId) : Except Err Children := do
  let a ← s.firstChildG g i
  let b ← s.lastChildG g i
  pure { next := a, nextBack := b }

/-- tree.rs:468-473 `Children::finished`: reads the node at the back. -/
def childrenFinishedG (g : Guards) (s : St) (it : Children) : Except Err Bool :=
  match it.nextBack with
  | some nb => do
    let n ← s.nextSiblingG g nb
    pure (decide (n = it.next))
  | none => pure true

/-- tree.rs:482-494 `Children::next`. -/
def childrenNextG (g : Guards) (s : St) (it : Children) : Except Err (Option NodeId × Children) := do
  if ← s.childrenFinishedG g it then pure (none, it)
  else match it.next with
    | some n => do
      let m ← s.nextSiblingG g n
      pure (some n, { it with next := m })
    | none => pure (none, it)

/-- tree.rs:393-401. -/
def detachNextG (g : Guards) (s : St) (held : List NodeId) (parentW prevW nextS : Option NodeId) : Except Err St :=
  match nextS with
  | some n => do
    wr g held n
    pure (s.setL n fun l => { l with prevSib := prevW })
  | none =>
    match s.upgrade parentW with
    | some p => do
      wr g held p
      pure (s.setL p fun l => { l with lastChild := prevW })
    | none => pure s

/-- tree.rs:403-411. -/
def detachPrevG (g : Guards) (s : St) (held : List NodeId) (parentW prevO nextS : Option NodeId) : Except Err St :=
  match prevO with
  | some q => do
    wr g held q
    pure (s.setL q fun l => { l with nextSib := nextS })
  | none =>
    match s.upgrade parentW with
    | some p => do
      wr g held p
      pure (s.setL p fun l => { l with firstChild := nextS })
    | none => pure s

/-- tree.rs:386-412 `NodeData::detach`. -/
def detachCoreG (g : Guards) (s : St) (held : List NodeId) (i : NodeId) : Except Err St := do
  let parentW := (s.links i).parent
  let prevW := (s.links i).prevSib
  let nextS := (s.links i).nextSib
  let s := s.setL i fun l => { l with parent := none, prevSib := none, nextSib := none }
  let prevO := s.upgrade prevW
  let s ← s.detachNextG g held parentW prevW nextS
  s.detachPrevG g held parentW prevO nextS

/-- tree.rs:229-231 `Node::detach`. -/
def detachG (g : Guards) (s : St) (i : NodeId) : Except Err St := do
  wr g [] i
  s.detachCoreG g [i] i

/-- tree.rs:238-266 `append`. -/
def appendG (g : Guards) (s : St) (p c : NodeId) : Except Err St := do
  assertOrPanic (p != c)
  wr g [] p
  wr g [p] c
  let s ← s.detachCoreG g [p, c] c
  let s := s.setL c fun l => { l with root := some ((s.links p).root.getD p), parent := some p }
  let lastW := (s.links p).lastChild
  let s := s.setL p fun l => { l with lastChild := none }
  let lastO := s.upgrade lastW
  let s := match lastO with
    | some _ => s.setL c fun l => { l with prevSib := lastW }
    | none => s
  let s := s.setL p fun l => { l with lastChild := some c }
  match lastO with
  | some l => do
    wr g [p] l
    s.debugAssert (s.links l).nextSib.isNone
    pure (s.setL l fun k => { k with nextSib := some c })
  | none => do
    s.debugAssert (s.links p).firstChild.isNone
    pure (s.setL p fun k => { k with firstChild := some c })

/-- tree.rs:273-298 `prepend`. -/
def prependG (g : Guards) (s : St) (p c : NodeId) : Except Err St := do
  assertOrPanic (p != c)
  wr g [] p
  wr g [p] c
  let s ← s.detachCoreG g [p, c] c
  let s := s.setL c fun l => { l with root := some ((s.links p).root.getD p), parent := some p }
  let first := (s.links p).firstChild
  let s := s.setL p fun l => { l with firstChild := none }
  let s ← match first with
    | some f => do
      wr g [p, c] f
      s.debugAssert (s.links f).prevSib.isNone
      let s := s.setL f fun l => { l with prevSib := some c }
      pure (s.setL c fun l => { l with nextSib := some f })
    | none => do
      s.debugAssert (s.links p).firstChild.isNone
      pure (s.setL p fun l => { l with lastChild := some c })
  pure (s.setL p fun l => { l with firstChild := some c })

/-- tree.rs:305-338 `insert_after`. -/
def insertAfterG (g : Guards) (s : St) (x y : NodeId) : Except Err St := do
  assertOrPanic (x != y)
  wr g [] x
  wr g [x] y
  let s ← s.detachCoreG g [x, y] y
  let s := s.setL y fun l =>
    { l with root := (s.links x).root, parent := (s.links x).parent, prevSib := some x }
  let nextS := (s.links x).nextSib
  let s := s.setL x fun l => { l with nextSib := none }
  let s ← match nextS with
    | some n => do
      wr g [x, y] n
      s.debugAssert (decide (s.upgrade (s.links n).prevSib = some x))
      let s := s.setL n fun l => { l with prevSib := some y }
      pure (s.setL y fun l => { l with nextSib := some n })
    | none =>
      match s.upgrade (s.links x).parent with
      | some p => do
        wr g [x, y] p
        pure (s.setL p fun l => { l with lastChild := some y })
      | none => pure s
  pure (s.setL x fun l => { l with nextSib := some y })

/-- tree.rs:345-381 `insert_before`. -/
def insertBeforeG (g : Guards) (s : St) (x y : NodeId) : Except Err St := do
  assertOrPanic (x != y)
  wr g [] x
  wr g [x] y
  let s ← s.detachCoreG g [x, y] y
  let s := s.setL y fun l =>
    { l with root := (s.links x).root, parent := (s.links x).parent, nextSib := some x }
  let prevW := (s.links x).prevSib
  let s := s.setL x fun l => { l with prevSib := none }
  let prevO := s.upgrade prevW
  let s := match prevO with
    | some _ => s.setL y fun l => { l with prevSib := prevW }
    | none => s
  let s := s.setL x fun l => { l with prevSib := some y }
  match prevO with
  | some q => do
    wr g [x] q
    s.debugAssert (decide ((s.links q).nextSib = some x))
    pure (s.setL q fun l => { l with nextSib := some y })
  | none =>
    match s.upgrade (s.links x).parent with
    | some p => do
      wr g [x] p
      pure (s.setL p fun l => { l with firstChild := some y })
    | none => pure s

/-! ## node.rs -/

/-- node.rs:102-107 `has_parent`. -/
def hasParentG (g : Guards) (s : St) (i : NodeId) : Except Err Bool := do
  match ← s.parentG g i with
  | some p => do
    rd g p
    pure (!s.isRoot p)
  | none => pure false

/-- `debug_assert!` with a condition that reads the type of `i` (node.rs:193, 224, 288, 459). -/
def debugReads (g : Guards) (s : St) (i : NodeId) (c : Bool) : Except Err Unit :=
  if s.debug then do
    rd g i
    s.debugAssert c
  else pure ()

/-- node.rs:182-184 `text_mut`, used to store a text. -/
def textMutG (g : Guards) (s : St) (i : NodeId) (t : Str) : Except Err St := do
  wr g [] i
  pure (s.setD i fun d => { d with text := t })

/-- node.rs:192-195 `set_text`. -/
def setTextG (g : Guards) (s : St) (i : NodeId) (t : Str) : Except Err St := do
  s.debugReads g i (!s.isElement i)
  wr g [] i
  pure (s.setD i fun d => { d with text := t })

/-- node.rs:222-227 `set_id`. -/
def setIdG (g : Guards) (s : St) (i : NodeId) (id : Str) : Except Err St := do
  s.debugReads g i (s.isElement i)
  wr g [] i
  pure (s.setD i fun d => { d with id := id })

/-- node.rs:285-298 `set_tag_name`. -/
def setTagNameG (g : Guards) (s : St) (i : NodeId) (t : TagName) : Except Err St := do
  s.debugReads g i (s.isElement i)
  if t = .name [] then throw (.panic .emptyTagName)
  wr g [] i
  pure (s.setD i fun d => { d with tagName := t })

/-- node.rs:571-584. The `Ref` of `self.attributes()` is held, so a target equal to `self` cannot be borrowed mutably. -/
def unlinkValueG (g : Guards) (s : St) (i : NodeId) (v : AttributeValue) : Except Err St :=
  match v.linkNode with
  | some t => do
    rd g t
    match (s.linkedNodes t).findIdx? (fun n => decide (n = i)) with
    | some index => do
      wr g [i] t
      pure (s.setD t fun d => { d with linkedNodes := d.linkedNodes.eraseIdx index })
    | none => .error (.panic .unwrap)
  | none => .ok s

/-- node.rs:563-587 `remove_attribute`. -/
def removeAttributeG (g : Guards) (s : St) (i : NodeId) (name : AName) : Except Err St := do
  rd g i
  if !s.hasAttribute i name then pure s
  else do
    rd g i
    let s ← match attrsGetValue (s.attributes i) name with
      | some v => s.unlinkValueG g i v
      | none => .ok s
    wr g [] i
    pure (s.setD i fun d => { d with attributes := attrsRemove d.attributes name })

/-- node.rs:479-487 `set_simple_attribute`. -/
def setSimpleAttributeG (g : Guards) (s : St) (i : NodeId) (a : Attribute) : Except Err St := do
  s.debugAssert (!a.value.isLinkContainer)
  let s ← s.removeAttributeG g i a.name
  wr g [] i
  pure (s.setD i fun d => { d with attributes := attrsInsert d.attributes a })

/-- node.rs:489-528 `set_link_attribute`. -/
def setLinkAttributeG (g : Guards) (s : St) (i : NodeId) (name : AName) (n : NodeId) (fallback : Option PaintFallback) :
    Except Err (St × Option DomError) := do
  rd g n
  if (s.idOf n).isEmpty then pure (s, some .elementMustHaveAnId)
  else do
    rd g i
    rd g n
    if s.idOf i = s.idOf n then pure (s, some .elementCrosslink)
    else do
      rd g i
      if (s.linkedNodes i).any (fun m => decide (m = n)) then pure (s, some .elementCrosslink)
      else do
        let s ← s.removeAttributeG g i name
        wr g [] i
        let s := s.setD i fun d => { d with attributes := attrsInsert d.attributes ⟨name, linkValue name n fallback⟩ }
        wr g [] n
        let s := s.setD n fun d => { d with linkedNodes := d.linkedNodes ++ [i] }
        pure (s, none)

/-- node.rs:458-477 `set_attribute_checked_impl`. -/
def setAttributeCheckedG (g : Guards) (s : St) (i : NodeId) (a : Attribute) : Except Err (St × Option DomError) := do
  s.debugReads g i (s.isElement i)
  match a.value with
  | .link n => s.setLinkAttributeG g i a.name n none
  | .funcLink n => s.setLinkAttributeG g i a.name n none
  | .paint n fb => s.setLinkAttributeG g i a.name n fb
  | _ => do
    let s ← s.setSimpleAttributeG g i a
    pure (s, none)

/-- node.rs:339-343 `set_attribute`. -/
def setAttributeG (g : Guards) (s : St) (i : NodeId) (a : Attribute) : Except Err St := do
  match ← s.setAttributeCheckedG g i a with
  | (s, none) => pure s
  | (_, some _) => throw (.panic .unwrap)

/-- node.rs:547-554 `set_attribute_if_none`. -/
def setAttributeIfNoneG (g : Guards) (s : St) (i : NodeId) (a : Attribute) : Except Err St := do
  rd g i
  if !s.hasAttribute i a.name then s.setAttributeG g i a else pure s

/-! ## document.rs -/

/-- document.rs:197-199: the loop of `svg_element`; `svg()` (node.rs:637-649) reads the tag name of every child. -/
def svgLoopG (g : Guards) (s : St) : Nat → Children → Except Err (Option NodeId)
  | 0, _ => .error .diverge
  | k + 1, it => do
    match ← s.childrenNextG g it with
    | (none, _) => pure none
    | (some c, it') => do
      rd g c
      if s.tagId c = some .Svg then pure (some c) else svgLoopG g s k it'

/-- document.rs:195-203 `svg_element`. -/
def svgElementG (g : Guards) (s : St) : Except Err (Option NodeId) := do
  let it ← s.childrenG g s.rootId
  s.svgLoopG g s.fuel it

/-- document.rs:254-256, 276-278. -/
def removeAttributesG (g : Guards) (s : St) (i : NodeId) : List AName → Except Err St
  | [] => .ok s
  | n :: ns => do
    let s ← s.removeAttributeG g i n
    s.removeAttributesG g i ns

/-- document.rs:260-279. -/
def unlinkIncomingG (g : Guards) (s : St) (i : NodeId) : List NodeId → Except Err St
  | [] => .ok s
  | l :: ls => do
    rd g l
    let s ← s.removeAttributesG g l (s.linkNamesTo l i)
    s.unlinkIncomingG g i ls

/-- document.rs:288-294. -/
def finishRemoveG (g : Guards) (s : St) (i : NodeId) : Except Err St := do
  wr g [] i
  s.finishRemove i

mutual
/-- document.rs:240-295 `_remove`; the first argument bounds the recursion. -/
def removeAuxG (g : Guards) : Nat → St → NodeId → Except Err St
  | 0, _, _ => .error .diverge
  | k + 1, s, i => do
    rd g i
    let s ← s.removeAttributesG g i (s.ownLinkNames i)
    rd g i
    let s ← s.unlinkIncomingG g i (s.linkedNodes i)
    let it ← s.childrenG g i
    let s ← removeKidsG g k s it
    let s ← s.detachG g i
    s.finishRemoveG g i
/-- document.rs:283-285. -/
def removeKidsG (g : Guards) : Nat → St → Children → Except Err St
  | 0, _, _ => .error .diverge
  | k + 1, s, it => do
    match ← s.childrenNextG g it with
    | (none, _) => .ok s
    | (some c, it') => do
      let s ← removeAuxG g k s c
      removeKidsG g k s it'
end

/-- document.rs:235-238 `remove_node`. -/
def removeNodeG (g : Guards) (s : St) (i : NodeId) : Except Err St := removeAuxG g s.fuel s i

/-- document.rs:311-328 `_drain`; the predicate may look only at nodes that can be read. -/
def drainAuxG (g : Guards) (f : St → NodeId → Bool) : Nat → St → Option NodeId → Nat → Except Err (St × Nat)
  | 0, _, _, _ => .error .diverge
  | _ + 1, s, none, count => .ok (s, count)
  | k + 1, s, some n, count =>
    if f s n then do
      let next ← s.nextSiblingG g n
      let s ← s.removeNodeG g n
      drainAuxG g f k s next (count + 1)
    else do
      rd g n
      let (s, count) ← if s.hasChildren n then do
          let c ← s.firstChildG g n
          drainAuxG g f k s c count
        else pure (s, count)
      let next ← s.nextSiblingG g n
      drainAuxG g f k s next count

/-- document.rs:303-309 `drain`. -/
def drainG (g : Guards) (s : St) (root : NodeId) (f : St → NodeId → Bool) : Except Err (St × Nat) := do
  let c ← s.firstChildG g root
  drainAuxG g f s.fuel s c 0

/-- document.rs:338-340: the attributes of the copied node stay borrowed in the loop, which is part of `g`. -/
def copyAttributesG (g : Guards) (s : St) (elem : NodeId) : List Attribute → Except Err St
  | [] => .ok s
  | a :: as => do
    let s ← s.setAttributeG g elem a
    s.copyAttributesG g elem as

/-- document.rs:333-348 `copy_node`. -/
def copyNodeG (g : Guards) (s : St) (i : NodeId) : Except Err (St × NodeId) := do
  rd g i
  match s.nodeType i with
  | .element => do
    rd g i
    let (s, elem) ← s.createElement (s.tagName i)
    rd g i
    let s ← s.copyAttributesG (Guards.share g i) elem (s.attributes i)
    pure (s, elem)
  | ty => do
    rd g i
    rd g i
    s.createNode ty (s.text i)

/-- document.rs:359-368 `_make_deep_copy`. -/
def deepCopyAuxG (g : Guards) : Nat → St → NodeId → Children → Except Err St
  | 0, _, _, _ => .error .diverge
  | k + 1, s, par, it => do
    match ← s.childrenNextG g it with
    | (none, _) => .ok s
    | (some c, it') => do
      let (s, new) ← s.copyNodeG g c
      let s ← s.appendG g par new
      rd g c
      let s ← if s.hasChildren c then do
          let it ← s.childrenG g c
          deepCopyAuxG g k s new it
        else pure s
      deepCopyAuxG g k s par it'

/-- document.rs:353-357 `copy_node_deep`. -/
def copyNodeDeepG (g : Guards) (s : St) (i : NodeId) : Except Err (St × NodeId) := do
  let (s', root) ← s.copyNodeG g i
  let it ← s'.childrenG g i
  let s'' ← deepCopyAuxG g s'.fuel s' root it
  pure (s'', root)

/-- document.rs:373-377: one iteration of `Drop`. -/
def dropOneG (g : Guards) (s : St) (n : NodeId) : Except Err St := do
  wr g [] n
  let s := s.setD n fun d => { d with attributes := [] }
  wr g [] n
  let s := s.setD n fun d => { d with linkedNodes := [] }
  s.detachG g n

/-- document.rs:373-377: the loop of `Drop`. -/
def dropLoopG (g : Guards) (s : St) : List NodeId → Except Err St
  | [] => .ok s
  | n :: ns => do
    let s ← s.dropOneG g n
    s.dropLoopG g ns

/-- document.rs:371-379 `Drop for Document`. -/
def dropDocumentG (g : Guards) (s : St) : Except Err St := s.dropLoopG g s.slab.nodes

end St

/-- `Op.run` with the guards of the caller. Creating a node borrows no existing node (document.rs:98-128). -/
def Op.runG (g : Guards) (s : St) : Op → Except Err St
  | .createElement tag => (s.createElement tag).map (·.1)
  | .createNode ty text => (s.createNode ty text).map (·.1)
  | .append p c => s.appendG g p c
  | .prepend p c => s.prependG g p c
  | .insertAfter x y => s.insertAfterG g x y
  | .insertBefore x y => s.insertBeforeG g x y
  | .detach i => s.detachG g i
  | .setText i t => s.setTextG g i t
  | .setId i id => s.setIdG g i id
  | .setTagName i t => s.setTagNameG g i t
  | .setAttribute i a => s.setAttributeG g i a
  | .setAttributeChecked i a => (s.setAttributeCheckedG g i a).map (·.1)
  | .setAttributeIfNone i a => s.setAttributeIfNoneG g i a
  | .removeAttribute i name => s.removeAttributeG g i name
  | .removeNode i => s.removeNodeG g i
  | .drain i f => (s.drainG g i f).map (·.1)
  | .copyNode i => (s.copyNodeG g i).map (·.1)
  | .copyNodeDeep i => (s.copyNodeDeepG g i).map (·.1)

end Svgdom
