import Verif.Model.State

/-!
# tree.rs: getters and moves

`c.detach()` etc. run while the caller of `NodeData::detach` holds `borrow_mut` guards; those nodes are in `held`.
Statements are in the order of the source.
-/

namespace Svgdom

namespace St

/-- tree.rs:108-110 `parent`. -/
def parent (s : St) (i : NodeId) : Option NodeId := s.upgrade (s.links i).parent
/-- tree.rs:117-119 `first_child`. -/
def firstChild (s : St) (i : NodeId) : Option NodeId := (s.links i).firstChild
/-- tree.rs:126-128 `last_child`. -/
def lastChild (s : St) (i : NodeId) : Option NodeId := s.upgrade (s.links i).lastChild
/-- tree.rs:135-137 `previous_sibling`. -/
def prevSibling (s : St) (i : NodeId) : Option NodeId := s.upgrade (s.links i).prevSib
/-- tree.rs:144-146 `next_sibling`. -/
def nextSibling (s : St) (i : NodeId) : Option NodeId := (s.links i).nextSib
/-- tree.rs:204-206 `has_children`. -/
def hasChildren (s : St) (i : NodeId) : Bool := (s.firstChild i).isSome

/-- tree.rs:96-101 `root`. -/
def root (s : St) (i : NodeId) : Except Err NodeId :=
  match (s.links i).root with
  | some r => match s.upgrade (some r) with
    | some v => .ok v
    | none => .error (.panic .unwrap)
  | none => .ok i

/-- First half of tree.rs:386-412: patch the next sibling, or else the parent's `last_child` (393-401). -/
def detachNext (s : St) (held : List NodeId) (parentW prevW nextS : Option NodeId) : Except Err St :=
  match nextS with
  | some n => do
    borrowMut held n
    pure (s.setL n fun l => { l with prevSib := prevW })
  | none =>
    match s.upgrade parentW with
    | some p => do
      borrowMut held p
      pure (s.setL p fun l => { l with lastChild := prevW })
    | none => pure s

/-- Second half of tree.rs:386-412: patch the previous sibling, or else the parent's `first_child` (403-411). -/
def detachPrev (s : St) (held : List NodeId) (parentW prevO nextS : Option NodeId) : Except Err St :=
  match prevO with
  | some q => do
    borrowMut held q
    pure (s.setL q fun l => { l with nextSib := nextS })
  | none =>
    match s.upgrade parentW with
    | some p => do
      borrowMut held p
      pure (s.setL p fun l => { l with firstChild := nextS })
    | none => pure s

/-- tree.rs:386-412 `NodeData::detach`; `held` are the nodes borrowed mutably by the caller, including `i`. -/
def detachCore (s : St) (held : List NodeId) (i : NodeId) : Except Err St := do
  let parentW := (s.links i).parent
  let prevW := (s.links i).prevSib
  let nextS := (s.links i).nextSib
  let s := s.setL i fun l => { l with parent := none, prevSib := none, nextSib := none }
  let prevO := s.upgrade prevW
  let s ← s.detachNext held parentW prevW nextS
  s.detachPrev held parentW prevO nextS

/-- tree.rs:229-231 `Node::detach`. -/
def detach (s : St) (i : NodeId) : Except Err St := s.detachCore [i] i

/-- tree.rs:238-266 `append`. -/
def append (s : St) (p c : NodeId) : Except Err St := do
  assertOrPanic (p != c)
  let s ← s.detachCore [p, c] c
  let s := s.setL c fun l => { l with root := some ((s.links p).root.getD p), parent := some p }
  -- 248-253
  let lastW := (s.links p).lastChild
  let s := s.setL p fun l => { l with lastChild := none }
  let lastO := s.upgrade lastW
  let s := match lastO with
    | some _ => s.setL c fun l => { l with prevSib := lastW }
    | none => s
  let s := s.setL p fun l => { l with lastChild := some c }
  -- 257-265, only `self` is still borrowed
  match lastO with
  | some l => do
    borrowMut [p] l
    s.debugAssert (s.links l).nextSib.isNone
    pure (s.setL l fun k => { k with nextSib := some c })
  | none => do
    s.debugAssert (s.links p).firstChild.isNone
    pure (s.setL p fun k => { k with firstChild := some c })

/-- tree.rs:273-298 `prepend`. -/
def prepend (s : St) (p c : NodeId) : Except Err St := do
  assertOrPanic (p != c)
  let s ← s.detachCore [p, c] c
  let s := s.setL c fun l => { l with root := some ((s.links p).root.getD p), parent := some p }
  let first := (s.links p).firstChild
  let s := s.setL p fun l => { l with firstChild := none }
  let s ← match first with
    | some f => do
      borrowMut [p, c] f
      s.debugAssert (s.links f).prevSib.isNone
      let s := s.setL f fun l => { l with prevSib := some c }
      pure (s.setL c fun l => { l with nextSib := some f })
    | none => do
      s.debugAssert (s.links p).firstChild.isNone
      pure (s.setL p fun l => { l with lastChild := some c })
  pure (s.setL p fun l => { l with firstChild := some c })

/-- tree.rs:305-338 `insert_after`: `x.insert_after(y)`. -/
def insertAfter (s : St) (x y : NodeId) : Except Err St := do
  assertOrPanic (x != y)
  let s ← s.detachCore [x, y] y
  let s := s.setL y fun l =>
    { l with root := (s.links x).root, parent := (s.links x).parent, prevSib := some x }
  let nextS := (s.links x).nextSib
  let s := s.setL x fun l => { l with nextSib := none }
  let s ← match nextS with
    | some n => do
      borrowMut [x, y] n
      s.debugAssert (decide (s.upgrade (s.links n).prevSib = some x))
      let s := s.setL n fun l => { l with prevSib := some y }
      pure (s.setL y fun l => { l with nextSib := some n })
    | none =>
      match s.upgrade (s.links x).parent with
      | some p => do
        borrowMut [x, y] p
        pure (s.setL p fun l => { l with lastChild := some y })
      | none => pure s
  pure (s.setL x fun l => { l with nextSib := some y })

/-- tree.rs:345-381 `insert_before`: `x.insert_before(y)`. -/
def insertBefore (s : St) (x y : NodeId) : Except Err St := do
  assertOrPanic (x != y)
  let s ← s.detachCore [x, y] y
  let s := s.setL y fun l =>
    { l with root := (s.links x).root, parent := (s.links x).parent, nextSib := some x }
  let prevW := (s.links x).prevSib
  let s := s.setL x fun l => { l with prevSib := none }
  let prevO := s.upgrade prevW
  let s := match prevO with
    | some _ => s.setL y fun l => { l with prevSib := prevW }
    | none => s
  let s := s.setL x fun l => { l with prevSib := some y }
  -- 365-380, only `self` is still borrowed
  match prevO with
  | some q => do
    borrowMut [x] q
    s.debugAssert (decide ((s.links q).nextSib = some x))
    pure (s.setL q fun l => { l with nextSib := some y })
  | none =>
    match s.upgrade (s.links x).parent with
    | some p => do
      borrowMut [x] p
      pure (s.setL p fun l => { l with firstChild := some y })
    | none => pure s

end St

end Svgdom
