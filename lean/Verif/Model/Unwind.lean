import Verif.Model.Document

/-!
# tree.rs: the state that a panic leaves behind

The same functions as in `Model/Tree.lean`, statement by statement, but a panic also gives the state at that moment: the guards are
released when the stack is unwound, the changes made so far stay. A program sees this state if it catches the panic, and
`Drop for Document` (document.rs:371-379) runs on it if the document is dropped while the stack is unwound.
`Proof/Unwind.lean` shows that the functions agree with those of `Model/Tree.lean`.
-/

set_option autoImplicit false

namespace Svgdom

/-- A check that fails in state `s`. (The checks of document.rs, node.rs, tree.rs; not a function of the crate.) -/
def St.fails (s : St) (r : Except Err Unit) : Except (Err × St) Unit := r.mapError fun e => (e, s)

namespace St

/-- tree.rs:393-401 in `NodeData::detach`. -/
def detachNextU (s : St) (held : List NodeId) (parentW prevW nextS : Option NodeId) : Except (Err × St) St :=
  match nextS with
  | some n => do
    s.fails (borrowMut held n)
    pure (s.setL n fun l => { l with prevSib := prevW })
  | none =>
    match s.upgrade parentW with
    | some p => do
      s.fails (borrowMut held p)
      pure (s.setL p fun l => { l with lastChild := prevW })
    | none => pure s

/-- tree.rs:403-411 in `NodeData::detach`. -/
def detachPrevU (s : St) (held : List NodeId) (parentW prevO nextS : Option NodeId) : Except (Err × St) St :=
  match prevO with
  | some q => do
    s.fails (borrowMut held q)
    pure (s.setL q fun l => { l with nextSib := nextS })
  | none =>
    match s.upgrade parentW with
    | some p => do
      s.fails (borrowMut held p)
      pure (s.setL p fun l => { l with firstChild := nextS })
    | none => pure s

/-- tree.rs:386-412 `NodeData::detach`: the three `take()` come first and stay. -/
def detachCoreU (s : St) (held : List NodeId) (i : NodeId) : Except (Err × St) St := do
  let parentW := (s.links i).parent
  let prevW := (s.links i).prevSib
  let nextS := (s.links i).nextSib
  let s := s.setL i fun l => { l with parent := none, prevSib := none, nextSib := none }
  let prevO := s.upgrade prevW
  let s ← s.detachNextU held parentW prevW nextS
  s.detachPrevU held parentW prevO nextS

/-- tree.rs:238-266 `append`. -/
def appendU (s : St) (p c : NodeId) : Except (Err × St) St := do
  s.fails (assertOrPanic (p != c))
  let s ← s.detachCoreU [p, c] c
  let s := s.setL c fun l => { l with root := some ((s.links p).root.getD p), parent := some p }
  let lastW := (s.links p).lastChild
  let s := s.setL p fun l => { l with lastChild := none }
  let lastO := s.upgrade lastW
  let s := match lastO with
    | some _ => s.setL c fun l => { l with prevSib := lastW }
    | none => s
  let s := s.setL p fun l => { l with lastChild := some c }
  match lastO with
  | some l => do
    s.fails (borrowMut [p] l)
    s.fails (s.debugAssert (s.links l).nextSib.isNone)
    pure (s.setL l fun k => { k with nextSib := some c })
  | none => do
    s.fails (s.debugAssert (s.links p).firstChild.isNone)
    pure (s.setL p fun k => { k with firstChild := some c })

/-- tree.rs:273-298 `prepend`. -/
def prependU (s : St) (p c : NodeId) : Except (Err × St) St := do
  s.fails (assertOrPanic (p != c))
  let s ← s.detachCoreU [p, c] c
  let s := s.setL c fun l => { l with root := some ((s.links p).root.getD p), parent := some p }
  let first := (s.links p).firstChild
  let s := s.setL p fun l => { l with firstChild := none }
  let s ← match first with
    | some f => do
      s.fails (borrowMut [p, c] f)
      s.fails (s.debugAssert (s.links f).prevSib.isNone)
      let s := s.setL f fun l => { l with prevSib := some c }
      pure (s.setL c fun l => { l with nextSib := some f })
    | none => do
      s.fails (s.debugAssert (s.links p).firstChild.isNone)
      pure (s.setL p fun l => { l with lastChild := some c })
  pure (s.setL p fun l => { l with firstChild := some c })

/-- tree.rs:305-338 `insert_after`. -/
def insertAfterU (s : St) (x y : NodeId) : Except (Err × St) St := do
  s.fails (assertOrPanic (x != y))
  let s ← s.detachCoreU [x, y] y
  let s := s.setL y fun l =>
    { l with root := (s.links x).root, parent := (s.links x).parent, prevSib := some x }
  let nextS := (s.links x).nextSib
  let s := s.setL x fun l => { l with nextSib := none }
  let s ← match nextS with
    | some n => do
      s.fails (borrowMut [x, y] n)
      s.fails (s.debugAssert (decide (s.upgrade (s.links n).prevSib = some x)))
      let s := s.setL n fun l => { l with prevSib := some y }
      pure (s.setL y fun l => { l with nextSib := some n })
    | none =>
      match s.upgrade (s.links x).parent with
      | some p => do
        s.fails (borrowMut [x, y] p)
        pure (s.setL p fun l => { l with lastChild := some y })
      | none => pure s
  pure (s.setL x fun l => { l with nextSib := some y })

/-- tree.rs:345-381 `insert_before`. -/
def insertBeforeU (s : St) (x y : NodeId) : Except (Err × St) St := do
  s.fails (assertOrPanic (x != y))
  let s ← s.detachCoreU [x, y] y
  let s := s.setL y fun l =>
    { l with root := (s.links x).root, parent := (s.links x).parent, nextSib := some x }
  let prevW := (s.links x).prevSib
  let s := s.setL x fun l => { l with prevSib := none }
  let prevO := s.upgrade prevW
  let s := match prevO with
    | some _ => s.setL y fun l => { l with prevSib := prevW }
    | none => s
  let s := s.setL x fun l => { l with prevSib := some y }
  match prevO with
  | some q => do
    s.fails (borrowMut [x] q)
    s.fails (s.debugAssert (decide ((s.links q).nextSib = some x)))
    pure (s.setL q fun l => { l with nextSib := some y })
  | none =>
    match s.upgrade (s.links x).parent with
    | some p => do
      s.fails (borrowMut [x] p)
      pure (s.setL p fun l => { l with firstChild := some y })
    | none => pure s

end St

end Svgdom
