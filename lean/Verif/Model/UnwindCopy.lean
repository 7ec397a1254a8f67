import Verif.Model.UnwindRemove

/-!
# `copy_node` and `copy_node_deep` with the guards of the caller: the state that a panic leaves behind

The functions of `Model/Guard.lean`, statement by statement, but a panic also gives the state at that moment (see `Model/Unwind.lean`).
`Proof/UnwindCopy.lean` shows that the functions agree with those of `Model/Guard.lean`.
-/

set_option autoImplicit false

namespace Svgdom

namespace St

/-- tree.rs:238-266 `append`. -/
def appendGU (g : Guards) (s : St) (p c : NodeId) : Except (Err × St) St := do
  s.fails (assertOrPanic (p != c))
  s.fails (wr g [] p)
  s.fails (wr g [p] c)
  let s ← s.detachCoreGU g [p, c] c
  let s := s.setL c fun l => { l with root := some ((s.links p).root.getD p), parent := some p }
  let lastW := (s.links p).lastChild
  let s := s.setL p fun l => { l with lastChild := none }
  let lastO := s.upgrade lastW
  let s := match lastO with
    | some _ => s.setL c fun l => { l with prevSib := lastW }
    | none => s
  let s := s.setL p fun l => { l with lastChild := some c }
  match lastO with
  | some l => do
    s.fails (wr g [p] l)
    s.fails (s.debugAssert (s.links l).nextSib.isNone)
    pure (s.setL l fun k => { k with nextSib := some c })
  | none => do
    s.fails (s.debugAssert (s.links p).firstChild.isNone)
    pure (s.setL p fun k => { k with firstChild := some c })

/-- document.rs:338-340: the attributes of the copied node stay borrowed in the loop, which is part of `g`. -/
def copyAttributesGU (g : Guards) (s : St) (elem : NodeId) : List Attribute → Except (Err × St) St
  | [] => .ok s
  | a :: as => do
    let s ← s.setAttributeU g elem a
    s.copyAttributesGU g elem as

/-- document.rs:333-348 `copy_node`. -/
def copyNodeGU (g : Guards) (s : St) (i : NodeId) : Except (Err × St) (St × NodeId) := do
  s.fails (rd g i)
  match s.nodeType i with
  | .element => do
    s.fails (rd g i)
    let (s, elem) ← (s.createElement (s.tagName i)).mapError (·, s)
    s.fails (rd g i)
    let s ← s.copyAttributesGU (Guards.share g i) elem (s.attributes i)
    pure (s, elem)
  | ty => do
    s.fails (rd g i)
    s.fails (rd g i)
    (s.createNode ty (s.text i)).mapError (·, s)

/-- document.rs:359-368 `_make_deep_copy`. -/
def deepCopyAuxGU (g : Guards) : Nat → St → NodeId → Children → Except (Err × St) St
  | 0, s, _, _ => .error (.diverge, s)
  | k + 1, s, par, it => do
    match ← (s.childrenNextG g it).mapError (·, s) with
    | (none, _) => .ok s
    | (some c, it') => do
      let (s, new) ← s.copyNodeGU g c
      let s ← s.appendGU g par new
      s.fails (rd g c)
      let s ← if s.hasChildren c then do
          let it ← (s.childrenG g c).mapError (·, s)
          deepCopyAuxGU g k s new it
        else pure s
      deepCopyAuxGU g k s par it'

/-- document.rs:353-357 `copy_node_deep`. -/
def copyNodeDeepGU (g : Guards) (s : St) (i : NodeId) : Except (Err × St) (St × NodeId) := do
  let (s', root) ← s.copyNodeGU g i
  let it ← (s'.childrenG g i).mapError (·, s')
  let s'' ← deepCopyAuxGU g s'.fuel s' root it
  pure (s'', root)

end St

end Svgdom
