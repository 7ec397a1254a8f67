import Verif.Model.Guard
import Verif.Model.Unwind

/-!
# node.rs and the copies: the state that a panic leaves behind

The functions of `Model/Guard.lean` that set and remove data, and those of `Model/Document.lean` that copy nodes, statement by
statement, but a panic also gives the state at that moment (see `Model/Unwind.lean`). `Proof/UnwindNode.lean` shows that the functions
agree with those of `Model/Guard.lean` and `Model/Document.lean`.
-/

set_option autoImplicit false

namespace Svgdom

namespace St

/-- node.rs:182-184 `text_mut`, used to store a text. -/
def textMutU (g : Guards) (s : St) (i : NodeId) (t : Str) : Except (Err × St) St := do
  s.fails (wr g [] i)
  pure (s.setD i fun d => { d with text := t })

/-- node.rs:192-195 `set_text`. -/
def setTextU (g : Guards) (s : St) (i : NodeId) (t : Str) : Except (Err × St) St := do
  s.fails (s.debugReads g i (!s.isElement i))
  s.fails (wr g [] i)
  pure (s.setD i fun d => { d with text := t })

/-- node.rs:222-227 `set_id`. -/
def setIdU (g : Guards) (s : St) (i : NodeId) (id : Str) : Except (Err × St) St := do
  s.fails (s.debugReads g i (s.isElement i))
  s.fails (wr g [] i)
  pure (s.setD i fun d => { d with id := id })

/-- node.rs:285-298 `set_tag_name`. -/
def setTagNameU (g : Guards) (s : St) (i : NodeId) (t : TagName) : Except (Err × St) St := do
  s.fails (s.debugReads g i (s.isElement i))
  if t = .name [] then throw (.panic .emptyTagName, s)
  s.fails (wr g [] i)
  pure (s.setD i fun d => { d with tagName := t })

/-- node.rs:571-584. -/
def unlinkValueU (g : Guards) (s : St) (i : NodeId) (v : AttributeValue) : Except (Err × St) St :=
  match v.linkNode with
  | some t => do
    s.fails (rd g t)
    match (s.linkedNodes t).findIdx? (fun n => decide (n = i)) with
    | some index => do
      s.fails (wr g [i] t)
      pure (s.setD t fun d => { d with linkedNodes := d.linkedNodes.eraseIdx index })
    | none => .error (.panic .unwrap, s)
  | none => .ok s

/-- node.rs:563-587 `remove_attribute`: the back reference is removed before the attribute. -/
def removeAttributeU (g : Guards) (s : St) (i : NodeId) (name : AName) : Except (Err × St) St := do
  s.fails (rd g i)
  if !s.hasAttribute i name then pure s
  else do
    s.fails (rd g i)
    let s ← match attrsGetValue (s.attributes i) name with
      | some v => s.unlinkValueU g i v
      | none => .ok s
    s.fails (wr g [] i)
    pure (s.setD i fun d => { d with attributes := attrsRemove d.attributes name })

/-- node.rs:479-487 `set_simple_attribute`. -/
def setSimpleAttributeU (g : Guards) (s : St) (i : NodeId) (a : Attribute) : Except (Err × St) St := do
  s.fails (s.debugAssert (!a.value.isLinkContainer))
  let s ← s.removeAttributeU g i a.name
  s.fails (wr g [] i)
  pure (s.setD i fun d => { d with attributes := attrsInsert d.attributes a })

/-- node.rs:489-528 `set_link_attribute`: the attribute is inserted before the back reference. -/
def setLinkAttributeU (g : Guards) (s : St) (i : NodeId) (name : AName) (n : NodeId) (fallback : Option PaintFallback) :
    Except (Err × St) (St × Option DomError) := do
  s.fails (rd g n)
  if (s.idOf n).isEmpty then pure (s, some .elementMustHaveAnId)
  else do
    s.fails (rd g i)
    s.fails (rd g n)
    if s.idOf i = s.idOf n then pure (s, some .elementCrosslink)
    else do
      s.fails (rd g i)
      if (s.linkedNodes i).any (fun m => decide (m = n)) then pure (s, some .elementCrosslink)
      else do
        let s ← s.removeAttributeU g i name
        s.fails (wr g [] i)
        let s := s.setD i fun d => { d with attributes := attrsInsert d.attributes ⟨name, linkValue name n fallback⟩ }
        s.fails (wr g [] n)
        let s := s.setD n fun d => { d with linkedNodes := d.linkedNodes ++ [i] }
        pure (s, none)

/-- node.rs:458-477 `set_attribute_checked_impl`. -/
def setAttributeCheckedU (g : Guards) (s : St) (i : NodeId) (a : Attribute) : Except (Err × St) (St × Option DomError) := do
  s.fails (s.debugReads g i (s.isElement i))
  match a.value with
  | .link n => s.setLinkAttributeU g i a.name n none
  | .funcLink n => s.setLinkAttributeU g i a.name n none
  | .paint n fb => s.setLinkAttributeU g i a.name n fb
  | _ => do
    let s ← s.setSimpleAttributeU g i a
    pure (s, none)

/-- node.rs:339-343 `set_attribute`. -/
def setAttributeU (g : Guards) (s : St) (i : NodeId) (a : Attribute) : Except (Err × St) St := do
  match ← s.setAttributeCheckedU g i a with
  | (s, none) => pure s
  | (s, some _) => throw (.panic .unwrap, s)

/-- node.rs:547-554 `set_attribute_if_none`. -/
def setAttributeIfNoneU (g : Guards) (s : St) (i : NodeId) (a : Attribute) : Except (Err × St) St := do
  s.fails (rd g i)
  if !s.hasAttribute i a.name then s.setAttributeU g i a else pure s

/-! ## document.rs -/

/-- The caller holds no guards. (node.rs, document.rs as called without guards.) -/
def noGuards : Guards := fun _ => .free

/-- document.rs:338-340: `node.attributes()` stays borrowed in the loop. -/
def copyAttributesU (s : St) (src elem : NodeId) : List Attribute → Except (Err × St) St
  | [] => .ok s
  | a :: as => do
    let s ← s.setAttributeU (noGuards.share src) elem a
    s.copyAttributesU src elem as

/-- document.rs:333-348 `copy_node`. -/
def copyNodeU (s : St) (i : NodeId) : Except (Err × St) (St × NodeId) :=
  match s.nodeType i with
  | .element => do
    let (s, elem) ← (s.createElement (s.tagName i)).mapError (·, s)
    let s ← s.copyAttributesU i elem (s.attributes i)
    pure (s, elem)
  | ty => (s.createNode ty (s.text i)).mapError (·, s)

/-- document.rs:359-368 `_make_deep_copy`. -/
def deepCopyAuxU : Nat → St → NodeId → Children → Except (Err × St) St
  | 0, s, _, _ => .error (.diverge, s)
  | k + 1, s, par, it =>
    match s.childrenNext it with
    | (none, _) => .ok s
    | (some c, it') => do
      let (s, new) ← s.copyNodeU c
      let s ← s.appendU par new
      let s ← if s.hasChildren c then deepCopyAuxU k s new (s.children c) else pure s
      deepCopyAuxU k s par it'

/-- document.rs:353-357 `copy_node_deep`. -/
def copyNodeDeepU (s : St) (i : NodeId) : Except (Err × St) (St × NodeId) := do
  let (s', root) ← s.copyNodeU i
  let s'' ← deepCopyAuxU s'.fuel s' root (s'.children i)
  pure (s'', root)

end St

end Svgdom
