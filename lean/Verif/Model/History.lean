import Verif.Model.Document
import Verif.Model.Edit

/-!
# Histories of API calls

`Op` lists the mutating public calls. `Step s op s'` is one call on live handles that returned normally (the
result of a `Result`-returning call is discarded). `Reachable` are the states after any finite history of calls, of edits through
the `*_mut` methods that leave the bookkeeping of links alone, and of drops of handles.
-/

namespace Svgdom

/-- One public call. (The public methods of document.rs, node.rs and tree.rs; each constructor is the method of the same name.) -/
inductive Op where
  | createElement (tag : TagName)
  | createNode (ty : NodeType) (text : Str)
  | append (p c : NodeId)
  | prepend (p c : NodeId)
  | insertAfter (x y : NodeId)
  | insertBefore (x y : NodeId)
  | detach (i : NodeId)
  | setText (i : NodeId) (t : Str)
  | setId (i : NodeId) (id : Str)
  | setTagName (i : NodeId) (t : TagName)
  | setAttribute (i : NodeId) (a : Attribute)
  | setAttributeChecked (i : NodeId) (a : Attribute)
  | setAttributeIfNone (i : NodeId) (a : Attribute)
  | removeAttribute (i : NodeId) (name : AName)
  | removeNode (i : NodeId)
  | drain (i : NodeId) (f : St → NodeId → Bool)
  | copyNode (i : NodeId)
  | copyNodeDeep (i : NodeId)

/-- The nodes a call refers to: the caller holds handles to them, so they are live.
(The receivers and arguments of type `Node` (document.rs, node.rs, tree.rs).) -/
def Op.handles : Op → List NodeId
  | .createElement _ => []
  | .createNode _ _ => []
  | .append p c => [p, c]
  | .prepend p c => [p, c]
  | .insertAfter x y => [x, y]
  | .insertBefore x y => [x, y]
  | .detach i => [i]
  | .setText i _ => [i]
  | .setId i _ => [i]
  | .setTagName i _ => [i]
  | .setAttribute i a => i :: a.value.linkNode.toList
  | .setAttributeChecked i a => i :: a.value.linkNode.toList
  | .setAttributeIfNone i a => i :: a.value.linkNode.toList
  | .removeAttribute i _ => [i]
  | .removeNode i => [i]
  | .drain i _ => [i]
  | .copyNode i => [i]
  | .copyNodeDeep i => [i]

/-- Outcome of a call; results other than the new state are dropped. (document.rs, node.rs, tree.rs; lines at the methods themselves.) -/
def Op.run (s : St) : Op → Except Err St
  | .createElement tag => (s.createElement tag).map (·.1)
  | .createNode ty text => (s.createNode ty text).map (·.1)
  | .append p c => s.append p c
  | .prepend p c => s.prepend p c
  | .insertAfter x y => s.insertAfter x y
  | .insertBefore x y => s.insertBefore x y
  | .detach i => s.detach i
  | .setText i t => s.setText i t
  | .setId i id => s.setId i id
  | .setTagName i t => s.setTagName i t
  | .setAttribute i a => s.setAttribute i a
  | .setAttributeChecked i a => (s.setAttributeChecked i a).map (·.1)
  | .setAttributeIfNone i a => s.setAttributeIfNone i a
  | .removeAttribute i name => s.removeAttribute i name
  | .removeNode i => s.removeNode i
  | .drain i f => (s.drain i f).map (·.1)
  | .copyNode i => (s.copyNode i).map (·.1)
  | .copyNodeDeep i => (s.copyNodeDeep i).map (·.1)

/-- States reachable by calls that return normally, interleaved with edits and handle drops.
(Use of document.rs, node.rs, tree.rs by any caller; not a function of the crate.) -/
inductive Reachable : St → Prop where
  | init (debug : Bool) : Reachable (St.init debug)
  | call {s s' : St} (op : Op) : Reachable s → (∀ i ∈ op.handles, s.live i = true) → op.run s = .ok s' → Reachable s'
  | free {s : St} (i : NodeId) : Reachable s → s.live i = true → ¬ s.strongRef i → Reachable (s.free i)
  | edit {s t : St} : Reachable s → s.Edit t → Reachable t

end Svgdom
