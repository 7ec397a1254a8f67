import Verif.Model.Node

/-!
# Edits through `text_mut`, `attributes_mut` and `linked_nodes_mut`

The `*_mut` methods hand out a mutable reference to a part of the node. What a caller can do with it is modelled by the
assignments below.
-/

namespace Svgdom

/-- attributes.rs:88-99 `get_mut` and an assignment to the attribute it returns. The loop stops at the first attribute with the
name; the new attribute may have another name. -/
def attrsReplace (l : List Attribute) (name : AName) (a : Attribute) : List Attribute :=
  match l.findIdx? (fun x => decide (x.name = name)) with
  | some i => l.set i a
  | none => l

/-- attributes.rs:122-133 `get_value_mut` and an assignment to the value it returns. -/
def attrsReplaceValue (l : List Attribute) (name : AName) (v : AttributeValue) : List Attribute :=
  match l.findIdx? (fun x => decide (x.name = name)) with
  | some i => l.modify i fun a => { a with value := v }
  | none => l

namespace St

/-- node.rs:183-185 `text_mut` and an assignment; unlike `set_text` there is no check of the node type. -/
def editText (s : St) (i : NodeId) (t : Str) : St := s.setD i fun d => { d with text := t }

/-- node.rs:314-316 `attributes_mut` with `get_mut`. -/
def editAttribute (s : St) (i : NodeId) (name : AName) (a : Attribute) : St :=
  s.setD i fun d => { d with attributes := attrsReplace d.attributes name a }

/-- node.rs:607-609 `linked_nodes_mut` and an assignment to the vector. -/
def editLinked (s : St) (i : NodeId) (l : List NodeId) : St := s.setD i fun d => { d with linkedNodes := l }

/-- node.rs:314-316 `attributes_mut` and any change of the whole list. -/
def editAttributes (s : St) (i : NodeId) (l : List Attribute) : St := s.setD i fun d => { d with attributes := l }

/-- `mem::swap(&mut *a.attributes_mut(), &mut *b.attributes_mut())` (node.rs:314-316) for two nodes. The second `attributes_mut` finds
the node borrowed if the nodes are the same. -/
def swapAttributes (s : St) (i j : NodeId) : Except Err St :=
  if i = j then .error (.panic .borrowed) else .ok ((s.editAttributes i (s.attributes j)).editAttributes j (s.attributes i))

/-- The new attribute may take the place of the attribute `name`: neither of them is a link, or only the fallback of a paint
changes; and the new name is not that of another attribute.
(Condition on callers of node.rs:314-316 `attributes_mut`; not a function of the crate.) -/
structure PlainEdit (s : St) (i : NodeId) (name : AName) (a : Attribute) : Prop where
  value : ∀ old, attrsGet (s.attributes i) name = some old →
    (old.value.linkNode = none ∧ a.value.linkNode = none) ∨
      (a.name = name ∧ ∃ n fb fb', old.value = .paint n fb ∧ a.value = .paint n fb')
  name : a.name = name ∨ s.hasAttribute i a.name = false

/-- The same references, in any order. (Condition on callers of node.rs:314-316 `attributes_mut`; not a function of the crate.) -/
def SameLinks (l m : List Attribute) : Prop := (l.filterMap (·.value.linkNode)).Perm (m.filterMap (·.value.linkNode))

/-- Edits through the `*_mut` methods that leave the bookkeeping of links alone. A reordering is the only such edit of
`linked_nodes`. Attributes can be reordered with `iter_mut` and `mem::swap`; whole lists can be exchanged with `mem::swap`.
(node.rs:183-185, 314-316, 607-609, attributes.rs:190-192.) -/
inductive Edit (s : St) : St → Prop where
  | text (i : NodeId) (t : Str) : s.live i = true → Edit s (s.editText i t)
  | attr (i : NodeId) (name : AName) (a : Attribute) : s.live i = true → s.PlainEdit i name a →
      Edit s (s.editAttribute i name a)
  | order (i : NodeId) (l : List Attribute) : s.live i = true → l.Perm (s.attributes i) → Edit s (s.editAttributes i l)
  | swap {t : St} (i j : NodeId) : s.live i = true → s.live j = true → (s.data i).nodeType = (s.data j).nodeType →
      SameLinks (s.attributes i) (s.attributes j) → s.swapAttributes i j = .ok t → Edit s t
  | linked (i : NodeId) (l : List NodeId) : s.live i = true → l.Perm (s.linkedNodes i) → Edit s (s.editLinked i l)

end St

end Svgdom
