import Verif.Model.Iter

/-!
# attributes.rs and node.rs
-/

namespace Svgdom

/-! ## attributes.rs -/

/-- attributes.rs:71-82 `get`. -/
def attrsGet (l : List Attribute) (name : AName) : Option Attribute := l.find? fun a => decide (a.name = name)

/-- attributes.rs:105-116 `get_value`. -/
def attrsGetValue (l : List Attribute) (name : AName) : Option AttributeValue := (attrsGet l name).map (·.value)

/-- attributes.rs:163-168 `contains`. -/
def attrsContains (l : List Attribute) (name : AName) : Bool := l.any fun a => decide (a.name = name)

/-- attributes.rs:136-148 `insert`: replace in place if present, else push. -/
def attrsInsert (l : List Attribute) (a : Attribute) : List Attribute :=
  match l.findIdx? (fun x => decide (x.name = a.name)) with
  | some i => l.set i a
  | none => l ++ [a]

/-- attributes.rs:151-159 `remove`. -/
def attrsRemove (l : List Attribute) (name : AName) : List Attribute :=
  match l.findIdx? (fun x => decide (x.name = name)) with
  | some i => l.eraseIdx i
  | none => l

/-- attributes.rs:19-31 `svg()`: attributes with an SVG name. -/
def attrsSvg (l : List Attribute) : List (AttributeId × Attribute) :=
  l.filterMap fun a => match a.name with
    | .id i => some (i, a)
    | .name _ => none

/-! ## Building attributes (node.rs:23-53) -/

/-- node.rs:31-45 `From<(N, Node)> for Attribute`. -/
def attrOfNode (name : AName) (n : NodeId) : Attribute :=
  if name.hasId .Href then ⟨name, .link n⟩
  else if name.hasId .Fill || name.hasId .Stroke then ⟨name, .paint n none⟩
  else ⟨name, .funcLink n⟩

/-- node.rs:47-53 `From<(N, (Node, Option<PaintFallback>))> for Attribute`. -/
def attrOfPaint (name : AName) (n : NodeId) (fb : Option PaintFallback) : Attribute := ⟨name, .paint n fb⟩

namespace St

/-! ## node.rs: simple accessors -/

/-- node.rs:116-118 `node_type`. -/
def nodeType (s : St) (i : NodeId) : NodeType := (s.data i).nodeType
/-- node.rs:125-127 `is_root`. -/
def isRoot (s : St) (i : NodeId) : Bool := decide (s.nodeType i = .root)
/-- node.rs:134-136 `is_element`. -/
def isElement (s : St) (i : NodeId) : Bool := decide (s.nodeType i = .element)
/-- node.rs:143-145 `is_comment`. -/
def isComment (s : St) (i : NodeId) : Bool := decide (s.nodeType i = .comment)
/-- node.rs:152-154 `is_text`. -/
def isText (s : St) (i : NodeId) : Bool := decide (s.nodeType i = .text)
/-- node.rs:161-163 `is_detached`. -/
def isDetached (s : St) (i : NodeId) : Bool := (s.data i).storageKey.isNone
/-- node.rs:102-107 `has_parent`. -/
def hasParent (s : St) (i : NodeId) : Bool :=
  match s.parent i with
  | some p => !s.isRoot p
  | none => false
/-- node.rs:172-174 `text`. -/
def text (s : St) (i : NodeId) : Str := (s.data i).text
/-- node.rs:202-204 `id`. -/
def idOf (s : St) (i : NodeId) : Str := (s.data i).id
/-- node.rs:211-213 `has_id`. -/
def hasIdAttr (s : St) (i : NodeId) : Bool := !(s.idOf i).isEmpty
/-- node.rs:250-252 `tag_name`. -/
def tagName (s : St) (i : NodeId) : TagName := (s.data i).tagName
/-- node.rs:259-264 `tag_id`. -/
def tagId (s : St) (i : NodeId) : Option ElementId :=
  match s.tagName i with
  | .id e => some e
  | .name _ => none
/-- node.rs:271-275 `has_tag_name`. -/
def hasTagName (s : St) (i : NodeId) (t : TagName) : Bool := decide (s.tagName i = t)
/-- node.rs:234-243 `is_svg_element`. -/
def isSvgElement (s : St) (i : NodeId) : Bool :=
  s.isElement i && (s.tagId i).isSome
/-- node.rs:305-307 `attributes`. -/
def attributes (s : St) (i : NodeId) : List Attribute := (s.data i).attributes
/-- node.rs:324-328 `has_attribute`. -/
def hasAttribute (s : St) (i : NodeId) (name : AName) : Bool := attrsContains (s.attributes i) name
/-- node.rs:596-598 `linked_nodes`. -/
def linkedNodes (s : St) (i : NodeId) : List NodeId := (s.data i).linkedNodes
/-- node.rs:618-620 `is_used`. -/
def isUsed (s : St) (i : NodeId) : Bool := !(s.linkedNodes i).isEmpty
/-- node.rs:629-631 `uses_count`. -/
def usesCount (s : St) (i : NodeId) : Nat := (s.linkedNodes i).length

/-! ## node.rs: mutation -/

/-- node.rs:192-195 `set_text`. -/
def setText (s : St) (i : NodeId) (t : Str) : Except Err St := do
  s.debugAssert (!s.isElement i)
  pure (s.setD i fun d => { d with text := t })

/-- node.rs:222-227 `set_id`. -/
def setId (s : St) (i : NodeId) (id : Str) : Except Err St := do
  s.debugAssert (s.isElement i)
  pure (s.setD i fun d => { d with id := id })

/-- node.rs:285-298 `set_tag_name`. -/
def setTagName (s : St) (i : NodeId) (t : TagName) : Except Err St := do
  s.debugAssert (s.isElement i)
  if t = .name [] then throw (.panic .emptyTagName)
  pure (s.setD i fun d => { d with tagName := t })

/-- node.rs:571-584: drop one back reference to `i` from the node that `v` refers to. While `self.attributes()` is borrowed,
`node.borrow_mut()` panics if `node` is `self`. -/
def unlinkValue (s : St) (i : NodeId) (v : AttributeValue) : Except Err St :=
  match v.linkNode with
  | some t =>
    match (s.linkedNodes t).findIdx? (fun n => decide (n = i)) with
    | some index => do
      borrowMut [i] t
      pure (s.setD t fun d => { d with linkedNodes := d.linkedNodes.eraseIdx index })
    | none => .error (.panic .unwrap)
  | none => .ok s

/-- node.rs:563-587 `remove_attribute`. -/
def removeAttribute (s : St) (i : NodeId) (name : AName) : Except Err St :=
  if !s.hasAttribute i name then .ok s
  else do
    let s ← match attrsGetValue (s.attributes i) name with
      | some v => s.unlinkValue i v
      | none => .ok s
    pure (s.setD i fun d => { d with attributes := attrsRemove d.attributes name })

/-- node.rs:479-487 `set_simple_attribute`. -/
def setSimpleAttribute (s : St) (i : NodeId) (a : Attribute) : Except Err St := do
  s.debugAssert (!a.value.isLinkContainer)
  let s ← s.removeAttribute i a.name
  pure (s.setD i fun d => { d with attributes := attrsInsert d.attributes a })

/-- node.rs:513-519: the value stored for a link under a given name. -/
def linkValue (name : AName) (n : NodeId) (fallback : Option PaintFallback) : AttributeValue :=
  if name.hasId .Href then .link n
  else if name.hasId .Fill || name.hasId .Stroke then .paint n fallback
  else .funcLink n

/-- node.rs:489-528 `set_link_attribute`. -/
def setLinkAttribute (s : St) (i : NodeId) (name : AName) (n : NodeId) (fallback : Option PaintFallback) :
    Except Err (St × Option DomError) :=
  if (s.idOf n).isEmpty then .ok (s, some .elementMustHaveAnId)
  else if s.idOf i = s.idOf n then .ok (s, some .elementCrosslink)
  else if (s.linkedNodes i).any (fun m => decide (m = n)) then .ok (s, some .elementCrosslink)
  else do
    let s ← s.removeAttribute i name
    let s := s.setD i fun d => { d with attributes := attrsInsert d.attributes ⟨name, linkValue name n fallback⟩ }
    let s := s.setD n fun d => { d with linkedNodes := d.linkedNodes ++ [i] }
    pure (s, none)

/-- node.rs:458-477 `set_attribute_checked_impl`. -/
def setAttributeChecked (s : St) (i : NodeId) (a : Attribute) : Except Err (St × Option DomError) := do
  s.debugAssert (s.isElement i)
  match a.value with
  | .link n => s.setLinkAttribute i a.name n none
  | .funcLink n => s.setLinkAttribute i a.name n none
  | .paint n fb => s.setLinkAttribute i a.name n fb
  | _ => do
    let s ← s.setSimpleAttribute i a
    pure (s, none)

/-- node.rs:339-343 `set_attribute`. -/
def setAttribute (s : St) (i : NodeId) (a : Attribute) : Except Err St := do
  match ← s.setAttributeChecked i a with
  | (s, none) => pure s
  | (_, some _) => throw (.panic .unwrap)

/-- node.rs:547-554 `set_attribute_if_none`. -/
def setAttributeIfNone (s : St) (i : NodeId) (a : Attribute) : Except Err St :=
  if !s.hasAttribute i a.name then s.setAttribute i a else .ok s

end St

end Svgdom
