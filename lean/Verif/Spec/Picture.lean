import Verif.Spec.Remove
import Verif.Spec.Copy

/-!
# Specification: the document as a plain machine

A document as the user sees it: an ordered forest whose nodes carry a type, a tag name, an id, attributes and a text, and which
are stored in the document or not. There are no pointers, no slots, no back references and no borrows here; every call is one
equation on lists. `Abs s P` says that the state `s` of the Rust program shows the picture `P`.
-/

set_option autoImplicit false

namespace Svgdom

/-- What a node carries. -/
structure Look where
  type : NodeType
  tag : TagName
  id : Str
  attrs : List Attribute
  text : Str
deriving DecidableEq

/-- A document and all nodes that have handles. New nodes get the number `next`. -/
structure Picture where
  live : NodeId → Bool
  next : NodeId
  root : NodeId
  debug : Bool
  forest : Forest
  look : NodeId → Look
  stored : NodeId → Bool

/-- One public call, an assignment through `text_mut` or `attributes_mut().get_mut(name)`, or the drop of a handle. The predicate of
`drain` sees type, tag name, id and text. -/
inductive Call where
  | createElement (tag : TagName)
  | createNode (ty : NodeType) (text : Str)
  | append (p c : NodeId)
  | prepend (p c : NodeId)
  | insertAfter (x y : NodeId)
  | insertBefore (x y : NodeId)
  | detach (i : NodeId)
  | setText (i : NodeId) (t : Str)
  | setId (i : NodeId) (id : Str)
  | setTagName (i : NodeId) (t : TagName)
  | setAttribute (i : NodeId) (a : Attribute)
  | setAttributeChecked (i : NodeId) (a : Attribute)
  | setAttributeIfNone (i : NodeId) (a : Attribute)
  | removeAttribute (i : NodeId) (name : AName)
  | removeNode (i : NodeId)
  | drain (i : NodeId) (f : NodeType → TagName → Str → Str → Bool)
  | copyNode (i : NodeId)
  | copyNodeDeep (i : NodeId)
  | editText (i : NodeId) (t : Str)
  | editAttribute (i : NodeId) (name : AName) (a : Attribute)
  | release (i : NodeId)

/-- What a call returns to the caller: nothing, a new node, a number of nodes, or an error. -/
inductive Answer where
  | done
  | node (n : NodeId)
  | count (k : Nat)
  | error (e : DomError)
deriving DecidableEq

/-- The node an attribute value refers to. -/
def AttributeValue.names : AttributeValue → Option NodeId
  | .link n => some n
  | .funcLink n => some n
  | .paint n _ => some n
  | _ => Option.none

/-- The nodes a call mentions. -/
def Call.mentions : Call → List NodeId
  | .createElement _ => []
  | .createNode _ _ => []
  | .append p c => [p, c]
  | .prepend p c => [p, c]
  | .insertAfter x y => [x, y]
  | .insertBefore x y => [x, y]
  | .detach i => [i]
  | .setText i _ => [i]
  | .setId i _ => [i]
  | .setTagName i _ => [i]
  | .setAttribute i a => i :: a.value.names.toList
  | .setAttributeChecked i a => i :: a.value.names.toList
  | .setAttributeIfNone i a => i :: a.value.names.toList
  | .removeAttribute i _ => [i]
  | .removeNode i => [i]
  | .drain i _ => [i]
  | .copyNode i => [i]
  | .copyNodeDeep i => [i]
  | .editText i _ => [i]
  | .editAttribute i _ a => i :: a.value.names.toList
  | .release i => [i]

/-- What a call leads to: a new picture, a panic, or it is none of the calls the claim is about (a node without a handle, a node
that would move below itself, or an assignment to an attribute that changes references or doubles a name). -/
inductive Result where
  | state (Q : Picture)
  | panics
  | misuse

/-- The node `i` and everything below it in document order, down to depth `k`. -/
def Forest.subtree (F : Forest) : Nat → NodeId → List NodeId
  | 0, _ => []
  | k + 1, i => i :: (F.kids i).flatMap (F.subtree k)

namespace Picture

/-- The document of `Document::new`. -/
def init (debug : Bool) : Picture where
  live := fun j => decide (j = 0)
  next := 1
  root := 0
  debug := debug
  forest := { kids := fun _ => [], sibs := fun j => [j], par := fun _ => none }
  look := fun _ => { type := .root, tag := .name [], id := [], attrs := [], text := [] }
  stored := fun j => decide (j = 0)

/-- The node `i` and everything below it in document order. -/
def subtree (P : Picture) (i : NodeId) : List NodeId := P.forest.subtree P.next i

/-- A new node that looks like `d`; it has no relatives and is stored in the document. -/
def add (P : Picture) (d : Look) : Picture :=
  { P with
    live := fun j => decide (j = P.next) || P.live j
    next := P.next + 1
    forest := P.forest.add P.next
    look := fun j => if j = P.next then d else P.look j
    stored := fun j => decide (j = P.next) || P.stored j }

/-- Node `i` looks different. -/
def edit (P : Picture) (i : NodeId) (f : Look → Look) : Picture :=
  { P with look := fun j => if j = i then f (P.look j) else P.look j }

/-- `x` is a neighbour of `c` that changes when `c` is taken out: its next or previous sibling, or its parent if `c` is the first
or the last child. -/
def touches (P : Picture) (c x : NodeId) : Bool :=
  let next := after (P.forest.sibs c) c
  let prev := before (P.forest.sibs c) c
  decide (next = some x) || decide (prev = some x) ||
    (decide (P.forest.par c = some x) && (decide (next = none) || decide (prev = none)))

/-- `y` is moved to a place given by `x`, which results in the forest `G`. A node cannot be moved next to itself or to a neighbour
that changes when it is taken out. -/
def move (P : Picture) (x y : NodeId) (G : Forest) : Result :=
  if x = y then .panics
  else if x ∈ P.subtree y then .misuse
  else if P.touches y x then .panics
  else .state { P with forest := G }

/-- Must `i` not have the attribute value `v`? The target needs an id, another id than `i`, and no reference to `i`. -/
def refuses (P : Picture) (i : NodeId) (v : AttributeValue) : Bool :=
  match v.names with
  | none => false
  | some n => decide ((P.look n).id = []) || decide ((P.look i).id = (P.look n).id) ||
      (P.look n).attrs.any fun b => decide (b.value.names = some i)

/-- Node `i` gets the attribute `a`; it is the last attribute then. -/
def put (P : Picture) (i : NodeId) (a : Attribute) : Picture :=
  P.edit i fun d => { d with
    attrs := d.attrs.filter (fun b => decide (b.name ≠ a.name)) ++ [⟨a.name, retag a.name a.value⟩] }

/-- In debug builds only elements can get tag names, ids and attributes. -/
def noElement (P : Picture) (i : NodeId) : Bool := P.debug && decide ((P.look i).type ≠ .element)

/-- Why `i` must not have the attribute value `v`. -/
def refusal (P : Picture) (i : NodeId) (v : AttributeValue) : Option DomError :=
  match v.names with
  | none => none
  | some n =>
    if (P.look n).id = [] then some .elementMustHaveAnId
    else if P.refuses i v then some .elementCrosslink
    else none

/-- The attribute `name` of `i` may become `a`: neither of them refers to a node, or only the fallback of a paint changes; and the
new name is not that of another attribute. -/
def replaces (P : Picture) (i : NodeId) (name : AName) (a : Attribute) : Bool :=
  ((P.look i).attrs.all fun b => decide (b.name ≠ name) || (decide (b.value.names = none) && decide (a.value.names = none)) ||
    (decide (a.name = name) && match b.value, a.value with
      | .paint n _, .paint m _ => decide (n = m)
      | _, _ => false)) &&
  (decide (a.name = name) || (P.look i).attrs.all fun b => decide (b.name ≠ a.name))

/-- `set_attribute`. -/
def set (P : Picture) (i : NodeId) (a : Attribute) : Result :=
  if P.noElement i || P.refuses i a.value then .panics else .state (P.put i a)

/-- The nodes `S` are removed from the document; they stay behind as single nodes. -/
def remove (P : Picture) (S : List NodeId) : Picture :=
  { P with
    forest := P.forest.prune S
    look := fun j => { P.look j with attrs := (P.look j).attrs.filter (survives S j) }
    stored := fun j => P.stored j && decide (j ∉ S) }

/-- Everything below `i` that satisfies `f`, and what is below that. -/
def drained (P : Picture) (i : NodeId) (f : NodeType → TagName → Str → Str → Bool) : List NodeId :=
  ((P.subtree i).tail.filter fun j => f (P.look j).type (P.look j).tag (P.look j).id (P.look j).text).flatMap P.subtree

/-- How many of them are not below another one. -/
def topmost (P : Picture) (i : NodeId) (f : NodeType → TagName → Str → Str → Bool) : Nat :=
  let l := (P.subtree i).tail.filter fun j => f (P.look j).type (P.look j).tag (P.look j).id (P.look j).text
  (l.filter fun j => l.all fun m => decide (j ∉ (P.subtree m).tail)).length

/-- The copy of a node: an element with the same attributes, or a node with the same text; ids are not copied. -/
def copyOf (d : Look) : Look :=
  if d.type = .element then { d with id := [], text := [] }
  else { type := d.type, tag := .name [], id := [], attrs := [], text := d.text }

/-- Not the document itself, and no element that refers to a node without an id. -/
def copyable (P : Picture) (i : NodeId) : Bool :=
  decide ((P.look i).type ≠ .root) &&
    (decide ((P.look i).type ≠ .element) || (P.look i).attrs.all fun a =>
      match a.value.names with
      | none => true
      | some n => decide ((P.look n).id ≠ []))

/-- The subtree of `i` is copied: the `k`-th node of it in document order becomes the node `next + k`. -/
def copyDeep (P : Picture) (i : NodeId) : Picture :=
  let l := P.subtree i
  let new (j : NodeId) : NodeId := P.next + l.idxOf j
  { P with
    live := fun j => (decide (P.next ≤ j) && decide (j < P.next + l.length)) || P.live j
    next := P.next + l.length
    forest :=
      { kids := fun j => match l[j - P.next]? with
          | some o => if P.next ≤ j then (P.forest.kids o).map new else P.forest.kids j
          | none => P.forest.kids j
        sibs := fun j => match l[j - P.next]? with
          | some o => if P.next ≤ j then (if o = i then [j] else (P.forest.sibs o).map new) else P.forest.sibs j
          | none => P.forest.sibs j
        par := fun j => match l[j - P.next]? with
          | some o => if P.next ≤ j then (if o = i then none else (P.forest.par o).map new) else P.forest.par j
          | none => P.forest.par j }
    look := fun j => match l[j - P.next]? with
      | some o => if P.next ≤ j then copyOf (P.look o) else P.look j
      | none => P.look j
    stored := fun j => (decide (P.next ≤ j) && decide (j < P.next + l.length)) || P.stored j }

/-- Is `i` kept alive by the document or by another node: as its first child, as its next sibling, or by a reference in either
direction? -/
def held (P : Picture) (i : NodeId) : Bool :=
  decide (i = P.root) || P.stored i || (List.range P.next).any fun j => P.live j &&
    (decide ((P.forest.kids j).head? = some i) || decide (after (P.forest.sibs j) j = some i) ||
      (P.look i).attrs.any (fun a => decide (a.value.names = some j)) ||
      (P.look j).attrs.any (fun a => decide (a.value.names = some i)))

/-- The last handle of `i` is dropped. -/
def release (P : Picture) (i : NodeId) : Picture :=
  if P.held i then P else { P with live := fun j => P.live j && decide (j ≠ i), forest := P.forest.drop i }

/-- One call, all mentioned nodes being live. -/
def act (P : Picture) : Call → Result
  | .createElement tag =>
    if tag = .name [] then .panics else .state (P.add { type := .element, tag := tag, id := [], attrs := [], text := [] })
  | .createNode ty text =>
    if ty = .element ∨ ty = .root then .panics
    else .state (P.add { type := ty, tag := .name [], id := [], attrs := [], text := text })
  | .append p c => P.move p c (P.forest.append p c)
  | .prepend p c => P.move p c (P.forest.prepend p c)
  | .insertAfter x y => P.move x y (P.forest.insertAfter x y)
  | .insertBefore x y => P.move x y (P.forest.insertBefore x y)
  | .detach i => .state { P with forest := P.forest.detach i }
  | .setText i t =>
    if P.debug && decide ((P.look i).type = .element) then .panics else .state (P.edit i fun d => { d with text := t })
  | .setId i id => if P.noElement i then .panics else .state (P.edit i fun d => { d with id := id })
  | .setTagName i t =>
    if P.noElement i || decide (t = .name []) then .panics else .state (P.edit i fun d => { d with tag := t })
  | .setAttribute i a => P.set i a
  | .setAttributeChecked i a =>
    if P.noElement i then .panics else if P.refuses i a.value then .state P else .state (P.put i a)
  | .setAttributeIfNone i a =>
    if (P.look i).attrs.any fun b => decide (b.name = a.name) then .state P else P.set i a
  | .removeAttribute i name =>
    .state (P.edit i fun d => { d with attrs := d.attrs.filter fun b => decide (b.name ≠ name) })
  | .removeNode i => .state (P.remove (P.subtree i))
  | .drain i f => .state (P.remove (P.drained i f))
  | .copyNode i => if P.copyable i then .state (P.add (copyOf (P.look i))) else .panics
  | .copyNodeDeep i => if (P.subtree i).all P.copyable then .state (P.copyDeep i) else .panics
  | .editText i t => .state (P.edit i fun d => { d with text := t })
  | .editAttribute i name a =>
    if P.replaces i name a then
      .state (P.edit i fun d => { d with attrs := d.attrs.map fun b => if b.name = name then a else b })
    else .misuse
  | .release i => .state (P.release i)

/-- What the call returns. -/
def answer (P : Picture) : Call → Answer
  | .createElement _ => .node P.next
  | .createNode _ _ => .node P.next
  | .copyNode _ => .node P.next
  | .copyNodeDeep _ => .node P.next
  | .drain i f => .count (P.topmost i f)
  | .setAttributeChecked i a =>
    match P.refusal i a.value with
    | some e => .error e
    | none => .done
  | _ => .done

/-- One call. -/
def step (P : Picture) (c : Call) : Result := if c.mentions.all P.live then P.act c else .misuse

/-- A history of calls; it ends with the first panic. -/
def run (P : Picture) : List Call → Result
  | [] => .state P
  | c :: cs =>
    match P.step c with
    | .state Q => Q.run cs
    | r => r

end Picture

/-- What node `i` carries in the state `s`. -/
def St.look (s : St) (i : NodeId) : Look :=
  { type := s.nodeType i, tag := s.tagName i, id := s.idOf i, attrs := s.attributes i, text := s.text i }

/-- The state `s` shows the picture `P`. -/
structure Abs (s : St) (P : Picture) : Prop where
  live : P.live = s.live
  next : P.next = s.nextId
  root : P.root = s.rootId
  debug : P.debug = s.debug
  forest : Describes s P.forest
  look : ∀ i, s.live i = true → P.look i = s.look i
  stored : ∀ i, s.live i = true → P.stored i = !s.isDetached i

open Classical in
/-- The call in the model of the Rust program; results other than the new state are dropped. Dropping a handle frees the node
only if nothing else refers to it. -/
noncomputable def Call.run (s : St) : Call → Except Err St
  | .createElement tag => Op.run s (.createElement tag)
  | .createNode ty text => Op.run s (.createNode ty text)
  | .append p c => Op.run s (.append p c)
  | .prepend p c => Op.run s (.prepend p c)
  | .insertAfter x y => Op.run s (.insertAfter x y)
  | .insertBefore x y => Op.run s (.insertBefore x y)
  | .detach i => Op.run s (.detach i)
  | .setText i t => Op.run s (.setText i t)
  | .setId i id => Op.run s (.setId i id)
  | .setTagName i t => Op.run s (.setTagName i t)
  | .setAttribute i a => Op.run s (.setAttribute i a)
  | .setAttributeChecked i a => Op.run s (.setAttributeChecked i a)
  | .setAttributeIfNone i a => Op.run s (.setAttributeIfNone i a)
  | .removeAttribute i name => Op.run s (.removeAttribute i name)
  | .removeNode i => Op.run s (.removeNode i)
  | .drain i f => Op.run s (.drain i fun s n => f (s.nodeType n) (s.tagName n) (s.idOf n) (s.text n))
  | .copyNode i => Op.run s (.copyNode i)
  | .copyNodeDeep i => Op.run s (.copyNodeDeep i)
  | .editText i t => .ok (s.editText i t)
  | .editAttribute i name a => .ok (s.editAttribute i name a)
  | .release i => .ok (if s.strongRef i then s else s.free i)

/-- What the call returns in the model of the Rust program. -/
def Call.ask (s : St) : Call → Except Err Answer
  | .createElement tag => (s.createElement tag).map (.node ·.2)
  | .createNode ty text => (s.createNode ty text).map (.node ·.2)
  | .copyNode i => (s.copyNode i).map (.node ·.2)
  | .copyNodeDeep i => (s.copyNodeDeep i).map (.node ·.2)
  | .drain i f => (s.drain i fun s n => f (s.nodeType n) (s.tagName n) (s.idOf n) (s.text n)).map (.count ·.2)
  | .setAttributeChecked i a => (s.setAttributeChecked i a).map fun r =>
    match r.2 with
    | some e => .error e
    | none => .done
  | _ => .ok .done

/-- A history of calls in the model of the Rust program. -/
noncomputable def St.calls (s : St) : List Call → Except Err St
  | [] => .ok s
  | c :: cs => do
    let s ← c.run s
    s.calls cs

/-- The outcome of the program is the one of the machine. -/
def Mirrors (r : Except Err St) : Result → Prop
  | .state Q => ∃ t, r = .ok t ∧ Reachable t ∧ t.Acyclic ∧ Abs t Q
  | .panics => ∃ p, r = .error (.panic p)
  | .misuse => True

end Svgdom
