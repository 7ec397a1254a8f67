import Verif.Model.History

/-!
# What attributes and links should be

Stated with plain list functions only.
-/

namespace Svgdom

/-- `v` refers to the node `n`. -/
def AttributeValue.refersTo (v : AttributeValue) (n : NodeId) : Bool :=
  match v with
  | .link m => decide (m = n)
  | .funcLink m => decide (m = n)
  | .paint m _ => decide (m = n)
  | _ => false

/-- `v` refers to no node. -/
def AttributeValue.plain (v : AttributeValue) : Bool :=
  match v with
  | .link _ => false
  | .funcLink _ => false
  | .paint _ _ => false
  | _ => true

/-- The value that should be stored for `v` under `name`: plain values as they are; a reference is a `Link` in `href`, a `Paint`
in `fill` and `stroke`, a `FuncLink` elsewhere. -/
def retag (name : AName) (v : AttributeValue) : AttributeValue :=
  let go (n : NodeId) (fb : Option PaintFallback) : AttributeValue :=
    match name with
    | .id .Href => .link n
    | .id .Fill => .paint n fb
    | .id .Stroke => .paint n fb
    | _ => .funcLink n
  match v with
  | .link n => go n none
  | .funcLink n => go n none
  | .paint n fb => go n fb
  | v => v

/-- Number of attributes in the list that refer to `n`. -/
def refCount (l : List Attribute) (n : NodeId) : Nat := (l.filter fun a => a.value.refersTo n).length

/-- Does a node of `s` refer to `j` by an attribute of `i`? -/
def St.LinksTo (s : St) (i j : NodeId) : Prop := ∃ a ∈ s.attributes i, a.value.refersTo j = true

/-- Everything but attributes and back references is the same. -/
structure SameElse (s t : St) : Prop where
  links : t.links = s.links
  live : t.live = s.live
  nextId : t.nextId = s.nextId
  rootId : t.rootId = s.rootId
  slab : t.slab = s.slab
  debug : t.debug = s.debug
  ids : ∀ j, t.idOf j = s.idOf j
  tags : ∀ j, t.tagName j = s.tagName j
  texts : ∀ j, t.text j = s.text j
  types : ∀ j, t.nodeType j = s.nodeType j
  keys : ∀ j, (t.data j).storageKey = (s.data j).storageKey

/-- Why setting a reference from `i` to `n` must be refused: the target has no id; or equal ids; or the target links back. -/
inductive Refused (s : St) (i n : NodeId) : DomError → Prop where
  | noId : s.idOf n = [] → Refused s i n .elementMustHaveAnId
  | sameId : s.idOf n ≠ [] → s.idOf i = s.idOf n → Refused s i n .elementCrosslink
  | backLink : s.idOf n ≠ [] → s.LinksTo n i → Refused s i n .elementCrosslink

end Svgdom
