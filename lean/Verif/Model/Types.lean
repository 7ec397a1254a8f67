import Verif.Model.SipHash

/-!
# Node data types (lib.rs, name.rs, attribute.rs, attribute_value.rs)
-/

namespace Svgdom

/-- Identity of an `Rc<RefCell<NodeData>>` allocation (never reused). (tree.rs:18-27.) -/
abbrev NodeId := Nat

/-- `f64`, abstracted to its value: the crate itself only compares numbers (parser/mod.rs:273-281). -/
inductive F64 where
  | nan
  | negInf
  | fin (q : Rat)
  | posInf
deriving DecidableEq

/-- IEEE `<` on `F64`: false if an operand is NaN. (parser/mod.rs:274-276.) -/
def F64.lt : F64 → F64 → Bool
  | .nan, _ => false
  | _, .nan => false
  | .negInf, .negInf => false
  | .negInf, _ => true
  | .fin _, .negInf => false
  | .fin a, .fin b => decide (a < b)
  | .fin _, .posInf => true
  | .posInf, _ => false

/-- `svgtypes::Color`. (attribute_value.rs:32.) -/
structure Color where
  red : Nat
  green : Nat
  blue : Nat
deriving DecidableEq

/-- `svgtypes::PaintFallback`. (attribute_value.rs:35.) -/
inductive PaintFallback where
  | none
  | currentColor
  | color (c : Color)
deriving DecidableEq

/-- `svgtypes::LengthUnit`. (attribute_value.rs:10.) -/
inductive LengthUnit where
  | none | em | ex | px | in | cm | mm | pt | pc | percent
deriving DecidableEq

/-- `svgtypes::Length`. (attribute_value.rs:36.) -/
structure Length where
  num : F64
  unit : LengthUnit
deriving DecidableEq

/-- An `svgtypes` value whose contents this crate never inspects (angle, transform, path segment, ...). (attribute_value.rs:31-47.) -/
structure Blob where
  text : Str
deriving DecidableEq

/-- name.rs:26-31 `QName` (also used for `QNameRef`, which only differs by borrowing). -/
inductive QName (T : Type) where
  | id (t : T)
  | name (s : Str)
deriving DecidableEq

/-- name.rs:43-48 `has_id`. -/
def QName.hasId {T : Type} [DecidableEq T] (q : QName T) (t : T) : Bool :=
  match q with
  | .id u => decide (t = u)
  | .name _ => false

/-- lib.rs:155 `TagName`. -/
abbrev TagName := QName ElementId
/-- lib.rs:158 `AttributeQName`. -/
abbrev AName := QName AttributeId

/-- attribute_value.rs:27-48 `AttributeValue`. -/
inductive AttributeValue where
  | none
  | inherit
  | currentColor
  | aspectRatio (b : Blob)
  | color (c : Color)
  | funcLink (n : NodeId)
  | paint (n : NodeId) (fallback : Option PaintFallback)
  | length (l : Length)
  | lengthList (l : List Length)
  | angle (b : Blob)
  | link (n : NodeId)
  | number (x : F64)
  | numberList (l : List F64)
  | path (segs : List Blob)
  | points (b : Blob)
  | transform (b : Blob)
  | viewBox (b : Blob)
  | string (s : Str)
deriving DecidableEq

/-- The node inside a `Link`, `FuncLink` or `Paint` value: the pattern used in node.rs:461-471, 572-582,
document.rs:244-251, 264-273. -/
def AttributeValue.linkNode : AttributeValue → Option NodeId
  | .link n => some n
  | .funcLink n => some n
  | .paint n _ => some n
  | _ => Option.none

/-- attribute_value.rs:156-163 `is_link_container`. -/
def AttributeValue.isLinkContainer (v : AttributeValue) : Bool :=
  match v with
  | .link _ => true
  | .funcLink _ => true
  | .paint _ _ => true
  | _ => false

/-- attribute.rs:14-19 `Attribute`. -/
structure Attribute where
  name : AName
  value : AttributeValue
deriving DecidableEq

/-- lib.rs:165-178 `NodeType`. -/
inductive NodeType where
  | root | element | comment | text
deriving DecidableEq

/-- lib.rs:182-190 `NodeData`. -/
structure NodeData where
  storageKey : Option Nat
  nodeType : NodeType
  tagName : TagName
  id : Str
  attributes : List Attribute
  linkedNodes : List NodeId
  text : Str
deriving DecidableEq

/-- error.rs:8-28 `Error`. -/
inductive DomError where
  | elementMustHaveAnId
  | elementCrosslink
deriving DecidableEq

end Svgdom
