import Mathlib.Data.List.Forall2
import Verif.Spec.Writer
import Verif.Spec.Parse

/-!
# Names of the written attributes, and names that are not ids
-/

set_option autoImplicit false

namespace Svgdom

/-- The names of the attributes that are written, in order. -/
def attrNames : List Ev → List Str := List.filterMap fun
  | .attribute x _ => some x
  | .attributeRaw x _ => some x
  | _ => none

/-- Is anything written for the attribute? Only a `unicode` that is not a string is left out. -/
def Attribute.isWritten (a : Attribute) : Bool :=
  match a.name, a.value with
  | .id .Unicode, .string _ => true
  | .id .Unicode, _ => false
  | _, _ => true

/-- No two attributes of the element are written under the same name. -/
structure DistinctNames (s : St) (n : NodeId) : Prop where
  /-- no second `id` -/
  id : s.idOf n ≠ [] → ∀ a ∈ s.attributes n, a.name ≠ .id .Id ∧ a.name ≠ .name st!"id"
  /-- no second declaration of the SVG namespace -/
  xmlns : s.TopSvg n → ∀ a ∈ s.attributes n, a.name ≠ .id .Xmlns ∧ a.name ≠ .name st!"xmlns"
  /-- no second declaration of the prefix `xlink` -/
  xlink : s.TopSvg n → s.UsesXlink n → ∀ a ∈ s.attributes n, a.name ≠ .name st!"xmlns:xlink"
  /-- no attribute is there both by its id and by its name -/
  names : ∀ a ∈ s.attributes n, ∀ b ∈ s.attributes n, ∀ i x, a.name = .id i → b.name = .name x → a.isWritten = true →
    ¬ i.IsQualified x

/-! ## Names as strings -/

/-- Names that SVG knows are only there as ids: no tag or attribute of the node is such a name as a string. -/
structure KnownAsIds (s : St) (n : NodeId) : Prop where
  tag : ∀ x, s.tagName n = .name x → elementNamed x = none
  attrs : ∀ a ∈ s.attributes n, ∀ x, a.name = .name x → ∀ i : AttributeId, ¬ i.IsQualified x

/-- The attribute shows as `x`. -/
def Attribute.ShowsAs (a : Attribute) (x : Str) : Prop :=
  match a.name with
  | .id i => i.IsQualified x
  | .name y => x = y

/-! ## Namespaces of attributes -/

/-- The same attribute, but for the namespace, which may be another one of those that are looked at. `style` and `type` (of style
sheets) are looked up without namespace. -/
structure XmlAttr.Alike (a b : XmlAttr) : Prop where
  name : a.name = b.name
  value : a.value = b.value
  known : a.known = b.known
  plain : a.name = st!"style" ∨ a.name = st!"type" → a.ns = b.ns

/-- The same document, but for the namespaces of attributes. -/
def Xml.Alike : Xml → Xml → Prop
  | nil, nil => True
  | element ns name attrs kids rest, element ns' name' attrs' kids' rest' =>
    ns = ns' ∧ name = name' ∧ List.Forall₂ XmlAttr.Alike attrs attrs' ∧ kids.Alike kids' ∧ rest.Alike rest'
  | text t rest, text t' rest' => t = t' ∧ rest.Alike rest'
  | comment t rest, comment t' rest' => t = t' ∧ rest.Alike rest'
  | pi rest, pi rest' => rest.Alike rest'
  | _, _ => False

/-- Attributes in namespaces that are not looked at are left out. -/
def Xml.onlyKnown : Xml → Xml
  | nil => .nil
  | element ns name attrs kids rest => .element ns name (attrs.filter XmlAttr.known) kids.onlyKnown rest.onlyKnown
  | text t rest => .text t rest.onlyKnown
  | comment t rest => .comment t rest.onlyKnown
  | pi rest => .pi rest.onlyKnown

end Svgdom
