import Verif.Spec.Parse

/-!
# Content that leaves no trace

Which parts of an XML document can be left out according to the documentation of the parser, and what selectors can see.
-/

set_option autoImplicit false

namespace Svgdom

/-- The SVG element that an XML element stands for. -/
def svgTag (ns : Option Str) (name : Str) : Option ElementId :=
  if ns = some st!"http://www.w3.org/2000/svg" then elementNamed name else none

/-- Attributes of other vocabularies, and attributes with a namespace that are not known. -/
def XmlAttr.Ignorable (a : XmlAttr) : Prop := a.ns ≠ none ∧ a.aid = none

/-- The second list is the first without some ignorable attributes. -/
inductive AttrsLess : List XmlAttr → List XmlAttr → Prop
  | nil : AttrsLess [] []
  | keep (a : XmlAttr) {as bs : List XmlAttr} : AttrsLess as bs → AttrsLess (a :: as) (a :: bs)
  | drop {a : XmlAttr} {as bs : List XmlAttr} : a.Ignorable → AttrsLess as bs → AttrsLess (a :: as) bs

/-- The second sequence of siblings is the first without some processing instructions, elements that are not SVG (with everything in
them), blank texts outside `text`, `tspan` and `tref`, and ignorable attributes. `tag` is the SVG element around them. -/
inductive Xml.Less : Option ElementId → Xml → Xml → Prop
  | nil (tag : Option ElementId) : Less tag .nil .nil
  | element {tag : Option ElementId} (ns : Option Str) (name : Str) {as bs : List XmlAttr} {kids kids' rest rest' : Xml} :
    AttrsLess as bs → Less (svgTag ns name) kids kids' → Less tag rest rest' →
    Less tag (.element ns name as kids rest) (.element ns name bs kids' rest')
  | dropElement {tag : Option ElementId} {ns : Option Str} {name : Str} {as : List XmlAttr} {kids rest rest' : Xml} :
    svgTag ns name = none → Less tag rest rest' → Less tag (.element ns name as kids rest) rest'
  | text {tag : Option ElementId} (t : Str) {rest rest' : Xml} : Less tag rest rest' → Less tag (.text t rest) (.text t rest')
  | dropText {tag : Option ElementId} {t : Str} {rest rest' : Xml} :
    isBlank t = true → keepsBlank tag = false → Less tag rest rest' → Less tag (.text t rest) rest'
  | comment {tag : Option ElementId} (t : Str) {rest rest' : Xml} : Less tag rest rest' → Less tag (.comment t rest) (.comment t rest')
  | pi {tag : Option ElementId} {rest rest' : Xml} : Less tag rest rest' → Less tag (.pi rest) (.pi rest')
  | dropPi {tag : Option ElementId} {rest rest' : Xml} : Less tag rest rest' → Less tag (.pi rest) rest'

/-- Both elements are there and related, or none is. -/
def OptRel (R : XmlPos → XmlPos → Prop) : Option XmlPos → Option XmlPos → Prop
  | none, none => True
  | some a, some b => R a b
  | _, _ => False

/-- What a selector can ask about an element: the functions that `XmlNode` gives to the style sheet library
(parser/mod.rs:714-744). Elements are related if all answers agree. -/
structure SeenAlike (R : XmlPos → XmlPos → Prop) : Prop where
  name : ∀ p q, R p q → ∀ n, p.hasLocalName n = q.hasLocalName n
  attr : ∀ p q, R p q → ∀ n op, p.attributeMatches n op = q.attributeMatches n op
  first : ∀ p q, R p q → p.isFirstChild = q.isFirstChild
  parent : ∀ p q, R p q → OptRel R p.parentElement q.parentElement
  prev : ∀ p q, R p q → OptRel R p.prevSiblingElement q.prevSiblingElement

/-- The selector asks about elements only through these functions: it cannot tell elements apart on which all answers agree. -/
def Rule.Asks (r : Rule) : Prop := ∀ R, SeenAlike R → ∀ p q, R p q → r.applies p = r.applies q

end Svgdom
