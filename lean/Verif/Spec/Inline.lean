import Verif.Spec.Parse

/-!
# Specification: a document with its CSS resolved by hand

docs/preprocessor.md, sections "`style` attributes splitting" and "CSS resolving": what style sheets and `style` attributes say about
an element can be written as attributes of the element.
-/

set_option autoImplicit false

namespace Svgdom

/-- The name of an SVG attribute. -/
def attributeName (i : AttributeId) : Str := match i.asStr? with
  | .ok x => x
  | .error _ => []

/-- A value, written as XML attribute. -/
def Assign.asAttr (g : Assign) : XmlAttr := ⟨none, attributeName g.1, g.2⟩

/-- A text at the beginning is hidden: a comment is put in its place (or a processing instruction if it is blank). -/
def Xml.hideText : Xml → Xml
  | .text t rest => if isBlank t then .pi rest else .comment [] rest
  | x => x

/-- All CSS is resolved: instead of a `style` attribute, an element has an attribute for each value that style sheets and its `style`
attribute give. The style sheets are hidden. -/
def Xml.inlined (L : Lib) (sheet : List Rule) (pos : XmlPos) (prev : List (Option XmlElem)) : Xml → Xml
  | .nil => .nil
  | .element ns name attrs kids rest =>
    let e : XmlElem := ⟨ns, name, attrs⟩
    let inner := kids.inlined L sheet (.elem pos prev e) []
    .element ns name
      ((attrs.filter fun a => decide (a.name ≠ st!"style")) ++
        (ruleAssigns sheet (.elem pos prev e) ++ styleAttrAssigns L attrs).map Assign.asAttr)
      (if name = st!"style" then inner.hideText else inner)
      (rest.inlined L sheet pos (some e :: prev))
  | .text t rest => .text t (rest.inlined L sheet pos (none :: prev))
  | .comment t rest => .comment t (rest.inlined L sheet pos (none :: prev))
  | .pi rest => .pi (rest.inlined L sheet pos (none :: prev))

/-- The document with its own style sheets resolved. -/
def Xml.withoutCss (L : Lib) (x : Xml) : Xml := x.inlined L (L.sheet (styleTexts x)) .root []

end Svgdom
