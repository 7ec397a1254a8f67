import Verif.Spec.Parse

/-!
# What selectors should see of an XML element
-/

namespace Svgdom

/-- After the nodes `prev` (last one first, `none` for nodes that are not elements) the sibling sequence goes on with the last argument. -/
inductive Xml.Tail (x : Xml) : List (Option XmlElem) → Xml → Prop where
  | start : Xml.Tail x [] x
  | element {prev : List (Option XmlElem)} {ns : Option Str} {name : Str} {attrs : List XmlAttr} {kids rest : Xml} :
      Xml.Tail x prev (.element ns name attrs kids rest) → Xml.Tail x (some ⟨ns, name, attrs⟩ :: prev) rest
  | text {prev : List (Option XmlElem)} {t : Str} {rest : Xml} : Xml.Tail x prev (.text t rest) → Xml.Tail x (none :: prev) rest
  | comment {prev : List (Option XmlElem)} {t : Str} {rest : Xml} : Xml.Tail x prev (.comment t rest) → Xml.Tail x (none :: prev) rest
  | pi {prev : List (Option XmlElem)} {rest : Xml} : Xml.Tail x prev (.pi rest) → Xml.Tail x (none :: prev) rest

/-- Sibling sequences of an XML document with the place of their parent: the top level, and the children of an element. -/
inductive Xml.Level (x : Xml) : XmlPos → Xml → Prop where
  | top : Xml.Level x .root x
  | kids {pos : XmlPos} {sibs : Xml} {prev : List (Option XmlElem)} {ns : Option Str} {name : Str} {attrs : List XmlAttr} {kids rest : Xml} :
      Xml.Level x pos sibs → sibs.Tail prev (.element ns name attrs kids rest) → Xml.Level x (.elem pos prev ⟨ns, name, attrs⟩) kids

/-- `q` is the place of the nearest element before `p` among its siblings. -/
def XmlPos.PrevElement (p q : XmlPos) : Prop :=
  ∃ parent prev e before near e', p = .elem parent prev e ∧ prev = near ++ some e' :: before ∧ (∀ o ∈ near, o = none) ∧ q = .elem parent before e'

end Svgdom
