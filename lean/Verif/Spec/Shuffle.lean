import Verif.Spec.Whole
import Verif.Spec.Noise

/-!
# Specification: the order of attributes in the file

XML gives no meaning to the order of the attributes of an element. Which XML trees differ only in this order, and which documents are
the same up to the order of attributes.
-/

set_option autoImplicit false

namespace Svgdom

/-- The same attributes. Attributes that have the same local name (in different namespaces) are in the same order. -/
def SameByName (as bs : List XmlAttr) : Prop :=
  ∀ n, (as.filter fun a => decide (a.name = n)) = bs.filter fun a => decide (a.name = n)

/-- The same XML tree, up to the order of attributes with different local names. -/
inductive Xml.Shuffled : Xml → Xml → Prop
  | nil : Shuffled .nil .nil
  | element (ns : Option Str) (name : Str) {as bs : List XmlAttr} {kids kids' rest rest' : Xml} : SameByName as bs →
    Shuffled kids kids' → Shuffled rest rest' → Shuffled (.element ns name as kids rest) (.element ns name bs kids' rest')
  | text (t : Str) {rest rest' : Xml} : Shuffled rest rest' → Shuffled (.text t rest) (.text t rest')
  | comment (t : Str) {rest rest' : Xml} : Shuffled rest rest' → Shuffled (.comment t rest) (.comment t rest')
  | pi {rest rest' : Xml} : Shuffled rest rest' → Shuffled (.pi rest) (.pi rest')

/-- The same XML tree, up to any order of attributes. -/
inductive Xml.Permuted : Xml → Xml → Prop
  | nil : Permuted .nil .nil
  | element (ns : Option Str) (name : Str) {as bs : List XmlAttr} {kids kids' rest rest' : Xml} : as.Perm bs →
    Permuted kids kids' → Permuted rest rest' → Permuted (.element ns name as kids rest) (.element ns name bs kids' rest')
  | text (t : Str) {rest rest' : Xml} : Permuted rest rest' → Permuted (.text t rest) (.text t rest')
  | comment (t : Str) {rest rest' : Xml} : Permuted rest rest' → Permuted (.comment t rest) (.comment t rest')
  | pi {rest rest' : Xml} : Permuted rest rest' → Permuted (.pi rest) (.pi rest')

/-- No element has two attributes with the same local name. -/
def Xml.OneNamespace (x : Xml) : Prop := ∀ e ∈ x.elements, (e.2.1.map XmlAttr.name).Nodup

/-- The same up to the order of attributes. -/
structure Look.Alike (l m : Look) : Prop where
  type : m.type = l.type
  tag : m.tag = l.tag
  id : m.id = l.id
  attrs : l.attrs.Perm m.attrs
  text : m.text = l.text

/-- The same nodes with the same numbers, up to the order of attributes. -/
inductive Content.Alike : Content → Content → Prop
  | nil : Alike .nil .nil
  | node (n : NodeId) {l m : Look} {K K' R R' : Content} : l.Alike m → Alike K K' → Alike R R' → Alike (.node n l K R) (.node n m K' R')

end Svgdom
