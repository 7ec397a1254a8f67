import Verif.Model.Writer
import Verif.Spec.Trees

/-!
# What should be written
-/

namespace Svgdom

/-- Everything but the whitespace switches of the XML writer. -/
def Ev.isContent : Ev → Bool
  | .preserve _ => false
  | _ => true

def Ev.isAttribute : Ev → Bool
  | .attribute _ _ => true
  | .attributeRaw _ _ => true
  | _ => false

/-- The markup of finite trees: an element is its start tag with attributes, its content and its end tag; comments and texts are
written in place. -/
def Trees.markup (s : St) (name : NodeId → Str) (attrs : NodeId → List Ev) : Trees → List Ev
  | nil => []
  | cons i kids rest =>
    match s.nodeType i with
    | .element => .startElement (name i) :: attrs i ++ kids.markup s name attrs ++ .endElement :: rest.markup s name attrs
    | .comment => .comment (s.text i) :: kids.markup s name attrs ++ rest.markup s name attrs
    | .text => .text (s.text i) :: kids.markup s name attrs ++ rest.markup s name attrs
    | .root => kids.markup s name attrs ++ rest.markup s name attrs

/-- Start and end tags match. -/
inductive Balanced : List Ev → Prop where
  | nil : Balanced []
  | one (e : Ev) : (∀ n, e ≠ .startElement n) → e ≠ .endElement → Balanced [e]
  | element (n : Str) {l : List Ev} : Balanced l → Balanced (.startElement n :: l ++ [.endElement])
  | append {l m : List Ev} : Balanced l → Balanced m → Balanced (l ++ m)

/-- Names of the start tags, in order. -/
def startNames : List Ev → List Str := List.filterMap fun
  | .startElement n => some n
  | _ => none

/-- Written texts, in order. -/
def textsOf : List Ev → List Str := List.filterMap fun
  | .text t => some t
  | _ => none

/-- Written comments, in order. -/
def commentsOf : List Ev → List Str := List.filterMap fun
  | .comment t => some t
  | _ => none

/-- The name of an element as a string. -/
def St.IsName (s : St) (i : NodeId) (x : Str) : Prop :=
  match s.tagName i with
  | .id e => e.asStr? = .ok x
  | .name y => x = y

/-- The SVG attributes of a list, as pairs. -/
def svgPairs (l : List Attribute) : List (AttributeId × AttributeValue) := l.filterMap fun
  | ⟨.id i, v⟩ => some (i, v)
  | ⟨.name _, _⟩ => none

/-- The other attributes of a list, as pairs. -/
def otherPairs (l : List Attribute) : List (Str × AttributeValue) := l.filterMap fun
  | ⟨.id _, _⟩ => none
  | ⟨.name x, v⟩ => some (x, v)

/-- The qualified XML name of an SVG attribute. -/
def AttributeId.IsQualified (i : AttributeId) (x : Str) : Prop :=
  match i with
  | .Href => x = st!"xlink:href"
  | .Space => x = st!"xml:space"
  | i => i.asStr? = .ok x

/-- What is written for one SVG attribute under the name `x`: only a `unicode` that is not a string is left out. -/
def St.svgEvents (s : St) (W : ValueWriter) (x : Str) : AttributeId × AttributeValue → List Ev
  | (.Unicode, .string t) => [.attributeRaw x (writeEscaped t)]
  | (.Unicode, _) => []
  | (_, v) => [.attributeRaw x (s.writeValue W v)]

/-- The declaration of the `xlink` prefix. -/
def xlinkDecl : Ev := .attribute st!"xmlns:xlink" st!"http://www.w3.org/1999/xlink"

def xmlnsDecl : Ev := .attribute st!"xmlns" st!"http://www.w3.org/2000/svg"

/-- The `svg` element at the top of the document. -/
def St.TopSvg (s : St) (n : NodeId) : Prop := s.tagName n = .id .Svg ∧ ∃ p, s.parent n = some p ∧ s.nodeType p = .root

/-- An `href` attribute is somewhere in the subtree. -/
def St.UsesXlink (s : St) (n : NodeId) : Prop := ∃ m, s.live m = true ∧ s.InSubtree n m ∧ ∃ a ∈ s.attributes m, a.name = .id .Href

/-- The namespace declarations to be written on an element. -/
structure NamespaceDecls (s : St) (n : NodeId) (ns : List Ev) : Prop where
  other : ¬ s.TopSvg n → ns = []
  plain : s.TopSvg n → ¬ s.UsesXlink n → ns = [xmlnsDecl]
  xlink : s.TopSvg n → s.UsesXlink n → ns = [xmlnsDecl, xlinkDecl]

/-- Value of one hexadecimal digit. -/
def hexVal (c : Char) : Option Nat :=
  let n := c.toNat
  if 48 ≤ n ∧ n ≤ 57 then some (n - 48)
  else if 97 ≤ n ∧ n ≤ 102 then some (n - 87)
  else if 65 ≤ n ∧ n ≤ 70 then some (n - 55)
  else none

/-- Read hexadecimal digits up to `;`: the number and what follows. -/
def readHex (acc : Nat) : Str → Option (Nat × Str)
  | [] => none
  | c :: cs =>
    if c = ';' then some (acc, cs)
    else match hexVal c with
      | some d => readHex (acc * 16 + d) cs
      | none => none

/-- What an XML reader makes of a sequence of references `&#x...;`; the first argument bounds the number of references. -/
def decodeRefs : Nat → Str → Option Str
  | _, [] => some []
  | 0, _ :: _ => none
  | k + 1, '&' :: '#' :: 'x' :: cs =>
    match readHex 0 cs with
    | some (n, rest) => (decodeRefs k rest).map (Char.ofNat n :: ·)
    | none => none
  | _ + 1, _ :: _ => none

end Svgdom
