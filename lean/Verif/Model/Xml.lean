import Verif.Model.Types

/-!
# What the parser takes from its libraries

`roxmltree`, `simplecss` and `svgtypes` are not modelled. Their results are inputs: an XML tree (`Xml`), style rules and
declarations, and the outcomes of the value parsers (`Lib`). All theorems hold for every such input.
-/

namespace Svgdom

/-- `roxmltree::Attribute` (namespace declarations are not attributes). (parser/mod.rs:102-112.) -/
structure XmlAttr where
  ns : Option Str
  name : Str
  value : Str
deriving DecidableEq

/-- Sequence of sibling nodes of a `roxmltree::Document`: empty, or a first node (with its children) and the rest.
(parser/mod.rs:47, 57.) -/
inductive Xml where
  | nil
  | element (ns : Option Str) (name : Str) (attrs : List XmlAttr) (kids rest : Xml)
  | text (t : Str) (rest : Xml)
  | comment (t : Str) (rest : Xml)
  | pi (rest : Xml)
deriving DecidableEq

/-- The part of an XML element that selectors can look at. (parser/mod.rs:716-743.) -/
structure XmlElem where
  ns : Option Str
  name : Str
  attrs : List XmlAttr
deriving DecidableEq

/-- Place of an XML element as seen by selectors (parser/mod.rs:714-744 `XmlNode`): parent, preceding siblings (nearest first,
`none` for siblings that are not elements) and the element itself. -/
inductive XmlPos where
  | root
  | elem (parent : XmlPos) (prev : List (Option XmlElem)) (e : XmlElem)

/-- parser/mod.rs:717-719 `parent_element`. -/
def XmlPos.parentElement : XmlPos → Option XmlPos
  | .elem (.elem p prev e) _ _ => some (.elem p prev e)
  | _ => none

/-- The places of preceding siblings, nearest first (`none` for siblings that are not elements). (parser/mod.rs:722.) -/
def XmlPos.before (parent : XmlPos) : List (Option XmlElem) → List (Option XmlPos)
  | [] => []
  | some e :: prev => some (.elem parent prev e) :: before parent prev
  | none :: prev => none :: before parent prev

/-- `roxmltree::Node::prev_siblings`. This iterator starts at the node itself (documentation of roxmltree: "an iterator over previous
sibling nodes starting at this node"). (parser/mod.rs:722.) -/
def XmlPos.prevSiblings : XmlPos → List (Option XmlPos)
  | .root => [none]
  | .elem parent prev e => some (.elem parent prev e) :: before parent prev

/-- parser/mod.rs:721-723 `prev_sibling_element`: `prev_siblings().filter(is_element).nth(0)`. -/
def XmlPos.prevSiblingElement (p : XmlPos) : Option XmlPos := (p.prevSiblings.filterMap id).head?

/-- parser/mod.rs:725-727 `has_local_name`. -/
def XmlPos.hasLocalName (p : XmlPos) (name : Str) : Bool :=
  match p with
  | .root => decide (name = [])
  | .elem _ _ e => decide (e.name = name)

/-- `roxmltree::Node::attribute(name)` with a plain name: attributes without namespace. (parser/mod.rs:730, 748.) -/
def xmlAttribute (attrs : List XmlAttr) (name : Str) : Option Str :=
  (attrs.find? fun a => decide (a.ns = none ∧ a.name = name)).map (·.value)

/-- parser/mod.rs:729-734 `attribute_matches`; `op` is the operator of the selector. -/
def XmlPos.attributeMatches (p : XmlPos) (name : Str) (op : Str → Bool) : Bool :=
  match p with
  | .root => false
  | .elem _ _ e =>
    match xmlAttribute e.attrs name with
    | some v => op v
    | none => false

/-- parser/mod.rs:736-741 `pseudo_class_matches` for `:first-child` (all other pseudo-classes give `false`). -/
def XmlPos.isFirstChild (p : XmlPos) : Bool := p.prevSiblingElement.isNone

/-- `simplecss::Rule`: what the selector says about each element, and the declarations. (parser/mod.rs:117.) -/
structure Rule where
  applies : XmlPos → Bool
  decls : List (Str × Str)

/-- `svgtypes::Paint`. (parser/mod.rs:409-440.) -/
inductive Paint where
  | none
  | inherit
  | currentColor
  | color (c : Color)
  | funcIRI (iri : Str) (fallback : Option PaintFallback)
deriving DecidableEq

/-- The library functions used by the parser; `none` is `Err(_)`. (parser/mod.rs:233-272, 283-662, 744-763.) -/
structure Lib where
  /-- `svgtypes::Stream::parse_iri` -/
  iri : Str → Option Str
  /-- `svgtypes::Stream::parse_func_iri` -/
  funcIri : Str → Option Str
  length : Str → Option Length
  lengthList : Str → Option (List Length)
  numberList : Str → Option (List F64)
  /-- `svgtypes::Stream::parse_number`, and whether the stream is at its end afterwards -/
  number : Str → Option (F64 × Bool)
  paint : Str → Option Paint
  color : Str → Option Color
  points : Str → Option Blob
  /-- the tokens of `svgtypes::PathParser` -/
  path : Str → List (Option Blob)
  /-- `svgtypes::Transform::from_str`, and `is_default` of the result -/
  transform : Str → Option (Blob × Bool)
  angle : Str → Option Blob
  viewBox : Str → Option Blob
  aspectRatio : Str → Option Blob
  /-- `simplecss::StyleSheet::parse_more` on all texts in order -/
  sheet : List Str → List Rule
  /-- `simplecss::DeclarationTokenizer` -/
  declarations : Str → List (Str × Str)

/-- `char::is_whitespace` (Unicode `White_Space`). (parser/mod.rs:142, 296; parser/text.rs:242.) -/
def isWhite (c : Char) : Bool :=
  let n := c.toNat
  decide ((9 ≤ n ∧ n ≤ 13) ∨ n = 32 ∨ n = 0x85 ∨ n = 0xA0 ∨ n = 0x1680 ∨ (0x2000 ≤ n ∧ n ≤ 0x200A) ∨ n = 0x2028 ∨ n = 0x2029 ∨
    n = 0x202F ∨ n = 0x205F ∨ n = 0x3000)

/-- `str::trim`. (parser/mod.rs:142, 296; parser/text.rs:242.) -/
def trimStr (s : Str) : Str := ((s.dropWhile isWhite).reverse.dropWhile isWhite).reverse

/-- `roxmltree::Node::text` of an element with children `kids`: the text of the first child if that is a text node. (parser/mod.rs:754.) -/
def xmlText : Xml → Option Str
  | .text t _ => some t
  | _ => none

/-- parser/mod.rs:746-763 `resolve_css`: the style sheet texts in document order. `has_tag_name("style")` compares local names
only. -/
def cssTexts : Xml → List Str
  | .nil => []
  | .element _ name attrs kids rest =>
    let own := if name = st!"style" then
        match xmlAttribute attrs st!"type" with
        | some ty => if ty = st!"text/css" then (xmlText kids).toList else []
        | none => (xmlText kids).toList
      else []
    own ++ cssTexts kids ++ cssTexts rest
  | .text _ rest => cssTexts rest
  | .comment _ rest => cssTexts rest
  | .pi rest => cssTexts rest

end Svgdom
