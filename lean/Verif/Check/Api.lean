import Verif.Check.Docs

/-!
# The other tests of the repository, run on the model

As in `Check/Resave.lean`, these are tests of the model and not proofs of properties. Node 0 is the root of the document; nodes made by
calls are numbered in the order of the calls. Not here: the tests of XML errors (`parse_empty_1`, `2`, `4` of tests/parser.rs), which
only concern `roxmltree`.
-/

set_option autoImplicit false

namespace Svgdom.Check

/-- No panic and the expected result. -/
def good : Except Err Bool → Bool
  | .ok b => b
  | .error _ => false

/-- The same for a parsed document. -/
def goodDoc (x : Xml) (f : St → Except Err Bool) : Bool :=
  match parseSvg lib true x with
  | .ok s => good (f s)
  | .error _ => false

def start : St := St.init true

def set (s : St) (i : NodeId) (a : AttributeId) (v : AttributeValue) : Except Err St := s.setAttribute i ⟨.id a, v⟩
def setNode (s : St) (i : NodeId) (a : AttributeId) (n : NodeId) : Except Err St := s.setAttribute i (attrOfNode (.id a) n)

def single : XmlOptions := { single := true }

/-- The `n`-th item of an iterator. -/
def nth (r : Except Err (List NodeId)) (n : Nat) : Except Err NodeId := do
  match (← r)[n]? with
  | some i => pure i
  | none => .error (.panic .unwrap)

/-- Two `svg` elements with ids below the root. -/
def two : Except Err St := do
  let (s, n1) ← start.createElement (.id .Svg)
  let (s, n2) ← s.createElement (.id .Svg)
  let s ← s.append 0 n1
  let s ← s.append 0 n2
  let s ← s.setId n1 st!"1"
  s.setId n2 st!"2"

/-! ## tests/domapi.rs -/

/-- domapi.rs:12 `linked_attributes_1`. -/
example : good (do
    let s ← two
    let s ← s.setId 1 []
    let s ← setNode s 1 .Href 2
    pure (!s.isUsed 1 && s.isUsed 2 && decide ((s.linkedNodes 2).head? = some 1))) = true := by decide +kernel

/-- domapi.rs:31 `linked_attributes_2`. -/
example : good (do
    let s ← two
    let s ← setNode s 1 .Href 2
    let (_, e) ← s.setAttributeChecked 2 (attrOfNode (.id .Href) 1)
    pure (decide (e = some .elementCrosslink))) = true := by decide +kernel

/-- domapi.rs:50 `linked_attributes_3`. -/
example : good (do
    let s ← two
    let s ← setNode s 1 .Href 2
    let n ← nth (s.descendantList 0) 1
    let t ← s.removeNode n
    let m ← nth (t.descendantList 0) 1
    pure (!s.isUsed 1 && s.isUsed 2 && decide (s.idOf n = st!"1") && decide (t.idOf m = st!"2") && !t.isUsed m)) = true := by
  decide +kernel

/-- domapi.rs:85 `linked_attributes_4`. -/
example : good (do
    let s ← two
    let s ← setNode s 1 .Href 2
    let n ← nth (s.descendantList 0) 1
    let t ← s.removeNode n
    let m ← nth (t.descendantList 0) 0
    pure (!s.isUsed 1 && s.isUsed 2 && !t.hasAttribute m (.id .Href))) = true := by decide +kernel

/-- domapi.rs:118 `linked_attributes_5`. -/
example : good (do
    let s ← two
    let s ← setNode s 2 .Fill 1
    let s ← setNode s 2 .Fill 1
    let s ← setNode s 2 .Fill 1
    let s ← setNode s 2 .Fill 1
    pure (s.isUsed 1 && !s.isUsed 2 && decide (s.usesCount 1 = 1))) = true := by decide +kernel

/-- domapi.rs:143 `linked_attributes_6` (that dropping frees the nodes is C72). -/
example : good (do
    let (s, n1) ← start.createElement (.id .Svg)
    let (s, n2) ← s.createElement (.id .Svg)
    let s ← s.setId n1 st!"1"
    let s ← s.setId n2 st!"2"
    let _ ← setNode s n2 .Fill n1
    pure true) = true := by decide +kernel

/-- domapi.rs:157 `attributes_must_be_uniq`. -/
example : good (do
    let (s, n) ← start.createElement (.id .Svg)
    let s ← set s n .Fill (.string st!"red")
    let s ← set s n .Fill (.string st!"green")
    pure (decide ((attrsGet (s.attributes n) (.id .Fill)).map (·.value) = some (.string st!"green")) &&
      decide ((s.attributes n).length = 1))) = true := by decide +kernel

/-- domapi.rs:169 `attributes_compare_1`, `attributes_exist_1`, `attributes_exist_2`, `remove_attribute_1`. -/
example : good (do
    let (s, n) ← start.createElement (.id .Svg)
    let s ← set s n .StrokeWidth (.number (.fin 1))
    let t ← s.removeAttribute n (.id .StrokeWidth)
    pure (decide ((attrsGet (s.attributes n) (.id .StrokeWidth)).map (·.value) = some (.number (.fin 1))) &&
      s.hasAttribute n (.id .StrokeWidth) && ((s.attributes n).find? fun a => a.name.hasId .StrokeWidth).isSome &&
      !t.hasAttribute n (.id .StrokeWidth))) = true := by decide +kernel

/-- What `drain` of the elements with one tag returns, and what is left. -/
def drained (e : ElementId) (s : St) (k : Nat) (t : Str) : Except Err Bool := do
  let (s, n) ← s.drain s.rootId fun s i => s.hasTagName i (.id e)
  pure (decide (n = k) && decide (shown single s = some t))

/-- domapi.rs:211 `drain_1`. -/
example : goodDoc domapi_drain_1 (fun s => drained .Rect s 1 st!"<svg xmlns='http://www.w3.org/2000/svg'/>\n") = true := by decide +kernel

/-- domapi.rs:227 `drain_2`. -/
example : goodDoc domapi_drain_2 (fun s => drained .Path s 1
    st!"<svg xmlns='http://www.w3.org/2000/svg'>\n    <rect/>\n    <g/>\n    <rect/>\n</svg>\n") = true := by decide +kernel

/-- domapi.rs:252 `drain_3`. -/
example : goodDoc domapi_drain_3 (fun s => drained .G s 1
    st!"<svg xmlns='http://www.w3.org/2000/svg'>\n    <rect/>\n    <rect/>\n</svg>\n") = true := by decide +kernel

/-- domapi.rs:276 `drain_4`. -/
example : goodDoc domapi_drain_4 (fun s => drained .Rect s 3
    st!"<svg xmlns='http://www.w3.org/2000/svg'>\n    <g/>\n</svg>\n") = true := by decide +kernel

/-- The first descendant with a tag. -/
def findTag (s : St) (e : ElementId) : Except Err NodeId := do
  match (← s.descendantList s.rootId).find? fun i => s.hasTagName i (.id e) with
  | some i => pure i
  | none => .error (.panic .unwrap)

def svgOf (s : St) : Except Err NodeId := do
  match ← s.svgElement with
  | some i => pure i
  | none => .error (.panic .unwrap)

/-- domapi.rs:299 `deep_copy_1`. -/
example : goodDoc domapi_deep_copy_1 (fun s => do
    let svg ← svgOf s
    let g ← findTag s .G
    let (s, c) ← s.copyNodeDeep g
    let s ← s.append svg c
    pure (decide (shown single s = some st!"<svg xmlns='http://www.w3.org/2000/svg'>\n    <g id='g1'>\n        <rect id='rect1'/>\n    </g>\n    <g>\n        <rect/>\n    </g>\n</svg>\n"))) = true := by
  decide +kernel

/-- domapi.rs:328 `deep_copy_2`. -/
example : goodDoc domapi_deep_copy_2 (fun s => do
    let g ← findTag s .G
    let (s, g1) ← s.copyNodeDeep g
    let s ← s.append g g1
    let (s, g2) ← s.copyNodeDeep g
    let s ← s.append g g2
    pure (decide (shown single s = some st!"<svg xmlns='http://www.w3.org/2000/svg'>\n    <g id='g1'>\n        <rect id='rect1'/>\n        <g>\n            <rect/>\n        </g>\n        <g>\n            <rect/>\n            <g>\n                <rect/>\n            </g>\n        </g>\n    </g>\n</svg>\n"))) = true := by
  decide +kernel

/-- domapi.rs:365 `deep_copy_3`. -/
example : goodDoc domapi_deep_copy_3 (fun s => do
    let svg ← svgOf s
    let g ← findTag s .G
    let (s, c) ← s.copyNodeDeep g
    let s ← s.append svg c
    pure (decide (shown single s = some st!"<svg xmlns='http://www.w3.org/2000/svg'>\n    <linearGradient id='lg1'/>\n    <g id='g1' stroke-width='5'>\n        <rect id='rect1' fill='url(#lg1)'/>\n    </g>\n    <g stroke-width='5'>\n        <rect fill='url(#lg1)'/>\n    </g>\n</svg>\n"))) = true := by
  decide +kernel

/-- `Display` of an attribute. -/
def attrText (s : St) (n : NodeId) (name : AName) : Except Err Str :=
  match attrsGet (s.attributes n) name with
  | some a => s.displayAttribute writer a
  | none => .error (.panic .unwrap)

/-- domapi.rs:396 `set_attr_1`. -/
example : good (do
    let (s, r) ← start.createElement (.id .Rect)
    let (s, r2) ← s.createElement (.id .Rect)
    let s ← s.setId r2 st!"rect2"
    let s ← set s r .X (.number (.fin 1))
    let a ← attrText s r (.id .X)
    let s ← s.setAttribute r ⟨.name st!"attr", .number (.fin 1)⟩
    let b ← attrText s r (.name st!"attr")
    let s ← set s r .Y (.number (.fin 1))
    let c ← attrText s r (.id .Y)
    let s ← setNode s r .Href r2
    let d ← attrText s r (.id .Href)
    pure (decide (a = st!"x='1'") && decide (b = st!"attr='1'") && decide (c = st!"y='1'") && decide (d = st!"xlink:href='#rect2'"))) = true := by
  decide +kernel

/-! ## tests/parser.rs -/

/-- parser.rs:53 `parse_empty_3`. -/
example : (match parseSvg lib true parser_parse_empty_3 with
    | .error .noSvgElement => true
    | _ => false) = true := by decide +kernel

/-- parser.rs:65 `parse_single_node_1`. -/
example : goodDoc parser_parse_single_node_1 (fun s => do
    let c ← nth (s.childList 0) 0
    pure (decide (s.tagName c = .id .Svg) && decide ((← s.childList 0).length = 1))) = true := by decide +kernel

/-- parser.rs:74 `parse_comment_1`. -/
example : goodDoc parser_parse_comment_1 (fun s => do
    let c ← nth (s.childList 0) 1
    pure (decide (s.nodeType c = .comment) && decide (s.text c = st!"comment") && decide ((← s.childList 0).length = 2))) = true := by
  decide +kernel

/-- parser.rs:84 `parse_text_1`. -/
example : goodDoc parser_parse_text_1 (fun s => do
    let c ← nth (s.childList (← nth (s.childList 0) 0)) 0
    pure (decide (s.nodeType c = .text) && decide (s.text c = st!"text"))) = true := by decide +kernel

/-- parser.rs:93 `parse_text_2`. -/
example : goodDoc parser_parse_text_2 (fun s => do
    let ns ← s.descendantList (← nth (s.childList 0) 0)
    pure (decide (ns.map s.nodeType = [.element, .element, .text, .element, .text, .text]) &&
      decide ((ns.filter s.isElement).map s.tagName = [.id .Svg, .id .Text, .id .Tspan]) &&
      decide ((ns.filter s.isText).map s.text = [st!"Some", st!"complex", st!"text"]))) = true := by decide +kernel

/-- An attribute of the `i`-th child of the first child is a certain value, made from the `j`-th, which is used. -/
def refers (a : AttributeId) (f : NodeId → AttributeValue) (i j : Nat) (s : St) : Except Err Bool := do
  let svg ← nth (s.childList 0) 0
  let x ← nth (s.childList svg) i
  let y ← nth (s.childList svg) j
  pure (s.isUsed y && decide ((attrsGet (s.attributes x) (.id a)).map (·.value) = some (f y)))

/-- The value of an attribute of the first child of the first child. -/
def hasValue (a : AttributeId) (v : AttributeValue) (s : St) : Except Err Bool := do
  let svg ← nth (s.childList 0) 0
  let x ← nth (s.childList svg) 0
  pure (decide ((attrsGet (s.attributes x) (.id a)).map (·.value) = some v))

/-- parser.rs:228 `parse_paint_1`. -/
example : goodDoc parser_parse_paint_1 (refers .Fill (.paint · none) 1 0) = true := by decide +kernel
/-- parser.rs:244 `parse_paint_2`. -/
example : goodDoc parser_parse_paint_2 (refers .Fill (.paint · none) 0 1) = true := by decide +kernel
/-- parser.rs:320 `parse_iri_1`. -/
example : goodDoc parser_parse_iri_1 (refers .Href .link 1 0) = true := by decide +kernel
/-- parser.rs:337 `parse_iri_2`. -/
example : goodDoc parser_parse_iri_2 (hasValue .Href (.string st!"#r1")) = true := by decide +kernel
/-- parser.rs:351 `parse_func_iri_1`. -/
example : goodDoc parser_parse_func_iri_1 (refers .Filter .funcLink 1 0) = true := by decide +kernel
/-- parser.rs:368 `parse_func_iri_2`. -/
example : goodDoc parser_parse_func_iri_2 (hasValue .Filter (.string st!"url(#f)")) = true := by decide +kernel

/-! ## tests/text.rs -/

/-- The texts of all nodes, one after the other. -/
def allText (t : Str) (s : St) : Except Err Bool := do
  let ns ← s.descendantList s.rootId
  pure (decide (ns.flatMap s.text = t))

/-- text.rs:34 `text_content_1`. -/
example : goodDoc text_text_content_1 (allText st!"A link inside tspan for testing") = true := by decide +kernel
/-- text.rs:53 `text_content_2`. -/
example : goodDoc text_text_content_2 (allText st!"Text1 Text2 Text3") = true := by decide +kernel
/-- text.rs:69 `text_content_3`. -/
example : goodDoc text_text_content_3 (allText st!"Not all characters in the text have a specified rotation") = true := by decide +kernel
/-- text.rs:107 `text_content_4`. -/
example : goodDoc text_text_content_4 (allText st!"Text   Text  Text") = true := by decide +kernel
/-- text.rs:123 `text_content_5`. -/
example : goodDoc text_text_content_5 (allText st!"'Text'") = true := by decide +kernel

/-- text.rs:136 `text_1`. -/
example : good (do
    let (s, svg) ← start.createElement (.id .Svg)
    let (s, t) ← s.createNode .text st!"text"
    let s ← s.append 0 svg
    let s ← s.append svg t
    pure (decide (shown {} s = some st!"<svg xmlns=\"http://www.w3.org/2000/svg\">\n    text\n</svg>\n"))) = true := by decide +kernel

/-! ## tests/writer.rs -/

/-- writer.rs:34 `empty_doc_1`. -/
example : shown {} start = some st!"\n" := by decide +kernel

/-- writer.rs:39 `single_node_1`. -/
example : good (do
    let (s, n) ← start.createElement (.id .Svg)
    let s ← s.append 0 n
    pure (decide (shown {} s = some st!"<svg xmlns=\"http://www.w3.org/2000/svg\"/>\n"))) = true := by decide +kernel

/-- writer.rs:49 `child_node_1`. -/
example : good (do
    let (s, n) ← start.createElement (.id .Svg)
    let (s, d) ← s.createElement (.id .Defs)
    let s ← s.append 0 n
    let s ← s.append n d
    pure (decide (shown {} s = some st!"<svg xmlns=\"http://www.w3.org/2000/svg\">\n    <defs/>\n</svg>\n"))) = true := by decide +kernel

/-- A chain of rectangles with the given ids. -/
def chain : List Str → St → NodeId → Except Err St
  | [], s, _ => .ok s
  | n :: ns, s, p => do
    let (s, r) ← s.createElement (.id .Rect)
    let s ← s.setId r n
    let s ← s.append p r
    chain ns s r

/-- writer.rs:65 `child_nodes_1`. -/
example : good (do
    let (s, n) ← start.createElement (.id .Svg)
    let s ← s.append 0 n
    let s ← chain [st!"1", st!"2", st!"3", st!"4"] s n
    pure (decide (shown {} s = some st!"<svg xmlns=\"http://www.w3.org/2000/svg\">\n    <rect id=\"1\">\n        <rect id=\"2\">\n            <rect id=\"3\">\n                <rect id=\"4\"/>\n            </rect>\n        </rect>\n    </rect>\n</svg>\n"))) = true := by
  decide +kernel

/-- writer.rs:93 `links_1`. -/
example : good (do
    let (s, n) ← start.createElement (.id .Svg)
    let (s, u) ← s.createElement (.id .Use)
    let s ← s.setId n st!"svg1"
    let s ← s.append 0 n
    let s ← s.append n u
    let s ← setNode s u .Href n
    pure (decide (shown {} s = some st!"<svg xmlns=\"http://www.w3.org/2000/svg\" xmlns:xlink=\"http://www.w3.org/1999/xlink\" id=\"svg1\">\n    <use xlink:href=\"#svg1\"/>\n</svg>\n"))) = true := by
  decide +kernel

/-- writer.rs:113 `links_2`. -/
example : good (do
    let (s, n) ← start.createElement (.id .Svg)
    let (s, l) ← s.createElement (.id .LinearGradient)
    let (s, r) ← s.createElement (.id .Rect)
    let s ← s.setId l st!"lg1"
    let s ← s.append 0 n
    let s ← s.append n l
    let s ← s.append n r
    let s ← setNode s r .Fill l
    pure (decide (shown {} s = some st!"<svg xmlns=\"http://www.w3.org/2000/svg\">\n    <linearGradient id=\"lg1\"/>\n    <rect fill=\"url(#lg1)\"/>\n</svg>\n"))) = true := by
  decide +kernel

/-- writer.rs:136 `attributes_types_1`. -/
example : good (do
    let (s, n) ← start.createElement (.id .Svg)
    let s ← s.append 0 n
    let s ← set s n .ViewBox (.viewBox ⟨st!"10 20 30 40"⟩)
    let s ← set s n .Version (.string st!"1.0")
    let s ← set s n .Width (.number (.fin (3 / 2)))
    let s ← set s n .Height (.length ⟨.fin (3 / 2), .percent⟩)
    let s ← set s n .Fill (.color ⟨255, 255, 255⟩)
    let s ← set s n .Transform (.transform ⟨st!"matrix(2 0 0 3 20 30)"⟩)
    let s ← set s n .StdDeviation (.numberList [.fin (3 / 2), .fin (5 / 2)])
    let s ← set s n .StrokeDasharray (.lengthList [⟨.fin (3 / 2), .mm⟩, ⟨.fin (5 / 2), .mm⟩, ⟨.fin (7 / 2), .mm⟩])
    pure (decide (shown single s = some st!"<svg xmlns='http://www.w3.org/2000/svg' fill='#ffffff' height='1.5%' stdDeviation='1.5 2.5' stroke-dasharray='1.5mm 2.5mm 3.5mm' transform='matrix(2 0 0 3 20 30)' version='1.0' viewBox='10 20 30 40' width='1.5'/>\n"))) = true := by
  decide +kernel

/-- writer.rs:169 `comment_1`. -/
example : good (do
    let (s, c) ← start.createNode .comment st!"comment"
    let (s, n) ← s.createElement (.id .Svg)
    let s ← s.append 0 c
    let s ← s.append 0 n
    pure (decide (shown {} s = some st!"<!--comment-->\n<svg xmlns=\"http://www.w3.org/2000/svg\"/>\n"))) = true := by decide +kernel

/-- writer.rs:230 `indent_1`. -/
example : resave {} writer_indent_1 = some st!"<svg xmlns=\"http://www.w3.org/2000/svg\">\n    <g>\n        <rect/>\n    </g>\n</svg>\n" := by
  decide +kernel
/-- writer.rs:251 `indent_2`. -/
example : resave { single := true, indent := .spaces 2 } writer_indent_2 =
    some st!"<svg xmlns='http://www.w3.org/2000/svg'>\n  <g>\n    <rect/>\n  </g>\n</svg>\n" := by decide +kernel
/-- writer.rs:273 `indent_3`. -/
example : resave { single := true, indent := .spaces 0 } writer_indent_3 =
    some st!"<svg xmlns='http://www.w3.org/2000/svg'>\n<g>\n<rect/>\n</g>\n</svg>\n" := by decide +kernel
/-- writer.rs:295 `indent_4`. -/
example : resave { single := true, indent := .none } writer_indent_4 =
    some st!"<svg xmlns='http://www.w3.org/2000/svg'><g><rect/></g></svg>" := by decide +kernel
/-- writer.rs:312 `indent_5`. -/
example : resave { single := true, indent := .tabs } writer_indent_5 =
    some st!"<svg xmlns='http://www.w3.org/2000/svg'>\n\t<g>\n\t\t<rect/>\n\t</g>\n</svg>\n" := by decide +kernel
/-- writer.rs:334 `attrs_indent_1`. -/
example : resave { single := true, attributes := .spaces 3 } writer_attrs_indent_1 =
    some st!"<svg\n   xmlns='http://www.w3.org/2000/svg'\n   id='svg1'\n   height='100'\n   width='100'>\n    <g\n       fill='#ff0000'\n       stroke='#0000ff'>\n        <rect\n           id='rect1'\n           stroke-width='2'/>\n    </g>\n</svg>\n" := by
  decide +kernel
/-- writer.rs:364 `single_quote_1`. -/
example : resave { single := true, indent := .none } writer_single_quote_1 =
    some st!"<svg xmlns='http://www.w3.org/2000/svg' id='svg1'/>" := by decide +kernel
/-- writer.rs:387 `escape_3`. -/
example : resave { indent := .none } writer_escape_3 = some st!"<svg xmlns=\"http://www.w3.org/2000/svg\" font-family=\"'Noto Sans'\"/>" ∧
    resave { single := true, indent := .none } writer_escape_3 =
      some st!"<svg xmlns='http://www.w3.org/2000/svg' font-family='&apos;Noto Sans&apos;'/>" := by decide +kernel
/-- writer.rs:404 `escape_4`. -/
example : resave { indent := .none } writer_escape_4 =
      some st!"<svg xmlns=\"http://www.w3.org/2000/svg\" font-family=\"&quot;Noto Sans&quot;\"/>" ∧
    resave { single := true, indent := .none } writer_escape_4 =
      some st!"<svg xmlns='http://www.w3.org/2000/svg' font-family='\"Noto Sans\"'/>" := by decide +kernel

/-! ## tests/debug.rs -/

/-- `{:?}` and `{}` of a node. -/
def texts (s : St) (n : NodeId) (a b : Str) : Except Err Bool := do
  let x ← s.debugNode writer n
  let y ← s.displayNode writer n
  pure (decide (x = a) && decide (y = b))

/-- debug.rs:11 `elem_1`. -/
example : good (do
    let (s, n) ← start.createElement (.id .Svg)
    texts s n st!"Element(svg)" st!"<svg>") = true := by decide +kernel

/-- debug.rs:20 `elem_2`. -/
example : good (do
    let (s, n) ← start.createElement (.id .Svg)
    let s ← set s n .X (.number (.fin 1))
    texts s n st!"Element(svg x='1')" st!"<svg x='1'>") = true := by decide +kernel

/-- debug.rs:30 `elem_3` and `attributes_1`. -/
example : good (do
    let (s, n) ← start.createElement (.id .Svg)
    let s ← s.setId n st!"svg1"
    let s ← set s n .X (.number (.fin 1))
    let s ← set s n .Y (.number (.fin 2))
    let a ← s.debugAttributes writer (s.attributes n)
    let b ← s.displayAttributes writer (s.attributes n)
    pure ((← texts s n st!"Element(svg id='svg1' x='1' y='2')" st!"<svg id='svg1' x='1' y='2'>") &&
      decide (a = st!"Attributes(x='1' y='2')") && decide (b = st!"x='1' y='2'"))) = true := by decide +kernel

/-- debug.rs:42 `elem_4`. -/
example : good (do
    let (s, n) ← start.createElement (.id .Svg)
    let s ← s.setId n st!"svg1"
    let s ← set s n .X (.number (.fin 1))
    let (s, l) ← s.createElement (.id .LinearGradient)
    let s ← s.setId l st!"lg1"
    let s ← setNode s n .Fill l
    pure ((← texts s n st!"Element(svg id='svg1' x='1' fill='url(#lg1)')" st!"<svg id='svg1' x='1' fill='url(#lg1)'>") &&
      (← texts s l st!"Element(linearGradient id='lg1'; linked-nodes: 'svg1')" st!"<linearGradient id='lg1'>"))) = true := by
  decide +kernel

/-- debug.rs:60 `root_1`. -/
example : good (texts start 0 st!"Root()" []) = true := by decide +kernel

/-- debug.rs:68 `comment_1` and `text_1`. -/
example : good (do
    let (s, c) ← start.createNode .comment st!"comment"
    let (s, t) ← s.createNode .text st!"text"
    pure ((← texts s c st!"Comment(comment)" st!"<!--comment-->") && (← texts s t st!"Text(text)" st!"text"))) = true := by decide +kernel

/-! ## Examples in the documentation -/

def svgns : Option Str := some st!"http://www.w3.org/2000/svg"

/-- document.rs:185-192, at `svg_element`. -/
example : goodDoc (.comment st!"comment" (.element svgns st!"svg" [] .nil .nil)) (fun s => do
    pure (s.hasTagName (← svgOf s) (.id .Svg))) = true := by decide +kernel

/-- document.rs:214-234, at `remove_node`. -/
example : goodDoc (.element svgns st!"svg" [] (.text st!"\n    " (.element svgns st!"rect" [⟨none, st!"id", st!"rect1"⟩] .nil
      (.text st!"\n    " (.element svgns st!"use" [⟨some st!"http://www.w3.org/1999/xlink", st!"href", st!"#rect1"⟩] .nil
      (.text st!"\n" .nil))))) .nil) (fun s => do
    let r ← nth (.ok ((← s.descendantList 0).filter fun n => decide (s.idOf n = st!"rect1"))) 0
    let u ← findTag s .Use
    let t ← s.removeNode r
    pure (s.hasAttribute u (.id .Href) && !t.hasAttribute u (.id .Href))) = true := by decide +kernel

/-- node.rs:89-101, at `has_parent`. -/
example : goodDoc (.element svgns st!"svg" [] (.text st!"\n    " (.element svgns st!"rect" [] .nil (.text st!"\n" .nil))) .nil) (fun s =>
    match s.firstChild 0 with
    | none => .ok false
    | some v => match s.firstChild v with
      | none => .ok false
      | some r => .ok (!s.hasParent v && s.hasParent r)) = true := by decide +kernel

/-- node.rs:406-448, at `set_attribute_checked`. -/
example : good (do
    let (s, g) ← start.createElement (.id .LinearGradient)
    let (s, r) ← s.createElement (.id .Rect)
    let s ← s.append 0 g
    let s ← s.append 0 r
    let s ← s.setId g st!"lg1"
    let s ← s.setId r st!"rect1"
    let s ← set s r .Fill .none
    let s ← setNode s r .Fill g
    let t ← s.removeNode r
    pure (s.isUsed g && decide (s.usesCount g = 1) && decide ((s.linkedNodes g)[0]? = some r) && !t.isUsed g)) = true := by decide +kernel

end Svgdom.Check
