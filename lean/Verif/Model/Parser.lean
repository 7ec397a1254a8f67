import Verif.Model.Values
import Verif.Model.Document

/-!
# parser/mod.rs

`value_pos` is only used in log messages and is left out. `warn!` has no effect.
-/

namespace Svgdom

/-- parser/mod.rs:17-22 `Link`. -/
structure PLink where
  attr : AttributeId
  iri : Str
  fallback : Option PaintFallback
  node : NodeId
deriving DecidableEq

/-- Document and collected links during parsing. (parser/mod.rs:50-52 (`links`, `doc`).) -/
structure PSt where
  dom : St
  links : List PLink

/-- Unsuccessful parsing: a panic, or `ParserError::NoSvgElement` (the only `ParserError` of this crate itself: an XML error is
returned before anything else happens, parser/mod.rs:47). -/
inductive ParseErr where
  | fail (e : Err)
  | noSvgElement
deriving DecidableEq

/-- A step that cannot return a `ParserError`. (parser/mod.rs:46-76 (calls without `?`).) -/
def okOrFail {α : Type} : Except Err α → Except ParseErr α
  | .ok a => .ok a
  | .error e => .error (.fail e)

/-- parser/mod.rs:201-231 `parse_svg_attribute_value` (always returns `Ok(())`). -/
def parseAttributeValue (L : Lib) (p : PSt) (n : NodeId) (aid : AttributeId) (value : Str) : Except Err PSt :=
  match p.dom.tagId n with
  | none => .error (.panic .unwrap)
  | some eid =>
    match parseValue L aid eid value with
    | .invalid => .ok p
    | .nothing => .ok p
    | .link iri fb => .ok { p with links := p.links ++ [⟨aid, iri, fb, n⟩] }
    | .value v =>
      if v.isEmptyList then .ok p
      else do
        let s ← p.dom.setAttribute n ⟨.id aid, v⟩
        pure { p with dom := s }

/-- parser/mod.rs:181-199 `parse_svg_attribute`. -/
def parseSvgAttribute (L : Lib) (p : PSt) (n : NodeId) (aid : AttributeId) (value : Str) : Except Err PSt :=
  if aid = .Id then do
    let s ← p.dom.setId n value
    pure { p with dom := s }
  else if aid = .Style ∨ aid = .Class then .ok p
  else parseAttributeValue L p n aid value

/-- parser/mod.rs:87, 105. -/
def svgNs : Str := st!"http://www.w3.org/2000/svg"
/-- parser/mod.rs:106. -/
def xlinkNs : Str := st!"http://www.w3.org/1999/xlink"
/-- parser/mod.rs:107. -/
def xmlNs : Str := st!"http://www.w3.org/XML/1998/namespace"

/-- parser/mod.rs:103-109: attributes of other namespaces are skipped. -/
def knownAttrNs (ns : Option Str) : Bool :=
  decide (ns = none ∨ ns = some svgNs ∨ ns = some xlinkNs ∨ ns = some xmlNs)

/-- parser/mod.rs:102-115: the loop over XML attributes. -/
def parseXmlAttributes (L : Lib) (p : PSt) (n : NodeId) : List XmlAttr → Except Err PSt
  | [] => .ok p
  | a :: as => do
    let p ← if knownAttrNs a.ns then do
        match ← AttributeId.fromStr? a.name with
        | some aid => parseSvgAttribute L p n aid a.value
        | none => pure p
      else pure p
    parseXmlAttributes L p n as

/-- parser/mod.rs:233-269 `parse_css_attribute_value`. -/
def parseCssAttribute (L : Lib) (p : PSt) (n : NodeId) (name value : Str) : Except Err PSt := do
  match ← AttributeId.fromStr? name with
  | some aid =>
    if !aid.isPresentation && decide (aid ≠ .Transform) then pure p
    else if aid = .Marker then do
      let p ← parseAttributeValue L p n .MarkerStart value
      let p ← parseAttributeValue L p n .MarkerMid value
      parseAttributeValue L p n .MarkerEnd value
    else parseAttributeValue L p n aid value
  | none => pure p

/-- parser/mod.rs:119-123: the declarations of one rule. -/
def parseCssDecls (L : Lib) (p : PSt) (n : NodeId) : List (Str × Str) → Except Err PSt
  | [] => .ok p
  | d :: ds => do
    let p ← parseCssAttribute L p n d.1 d.2
    parseCssDecls L p n ds

/-- parser/mod.rs:117-125: the loop over all rules. -/
def parseRules (L : Lib) (p : PSt) (n : NodeId) (pos : XmlPos) : List Rule → Except Err PSt
  | [] => .ok p
  | r :: rs => do
    let p ← if r.applies pos then parseCssDecls L p n r.decls else pure p
    parseRules L p n pos rs

/-- parser/mod.rs:644-662 `parse_style_attribute`: the loop over the declarations. -/
def parseStyleDecls (L : Lib) (p : PSt) (n : NodeId) : List (Str × Str) → Except Err PSt
  | [] => .ok p
  | d :: ds => do
    let p ← match ← AttributeId.fromStr? d.1 with
      | some aid =>
        if aid.isPresentation || decide (aid = .Transform) then parseAttributeValue L p n aid d.2 else pure p
      | none => pure p
    parseStyleDecls L p n ds

/-- parser/mod.rs:90-130: a new element with its attributes. -/
def parseElement (L : Lib) (sheet : List Rule) (p : PSt) (pos : XmlPos) (eid : ElementId) (attrs : List XmlAttr) :
    Except Err (PSt × NodeId) := do
  let (s, n) ← p.dom.createElement (.id eid)
  let p := { p with dom := s }
  let p ← parseXmlAttributes L p n attrs
  let p ← parseRules L p n pos sheet
  let p ← match xmlAttribute attrs st!"style" with
    | some v => parseStyleDecls L p n (L.declarations v)
    | none => pure p
  pure (p, n)

/-- `doc.create_node(ty, text)` and `parent.append(n)` (parser/mod.rs:149-150, 156-157, 161-162). -/
def appendNew (p : PSt) (parent : NodeId) (ty : NodeType) (text : Str) : Except Err PSt := do
  let (s, n) ← p.dom.createNode ty text
  let s ← s.append parent n
  pure { p with dom := s }

/-- parser/mod.rs:140-158: a text node. -/
def processText (p : PSt) (parent : NodeId) (t : Str) : Except Err PSt :=
  if (trimStr t).isEmpty then
    match p.dom.tagId parent with
    | some e => if e = .Text ∨ e = .Tspan ∨ e = .Tref then appendNew p parent .text t else .ok p
    | none => .ok p
  else appendNew p parent .text t

/-- parser/mod.rs:170-176: the first SVG element of the document must be `svg`. -/
def checkFirst (s : St) (parent : NodeId) : Except ParseErr Unit :=
  if s.isRoot parent then do
    let cs ← okOrFail (s.childList s.rootId)
    match cs.filterMap s.tagId with
    | id :: _ => if id ≠ .Svg then .error .noSvgElement else .ok ()
    | [] => .ok ()
  else .ok ()

/-- parser/mod.rs:77-179 `process_node` for a node and its following siblings (the loops of lines 57-59 and 134-138). `pos` is
the place of the parent, `prev` the preceding siblings. -/
def processNodes (L : Lib) (sheet : List Rule) (pos : XmlPos) (prev : List (Option XmlElem)) (parent : NodeId) :
    Xml → PSt → Except ParseErr PSt
  | .nil, p => .ok p
  | .element ns name attrs kids rest, p => do
    let e : XmlElem := ⟨ns, name, attrs⟩
    let p ←
      if ns ≠ some svgNs then pure p
      else do
        match ← okOrFail (ElementId.fromStr? name) with
        | none => pure p
        | some eid => do
          let (p, n) ← okOrFail (parseElement L sheet p (.elem pos prev e) eid attrs)
          let s ← okOrFail (p.dom.append parent n)
          let p ← processNodes L sheet (.elem pos prev e) [] n kids { p with dom := s }
          checkFirst p.dom parent
          pure p
    processNodes L sheet pos (some e :: prev) parent rest p
  | .text t rest, p => do
    let p ← okOrFail (processText p parent t)
    checkFirst p.dom parent
    processNodes L sheet pos (none :: prev) parent rest p
  | .comment t rest, p => do
    let p ← okOrFail (appendNew p parent .comment t)
    checkFirst p.dom parent
    processNodes L sheet pos (none :: prev) parent rest p
  | .pi rest, p => do
    checkFirst p.dom parent
    processNodes L sheet pos (none :: prev) parent rest p

/-- parser/mod.rs:690-705: the value for a reference that cannot be resolved. -/
def unresolvedValue (l : PLink) : AttributeValue :=
  match l.fallback with
  | some .none => .none
  | some .currentColor => .currentColor
  | some (.color c) => .color c
  | none =>
    if l.attr = .Fill then .none
    else if l.attr = .Href then .string ('#' :: l.iri)
    else .string (st!"url(#" ++ l.iri ++ [')'])

/-- parser/mod.rs:665-711: one iteration of `resolve_links`. -/
def resolveLink (s : St) (l : PLink) : Except Err St := do
  let ds ← s.descendantList s.rootId
  match ds.find? fun n => decide (s.idOf n = l.iri) with
  | some n => do
    let a := if l.attr = .Fill ∨ l.attr = .Stroke then attrOfPaint (.id l.attr) n l.fallback else attrOfNode (.id l.attr) n
    let (s, _) ← s.setAttributeChecked l.node a
    pure s
  | none => s.setAttribute l.node ⟨.id l.attr, unresolvedValue l⟩

/-- parser/mod.rs:664-712 `resolve_links`. -/
def resolveLinks (s : St) : List PLink → Except Err St
  | [] => .ok s
  | l :: ls => do
    let s ← resolveLink s l
    resolveLinks s ls

end Svgdom
