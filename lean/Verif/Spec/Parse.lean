import Verif.Model.Parser
import Verif.Spec.Trees
import Verif.Spec.Attrs

/-!
# What parsing should give

Written as plain functions on the XML tree, without document, node handles or order of creation.
-/

namespace Svgdom

/-- The element id with the given name. -/
def elementNamed (x : Str) : Option ElementId := ElementId.all.find? fun e => decide (e.asStr? = .ok x)

/-- The attribute id with the given name. -/
def attributeNamed (x : Str) : Option AttributeId := AttributeId.all.find? fun a => decide (a.asStr? = .ok x)

/-- Attributes are looked at if they have no namespace or the SVG, XLink or XML namespace. -/
def XmlAttr.known (a : XmlAttr) : Bool :=
  match a.ns with
  | none => true
  | some n => decide (n = st!"http://www.w3.org/2000/svg") || decide (n = st!"http://www.w3.org/1999/xlink") ||
      decide (n = st!"http://www.w3.org/XML/1998/namespace")

/-- The SVG attribute that an XML attribute stands for. -/
def XmlAttr.aid (a : XmlAttr) : Option AttributeId := if a.known then attributeNamed a.name else none

/-- Attempt to give an attribute a value. -/
abbrev Assign := AttributeId × Str

/-- Values given by XML attributes; `id`, `style` and `class` are not values. -/
def xmlAssigns (attrs : List XmlAttr) : List Assign := attrs.filterMap fun a =>
  match a.aid with
  | some .Id => none
  | some .Style => none
  | some .Class => none
  | some i => some (i, a.value)
  | none => none

/-- Can the attribute be set by CSS? -/
def AttributeId.inCss (i : AttributeId) : Bool := i.isPresentation || decide (i = .Transform)

/-- Values given by one declaration of a style sheet: the shorthand `marker` stands for three properties. -/
def sheetAssigns (d : Str × Str) : List Assign :=
  match attributeNamed d.1 with
  | some .Marker => [(.MarkerStart, d.2), (.MarkerMid, d.2), (.MarkerEnd, d.2)]
  | some i => if i.inCss then [(i, d.2)] else []
  | none => []

/-- Values given by one declaration of a `style` attribute. -/
def styleAssigns (d : Str × Str) : List Assign :=
  match attributeNamed d.1 with
  | some i => if i.inCss then [(i, d.2)] else []
  | none => []

/-- Values given by the rules that apply to the element. -/
def ruleAssigns (sheet : List Rule) (pos : XmlPos) : List Assign :=
  (sheet.filter fun r => r.applies pos).flatMap fun r => r.decls.flatMap sheetAssigns

/-- Values given by the `style` attribute. -/
def styleAttrAssigns (L : Lib) (attrs : List XmlAttr) : List Assign :=
  match xmlAttribute attrs st!"style" with
  | some v => (L.declarations v).flatMap styleAssigns
  | none => []

/-- All attempts, in increasing precedence. -/
def allAssigns (L : Lib) (sheet : List Rule) (pos : XmlPos) (attrs : List XmlAttr) : List Assign :=
  xmlAssigns attrs ++ ruleAssigns sheet pos ++ styleAttrAssigns L attrs

/-- The value of an attempt, if there is one to be stored. -/
def valueOf (L : Lib) (eid : ElementId) (g : Assign) : Option AttributeValue :=
  match parseValue L g.1 eid g.2 with
  | .value (.numberList []) => none
  | .value (.lengthList []) => none
  | .value (.path []) => none
  | .value v => some v
  | _ => none

/-- One attempt: a value replaces the one the attribute had. -/
def assign (L : Lib) (eid : ElementId) (l : List Attribute) (g : Assign) : List Attribute :=
  match valueOf L eid g with
  | some v => l.filter (fun a => decide (a.name ≠ .id g.1)) ++ [⟨.id g.1, v⟩]
  | none => l

/-- The attributes after all attempts. -/
def attrsOf (L : Lib) (eid : ElementId) (gs : List Assign) : List Attribute := gs.foldl (assign L eid) []

/-- A reference to be resolved later. -/
structure Ref where
  attr : AttributeId
  iri : Str
  fallback : Option PaintFallback
deriving DecidableEq

/-- The reference of an attempt, if it is one. -/
def refOf (L : Lib) (eid : ElementId) (g : Assign) : Option Ref :=
  match parseValue L g.1 eid g.2 with
  | .link iri fb => some ⟨g.1, iri, fb⟩
  | _ => none

def refsOf (L : Lib) (eid : ElementId) (gs : List Assign) : List Ref := gs.filterMap (refOf L eid)

/-- The id: the value of the last `id` attribute. -/
def idFrom (attrs : List XmlAttr) : Str :=
  (((attrs.filter fun a => decide (a.aid = some .Id)).getLast?).map (·.value)).getD []

/-- Expected DOM: a sequence of siblings. -/
inductive Dom where
  | nil
  | element (eid : ElementId) (id : Str) (attrs : List Attribute) (refs : List Ref) (kids rest : Dom)
  | text (t : Str) (rest : Dom)
  | comment (t : Str) (rest : Dom)
deriving DecidableEq

/-- Whitespace only. -/
def isBlank (t : Str) : Bool := t.all isWhite

/-- Elements in which all text counts. -/
def keepsBlank (e : Option ElementId) : Bool := decide (e = some .Text ∨ e = some .Tspan ∨ e = some .Tref)

/-- The SVG part of the XML tree: elements outside the SVG namespace and unknown elements are dropped with their subtrees,
processing instructions are dropped, blank text is dropped outside `text`, `tspan` and `tref`. -/
def domOf (L : Lib) (sheet : List Rule) (pos : XmlPos) (prev : List (Option XmlElem)) (tag : Option ElementId) : Xml → Dom
  | .nil => .nil
  | .element ns name attrs kids rest =>
    let e : XmlElem := ⟨ns, name, attrs⟩
    let rest := domOf L sheet pos (some e :: prev) tag rest
    match (if ns = some st!"http://www.w3.org/2000/svg" then elementNamed name else none) with
    | none => rest
    | some eid =>
      let gs := allAssigns L sheet (.elem pos prev e) attrs
      .element eid (idFrom attrs) (attrsOf L eid gs) (refsOf L eid gs) (domOf L sheet (.elem pos prev e) [] (some eid) kids) rest
  | .text t rest =>
    let rest := domOf L sheet pos (none :: prev) tag rest
    if isBlank t && !keepsBlank tag then rest else .text t rest
  | .comment t rest => .comment t (domOf L sheet pos (none :: prev) tag rest)
  | .pi rest => domOf L sheet pos (none :: prev) tag rest

/-- Tags of the top-level elements. -/
def Dom.tags : Dom → List ElementId
  | nil => []
  | element eid _ _ _ _ rest => eid :: rest.tags
  | text _ rest => rest.tags
  | comment _ rest => rest.tags

/-- The trees `T` of `s` are the expected DOM. -/
def Dom.Is (s : St) : Dom → Trees → Prop
  | nil, .nil => True
  | element eid id attrs _ kids rest, .cons n K R =>
    s.nodeType n = .element ∧ s.tagName n = .id eid ∧ s.idOf n = id ∧ s.attributes n = attrs ∧ s.text n = [] ∧
      kids.Is s K ∧ rest.Is s R
  | text t rest, .cons n K R =>
    s.nodeType n = .text ∧ s.tagName n = .name [] ∧ s.idOf n = [] ∧ s.attributes n = [] ∧ s.text n = t ∧ K = .nil ∧ rest.Is s R
  | comment t rest, .cons n K R =>
    s.nodeType n = .comment ∧ s.tagName n = .name [] ∧ s.idOf n = [] ∧ s.attributes n = [] ∧ s.text n = t ∧ K = .nil ∧
      rest.Is s R
  | _, _ => False

/-- The collected references in document order. -/
def Dom.plinks : Dom → Trees → List PLink
  | element _ _ _ refs kids rest, .cons n K R => (refs.map fun r => ⟨r.attr, r.iri, r.fallback, n⟩) ++ kids.plinks K ++ rest.plinks R
  | text _ rest, .cons _ _ R => rest.plinks R
  | comment _ rest, .cons _ _ R => rest.plinks R
  | _, _ => []

/-- All elements of an XML tree in document order: local name, attributes, children. -/
def Xml.elements : Xml → List (Str × List XmlAttr × Xml)
  | nil => []
  | element _ name attrs kids rest => (name, attrs, kids) :: (kids.elements ++ rest.elements)
  | text _ rest => rest.elements
  | comment _ rest => rest.elements
  | pi rest => rest.elements

/-- A `style` element (of any namespace) whose `type` is `text/css` or not given. -/
def IsSheet (e : Str × List XmlAttr × Xml) : Prop :=
  e.1 = st!"style" ∧ ∀ ty, xmlAttribute e.2.1 st!"type" = some ty → ty = st!"text/css"

instance (e : Str × List XmlAttr × Xml) : Decidable (IsSheet e) :=
  decidable_of_iff (e.1 = st!"style" ∧ (xmlAttribute e.2.1 st!"type").all (fun ty => decide (ty = st!"text/css")) = true) <| by
    unfold IsSheet; cases xmlAttribute e.2.1 st!"type" <;> simp

/-- What is read of a style sheet: its leading text, if it begins with text. -/
def leadingText : Xml → Option Str
  | .text t _ => some t
  | _ => none

/-- The style sheets that are read. -/
def styleTexts (x : Xml) : List Str := (x.elements.filter fun e => decide (IsSheet e)).filterMap fun e => leadingText e.2.2

/-- The expected DOM of a whole document, with its style sheets applied. -/
def svgDom (L : Lib) (x : Xml) : Dom := domOf L (L.sheet (styleTexts x)) .root [] none x

/-- Without `style` elements. -/
def Dom.unstyled : Dom → Dom
  | nil => .nil
  | element eid id attrs refs kids rest =>
    if eid = .Style then rest.unstyled else .element eid id attrs refs kids.unstyled rest.unstyled
  | text t rest => .text t rest.unstyled
  | comment t rest => .comment t rest.unstyled

/-! ## References -/

/-- What a reference to `n` is stored as. -/
def foundValue (a : AttributeId) (n : NodeId) (fb : Option PaintFallback) : AttributeValue :=
  match a with
  | .Href => .link n
  | .Fill => .paint n fb
  | .Stroke => .paint n fb
  | _ => .funcLink n

/-- What is stored for a reference without target: the fallback if there is one, else `none` for `fill`, and the text of the
reference otherwise. -/
def missingValue (a : AttributeId) (iri : Str) (fb : Option PaintFallback) : AttributeValue :=
  match fb, a with
  | some .none, _ => .none
  | some .currentColor, _ => .currentColor
  | some (.color c), _ => .color c
  | none, .Fill => .none
  | none, .Href => .string ('#' :: iri)
  | none, _ => .string (st!"url(#" ++ iri ++ st!")")

/-- `t` is `s` with the attribute `a` of node `i`, in place of any attribute of that name. -/
structure AttrSet (s t : St) (i : NodeId) (a : Attribute) : Prop where
  own : t.attributes i = (s.attributes i).filter (fun b => decide (b.name ≠ a.name)) ++ [a]
  others : ∀ j, j ≠ i → t.attributes j = s.attributes j
  same : SameElse s t
  /-- the old target loses the first place of `i` among its users; the new target gets `i` as its last user -/
  users : ∀ j, t.linkedNodes j =
    (if (s.attributes i).any (fun b => decide (b.name = a.name) && b.value.refersTo j) then (s.linkedNodes j).erase i
      else s.linkedNodes j) ++ if a.value.refersTo j then [i] else []

/-- One reference is resolved; `order` are the nodes of the document in document order. -/
inductive Resolves (s : St) (order : List NodeId) (l : PLink) : St → Prop where
  | found {t : St} {n : NodeId} : order.find? (fun i => decide (s.idOf i = l.iri)) = some n → (∀ err, ¬ Refused s l.node n err) →
      AttrSet s t l.node ⟨.id l.attr, foundValue l.attr n l.fallback⟩ → Resolves s order l t
  | refused {n : NodeId} {err : DomError} : order.find? (fun i => decide (s.idOf i = l.iri)) = some n → Refused s l.node n err →
      Resolves s order l s
  | missing {t : St} : (∀ i ∈ order, s.idOf i ≠ l.iri) → AttrSet s t l.node ⟨.id l.attr, missingValue l.attr l.iri l.fallback⟩ →
      Resolves s order l t

/-- All references are resolved one after the other. -/
inductive ResolvesAll (order : List NodeId) : St → List PLink → St → Prop where
  | nil (s : St) : ResolvesAll order s [] s
  | cons {s t u : St} {l : PLink} {ls : List PLink} : Resolves s order l t → ResolvesAll order t ls u → ResolvesAll order s (l :: ls) u

/-! ## The finished document -/

/-- The known SVG elements on the top level of the XML tree. -/
def Xml.topSvg : Xml → List ElementId
  | nil => []
  | element ns name _ _ rest =>
    (if ns = some st!"http://www.w3.org/2000/svg" then (elementNamed name).toList else []) ++ rest.topSvg
  | text _ rest => rest.topSvg
  | comment _ rest => rest.topSvg
  | pi rest => rest.topSvg

/-- The elements of the XML tree that get into the DOM, with their place and tag. -/
def Xml.places (pos : XmlPos) (prev : List (Option XmlElem)) : Xml → List (XmlPos × ElementId × List XmlAttr)
  | nil => []
  | element ns name attrs kids rest =>
    (match (if ns = some st!"http://www.w3.org/2000/svg" then elementNamed name else none) with
      | none => []
      | some eid => (.elem pos prev ⟨ns, name, attrs⟩, eid, attrs) :: kids.places (.elem pos prev ⟨ns, name, attrs⟩) []) ++
    rest.places pos (some ⟨ns, name, attrs⟩ :: prev)
  | text _ rest => rest.places pos (none :: prev)
  | comment _ rest => rest.places pos (none :: prev)
  | pi rest => rest.places pos (none :: prev)

/-- Values that are attempted for an attribute of an element of the document. -/
def Xml.attempts (L : Lib) (x : Xml) (pos : XmlPos) (attrs : List XmlAttr) : List Assign :=
  allAssigns L (L.sheet (styleTexts x)) pos attrs

/-- The last valid value of the attribute. -/
def lastValue (L : Lib) (eid : ElementId) (a : AttributeId) (gs : List Assign) : Option AttributeValue :=
  ((gs.filter fun g => decide (g.1 = a)).filterMap (valueOf L eid)).getLast?

/-- The trees `T` of `t` are the expected DOM, finished: attributes that are not given by a reference are as expected, texts have
been processed and may be gone, everything else is as expected. -/
def Dom.Final (t : St) : Dom → Trees → Prop
  | nil, T => T = .nil
  | element eid id attrs refs kids rest, T => ∃ n K R, T = .cons n K R ∧ t.nodeType n = .element ∧ t.tagName n = .id eid ∧
      t.idOf n = id ∧ t.text n = [] ∧
      (∀ a, (∀ r ∈ refs, a ≠ .id r.attr) → attrsGetValue (t.attributes n) a = attrsGetValue attrs a) ∧
      (refs = [] → t.attributes n = attrs) ∧ kids.Final t K ∧ rest.Final t R
  | text _ rest, T => (∃ n R, T = .cons n .nil R ∧ t.nodeType n = .text ∧ t.text n ≠ [] ∧ t.attributes n = [] ∧ t.idOf n = [] ∧
      t.tagName n = .name [] ∧ rest.Final t R) ∨ rest.Final t T
  | comment c rest, T => ∃ n R, T = .cons n .nil R ∧ t.nodeType n = .comment ∧ t.text n = c ∧ t.attributes n = [] ∧ t.idOf n = [] ∧
      t.tagName n = .name [] ∧ rest.Final t R

/-- Does an element have a reference? -/
def Dom.anyRef : Dom → Bool
  | nil => false
  | element _ _ _ refs kids rest => !refs.isEmpty || kids.anyRef || rest.anyRef
  | text _ rest => rest.anyRef
  | comment _ rest => rest.anyRef

/-- Does a `style` element, or an element inside one, have a reference? -/
def Dom.refInStyle : Dom → Bool
  | nil => false
  | element eid _ _ refs kids rest =>
    (if eid = .Style then !refs.isEmpty || kids.anyRef else kids.refInStyle) || rest.refInStyle
  | text _ rest => rest.refInStyle
  | comment _ rest => rest.refInStyle

end Svgdom
