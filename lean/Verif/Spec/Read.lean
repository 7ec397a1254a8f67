import Verif.Spec.Writer
import Verif.Spec.Parse

/-!
# Reading what was written

A small XML reader for the sequence of calls that the writer makes: it resolves references in attribute values, checks that the
markup is well-formed, and resolves namespaces. It is independent of the parser's model and gives up (`none`) on everything that is
not well-formed, and on some more that would not come back as it was written.
-/

namespace Svgdom

/-- `Char` of XML 1.0. -/
def xmlChar (c : Char) : Bool :=
  let n := c.toNat
  decide (n = 9 ∨ n = 10 ∨ n = 13 ∨ (32 ≤ n ∧ n ≤ 0xD7FF) ∨ (0xE000 ≤ n ∧ n ≤ 0xFFFD) ∨ 0x10000 ≤ n)

/-- Read decimal digits up to `;`. -/
def readDec (acc : Nat) : Str → Option (Nat × Str)
  | [] => none
  | c :: cs =>
    if c = ';' then some (acc, cs)
    else if '0'.toNat ≤ c.toNat ∧ c.toNat ≤ '9'.toNat then readDec (acc * 10 + (c.toNat - '0'.toNat)) cs
    else none

/-- The character with a number. -/
def charOf (n : Nat) : Option Char :=
  if n.isValidChar ∧ xmlChar (Char.ofNat n) then some (Char.ofNat n) else none

/-- A reference, after `&`. -/
def readRef : Str → Option (Char × Str)
  | '#' :: 'x' :: cs => (readHex 0 cs).bind fun (n, rest) => (charOf n).map fun c => (c, rest)
  | '#' :: cs => (readDec 0 cs).bind fun (n, rest) => (charOf n).map fun c => (c, rest)
  | 'l' :: 't' :: ';' :: cs => some ('<', cs)
  | 'g' :: 't' :: ';' :: cs => some ('>', cs)
  | 'a' :: 'm' :: 'p' :: ';' :: cs => some ('&', cs)
  | 'q' :: 'u' :: 'o' :: 't' :: ';' :: cs => some ('"', cs)
  | 'a' :: 'p' :: 'o' :: 's' :: ';' :: cs => some ('\'', cs)
  | _ => none

/-- What stands between the quotes `q` of an attribute; the first argument bounds the number of characters. -/
def readAttrAux (q : Char) : Nat → Str → Option Str
  | _, [] => some []
  | 0, _ :: _ => none
  | k + 1, c :: cs =>
    if c = q ∨ c = '<' ∨ !xmlChar c then none
    else if c = '&' then (readRef cs).bind fun (c, rest) => (readAttrAux q k rest).map (c :: ·)
    else if c = '\r' ∧ cs.head? = some '\n' then readAttrAux q k cs
    else if c = '\t' ∨ c = '\n' ∨ c = '\r' then (readAttrAux q k cs).map (' ' :: ·)
    else (readAttrAux q k cs).map (c :: ·)

/-- The value of an attribute whose text was written without escaping; line breaks and tabs are read as spaces, a
carriage return with a line feed as one. -/
def readAttr (q : Char) (s : Str) : Option Str := readAttrAux q s.length s

/-- Attribute values that come back as they are, whatever quotes and escaping of quotes. -/
def plainValue (s : Str) : Bool :=
  s.all fun c => xmlChar c && decide (c ≠ '&' ∧ c ≠ '<' ∧ c ≠ '\t' ∧ c ≠ '\n' ∧ c ≠ '\r')

/-- Text content that comes back as it is (the writer's escaping of `<` and `>` is undone by the reader). -/
def plainContent (s : Str) : Bool := s.all fun c => xmlChar c && decide (c ≠ '&' ∧ c ≠ '\r')

/-- Comments must not contain `--` or end with `-`. -/
def commentDashes : Str → Bool
  | [] => true
  | ['-'] => false
  | '-' :: '-' :: _ => false
  | _ :: cs => commentDashes cs

def plainComment (s : Str) : Bool := commentDashes s && s.all fun c => xmlChar c && decide (c ≠ '\r')

def nameStart (c : Char) : Bool := c.isAlpha || decide (c = '_')

/-- Names (only ASCII): a letter or `_`, then letters, digits, `-`, `_`, `.` and `:`. -/
def xmlName : Str → Bool
  | [] => false
  | c :: cs => nameStart c && cs.all fun c => c.isAlphanum || decide (c = '-' ∨ c = '_' ∨ c = '.' ∨ c = ':')

/-! ## Markup -/

/-- Markup with qualified names. -/
inductive Raw where
  | nil
  | element (name : Str) (attrs : List (Str × Str)) (kids rest : Raw)
  | text (t : Str) (rest : Raw)
  | comment (t : Str) (rest : Raw)
deriving DecidableEq

/-- Character data is merged with character data that follows. -/
def Raw.consText (t : Str) : Raw → Raw
  | .text u rest => .text (t ++ u) rest
  | r => if t = [] then r else .text t r

/-- State while reading from the end: attributes of the start tag that has not been reached yet, and for each open element (and
the document) what follows. -/
structure ReadSt where
  attrs : List (Str × Str)
  stack : List Raw

/-- One call, read from the end. -/
def readStep (q : Char) (e : Ev) (st : ReadSt) : Option ReadSt :=
  match e, st with
  | .preserve _, st => some st
  | .attribute n v, ⟨as, stack⟩ => if xmlName n && plainValue v then some ⟨(n, v) :: as, stack⟩ else none
  | .attributeRaw n v, ⟨as, stack⟩ => if xmlName n then (readAttr q v).map fun v => ⟨(n, v) :: as, stack⟩ else none
  | .startElement n, ⟨as, kids :: rest :: stack⟩ => if xmlName n then some ⟨[], .element n as kids rest :: stack⟩ else none
  | .endElement, ⟨[], stack⟩ => some ⟨[], .nil :: stack⟩
  | .text t, ⟨[], r :: stack⟩ => if plainContent t then some ⟨[], r.consText t :: stack⟩ else none
  | .comment t, ⟨[], r :: stack⟩ => if plainComment t then some ⟨[], .comment t r :: stack⟩ else none
  | _, _ => none

/-- All calls. -/
def readSteps (q : Char) : List Ev → ReadSt → Option ReadSt
  | [], st => some st
  | e :: es, st => (readSteps q es st).bind (readStep q e)

/-- The markup of a whole document. -/
def readRaw (q : Char) (evs : List Ev) : Option Raw :=
  match readSteps q evs ⟨[], [.nil]⟩ with
  | some ⟨[], [r]⟩ => some r
  | _ => none

/-! ## Namespaces -/

/-- Prefixes (or none) and what they stand for, innermost first. -/
abbrev Scope := List (Option Str × Str)

def Scope.find (sc : Scope) (p : Option Str) : Option Str := (List.find? (fun d => decide (d.1 = p)) sc).map (·.2)

/-- Prefix and local part of a name. -/
def splitName (x : Str) : Option (Option Str × Str) :=
  match x.dropWhile (· ≠ ':') with
  | [] => some (none, x)
  | _ :: l => if x.takeWhile (· ≠ ':') ≠ [] ∧ l ≠ [] ∧ ':' ∉ l then some (some (x.takeWhile (· ≠ ':')), l) else none

/-- Does the attribute declare a namespace, and for which prefix? -/
def declares (name : Str) : Option (Option Str) :=
  if name = st!"xmlns" then some none
  else match splitName name with
    | some (some p, l) => if p = st!"xmlns" then some (some l) else none
    | _ => none

/-- The declarations among the attributes. -/
def scopeOf (attrs : List (Str × Str)) : Scope := attrs.filterMap fun a => (declares a.1).map fun p => (p, a.2)

/-- An attribute with its namespace: none without prefix. -/
def expandAttr (sc : Scope) (a : Str × Str) : Option XmlAttr :=
  match splitName a.1 with
  | some (none, l) => some ⟨none, l, a.2⟩
  | some (some p, l) => (sc.find (some p)).map fun ns => ⟨some ns, l, a.2⟩
  | none => none

/-- All attributes that are not declarations. -/
def expandAttrs (sc : Scope) : List (Str × Str) → Option (List XmlAttr)
  | [] => some []
  | a :: l =>
    match declares a.1 with
    | some _ => expandAttrs sc l
    | none => (expandAttr sc a).bind fun x => (expandAttrs sc l).map (x :: ·)

/-- An element name with its namespace. -/
def expandName (sc : Scope) (x : Str) : Option (Option Str × Str) :=
  match splitName x with
  | some (none, l) => some (sc.find none, l)
  | some (some p, l) => (sc.find (some p)).map fun ns => (some ns, l)
  | none => none

/-- Attribute names must be different, with namespaces. -/
def uniqueNames (l : List XmlAttr) : Bool := decide ((l.map fun a => (a.ns, a.name)).Nodup)

/-- The XML tree with namespaces. Attributes and declarations must have different names, also as they are written. -/
def Raw.expand (sc : Scope) : Raw → Option Xml
  | .nil => some .nil
  | .element name attrs kids rest =>
    let sc' := scopeOf attrs ++ sc
    (expandName sc' name).bind fun n => (expandAttrs sc' attrs).bind fun as =>
      if uniqueNames as && decide (attrs.map (·.1)).Nodup then
        (kids.expand sc').bind fun k => (rest.expand sc).map fun r => .element n.1 n.2 as k r
      else none
  | .text t rest => (rest.expand sc).map fun r => .text t r
  | .comment t rest => (rest.expand sc).map fun r => .comment t r

/-- The prefix `xml` is always bound. -/
def xmlScope : Scope := [(some st!"xml", st!"http://www.w3.org/XML/1998/namespace")]

/-- Number of top-level elements, and whether there is text at the top level. -/
def Xml.topElements : Xml → Nat
  | nil => 0
  | element _ _ _ _ rest => rest.topElements + 1
  | text _ rest => rest.topElements
  | comment _ rest => rest.topElements
  | pi rest => rest.topElements

def Xml.topText : Xml → Bool
  | nil => false
  | element _ _ _ _ rest => rest.topText
  | text _ _ => true
  | comment _ rest => rest.topText
  | pi rest => rest.topText

/-- The XML document that was written, with quotes `q` around attribute values. -/
def readMarkup (q : Char) (evs : List Ev) : Option Xml :=
  match (readRaw q evs).bind fun r => r.expand xmlScope with
  | some x => if x.topElements = 1 ∧ !x.topText then some x else none
  | none => none

/-- Without white space between elements: text that is only white space is dropped outside `text`, `tspan` and `tref`. -/
def Xml.unindent (keep : Bool) : Xml → Xml
  | nil => .nil
  | element ns name attrs kids rest =>
    .element ns name attrs (kids.unindent (decide (name = st!"text" ∨ name = st!"tspan" ∨ name = st!"tref"))) (rest.unindent keep)
  | text t rest => if isBlank t && !keep then rest.unindent keep else .text t (rest.unindent keep)
  | comment t rest => .comment t (rest.unindent keep)
  | pi rest => .pi (rest.unindent keep)

/-! ## What should come back -/

/-- The text between the quotes for one SVG attribute; nothing is written for a `unicode` that is not a string. -/
def St.written (s : St) (W : ValueWriter) (i : AttributeId) (v : AttributeValue) : Option Str :=
  match i, v with
  | .Unicode, .string t => some (writeEscaped t)
  | .Unicode, _ => none
  | _, v => some (s.writeValue W v)

/-- The namespace of an SVG attribute. -/
def AttributeId.ns (i : AttributeId) : Option Str :=
  match i with
  | .Href => some st!"http://www.w3.org/1999/xlink"
  | .Space => some st!"http://www.w3.org/XML/1998/namespace"
  | _ => none

/-- The XML attribute stands for the SVG attribute. -/
structure XmlAttr.For (s : St) (W : ValueWriter) (q : Char) (a : Attribute) (x : XmlAttr) : Prop where
  name : ∃ i, a.name = .id i ∧ i.asStr? = .ok x.name ∧ x.ns = i.ns
  value : ∃ i w, a.name = .id i ∧ s.written W i a.value = some w ∧ readAttr q w = some x.value

/-- The XML attributes of an element: its id and its SVG attributes. -/
structure XmlAttrs (s : St) (W : ValueWriter) (q : Char) (n : NodeId) (attrs : List XmlAttr) : Prop where
  id : ⟨none, st!"id", s.idOf n⟩ ∈ attrs ↔ s.idOf n ≠ []
  all : ∀ a ∈ s.attributes n, ∃ x ∈ attrs, x.For s W q a
  only : ∀ x ∈ attrs, x = ⟨none, st!"id", s.idOf n⟩ ∨ ∃ a ∈ s.attributes n, x.For s W q a

/-- The XML tree shows the trees `T` of the document. -/
def Xml.Shows (s : St) (W : ValueWriter) (q : Char) : Xml → Trees → Prop
  | nil, .nil => True
  | element ns name attrs kids rest, .cons n K R =>
    s.nodeType n = .element ∧ ns = some st!"http://www.w3.org/2000/svg" ∧ s.IsName n name ∧ XmlAttrs s W q n attrs ∧
      kids.Shows s W q K ∧ rest.Shows s W q R
  | text t rest, .cons n K R => s.nodeType n = .text ∧ t = s.text n ∧ K = .nil ∧ rest.Shows s W q R
  | comment t rest, .cons n K R => s.nodeType n = .comment ∧ t = s.text n ∧ K = .nil ∧ rest.Shows s W q R
  | _, _ => False

/-- The roots of the trees. -/
def Trees.tops : Trees → List NodeId
  | nil => []
  | cons n _ R => n :: R.tops

/-- No text follows a text. -/
def Trees.SepText (s : St) : Trees → Prop
  | nil => True
  | cons n K R => K.SepText s ∧ R.SepText s ∧
    match R with
    | nil => True
    | cons m _ _ => ¬ (s.nodeType n = .text ∧ s.nodeType m = .text)

/-- The document can be written as well-formed XML: names are SVG names, texts and values can be read. -/
structure WellFormed (s : St) (W : ValueWriter) (q : Char) (T : Trees) : Prop where
  kinds : ∀ n ∈ T.pre,
    (s.nodeType n = .element ∧ (∃ e, s.tagName n = .id e) ∧ plainValue (s.idOf n) = true) ∨
    (s.nodeType n = .text ∧ s.firstChild n = none ∧ s.text n ≠ [] ∧ plainContent (s.text n) = true) ∨
    (s.nodeType n = .comment ∧ s.firstChild n = none ∧ plainComment (s.text n) = true)
  sep : T.SepText s
  /-- one element at the top, which is `svg`, and no text -/
  top : ∃ n, T.tops.filter (fun m => decide (s.nodeType m ≠ .comment)) = [n] ∧ s.nodeType n = .element ∧ s.tagName n = .id .Svg
  attrs : ∀ n ∈ T.pre, ∀ a ∈ s.attributes n, ∃ i, a.name = .id i ∧ i ≠ .Id ∧ i ≠ .Xmlns ∧
    ∃ w v, s.written W i a.value = some w ∧ readAttr q w = some v

/-- `R` relates nodes of two documents; values are equal, references lead to related nodes. -/
inductive SameValue (R : NodeId → NodeId → Prop) : AttributeValue → AttributeValue → Prop where
  | plain {v : AttributeValue} : v.plain = true → SameValue R v v
  | link {m n : NodeId} : R m n → SameValue R (.link m) (.link n)
  | funcLink {m n : NodeId} : R m n → SameValue R (.funcLink m) (.funcLink n)
  | paint {m n : NodeId} (fb : Option PaintFallback) : R m n → SameValue R (.paint m fb) (.paint n fb)

/-- Related nodes have the same data, up to the order of attributes. -/
structure SameNode (s t : St) (R : NodeId → NodeId → Prop) (i j : NodeId) : Prop where
  type : t.nodeType j = s.nodeType i
  tag : s.nodeType i = .element → t.tagName j = s.tagName i
  id : s.nodeType i = .element → t.idOf j = s.idOf i
  attrs : s.nodeType i = .element →
    ∀ a, Option.Rel (SameValue R) (attrsGetValue (s.attributes i) a) (attrsGetValue (t.attributes j) a)
  text : s.nodeType i ≠ .element → t.text j = s.text i

/-- Same shape and same data. -/
def Trees.Same (s t : St) (R : NodeId → NodeId → Prop) : Trees → Trees → Prop
  | nil, nil => True
  | cons i K L, cons j K' L' => SameNode s t R i j ∧ Trees.Same s t R K K' ∧ Trees.Same s t R L L'
  | _, _ => False

/-- The trees `T` of `s` and `U` of `t` are the same document; references lead to nodes at the same place. -/
def SameDoc (s : St) (T : Trees) (t : St) (U : Trees) : Prop := T.Same s t (fun i j => (i, j) ∈ T.pre.zip U.pre) U

/-- The text `x` is read as a reference to an id that no element has, and the value is what is stored for that. -/
def ReadsMissing (L : Lib) (s : St) (T : Trees) (i : AttributeId) (e : ElementId) (x : Str) (v : AttributeValue) : Prop :=
  ∃ iri fb, parseValue L i e x = .link iri fb ∧ iri ≠ [] ∧ (∀ j ∈ T.pre, s.nodeType j = .element → s.idOf j ≠ iri) ∧
    v = missingValue i iri fb

/-- What the parser must make of the text of the attributes for them to come back. -/
structure ReadsBack (L : Lib) (s : St) (W : ValueWriter) (q : Char) (T : Trees) (n : NodeId) (a : Attribute) : Prop where
  special : ∀ i, a.name = .id i → i ≠ .Style ∧ i ≠ .Class
  /-- the parser reads the value that was written, or stores it for a reference that leads nowhere -/
  plain : a.value.plain = true → ∀ i e w v, a.name = .id i → s.tagName n = .id e → s.written W i a.value = some w →
    readAttr q w = some v → valueOf L e (i, v) = some a.value ∨ ReadsMissing L s T i e v a.value
  /-- the parser reads the reference that was written -/
  link : ∀ m, a.value.refersTo m = true → ∀ i e w v, a.name = .id i → s.tagName n = .id e → s.written W i a.value = some w →
    readAttr q w = some v → ∃ fb, parseValue L i e v = .link (s.idOf m) fb ∧ a.value = foundValue i m fb
  /-- and finds the same node -/
  target : ∀ m, a.value.refersTo m = true → s.nodeType m = .element ∧ s.idOf m ≠ [] ∧ s.idOf n ≠ s.idOf m ∧
    T.pre.find? (fun j => decide (s.idOf j = s.idOf m)) = some m

end Svgdom
