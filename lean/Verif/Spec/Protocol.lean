import Verif.Spec.Writer
import Verif.Model.Xml

/-!
# The protocol of `XmlWriter`

The calls have preconditions (documented in the crate `xmlwriter`): an attribute can only be written directly after a start tag or
another attribute, text only inside an element, and an end tag only if an element is open.
-/

namespace Svgdom

/-- State of an `XmlWriter`: the number of open elements, and whether attributes may follow. -/
structure XmlState where
  depth : Nat := 0
  inTag : Bool := false

/-- One call; `none` if its precondition fails. -/
def XmlState.call (w : XmlState) : Ev → Option XmlState
  | .startElement _ => some ⟨w.depth + 1, true⟩
  | .attribute _ _ => if w.inTag then some w else none
  | .attributeRaw _ _ => if w.inTag then some w else none
  | .endElement => if w.depth = 0 then none else some ⟨w.depth - 1, false⟩
  | .comment _ => some ⟨w.depth, false⟩
  | .text _ => if w.depth = 0 then none else some ⟨w.depth, false⟩
  | .preserve _ => some w

/-- A sequence of calls. -/
def XmlState.calls (w : XmlState) : List Ev → Option XmlState
  | [] => some w
  | e :: l => (w.call e).bind fun w => w.calls l

/-- All calls are allowed, and at the end all elements are closed. -/
def Accepted (evs : List Ev) : Prop := ∃ w, (XmlState.calls {} evs) = some w ∧ w.depth = 0

/-- There is a text that is in no element. -/
def Trees.loose (s : St) : Trees → Bool
  | nil => false
  | cons i kids rest =>
    (match s.nodeType i with
      | .element => false
      | .text => true
      | .comment => kids.loose s
      | .root => kids.loose s) || rest.loose s

/-- There is no text on the top level of the XML (XML allows only white space there). -/
def Xml.noTopText : Xml → Bool
  | nil => true
  | element _ _ _ _ rest => rest.noTopText
  | text t rest => t.all isWhite && rest.noTopText
  | comment _ rest => rest.noTopText
  | pi rest => rest.noTopText

/-! ## White space -/

/-- The calls that write something, each with the setting of the white space switch at that time. -/
def switched : Bool → List Ev → List (Ev × Bool)
  | _, [] => []
  | _, .preserve b :: l => switched b l
  | b, e :: l => (e, b) :: switched b l

/-- The markup of trees, each part with a mark that says if it is in the content of a `text` element (the end tag of the `text`
element included). -/
def Trees.marked (s : St) (name : NodeId → Str) (attrs : NodeId → List Ev) (inText : Bool) : Trees → List (Ev × Bool)
  | nil => []
  | cons i kids rest =>
    match s.nodeType i with
    | .element =>
      let b := inText || decide (s.tagName i = .id .Text)
      (.startElement (name i), inText) :: (attrs i).map (·, inText) ++ kids.marked s name attrs b ++
        (.endElement, b) :: rest.marked s name attrs inText
    | .comment => (.comment (s.text i), inText) :: kids.marked s name attrs inText ++ rest.marked s name attrs inText
    | .text => (.text (s.text i), inText) :: kids.marked s name attrs inText ++ rest.marked s name attrs inText
    | .root => kids.marked s name attrs inText ++ rest.marked s name attrs inText

/-- No node is called `text` (`inText`), or none of those called `text` is in another one. -/
def Trees.unnested (s : St) (inText : Bool) : Trees → Bool
  | nil => true
  | cons i kids rest =>
    !(decide (s.tagName i = .id .Text) && (inText || decide (s.nodeType i ≠ .element))) &&
      kids.unnested s (inText || decide (s.tagName i = .id .Text)) && rest.unnested s inText

end Svgdom
