import Verif.Spec.Trees
import Verif.Model.Text

/-!
# What text processing should do
-/

namespace Svgdom

/-- A node of the document tree (other than the root itself). -/
def St.InTree (s : St) (j : NodeId) : Prop := s.live j = true ∧ s.Ancestor s.rootId j

/-- No CR, LF or TAB. -/
def Clean (t : Str) : Prop := ∀ c ∈ t, c ≠ '\r' ∧ c ≠ '\n' ∧ c ≠ '\t'

instance (t : Str) : Decidable (Clean t) := by unfold Clean; infer_instance

/-- CR, LF and TAB become spaces. -/
def toSpace (c : Char) : Char := if c = '\r' ∨ c = '\n' ∨ c = '\t' then ' ' else c

/-- Of several spaces in a row one is left. -/
def squeeze : Str → Str
  | [] => []
  | c :: cs => if c = ' ' ∧ (squeeze cs).head? = some ' ' then squeeze cs else c :: squeeze cs

/-- Without the spaces at the start and at the end. -/
def strip (t : Str) : Str := ((t.dropWhile (· == ' ')).reverse.dropWhile (· == ' ')).reverse

/-- No two spaces in a row. -/
def NoDouble (t : Str) : Prop := ∀ a b, t ≠ a ++ [' ', ' '] ++ b

/-- The first child is a text node. -/
def StartsWithText (s : St) (e : NodeId) : Prop := ∃ c, s.firstChild e = some c ∧ s.nodeType c = .text

/-- Documents as built by the parser, as far as text processing is concerned: only elements have children, text nodes have no
attributes and nothing refers to them, and `xml:space` is a string. -/
structure TextReady (s : St) : Prop where
  kids : ∀ j, s.InTree j → s.firstChild j ≠ none → s.nodeType j = .element
  texts : ∀ j, s.InTree j → s.nodeType j = .text → s.attributes j = [] ∧ s.linkedNodes j = []
  space : ∀ j, s.InTree j → ∀ a ∈ s.attributes j, a.name = .id .Space → ∃ v, a.value = .string v

/-- The mode of an element: its own `xml:space` attribute, else `d`. -/
def St.spaceAt (s : St) (n : NodeId) (d : XmlSpace) : XmlSpace :=
  match attrsGetValue (s.attributes n) (.id .Space) with
  | some (.string v) => if v = st!"preserve" then .preserve else .default
  | _ => d

/-- The mode of a text node: that of its parent. -/
def St.modeOf (s : St) (n : NodeId) (d : XmlSpace) : XmlSpace :=
  match s.parent n with
  | some p => s.spaceAt p d
  | none => d

/-- The mode of an element as the XML specification has it: its own `xml:space` attribute, else the mode of the parent; `default` at
the root. -/
inductive St.Mode (s : St) : NodeId → XmlSpace → Prop
  | root : s.Mode s.rootId .default
  | child {p e : NodeId} {d : XmlSpace} : s.parent e = some p → s.Mode p d → s.Mode e (s.spaceAt e d)

/-- The text nodes below `e` in document order. -/
def St.textsBelow (s : St) (e : NodeId) : List NodeId :=
  match s.descendantList e with
  | .ok l => l.filter fun j => s.isText j
  | .error _ => []

/-- All text below `e`. -/
def St.content (s : St) (e : NodeId) : Str := (s.textsBelow e).flatMap s.text

/-- An element at which text processing starts: its first child is a text node, and that is not so for any ancestor. -/
structure TextRoot (s : St) (e : NodeId) : Prop where
  tree : s.InTree e
  starts : StartsWithText s e
  outer : ∀ a, s.InTree a → StartsWithText s a → ¬ s.Ancestor a e

/-- The element has an `xml:space` attribute (as the parser stores it). -/
def St.HasSpace (s : St) (e : NodeId) : Prop := ∃ v, attrsGetValue (s.attributes e) (.id .Space) = some (.string v)

/-- The characters of a text that are not spaces, tabs or line ends. -/
def ink (t : Str) : Str := t.filter fun c => decide (toSpace c ≠ ' ')

/-- Only spaces, tabs and line ends. -/
def Spaces (t : Str) : Prop := ∀ c ∈ t, toSpace c = ' '

instance (t : Str) : Decidable (Spaces t) := by unfold Spaces; infer_instance

/-- Something is to be seen. -/
def Visible (t : Str) : Prop := ∃ c ∈ t, isWhite c = false

instance (t : Str) : Decidable (Visible t) := by unfold Visible; infer_instance

/-- `u` is `t` without some of the spaces at its start and at its end. -/
def Shrunk (u t : Str) : Prop := ∃ a b : Str, t = a ++ u ++ b ∧ (∀ c ∈ a, c = ' ') ∧ ∀ c ∈ b, c = ' '

/-- A text on its own in the given mode. -/
def spaced : XmlSpace → Str → Str
  | .default, t => squeeze (t.map toSpace)
  | .preserve, t => t.map toSpace

/-- No `xml:space="preserve"` on the element, its ancestors and its descendants. -/
def NoPreserve (s : St) (e : NodeId) : Prop :=
  ∀ a, s.live a = true → (a = e ∨ s.Ancestor a e ∨ s.Ancestor e a) → s.spaceAt a .default = .default

/-- The mode of `p` is given by `p` itself or comes from `e`, nothing in between. -/
def OwnSpace (s : St) (e p : NodeId) : Prop :=
  s.HasSpace p ∨ ∀ q, s.Ancestor e q → (q = p ∨ s.Ancestor q p) → ¬ s.HasSpace q

end Svgdom
