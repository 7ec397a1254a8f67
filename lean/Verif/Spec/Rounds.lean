import Verif.Spec.Read
import Verif.Model.Text

/-!
# Saving and loading, again and again
-/

set_option autoImplicit false

namespace Svgdom

/-- Only elements have attributes and tag names (in debug builds the setters assert that; in release builds they do not). -/
structure PlainNodes (s : St) (T : Trees) : Prop where
  nodes : ∀ n ∈ T.pre, s.nodeType n ≠ .element → s.attributes n = [] ∧ s.tagName n = .name []
  root : s.tagName s.rootId = .name []

/-- The SVG name of an element. -/
def St.svgTag (s : St) (n : NodeId) : Option ElementId := match s.tagName n with
  | .id e => some e
  | .name _ => none

/-- Outside `text`, `tspan` and `tref` no text is blank; `tag` is the name of the element around the trees. -/
def Trees.NoBlank (s : St) (tag : Option ElementId) : Trees → Prop
  | nil => True
  | cons n K R => (s.nodeType n = .text → keepsBlank tag = true ∨ isBlank (s.text n) = false) ∧ K.NoBlank s (s.svgTag n) ∧
    R.NoBlank s tag

/-- `s` is written between quotes `q`, what was written is read as XML (indentation aside), and parsed: `t`. -/
def St.Round (L : Lib) (debug : Bool) (W : ValueWriter) (q : Char) (s t : St) : Prop :=
  ∃ evs y y', s.writeDom W = .ok evs ∧ readMarkup q evs = some y ∧ y'.unindent false = y ∧ parseSvg L debug y' = .ok t

/-- Any number of rounds. -/
inductive St.Rounds (L : Lib) (debug : Bool) (W : ValueWriter) (q : Char) (s : St) : St → Prop where
  | refl : Rounds L debug W q s s
  | tail {t u : St} : Rounds L debug W q s t → St.Round L debug W q t u → Rounds L debug W q s u

end Svgdom
