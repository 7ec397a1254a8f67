import Verif.Spec.Text
import Verif.Spec.XmlText
import Verif.Model.Text

/-!
# White space left in a document
-/

set_option autoImplicit false

namespace Svgdom

/-- The white space of a text: each space counts one, each tab and line end two. -/
def blanks : Str → Nat
  | [] => 0
  | c :: t => (if c = ' ' then 1 else if c = '\r' ∨ c = '\n' ∨ c = '\t' then 2 else 0) + blanks t

/-- The white space in the texts of the trees. -/
def Trees.blanks (s : St) : Trees → Nat
  | nil => 0
  | cons n K R => (if s.nodeType n = .text then Svgdom.blanks (s.text n) else 0) + K.blanks s + R.blanks s

/-- `t` is what is loaded from the characters of `s`, saved with the options `o`. -/
def St.Saved (L : Lib) (debug : Bool) (W : ValueWriter) (o : XmlOptions) (s t : St) : Prop :=
  ∃ txt y, s.toText W o = .ok txt ∧ readText txt = some y ∧ parseSvg L debug y = .ok t

end Svgdom
