import Verif.Spec.Trees
import Verif.Spec.Parse

/-!
# Levels of elements
-/

set_option autoImplicit false

namespace Svgdom

/-- Number of levels of elements (from the top, through elements only). -/
def Trees.elemHeight (s : St) : Trees → Nat
  | nil => 0
  | cons i kids rest => max (if s.nodeType i = .element then kids.elemHeight s + 1 else 0) (rest.elemHeight s)

/-- The same for an expected DOM. -/
def Dom.elemHeight : Dom → Nat
  | nil => 0
  | element _ _ _ _ kids rest => max (kids.elemHeight + 1) rest.elemHeight
  | text _ rest => rest.elemHeight
  | comment _ rest => rest.elemHeight

end Svgdom
