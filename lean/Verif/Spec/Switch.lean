import Verif.Spec.Protocol

/-!
# `text` inside `text`
-/

set_option autoImplicit false

namespace Svgdom

/-- Some node called `text` is inside of an element called `text` (`inText`: the trees are inside of one already). -/
def Trees.textInText (s : St) (inText : Bool) : Trees → Bool
  | nil => false
  | cons i kids rest =>
    (inText && decide (s.tagName i = .id .Text)) ||
      kids.textInText s (inText || (decide (s.nodeType i = .element) && decide (s.tagName i = .id .Text))) ||
        rest.textInText s inText

end Svgdom
