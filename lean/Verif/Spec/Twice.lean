import Verif.Model.Writer
import Verif.Spec.Acyclic

/-!
# C117: what writing a copy should give
-/

set_option autoImplicit false

namespace Svgdom

/-- Not the `id` attribute of an element. -/
def Ev.notId : Ev → Bool
  | .attribute x _ => x != st!"id"
  | _ => true

/-- The subtree of `i` gives a text node or comment nothing of what belongs to elements: not the tag name `text`, and no `href`. -/
def St.Proper (s : St) (i : NodeId) : Prop :=
  ∀ j, s.live j = true → s.InSubtree i j → s.nodeType j ≠ .element →
    s.tagName j ≠ .id .Text ∧ s.hasAttribute j (.id .Href) = false

end Svgdom
