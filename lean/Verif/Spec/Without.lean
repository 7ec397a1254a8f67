import Verif.Model.Writer
import Verif.Spec.Acyclic

/-!
# C118: when the rest of the output stays
-/

set_option autoImplicit false

namespace Svgdom

/-- Node `j` is in the document, but not in the subtree of `i`. -/
def St.Rest (s : St) (i j : NodeId) : Prop := s.InSubtree s.rootId j ∧ ¬ s.InSubtree i j

/-- No declaration of `xlink` gets lost when the subtree of `i` goes: if `i` is below a top-level `svg` element and there is an `href` in the
subtree, there is another one below the `svg` element outside of the subtree. -/
def St.KeepsXlink (s : St) (i : NodeId) : Prop :=
  ∀ a, s.Ancestor a i → s.parent a = some s.rootId → s.nodeType a = .element → s.tagName a = .id .Svg →
    (∃ m, s.live m = true ∧ s.InSubtree i m ∧ s.hasAttribute m (.id .Href) = true) →
    ∃ m, s.live m = true ∧ s.InSubtree a m ∧ ¬ s.InSubtree i m ∧ s.hasAttribute m (.id .Href) = true

end Svgdom
