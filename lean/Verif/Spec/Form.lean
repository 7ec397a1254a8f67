import Verif.Model.Node

/-!
# The form of references
-/

set_option autoImplicit false

namespace Svgdom

/-- The value has the form that the attribute name demands: `href` holds IRIs (`#id`), `fill` and `stroke` hold paints (`url(#id)` with
or without a fallback), all other attributes functional IRIs (`url(#id)`). Values that are not references have no such form. -/
def FormOf (name : AName) : AttributeValue → Prop
  | .link _ => name = .id .Href
  | .paint _ _ => name = .id .Fill ∨ name = .id .Stroke
  | .funcLink _ => name ≠ .id .Href ∧ name ≠ .id .Fill ∧ name ≠ .id .Stroke
  | _ => True

end Svgdom
