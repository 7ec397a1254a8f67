import Verif.Spec.Parse

/-!
# Specification: documents that are refused
-/

set_option autoImplicit false

namespace Svgdom

/-- The expected DOM up to its first element on the top level, with what is in that element. -/
def Dom.upToElement : Dom → Dom
  | nil => .nil
  | element eid id attrs refs kids _ => .element eid id attrs refs kids .nil
  | text t rest => .text t rest.upToElement
  | comment t rest => .comment t rest.upToElement

/-- What the caller of the parser sees: the document, an error, or a panic. -/
def seen {α : Type} : Except Err (α × Bool) → Except ParseErr α
  | .ok (a, true) => .ok a
  | .ok (_, false) => .error .noSvgElement
  | .error e => .error (.fail e)

end Svgdom
