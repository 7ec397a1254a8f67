import Verif.Spec.XmlText
import Verif.Spec.NormalText

/-!
# Texts that survive indentation
-/

set_option autoImplicit false

namespace Svgdom

/-- As `Indentable`, but a text may also be outside of `text` elements, if it is the only child and its white space is not preserved.
`sp` is the mode of the parent. -/
def Trees.Spread (s : St) (sp : XmlSpace) (inText : Bool) : Trees → Prop
  | .nil => True
  | .cons i K R =>
    (s.nodeType i = .text → inText = true) ∧ (s.tagName i = .id .Text → inText = false) ∧
      (s.tagName i = .id .Tspan ∨ s.tagName i = .id .Tref → inText = true) ∧
      (K.Spread s (s.spaceAt i sp) (inText || (decide (s.nodeType i = .element) && decide (s.tagName i = .id .Text))) ∨
        (s.nodeType i = .element ∧ s.tagName i ≠ .id .Text ∧ inText = false ∧ s.spaceAt i sp = .default ∧
          ∃ c, K = .cons c .nil .nil ∧ s.nodeType c = .text ∧ s.tagName c ≠ .id .Text)) ∧
      R.Spread s sp inText

end Svgdom
