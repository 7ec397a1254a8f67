import Verif.Spec.Read

/-!
# What a document must be like for its text to be read
-/

set_option autoImplicit false

namespace Svgdom

/-- Ids, texts and comments stand for themselves in XML, no text follows a text, and for every attribute something is written that can
be read as the value of an attribute; none is called `xmlns`. -/
structure Writable (s : St) (W : ValueWriter) (q : Char) (T : Trees) : Prop where
  ids : ∀ n ∈ T.pre, s.nodeType n = .element → plainValue (s.idOf n) = true
  texts : ∀ n ∈ T.pre, s.nodeType n = .text → plainContent (s.text n) = true
  comments : ∀ n ∈ T.pre, s.nodeType n = .comment → plainComment (s.text n) = true
  sep : T.SepText s
  values : ∀ n ∈ T.pre, s.nodeType n = .element → ∀ a ∈ s.attributes n, ∀ i, a.name = .id i → i ≠ .Xmlns ∧
    ∃ w v, s.written W i a.value = some w ∧ readAttr q w = some v

end Svgdom
