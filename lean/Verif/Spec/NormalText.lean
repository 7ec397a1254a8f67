import Verif.Spec.Text
import Mathlib.Data.List.Chain

/-!
# Texts that are as text processing should leave them
-/

set_option autoImplicit false

namespace Svgdom

/-- Texts of one text root with their modes: none is empty, each is collapsed in its mode, no space before a text in default mode
that starts with a space, and no space in default mode at the start and at the end. -/
structure NormalTexts (l : List (XmlSpace × Str)) : Prop where
  trimmed : ∀ p ∈ l, p.2 ≠ [] ∧ spaced p.1 p.2 = p.2
  borders : l.IsChain fun a b => ¬ (b.1 = .default ∧ a.2.getLast? = some ' ' ∧ b.2.head? = some ' ')
  first : ∀ p ∈ l.head?, p.1 = .default → p.2.head? ≠ some ' '
  last : ∀ p ∈ l.getLast?, p.1 = .default → p.2.getLast? ≠ some ' '

instance (l : List (XmlSpace × Str)) : Decidable (NormalTexts l) :=
  decidable_of_iff ((∀ p ∈ l, p.2 ≠ [] ∧ spaced p.1 p.2 = p.2) ∧
    (l.IsChain fun a b => ¬ (b.1 = .default ∧ a.2.getLast? = some ' ' ∧ b.2.head? = some ' ')) ∧
    (∀ p ∈ l.head?, p.1 = .default → p.2.head? ≠ some ' ') ∧ ∀ p ∈ l.getLast?, p.1 = .default → p.2.getLast? ≠ some ' ')
    ⟨fun h => ⟨h.1, h.2.1, h.2.2.1, h.2.2.2⟩, fun h => ⟨h.trimmed, h.borders, h.first, h.last⟩⟩

/-- The texts in the trees with their modes; `sp` is the mode of the text root, `m` that of the parent. -/
def Trees.items (s : St) (sp m : XmlSpace) : Trees → List (XmlSpace × Str)
  | nil => []
  | cons n K R => (if s.nodeType n = .text then [(m, s.text n)] else []) ++ K.items s sp (s.spaceAt n sp) ++ R.items s sp m

/-- The first tree is a text. -/
def Trees.startsText (s : St) : Trees → Bool
  | nil => false
  | cons n _ _ => decide (s.nodeType n = .text)

/-- The texts of all text roots in the trees; `sp` is the mode of the parent. -/
def Trees.groups (s : St) (sp : XmlSpace) : Trees → List (List (XmlSpace × Str))
  | nil => []
  | cons n K R => (if K.startsText s then [K.items s (s.spaceAt n sp) (s.spaceAt n sp)] else K.groups s (s.spaceAt n sp)) ++ R.groups s sp

/-- Text processing has nothing to do. -/
structure Trees.NormalText (s : St) (T : Trees) : Prop where
  notEmpty : ∀ n ∈ T.pre, s.nodeType n = .text → s.text n ≠ []
  groups : ∀ g ∈ T.groups s .default, NormalTexts g

instance (s : St) (T : Trees) : Decidable (T.NormalText s) :=
  decidable_of_iff ((∀ n ∈ T.pre, s.nodeType n = .text → s.text n ≠ []) ∧ ∀ g ∈ T.groups s .default, NormalTexts g)
    ⟨fun h => ⟨h.1, h.2⟩, fun h => ⟨h.notEmpty, h.groups⟩⟩

/-- Nothing has changed in the texts of the document. -/
structure SameTexts (s t : St) : Prop where
  tree : ∀ j, t.InTree j ↔ s.InTree j
  text : ∀ j, t.text j = s.text j

end Svgdom
