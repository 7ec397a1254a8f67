import Verif.Spec.Read

/-!
# What is needed of `svgtypes` for values to come back

The texts of single values are produced and parsed by another crate (`ValueWriter` and `Lib` in the model). Here it is said, value by
value, that the crate reads what it wrote.
-/

set_option autoImplicit false

namespace Svgdom

/-- Words with a meaning of their own in attribute values. -/
def keywords : List Str :=
  [st!"none", st!"inherit", st!"currentColor", st!"normal", st!"baseline", st!"sub", st!"super", st!"auto"]

/-- `svgtypes` reads the text `w` as the value. -/
def ReadAs (L : Lib) (w : Str) : AttributeValue → Prop
  | .number x => L.number w = some (x, true)
  | .numberList l => L.numberList w = some l
  | .length l => L.length w = some l
  | .lengthList l => L.lengthList w = some l
  | .angle b => L.angle w = some b
  | .transform b => L.transform w = some (b, false)
  | .path l => L.path w = l.map some
  | .points b => L.points w = some b
  | .viewBox b => L.viewBox w = some b
  | .aspectRatio b => L.aspectRatio w = some b
  | .color c => L.color w = some c ∧ L.paint w = some (.color c)
  | _ => False

/-- Values that `svgtypes` parses and writes. -/
def AttributeValue.isTyped : AttributeValue → Bool
  | .none => false
  | .inherit => false
  | .currentColor => false
  | .string _ => false
  | .link _ => false
  | .funcLink _ => false
  | .paint _ _ => false
  | _ => true

/-- The text of the value of attribute `i` comes back: no markup in it, no white space around it, and `svgtypes` reads it as the value.
For `unicode`, which is written with character references: all characters are allowed in XML, and it does not begin with `&#`. -/
structure Faithful (L : Lib) (s : St) (W : ValueWriter) (q : Char) (i : AttributeId) (v : AttributeValue) : Prop where
  text : i ≠ .Unicode → readAttr q (s.writeValue W v) = some (s.writeValue W v) ∧ trimStr (s.writeValue W v) = s.writeValue W v
  typed : v.isTyped = true → ReadAs L (s.writeValue W v) v ∧ s.writeValue W v ∉ keywords
  unicode : i = .Unicode → ∀ t, v = .string t → ¬ st!"&#" <+: t ∧ ∀ c ∈ t, xmlChar c = true

/-- The text of a reference in a paint. -/
def paintText (W : ValueWriter) (iri : Str) (fb : Option PaintFallback) : Str :=
  st!"url(#" ++ iri ++ [')'] ++
    match fb with
    | none => []
    | some .none => st!" none"
    | some .currentColor => st!" currentColor"
    | some (.color c) => ' ' :: W.color c

/-- `svgtypes` reads references and keywords as they are written here. -/
structure ReferencesReadBack (L : Lib) (W : ValueWriter) : Prop where
  iri : ∀ x iri, L.iri x = some iri → L.iri ('#' :: iri) = some iri
  funcIri : ∀ x iri, L.funcIri x = some iri → L.funcIri (st!"url(#" ++ iri ++ [')']) = some iri
  paint : ∀ x iri fb, L.paint x = some (.funcIRI iri fb) → L.paint (paintText W iri fb) = some (.funcIRI iri fb)
  none : L.paint st!"none" = some .none
  inherit : L.paint st!"inherit" = some .inherit
  currentColor : L.paint st!"currentColor" = some .currentColor

end Svgdom
