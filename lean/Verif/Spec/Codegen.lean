import Verif.Model.Str

/-!
# Lists of names and identifiers made from names
-/

set_option autoImplicit false

namespace Svgdom

/-- The lines of a text (without the line feeds), empty ones included. -/
def textLines : Str → List Str
  | [] => [[]]
  | c :: t =>
    if c = '\n' then [] :: textLines t
    else match textLines t with
      | [] => [[c]]
      | l :: ls => (c :: l) :: ls

/-- The parts of a name between `-`, `_` and `:`. -/
def nameParts : Str → List Str
  | [] => [[]]
  | c :: t =>
    if c ∈ st!"-_:" then [] :: nameParts t
    else match nameParts t with
      | [] => [[c]]
      | p :: ps => (c :: p) :: ps

/-- With the first character changed. -/
def capital (up : Char → Char) : Str → Str
  | [] => []
  | c :: t => up c :: t

/-- The identifier for a name: its parts in one word, every part but the first with a capital; and the first character a capital, or
`N` before it if it is a digit. -/
def identifierOf (up : Char → Char) : Str → Str
  | [] => []
  | c :: t => (if c ∈ st!"0123456789" then st!"N" else []) ++
    (if c ∈ st!"0123456789" then c else up c) :: ((nameParts t).head?.getD [] ++ (nameParts t).tail.flatMap (capital up))

/-- Lexicographic order of strings that ignores the case of ASCII letters. -/
def alphabetical : Str → Str → Bool
  | [], _ :: _ => true
  | _, [] => false
  | a :: s, b :: t => decide (a.toLower.toNat < b.toLower.toNat) || (decide (a.toLower = b.toLower) && alphabetical s t)

end Svgdom
