import Verif.Spec.Text

/-!
# Words

Independent of the model of text processing.
-/

set_option autoImplicit false

namespace Svgdom

/-- Cut at every character for which `p` holds. -/
def pieces (p : Char → Bool) : Str → List Str
  | [] => [[]]
  | c :: cs =>
    if p c then [] :: pieces p cs
    else match pieces p cs with
      | [] => [[c]]
      | w :: ws => (c :: w) :: ws

/-- The words of a text; the characters for which `p` holds separate them. -/
def wordsAt (p : Char → Bool) (t : Str) : List Str := (pieces p t).filter fun w => !w.isEmpty

/-- The words of a text. White space is what `str::trim` takes for it. -/
def words (t : Str) : List Str := wordsAt isWhite t

/-- The white space of XML only: space, tab and line ends. -/
def xmlWhite (c : Char) : Bool := decide (toSpace c = ' ')

/-- No superfluous space: none at the ends and no two in a row. -/
def Neat (t : Str) : Prop := t.head? ≠ some ' ' ∧ t.getLast? ≠ some ' ' ∧ NoDouble t

example : words st!"  ab c\n d" = [st!"ab", st!"c", st!"d"] := by decide +kernel

end Svgdom
