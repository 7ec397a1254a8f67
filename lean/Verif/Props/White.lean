import Verif.Model.Xml

/-!
# C60: which characters are white space
-/

set_option autoImplicit false

namespace Svgdom

/-- The characters that Unicode calls white space: TAB, LF, VT, FF, CR, space, NEL, no-break space, ogham space, the spaces from en quad to hair
space, line and paragraph separator, narrow no-break space, mathematical space, ideographic space. -/
def whiteCodes : List Nat :=
  [0x9, 0xA, 0xB, 0xC, 0xD, 0x20, 0x85, 0xA0, 0x1680, 0x2000, 0x2001, 0x2002, 0x2003, 0x2004, 0x2005, 0x2006, 0x2007, 0x2008, 0x2009, 0x200A,
   0x2028, 0x2029, 0x202F, 0x205F, 0x3000]

/-- C60: a character counts as white space, for `trim` and for texts of white space only, exactly if it is in this list. -/
theorem C60_white (c : Char) : isWhite c = true ↔ c.toNat ∈ whiteCodes := by
  simp only [isWhite, whiteCodes, List.mem_cons, List.not_mem_nil, or_false, decide_eq_true_eq]
  omega

/-- Both answers occur. -/
example : isWhite '\t' = true ∧ isWhite (Char.ofNat 0xB) = true ∧ isWhite 'a' = false ∧ isWhite (Char.ofNat 0x200B) = false := by decide

end Svgdom
