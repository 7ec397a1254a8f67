import Verif.Model.SpecFiles

/-!
# codegen/main.rs

The part of the table generator that works on names. `phf_codegen` (which chooses the hash keys) and the text around the tables are not
modelled; its result, the tables of names.rs, is in `Model/Names.lean`.
-/

set_option autoImplicit false

namespace Svgdom

/-- codegen/main.rs:119 `spec.split('\n').filter(|s| !s.is_empty())`. -/
def specNames (spec : Str) : List Str := (spec.splitOn '\n').filter fun s => !s.isEmpty

/-- codegen/main.rs:187-198: the loop from the second character on; `up` is `c.to_uppercase().next().unwrap()`. -/
def enumNameLoop (up : Char → Char) : Bool → Str → Str
  | _, [] => []
  | change, c :: cs =>
    if c = '-' ∨ c = '_' ∨ c = ':' then enumNameLoop up true cs
    else if change then up c :: enumNameLoop up false cs
    else c :: enumNameLoop up false cs

/-- codegen/main.rs:172-202 `to_enum_name`. -/
def toEnumName (up : Char → Char) : Str → Str
  | [] => []
  | c :: cs => (if c.isDigit then ['N', c] else [up c]) ++ enumNameLoop up false cs

/-- codegen/main.rs:119-127 in `gen_map`: the variants of the enum, and the entries of the map with the variants they get. -/
def genMap (up : Char → Char) (spec : Str) : List Str × List (Str × Str) :=
  let names := specNames spec
  (names.map (toEnumName up), names.map fun n => (n, toEnumName up n))

end Svgdom
