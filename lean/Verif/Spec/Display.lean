import Verif.Model.Display
import Verif.Spec.Writer

/-!
# Reading the text that `Display` and `Debug` give for an element
-/

namespace Svgdom

/-- The characters before the first one in `stop`, and the rest. -/
def upTo (stop : List Char) : Str → Str × Str
  | [] => ([], [])
  | c :: cs => if c ∈ stop then ([], c :: cs) else ((c :: (upTo stop cs).1), (upTo stop cs).2)

/-- Read `'text'`. -/
def readQuoted : Str → Option (Str × Str)
  | '\'' :: t =>
    match upTo ['\''] t with
    | (v, '\'' :: rest) => some (v, rest)
    | _ => none
  | _ => none

/-- Read ` name='value'` as often as possible (at most `k` times). -/
def readPairs : Nat → Str → Option (List (Str × Str) × Str)
  | k + 1, ' ' :: t =>
    match upTo ['='] t with
    | (x, '=' :: rest) =>
      match readQuoted rest with
      | some (v, rest) => (readPairs k rest).map fun p => ((x, v) :: p.1, p.2)
      | none => none
    | _ => none
  | _, t => some ([], t)

/-- Read ` 'text'` as often as possible (at most `k` times). -/
def readIds : Nat → Str → Option (List Str × Str)
  | k + 1, ' ' :: t =>
    match readQuoted t with
    | some (v, rest) => (readIds k rest).map fun p => (v :: p.1, p.2)
    | none => none
  | _, t => some ([], t)

/-- Read a start tag: its name and the attributes. -/
def readTag (t : Str) : Option (Str × List (Str × Str)) :=
  match t with
  | '<' :: t =>
    let (x, rest) := upTo [' ', '>'] t
    match readPairs rest.length rest with
    | some (ps, ['>']) => some (x, ps)
    | _ => none
  | _ => none

/-- Remove a prefix. -/
def stripPre : Str → Str → Option Str
  | [], t => some t
  | c :: p, d :: t => if c = d then stripPre p t else none
  | _ :: _, [] => none

/-- Read the debug text of an element: its name, the attributes and the ids of the nodes that link to it. -/
def readDebug (t : Str) : Option (Str × List (Str × Str) × List Str) :=
  match stripPre st!"Element(" t with
  | none => none
  | some t =>
    let (x, rest) := upTo [' ', ';', ')'] t
    match readPairs rest.length rest with
    | none => none
    | some (ps, rest) =>
      if rest = [')'] then some (x, ps, [])
      else match stripPre st!"; linked-nodes:" rest with
        | none => none
        | some rest =>
          match readIds rest.length rest with
          | some (l, [')']) => some (x, ps, l)
          | _ => none

/-- The text before the first `-->`, which must be the end. -/
def untilArrow : Str → Option Str
  | [] => none
  | c :: t => if stripPre st!"-->" (c :: t) = some [] then some []
    else if (stripPre st!"-->" (c :: t)).isSome then none
    else (untilArrow t).map (c :: ·)

/-- Read a comment as an XML parser does: it ends at the first `-->`. -/
def readComment (t : Str) : Option Str := (stripPre st!"<!--" t).bind untilArrow

/-- The name of an attribute, given the names of the SVG attributes. -/
def AName.shown (name : AttributeId → Str) : AName → Str
  | .id i => name i
  | .name x => x

/-- The names and values a reader should see: the id, then the attributes in order. -/
def St.shownPairs (s : St) (W : ValueWriter) (name : AttributeId → Str) (n : NodeId) : List (Str × Str) :=
  (if s.idOf n = [] then [] else [(st!"id", s.idOf n)]) ++
    (s.attributes n).map fun a => (AName.shown name a.name, s.writeValue W a.value)

/-- Nothing in the element can be mistaken for punctuation: no quote in the id and in values, no `=` in names, no space, `>`, `;`
or `)` in the tag name. -/
structure St.NoPunctuation (s : St) (W : ValueWriter) (n : NodeId) : Prop where
  tag : ∀ x, s.tagName n = .name x → ' ' ∉ x ∧ '>' ∉ x ∧ ';' ∉ x ∧ ')' ∉ x
  names : ∀ a ∈ s.attributes n, ∀ x, a.name = .name x → '=' ∉ x
  values : ∀ a ∈ s.attributes n, '\'' ∉ s.writeValue W a.value
  id : '\'' ∉ s.idOf n
  linked : ∀ m ∈ s.linkedNodes n, '\'' ∉ s.idOf m

end Svgdom
