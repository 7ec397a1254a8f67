import Verif.Model.Text

/-!
# A small library for concrete documents

A `Lib` with very simple value parsers, used only to show that hypotheses can be met and for counterexamples.
-/

namespace Svgdom

/-- `prefix`x`suffix` gives `x`. -/
def between (pre suf s : Str) : Option Str :=
  if pre.isPrefixOf s && suf.isSuffixOf s then some ((s.drop pre.length).dropLast) else none

/-- Parts between separators. -/
def parts (c : Char) : Str → List Str
  | [] => [[]]
  | a :: l => if a = c then [] :: parts c l
    else match parts c l with
      | [] => [[a]]
      | p :: ps => (a :: p) :: ps

/-- `a:b;c:d` -/
def sampleDecls (s : Str) : List (Str × Str) := (parts ';' s).filterMap fun d =>
  match parts ':' d with
  | [a, b] => some (a, b)
  | _ => none

/-- `name{a:b;c:d}` applies to elements with that name. -/
def sampleRule (s : Str) : Option Rule :=
  match parts '{' s with
  | [name, body] => some ⟨fun p => p.hasLocalName name, sampleDecls (body.filter (· ≠ '}'))⟩
  | _ => none

def sampleLib : Lib where
  iri := fun s => match s with
    | '#' :: r => some r
    | _ => none
  funcIri := between st!"url(#" st!")"
  length := fun s => if s = st!"5" then some ⟨.fin 5, .none⟩ else none
  lengthList := fun s => if s = st!"5" then some [⟨.fin 5, .none⟩] else none
  numberList := fun s => if s = st!"5" then some [.fin 5] else none
  number := fun s => if s = st!"5" then some (.fin 5, true) else if s = st!"0.5" then some (.fin (1/2), true) else none
  paint := fun s => if s = st!"none" then some .none
    else if s = st!"inherit" then some .inherit
    else if s = st!"currentColor" then some .currentColor
    else if s = st!"red" then some (.color ⟨255, 0, 0⟩)
    else if s = st!"green" then some (.color ⟨0, 128, 0⟩)
    else (between st!"url(#" st!")" s).map fun i => .funcIRI i none
  color := fun s => if s = st!"red" then some ⟨255, 0, 0⟩ else none
  points := fun _ => none
  path := fun _ => []
  transform := fun _ => none
  angle := fun _ => none
  viewBox := fun _ => none
  aspectRatio := fun _ => none
  sheet := fun l => l.filterMap sampleRule
  declarations := sampleDecls

/-- An attribute without namespace. -/
def xa (name value : Str) : XmlAttr := ⟨none, name, value⟩

/-- An SVG element. -/
def xe (name : Str) (attrs : List XmlAttr) (kids rest : Xml) : Xml := .element (some svgNs) name attrs kids rest

/-- The parsed document has `p`. -/
def parsed (x : Xml) (p : St → Bool) : Bool :=
  match parseSvg sampleLib true x with
  | .ok s => p s
  | .error _ => false

theorem exists_of_parsed {x : Xml} {p : St → Bool} (h : parsed x p = true) : ∃ s, parseSvg sampleLib true x = .ok s ∧ p s = true := by
  unfold parsed at h
  split at h
  · next s hs => exact ⟨s, hs, h⟩
  · simp at h

end Svgdom
