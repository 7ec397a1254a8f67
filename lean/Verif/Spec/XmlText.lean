import Verif.Spec.Read
import Verif.Model.XmlOut

/-!
# Reading characters

A small reader for XML text: from characters to elements with namespaces. It knows elements, attributes, texts, comments, character
references and the five entities; it gives up (`none`) on everything that is not well-formed, and on what the writer never writes:
declarations, processing instructions, CDATA sections, carriage returns in texts, names that are not ASCII.
-/

set_option autoImplicit false

namespace Svgdom

def xmlSpace (c : Char) : Bool := decide (c = ' ' ∨ c = '\t' ∨ c = '\n' ∨ c = '\r')

def nameChar (c : Char) : Bool := c.isAlphanum || decide (c = '-' ∨ c = '_' ∨ c = '.' ∨ c = ':')

/-- The value of an attribute, from its quotes on, and what follows. -/
def lexValue : Str → Option (Str × Str)
  | [] => none
  | q :: cs =>
    if q = '"' ∨ q = '\'' then
      match cs.dropWhile (· ≠ q) with
      | [] => none
      | _ :: rest => (readAttr q (cs.takeWhile (· ≠ q))).map fun v => (v, rest)
    else none

/-- `name = "value"`, and what follows. -/
def lexAttr (cs : Str) : Option ((Str × Str) × Str) :=
  if xmlName (cs.takeWhile nameChar) then
    match (cs.dropWhile nameChar).dropWhile xmlSpace with
    | '=' :: ds => (lexValue (ds.dropWhile xmlSpace)).map fun r => ((cs.takeWhile nameChar, r.1), r.2)
    | _ => none
  else none

/-- Attributes up to `>` or `/>` (then `true`), and what follows. White space must stand before each attribute. The first argument
bounds the number of attributes. -/
def lexAttrs : Nat → Str → Option (List (Str × Str) × Bool × Str)
  | 0, _ => none
  | k + 1, cs =>
    match cs.dropWhile xmlSpace with
    | '>' :: rest => some ([], false, rest)
    | '/' :: '>' :: rest => some ([], true, rest)
    | ds =>
      if cs.takeWhile xmlSpace = [] then none
      else (lexAttr ds).bind fun a => (lexAttrs k a.2).map fun r => (a.1 :: r.1, r.2)

/-- A comment up to its end, and what follows; `--` is not allowed. -/
def lexComment : Str → Option (Str × Str)
  | [] => none
  | '-' :: '-' :: '>' :: rest => some ([], rest)
  | '-' :: '-' :: _ => none
  | c :: cs => if xmlChar c && decide (c ≠ '\r') then (lexComment cs).map fun r => (c :: r.1, r.2) else none

/-- Pieces of an XML text: start tags (`empty`: with `/>`), end tags, texts as they stand there, and comments. -/
inductive Tok where
  | start (name : Str) (attrs : List (Str × Str)) (empty : Bool)
  | stop (name : Str)
  | text (t : Str)
  | comment (t : Str)
deriving DecidableEq

/-- What follows `<`. -/
def lexMarkup : Str → Option (Tok × Str)
  | '!' :: '-' :: '-' :: cs => (lexComment cs).map fun r => (.comment r.1, r.2)
  | '/' :: cs =>
    if xmlName (cs.takeWhile nameChar) then
      match (cs.dropWhile nameChar).dropWhile xmlSpace with
      | '>' :: rest => some (.stop (cs.takeWhile nameChar), rest)
      | _ => none
    else none
  | cs =>
    if xmlName (cs.takeWhile nameChar) then
      (lexAttrs cs.length (cs.dropWhile nameChar)).map fun r => (.start (cs.takeWhile nameChar) r.1 r.2.1, r.2.2)
    else none

/-- All pieces; the first argument bounds their number. -/
def lex : Nat → Str → Option (List Tok)
  | _, [] => some []
  | 0, _ :: _ => none
  | k + 1, c :: cs =>
    if c = '<' then (lexMarkup cs).bind fun r => (lex k r.2).map (r.1 :: ·)
    else (lex k ((c :: cs).dropWhile (· ≠ '<'))).map (.text ((c :: cs).takeWhile (· ≠ '<')) :: ·)

/-- Texts must not contain `]]>`. -/
def cdataEnd : Str → Bool
  | [] => false
  | c :: cs => st!"]]>".isPrefixOf (c :: cs) || cdataEnd cs

def readContentAux : Nat → Str → Option Str
  | _, [] => some []
  | 0, _ :: _ => none
  | k + 1, c :: cs =>
    if c = '<' ∨ c = '\r' ∨ !xmlChar c then none
    else if c = '&' then (readRef cs).bind fun r => (readContentAux k r.2).map (r.1 :: ·)
    else (readContentAux k cs).map (c :: ·)

/-- A text with references. -/
def readContent (t : Str) : Option Str := if cdataEnd t then none else readContentAux t.length t

/-- One piece, read from the end: for each open element its name and what follows in it; at the top level (`none`) only white space
is allowed as text, and it does not count. -/
def buildStep (t : Tok) (st : List (Option Str × Raw)) : Option (List (Option Str × Raw)) :=
  match t, st with
  | .stop n, st => some ((some n, .nil) :: st)
  | .start n as true, (m, r) :: st => some ((m, .element n as .nil r) :: st)
  | .start n as false, (m, kids) :: (m', r) :: st => if m = some n then some ((m', .element n as kids r) :: st) else none
  | .comment t, (m, r) :: st => some ((m, .comment t r) :: st)
  | .text t, (none, r) :: st => if t.all xmlSpace then some ((none, r) :: st) else none
  | .text t, (some n, r) :: st => (readContent t).map fun t => (some n, .text t r) :: st
  | _, _ => none

/-- All pieces. -/
def build : List Tok → List (Option Str × Raw) → Option (List (Option Str × Raw))
  | [], st => some st
  | t :: l, st => (build l st).bind (buildStep t)

/-- The XML document with these characters: one element at the top. -/
def readText (cs : Str) : Option Xml :=
  match (lex cs.length cs).bind fun l => build l [(none, .nil)] with
  | some [(_, r)] =>
    match r.expand xmlScope with
    | some x => if x.topElements = 1 ∧ !x.topText then some x else none
    | none => none
  | _ => none

/-- Nothing is lost if lines are indented: texts are inside of `text` elements, no `text` is inside of a `text`, and `tspan` and `tref`
are only inside of `text`. -/
def Trees.Indentable (s : St) (inText : Bool) : Trees → Prop
  | .nil => True
  | .cons i K R =>
    (s.nodeType i = .text → inText = true) ∧ (s.tagName i = .id .Text → inText = false) ∧
      (s.tagName i = .id .Tspan ∨ s.tagName i = .id .Tref → inText = true) ∧
      K.Indentable s (inText || (decide (s.nodeType i = .element) && decide (s.tagName i = .id .Text))) ∧ R.Indentable s inText

end Svgdom
