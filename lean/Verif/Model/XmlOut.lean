import Verif.Model.Writer

/-!
# The characters that are written

The crate `xmlwriter` is not in /repo, so this is not a translation of its source. It is what the documentation of the options
(writer.rs:29-100) and the expected texts in /repo/tests (all of them are checked in `Verif/Check`) say about it: how the calls of
writer.rs:128-237 turn into characters.
-/

set_option autoImplicit false

namespace Svgdom

/-- `xmlwriter::Indent`. (Re-exported in writer.rs:25.) -/
inductive Indent where
  | none
  | spaces (n : Nat)
  | tabs
deriving DecidableEq

/-- writer.rs:29-100 `WriteOptions` without the options for values, with the defaults of writer.rs:105-107. -/
structure XmlOptions where
  single : Bool := false
  indent : Indent := .spaces 4
  attributes : Indent := .none

/-- The quotes around attribute values. (writer.rs:46.) -/
def XmlOptions.quote (o : XmlOptions) : Char := if o.single then '\'' else '"'

/-- White space for a depth. (writer.rs:48-97.) -/
def Indent.str : Indent → Nat → Str
  | .none, _ => []
  | .spaces n, d => List.replicate (n * d) ' '
  | .tabs, d => List.replicate d '\t'

/-- State of the writer: nothing written yet; inside a start tag; names of the open elements and whether they have content; white space
switched off (writer.rs:150-152, 168-170). -/
structure Pen where
  empty : Bool := true
  tag : Bool := false
  stack : List (Str × Bool) := []
  preserve : Bool := false

/-- Finish the start tag before something else is written into the element. -/
def Pen.closed (w : Pen) : Str × Pen :=
  if w.tag then
    (['>'], { w with tag := false, stack := match w.stack with
      | [] => []
      | (n, _) :: l => (n, true) :: l })
  else ([], w)

def Pen.newLine (w : Pen) (o : XmlOptions) : Str := if o.indent = .none || w.preserve then [] else ['\n']
def Pen.margin (w : Pen) (o : XmlOptions) : Str := if w.preserve then [] else o.indent.str w.stack.length

/-- Only quotes are escaped in attribute values. (tests/writer.rs:385-417.) -/
def quoted (o : XmlOptions) (t : Str) : Str :=
  t.flatMap fun c => if c = '\'' ∧ o.single then st!"&apos;" else if c = '"' ∧ !o.single then st!"&quot;" else [c]

/-- Only `<` is escaped in texts. -/
def escapeText (t : Str) : Str := t.flatMap fun c => if c = '<' then st!"&lt;" else [c]

/-- One attribute of an element at depth `d`: space or a new line, name and value. -/
def attrText (o : XmlOptions) (d : Nat) (n v : Str) : Str :=
  (if o.attributes = .none then [' '] else '\n' :: o.indent.str d ++ o.attributes.str 1) ++ n ++ '=' :: o.quote :: quoted o v ++ [o.quote]

/-- The characters for a sequence of calls. (The calls are made in writer.rs:128-237.) -/
def render (o : XmlOptions) : Pen → List Ev → Str
  | w, [] => w.newLine o
  | w, .startElement n :: l =>
    let (c, w) := w.closed
    c ++ (if w.empty then [] else w.newLine o) ++ w.margin o ++ '<' :: n ++
      render o { w with empty := false, tag := true, stack := (n, false) :: w.stack } l
  | w, .attribute n v :: l => attrText o (w.stack.length - 1) n v ++ render o w l
  | w, .attributeRaw n v :: l => attrText o (w.stack.length - 1) n v ++ render o w l
  | w, .preserve b :: l => render o { w with preserve := b } l
  | w, .comment t :: l =>
    let (c, w) := w.closed
    c ++ (if w.empty then [] else w.newLine o) ++ w.margin o ++ st!"<!--" ++ t ++ st!"-->" ++ render o { w with empty := false } l
  | w, .text t :: l =>
    let (c, w) := w.closed
    c ++ w.newLine o ++ w.margin o ++ escapeText t ++ render o { w with empty := false } l
  | w, .endElement :: l =>
    match w.stack with
    | [] => []
    | (n, kids) :: st =>
      let v := { w with stack := st, tag := false }
      (if kids then w.newLine o ++ v.margin o ++ st!"</" ++ n ++ st!">" else st!"/>") ++ render o v l

/-- `Document::to_string_with_opt` (document.rs:99-101), with the writer for values `W`. -/
def St.toText (s : St) (W : ValueWriter) (o : XmlOptions) : Except Err Str := do
  let evs ← s.writeDom W
  pure (render o {} evs)

end Svgdom
