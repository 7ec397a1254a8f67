import Verif.Model.Document

/-!
# writer.rs and the serialisation of values (attribute_value.rs:240-311)

`xmlwriter::XmlWriter` is not modelled: the writer's result is the sequence of calls it receives. Buffers are `Str` instead of
UTF-8 bytes. How `svgtypes` writes its own values is a parameter.
-/

namespace Svgdom

/-- `WriteBuffer` implementations of `svgtypes` for fixed `ValueWriteOptions`. (attribute_value.rs:239-312.) -/
structure ValueWriter where
  number : F64 → Str
  numberList : List F64 → Str
  length : Length → Str
  lengthList : List Length → Str
  angle : Blob → Str
  transform : Blob → Str
  path : List Blob → Str
  points : Blob → Str
  color : Color → Str
  viewBox : Blob → Str
  aspectRatio : Blob → Str

/-- attribute_value.rs:294-298: the fallback after a paint reference. -/
def writeFallback (W : ValueWriter) : PaintFallback → Str
  | .none => st!"none"
  | .currentColor => st!"currentColor"
  | .color c => W.color c

/-- attribute_value.rs:240-311 `write_buf_opt`. -/
def St.writeValue (s : St) (W : ValueWriter) : AttributeValue → Str
  | .none => st!"none"
  | .inherit => st!"inherit"
  | .currentColor => st!"currentColor"
  | .string t => t
  | .number x => W.number x
  | .numberList l => W.numberList l
  | .length l => W.length l
  | .lengthList l => W.lengthList l
  | .angle b => W.angle b
  | .transform b => W.transform b
  | .path l => W.path l
  | .points b => W.points b
  | .link n => '#' :: s.idOf n
  | .funcLink n => st!"url(#" ++ s.idOf n ++ [')']
  | .paint n fallback =>
    st!"url(#" ++ s.idOf n ++ [')'] ++
      match fallback with
      | some f => ' ' :: writeFallback W f
      | none => []
  | .color c => W.color c
  | .viewBox b => W.viewBox b
  | .aspectRatio b => W.aspectRatio b

/-- One lowercase hexadecimal digit. (writer.rs:247.) -/
def hexDigit (n : Nat) : Char :=
  if n < 10 then Char.ofNat (48 + n) else Char.ofNat (87 + n)

/-- `{:x}`: lowercase hexadecimal without leading zeros; the first argument bounds the number of further digits. (writer.rs:247.) -/
def hexAux : Nat → Nat → Str → Str
  | 0, n, acc => hexDigit (n % 16) :: acc
  | k + 1, n, acc => if n < 16 then hexDigit n :: acc else hexAux k (n / 16) (hexDigit (n % 16) :: acc)

/-- `{:x}` of a `u32` (at most 8 digits). (writer.rs:247.) -/
def hexStr (n : Nat) : Str := hexAux 7 n []

/-- writer.rs:239-251 `write_escaped`. -/
def writeEscaped (t : Str) : Str :=
  if st!"&#".isPrefixOf t then t
  else t.flatMap fun c => st!"&#x" ++ hexStr c.toNat ++ [';']

/-- Calls to `XmlWriter`. (writer.rs:135-237.) -/
inductive Ev where
  | startElement (name : Str)
  | attribute (name value : Str)
  | attributeRaw (name value : Str)
  | endElement
  | comment (t : Str)
  | text (t : Str)
  | preserve (on : Bool)
deriving DecidableEq

/-- Insert after all keys that are not greater (one step of a stable sort). (writer.rs:209.) -/
def insertByKey (a : AttributeId × Attribute) : List (AttributeId × Attribute) → List (AttributeId × Attribute)
  | [] => [a]
  | b :: l => if a.1.toNat ≤ b.1.toNat then a :: b :: l else b :: insertByKey a l

/-- `sort_by_key(|&(x, _)| x as usize)` (stable). (writer.rs:209.) -/
def sortByKey : List (AttributeId × Attribute) → List (AttributeId × Attribute)
  | [] => []
  | a :: l => insertByKey a (sortByKey l)

namespace St

/-- writer.rs:212-216: the name under which an SVG attribute is written. -/
def writtenName (aid : AttributeId) : Except Err Str :=
  if aid = .Href then .ok st!"xlink:href"
  else if aid = .Space then .ok st!"xml:space"
  else aid.asStr?

/-- writer.rs:210-228: one SVG attribute. -/
def writeSvgAttribute (s : St) (W : ValueWriter) (n : NodeId) (aid : AttributeId) (name : AName) : Except Err (List Ev) :=
  match attrsGet (s.attributes n) name with
  | none => .error (.panic .unwrap)
  | some a => do
    let nm ← writtenName aid
    if aid = .Unicode then
      match a.value with
      | .string t => pure [.attributeRaw nm (writeEscaped t)]
      | _ => pure []
    else pure [.attributeRaw nm (s.writeValue W a.value)]

/-- writer.rs:210-229: the loop over the sorted SVG attributes. -/
def writeSvgAttributes (s : St) (W : ValueWriter) (n : NodeId) : List (AttributeId × Attribute) → Except Err (List Ev)
  | [] => .ok []
  | (aid, a) :: l => do
    let e ← s.writeSvgAttribute W n aid a.name
    let es ← s.writeSvgAttributes W n l
    pure (e ++ es)

/-- writer.rs:232-236: the loop over non-SVG attributes. -/
def writeOtherAttributes (s : St) (W : ValueWriter) (l : List Attribute) : List Ev :=
  l.filterMap fun a => match a.name with
    | .name x => some (.attributeRaw x (s.writeValue W a.value))
    | .id _ => none

/-- writer.rs:188-197: namespace declarations. -/
def writeNamespaces (s : St) (n : NodeId) : Except Err (List Ev) :=
  if s.hasTagName n (.id .Svg) then
    if (s.parent n).map s.isRoot = some true then do
      let ds ← s.descendantList n
      pure (.attribute st!"xmlns" st!"http://www.w3.org/2000/svg" ::
        if ds.any fun m => s.hasAttribute m (.id .Href) then
          [.attribute st!"xmlns:xlink" st!"http://www.w3.org/1999/xlink"] else [])
    else pure []
  else pure []

/-- writer.rs:182-237 `write_attributes`. -/
def writeAttributes (s : St) (W : ValueWriter) (n : NodeId) : Except Err (List Ev) := do
  let ns ← s.writeNamespaces n
  let id := if s.hasIdAttr n then [Ev.attribute st!"id" (s.idOf n)] else []
  let svg ← s.writeSvgAttributes W n (sortByKey (attrsSvg (s.attributes n)))
  pure (ns ++ id ++ svg ++ s.writeOtherAttributes W (s.attributes n))

/-- writer.rs:138-162: `NodeEdge::Start`. -/
def writeStart (s : St) (W : ValueWriter) (n : NodeId) : Except Err (List Ev) :=
  match s.nodeType n with
  | .root => .ok []
  | .element => do
    let name ← match s.tagName n with
      | .id e => e.asStr?
      | .name x => pure x
    let attrs ← s.writeAttributes W n
    pure (.startElement name :: attrs ++ if s.hasTagName n (.id .Text) then [.preserve true] else [])
  | .comment => .ok [.comment (s.text n)]
  | .text => .ok [.text (s.text n)]

/-- writer.rs:163-171: `NodeEdge::End`. -/
def writeEnd (s : St) (n : NodeId) : List Ev :=
  (if s.isElement n then [.endElement] else []) ++ if s.hasTagName n (.id .Text) then [.preserve false] else []

/-- writer.rs:136-173: the loop over the edges. -/
def writeEdges (s : St) (W : ValueWriter) : List Edge → Except Err (List Ev)
  | [] => .ok []
  | .start n :: es => do
    let e ← s.writeStart W n
    let rest ← s.writeEdges W es
    pure (e ++ rest)
  | .stop n :: es => do
    let rest ← s.writeEdges W es
    pure (s.writeEnd n ++ rest)

/-- writer.rs:128-174 `write_dom`. -/
def writeDom (s : St) (W : ValueWriter) : Except Err (List Ev) := do
  let es ← s.edgeList s.rootId
  s.writeEdges W es

end St

end Svgdom
