import Verif.Model.Writer

/-!
# `Display` and `Debug` of names, attributes and nodes

`Display` of a value is `write_buf_opt` with the default options of `svgtypes` (attribute_value.rs:314-318); the writer of
`svgtypes` is a parameter as in `Model/Writer.lean`. `Debug` and `Display` of a `tree::Node` are those of its data (tree.rs:52-62).
-/

namespace Svgdom

/-- name.rs:51-60 `Display for QName<AttributeId>`. -/
def displayAName : AName → Except Err Str
  | .id a =>
    if a = .Href then .ok st!"xlink:href"
    else if a = .Space then .ok st!"xml:space"
    else a.asStr?
  | .name x => .ok x

/-- name.rs:62-69 `Display for QName<ElementId>`. -/
def displayTagName : TagName → Except Err Str
  | .id e => e.asStr?
  | .name x => .ok x

namespace St

/-- attribute.rs:91-95 `Display for Attribute`. -/
def displayAttribute (s : St) (W : ValueWriter) (a : Attribute) : Except Err Str := do
  let x ← displayAName a.name
  pure (x ++ st!"='" ++ s.writeValue W a.value ++ ['\''])

/-- attributes.rs:225-228: the loop over the attributes; `out` is the buffer. -/
def displayLoop (s : St) (W : ValueWriter) : List Attribute → Str → Except Err Str
  | [], out => .ok out
  | a :: l, out => do
    let t ← s.displayAttribute W a
    s.displayLoop W l (out ++ t ++ [' '])

/-- attributes.rs:215-233 `Display for Attributes`. -/
def displayAttributes (s : St) (W : ValueWriter) (l : List Attribute) : Except Err Str :=
  if l.isEmpty then .ok []
  else do
    let out ← s.displayLoop W l []
    pure out.dropLast

/-- attributes.rs:209-213 `Debug for Attributes`. -/
def debugAttributes (s : St) (W : ValueWriter) (l : List Attribute) : Except Err Str := do
  let t ← s.displayAttributes W l
  pure (st!"Attributes(" ++ t ++ [')'])

/-- writer.rs:286-308 `write_element_content`. -/
def elementContent (s : St) (W : ValueWriter) (n : NodeId) (spaceBefore printLinked : Bool) : Except Err Str := do
  let id := if (s.idOf n).isEmpty then [] else st!" id='" ++ s.idOf n ++ ['\'']
  let attrs ← if (s.attributes n).isEmpty then pure []
    else do
      let t ← s.displayAttributes W (s.attributes n)
      pure ((if spaceBefore then [' '] else []) ++ t)
  let linked := if printLinked && !(s.linkedNodes n).isEmpty then
      st!"; linked-nodes:" ++ (s.linkedNodes n).flatMap fun m => st!" '" ++ s.idOf m ++ ['\'']
    else []
  pure (id ++ attrs ++ linked)

/-- writer.rs:269-282 `Display for NodeData`. -/
def displayNode (s : St) (W : ValueWriter) (n : NodeId) : Except Err Str :=
  match s.nodeType n with
  | .root => .ok []
  | .element => do
    let tag ← displayTagName (s.tagName n)
    let c ← s.elementContent W n true false
    pure ('<' :: tag ++ c ++ ['>'])
  | .comment => .ok (st!"<!--" ++ s.text n ++ st!"-->")
  | .text => .ok (s.text n)

/-- writer.rs:254-267 `Debug for NodeData`. -/
def debugNode (s : St) (W : ValueWriter) (n : NodeId) : Except Err Str :=
  match s.nodeType n with
  | .root => .ok st!"Root()"
  | .element => do
    let tag ← displayTagName (s.tagName n)
    let c ← s.elementContent W n true true
    pure (st!"Element(" ++ tag ++ c ++ [')'])
  | .comment => .ok (st!"Comment(" ++ s.text n ++ [')'])
  | .text => .ok (st!"Text(" ++ s.text n ++ [')'])

end St

end Svgdom
