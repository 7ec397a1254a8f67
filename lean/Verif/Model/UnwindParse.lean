import Verif.Model.Text

/-!
# The parser with the document at the moment it gives up

`Model/Parser.lean` drops the document when `process_node` returns an error. Here it is kept: `false` stands for the result
`Err(ParserError::NoSvgElement)`. The only other way out is a panic, which C44 excludes.
-/

set_option autoImplicit false

namespace Svgdom

/-- parser/mod.rs:166-176: the check at the end of `process_node`; `false`: the error is returned. -/
def checkFirstU (s : St) (parent : NodeId) : Except Err Bool :=
  if s.isRoot parent then do
    let cs ← s.childList s.rootId
    match cs.filterMap s.tagId with
    | id :: _ => if id ≠ .Svg then .ok false else .ok true
    | [] => .ok true
  else .ok true

/-- parser/mod.rs:77-179 `process_node` on a node and its following siblings, as `processNodes`; every `?` that meets the error
returns at once. -/
def processNodesU (L : Lib) (sheet : List Rule) (pos : XmlPos) (prev : List (Option XmlElem)) (parent : NodeId) :
    Xml → PSt → Except Err (PSt × Bool)
  | .nil, p => .ok (p, true)
  | .element ns name attrs kids rest, p => do
    let e : XmlElem := ⟨ns, name, attrs⟩
    let (p, b) ←
      if ns ≠ some svgNs then pure (p, true)
      else do
        match ← ElementId.fromStr? name with
        | none => pure (p, true)
        | some eid => do
          let (p, n) ← parseElement L sheet p (.elem pos prev e) eid attrs
          let s ← p.dom.append parent n
          let (p, b) ← processNodesU L sheet (.elem pos prev e) [] n kids { p with dom := s }
          if b then do
            let c ← checkFirstU p.dom parent
            pure (p, c)
          else pure (p, false)
    if b then processNodesU L sheet pos (some e :: prev) parent rest p else pure (p, false)
  | .text t rest, p => do
    let p ← processText p parent t
    if ← checkFirstU p.dom parent then processNodesU L sheet pos (none :: prev) parent rest p else pure (p, false)
  | .comment t rest, p => do
    let p ← appendNew p parent .comment t
    if ← checkFirstU p.dom parent then processNodesU L sheet pos (none :: prev) parent rest p else pure (p, false)
  | .pi rest, p => do
    if ← checkFirstU p.dom parent then processNodesU L sheet pos (none :: prev) parent rest p else pure (p, false)

/-- parser/mod.rs:46-75 `parse_svg`: the document when it returns, and whether it returns it. -/
def parseSvgU (L : Lib) (debug : Bool) (x : Xml) : Except Err (St × Bool) := do
  let init := St.init debug
  let (p, b) ← processNodesU L (L.sheet (cssTexts x)) .root [] init.rootId x ⟨init, []⟩
  if b then do
    match ← p.dom.svgElement with
    | none => pure (p.dom, false)
    | some _ => do
      let (s, _) ← p.dom.drain p.dom.rootId fun s n => s.hasTagName n (.id .Style)
      let s ← resolveLinks s p.links
      let s ← s.prepareText
      pure (s, true)
  else pure (p.dom, false)

end Svgdom
