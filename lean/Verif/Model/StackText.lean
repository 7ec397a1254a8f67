import Verif.Model.Stack

/-!
# Text processing and the whole parser with a bounded stack
-/

set_option autoImplicit false

namespace Svgdom

/-- parser/text.rs:251-259 `collect_text` for the children in the list, with room for `d` nested calls. -/
def St.collectTextS (s : St) : Nat → Nat → Nat → List NodeId → Except (Limited Err) (List (NodeId × Nat))
  | _, _, _, [] => .ok []
  | _, 0, _, _ :: _ => .error (.err .diverge)
  | d, k + 1, depth, c :: cs => do
    let own ← if s.isText c then pure [(c, depth)]
      else if s.isElement c then do
        let kids ← step (s.childList c)
        nested d fun d => s.collectTextS d k (depth + 1) kids
      else pure []
    let rest ← s.collectTextS d k depth cs
    pure (own ++ rest)

/-- parser/text.rs:93-249 `prepare_text_children`, with room for `d` further calls (of `collect_text`). -/
def St.prepareTextChildrenS (d : Nat) (s : St) (marked : List NodeId) (n : NodeId) (space : XmlSpace) :
    Except (Limited Err) (St × List NodeId) := do
  let ds ← step (s.descendantList n)
  let (s, marked) ← step (s.trimNodes marked space ds)
  let kids ← step (s.childList n)
  let nodes ← nested d fun d => s.collectTextS d s.fuel 0 kids
  match nodes with
  | [] => pure (s, marked)
  | [(t, _)] =>
    if space = .default then do
      let s ← step (s.processSingle t)
      pure (s, marked)
    else pure (s, marked)
  | _ => step (St.processPairs space s marked true none nodes)

/-- parser/text.rs:52-65 `_prepare_text` for the children in the list, with room for `d` nested calls (of `_prepare_text` or
`collect_text`). -/
def St.prepareTextAuxS : Nat → Nat → St → List NodeId → XmlSpace → List NodeId → Except (Limited Err) (St × List NodeId)
  | _, _, s, marked, _, [] => .ok (s, marked)
  | _, 0, _, _, _, _ :: _ => .error (.err .diverge)
  | d, k + 1, s, marked, space, n :: ns => do
    let (s, marked) ←
      if s.isElement n then do
        let (s, marked, sp) ← step (s.getXmlspace marked n space)
        if (s.firstChild n).any s.isText then s.prepareTextChildrenS d marked n sp
        else do
          let kids ← step (s.childList n)
          nested d fun d => St.prepareTextAuxS d k s marked sp kids
      else pure (s, marked)
    St.prepareTextAuxS d k s marked space ns

/-- parser/text.rs:37-50 `prepare_text`. -/
def St.prepareTextS (d : Nat) (s : St) : Except (Limited Err) St := do
  let kids ← step (s.childList s.rootId)
  let (s, marked) ← nested d fun d => St.prepareTextAuxS d s.fuel s [] .default kids
  let s ← step (s.removeSpaces marked)
  let (s, _) ← s.drainS d s.rootId fun s n => s.isText n && (s.text n).isEmpty
  pure s

/-- A call of which the failures become those of the parser. (parser/mod.rs:46-76 (calls without `?`).) -/
def orFailS {α : Type} : Except (Limited Err) α → Except (Limited ParseErr) α
  | .ok a => .ok a
  | .error .overflow => .error .overflow
  | .error (.err e) => step (okOrFail (.error e))

/-- parser/mod.rs:46-75 `parse_svg`, from the XML tree, with room for `d` nested calls of the recursive functions. -/
def parseSvgS (L : Lib) (debug : Bool) (d : Nat) (x : Xml) : Except (Limited ParseErr) St := do
  let init := St.init debug
  let p ← processNodesS L (L.sheet (cssTexts x)) d .root [] init.rootId x ⟨init, []⟩
  match ← step (okOrFail p.dom.svgElement) with
  | none => .error (.err .noSvgElement)
  | some _ => do
    let (s, _) ← orFailS (p.dom.drainS d p.dom.rootId fun s n => s.hasTagName n (.id .Style))
    let s ← step (okOrFail (resolveLinks s p.links))
    orFailS (s.prepareTextS d)

end Svgdom
